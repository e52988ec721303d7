# Formal model of edeforas/CADTest in Lean 4

Source: `/repo/src` (C++, read as text, never built or run here). Properties:
`properties.jsonl`. Status and theorem names per property: `MANIFEST.json`.
Axioms per theorem: `AXIOMS.md`. Mutation log: `seeded/LOG.jsonl`.

## Layout

* `lean/Verif/Model/` – the code, function by function. Every definition cites
  file and lines of `/repo` and says where it simplifies.
* `lean/Verif/Spec/` – small vocabulary for statements that does not use the
  code: abstract meshes (`AMesh`), triangle soups, closedness, point sets
  (`InTriangle`, `OnSegment`, …), B-spline basis functions, rational curves and
  surfaces.
* `lean/Verif/Lemmas/` – helper facts. Not claims.
* `lean/Verif/Props/` – one file per topic with the claims and, beside each
  theorem, concrete cases that meet its hypotheses. Doc comments name the
  property (`C..`). A theorem that covers only part of a property ends in
  `_partial` and says what is missing. "(disagreement)" marks a theorem that
  proves the code does *not* have the property.
* `lean/Verif/Examples/` – more concrete cases, one file per area; the doc comment
  of each names the theorems it is a case of. A theorem has its case either after
  it in `Props/` or here.

## Conventions of the model

* `double` is exact arithmetic: a linearly ordered field `K` (executable over
  `ℚ`) where only `+ - * / <` occur, `ℝ` where `sqrt`, `sin`, `cos` occur. Where
  only √2 or √5 is needed the field has a parameter `r2` with `r2*r2 = 2`, `0 < r2`
  (resp. φ). Rounding, infinities and overflow of doubles are not modelled, except in
  `Model/Rounded`, `Model/MeasureRounded`, `Model/NurbsRounded` and `Model/RenderRounded` (below).
* NaN, division by zero whose result matters, failed `assert`, index out of
  range, read of an uninitialised variable that matters, signed overflow of `int`
  (where sizes can reach it: images, STL, renderer) are the outcome `none` of `Res`
  (= `Option`). Functions that cannot meet any of these are plain functions.
* asserts are taken as active (debug build). In a release build a failed assert is
  the undefined behaviour that follows it; the model does not distinguish.
* Uninitialised values that are read but do not matter are explicit `junk`
  parameters and theorems hold for all of them.
* `std::vector` is a `List`; a mutating method returns the new object; `for` loops
  are `loopN` (a monadic fold) or, when the bound is re-read from a growing object,
  `loopFuel` with a theorem for every fuel; virtual calls and callbacks are
  function parameters. `const T&` arguments that may alias `*this` have a separate
  definition (`assignSelf`, `addMeshSelf`, tessellate into itself, …).
* `int` is `Int` without overflow except in the modules listed above. `size_t`
  products in `Image::resize` are assumed not to wrap.
* File formats: bytes (`UInt8`-like `Nat` below 256) with a stream model that
  mirrors `fread`/`ifstream`/`istringstream` failure; opening a file succeeds and
  disks do not fill. `float` conversion is IEEE binary32 round to nearest even
  (`Model/Float32`, without −0 and NaN); `%g`/`operator<<` is the six significant
  digit form of `Model/Decimal`.

## What is modelled

| code | module | not modelled there |
|------|--------|--------------------|
| Geometry.cpp/h | Geometry, PointOps (in-place operators on a store of points, `Line3`) | – |
| Transform.cpp | Transform | – |
| MeshKernel{LinkedTriangles,TIN,HalfEdge}.cpp | Kernel | – |
| Mesh.cpp | Mesh, Boolean (`split_triangle`) | `split_edge` neighbour search is as in the code, which never finds neighbours |
| MeshMeasurements.cpp | Measure | – |
| GeometryUtil.cpp, Color.h | PointOps | the random generator is an arbitrary function of the seed |
| MeshTessellate.cpp | Tessellate | – |
| MeshUtil.cpp | MeshUtil | – |
| MeshFactory.cpp | Factory | – |
| MeshBoolean.cpp | Boolean | outputs aliasing each other or the inputs |
| Face.cpp, Solid.cpp | Solid | reallocation of the face vector |
| BezierUtil, QuadBezierTriangle, CubicBezierTriangles, SmoothMesh, SmoothMeshFactory | Bezier | – |
| NurbsCurve.cpp | Nurbs | – |
| NurbsSurface, NurbsExtrude, NurbsRuled, NurbsRevolve | NurbsSurface | – |
| NurbsFactory, NurbsSolid, NurbsUtil | NurbsFactory | – |
| Image.h, ImageIoBmp, ImageUtil, ImageGenerator | Image, Bytes, Mandelbrot | float rounding in `Mandelbrot` is an arbitrary function (C93) or has bounded errors (C114); infinities and NaN |
| STLFile.cpp | Stl, Float32, Bytes | reading ASCII STL (the code has none) |
| OBJFile.cpp | Obj, Decimal | locale |
| StepFile.cpp | Step | file names |
| Renderer, RendererCamera, RendererLight | Renderer | – |

`Model/Rounded` repeats `create_sphere_geodesic` and what it calls with a rounding `fl` after
each `+ - * /`, `sqrt` and inexact constant. The control flow is shared with the exact model
through `Tessellate.computeBy`, `MeshUtil.mergeVerticesBy` and `Factory.icosahedronWith`.
Assumed of `fl`: `|fl x - x| ≤ u|x| + η` for `|x| ≤ Ω` (`Rounds`), proved of `double`, IEEE
binary64 to nearest-even. `Model/RenderRounded` repeats the drawing functions of the renderer
with a rounding `d` after each operation in `double` and `f` after each one in `float`; assumed
of them (`Arith.OK`): monotone, exact on 0 and 1, small relative error up to `2⁴⁰`; proved of
IEEE binary64 and binary32 (`machine_ok`). Colours are computed in `Model/LightRounded`. `Model/CubicRounded` repeats `BezierUtil` and `CubicBezierTriangles::set_normals`, `Model/ImageRounded` repeats `ImageUtil::scale`. `Model/MeasureRounded` repeats
`volume`, `surface` and `is_oriented_outside` with `fl`, over the same loop `Measure.foldLinked`.
`Model/NurbsRounded` gives the loops of `NurbsCurve::evaluate` and `NurbsSurface::evaluate`
(`evaluateBy`, shared with the exact model) rounded operations, and so the loops of `to_mesh`
(`toMeshBy`) and `to_polyline` (`toPolylineBy`). `Model/TransformRounded` repeats the
transforms with `fl`; the library's `cos` and `sin` are arbitrary functions with an error of at most
`2⁻⁵²` (`LibTrig`). `Model/FactoryRounded` repeats the solids of MeshFactory with `fl` and such
`cos` and `sin`; `Model/FilesDouble` gives the numbers of STL and OBJ files as functions on such doubles;
`Model/GeometryRounded` the planes, triangles and intersection tests of
Geometry.cpp; `Model/NurbsFactoryRounded` the NURBS shapes of NurbsFactory and NurbsRevolve;
`Model/BezierRounded` the evaluation and meshing of Bézier patches. Not covered: fused multiply-add, extended precision, infinities; the
conversion `int` to `double` is exact.

Not modelled at all: `GeometryNurbs.cpp` and `Surface.cpp` (empty), the tests and the python
scripts.

## Trusted base

* Lean 4.33.0 kernel, Mathlib as installed (checked by the same kernel).
* Axioms `propext`, `Classical.choice`, `Quot.sound` and nothing else; the list per
  theorem is `AXIOMS.md` (made with `#print axioms`). No `sorry`, no `native_decide`, no
  `bv_decide`, no added axiom. Concrete cases use `decide +kernel` (kernel
  evaluation).
* The definitions in `Verif/Model` say what the cited C++ lines do, with the
  simplifications listed above. Nothing checks this mechanically.
* The statements: `Verif/Spec` and the definitions at the head of each `Props`
  file.

## Where the code disagrees with the property

Each item is a theorem; names are in `MANIFEST.json`.

Meshes
* `m = m` empties the mesh, `m.add_mesh(m)` never returns; the same for smooth
  meshes; tessellating into the source empties it (C05, C06, C18, C75).
* the half-edge kernel stores nothing, the TIN kernel has no neighbours (C04).
* `split_edge_with_vertex`: the `rotate` macro loses a corner and the second
  triangle is reversed (C10).
* no method sets neighbours: `is_closed` is true only of meshes without linked
  triangles, `is_clean` of no real mesh (C15).
* `has_no_self_intersections`, `has_no_isolated_vertices`, `has_no_duplicated_vertices` and
  `has_no_short_edges` always answer yes; `is_oriented_outside` of an open mesh depends on where
  it is (C106).
* a mesh loaded from STL has no shared edges until its vertices are merged (C104).
* `merge_vertices` can send coincident vertices to different places (C74).
* cylinder caps run one step too far (C24); UV spheres and tori with n = 0 repeat
  an edge (C25, C26).
* `MeshBoolean`: an assert fails for some disjoint triangles, a triangle split twice
  is duplicated, the gap of `contains` makes the surface grow, unlinked triangles
  shift the ids, crossing triangles in general position are not split (C72).
* `Face` and `Solid` assignment does nothing; a copied solid has no faces (C73).

Geometry
* `Triangle3::contains` accepts the whole line through corners 2 and 3 (C32), hence
  C33, C34; `Segment3::intersect` accepts skew lines and ignores the extent of the
  second segment (C35).
* the line of two planes is never written, and planes at a small angle count as parallel (C107);
* numbers that need an exponent are written like `6e-17` in STEP files, which ISO 10303-21 does not
  allow (it wants a point and a capital `E`); whole numbers become INTEGERs where REALs are wanted; the header has
  no FILE_DESCRIPTION and no FILE_NAME; opening a second file while one is open leaves the first without end (C110).
* `RotationEulerAngles` is a reflection (C39).

Bézier and NURBS
* Bézier meshing leaves holes (n²−4n+6 triangles) and reverses the orientation
  (C42), so meshed smooth solids are inside out, and incomplete for n ≥ 2 (C92); the
  smooth sphere is not a sphere and half of it is inside out (C76).
* unclamped knots make `find_knot_span` leave its range (C43); more than degree+1 end
  knots drop the first point (C45); inserting a knot outside [0,1] moves the curve
  (C48); `degree_elevation` breaks degree 0, double knots at degree 1, triple at 2
  (C49); an inner knot repeated degree+1 times makes the curve jump (C102).
* `to_polyline` in double adds up its steps and compares with 1: for 2 control points, and
  many other numbers, the sum exceeds 1 and the end point is missing (C79).
* in double the faces of the NURBS box do not join exactly where they run along an edge in
  opposite directions (`box_cracks_double`); `merge_vertices` repairs it (C120).
* ruled surfaces ignore the knots of the second curve (C52); extrude and ruled keep
  the old closed-in-v flag (C53); a surface without rows divides by zero in `to_mesh`
  (C56); `create_from_z` scrambles tables that are not square (C57);
  `create_from_mesh` revives unlinked triangles (C80).
  Curves shorter than the tolerance of `is_closed` count as closed, so the mesh of a box
  with a side below 1e-6, and a small triangle sent through a NURBS solid, get holes (C90, C91).

Images and files
* image offsets overflow above 2³¹ bytes (C58); 24-bit BMP reading takes every row
  from the bottom one, 8-bit padding differs between reader and writer (C60), plane
  counts 0, 2, >4 give a wrong size field (C61), truncated files are reported as read
  (C59).
* STL: a declared count above 2³¹/3 overflows (C63). OBJ: six digits (C64), writer not
  reset, polylines 0-based and unterminated (C65), negative or forward references and
  slashes fail, a fourth corner is dropped (C95), red out of range when the colour has opacity
  bits (C96). STEP: double knots listed twice
  (C67), missing points give dangling references (C66), nets are listed over v first although the
  standard wants u first, so nets that are not square break its size rules and square ones are
  read transposed (C99).
* `scale` does not saturate (C83, C140), `to_double` is transposed and out of bounds (C85).
* `Mandelbrot` overflows for more than 32640 or less than 0 iterations and takes the tip −2
  of the set for an escaping point (C93).

Renderer
* weights exchanged at the left border (C70), last row never painted (C88, C97), corners left of or above
  the screen misplace pixels (C97), the second end of a line is not drawn (C98),
  truncation towards column/row 0 (C87), `draw_pixel` compares a double with the
  stored float and `draw_line` overwrites nearer cells (C69), lines behind the eye
  are drawn and triangles partly behind it mirrored (C89), z = 0 and projections
  above 2³¹ undefined, screens of size zero assert (C68), degenerate triangles with
  diffuse light and negative lights undefined, white light of factor 1 darkens
  channels above 128 by one (C71).

## Proof ideas

| ids | idea |
|-----|------|
| C01-C04 | refinement to `AMesh`, induction over call histories; bisimulation of kernels |
| C05-C11, C19-C21, C74 | closed form of each method as list operations (`pushPts`, `pushTris`, `unl`), then list reasoning |
| C12-C17 | sums over the soup; edge cancellation; Lagrange identity |
| C22-C27 | explicit index lists; pairing of directed edges by cyclic reindexing |
| C28-C39 | ordered field algebra, barycentric coordinates |
| C40-C42, C75-C77 | ring identities, counting |
| C43-C49 | de Boor = B-spline basis (Cox–de Boor) by induction; blossoms for knot insertion; explicit elevation identities |
| C100-C102 | basis functions are positive inside their support; those of neighbouring spans agree at a knot repeated at most degree times; finite union of closed pieces |
| C103 | volume and area cell by cell; a row of cells telescopes to a difference of cosines; n·sin(c/n) → c |
| C104 | with one vertex per position, closedness by ids = closedness by points; merging maps equal positions to the first of them |
| C105-C107 | unfolding; sign of the volume; a point of both planes from the cross product of the normals |
| C108 | the barycentric weights of a grid point are Lipschitz functions of its projection on the sphere, so points of different weights stay further apart than the merge tolerance; edges and vertices are counted by the weights |
| C50-C57, C78-C81 | tensor product, homogeneous coordinates, rational quarter arcs |
| C90, C91 | a soup is closed iff every antisymmetric weight of directed edges sums to zero; telescoping over the sampling grid leaves the four sides of a patch |
| C58-C65, C82-C86 | printer/parser lemmas on byte and token lists; loop invariants |
| C66, C67, C99 | counter invariant of the emitter |
| C68-C71, C87-C89, C97, C98 | each drawing = a list of fragments put with a depth test; order independence of puts |
| C72 | invariant "triangles of A still readable and covered"; cone of a point over a triangle's border covers it |
| C73 | unfolding; copies through the closed form of mesh assignment |
| C109 | the Euler rotation matrix is orthogonal with determinant 1; its rows are the picture axes and the view direction |
| C110 | a lexer as an automaton over characters: texts read completely (`R0`) or up to a delimiter (`R1`) compose; the entity records are read by a stack machine; outside strings a small letter always stops the lexer |
| C111 | `merge_vertices` depends on the coordinates only through the answers of its comparison |
| C112 | running error bounds for each operation; squared distances of equal grid points are rounded below `0.0026ρ²`, of different ones above `0.0029ρ²`, with `ρ = r/n`; then as C111 with C108 |
| C113 | interpolation is monotone in rounded arithmetic, so assertions between sides hold exactly; errors of at most 1/64 column per interpolation do not change which integer columns are met; the middle row is recomputed exactly |
| C114 | the point of a pixel is off by at most 70 units u, each round adds 140 u to what squaring makes of the error so far (`ErrorBound`); the size test is right when the orbit is 8 u away from the circle; hence the level is the exact escape time whenever the orbit keeps the margin |
| C115 | each operation is off by two units of a bound on its exact value (norms enlarged by a length `h` that covers underflow); the root of a sum of squares is stable also near zero (`root_near`); sums from left to right by induction from the end |
| C116 | the loops compute a triangle of blends (`levBy`) whatever the arithmetic; a rounded blend adds at most 21 u M to the error (`EvalOK.blend`), so level r of the triangle is within 21 r u M; the quotient of two values with known relative errors (`EvalOK.quotient`) |
| C117 | at the ends every quotient of the triangle is exactly 0 or 1 (a difference of different doubles does not round to 0), and a blend with 0 or 1 returns one operand exactly because results of roundings are kept; the other direction is the same triangle on the same numbers |
| C118 | in one span the triangle of blends is a Lipschitz function of its quotients (`levels_lip`), centred at the middle of the control points; a continuous function with a local bound to the right of every point is Lipschitz (`lipschitz_of_right`); every parameter lies in one of the two triangles of a cell (`lower_near`, `upper_near`) |
| C79 (double) | the sums of the steps are within 3·2⁻⁵³ of i/(10n) each, so only the last comparison is open; for 2 points the sums are computed by `double_nat` on integers |
| C119 | the loops of `to_mesh` are shared with the exact model (`toMeshBy_eq`), so the triangles are equal; a vertex moves by the error of evaluation (C116) plus the Lipschitz bound (C118) times the error 2u of the parameter |
| C120 | C119 bounds the errors, C111 says the same vertices are merged, C104 that exact merging welds; on the box all samples lie on a grid, so different ones are a step apart |
| C121 | each triangle lies in a plane `n·p = d` that all vertices are behind (`convex_of_planes`); for the sphere and cylinder the normal points to the middle of the cell and the cosine of a grid angle is at most that of half a step (`cos_lon_le`) |
| C122 | inside: the plane of each triangle is at least `r − ε` from the centre (C121) and balls are convex; covering: a point with angles (u, v) is moved to the cell that contains the angles, whose corners give a convex combination in the same direction (`exists_chord`, `quad_cover`); for the geodesic sphere the face of the icosahedron with the nearest normal has the direction in its cone (`cone_cover`) |
| C123 | running error bounds in units `u·s` (`Appr`, Lemmas/Appr) through each product and sum; every partial sum that is a coordinate of a turned point is at most `‖p‖`; turns are isometries, so errors of single rotations only add up (`iterate_near`) |
| C124 | vertices by running error bounds (`Appr`), triangles because the calls on the mesh are the same ones (`Sim`, `Close`), closedness carries over as it speaks of vertex numbers only |
| C125 | volume and area of the exact mesh (`sphere_uv_volume` and the like) against the formula by `1 - x²/2 ≤ cos x`; moving the vertices (`measures_near`) by the edge lengths; rounding in the sums by C115 |
| C126 | running error bounds at the scales s, s², s⁴; the normal is off by 140 u/κ; the quotient of two distances has an error of 2.4 E/H (`quotient_cases`); `contains` moves by 48 A³δ with the point (`contains_move`); exact truth from C32–C34 with the false positives excluded by the margin |
| C127 | a point whose coordinates move by a fraction ε moves by ε of its norm (`moved_norm`); determinants and areas by that (`measures_moved`), then rounding in the sums by C115 |
| C128 | the rounded squared distance is within `7·2⁻⁵³` of the exact one (`distSq_double`); the result of merging in terms of the comparison only (`merge_by_spec`); welding by C111 and C104 |
| C129 | running error bounds for `interpolate`, the same loops as in the exact model; points of the tessellation are on the grid of step h/n, so different ones are that far apart (`tess_grid`, `grid_apart`) |
| C130 | a change of control points by δ and of weights by a factor ε moves points of a rational curve by at most δ + 3εR (`mean_stable`, `curve_off`, `surface_off`); with the rounding of the evaluation (C116) that gives the bounds. Knots and unit weights are exact in double; `sqrt(2)` is taken as correctly rounded |
| C131 | C130 for the data and the evaluation, `surface_lipschitz` for the rounding of the parameters; `open_double`, `closed_double` for the flag `closed_v`; then C90 for the exact mesh and `measured_double` for volume and surface |
| C132 | `arc_gap`, `dir_gap`: the rational circle moves at least four times as fast as its parameter; `turned_gap` for points on circles about the axis; then C131 and `weld_double` (C128) |
| C133 | `through_point` (C127) for the file, `fresh_vertex` for the three vertices per triangle of STL, `weld_near` (C128); `toMeshSolid_allDouble`: the meshed vertices are `double` numbers; then `reload_shape` with the gaps of C132 |
| C134 | `ang`: the angle of a direction of the rational turn, growing at most `4 π` times as fast as the parameter (`ang_step`); `turned_volume`: six times the volume under a turned surface is the sum of `sin` of the steps times a sum over the profile; `sum_sin`, `sum_profile`, `sum_circle` bound these; in `double` with C131 |
| C135 | `strip_area`: a triangle between two circles has the area `ρ s l` up to the cosine of half the step; `turned_surface`: bounds by a factor for the turn and one for the profile; `sum_sin_half`, `sum_profile_half`, `sum_circle_half` bound these; in `double` with C131 |
| C136 | running error bounds (`Appr`) for the two sums of `eval`, both within 247 units; the quotient with `w ≤` weight sum and the numerator bounded by `R` times it (`quotient_near`); the meshes differ in their points only (`patch_close`); `side_crack`: three roundings computed exactly |
| C137 | `euler_double` (C123) and the rounding of the translation give the turned point within 1.5e-12 R; the quotient by the computed depth, then three roundings (`coord_near`); `trunc_close`: truncation of a number near to another |
| C138 | absolute error bounds light by light, then the sum (`sum_lamps`) and the truncation (`trunc_close`); normals from `normalized_unit` and `plane_of` (C126); `picture_double` = C113 + C137 + colours |
| C139 | running error bounds (`Appr`) coordinate by coordinate through `BezierUtil` and `set_normals`; tangency and flatness from C77 plus the bounds; unit normals from `normalized_unit` (C126) |
| C140 | partial: `samples_loop` (the loop of C83 for any function of a sample), two roundings by `double_off`, order by `ieee_mono`; false for large factors (`scale_overflow_double`) |
| C141 | the test `fx * fx + fy * fy < 4`, as computed, bounds the point by 2.1 (`inside_bound`), so one step stays below 22; positions from C114; discharges the exclusion of infinities and NaN in `Model/Mandelbrot` |
