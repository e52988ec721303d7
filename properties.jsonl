{"id": "C01", "title": "Mesh operation histories refine a simple abstract mesh", "statement": "After any sequence of Mesh calls (add_vertex, set_vertex, add_triangle, add_quad, add_pentagon, unlink_triangle, flip_triangle, split_triangle_with_vertex, add_mesh, apply_transform, clear), nb_vertices/get_vertex and nb_triangles/get_triangle_vertices/is_triangle_unlinked answer exactly as a list of points plus a list of corner triples, each with a linked flag: triples are only appended or flagged unlinked in place, points appended or overwritten in place.", "quantifier": "every finite sequence of mesh operations, with every argument value that does not index out of range", "why_tests_cant": "The number of histories is unbounded and the observable result depends on interleavings of growth and unlinking; tests run a handful of short scripts.", "anchors": ["src/Mesh.cpp: Mesh::*", "src/MeshKernelLinkedTriangles.cpp: MeshKernelLinkedTriangles::*"]}
{"id": "C02", "title": "Mesh indices stay valid", "statement": "If every triangle added by a history refers to vertices that exist at that moment, then in every later state every linked triangle refers to existing vertices, so get_triangle/get_vertex can never read outside the vertex array.", "quantifier": "every finite history of mesh operations that passes existing vertex/triangle ids", "why_tests_cant": "An out-of-range access needs a particular history; absence for all histories is an inductive invariant.", "anchors": ["src/Mesh.cpp", "src/MeshKernelLinkedTriangles.cpp: add_triangle, unlink_triangle, get_triangle_vertices"]}
{"id": "C03", "title": "Vertex and triangle ids are stable", "statement": "An id returned by add_vertex/add_triangle keeps denoting the same item for ever (until clear): triangle corners never change except by being unlinked, an unlinked triangle never becomes linked again, nb_vertices and nb_triangles never decrease, and ids returned later are all different.", "quantifier": "every history suffix that contains no clear()", "why_tests_cant": "Claims about all future histories cannot be sampled.", "anchors": ["src/Mesh.cpp", "src/MeshKernelLinkedTriangles.cpp"]}
{"id": "C04", "title": "Mesh kernels are interchangeable", "statement": "For the vertex/triangle part of the kernel API the linked-triangles kernel and the TIN kernel give equal answers to every query after equal histories; the half-edge kernel does not (add_triangle stores nothing).", "quantifier": "every history of kernel calls", "why_tests_cant": "Observational equivalence is a statement about all histories.", "anchors": ["src/MeshKernel.h", "src/MeshKernelTIN.cpp", "src/MeshKernelLinkedTriangles.cpp", "src/MeshKernelHalfEdge.cpp: add_triangle"]}
{"id": "C05", "title": "Copying a mesh copies its geometry", "statement": "Copy construction or assignment from another mesh yields the same vertices in the same order, the same colour and exactly the linked triangles in the same order with the same corners; triangles that were unlinked disappear and later ids shift. Assigning a mesh to itself should leave it unchanged.", "quantifier": "every source mesh and every previous content of the target", "why_tests_cant": "Depends on arbitrary mixtures of linked and unlinked triangles; self-assignment is an aliasing case a test has to think of.", "anchors": ["src/Mesh.cpp: Mesh(const Mesh&), operator=, add_mesh"]}
{"id": "C06", "title": "add_mesh appends the other mesh rigidly", "statement": "m.add_mesh(o), o a different object, leaves m's own vertices and triangles as they were, appends o's vertices, and appends o's linked triangles such that each has the same three corner points as in o. Volumes and surfaces add. Appending a mesh to itself must terminate.", "quantifier": "every pair of meshes", "why_tests_cant": "All sizes and link patterns; the aliasing case does not terminate so no test can observe it finishing.", "anchors": ["src/Mesh.cpp: add_mesh 119-143"]}
{"id": "C07", "title": "apply_transform moves every vertex and nothing else", "statement": "After apply_transform(t) every vertex equals t applied to its previous position, exactly once, and the triangles (corners and unlinked flags) and colour are unchanged; applying t1 then t2 equals applying the composition.", "quantifier": "every mesh and every transform", "why_tests_cant": "Unbounded mesh size and arbitrary user-defined Transform subclasses.", "anchors": ["src/Mesh.cpp: apply_transform 340-350", "src/Transform.cpp: Transform::apply"]}
{"id": "C08", "title": "Quad and pentagon triangulation covers the polygon", "statement": "add_quad and add_pentagon add 2 and 3 triangles whose vector areas sum to the polygon's vector area, whose boundary edges are exactly the polygon's edges in order and whose inner edges cancel; hence signed volume contributions equal the polygon fan's when the polygon is planar. add_quad with points picks the diagonal of smaller total area when asked to optimise.", "quantifier": "every choice of four or five corner points or ids", "why_tests_cant": "Orientation and coverage mistakes show only for some corner configurations.", "anchors": ["src/Mesh.cpp: add_quad 167-208, add_pentagon 210-227"]}
{"id": "C09", "title": "Splitting a triangle with a vertex preserves volume, area and boundary", "statement": "split_triangle_with_vertex removes the triangle and adds three oriented alike: the directed boundary and the vector area are unchanged for any vertex, the volume is unchanged for any vertex in the triangle's plane and the surface for any vertex inside the triangle.", "quantifier": "every mesh, triangle and vertex", "why_tests_cant": "Exact preservation is algebraic in 12 coordinates; tests check a few.", "anchors": ["src/Mesh.cpp: split_triangle_with_vertex 229-254"]}
{"id": "C10", "title": "Splitting an edge with a vertex preserves orientation and volume", "statement": "split_edge_with_vertex replaces the two triangles sharing an edge by four with the same vector area, and volume when the vertex lies on the edge, whichever of the three positions the edge has in each triangle.", "quantifier": "every pair of triangles sharing an edge and each of the nine position combinations", "why_tests_cant": "The bug depends on how corner ids happen to be rotated in storage.", "anchors": ["src/Mesh.cpp: split_edge_with_vertex 257-286, macro rotate 12"]}
{"id": "C11", "title": "flip_triangle reverses one face", "statement": "flip_triangle removes the triangle and appends one with the same corners in opposite order: its volume contribution is negated, its area unchanged; no other triangle changes; flipping the result restores the volume.", "quantifier": "every mesh and linked triangle id", "why_tests_cant": "All meshes; the id of the face changes, so histories of flips matter.", "anchors": ["src/Mesh.cpp: flip_triangle 288-297"]}
{"id": "C12", "title": "Volume of a closed mesh is intrinsic", "statement": "For a mesh whose directed edges cancel (closed, consistently oriented), MeshMeasurements::volume does not change under any translation of the mesh, is multiplied by xyz under Scale(x,y,z), is unchanged by any rotation matrix with orthonormal positively oriented rows, and is negated by a reflection.", "quantifier": "every closed mesh and every transform of the class", "why_tests_cant": "Needs a cancellation argument over an arbitrary number of triangles.", "anchors": ["src/MeshMeasurements.cpp: volume 81-97", "src/Transform.cpp: Translation, Scale, RotationMatrix"]}
{"id": "C13", "title": "Volume and surface ignore unlinked triangles and are additive", "statement": "volume and surface are sums over linked triangles only: unlinking a triangle subtracts exactly its own contribution, adding one adds its contribution, and copying or appending meshes gives the same or the summed values.", "quantifier": "every mesh and operation", "why_tests_cant": "Sums over unboundedly many triangles with any link pattern.", "anchors": ["src/MeshMeasurements.cpp: volume, surface"]}
{"id": "C14", "title": "Surface is non-negative and isometry invariant", "statement": "surface is ≥ 0, is zero only if every linked triangle is degenerate, does not change under translation, rotation or reflection, and scales with the square of a uniform scale.", "quantifier": "every mesh, every isometry, every scale", "why_tests_cant": "Real-valued law over arbitrary meshes.", "anchors": ["src/MeshMeasurements.cpp: surface 99-115", "src/Geometry.cpp: Triangle3::surface 426"]}
{"id": "C15", "title": "is_closed answers closedness", "statement": "is_closed returns true exactly when every linked triangle has a neighbour along each of its edges.", "quantifier": "every mesh reachable through the API", "why_tests_cant": "A universally quantified equivalence; the code answers wrongly for every non-empty closed mesh.", "anchors": ["src/MeshMeasurements.cpp: is_closed 31-45, is_clean", "src/MeshKernelLinkedTriangles.cpp: get_near_triangles 155, add_triangle 58-80"]}
{"id": "C16", "title": "has_no_degenerated_triangles is exact", "statement": "The answer is true exactly when no linked triangle has collinear corners, i.e. for each one corner is not an affine combination of the two others.", "quantifier": "every mesh", "why_tests_cant": "Equivalence over all real coordinates.", "anchors": ["src/MeshMeasurements.cpp: has_no_degenerated_triangles 14-29", "src/Geometry.cpp: Triangle3::surface"]}
{"id": "C17", "title": "Tessellation preserves the shape", "statement": "MeshTessellate::compute(in, n, out) with n ≥ 1 gives out exactly the volume and the surface of in, and every new vertex lies in the input triangle it comes from.", "quantifier": "every mesh and every n ≥ 1", "why_tests_cant": "n² sub-triangles per face for unbounded n; exact preservation is an identity over a double sum.", "anchors": ["src/MeshTessellate.cpp: compute 10-56, interpolate"]}
{"id": "C18", "title": "Tessellation counts and indices", "statement": "The output has n² triangles and 3n² vertices per linked input triangle, all linked, with valid distinct corner ids; for n ≤ 0 the output is empty.", "quantifier": "every mesh and every integer n", "why_tests_cant": "Unbounded n and mesh size.", "anchors": ["src/MeshTessellate.cpp: compute 10-56"]}
{"id": "C19", "title": "merge_vertices respects the tolerance", "statement": "After merge_vertices(m, tol): any two remaining vertices are at least tol apart, every remaining vertex is a vertex of the input, and each corner of each surviving triangle is displaced by less than tol (or not at all).", "quantifier": "every mesh, every positive tolerance", "why_tests_cant": "Chains of nearby points make clusters of any length; whether error accumulates is a question over all configurations.", "anchors": ["src/MeshUtil.cpp: merge_vertices 59-127"]}
{"id": "C20", "title": "merge_vertices keeps the triangles", "statement": "merge_vertices keeps all linked triangles, in order, dropping only unlinked ones; indices stay valid; it never adds vertices; it is idempotent; with tolerance 0 it changes no vertex.", "quantifier": "every mesh with valid indices, every tolerance", "why_tests_cant": "Idempotence and order preservation for all meshes.", "anchors": ["src/MeshUtil.cpp: merge_vertices 59-127"]}
{"id": "C21", "title": "remove_empty_triangles is exact and idempotent", "statement": "After remove_empty_triangles(m, tol), a triangle is linked exactly when it was linked before and all of its three edges are at least tol long; vertices, ids and corners are untouched; a second call changes nothing.", "quantifier": "every mesh and tolerance", "why_tests_cant": "Exactness over all configurations.", "anchors": ["src/MeshUtil.cpp: remove_empty_triangles 129-157"]}
{"id": "C22", "title": "Grid meshes have the right topology", "statement": "create_from_grid and create_from_z on an X×Y grid produce XY vertices in the documented order and 2(X-1)(Y-1) triangles with valid indices, every interior edge shared by exactly two oppositely oriented triangles and boundary edges by one.", "quantifier": "every X, Y and height table", "why_tests_cant": "All sizes.", "anchors": ["src/MeshUtil.cpp: create_from_z 13-36, create_from_grid 38-57"]}
{"id": "C23", "title": "Platonic solids are exact", "statement": "create_tetrahedron, create_box, create_octahedron, create_icosahedron and create_dodecahedron give closed, outward oriented meshes (each directed edge once, with its reverse) with V-E+F=2, the textbook volume, and the exact edge lengths implied by the size parameter s: √8·s for the tetrahedron, √2·s for the octahedron, (√5−1)·s for icosahedron and dodecahedron edges, sides x, y, z for the box.", "quantifier": "every size parameter", "why_tests_cant": "Identities in √5 etc. over all real sizes; orientation of each of the faces.", "anchors": ["src/MeshFactory.cpp: create_tetrahedron 13, create_box 28, create_octahedron 53, create_dodecahedron 74, create_icosahedron 128"]}
{"id": "C24", "title": "Cylinders contain no degenerate triangles", "statement": "create_cylinder(height, radius, n) yields a closed mesh with no degenerate triangle and valid indices.", "quantifier": "every n, height, radius", "why_tests_cant": "The off-by-one in the cap loops appears for every n; only a general statement separates it from accidental coincidences.", "anchors": ["src/MeshFactory.cpp: create_cylinder 179-219"]}
{"id": "C25", "title": "UV spheres are closed manifolds on the sphere", "statement": "create_sphere_uv(r, n), n ≥ 1: indices valid, every directed edge occurs exactly once and its reverse occurs exactly once, V-E+F = 2, all vertices are at distance r from the origin at the expected angles, triangles face outward. For n = 0 (two meridians) a directed edge is repeated.", "quantifier": "every radius, every n ≥ 0", "why_tests_cant": "Index arithmetic with wrap-around for unbounded resolution.", "anchors": ["src/MeshFactory.cpp: create_sphere_uv 243-301"]}
{"id": "C26", "title": "Tori are closed manifolds on the torus", "statement": "create_torus(R, r, n), n ≥ 1: indices valid, every directed edge occurs exactly once with its reverse, V-E+F = 0, and all vertices satisfy the torus equation. For n = 0 a directed edge is repeated.", "quantifier": "every R, r, n ≥ 0", "why_tests_cant": "Double modular index arithmetic for unbounded resolution.", "anchors": ["src/MeshFactory.cpp: create_torus 303-348"]}
{"id": "C27", "title": "Geodesic spheres lie on the sphere", "statement": "create_sphere_geodesic(r, n) puts every vertex at the requested radius, with valid indices and 20·n² linked triangles (four times as many for each doubling of n); vertices are pairwise at least the merge tolerance apart, and the triangles follow in order those of a closed oriented surface inscribed in the sphere.", "quantifier": "every radius and refinement level", "why_tests_cant": "Recursive refinement of unbounded depth.", "anchors": ["src/MeshFactory.cpp: create_sphere_geodesic 221"]}
{"id": "C28", "title": "Bounding boxes are tight", "statement": "After adding points p1..pn (n ≥ 1) to an initialised box the box contains every point and each of its six faces touches one of them; adding in another order gives the same box.", "quantifier": "every finite list of points", "why_tests_cant": "Order independence over all permutations; the else-if update is correct only because of an invariant.", "anchors": ["src/Geometry.cpp: BoundingBox3::add 551-579"]}
{"id": "C29", "title": "Bounding-box overlap test is exact", "statement": "BoundingBox3::intersect_with returns true exactly when the two boxes share a point (closed boxes); it is symmetric.", "quantifier": "every pair of non-empty boxes", "why_tests_cant": "Six comparisons, 3 dimensions: completeness over all relative positions.", "anchors": ["src/Geometry.cpp: BoundingBox3::intersect_with 581-602"]}
{"id": "C30", "title": "Planes through three points are correct", "statement": "Plane3 computed from three non-collinear points has a unit normal, contains the three points, distance_to is the Euclidean signed distance, and project_point returns the closest point of the plane (idempotent).", "quantifier": "every non-collinear triple and every query point", "why_tests_cant": "Real-algebraic laws over all inputs.", "anchors": ["src/Geometry.cpp: Plane3::compute_using 457-466, distance_to 473, project_point 524"]}
{"id": "C31", "title": "Plane/segment intersection is exact", "statement": "Plane3::intersect_with(segment) returns true exactly when the segment's end points lie strictly on opposite sides, and the reported point is on the plane and strictly inside the segment.", "quantifier": "every plane and segment", "why_tests_cant": "Equivalence over all real inputs including touching cases.", "anchors": ["src/Geometry.cpp: Plane3::intersect_with(const Segment3&) 483-503"]}
{"id": "C32", "title": "Triangle3::contains decides membership", "statement": "For a point of the triangle's plane, contains returns true exactly when it is a convex combination of the corners.", "quantifier": "every non-degenerate triangle and coplanar point", "why_tests_cant": "The missing third sign test only matters on one line.", "anchors": ["src/Geometry.cpp: Triangle3::contains 354-373"]}
{"id": "C33", "title": "Triangle/segment intersection is sound", "statement": "If Triangle3::intersect_with(segment, p) returns true then p is on the segment and in the triangle, and if a segment crosses the interior of the triangle transversally it returns true.", "quantifier": "every triangle and segment", "why_tests_cant": "Real-algebraic completeness and soundness.", "anchors": ["src/Geometry.cpp: Triangle3::intersect_with(const Segment3&) 375"]}
{"id": "C34", "title": "Triangle/triangle intersection is symmetric and rejects only disjoint pairs", "statement": "a.intersect_with(b) equals b.intersect_with(a); when it answers true a common point exists; when bounding boxes are disjoint or one triangle is strictly on one side of the other's plane it answers false and the triangles really are disjoint.", "quantifier": "every pair of triangles", "why_tests_cant": "Symmetry and soundness over an 18-dimensional space.", "anchors": ["src/Geometry.cpp: Triangle3::intersect_with(const Triangle3&) 385-424, cutted_by 335-352"]}
{"id": "C35", "title": "Segment/segment intersection is sound", "statement": "If Segment3::intersect returns true the reported point lies on the first segment, and it should also lie on (or near) the second one; the answer does not depend on argument order.", "quantifier": "every pair of segments", "why_tests_cant": "The second parameter is computed but never range-checked; needs an adversarial pair.", "anchors": ["src/Geometry.cpp: Segment3::intersect_with 241-293"]}
{"id": "C36", "title": "Vector algebra laws", "statement": "cross is orthogonal to both arguments, anti-commutative, |a×b|²=|a|²|b|²-(a·b)²; normalized has norm 1 and keeps direction for every non-zero vector; triangle surface is half the parallelogram area and invariant under corner permutations.", "quantifier": "all vectors", "why_tests_cant": "Polynomial identities for all reals.", "anchors": ["src/Geometry.cpp: Point3 53-169, Triangle3::surface/normal/orthogonal 426-440"]}
{"id": "C37", "title": "Translations and scales compose and invert", "statement": "Translation by t then by -t is the identity, translations add and commute, Scale(a,b,c) then Scale(1/a,1/b,1/c) is the identity for non-zero factors, scales multiply and commute.", "quantifier": "all points and parameters", "why_tests_cant": "All real inputs.", "anchors": ["src/Transform.cpp: Translation 16-23, Scale 25-36"]}
{"id": "C38", "title": "Rotations are rigid and proper", "statement": "RotationMatrix::from_angle_axis, RotationAngleAxis and RotationQuaternion with a unit axis preserve all dot products and cross products (distances, angles, orientation), fix the axis, agree with one another, and compose additively for one axis.", "quantifier": "all unit axes, all angles, all points", "why_tests_cant": "Trigonometric identities over all reals.", "anchors": ["src/Transform.cpp: RotationQuaternion 77-130, RotationMatrix 132-201, RotationAngleAxis 203-221"]}
{"id": "C39", "title": "Euler rotation is a proper rotation", "statement": "RotationEulerAngles preserves distances and orientation and is the identity for zero angles.", "quantifier": "all angles and points", "why_tests_cant": "Determinant sign is the same for all angles: an algebraic fact, not an example.", "anchors": ["src/Transform.cpp: RotationEulerAngles 38-75"]}
{"id": "C40", "title": "Bernstein polynomials form a convex partition", "statement": "For each degree 1..3 the basis values sum to 1 for every t and are non-negative on [0,1]; so Bézier evaluation is affine invariant and stays in the convex hull.", "quantifier": "all t and control values", "why_tests_cant": "Polynomial identity.", "anchors": ["src/BezierUtil.cpp"]}
{"id": "C41", "title": "Quadratic Bézier triangles interpolate", "statement": "A QuadBezierTriangle evaluates to its corners at the corners, to plain barycentric interpolation when made from three points, commutes with affine transforms of its control points and stays in their convex hull; the documented default third parameter equals 1-s-u.", "quantifier": "all control points and barycentric parameters", "why_tests_cant": "All reals; sentinel value handling.", "anchors": ["src/QuadBezierTriangle.cpp: set_points 15, eval 44-69, apply_transform 107"]}
{"id": "C42", "title": "Bézier triangle meshing is complete", "statement": "QuadBezierTriangle::add_to_mesh with n segments adds n² triangles covering the parameter triangle, with valid indices.", "quantifier": "every n ≥ 1", "why_tests_cant": "Loop bounds for unbounded n.", "anchors": ["src/QuadBezierTriangle.cpp: add_to_mesh 71-105"]}
{"id": "C43", "title": "Knot spans are located correctly", "statement": "For a non-decreasing knot vector and any parameter t in the domain, find_knot_span returns k with knots[k] ≤ t ≤ knots[k+1], knots[k] < knots[k+1] and degree ≤ k < number of points, and terminates.", "quantifier": "every valid knot vector with any multiplicities and every t", "why_tests_cant": "Multiplicities and end conditions over unbounded vectors.", "anchors": ["src/NurbsCurve.cpp: find_knot_span 125-151"]}
{"id": "C44", "title": "Curve evaluation is well defined", "statement": "NurbsCurve::evaluate never divides by zero in the knot differences and never reads outside knots, points or weights, for any valid curve and t in the domain; with positive weights the final division is by a positive number; the result does not depend on earlier evaluations.", "quantifier": "every valid curve, every t, every previous call history", "why_tests_cant": "Quantifies over all knot multiplicities and call histories.", "anchors": ["src/NurbsCurve.cpp: evaluate 233-261"]}
{"id": "C45", "title": "Clamped curves interpolate their end points", "statement": "For clamped knots evaluate(0) is the first control point and evaluate(1) the last, for any non-zero end weights.", "quantifier": "every degree, number of points, weights", "why_tests_cant": "Unbounded degree and size.", "anchors": ["src/NurbsCurve.cpp: evaluate, set_uniform 61-75"]}
{"id": "C46", "title": "NURBS evaluation is affine invariant", "statement": "Transforming the control points by an affine map and evaluating equals evaluating and transforming, for curves and surfaces.", "quantifier": "every curve/surface with non-zero evaluated weight, affine map and parameter", "why_tests_cant": "Unbounded degree.", "anchors": ["src/NurbsCurve.cpp: evaluate, apply_transform", "src/NurbsSurface.cpp: evaluate, apply_transform"]}
{"id": "C47", "title": "NURBS points stay in the convex hull", "statement": "With positive weights every evaluated point is a convex combination of the control points active on the span; scaling all weights by one non-zero factor changes nothing.", "quantifier": "every valid curve/surface and t", "why_tests_cant": "Unbounded degree and control nets.", "anchors": ["src/NurbsCurve.cpp: evaluate", "src/NurbsSurface.cpp: evaluate"]}
{"id": "C48", "title": "Knot insertion does not move the curve", "statement": "insert_knot(t) adds one knot and one control point, keeps the knots sorted and the curve evaluates to the same point at every parameter.", "quantifier": "every valid curve, every insertable t, every parameter", "why_tests_cant": "Shape preservation for all degrees and multiplicities.", "anchors": ["src/NurbsCurve.cpp: insert_knot 192-231", "src/NurbsSurface.cpp: insert_knot_u/v 236-256"]}
{"id": "C49", "title": "Degree elevation does not move the curve", "statement": "When degree_elevation returns true the degree is one higher and the curve evaluates to the same point at every parameter; when it returns false nothing changed.", "quantifier": "every curve of every degree", "why_tests_cant": "All control points and parameters; includes degenerate degree 0.", "anchors": ["src/NurbsCurve.cpp: degree_elevation 279-378"]}
{"id": "C50", "title": "Surface evaluation is the tensor product", "statement": "NurbsSurface::evaluate(u,v) equals evaluating at u the curve of the v-evaluated control columns, independent of which direction is done first, and create_u_curves/from_u_curves (and v) are inverse to each other.", "quantifier": "every surface and parameters", "why_tests_cant": "Unbounded nets.", "anchors": ["src/NurbsSurface.cpp: evaluate 384-439, create_u/v_curves 288-334, from_u/v_curves 336-382"]}
{"id": "C51", "title": "Extrusion is curve plus direction", "statement": "The surface produced by NurbsExtrude evaluates to C(u) + v·direction for all u, v.", "quantifier": "every curve, direction and parameters", "why_tests_cant": "All degrees, weights and parameters.", "anchors": ["src/NurbsExtrude.cpp 17-50"]}
{"id": "C52", "title": "Ruled surfaces join their two curves", "statement": "The surface produced by NurbsRuled evaluates at v=0 to the first curve and at v=1 to the second, and in between to the weighted straight line.", "quantifier": "every pair of compatible curves", "why_tests_cant": "All degrees and weights.", "anchors": ["src/NurbsRuled.cpp 17-47"]}
{"id": "C53", "title": "Surface builders do not depend on the previous content of the target", "statement": "Calling NurbsExtrude/NurbsRuled/NurbsRevolve/set_equals_weights on a surface object gives the same result whatever that object held before.", "quantifier": "every previous state of the target object", "why_tests_cant": "Stale-state bugs need a particular earlier use.", "anchors": ["src/NurbsSurface.cpp: clear 21-31, set_equals_weights 131", "src/NurbsExtrude.cpp", "src/NurbsRuled.cpp", "src/NurbsRevolve.cpp"]}
{"id": "C54", "title": "Revolution is exact", "statement": "Every point of a NurbsRevolve surface is at the same height and the same distance from the axis as the profile curve's point at the same v; u=0 and u=1 coincide with the profile.", "quantifier": "every profile curve and parameters", "why_tests_cant": "Rational identity in u over four arcs for all profiles.", "anchors": ["src/NurbsRevolve.cpp 19-94"]}
{"id": "C55", "title": "Circles, spheres, tori and cylinders are exact", "statement": "Every evaluated point of NurbsFactory::create_circle/sphere/torus/cylinder satisfies the implicit equation of the shape.", "quantifier": "all radii and all parameters in the domain", "why_tests_cant": "Continuum of parameters.", "anchors": ["src/NurbsFactory.cpp: create_circle 15, create_sphere 65, create_torus 96, create_cylinder 119"]}
{"id": "C56", "title": "NURBS meshing has valid topology", "statement": "NurbsUtil::to_mesh produces (U+1)(V+1) vertices (or fewer columns when closed) and 2UV triangles with valid indices, each a sample of the surface.", "quantifier": "every surface and resolution", "why_tests_cant": "Unbounded resolution and both closed flags.", "anchors": ["src/NurbsUtil.cpp: to_mesh 77-133"]}
{"id": "C57", "title": "NURBS from heights samples the table", "statement": "create_from_z places the control point of height z[i] at the grid position of i, for square and non-square tables.", "quantifier": "every table size", "why_tests_cant": "The ordering bug cancels on square symmetric data.", "anchors": ["src/NurbsUtil.cpp: create_from_z 15-39"]}
{"id": "C58", "title": "Image addressing is injective and in bounds", "statement": "For valid (x, y, plane) the pixel offset is inside the buffer and different coordinates address different bytes, so writing one sample changes exactly that sample.", "quantifier": "every image size and coordinates", "why_tests_cant": "Unbounded sizes.", "anchors": ["src/Image.h"]}
{"id": "C59", "title": "32-bit BMP files round-trip", "statement": "Writing a 4-plane image to BMP and reading it back returns the same width, height and the same three colour planes.", "quantifier": "every width, height and pixel content", "why_tests_cant": "All sizes and contents.", "anchors": ["src/ImageIoBmp.cpp: write 123-256, read 8-121"]}
{"id": "C60", "title": "24-bit and 8-bit BMP files round-trip", "statement": "Writing a 3-plane or 1-plane image and reading it back returns the same image.", "quantifier": "every width, height and pixel content", "why_tests_cant": "Row padding depends on width mod 4.", "anchors": ["src/ImageIoBmp.cpp: write 123-256, read 8-121"]}
{"id": "C61", "title": "BMP header is consistent with the data", "statement": "The file size and data offset fields written by ImageIoBmp::write equal the number of bytes actually written, and the row stride is a multiple of four.", "quantifier": "every image size", "why_tests_cant": "All sizes.", "anchors": ["src/ImageIoBmp.cpp: write 123-256"]}
{"id": "C62", "title": "STL files round-trip", "statement": "Saving a mesh as STL and loading it back gives the linked triangles in the same order with the same (float-rounded) corner coordinates; volume and surface are those of the saved triangles; file length is 84+50·n.", "quantifier": "every mesh", "why_tests_cant": "All meshes and link patterns.", "anchors": ["src/STLFile.cpp: save 10-62, load 64-112"]}
{"id": "C63", "title": "STL loading is safe on any bytes", "statement": "Loading any byte string yields a mesh with 3 vertices per triangle and valid indices, and never more triangles than the declared count.", "quantifier": "every byte string", "why_tests_cant": "Hostile inputs.", "anchors": ["src/STLFile.cpp: load 64-112"]}
{"id": "C64", "title": "OBJ files round-trip", "statement": "Saving a mesh as OBJ and loading it gives the same vertices, and the linked triangles with the same indices.", "quantifier": "every mesh", "why_tests_cant": "All meshes and link patterns.", "anchors": ["src/OBJFile.cpp: save, load 24-61, OBJWriter::write 91-128"]}
{"id": "C65", "title": "OBJ writer keeps indices right across several writes", "statement": "Writing several meshes (and polylines) to one OBJ file, or reusing the writer for a second file, makes every face/line refer to the vertices of its own object.", "quantifier": "every sequence of open/write/close", "why_tests_cant": "Stateful writer; histories.", "anchors": ["src/OBJFile.cpp: OBJWriter 62-148"]}
{"id": "C66", "title": "STEP entity ids are unique and resolvable", "statement": "In a file produced by StepWriter no entity id is defined twice and every reference #n refers to an entity defined in the same file.", "quantifier": "every sequence of writes", "why_tests_cant": "Id bookkeeping over unbounded histories.", "anchors": ["src/StepFile.cpp: StepWriter 20-179"]}
{"id": "C67", "title": "STEP knot data is consistent", "statement": "For each written B-spline surface the number of multiplicities equals the number of distinct knots listed, and multiplicities sum to the length of the knot vector.", "quantifier": "every surface", "why_tests_cant": "Depends on interior multiplicities.", "anchors": ["src/StepFile.cpp: StepWriter::write(NurbsSurface) 78-179"]}
{"id": "C68", "title": "Rendering never writes outside the frame buffer", "statement": "Drawing any mesh, triangle, line, polyline or pixel with any finite projected coordinates only touches buffer cells inside width×height.", "quantifier": "every triangle, line and camera", "why_tests_cant": "Memory safety over all coordinates.", "anchors": ["src/Renderer.cpp: draw_triangle_1color 109-194, draw_trapeze 196-257, draw_horizontal_line 259-315, draw_line 335-380, draw_pixel 382-402"]}
{"id": "C69", "title": "Depth buffer keeps the nearest surface", "statement": "draw_pixel/draw_horizontal_line only ever overwrite a cell by something nearer and record its depth, so the final picture does not depend on drawing order of pixels with distinct depths.", "quantifier": "every sequence of pixel writes", "why_tests_cant": "Order independence over permutations.", "anchors": ["src/Renderer.cpp: draw_pixel, draw_horizontal_line"]}
{"id": "C70", "title": "Clipped spans keep their depth", "statement": "Clipping a horizontal span at the left or right border does not change the depth of the visible pixels.", "quantifier": "every span", "why_tests_cant": "Only spans crossing the left border are affected.", "anchors": ["src/Renderer.cpp: draw_horizontal_line 259-315"]}
{"id": "C71", "title": "Shaded colours stay in range", "statement": "compute_color_with_lights yields, for non-negative light contributions whose sum stays below 8388607, channels in 0..255, each the rounded and limited sum of the contributions of the lights, and packs them without interference.", "quantifier": "all colours and lights", "why_tests_cant": "All inputs.", "anchors": ["src/Renderer.cpp: compute_color_with_lights 53-82", "src/Color.h"]}
{"id": "C72", "title": "Mesh boolean keeps volume and never loses surface", "statement": "MeshBoolean splits intersecting triangles such that the outputs cover the inputs: when no triangles of A and B intersect, the outputs are copies of A and B.", "quantifier": "every pair of meshes", "why_tests_cant": "All configurations.", "anchors": ["src/MeshBoolean.cpp 7-39"]}
{"id": "C73", "title": "Assignment of Face and Solid copies", "statement": "After f = g (Face or Solid), f has g's content.", "quantifier": "every pair of objects", "why_tests_cant": "Holds for no pair of different objects; stated for all.", "anchors": ["src/Face.cpp: operator=", "src/Solid.cpp: operator="]}
{"id": "C74", "title": "Merging vertices does not tear a mesh", "statement": "merge_vertices moves vertices at the same place to the same place, so a closed mesh (each directed edge matched by its reverse) stays closed.", "quantifier": "every mesh and tolerance", "why_tests_cant": "Needs a particular order of four vertices around one point; all meshes and orders must be covered.", "anchors": ["src/MeshUtil.cpp: merge_vertices 59-127"]}
{"id": "C75", "title": "Smooth meshes copy and transform like their patches", "statement": "SmoothMesh::operator= makes an equal copy whatever the target held (also for m = m), add_mesh appends every patch in order (also m.add_mesh(m)), and transforming a smooth mesh before meshing it equals meshing it and transforming the mesh.", "quantifier": "every smooth mesh with positive weights, affine map and resolution", "why_tests_cant": "Aliasing and unbounded patch lists.", "anchors": ["src/SmoothMesh.cpp: operator= 45-50, add_mesh 52-58, add_to_mesh 60-66, apply_transform 73-80"]}
{"id": "C76", "title": "The smooth sphere is a sphere", "statement": "Every point of every patch of SmoothMeshFactory::create_sphere is at the given distance from the centre, neighbouring patches join, and all patches are oriented the same way.", "quantifier": "all sizes and all patch parameters", "why_tests_cant": "Continuum of parameters.", "anchors": ["src/SmoothMeshFactory.cpp: create_sphere 181-241"]}
{"id": "C77", "title": "Point-normal triangles are tangent to their normals", "statement": "CubicBezierTriangles::set_normals with unit normals places the control points next to a corner in the tangent plane of that corner, gives the same side from both neighbouring triangles, and leaves flat triangles flat.", "quantifier": "all corner points and unit normals", "why_tests_cant": "Identity over all vectors.", "anchors": ["src/CubicBezierTriangles.cpp: set_normals 37-64"]}
{"id": "C78", "title": "NURBS quads, triangles and boxes are exact", "statement": "NurbsFactory::create_quad gives the bilinear patch of its corners, create_triangle the same with one side collapsed, and the six surfaces of create_box together are exactly the boundary of the box.", "quantifier": "all corners, all sizes, all parameters, every previous content of the target", "why_tests_cant": "Continuum of parameters and exact covering.", "anchors": ["src/NurbsFactory.cpp: create_triangle 180, create_quad 185, create_box 195-230"]}
{"id": "C79", "title": "to_polyline samples the whole curve", "statement": "NurbsCurve::to_polyline of a valid curve with n control points and positive weights returns 10n+1 points, the i-th being the point of the curve at parameter i/(10n), so the polyline starts at the start of the curve, ends at its end and every vertex is on the curve; an empty curve gives an empty polyline.", "quantifier": "all valid curves of every degree, knot vector, weights and control points", "why_tests_cant": "The count and the end point depend on a floating accumulation loop over all sizes; a test looks at one curve.", "anchors": ["src/NurbsCurve.cpp: to_polyline 264-277"]}
{"id": "C80", "title": "create_from_mesh and apply_transform describe the same set of points", "statement": "NurbsUtil::create_from_mesh turns a mesh into a NurbsSolid with one surface per triangle whose union is exactly the union of the triangles of the mesh (triangles that were unlinked are not part of the mesh); NurbsSolid::apply_transform with an affine transform moves the point set of the solid exactly by the transform.", "quantifier": "all consistent meshes, all valid solids, all affine transforms, all points", "why_tests_cant": "Exact equality of point sets is a statement about infinitely many parameters and about every mesh state.", "anchors": ["src/NurbsUtil.cpp: create_from_mesh 41-54", "src/NurbsSolid.cpp: apply_transform 36-41"]}
{"id": "C81", "title": "to_controlpoints_mesh shows the control net", "statement": "NurbsUtil::to_controlpoints_mesh replaces the mesh with exactly one quad (two triangles) for each cell of the control net, with the four control points of the cell as corners, 4 vertices per cell.", "quantifier": "all valid surfaces of every size, any previous mesh content", "why_tests_cant": "Needs all net sizes; index mix-ups u/v only show for non-square nets.", "anchors": ["src/NurbsUtil.cpp: to_controlpoints_mesh 56-76"]}
{"id": "C82", "title": "Grey conversion averages and keeps the geometry", "statement": "ImageUtil::convert_to_bw of an image with at least three planes gives a one-plane image of the same size whose sample at every pixel is the rounded down average of the first three planes, whatever the target held before; an image with fewer planes is an access outside the buffer.", "quantifier": "all image sizes, plane counts and contents", "why_tests_cant": "All sizes and contents; the missing format check only shows on unusual plane counts.", "anchors": ["src/ImageUtil.cpp: convert_to_bw 12-23"]}
{"id": "C83", "title": "Scaling an image rounds to nearest and saturates", "statement": "ImageUtil::scale multiplies every sample of every plane by the factor, rounded to the nearest integer and kept in 0..255, and leaves the size alone; factor 1 changes nothing.", "quantifier": "all images and factors", "why_tests_cant": "Real-valued factor, all contents.", "anchors": ["src/ImageUtil.cpp: scale 25-31"]}
{"id": "C84", "title": "The Sierpinski picture is the Sierpinski triangle", "statement": "ImageGenerator::shierpinsky resizes the image as asked and paints exactly the pixels with x & y = 0 white; for size 2^k exactly 3^k of the 4^k pixels are white.", "quantifier": "all sizes, any previous image; all k", "why_tests_cant": "Count over unbounded sizes.", "anchors": ["src/ImageGenerator.cpp: Shierpinsky 7-14"]}
{"id": "C85", "title": "Image::to_double copies all samples", "statement": "to_double gives a table with one entry per sample of the image, entry x + y*width being the sample of the pixel (x, y).", "quantifier": "all one-plane images", "why_tests_cant": "Square images look right up to a transposition; sizes matter.", "anchors": ["src/Image.h: to_double 106"]}
{"id": "C86", "title": "The control net in a STEP file is the control net of the surface", "statement": "For every surface written to an open STEP file, the reference in row j and column i of its control net is the id of a CARTESIAN_POINT entity of the same file with the coordinates of control point (i,j), and the weights stand in the same order.", "quantifier": "every surface, every state of the writer", "why_tests_cant": "Id arithmetic over all net sizes and histories.", "anchors": ["src/StepFile.cpp: write_cartesian_point 72-76, StepWriter::write(NurbsSurface) 78-179"]}
{"id": "C87", "title": "Projection goes to the nearest pixel", "statement": "RendererCamera::project gives the pixel nearest to the exact projection x*zoom/z + width/2, y*zoom/z + height/2 and the depth value 1/z, for every point off the plane of the eye.", "quantifier": "all cameras, all points", "why_tests_cant": "Real-valued quantifier; rounding by truncation only shows left of and above the screen.", "anchors": ["src/RendererCamera.cpp: project 50-60"]}
{"id": "C88", "title": "A triangle that covers the screen paints all of it", "statement": "When the projection of a triangle contains a pixel, draw_triangle_1color paints that pixel, up to the borders of the screen.", "quantifier": "all triangles, all screen sizes", "why_tests_cant": "Needs all positions relative to the borders.", "anchors": ["src/Renderer.cpp: draw_trapeze 196-257, draw_horizontal_line 259-315"]}
{"id": "C89", "title": "Nothing behind the eye is drawn", "statement": "Triangles and lines that are behind the eye (local z < 0) do not change the picture.", "quantifier": "all meshes, lines and buffers with non-negative depths", "why_tests_cant": "All positions; the failing cases need extreme depths or triangles crossing the plane of the eye.", "anchors": ["src/Renderer.cpp: draw_triangle_1color 109-194, draw_line 335-380"]}
{"id": "C90", "title": "Meshes of the NURBS solids are watertight", "statement": "For a box, cylinder, sphere or torus of NurbsFactory whose sizes are not below the closing tolerance of NurbsCurve::is_closed (1e-6; any size for sphere and torus), NurbsUtil::to_mesh of the solid gives a watertight, consistently oriented set of triangles: every directed edge, as a pair of points, is matched by its reverse, also along the seams between different surfaces. The mesh of the box has exactly the volume and the area of the box.", "quantifier": "all sizes, all resolutions, every previous content of the mesh", "why_tests_cant": "Unbounded resolution and real-valued sizes; edges between different surfaces must match point by point.", "anchors": ["src/NurbsFactory.cpp: create_cylinder 119, create_torus 158, create_sphere 172, create_box 195", "src/NurbsUtil.cpp: to_mesh 77-145"]}
{"id": "C91", "title": "A mesh turned into a NURBS solid and back keeps its shape", "statement": "For a mesh without unlinked triangles whose triangles have a first side not shorter than the closing tolerance, create_from_mesh followed by to_mesh at k segments gives 8k^2 triangles per triangle, the same volume, the same area, and a watertight mesh if the mesh was watertight.", "quantifier": "all meshes, all resolutions", "why_tests_cant": "Unbounded meshes and resolutions; exact equality of volume and area.", "anchors": ["src/NurbsUtil.cpp: create_from_mesh 41-54, to_mesh 77-145", "src/NurbsFactory.cpp: create_triangle 180"]}
{"id": "C92", "title": "Flat smooth solids are the polyhedra of MeshFactory", "statement": "SmoothMeshFactory::create_tetrahedron, create_box, create_octahedron, create_dodecahedron and create_icosahedron have exactly the faces of the MeshFactory solids of the same size, in order and orientation, each patch running linearly over its face; meshing them with any number of segments gives a closed mesh of that solid with the same volume and area.", "quantifier": "all sizes, any earlier content of the target, every n >= 1", "why_tests_cant": "All real sizes, unbounded n, and every point of every patch.", "anchors": ["src/SmoothMeshFactory.cpp: create_tetrahedron 13-26, create_box 28-51, create_octahedron 54-73, create_dodecahedron 75-127, create_icosahedron 130-179", "src/SmoothMesh.cpp: add_to_mesh 60-66, add_flat_triangle 82-87, add_flat_quad 89-97, add_flat_pentagon 100-105", "src/QuadBezierTriangle.cpp: add_to_mesh 71-105"]}
{"id": "C93", "title": "The Mandelbrot picture shows the Mandelbrot set", "statement": "ImageGenerator::Mandelbrot gives a 4-plane picture of the asked size whatever the image was; the grey level of a pixel is the number of steps before the orbit of its point leaves the disk of radius two, at most iNbIteration: points of the Mandelbrot set have the full level, lower levels are points whose orbit goes to infinity, and the picture is symmetric about the real axis. No number of iterations is undefined.", "quantifier": "all sizes, all iteration numbers, all pixels", "why_tests_cant": "Quantifies over all sizes and the infinite orbit of each point.", "anchors": ["src/ImageGenerator.cpp: Mandelbrot 16-49"]}
{"id": "C94", "title": "Written BMP files are read by other programs as the same picture", "statement": "A reader that follows the BMP format (offset field, rows from bottom to top padded to four bytes, blue-green-red pixels, palette of 8-bit files) sees in a file of ImageIoBmp::write every pixel with the colour the image has there; images of one plane are seen as grey.", "quantifier": "every image of 1, 3 or 4 planes that fits in a file, every pixel", "why_tests_cant": "Own round trips cancel mistakes made in both directions; all widths, heights and contents.", "anchors": ["src/ImageIoBmp.cpp: write 123-256"]}
{"id": "C95", "title": "OBJ files of other programs load", "statement": "Loading the text of an OBJ file of vertices and triangles, with any white space, comments, other lines, colours and line ends, gives exactly its vertices and triangles in order.", "quantifier": "every such text", "why_tests_cant": "All texts.", "anchors": ["src/OBJFile.cpp: load 24-61"]}
{"id": "C96", "title": "The text of OBJ files", "statement": "OBJFile::save writes one vertex line per vertex with its coordinates and, if the mesh has a colour, red, green and blue as n/255 between 0 and 1, then one face line per linked triangle with indices from 1.", "quantifier": "every mesh and colour", "why_tests_cant": "All meshes, link patterns and colours.", "anchors": ["src/OBJFile.cpp: save 11-21, OBJWriter::write 91-128"]}
{"id": "C97", "title": "Which pixels a triangle paints and which facets are hidden", "statement": "A triangle turned away from the viewer is not drawn (unless two-sided), one turned towards the viewer is; a visible triangle covers every pixel of the screen inside it and no pixel away from it, with depths between the depths of its corners; whether a facet is drawn depends only on which side of its plane the eye is.", "quantifier": "all triangles, screens, cameras and depths", "why_tests_cant": "All positions in the continuous screen plane and all cameras.", "anchors": ["src/Renderer.cpp: draw_triangle_1color 109-194, draw_trapeze 196-257, draw_horizontal_line 259-315"]}
{"id": "C98", "title": "Lines and polylines on the screen", "statement": "A line between two visible points puts its colour on the pixels along the segment, one per step of the longer side, where nothing nearer was drawn, and changes nothing else; a polyline is drawn as the lines between its successive points.", "quantifier": "all end points, cameras and earlier pictures", "why_tests_cant": "All segments and all earlier contents of both buffers.", "anchors": ["src/Renderer.cpp: draw_line 335-380, draw_polyline 404-409"]}
{"id": "C99", "title": "A STEP file describes the surface that was written", "statement": "A reader that follows ISO 10303-42 (lists of control points and weights over u of lists over v) finds in the file a rational B-spline surface with the degrees, closed flags, knots, points and weights of the written NurbsSurface, so evaluating it gives the same points.", "quantifier": "all consistent surfaces, all parameters", "why_tests_cant": "All nets, degrees and knots; depends on the reading rules of another program.", "anchors": ["src/StepFile.cpp: write 78-179"]}
{"id": "C100", "title": "A control point has local, bounded influence", "statement": "Moving one control point of a NurbsCurve or NurbsSurface with positive weights by d moves an evaluated point by a times d with a between 0 and 1; a is zero outside the degree plus one knot intervals of that point and positive inside.", "quantifier": "all curves and surfaces with clamped knots and positive weights, all points, all parameters of the domain", "why_tests_cant": "All degrees, nets, knots and parameters of a continuum.", "anchors": ["src/NurbsCurve.cpp: evaluate 233-261", "src/NurbsSurface.cpp: evaluate 384-439"]}
{"id": "C101", "title": "The sides of a surface are the curves of its border rows and columns", "statement": "NurbsSurface::evaluate at u or v = 0 or 1 gives the NurbsCurve of the first or last column or row of the net, corners are interpolated, so two surfaces that share a border row (points, weights, degree, knots) meet without a gap.", "quantifier": "all surfaces with clamped knots, all parameters", "why_tests_cant": "All nets, degrees, knots and a continuum of parameters.", "anchors": ["src/NurbsSurface.cpp: evaluate 384-439", "src/NurbsCurve.cpp: evaluate 233-261"]}
{"id": "C102", "title": "Curves and surfaces have no gaps", "statement": "The point evaluated on a NurbsCurve (NurbsSurface) with positive weights depends continuously on the parameter (both parameters) on the whole domain, provided no inner knot value is repeated more often than the degree.", "quantifier": "all curves and surfaces with clamped knots and positive weights over the reals", "why_tests_cant": "Continuity is a statement about limits; tests only evaluate finitely many parameters.", "anchors": ["src/NurbsCurve.cpp: evaluate 233-261, find_knot_span 125-150", "src/NurbsSurface.cpp: evaluate 384-439"]}
{"id": "C103", "title": "Round meshes have the volume and area of the solid, up to the subdivision", "statement": "As the number of segments grows, volume and surface of create_cylinder, create_sphere_uv and create_torus meshes tend to those of the cylinder, ball and torus with the given sizes, and every mesh stays below (it is inscribed); the exact values for n segments are known.", "quantifier": "all positive sizes, all n, all prior meshes", "why_tests_cant": "A limit; tests can only compare finitely many subdivisions with a tolerance.", "anchors": ["src/MeshFactory.cpp: create_cylinder 179-219, create_sphere_uv 243-301, create_torus 303-348", "src/MeshMeasurements.cpp: volume 81-97, surface 99-115"]}
{"id": "C104", "title": "Saving as STL, loading and merging gives the connected mesh back", "statement": "A mesh saved as STL and loaded has three vertices per triangle and no shared edge; merge_vertices with a tolerance below the distances of different points then welds it: every position has one vertex, and when the saved surface was closed, every edge of the result is used once in each direction by vertex numbers.", "quantifier": "all meshes, all prior contents, all tolerances below the separation, any 4-byte coding of the coordinates", "why_tests_cant": "All meshes and files; the result depends on the order of the vertices and on rounding of all coordinates.", "anchors": ["src/STLFile.cpp: save 10-62, load 64-112", "src/MeshUtil.cpp: merge_vertices 59-127"]}
{"id": "C105", "title": "In-place point operators, random axes and colour constants", "statement": "+=, -=, *= and /= on a point store exactly the value of the pure operator in that object and nothing else, also when both operands are the same object; normalize stores what normalized returns; compute_random_axis yields a unit vector that depends only on the seed; the colour constants have three separate components, blue in the high byte.", "quantifier": "all stores of points, all pairs of objects (aliased or not), all scalars, all generators", "why_tests_cant": "All aliasing patterns and all values; every behaviour of the random generator.", "anchors": ["src/Geometry.cpp: 53-88, 160-169", "src/GeometryUtil.cpp: compute_random_axis 9-19", "src/Color.h: 4-17"]}
{"id": "C106", "title": "The mesh checks answer what they are named after", "statement": "is_oriented_outside tells whether the enclosed volume is not negative; on closed meshes the answer survives translations, rotations and positive scales and turns over under mirrors; has_no_self_intersections, has_no_isolated_vertices, has_no_duplicated_vertices and has_no_short_edges answer false for a mesh with that defect.", "quantifier": "all meshes, all affine maps", "why_tests_cant": "All meshes and all maps; a test shows single answers only.", "anchors": ["src/MeshMeasurements.cpp: is_oriented_outside 47-50, has_no_* 8-12, 117-129"]}
{"id": "C107", "title": "Where two planes meet", "statement": "Plane3::intersect_with(Plane3, Line3) answers true exactly for planes that are not parallel, and the returned line is their common line.", "quantifier": "all pairs of planes", "why_tests_cant": "All pairs of planes, including almost parallel ones.", "anchors": ["src/Geometry.cpp: Plane3::intersect_with 505-529"]}
{"id": "C108", "title": "Geodesic spheres are watertight", "statement": "create_sphere_geodesic(r, n) gives, for every radius other than 0 and every n >= 1, a closed surface: merging unites exactly the vertices that two faces of the icosahedron share, so there are 10n^2+2 different vertices, 30n^2 edges each used once in both directions, and 20n^2 triangles; triangles look outwards for r > 0, edges get shorter as 1/n, and the whole surface lies between the sphere and a concentric sphere that approaches it as 1/n^2.", "quantifier": "all radii other than 0, all n >= 1, all meshes passed in", "why_tests_cant": "The merge tolerance is a guessed formula (the code says todo better formula); only a proof covers every subdivision.", "anchors": ["src/MeshFactory.cpp: create_sphere_geodesic 221-241", "src/MeshTessellate.cpp: MeshTessellate::compute", "src/MeshUtil.cpp: merge_vertices"]}
{"id": "C109", "title": "set_camera points the view at its origin", "statement": "After Renderer::set_camera the camera looks along the direction given by yaw and pitch, sits ahead units before the given origin, and shows that origin in the middle of the image; every point in front of it is drawn zoom times its sideways offset over its depth away from the middle, and the stored depth is one over the distance along the view direction.", "quantifier": "all image sizes, origins, distances, angles, zooms and points", "why_tests_cant": "All angles and points; involves sin and cos of every angle.", "anchors": ["src/Renderer.cpp: set_camera 14-19", "src/RendererCamera.cpp: 16-60"]}
{"id": "C110", "title": "A STEP file can be parsed by the rules of ISO 10303-21", "statement": "Every text StepWriter produces between open and close is split by the grammar of the exchange structure (tokens, header section, data section, records and complex entities) without error; the instance names are unique, every referenced instance exists, and each control point and surface is found as an instance with the texts of its numbers.", "quantifier": "all sequences of files, all surfaces with their knots, weights and points, all number formats", "why_tests_cant": "All texts; a test parses single files with one reader.", "anchors": ["src/StepFile.cpp: 20-42, 50-70, 72-185"]}
{"id": "C111", "title": "Rounding errors do not change what merge_vertices merges, given a gap", "statement": "If no two vertices are at a distance near the tolerance (gap wider than twice the coordinate error plus the error of the comparison), merge_vertices on coordinates with errors unites the same vertices and gives the same triangles by number as on the exact ones, and the vertices stay as near as they were; without the gap an arbitrarily small error can change the result.", "quantifier": "all meshes, all perturbations of the coordinates, all comparisons right up to an error", "why_tests_cant": "All meshes and all rounding errors; tests see one set of coordinates and one compiler.", "anchors": ["src/MeshUtil.cpp: merge_vertices 59-126"]}
{"id": "C112", "title": "Geodesic spheres are watertight in floating point", "statement": "create_sphere_geodesic evaluated with a rounding error in each arithmetic operation (IEEE doubles) still gives the watertight surface of the ideal computation: 10n^2+2 different vertices, 30n^2 edges used once in each direction, 20n^2 outward triangles, vertices on the sphere up to a relative error of 1500 units of rounding, no edge longer than 4r/3n.", "quantifier": "all n that fit an int, all radii between 2^-400 and 2^500, every rounding with relative error u and u*n <= 1e-6", "why_tests_cant": "All subdivisions and all rounding patterns; the sphere of the largest n has more triangles than fit in memory.", "anchors": ["src/MeshFactory.cpp: create_icosahedron 128-177, create_sphere_geodesic 221-241", "src/MeshTessellate.cpp: 50-56", "src/Geometry.cpp: 5-8, 90-169", "src/MeshUtil.cpp: merge_vertices"]}
{"id": "C113", "title": "Rendering in floating point is memory safe and assertion-free", "statement": "With IEEE double and float arithmetic in the drawing functions, no sequence of draw_mesh, draw_triangle_1color, draw_line, draw_polyline and draw_pixel calls whose points are projected to screen coordinates up to 2^29 fails an assertion, overflows an int or touches memory outside the two buffers; every triangle only touches pixels in the bounding box of its projected corners, and its depths stay between those of the corners up to a relative error of 2^-18.", "quantifier": "all call sequences, all meshes, all image sizes, all projections and colours, every pair of monotone roundings with small relative errors", "why_tests_cant": "The assertions compare rounded interpolations (float and double mixed); only a proof covers every rounding pattern.", "anchors": ["src/Renderer.cpp: 84-315, 335-411", "src/RendererCamera.cpp: 33-60"]}
{"id": "C114", "title": "The Mandelbrot picture in float arithmetic", "statement": "ImageGenerator::Mandelbrot with IEEE single precision operations gives every pixel a grey level of at most the number of iterations, and exactly the escape time of the exact orbit of the pixel's point whenever that orbit keeps away from the circle of radius two by more than the gathered rounding errors (in particular 117*2^-24*4^k in round k); points within 0.24 of the origin always get the full level, points farther than 2 + 117*2^-24 level 0.", "quantifier": "all image sizes that fit an int, all pixels, up to 255 iterations, every rounding with the errors of float", "why_tests_cant": "Chaotic iteration in float: a test compares single pixels; only a proof covers all pixels of all sizes.", "anchors": ["src/ImageGenerator.cpp: 16-50"]}
{"id": "C115", "title": "Measurements in floating point", "statement": "MeshMeasurements::volume and surface evaluated with IEEE doubles differ from the exact volume and area of the mesh by at most a stated number of units in the last place: for n triangles with corners within R of the origin (n+60)*n*R^3*2^-53 and 5*(n+20)*n*R^2*2^-53, and in terms of the edge lengths of the triangles themselves (n+60)/5 and n+20 units of the summed products; is_oriented_outside is right whenever the volume is larger than its error.", "quantifier": "all consistent meshes with up to 2^40 triangles and corners up to 2^200, every rounding with relative error u and gradual underflow", "why_tests_cant": "All meshes and all rounding patterns; a test compares with a tolerance on a few meshes.", "anchors": ["src/MeshMeasurements.cpp: volume 81-97, surface 99-115, is_oriented_outside 47-50", "src/Geometry.cpp: 123-132, 139-153, 426-439"]}
{"id": "C116", "title": "NURBS evaluation in floating point", "statement": "NurbsCurve::evaluate and NurbsSurface::evaluate with IEEE doubles succeed for every parameter in [0,1] of a valid curve or surface with positive weights, and every coordinate differs from that of the exact rational B-spline by at most (44 p + 5) * 2^-53 * (largest weight / smallest weight) * (largest coordinate), with p the degree (the sum of the degrees for a surface).", "quantifier": "all clamped curves and surfaces with degrees up to 1000, any number of points, knots, positive weights and parameters, every rounding with relative error u and gradual underflow", "why_tests_cant": "A continuum of parameters and all rounding patterns of the de Boor triangle; a test compares with a tolerance at a few parameters.", "anchors": ["src/NurbsCurve.cpp: 233-261", "src/NurbsSurface.cpp: 384-439"]}
{"id": "C117", "title": "No cracks between NURBS patches in floating point", "statement": "Evaluated with IEEE doubles, the sides of a surface are equal as numbers to the curves of the border rows and columns of its net: two patches that share a border row (points, weights, degree, knots) have exactly the same points along it, a surface with equal first and last columns and a curve with equal first and last points close exactly, and a curve with end weights 1 starts and ends exactly in its end control points.", "quantifier": "all clamped curves and surfaces whose knots and weights are doubles, all parameters along the side", "why_tests_cant": "Exact equality of floating point results for all nets and parameters; a test compares a few samples.", "anchors": ["src/NurbsCurve.cpp: 233-261", "src/NurbsSurface.cpp: 384-439"]}
{"id": "C118", "title": "Meshes and polylines of NURBS converge to them", "statement": "A NURBS curve or surface moves at most 4 p kappa R / h per unit of its parameter in each coordinate (p the degree, kappa the ratio of the largest to the smallest weight, R the radius of a cube around the control points, h the smallest distance between different knots). Hence NurbsCurve::to_polyline stays within half a step of this speed of the curve, and NurbsUtil::to_mesh and the surface are within (Lu/U + Lv/V)/2 of each other in both directions: no point of a triangle is far from the surface and no part of the surface is left uncovered. For every tolerance there is a number of segments from which on every mesh meets it.", "quantifier": "all clamped curves and surfaces with positive weights and inner knots of multiplicity at most the degree, all numbers of segments, all points of all triangles, all parameters", "why_tests_cant": "A distance between two infinite sets of points, for all nets and resolutions; a test samples a few points.", "anchors": ["src/NurbsUtil.cpp: to_mesh 77-124", "src/NurbsCurve.cpp: evaluate 233-261, to_polyline 264-282", "src/NurbsSurface.cpp: evaluate 384-439"]}
{"id": "C119", "title": "Rounding in the meshing of NURBS surfaces moves vertices by a bounded amount only", "statement": "NurbsUtil::to_mesh in floating point gives, for surfaces and solids, a mesh with exactly the triangles (vertex numbers, flags) that exact arithmetic gives; every coordinate of every vertex differs by at most a bound proportional to the unit roundoff, the size of the control points, the ratio of the weights and the degree, independent of the resolution.", "quantifier": "all surfaces of degree up to 1000 within the range of double, all resolutions, every previous content of the mesh", "why_tests_cant": "All surfaces and resolutions; rounding errors of the parameters and of the evaluation accumulate differently for each.", "anchors": ["src/NurbsUtil.cpp: to_mesh 77-145", "src/NurbsSurface.cpp: evaluate"]}
{"id": "C120", "title": "A NURBS solid meshed in floating point and welded is watertight", "statement": "If the exact mesh of a solid is closed by positions, then the mesh computed in floating point and passed to merge_vertices, with a tolerance above the rounding error and below the distance of different samples, is closed by vertex numbers: each directed edge occurs as often as its reverse. For the box of NurbsFactory in double: all sizes and all resolutions, tolerance between max side / 2^45 and min side / (2 resolution) less that.", "quantifier": "all closed solids, all boxes, all resolutions, all comparisons right up to an error", "why_tests_cant": "The two sides of a seam round differently for each size and resolution; a test sees single ones.", "anchors": ["src/NurbsUtil.cpp: to_mesh 77-145", "src/MeshUtil.cpp: merge_vertices", "src/NurbsFactory.cpp: create_box 195"]}
{"id": "C121", "title": "The solids of MeshFactory are convex and face outward", "statement": "Every triangle that create_tetrahedron, create_box, create_octahedron, create_icosahedron, create_dodecahedron, create_sphere_uv and create_cylinder produce for positive sizes has the whole solid behind it: no point of any triangle is in front of the plane of another, and the origin is strictly behind (apart from the two triangles without area that create_cylinder makes). So the solid is the intersection of the half spaces of its faces. The triangles of create_torus, which is not convex, face away from the circle in the middle of the tube.", "quantifier": "all positive sizes, all numbers of segments, all points of all triangles", "why_tests_cant": "A statement on all points of all pairs of triangles, for every size and resolution; a test can check the volume or some normals.", "anchors": ["src/MeshFactory.cpp: 13-177, create_cylinder 179-219, create_sphere_uv 243-301, create_torus 303-348"]}
{"id": "C122", "title": "The round meshes approximate the sphere, cylinder and torus with a known tolerance", "statement": "The mesh of create_sphere_uv lies in the ball of radius r and outside the ball of radius r - e with e = r (1 - cos(pi/(4n+2)) cos(pi/(4n+4))) <= r pi^2/(16 n^2), and every point of the sphere is within e of the mesh; the same for create_sphere_geodesic with e = 3 r / (5 n^2). The mesh of create_cylinder lies in the cylinder, its wall at most e = r (1 - cos(pi/(4n+2))) inside, and every point of the surface of the cylinder (wall and disks) is within e of the mesh. Every point of the mesh of create_torus has a distance between r - e and r + e from the circle of radius R, and every point of the torus is within e of the mesh, with e = (R+r)(1 - cos(pi/(4n+2))) + r (1 - cos(pi/(2n+6))) <= (R+5r) pi^2/(32 n^2).", "quantifier": "all positive radii and heights (r < R for the torus), all numbers of segments n >= 1, all points of the meshes and of the surfaces", "why_tests_cant": "A Hausdorff distance between infinite sets for all sizes and resolutions; a test samples some points.", "anchors": ["src/MeshFactory.cpp: create_cylinder 179-219, create_sphere_geodesic 221-241, create_sphere_uv 243-301, create_torus 303-348"]}
{"id": "C123", "title": "Rotations in floating point: error and drift", "statement": "In IEEE double, RotationMatrix and RotationAngleAxis with an angle in degrees and a unit axis (up to rounding of its coordinates) move each point p to within (2.7e-14 + 1.2e-15 |angle|)(|p| + 2^-1000) of the true turn by Rodrigues' formula, RotationQuaternion to within (6e-14 + 1.2e-15 |angle|)(|p| + 2^-1000), RotationEulerAngles to within (1e-14 + 1.2e-15 (|yaw|+|pitch|+|roll|))(|p| + 2^-1000) of the turn around y, mirror image, turn around x and turn around z; the part growing with the angle is mostly the error of the constant 3.14159265359. After n rotations in a row the point is within twice n times that error of one turn by n times the angle, as long as n times the error is at most 1/2; distances between points are kept to the same accuracy, and a mesh turned n times by apply_transform keeps its triangles and has each vertex there. Translation and scaling round each coordinate once.", "quantifier": "all angles up to 50000 degrees, all unit axes, all points of norm up to 2^999, all n, all meshes; all library cosines and sines with an error of at most 2^-52", "why_tests_cant": "Errors that build up over any number of rotations, for all angles, axes and points; a test sees some.", "anchors": ["src/Transform.cpp: 20-36, 42-75, 92-130, 158-221", "src/Mesh.cpp: apply_transform 340-350"]}
{"id": "C124", "title": "The solids of MeshFactory computed in floating point are closed and accurate", "statement": "In IEEE double, create_sphere_uv, create_torus, create_dodecahedron, create_icosahedron and create_box give closed polyhedra with exactly the triangles (vertex numbers) that exact arithmetic gives, and every coordinate of every vertex is within 115, 115, 30, 30 and 2 units roundoff of the size of the exact one, independent of the number of segments; the vertices of the sphere are within 230 units of the radius from the sphere. create_cylinder gives the exact triangles, including its two degenerate ones, without which it is closed, with vertices within 100 units.", "quantifier": "all sizes between 2^-1000 and 2^1001, all numbers of segments, every previous content of the mesh; all library cosines and sines with an error of at most 2^-52", "why_tests_cant": "Rounding errors for every size and resolution; a test compares some vertices.", "anchors": ["src/MeshFactory.cpp: create_box 28-51, create_dodecahedron 74-126, create_icosahedron 128-177, create_cylinder 179-219, create_sphere_uv 243-301, create_torus 303-348"]}
{"id": "C125", "title": "Volume, area and orientation of generated solids measured in floating point", "statement": "The volume and surface that MeshUtil computes in double of the mesh that create_sphere_uv makes in double are within (70/L^2 + 220 L^2 2^-53) r^3 of 4/3 pi r^3 and (145/L^2 + 1200 L^2 2^-53) r^2 of 4 pi r^2, L the number of longitudes, and is_oriented_outside is true. The same for create_torus and create_cylinder with their formulas (is_oriented_outside true unless the solid is very thin), and for create_dodecahedron, create_icosahedron and create_box with an error of rounding only.", "quantifier": "all sizes from 1 to 2^199, up to 2^15 segments, every previous content of the mesh; all library cosines and sines with an error of at most 2^-52", "why_tests_cant": "Discretisation and rounding errors together, for every size and resolution; a test checks single values with a tolerance found by trial.", "anchors": ["src/MeshFactory.cpp: 28-51, 74-348", "src/MeshMeasurements.cpp: volume 81-97, surface 99-115, is_oriented_outside 47-50"]}
{"id": "C126", "title": "Geometric tests in floating point are right up to a margin", "statement": "For triangles with corners in a cube of side s and twice the area at least kappa s^2, in IEEE double: Plane3 of the triangle is defined, distance_to is within E = 350 2^-53 s/kappa of the signed distance, project_point within 2E of the foot; cutted_by is right when the corners are more than E off the plane; intersect_with a segment whose ends are at least 4E off the plane is right, and the point is within 3 E s/H of the true one (H the extent of the segment across the plane); Triangle3::contains and intersect_with a segment are right when the products a b and a c of the barycentric coordinates of the point exceed 245 2^-53/kappa^2 or 150 E/(H kappa^2) in absolute value; so Triangle3::intersect_with another triangle in general position with these margins answers true if and only if the triangles have a common point.", "quantifier": "all triangles, planes, points and segments in cubes of side 2^-100 to 2^100, kappa from 2^-30", "why_tests_cant": "All positions of points relative to planes and sides; near the borders every comparison may come out either way, and a test sees only sample positions.", "anchors": ["src/Geometry.cpp: Triangle3 335-424, Plane3 457-529"]}
{"id": "C127", "title": "STL and OBJ files keep volume, area and orientation", "statement": "A mesh of double coordinates saved as binary STL and loaded again, by the same or another program run, has as measured there in double the volume of the mesh before saving within (2^-23 + (N+60) 2^-52) N R^3 and the surface within (2^-21 + 5(N+20) 2^-52) N R^2, N the number of triangles and R the radius of a ball around the origin that contains them; is_oriented_outside answers as before when the volume exceeds that error. The same for OBJ with its six digits, with 6e-6 and 24e-6 in the place of 2^-23 and 2^-21.", "quantifier": "all meshes within the int range of the formats with double coordinates, 1 <= R <= 2^127 (OBJ 2^150), every content of the mesh loaded into", "why_tests_cant": "All coordinate values, with the rounding to float or to six digits of each; tests reload single meshes and compare with a tolerance.", "anchors": ["src/STLFile.cpp: save 10-62, load 64-113", "src/OBJFile.cpp: save 11-21, load 24-62, OBJWriter::write 91-128", "src/MeshMeasurements.cpp: volume 81-97, surface 99-115, is_oriented_outside 47-50"]}
{"id": "C128", "title": "merge_vertices in floating point respects its tolerance", "statement": "In IEEE double the comparison of merge_vertices is true for points at a distance below tol(1 - 2^-49) and false at tol(1 + 2^-49) and above. merge_vertices in double keeps all linked triangles in order and the colour, leaves vertices of the input at mutual distances of at least tol(1 - 2^-49), and moves no corner by tol(1 + 2^-49) or more. If the computed vertices are within E of exact ones (in each coordinate) which are equal or at least tol(1 + 2^-49) + 4E apart, 4E + tol 2^-49 < tol, then merging gives one vertex for each exact position, and a surface that is exactly closed becomes closed by vertex numbers.", "quantifier": "all consistent meshes, all tolerances from 2^-500 on", "why_tests_cant": "All positions of vertices and all tolerances; near the tolerance the computed comparison may come out either way.", "anchors": ["src/MeshUtil.cpp: merge_vertices 59-127", "src/Geometry.cpp: Point3::distance_square"]}
{"id": "C129", "title": "Tessellation in floating point is accurate and can be welded", "statement": "MeshTessellate::compute in IEEE double makes the triangles of the exact tessellation, each coordinate within 26 units roundoff of the size of the mesh; its volume and surface as measured in double are those of the input mesh within (N+90) N R^3 2^-52 and 5 (N+60) N R^2 2^-52, N the number of new triangles. For a closed input with vertices on a cubic grid of step h, merge_vertices in double with a tolerance between 1/4 and 3/4 of h/n afterwards gives a mesh closed by vertex numbers, whose vertices lie on the input triangles and include the input vertices, up to 52 units.", "quantifier": "all consistent meshes, all n >= 1 (welding: n times the size at most 2^40 h), all previous contents of the output", "why_tests_cant": "All meshes, all numbers of segments and all rounding errors; neighbouring triangles compute their common points by different formulas.", "anchors": ["src/MeshTessellate.cpp: compute 10-48, interpolate 50-56", "src/MeshUtil.cpp: merge_vertices 59-127", "src/MeshMeasurements.cpp: volume 81-97, surface 99-115"]}
{"id": "C130", "title": "NURBS circles, disks, spheres, tori and cylinders in floating point lie on the true shapes", "statement": "create_circle, create_disk, create_sphere, create_torus and create_cylinder of NurbsFactory, run in IEEE double with the library square root correctly rounded, make valid curves and surfaces whose points, evaluated in double at any parameters in [0,1], are within 250 units roundoff (circle) or 400 units (surfaces) of the size of the exact point in each coordinate: points of the circle at distance r from the centre within 450 units of r, points of the sphere within 700 units of r, and so on. Without rounding the model is that of exact arithmetic.", "quantifier": "all radii from 2^-400 and sizes up to 2^400, all parameters, every previous content of the objects", "why_tests_cant": "All radii and all parameters, with the rounding of weights, control points and of de Boor's algorithm together; a test checks some points with a tolerance found by trial.", "anchors": ["src/NurbsFactory.cpp: 15-178", "src/NurbsRevolve.cpp: 19-94", "src/NurbsCurve.cpp: evaluate", "src/NurbsSurface.cpp: evaluate"]}
{"id": "C131", "title": "Meshes of NURBS spheres, tori and cylinders made in floating point", "statement": "The NURBS sphere, torus and cylinder of NurbsFactory, made in IEEE double and meshed by NurbsUtil::to_mesh in double, have the triangles of the exact mesh, which is closed (the flags closed_u and closed_v come out as in exact arithmetic); each vertex is within 700 units roundoff of the size of the exact vertex in each coordinate, which lies on the true shape. Volume and surface as computed by MeshUtil in double are those of the exact mesh up to (N+760) N R^3 and 5 (N+860) N R^2 units, N the number of triangles and R the size; is_oriented_outside is true when the exact volume exceeds that error.", "quantifier": "all sizes from 2^-400 to 2^400 that are not below the closing tolerance (twice the tolerance for the cylinder), all resolutions k >= 1, every previous content of the mesh; measures: sizes 1 to 2^199, k up to 2^16", "why_tests_cant": "Decisions by tolerance and rounding errors of construction, evaluation and measuring together, for all sizes and resolutions.", "anchors": ["src/NurbsFactory.cpp: 119-178", "src/NurbsRevolve.cpp: 19-94", "src/NurbsUtil.cpp: to_mesh", "src/MeshMeasurements.cpp: volume 81-97, surface 99-115, is_oriented_outside 47-50"]}
{"id": "C132", "title": "NURBS spheres, tori and cylinders in floating point can be welded to watertight meshes", "statement": "Two samples of the NURBS sphere, torus or cylinder at the resolution k of NurbsUtil::to_mesh are the same point or at least 8r/(45 k^2), 4 min(minor, major - minor)/(9k), min(2r/(9k^2), h/(2k)) apart. Hence the solid made by NurbsFactory, meshed by to_mesh and passed to merge_vertices, all in IEEE double, with a tolerance between 2^-41 of the size and that distance less the same, is closed by vertex numbers: each directed edge occurs as often as its reverse, also across the seams, at the poles and between the three surfaces of the cylinder. The vertices are on the true shape within 2^-42 of the size and not nearer to each other than the tolerance.", "quantifier": "all sizes from 2^-400 to 2^400, all resolutions and tolerances with that room, every previous content of the mesh", "why_tests_cant": "All sizes, resolutions and tolerances; the smallest distance of samples near the poles and the rounding errors of construction, evaluation and comparison together.", "anchors": ["src/NurbsFactory.cpp: 119-178", "src/NurbsRevolve.cpp: 19-94", "src/NurbsUtil.cpp: to_mesh", "src/MeshUtil.cpp: merge_vertices 59-127"]}
{"id": "C133", "title": "Meshes computed in floating point survive STL and OBJ files and can be welded", "statement": "A mesh of double coordinates that is off by at most E from an exact closed surface, saved as STL (32 bit floats, three vertices per triangle) or OBJ (six digits), loaded over any previous content and passed to merge_vertices in IEEE double, is closed by vertex numbers: each directed edge occurs as often as its reverse. The tolerance must exceed 4(E + 2^-23 R) (STL) or 4(E + 6e-6 R) (OBJ), R the size, and different exact vertices must be farther apart than the tolerance by as much. There is one vertex for each exact position, within half that error. In particular NURBS spheres, tori and cylinders made and meshed in double, saved as STL, loaded and merged are watertight, with all vertices on the true shape within 2^-20 of the size.", "quantifier": "all consistent meshes, all errors and tolerances with that room, every previous content of the mesh; shapes: all sizes from 2^-100 to 2^100, all resolutions that fit a file with int vertex numbers", "why_tests_cant": "All meshes and sizes; the errors of construction, evaluation, conversion to float or six digits, and of the comparison with the tolerance come together, and one vertex merged wrongly opens the surface.", "anchors": ["src/STLFile.cpp: save 10-62, load 64-112", "src/OBJFile.cpp: save 11-21, load 24-62, OBJWriter::write 91-128", "src/MeshUtil.cpp: merge_vertices 59-127", "src/NurbsUtil.cpp: to_mesh", "src/NurbsFactory.cpp: 119-178"]}
{"id": "C134", "title": "Meshes of NURBS spheres, tori and cylinders face outwards and their volume converges", "statement": "The mesh NurbsUtil::to_mesh makes of the sphere, torus or cylinder of NurbsFactory with k segments for each control point has a volume between (1 - 1/(3k^2))(1 - 2/(5k^2)) and 1 times 4/3 pi r^3 (sphere), between (1 - 1/(3k^2))(1 - 2/(3k^2)) and 1 + 1/(3k^2) times 2 pi^2 major minor^2 (torus), between 1 - 1/(3k^2) and 1 times pi r^2 h (cylinder). is_oriented_outside is true for all three; each triangle of the sphere and of the cylinder faces away from the centre. The same made, meshed and measured in IEEE double: the volume is off from that of the solid by at most the same order 1/k^2 plus 1e-11 k^4 r^3 (sphere) or 2e-11 k^4 R^3 for rounding, and is_oriented_outside answers true (sphere: all k up to 500; torus and cylinder: when the volume exceeds the rounding error).", "quantifier": "all radii and heights (exact: all not below the closing tolerance, torus minor <= major; double: sizes 1 to 2^199), all resolutions k >= 1 (double: up to 2^16), every previous content of the mesh", "why_tests_cant": "All sizes and all resolutions; a test compares the volume for some resolutions with a tolerance found by trial, and a sign error in one mirrored surface only shows in the sum.", "anchors": ["src/NurbsFactory.cpp: 119-178", "src/NurbsRevolve.cpp: 19-94", "src/NurbsUtil.cpp: to_mesh", "src/MeshMeasurements.cpp: volume 81-97, is_oriented_outside 47-50"]}
{"id": "C135", "title": "The surface area of the meshes of NURBS spheres, tori and cylinders converges", "statement": "The mesh NurbsUtil::to_mesh makes of the sphere, torus or cylinder of NurbsFactory with k segments for each control point has a surface between (1 - 1/(3k^2))(1 - 1/(5k^2)) and 1 times 4 pi r^2 (sphere), between (1 - 1/(3k^2))^2 and 1 + 1/(4k^2) times 4 pi^2 major minor (torus), between 1 - 1/(3k^2) and 1 times 2 pi r (r + h) (cylinder). The same made, meshed and measured in IEEE double is off from the surface of the solid by at most 8/(15k^2), 2/(3k^2), 1/(3k^2) of it plus 5e-11 k^4 r^2 (sphere) or 1e-10 k^4 R^2 for rounding, R = major + minor or r + h.", "quantifier": "all radii and heights (exact: all not below the closing tolerance, torus minor <= major; double: sizes 1 to 2^199), all resolutions k >= 1 (double: up to 2^16), every previous content of the mesh", "why_tests_cant": "All sizes and all resolutions. Convergence of the area does not follow from convergence of the vertices (Schwarz's lantern); a test compares some resolutions with a tolerance found by trial.", "anchors": ["src/NurbsFactory.cpp: 119-178", "src/NurbsRevolve.cpp: 19-94", "src/NurbsUtil.cpp: to_mesh", "src/MeshMeasurements.cpp: surface 99-115"]}
{"id": "C136", "title": "Bezier patches and smooth meshes in floating point", "statement": "QuadBezierTriangle::eval(s, u) in IEEE double is off by at most 2^-44 (W/w) R in each coordinate, for weights between w and W and control points of coordinates up to R. At a corner of weight 1 it is exactly the corner. Two patches with a common side agree there up to 2^-43 (W/w) R; not always exactly, because the third coordinate 1 - s - u is not computed as 0 on the side (1/3, 2/3 with three segments). SmoothMesh::add_to_mesh in double has the triangles of the exact mesh, with vertices off by that error from points of the patches; the vertices of SmoothMeshFactory::create_sphere so meshed lie between 0.96 and 1.07 times the radius.", "quantifier": "all patches with w >= 2^-400, W <= 2^400, W <= 2^40 w, R from 2^-400 to 2^400; all parameters of the triangle, all numbers of segments >= 1, every previous content of the mesh", "why_tests_cant": "All patches, parameters and resolutions with the rounding of some forty operations; a test compares some points with a tolerance found by trial.", "anchors": ["src/QuadBezierTriangle.cpp: eval 44-69, add_to_mesh 71-105", "src/SmoothMesh.cpp: add_to_mesh 60-66", "src/SmoothMeshFactory.cpp: create_sphere 181-241"]}
{"id": "C137", "title": "Where the camera sees a point, in floating point", "statement": "Let q be the point p as the camera sees it: p minus the camera origin, turned by yaw, mirrored, turned by pitch and roll (in true degrees), plus ahead in depth; R = |p - origin| + |ahead|. RendererCamera::project in IEEE double is then defined and gives the pixel nearest to (q.x zoom / q.z + centre, q.y zoom / q.z + centre) up to E = 1e-11 |zoom| (R/|q.z|)^2 + 1e-15 (|centre| + 1) pixels: a point seen further than E inside a pixel with nonnegative coordinates gets that pixel. The depth w is 1/q.z with a relative error of at most 2e-12 R/|q.z|, so its sign is right. The camera origin itself is seen exactly in the middle pixel. For points within ahead/2 of the origin and a zoom up to a million the error is below a thousandth of a pixel.", "quantifier": "all points and cameras with angles up to 360 degrees, R from 2^-200 to 2^200, |zoom| from 2^-200 to 2^200, R <= 1e11 |q.z|, screen coordinates in the range of int; cos and sin of the library with an error of at most 2^-52", "why_tests_cant": "All points and cameras, with the rounding of about thirty operations and a truncation that amplifies any error at the border of two pixels; a test looks at some pixels.", "anchors": ["src/RendererCamera.cpp: set_angles, set_origin, set_screen 16-31, local_ref 33-48, project 50-60", "src/Transform.cpp: RotationEulerAngles 42-75"]}
{"id": "C138", "title": "Colours with lights, and the whole picture, in floating point", "statement": "compute_color_with_lights in IEEE double is defined and packs three bytes. Every byte is the one nearest to 256 times the sum over the lights of (surface channel / 256)(light channel / 256) factor (for diffuse lights times the cosine to the direction, 0 behind), up to 0.0005 steps, and 255 if that is 255 or more. For a triangle that is not too thin the sum is taken with its true normal. A renderer with such lights and a camera whose origin is within ahead/2 of everything drawn runs any sequence of draw calls in double and float without failing an assertion, overflowing or leaving its buffers; projections and colours are computed, not assumed.", "quantifier": "all lists of at most 1000 lights with factors 0 to 100 and directions of length up to 10, all colours, all normals with an error up to 1e-12 (all triangles of area at least s^2/128 in a cube of side s); all sequences of draw calls with points in the ball and triangles whose computed cross product has a length from 2^-400 to 2^400, zoom 1 to 1e6, all screen sizes", "why_tests_cant": "All lights, colours, normals and pictures with the rounding of every operation; a test sees some colours and cannot show the absence of overflow or assertion failures.", "anchors": ["src/RendererLight.cpp: 11-42", "src/Renderer.cpp: compute_color_with_lights 53-82, draw functions 84-402", "src/RendererCamera.cpp: project 50-60", "src/Geometry.cpp: Triangle3::normal 431-434"]}
{"id": "C139", "title": "Bernstein polynomials and point-normal triangles in floating point", "statement": "The Bernstein functions in IEEE double at a parameter of [0,1] are never negative, are within 2^-48 of their exact values, and sum to 1 within 2^-46 for each degree. CubicBezierTriangles::set_normals in double keeps the corners, and gives side control points within 2^-48 S and a central one within 2^-46 S of the exact ones, for corners with coordinates up to S and normals of squared length 1 within 2^-46, as Point3::normalized computes them. So the control points next to a corner are in its tangent plane within 2^-44 S and flat triangles stay flat within 2^-46 S. Neighbouring triangles compute bit for bit the same control points for their common side.", "quantifier": "all parameters in [0,1]; all triangles with coordinates up to S, all S from 2^-900 to 2^900, all normals that are unit vectors up to rounding (all vectors of length 2^-400 to 2^400, normalised in double); the common side for every rounding", "why_tests_cant": "All triangles, normals and parameters with the rounding of every operation; a test compares a few control points with a tolerance chosen by hand and has no exact values to compare with.", "anchors": ["src/BezierUtil.cpp", "src/CubicBezierTriangles.cpp: set_normals 37-64", "src/Geometry.cpp: Point3 90-142, normalized 160-164"]}
{"id": "C140", "title": "Image scaling in floating point", "statement": "ImageUtil::scale computed in IEEE double keeps the size of the image, is defined for every image, and makes every sample the integer nearest to the scaled sample, up to 2^-43; a sample brighter than another never becomes darker than it, and a factor of 1 changes nothing.", "quantifier": "all images with fewer than 2^31 samples, all factors from 0 up; proved for factors with 255 s <= 255.49. Beyond that the conversion to unsigned char is undefined: the samples do not saturate (shown for the factor 2 and every sample from 128 on).", "why_tests_cant": "All images and all factors with the rounding of both operations; a test sees a few samples and on an overflowing conversion gets whatever its compiler chose.", "anchors": ["src/ImageUtil.cpp: scale 25-31"]}
{"id": "C141", "title": "The Mandelbrot picture is computed without overflow", "statement": "At every pixel, ImageGenerator::Mandelbrot in IEEE float never divides by zero and computes no number beyond the range of float: the numbers of the position of the pixel are at most 2^31 and those of every round of the loop, up to the test that ends it, are at most 1000. Infinities and NaN do not occur.", "quantifier": "all picture sizes, all pixels, every round the loop reaches, every number of iterations", "why_tests_cant": "All sizes, pixels and rounds, with the rounding of every operation; the numbers inside the loop are not visible to a test, and an infinity or NaN ends the loop silently with a plausible colour.", "anchors": ["src/ImageGenerator.cpp: Mandelbrot 16-49"]}
