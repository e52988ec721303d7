import Verif.Model.Tessellate
import Verif.Model.MeshUtil
import Mathlib.Analysis.SpecialFunctions.Trigonometric.Basic

/-! Model of `/repo/src/MeshFactory.cpp`.  The literal
`PI = 3.14159265358979323846264338` is modelled by `π`. -/

namespace CAD
namespace Factory
variable {K : Type}

/-- a sequence of `m.add_vertex(x, y, z);` statements -/
def addVertices (m : Mesh K) (ps : List (P3 K)) : Mesh K :=
  ps.foldl (fun m p => (m.addVertex p).1) m

/-- a sequence of `m.add_triangle(a, b, c);` statements -/
def addTriangles (m : Mesh K) (fs : List (Int × Int × Int)) : Res (Mesh K) :=
  fs.foldlM (fun m f => do
    let (m, _) ← m.addTriangle f.1 f.2.1 f.2.2
    return m) m

/-- a sequence of `m.add_quad(a, b, c, d);` statements -/
def addQuads (m : Mesh K) (fs : List (Int × Int × Int × Int)) : Res (Mesh K) :=
  fs.foldlM (fun m f => m.addQuad f.1 f.2.1 f.2.2.1 f.2.2.2) m

/-- a sequence of `m.add_pentagon(a, b, c, d, e);` statements -/
def addPentagons (m : Mesh K) (fs : List (Int × Int × Int × Int × Int)) : Res (Mesh K) :=
  fs.foldlM (fun m f => m.addPentagon f.1 f.2.1 f.2.2.1 f.2.2.2.1 f.2.2.2.2) m

/-- `create_tetrahedron` 13-26 -/
def createTetrahedron [Field K] (s : K) (m : Mesh K) : Res (Mesh K) :=
  let m := m.clear
  let m := addVertices m [⟨s, s, s⟩, ⟨-s, -s, s⟩, ⟨s, -s, -s⟩, ⟨-s, s, -s⟩]
  addTriangles m [(0, 1, 2), (1, 3, 2), (0, 3, 1), (0, 2, 3)]

/-- `create_box` 28-51 -/
def createBox [Field K] (xSize ySize zSize : K) (m : Mesh K) : Res (Mesh K) :=
  let x := xSize / 2
  let y := ySize / 2
  let z := zSize / 2
  let m := m.clear
  let m := addVertices m [⟨x, y, z⟩, ⟨-x, y, z⟩, ⟨-x, -y, z⟩, ⟨x, -y, z⟩,
    ⟨x, y, -z⟩, ⟨-x, y, -z⟩, ⟨-x, -y, -z⟩, ⟨x, -y, -z⟩]
  addQuads m [(0, 1, 2, 3), (7, 6, 5, 4), (4, 5, 1, 0), (3, 2, 6, 7), (5, 6, 2, 1), (0, 3, 7, 4)]

/-- `create_octahedron` 53-72 -/
def createOctahedron [Field K] (s : K) (m : Mesh K) : Res (Mesh K) :=
  let m := m.clear
  let m := addVertices m [⟨s, 0, 0⟩, ⟨0, s, 0⟩, ⟨0, 0, s⟩, ⟨-s, 0, 0⟩, ⟨0, -s, 0⟩, ⟨0, 0, -s⟩]
  addTriangles m [(0, 1, 2), (1, 0, 5), (2, 1, 3), (0, 2, 4), (4, 3, 5), (3, 4, 2), (5, 3, 1),
    (4, 5, 0)]

/-- `create_dodecahedron` 74-126 -/
noncomputable def createDodecahedron (dSize : ℝ) (m : Mesh ℝ) : Res (Mesh ℝ) :=
  let m := m.clear
  let u := dSize
  let t1 := (Real.sqrt 5 + 1) / 2
  let t2 := 1 / t1
  let t1 := t1 * dSize
  let t2 := t2 * dSize
  let m := addVertices m [⟨u, u, u⟩, ⟨u, u, -u⟩, ⟨u, -u, u⟩, ⟨u, -u, -u⟩,
    ⟨-u, u, u⟩, ⟨-u, u, -u⟩, ⟨-u, -u, u⟩, ⟨-u, -u, -u⟩,
    ⟨0, t1, t2⟩, ⟨0, t1, -t2⟩, ⟨0, -t1, t2⟩, ⟨0, -t1, -t2⟩,
    ⟨t2, 0, t1⟩, ⟨t2, 0, -t1⟩, ⟨-t2, 0, t1⟩, ⟨-t2, 0, -t1⟩,
    ⟨t1, t2, 0⟩, ⟨t1, -t2, 0⟩, ⟨-t1, t2, 0⟩, ⟨-t1, -t2, 0⟩]
  addPentagons m [(0, 12, 2, 17, 16), (19, 18, 5, 15, 7), (12, 0, 8, 4, 14), (13, 3, 11, 7, 15),
    (2, 12, 14, 6, 10), (9, 1, 13, 15, 5), (18, 19, 6, 14, 4), (3, 13, 1, 16, 17),
    (1, 9, 8, 0, 16), (19, 7, 11, 10, 6), (18, 4, 8, 9, 5), (2, 10, 11, 3, 17)]

/-- the vertices and triangles of `create_icosahedron`, lines 130 and 136-176, for the
values `u` and `t` of lines 133-134 -/
noncomputable def icosahedronWith (u t : ℝ) (m : Mesh ℝ) : Res (Mesh ℝ) :=
  let m := m.clear
  let m := addVertices m [⟨u, 0, t⟩, ⟨u, 0, -t⟩, ⟨-u, 0, t⟩, ⟨-u, 0, -t⟩,
    ⟨0, t, u⟩, ⟨0, -t, u⟩, ⟨0, t, -u⟩, ⟨0, -t, -u⟩,
    ⟨t, u, 0⟩, ⟨-t, u, 0⟩, ⟨t, -u, 0⟩, ⟨-t, -u, 0⟩]
  addTriangles m [(0, 1, 8), (0, 10, 1), (2, 3, 11), (2, 9, 3),
    (4, 5, 0), (4, 2, 5), (6, 7, 3), (6, 1, 7),
    (8, 9, 4), (8, 6, 9), (10, 11, 7), (10, 5, 11),
    (0, 8, 4), (3, 7, 11), (10, 0, 5), (9, 6, 3), (1, 6, 8), (2, 11, 5), (2, 4, 9), (1, 10, 7)]

/-- `create_icosahedron` 128-177 -/
noncomputable def createIcosahedron (dSize : ℝ) (m : Mesh ℝ) : Res (Mesh ℝ) :=
  let u := dSize
  let t := (Real.sqrt 5 - 1) / 2 * dSize
  icosahedronWith u t m

open Real in
/-- `create_cylinder` 179-219 -/
noncomputable def createCylinder (dHeight dRadius : ℝ) (iNbSegments : Int) (m : Mesh ℝ) :
    Res (Mesh ℝ) := do
  let m := m.clear
  let z := dHeight / 2
  let L := 2 + 4 * iNbSegments
  let m ← loopN L.toNat (fun i m =>
    let x := cos ((i : ℝ) / L * 2 * π) * dRadius
    let y := sin ((i : ℝ) / L * 2 * π) * dRadius
    some (addVertices m [⟨x, y, z⟩, ⟨x, y, -z⟩])) m
  let m := addVertices m [⟨0, 0, z⟩, ⟨0, 0, -z⟩]
  let m ← loopN (L - 1).toNat (fun i m =>
    m.addQuad (2 * i) (2 * i + 1) (2 * i + 3) (2 * i + 2)) m
  let m ← m.addQuad (2 * L - 2) (2 * L - 1) 1 0
  let m ← loopN L.toNat (fun i m => addTriangles m [(L * 2, 2 * i, 2 * i + 2)]) m
  let m ← addTriangles m [(L * 2, 2 * L - 2, 0)]
  let m ← loopN L.toNat (fun i m => addTriangles m [(L * 2 + 1, 2 * i + 3, 2 * i + 1)]) m
  addTriangles m [(L * 2 + 1, 1, 2 * L - 1)]

/-- `create_sphere_geodesic` 221-241.  `0.951` is the rational 951/1000. -/
noncomputable def createSphereGeodesic (dRadius : ℝ) (iNbSegments : Int) (m : Mesh ℝ) :
    Res (Mesh ℝ) := do
  let m := m.clear
  let mi ← createIcosahedron 1 Mesh.new
  let m ← Tessellate.compute mi iNbSegments m
  let m ← loopN m.nbVertices.toNat (fun i m => do
    let v ← m.getVertex i
    let n ← v.normalized
    m.setVertex i (dRadius • n)) m
  let dEdgesize := dRadius / (951 / 1000)
  MeshUtil.mergeVertices m (dEdgesize / iNbSegments / 20)

open Real in
/-- `create_sphere_uv` 243-301.  `4 * iNbSegments / 2` is an integer division. -/
noncomputable def createSphereUv (dRadius : ℝ) (iNbSegments : Int) (m : Mesh ℝ) : Res (Mesh ℝ) := do
  let m := m.clear
  let L := 2 + 4 * iNbSegments
  let N := 2 + (4 * iNbSegments).tdiv 2
  let m ← loopN L.toNat (fun longitude m =>
    let upi := (longitude : ℝ) / L * 2 * π
    loopN (N - 1).toNat (fun i m =>
      -- `latitude` runs from 1
      let latitude := i + 1
      let vpi := (latitude : ℝ) / N * π
      some (m.addVertex ⟨dRadius * sin vpi * cos upi, dRadius * sin vpi * sin upi,
        dRadius * cos vpi⟩).1) m) m
  let m := addVertices m [⟨0, 0, dRadius⟩, ⟨0, 0, -dRadius⟩]
  let M := N - 1
  let iPoleNorth := m.nbVertices - 2
  let iPoleSouth := m.nbVertices - 1
  loopN L.toNat (fun longitude m => do
    let a : Int := longitude
    let b := (longitude + 1 : Int).tmod L
    let m ← addTriangles m [(iPoleNorth, a * M, b * M)]
    let m ← loopN (M - 1).toNat (fun i m =>
      let latitude : Int := i + 1
      m.addQuad (a * M + latitude - 1) (a * M + latitude) (b * M + latitude)
        (b * M + latitude - 1)) m
    addTriangles m [(a * M + M - 1, iPoleSouth, b * M + M - 1)]) m

open Real in
/-- `create_torus` 303-348.  The early return 307-308 is never taken: a cleared
mesh is empty; it is kept. -/
noncomputable def createTorus (dMajorRadius dMinorRadius : ℝ) (iNbSegments : Int) (m : Mesh ℝ) :
    Res (Mesh ℝ) := do
  let m := m.clear
  if m.isEmpty = false then return m
  let L := 2 + 4 * iNbSegments
  let N := 2 + 4 + (4 * iNbSegments).tdiv 2
  let m ← loopN L.toNat (fun longitude m =>
    let upi := (longitude : ℝ) / L * 2 * π
    loopN N.toNat (fun latitude m =>
      let vpi := (latitude : ℝ) / N * 2 * π
      some (m.addVertex ⟨(dMajorRadius + dMinorRadius * cos vpi) * cos upi,
        (dMajorRadius + dMinorRadius * cos vpi) * sin upi, dMinorRadius * sin vpi⟩).1) m) m
  loopN L.toNat (fun longitude m =>
    loopN N.toNat (fun latitude m =>
      let longitude2 := (longitude + 1 : Int).tmod L
      let latitude2 := (latitude + 1 : Int).tmod N
      m.addQuad (longitude2 * N + latitude) (longitude2 * N + latitude2)
        (longitude * N + latitude2) (longitude * N + latitude)) m) m

end Factory
end CAD
