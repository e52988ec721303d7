import Verif.Model.Factory
import Verif.Model.Rounded

/-!
Model of the round solids and the dodecahedron of `/repo/src/MeshFactory.cpp` with every arithmetic
operation rounded by `fl`; the control flow and the triangles are those of `Model/Factory.lean`.
The library functions `cos` and `sin` are parameters `C` and `S`.  Conversions from `int` and
negation are exact.
-/

namespace CAD
namespace Factory
variable (fl C S : ℝ → ℝ)

/-- `(double)i / L * 2. * PI`, lines 191-192, 255, 320, 324 -/
noncomputable def angleR (i L : Int) : ℝ := fl (fl (fl ((i : ℝ) / L) * 2) * fl 3.14159265358979323846264338)

/-- `(double)latitude / iNbSegmentLatitude * PI`, line 259 -/
noncomputable def halfAngleR (i L : Int) : ℝ := fl (fl ((i : ℝ) / L) * fl 3.14159265358979323846264338)

/-- `create_cylinder` 179-219 -/
noncomputable def createCylinderR (dHeight dRadius : ℝ) (iNbSegments : Int) (m : Mesh ℝ) :
    Res (Mesh ℝ) := do
  let m := m.clear
  let z := fl (dHeight / 2)
  let L := 2 + 4 * iNbSegments
  let m ← loopN L.toNat (fun i m =>
    let x := fl (C (angleR fl i L) * dRadius)
    let y := fl (S (angleR fl i L) * dRadius)
    some (addVertices m [⟨x, y, z⟩, ⟨x, y, -z⟩])) m
  let m := addVertices m [⟨0, 0, z⟩, ⟨0, 0, -z⟩]
  let m ← loopN (L - 1).toNat (fun i m =>
    m.addQuad (2 * i) (2 * i + 1) (2 * i + 3) (2 * i + 2)) m
  let m ← m.addQuad (2 * L - 2) (2 * L - 1) 1 0
  let m ← loopN L.toNat (fun i m => addTriangles m [(L * 2, 2 * i, 2 * i + 2)]) m
  let m ← addTriangles m [(L * 2, 2 * L - 2, 0)]
  let m ← loopN L.toNat (fun i m => addTriangles m [(L * 2 + 1, 2 * i + 3, 2 * i + 1)]) m
  addTriangles m [(L * 2 + 1, 1, 2 * L - 1)]

/-- `create_sphere_uv` 243-301 -/
noncomputable def createSphereUvR (dRadius : ℝ) (iNbSegments : Int) (m : Mesh ℝ) : Res (Mesh ℝ) := do
  let m := m.clear
  let L := 2 + 4 * iNbSegments
  let N := 2 + (4 * iNbSegments).tdiv 2
  let m ← loopN L.toNat (fun longitude m =>
    let upi := angleR fl longitude L
    loopN (N - 1).toNat (fun i m =>
      -- `latitude` runs from 1
      let latitude : Int := i + 1
      let vpi := halfAngleR fl latitude N
      some (m.addVertex ⟨fl (fl (dRadius * S vpi) * C upi), fl (fl (dRadius * S vpi) * S upi),
        fl (dRadius * C vpi)⟩).1) m) m
  let m := addVertices m [⟨0, 0, dRadius⟩, ⟨0, 0, -dRadius⟩]
  let M := N - 1
  let iPoleNorth := m.nbVertices - 2
  let iPoleSouth := m.nbVertices - 1
  loopN L.toNat (fun longitude m => do
    let a : Int := longitude
    let b := (longitude + 1 : Int).tmod L
    let m ← addTriangles m [(iPoleNorth, a * M, b * M)]
    let m ← loopN (M - 1).toNat (fun i m =>
      let latitude : Int := i + 1
      m.addQuad (a * M + latitude - 1) (a * M + latitude) (b * M + latitude)
        (b * M + latitude - 1)) m
    addTriangles m [(a * M + M - 1, iPoleSouth, b * M + M - 1)]) m

/-- `create_torus` 303-348 -/
noncomputable def createTorusR (dMajorRadius dMinorRadius : ℝ) (iNbSegments : Int) (m : Mesh ℝ) :
    Res (Mesh ℝ) := do
  let m := m.clear
  if m.isEmpty = false then return m
  let L := 2 + 4 * iNbSegments
  let N := 2 + 4 + (4 * iNbSegments).tdiv 2
  let m ← loopN L.toNat (fun longitude m =>
    let upi := angleR fl longitude L
    loopN N.toNat (fun latitude m =>
      let vpi := angleR fl latitude N
      let d := fl (dMajorRadius + fl (dMinorRadius * C vpi))
      some (m.addVertex ⟨fl (d * C upi), fl (d * S upi), fl (dMinorRadius * S vpi)⟩).1) m) m
  loopN L.toNat (fun longitude m =>
    loopN N.toNat (fun latitude m =>
      let longitude2 := (longitude + 1 : Int).tmod L
      let latitude2 := (latitude + 1 : Int).tmod N
      m.addQuad (longitude2 * N + latitude) (longitude2 * N + latitude2)
        (longitude * N + latitude2) (longitude * N + latitude)) m) m

/-- `create_dodecahedron` 74-126 -/
noncomputable def createDodecahedronR (dSize : ℝ) (m : Mesh ℝ) : Res (Mesh ℝ) :=
  let m := m.clear
  let u := dSize
  let t1 := fl (fl (fl (Real.sqrt 5) + 1) / 2)
  let t2 := fl (1 / t1)
  let t1 := fl (t1 * dSize)
  let t2 := fl (t2 * dSize)
  let m := addVertices m [⟨u, u, u⟩, ⟨u, u, -u⟩, ⟨u, -u, u⟩, ⟨u, -u, -u⟩,
    ⟨-u, u, u⟩, ⟨-u, u, -u⟩, ⟨-u, -u, u⟩, ⟨-u, -u, -u⟩,
    ⟨0, t1, t2⟩, ⟨0, t1, -t2⟩, ⟨0, -t1, t2⟩, ⟨0, -t1, -t2⟩,
    ⟨t2, 0, t1⟩, ⟨t2, 0, -t1⟩, ⟨-t2, 0, t1⟩, ⟨-t2, 0, -t1⟩,
    ⟨t1, t2, 0⟩, ⟨t1, -t2, 0⟩, ⟨-t1, t2, 0⟩, ⟨-t1, -t2, 0⟩]
  addPentagons m [(0, 12, 2, 17, 16), (19, 18, 5, 15, 7), (12, 0, 8, 4, 14), (13, 3, 11, 7, 15),
    (2, 12, 14, 6, 10), (9, 1, 13, 15, 5), (18, 19, 6, 14, 4), (3, 13, 1, 16, 17),
    (1, 9, 8, 0, 16), (19, 7, 11, 10, 6), (18, 4, 8, 9, 5), (2, 10, 11, 3, 17)]

/-- `create_box` 28-51 -/
noncomputable def createBoxR (xSize ySize zSize : ℝ) (m : Mesh ℝ) : Res (Mesh ℝ) :=
  let x := fl (xSize / 2)
  let y := fl (ySize / 2)
  let z := fl (zSize / 2)
  let m := m.clear
  let m := addVertices m [⟨x, y, z⟩, ⟨-x, y, z⟩, ⟨-x, -y, z⟩, ⟨x, -y, z⟩,
    ⟨x, y, -z⟩, ⟨-x, y, -z⟩, ⟨-x, -y, -z⟩, ⟨x, -y, -z⟩]
  addQuads m [(0, 1, 2, 3), (7, 6, 5, 4), (4, 5, 1, 0), (3, 2, 6, 7), (5, 6, 2, 1), (0, 3, 7, 4)]

end Factory
end CAD
