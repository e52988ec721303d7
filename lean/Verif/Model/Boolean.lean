import Verif.Model.Mesh

/-!
Model of `Mesh::split_triangle` (src/Mesh.cpp 352-449) and of
`MeshBoolean::split_meshes` (src/MeshBoolean.cpp 7-39).

The code builds planes with a normalised normal, which needs a square root.  The
definitions take the constructor `Plane3(const Triangle3&)` as a parameter
`plane`; `none` stands for the plane of a degenerate triangle, all of whose
coefficients are NaN.  `plane := Tri3.plane` (over ℝ) is the code;
`plane := Tri3.rawPlane` skips the normalisation and works over every ordered
field.  `Boolean.split_meshes_raw` proves that both give the same result.
-/

namespace CAD

/-- `Plane3(const Triangle3&)` (src/Geometry.cpp 452-466) without the
normalisation of line 463 -/
def Tri3.rawPlane {K : Type} [Field K] [LinearOrder K] (t : Tri3 K) : Option (Plane3 K) :=
  let n := t.orthogonal
  if n.x = 0 ∧ n.y = 0 ∧ n.z = 0 then none else
  some ⟨n.x, n.y, n.z, -(n.x * t.p1.x + n.y * t.p1.y + n.z * t.p1.z)⟩

/-- `cutted_by(plane)` (src/Geometry.cpp 335-352) for a plane that may be NaN:
every comparison with NaN is false, no side is counted. -/
def Tri3.cuttedByRes {K : Type} [Field K] [LinearOrder K] (t : Tri3 K) :
    Option (Plane3 K) → Bool
  | none => false
  | some p => t.cuttedBy p

namespace Mesh
variable {K : Type} [Field K] [LinearOrder K]

/-- the vector `vIntersections`, src/Mesh.cpp 367-376 -/
def splitPoints (pA : Plane3 K) (s : Tri3 K) : List (P3 K) :=
  let v := (pA.intersectSeg ⟨s.p1, s.p2⟩).toList ++ (pA.intersectSeg ⟨s.p1, s.p3⟩).toList
  if v.length < 2 then v ++ (pA.intersectSeg ⟨s.p2, s.p3⟩).toList else v

/-- the block 396-413 for two intersection points that are both outside `tA`:
nothing is written; `none` if the assert of line 412 fails. -/
def splitOutside (tA : Tri3 K) (P1 P2 : P3 K) : Res Unit :=
  let splitSeg : Seg3 K := ⟨P1, P2⟩
  let b12 := ((⟨tA.p1, tA.p2⟩ : Seg3 K).intersect splitSeg).isSome
  let b13 := ((⟨tA.p1, tA.p3⟩ : Seg3 K).intersect splitSeg).isSome
  let b23 := ((⟨tA.p2, tA.p3⟩ : Seg3 K).intersect splitSeg).isSome
  if (b12 || b13 || b23) = false then some () else
  assert ((b12 && b13 && b23) = false)

/-- src/Mesh.cpp 378-414: what is done with the intersection points (the
assert of line 378 comes first; lines 416-447 are commented out). -/
def splitAt (m : Mesh K) (iTriangle : Int) (tA : Tri3 K) (v : List (P3 K)) : Res (Mesh K) :=
  if 2 < v.length then none else
  match v with
  | [] => some m
  | [P1] => if tA.contains P1 then m.splitTriangleWithPoint iTriangle P1 else some m
  | P1 :: P2 :: _ =>
    if tA.contains P1 = false ∧ tA.contains P2 = false then
      (splitOutside tA P1 P2).map fun _ => m
    else some m

/-- `Mesh::split_triangle` 352-449.  (When `planeA` is NaN, `cutted_by` is false
and the function returns, so `splitPoints` always gets a proper plane.) -/
def splitTriangle (plane : Tri3 K → Option (Plane3 K)) (m : Mesh K) (iTriangle : Int)
    (tSplitter : Tri3 K) : Res (Mesh K) :=
  (m.getTriangle iTriangle).bind fun tA =>
  if tA.cuttedByRes (plane tSplitter) = false then some m else
  match plane tA with
  | none => some m
  | some planeA =>
    if tSplitter.cuttedBy planeA = false then some m else
    m.splitAt iTriangle tA (splitPoints planeA tSplitter)

end Mesh

namespace Boolean
variable {K : Type} [Field K] [LinearOrder K]

/-- the output arguments of `split_meshes` -/
structure Out (K : Type) where
  aOutside : Mesh K
  bOutside : Mesh K
  aInB : Mesh K
  bInA : Mesh K

/-- the body of the inner loop, src/MeshBoolean.cpp 24-36, for one `j` -/
def inner (plane : Tri3 K → Option (Plane3 K)) (B : Mesh K) (i : Nat) (tA : Tri3 K) (j : Nat)
    (o : Out K) : Res (Out K) :=
  (B.isTriangleUnlinked j).bind fun u =>
  if u then some o else
  (B.getTriangle j).bind fun tB =>
  if (BBox.ofTri tA).intersectWith (BBox.ofTri tB) = false then some o else
  (o.aOutside.splitTriangle plane i tB).bind fun a =>
  (o.bOutside.splitTriangle plane j tA).bind fun b =>
  some ⟨a, b, o.aInB, o.bInA⟩

/-- the body of the outer loop 14-37, for one `i` -/
def outer (plane : Tri3 K → Option (Plane3 K)) (A B : Mesh K) (i : Nat) (o : Out K) :
    Res (Out K) :=
  (A.isTriangleUnlinked i).bind fun u =>
  if u then some o else
  (A.getTriangle i).bind fun tA =>
  loopN B.nbTriangles.toNat (inner plane B i tA) o

/-- `MeshBoolean::split_meshes` 7-39.  The four outputs are objects different
from each other and from `A` and `B`. -/
def splitMeshes (plane : Tri3 K → Option (Plane3 K)) (A B : Mesh K) (o : Out K) : Res (Out K) :=
  (o.aOutside.assign A).bind fun a =>
  (o.bOutside.assign B).bind fun b =>
  loopN A.nbTriangles.toNat (outer plane A B) ⟨a, b, o.aInB, o.bInA⟩

end Boolean
end CAD
