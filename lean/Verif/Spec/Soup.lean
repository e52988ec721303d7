import Verif.Spec.Mesh
import Mathlib.Data.Sym.Sym2
import Mathlib.Data.Finset.Dedup
import Mathlib.Data.Finset.Card

/-! Geometric content of a mesh, as seen through its queries. -/

namespace CAD

/-- The linked triangles of a mesh in id order, each as three points, read
through the public queries. -/
def Mesh.triangles {K : Type} (m : Mesh K) : List (Tri3 K) :=
  (List.range m.nbTriangles.toNat).filterMap fun (i : Nat) =>
    if m.isTriangleUnlinked i = some false then m.getTriangle i else none

/-- A mesh whose stored ids are consistent: every mesh reached by a history of
calls is (`Mesh.run_ok`). -/
structure Mesh.OK {K : Type} (m : Mesh K) : Prop where
  /-- no triangle has neighbour ids (no method of the kernel ever sets one) -/
  near : ∀ i a b c, m.getNearTriangles i = some (a, b, c) → a = -1 ∧ b = -1 ∧ c = -1
  /-- corners of all triangles, linked or not, are existing vertices -/
  corners : ∀ i a b c, m.getTriangleVertices i = some (a, b, c) →
    (0 ≤ a ∧ a < m.nbVertices) ∧ (0 ≤ b ∧ b < m.nbVertices) ∧ (0 ≤ c ∧ c < m.nbVertices)

/-- directed edges of a triangle -/
def Tri3.dirEdges {K : Type*} (t : Tri3 K) : List (P3 K × P3 K) :=
  [(t.p1, t.p2), (t.p2, t.p3), (t.p3, t.p1)]

/-- Closed and consistently oriented: the directed edges, with multiplicity,
are the reversed directed edges. -/
def ClosedSoup {K : Type*} (ts : List (Tri3 K)) : Prop :=
  (ts.flatMap Tri3.dirEdges).Perm ((ts.flatMap Tri3.dirEdges).map Prod.swap)

instance {K : Type*} [DecidableEq K] (ts : List (Tri3 K)) : Decidable (ClosedSoup ts) := by
  unfold ClosedSoup; infer_instance

/-- Signed volume of the tetrahedron `0 p q r`, times six. -/
def det3 {K : Type*} [Field K] (p q r : P3 K) : K :=
  p.x * (q.y * r.z - q.z * r.y) - p.y * (q.x * r.z - q.z * r.x) + p.z * (q.x * r.y - q.y * r.x)

/-- Twice the vector area of a triangle. -/
def Tri3.vecArea {K : Type*} [Field K] (t : Tri3 K) : P3 K :=
  (t.p2 - t.p1).cross (t.p3 - t.p1)

end CAD

namespace CAD

/-- the directed edges of a closed polygon -/
def ringEdges {K : Type*} (l : List (P3 K)) : List (P3 K × P3 K) := l.zip (l.rotate 1)

/-- Twice the vector area enclosed by a family of directed edges (Newell). -/
def edgesArea {K : Type*} [Field K] (es : List (P3 K × P3 K)) : P3 K :=
  (es.map fun e => e.1.cross e.2).foldr (· + ·) ⟨0, 0, 0⟩

/-- image of a triangle under a map of points -/
def Tri3.map {K : Type*} (f : P3 K → P3 K) (t : Tri3 K) : Tri3 K := ⟨f t.p1, f t.p2, f t.p3⟩

/-- The affine map with matrix rows `r1 r2 r3` and translation `t`. -/
def affine {K : Type*} [Field K] (r1 r2 r3 t : P3 K) (p : P3 K) : P3 K :=
  ⟨r1.dot p + t.x, r2.dot p + t.y, r3.dot p + t.z⟩

end CAD

namespace CAD

/-- The corner triples of the linked triangles in id order, read through the
public queries. -/
def Mesh.cornerList {K : Type} (m : Mesh K) : List (Int × Int × Int) :=
  (List.range m.nbTriangles.toNat).filterMap fun (i : Nat) =>
    if m.isTriangleUnlinked i = some false then m.getTriangleVertices i else none

/-- directed edges (pairs of vertex ids) of corner triples -/
def idEdges (fs : List (Int × Int × Int)) : List (Int × Int) :=
  fs.flatMap fun f => [(f.1, f.2.1), (f.2.1, f.2.2), (f.2.2, f.1)]

/-- Each directed edge occurs once, its reverse occurs (once) too, and no edge
joins a vertex to itself: an oriented surface without boundary. -/
structure ClosedIds (fs : List (Int × Int × Int)) : Prop where
  once : (idEdges fs).Nodup
  reverse : ∀ e ∈ idEdges fs, e.swap ∈ idEdges fs
  proper : ∀ e ∈ idEdges fs, e.1 ≠ e.2

/-- number of undirected edges -/
def edgeCount (fs : List (Int × Int × Int)) : Nat :=
  ((idEdges fs).map fun e => s(e.1, e.2)).toFinset.card

end CAD
