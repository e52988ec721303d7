import Verif.Model.Kernel
import Verif.Model.Transform

/-!
Model of `/repo/src/Mesh.h` and `/repo/src/Mesh.cpp` with the kernel the
constructor creates (`MeshKernelLinkedTriangles`, line 19).

Methods that modify `*this` return the new object; `none` is undefined behaviour
(failed `assert`, index outside a vector).  A method taking another mesh by
reference has a separate definition for the aliased call.
-/

namespace CAD

/-- `for (int i = 0; i < n; i++) body(i)` with a bound that does not change. -/
def loopN {σ : Type} (n : Nat) (body : Nat → σ → Res σ) (s : σ) : Res σ :=
  (List.range n).foldlM (fun s i => body i s) s

/-- Outcome of running a loop for a limited number of iterations: finished,
undefined behaviour in the body, or still running (next index and state). -/
inductive LoopOut (σ : Type) where
  | done (s : σ)
  | undef
  | running (i : Int) (s : σ)

/-- `for (int i = i0; i < bound(state); i++) body(i)` with a bound that is
evaluated again before each iteration, observed for `fuel` iterations. -/
def loopFuel {σ : Type} (bound : σ → Int) (body : Int → σ → Res σ) :
    Nat → Int → σ → LoopOut σ
  | 0, i, s => if i < bound s then .running i s else .done s
  | fuel + 1, i, s =>
    if i < bound s then
      match body i s with
      | none => .undef
      | some s' => loopFuel bound body fuel (i + 1) s'
    else .done s

/-- `class Mesh`: `_pKernel`, `_iColor` -/
structure Mesh (K : Type) where
  kern : KernLT K
  color : Int
deriving DecidableEq, Repr

namespace Mesh
variable {K : Type}

/-- constructor 15-21 -/
def new : Mesh K := ⟨KernLT.empty, -1⟩

/-- `set_color` 33-36 -/
def setColor (m : Mesh K) (c : Int) : Mesh K := { m with color := c }

/-- `get_color` 38-41 -/
def getColor (m : Mesh K) : Int := m.color

/-- `nb_triangles` 43-46 -/
def nbTriangles (m : Mesh K) : Int := m.kern.nbTriangles

/-- `is_triangle_unlinked` 48-54 -/
def isTriangleUnlinked (m : Mesh K) (i : Int) : Res Bool := do
  assert (0 ≤ i ∧ i < m.kern.nbTriangles)
  m.kern.isTriangleUnlinked i

/-- `get_near_triangles` 55-61 -/
def getNearTriangles (m : Mesh K) (i : Int) : Res (Int × Int × Int) := do
  assert (0 ≤ i ∧ i < m.kern.nbTriangles)
  m.kern.getNearTriangles i

/-- `get_triangle_vertices(int, int&, int&, int&)` 81-87 -/
def getTriangleVertices (m : Mesh K) (i : Int) : Res (Int × Int × Int) := do
  assert (0 ≤ i ∧ i < m.kern.nbTriangles)
  m.kern.getTriangleVertices i

/-- `get_triangle` 63-79 (and `get_triangle_vertices(int, Point3&…)` 89-100,
which has the same body) -/
def getTriangle (m : Mesh K) (i : Int) : Res (Tri3 K) := do
  assert (0 ≤ i ∧ i < m.kern.nbTriangles)
  let (a, b, c) ← m.getTriangleVertices i
  let v1 ← m.kern.getVertex a
  let v2 ← m.kern.getVertex b
  let v3 ← m.kern.getVertex c
  return ⟨v1, v2, v3⟩

/-- `unlink_triangle` 102-108 -/
def unlinkTriangle (m : Mesh K) (i : Int) : Res (Mesh K) := do
  assert (0 ≤ i ∧ i < m.kern.nbTriangles)
  let k ← m.kern.unlinkTriangle i
  return { m with kern := k }

/-- `nb_vertices` 335-338 -/
def nbVertices (m : Mesh K) : Int := m.kern.nbVertices

/-- `get_vertex` 327-333 -/
def getVertex (m : Mesh K) (i : Int) : Res (P3 K) := do
  assert (0 ≤ i ∧ i < m.kern.nbVertices)
  m.kern.getVertex i

/-- `set_vertex` 319-325 -/
def setVertex (m : Mesh K) (i : Int) (p : P3 K) : Res (Mesh K) := do
  assert (0 ≤ i ∧ i < m.kern.nbVertices)
  let k ← m.kern.setVertex i p
  return { m with kern := k }

/-- `add_vertex` 309-317 (both overloads) -/
def addVertex (m : Mesh K) (p : P3 K) : Mesh K × Int :=
  let r := m.kern.addVertex p
  ({ m with kern := r.1 }, r.2)

/-- the call `_pKernel->add_triangle(a, b, c)` -/
def kAddTriangle (m : Mesh K) (a b c : Int) : Res (Mesh K × Int) := do
  let r ← m.kern.addTriangle a b c
  return ({ m with kern := r.1 }, r.2)

/-- `add_triangle(int, int, int)` 145-156 -/
def addTriangle (m : Mesh K) (a b c : Int) : Res (Mesh K × Int) := do
  assert (0 ≤ a)
  assert (0 ≤ b)
  assert (0 ≤ c)
  assert (a < m.kern.nbVertices)
  assert (b < m.kern.nbVertices)
  assert (c < m.kern.nbVertices)
  m.kAddTriangle a b c

/-- `add_triangle(Point3, Point3, Point3)` 158-165 -/
def addTrianglePts (m : Mesh K) (p1 p2 p3 : P3 K) : Res (Mesh K × Int) :=
  let (m, t1) := m.addVertex p1
  let (m, t2) := m.addVertex p2
  let (m, t3) := m.addVertex p3
  m.addTriangle t1 t2 t3

/-- `add_quad(int, int, int, int)` 167-181 -/
def addQuad (m : Mesh K) (a b c d : Int) : Res (Mesh K) := do
  assert (0 ≤ a)
  assert (0 ≤ b)
  assert (0 ≤ c)
  assert (0 ≤ d)
  assert (a < m.kern.nbVertices)
  assert (b < m.kern.nbVertices)
  assert (c < m.kern.nbVertices)
  assert (d < m.kern.nbVertices)
  let (m, _) ← m.kAddTriangle a b c
  let (m, _) ← m.kAddTriangle c d a
  return m

/-- `add_quad(Point3 ×4, bool)` 183-208 up to the choice of the diagonal:
`first` is `!bOptimSurface || surfaceQuad1 <= surfaceQuad2`. -/
def addQuadPtsWith (m : Mesh K) (first : Bool) (p1 p2 p3 p4 : P3 K) : Res (Mesh K) :=
  let (m, i1) := m.addVertex p1
  let (m, i2) := m.addVertex p2
  let (m, i3) := m.addVertex p3
  let (m, i4) := m.addVertex p4
  if first then m.addQuad i1 i2 i3 i4 else m.addQuad i2 i3 i4 i1

open Classical in
/-- `add_quad(Point3 ×4, bool)` 183-208 -/
noncomputable def addQuadPts (m : Mesh ℝ) (p1 p2 p3 p4 : P3 ℝ) (bOptimSurface : Bool) :
    Res (Mesh ℝ) :=
  m.addQuadPtsWith (!bOptimSurface ||
    decide ((Tri3.mk p1 p2 p3).surface + (Tri3.mk p3 p4 p1).surface ≤
      (Tri3.mk p2 p3 p4).surface + (Tri3.mk p4 p1 p2).surface)) p1 p2 p3 p4

/-- `add_pentagon` 210-227 -/
def addPentagon (m : Mesh K) (a b c d e : Int) : Res (Mesh K) := do
  assert (0 ≤ a)
  assert (0 ≤ b)
  assert (0 ≤ c)
  assert (0 ≤ d)
  assert (0 ≤ e)
  assert (a < m.kern.nbVertices)
  assert (b < m.kern.nbVertices)
  assert (c < m.kern.nbVertices)
  assert (d < m.kern.nbVertices)
  assert (e < m.kern.nbVertices)
  let (m, _) ← m.kAddTriangle a b c
  let (m, _) ← m.kAddTriangle c d e
  let (m, _) ← m.kAddTriangle a c e
  return m

/-- `split_triangle_with_vertex(int, int)` 238-254 -/
def splitTriangleWithVertex (m : Mesh K) (iTriangle iVertex : Int) : Res (Mesh K) := do
  assert (0 ≤ iTriangle ∧ iTriangle < m.kern.nbTriangles)
  assert (0 ≤ iVertex ∧ iVertex < m.kern.nbVertices)
  let (v1, v2, v3) ← m.kern.getTriangleVertices iTriangle
  let k ← m.kern.unlinkTriangle iTriangle
  let m := { m with kern := k }
  let (m, _) ← m.kAddTriangle v1 v2 iVertex
  let (m, _) ← m.kAddTriangle v2 v3 iVertex
  let (m, _) ← m.kAddTriangle v3 v1 iVertex
  return m

/-- `split_triangle_with_vertex(int, const Point3&)` 229-236 -/
def splitTriangleWithPoint (m : Mesh K) (iTriangle : Int) (p : P3 K) : Res (Mesh K) := do
  assert (0 ≤ iTriangle ∧ iTriangle < m.kern.nbTriangles)
  let r := m.addVertex p
  r.1.splitTriangleWithVertex iTriangle r.2

/-- `#define rotate(a,b,c) { auto tmp=a; a=b; b=c; c=a; }`, line 12: `tmp` is
never used, so the old `a` is lost. -/
def rotateMacro (v : Int × Int × Int) : Int × Int × Int := (v.2.1, v.2.2, v.2.1)

/-- `split_edge_with_vertex` 257-286 -/
def splitEdgeWithVertex (m : Mesh K) (iTriangle1 iTriangle2 iVertex1 iVertex2 iSplit : Int) :
    Res (Mesh K) := do
  assert (iTriangle1 ≠ -1)
  assert (iTriangle2 ≠ -1)
  -- split triangle1
  let v ← m.kern.getTriangleVertices iTriangle1
  let v := if v.1 ≠ iVertex1 then rotateMacro v else v
  let v := if v.1 ≠ iVertex1 then rotateMacro v else v
  assert (v.1 = iVertex1)
  let (m, _) ← m.kAddTriangle v.1 iSplit v.2.2
  let (m, _) ← m.kAddTriangle iSplit v.2.1 v.2.2
  let k ← m.kern.unlinkTriangle iTriangle1
  let m := { m with kern := k }
  -- split triangle2
  let v ← m.kern.getTriangleVertices iTriangle2
  let v := if v.2.1 ≠ iVertex2 then rotateMacro v else v
  let v := if v.2.1 ≠ iVertex2 then rotateMacro v else v
  assert (v.2.1 = iVertex2)
  let (m, _) ← m.kAddTriangle v.2.1 iSplit v.2.2
  let (m, _) ← m.kAddTriangle iSplit v.1 v.2.2
  let k ← m.kern.unlinkTriangle iTriangle2
  return { m with kern := k }

/-- `flip_triangle` 288-297 -/
def flipTriangle (m : Mesh K) (i : Int) : Res (Mesh K) := do
  assert (0 ≤ i ∧ i < m.kern.nbTriangles)
  let (v1, v2, v3) ← m.kern.getTriangleVertices i
  let k ← m.kern.unlinkTriangle i
  let m := { m with kern := k }
  let (m, _) ← m.kAddTriangle v1 v3 v2
  return m

/-- `clear` 299-302 -/
def clear (m : Mesh K) : Mesh K := { m with kern := m.kern.clear }

/-- `empty` 304-307 -/
def isEmpty (m : Mesh K) : Bool := decide (m.kern.nbTriangles = 0)

/-- body of the first loop of `add_mesh`, 129-131, `f` being the source -/
def addMeshVertex (f : Mesh K) (i : Int) (m : Mesh K) : Res (Mesh K) := do
  let v ← f.getVertex i
  return (m.addVertex v).1

/-- body of the second loop of `add_mesh`, 137-141 -/
def addMeshTriangle (f : Mesh K) (iNbVertices : Int) (i : Int) (m : Mesh K) : Res (Mesh K) := do
  let u ← f.isTriangleUnlinked i
  if u then return m
  let (a, b, c) ← f.getTriangleVertices i
  let (m, _) ← m.addTriangle (a + iNbVertices) (b + iNbVertices) (c + iNbVertices)
  return m

/-- `add_mesh` 119-143, `f` a different object from `*this` (so the loop bounds
`f.nb_vertices()`, `f.nb_triangles()` do not change) -/
def addMesh (m f : Mesh K) : Res (Mesh K) := do
  let m := m.setColor f.getColor
  let nb := m.nbVertices
  let m ← loopN f.nbVertices.toNat (fun i m => addMeshVertex f i m) m
  loopN f.nbTriangles.toNat (fun i m => addMeshTriangle f nb i m) m

/-- `add_mesh` 119-143 for the call `m.add_mesh(m)`: source and target are the
same object, so each loop bound is read from the growing mesh.  Each loop is
observed for `fuel` iterations. -/
def addMeshSelf (fuel : Nat) (m : Mesh K) : LoopOut (Mesh K) :=
  let m := m.setColor m.getColor
  let nb := m.nbVertices
  match loopFuel nbVertices (fun i m => addMeshVertex m i m) fuel 0 m with
  | .done m => loopFuel nbTriangles (fun i m => addMeshTriangle m nb i m) fuel 0 m
  | r => r

/-- `operator=` 110-117 from a different object.  The old kernel of `*this` is
leaked and replaced; the colour is set twice. -/
def assign (m f : Mesh K) : Res (Mesh K) := do
  let m := { m with kern := KernLT.empty }
  let m := m.clear
  let m ← m.addMesh f
  return m.setColor f.getColor

/-- `operator=` 110-117 for the call `m = m` -/
def assignSelf (fuel : Nat) (m : Mesh K) : LoopOut (Mesh K) :=
  let m := { m with kern := KernLT.empty }
  let m := m.clear
  match addMeshSelf fuel m with
  | .done m => .done (m.setColor m.getColor)
  | r => r

/-- copy constructor 23-26.  `_iColor` is indeterminate before `operator=`;
`junk` is its value. -/
def copyConstruct (junk : Int) (f : Mesh K) : Res (Mesh K) :=
  assign ⟨KernLT.empty, junk⟩ f

/-- `apply_transform` 340-350; `t` is the virtual `Transform::apply`.  The bound
`nb_vertices()` does not change in the body. -/
def applyTransform (m : Mesh K) (t : P3 K → P3 K) : Res (Mesh K) :=
  loopN m.nbVertices.toNat (fun i m => do
    let pv ← m.getVertex i
    m.setVertex i (t pv)) m

end Mesh
end CAD
