import Verif.Model.Geometry

/-!
Model of the three mesh kernels:
`/repo/src/MeshKernelLinkedTriangles.cpp` (the one `Mesh` uses),
`/repo/src/MeshKernelTIN.cpp`, `/repo/src/MeshKernelHalfEdge.cpp`.

C++ `int` ids are `Int` (unbounded).  A failed `assert` or an access outside a
`std::vector` is `none`.
-/

namespace CAD

/-- `vector::operator[]` with an `int` index; outside the vector: undefined
behaviour, `none`. -/
def getI {α : Type} (l : List α) (i : Int) : Res α :=
  if 0 ≤ i then l[i.toNat]? else none

/-- assignment `v[i] = a` on a `std::vector`; outside the vector: `none`. -/
def setI {α : Type} (l : List α) (i : Int) (a : α) : Res (List α) :=
  if 0 ≤ i ∧ i < l.length then some (l.set i.toNat a) else none

/-- `assert(c)` -/
def assert (c : Prop) [Decidable c] : Res Unit := if c then some () else none

/-- `assert(i >= 0); assert(i < n);` -/
def assertIdx (i : Int) (n : Nat) : Res Unit := assert (0 ≤ i ∧ i < n)

/-! ### Linked triangles -/

/-- `class TriangleLT`, MeshKernelLinkedTriangles.h 11-19 -/
structure TriLT where
  v1 : Int
  v2 : Int
  v3 : Int
  t1 : Int
  t2 : Int
  t3 : Int
  /-- 0 linked, -1 unlinked -/
  unlinked : Int
  reserved : Int
deriving DecidableEq, Repr

/-- `TriangleLT::TriangleLT`, MeshKernelLinkedTriangles.cpp 6-14 -/
def TriLT.mk3 (a b c : Int) : TriLT := ⟨a, b, c, -1, -1, -1, 0, 0⟩

/-- `class MeshKernelLinkedTriangles`: `_vTriangles`, `_vVertices` (.h 43-45) -/
structure KernLT (K : Type) where
  tris : List TriLT
  verts : List (P3 K)
deriving DecidableEq, Repr

namespace KernLT
variable {K : Type}

/-- constructor 16-17 -/
def empty : KernLT K := ⟨[], []⟩

/-- `clear` 24-28 -/
def clear (_k : KernLT K) : KernLT K := ⟨[], []⟩

/-- `add_vertex` 31-35 -/
def addVertex (k : KernLT K) (p : P3 K) : KernLT K × Int :=
  let k' := { k with verts := k.verts ++ [p] }
  (k', (k'.verts.length : Int) - 1)

/-- `set_vertex` 37-43 -/
def setVertex (k : KernLT K) (i : Int) (p : P3 K) : Res (KernLT K) := do
  assertIdx i k.verts.length
  let vs ← setI k.verts i p
  return { k with verts := vs }

/-- `get_vertex` 45-51 -/
def getVertex (k : KernLT K) (i : Int) : Res (P3 K) := do
  assertIdx i k.verts.length
  getI k.verts i

/-- `nb_vertices` 53-56 -/
def nbVertices (k : KernLT K) : Int := k.verts.length

/-- `get_triangles_near_edge` 167-171: returns false and leaves both outputs as
they are. -/
def getTrianglesNearEdge (_k : KernLT K) (_v1 _v2 : Int) (out : Int × Int) : Bool × Int × Int :=
  (false, out)

/-- `add_triangle` 58-80.  `junk` is the indeterminate value of the local
variables `iTriangle1`, `iTriangle2` (line 72), read at line 74 in a comparison
that guards an empty block. -/
def addTriangleJunk (junk : Int × Int) (k : KernLT K) (a b c : Int) : Res (KernLT K × Int) := do
  assertIdx a k.verts.length
  assertIdx b k.verts.length
  assertIdx c k.verts.length
  let k' := { k with tris := k.tris ++ [TriLT.mk3 a b c] }
  let iTriangle := (k'.tris.length : Int) - 1
  let near := k'.getTrianglesNearEdge a b junk
  let k'' := if near.2.1 = -1 then k' else k'
  return (k'', iTriangle)

/-- `add_triangle` 58-80 with an arbitrary choice for the indeterminate locals
(`addTriangle_junk` shows the choice is irrelevant). -/
def addTriangle (k : KernLT K) (a b c : Int) : Res (KernLT K × Int) :=
  addTriangleJunk (0, 0) k a b c

/-- `get_triangle_vertices` 82-90 -/
def getTriangleVertices (k : KernLT K) (i : Int) : Res (Int × Int × Int) := do
  assertIdx i k.tris.length
  let t ← getI k.tris i
  return (t.v1, t.v2, t.v3)

/-- `get_near_triangles` 155-165 -/
def getNearTriangles (k : KernLT K) (i : Int) : Res (Int × Int × Int) := do
  assertIdx i k.tris.length
  let t ← getI k.tris i
  return (t.t1, t.t2, t.t3)

/-- the `if / else if` chain 107-112 that clears one back link to `i` -/
def clearBackLink (t : TriLT) (i : Int) : TriLT :=
  if t.t1 = i then { t with t1 := -1 }
  else if t.t2 = i then { t with t2 := -1 }
  else if t.t3 = i then { t with t3 := -1 }
  else t

/-- one of the three blocks 104-113, 115-124, 126-135 -/
def unlinkNear (tris : List TriLT) (iT i : Int) : Res (List TriLT) :=
  if iT ≠ -1 then do
    let t ← getI tris iT
    setI tris iT (clearBackLink t i)
  else some tris

/-- `unlink_triangle` 92-140 -/
def unlinkTriangle (k : KernLT K) (i : Int) : Res (KernLT K) := do
  assertIdx i k.tris.length
  let t ← getI k.tris i
  let ts ← setI k.tris i { t with unlinked := -1 }
  let (iT1, iT2, iT3) ← getNearTriangles { k with tris := ts } i
  let ts ← unlinkNear ts iT1 i
  let ts ← unlinkNear ts iT2 i
  let ts ← unlinkNear ts iT3 i
  return { k with tris := ts }

/-- `is_triangle_unlinked` 142-148 -/
def isTriangleUnlinked (k : KernLT K) (i : Int) : Res Bool := do
  assertIdx i k.tris.length
  let t ← getI k.tris i
  return decide (t.unlinked = -1)

/-- `nb_triangles` 150-153 -/
def nbTriangles (k : KernLT K) : Int := k.tris.length

end KernLT

/-! ### TIN -/

/-- `class TriangleTIN`, MeshKernelTIN.cpp 6-10 -/
structure TriTIN where
  v1 : Int
  v2 : Int
  v3 : Int
  bUnlinked : Bool
deriving DecidableEq, Repr

/-- `class MeshKernelTIN` (`VertexTIN` only wraps a point, 12-14). -/
structure KernTIN (K : Type) where
  tris : List TriTIN
  verts : List (P3 K)
deriving DecidableEq, Repr

namespace KernTIN
variable {K : Type}

/-- constructor 16-17 -/
def empty : KernTIN K := ⟨[], []⟩
/-- `clear` 24-28 -/
def clear (_k : KernTIN K) : KernTIN K := ⟨[], []⟩
/-- `add_vertex` 30-34 -/
def addVertex (k : KernTIN K) (p : P3 K) : KernTIN K × Int :=
  let k' := { k with verts := k.verts ++ [p] }
  (k', (k'.verts.length : Int) - 1)
/-- `set_vertex` 36-42 -/
def setVertex (k : KernTIN K) (i : Int) (p : P3 K) : Res (KernTIN K) := do
  assertIdx i k.verts.length
  let vs ← setI k.verts i p
  return { k with verts := vs }
/-- `get_vertex` 44-50 -/
def getVertex (k : KernTIN K) (i : Int) : Res (P3 K) := do
  assertIdx i k.verts.length
  getI k.verts i
/-- `nb_vertices` 52-55 -/
def nbVertices (k : KernTIN K) : Int := k.verts.length
/-- `add_triangle` 57-70 -/
def addTriangle (k : KernTIN K) (a b c : Int) : Res (KernTIN K × Int) := do
  assertIdx a k.verts.length
  assertIdx b k.verts.length
  assertIdx c k.verts.length
  let k' := { k with tris := k.tris ++ [⟨a, b, c, false⟩] }
  return (k', (k'.tris.length : Int) - 1)
/-- `get_triangle_vertices` 72-80 -/
def getTriangleVertices (k : KernTIN K) (i : Int) : Res (Int × Int × Int) := do
  assertIdx i k.tris.length
  let t ← getI k.tris i
  return (t.v1, t.v2, t.v3)
/-- `unlink_triangle` 82-88 -/
def unlinkTriangle (k : KernTIN K) (i : Int) : Res (KernTIN K) := do
  assertIdx i k.tris.length
  let t ← getI k.tris i
  let ts ← setI k.tris i { t with bUnlinked := true }
  return { k with tris := ts }
/-- `is_triangle_unlinked` 90-96 -/
def isTriangleUnlinked (k : KernTIN K) (i : Int) : Res Bool := do
  assertIdx i k.tris.length
  let t ← getI k.tris i
  return t.bUnlinked
/-- `nb_triangles` 98-101 -/
def nbTriangles (k : KernTIN K) : Int := k.tris.length
/-- `get_near_triangles` 103-109: leaves its three outputs unchanged. -/
def getNearTriangles (k : KernTIN K) (i : Int) (out : Int × Int × Int) : Res (Int × Int × Int) := do
  assertIdx i k.tris.length
  return out

end KernTIN

/-! ### Half edges -/

/-- `class HalfEdge`, MeshKernelHalfEdge.cpp 20-27 -/
structure HalfEdge where
  originVertex : Int
  halfEdgePair : Int
  triangle : Int
  nextHalfEdge : Int
  prevHalfEdge : Int
deriving DecidableEq, Repr

/-- `class TriangleHalfEdge`, 15-19 -/
structure TriHE where
  halfEdge : Int
  bUnlinked : Bool
deriving DecidableEq, Repr

/-- `class MeshKernelHalfEdge`; of `VertexHalfEdge` (6-14) only the point is
kept, its `halfEdge` is never read. -/
structure KernHE (K : Type) where
  tris : List TriHE
  verts : List (P3 K)
  edges : List HalfEdge
deriving DecidableEq, Repr

namespace KernHE
variable {K : Type}

/-- constructor 29-30 -/
def empty : KernHE K := ⟨[], [], []⟩
/-- `clear` 35-40 -/
def clear (_k : KernHE K) : KernHE K := ⟨[], [], []⟩
/-- `nb_vertices` 42-45 -/
def nbVertices (k : KernHE K) : Int := k.verts.length
/-- `add_vertex` 47-51 -/
def addVertex (k : KernHE K) (p : P3 K) : KernHE K × Int :=
  let k' := { k with verts := k.verts ++ [p] }
  (k', (k'.verts.length : Int) - 1)
/-- `set_vertex` 53-57 (only the upper bound is asserted; a negative index is
an access outside the vector) -/
def setVertex (k : KernHE K) (i : Int) (p : P3 K) : Res (KernHE K) := do
  assert (i < k.verts.length)
  let vs ← setI k.verts i p
  return { k with verts := vs }
/-- `get_vertex` 59-63 -/
def getVertex (k : KernHE K) (i : Int) : Res (P3 K) := do
  assert (i < k.verts.length)
  getI k.verts i
/-- `nb_triangles` 67-70 -/
def nbTriangles (k : KernHE K) : Int := k.tris.length
/-- `get_triangle_vertices` 72-87 -/
def getTriangleVertices (k : KernHE K) (i : Int) : Res (Int × Int × Int) := do
  assertIdx i k.tris.length
  let t ← getI k.tris i
  let e1 ← getI k.edges t.halfEdge
  let e2 ← getI k.edges e1.nextHalfEdge
  let e3 ← getI k.edges e2.nextHalfEdge
  assert (e3.nextHalfEdge = t.halfEdge)
  return (e1.originVertex, e2.originVertex, e3.originVertex)
/-- `unlink_triangle` 89-107 -/
def unlinkTriangle (k : KernHE K) (i : Int) : Res (KernHE K) := do
  assertIdx i k.tris.length
  let t ← getI k.tris i
  let i0 := t.halfEdge
  let e0 ← getI k.edges i0
  let es ← setI k.edges i0 { e0 with triangle := -1 }
  let e0 ← getI es i0
  let i1 := e0.nextHalfEdge
  let e1 ← getI es i1
  let es ← setI es i1 { e1 with triangle := -1 }
  let e1 ← getI es i1
  let i2 := e1.nextHalfEdge
  let e2 ← getI es i2
  let es ← setI es i2 { e2 with triangle := -1 }
  let e2 ← getI es i2
  assert (e2.nextHalfEdge = i0)
  let ts ← setI k.tris i { t with bUnlinked := true }
  return { k with tris := ts, edges := es }
/-- `is_triangle_unlinked` 109-115 -/
def isTriangleUnlinked (k : KernHE K) (i : Int) : Res Bool := do
  assertIdx i k.tris.length
  let t ← getI k.tris i
  return t.bUnlinked
/-- `add_triangle` 117-129: no assertion, nothing is stored, the number of
triangles minus one is returned. -/
def addTriangle (k : KernHE K) (_a _b _c : Int) : Res (KernHE K × Int) :=
  some (k, (k.tris.length : Int) - 1)

end KernHE

/-! ### The abstract class -/

/-- The virtual functions of `class MeshKernel` (MeshKernel.h) that concern
vertices and triangles, as a record: one value per kernel class. -/
structure KernelVT (K σ : Type) where
  init : σ
  clear : σ → σ
  addVertex : σ → P3 K → σ × Int
  setVertex : σ → Int → P3 K → Res σ
  getVertex : σ → Int → Res (P3 K)
  nbVertices : σ → Int
  addTriangle : σ → Int → Int → Int → Res (σ × Int)
  getTriangleVertices : σ → Int → Res (Int × Int × Int)
  unlinkTriangle : σ → Int → Res σ
  isTriangleUnlinked : σ → Int → Res Bool
  nbTriangles : σ → Int

/-- vtable of `MeshKernelLinkedTriangles` -/
def vtLT (K : Type) : KernelVT K (KernLT K) :=
  ⟨KernLT.empty, KernLT.clear, KernLT.addVertex, KernLT.setVertex, KernLT.getVertex,
   KernLT.nbVertices, KernLT.addTriangle, KernLT.getTriangleVertices, KernLT.unlinkTriangle,
   KernLT.isTriangleUnlinked, KernLT.nbTriangles⟩

/-- vtable of `MeshKernelTIN` -/
def vtTIN (K : Type) : KernelVT K (KernTIN K) :=
  ⟨KernTIN.empty, KernTIN.clear, KernTIN.addVertex, KernTIN.setVertex, KernTIN.getVertex,
   KernTIN.nbVertices, KernTIN.addTriangle, KernTIN.getTriangleVertices, KernTIN.unlinkTriangle,
   KernTIN.isTriangleUnlinked, KernTIN.nbTriangles⟩

/-- vtable of `MeshKernelHalfEdge` -/
def vtHE (K : Type) : KernelVT K (KernHE K) :=
  ⟨KernHE.empty, KernHE.clear, KernHE.addVertex, KernHE.setVertex, KernHE.getVertex,
   KernHE.nbVertices, KernHE.addTriangle, KernHE.getTriangleVertices, KernHE.unlinkTriangle,
   KernHE.isTriangleUnlinked, KernHE.nbTriangles⟩

/-- One kernel call that changes the state. -/
inductive KOp (K : Type) where
  | clear
  | addVertex (p : P3 K)
  | setVertex (i : Int) (p : P3 K)
  | addTriangle (a b c : Int)
  | unlinkTriangle (i : Int)

/-- the call, with the id it returns (0 for `void`) -/
def KernelVT.step {K σ : Type} (v : KernelVT K σ) (s : σ) : KOp K → Res (σ × Int)
  | .clear => some (v.clear s, 0)
  | .addVertex p => some (v.addVertex s p)
  | .setVertex i p => (v.setVertex s i p).map (·, 0)
  | .addTriangle a b c => v.addTriangle s a b c
  | .unlinkTriangle i => (v.unlinkTriangle s i).map (·, 0)

/-- a sequence of calls on a fresh kernel; the state and the returned ids -/
def KernelVT.run {K σ : Type} (v : KernelVT K σ) (ops : List (KOp K)) : Res (σ × List Int) :=
  ops.foldlM (fun s op => (v.step s.1 op).map fun r => (r.1, s.2 ++ [r.2])) (v.init, [])

end CAD
