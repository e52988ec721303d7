import Verif.Model.Mesh

/-!
Abstract mesh: a list of points, a list of faces (corner triple plus a "linked"
flag) and a colour.  This is the specification that histories of `Mesh` calls
are compared with; it knows nothing about kernels, sentinels, loops or
neighbour links.
-/

namespace CAD

/-- `i` is a valid index into something of length `n` -/
def InRange (n : Nat) (i : Int) : Prop := 0 ≤ i ∧ i < n

instance (n : Nat) (i : Int) : Decidable (InRange n i) := by unfold InRange; infer_instance

/-- A corner triple all of whose entries are valid vertex ids. -/
def CornersIn (n : Nat) (f : Int × Int × Int) : Prop :=
  InRange n f.1 ∧ InRange n f.2.1 ∧ InRange n f.2.2

instance (n : Nat) (f : Int × Int × Int) : Decidable (CornersIn n f) := by
  unfold CornersIn; infer_instance

/-- a face of the abstract mesh -/
structure AFace where
  corners : Int × Int × Int
  linked : Bool
deriving DecidableEq, Repr

/-- the abstract mesh -/
@[ext] structure AMesh (K : Type) where
  points : List (P3 K)
  faces : List AFace
  color : Int
deriving DecidableEq, Repr

namespace AMesh
variable {K : Type}

def new : AMesh K := ⟨[], [], -1⟩

def addPoints (a : AMesh K) (ps : List (P3 K)) : AMesh K := { a with points := a.points ++ ps }

/-- append linked faces, provided all their corners exist -/
def addFaces (a : AMesh K) (fs : List (Int × Int × Int)) : Res (AMesh K) :=
  if ∀ f ∈ fs, CornersIn a.points.length f then
    some { a with faces := a.faces ++ fs.map (⟨·, true⟩) }
  else none

/-- mark face `i` as not linked -/
def erase (a : AMesh K) (i : Int) : Res (AMesh K) :=
  if InRange a.faces.length i then
    some { a with faces := a.faces.modify i.toNat fun f => { f with linked := false } }
  else none

/-- corners of face `i`, linked or not -/
def corners (a : AMesh K) (i : Int) : Res (Int × Int × Int) := (getI a.faces i).map AFace.corners

/-- the corner triples of the linked faces, in order -/
def linkedCorners (a : AMesh K) : List (Int × Int × Int) :=
  (a.faces.filter AFace.linked).map AFace.corners

def shift (d : Int) (f : Int × Int × Int) : Int × Int × Int := (f.1 + d, f.2.1 + d, f.2.2 + d)

/-- append another abstract mesh: its colour, its points, its linked faces with
shifted corners -/
def append (a o : AMesh K) : Res (AMesh K) :=
  addFaces ({ a with color := o.color }.addPoints o.points)
    (o.linkedCorners.map (shift a.points.length))

end AMesh

/-- One public `Mesh` call that changes the mesh (Mesh.h). For calls taking a
mesh argument, that mesh is a different object. -/
inductive MOp (K : Type) where
  | setColor (c : Int)
  | addVertex (p : P3 K)
  | setVertex (i : Int) (p : P3 K)
  | addTriangle (a b c : Int)
  | addTrianglePts (p q r : P3 K)
  | addQuad (a b c d : Int)
  | addQuadPts (first : Bool) (p q r s : P3 K)
  | addPentagon (a b c d e : Int)
  | unlinkTriangle (i : Int)
  | flipTriangle (i : Int)
  | splitTriangleWithVertex (t v : Int)
  | splitTriangleWithPoint (t : Int) (p : P3 K)
  | splitEdgeWithVertex (t1 t2 v1 v2 s : Int)
  | addMesh (o : Mesh K)
  | assign (o : Mesh K)
  | applyTransform (f : P3 K → P3 K)
  | clear

/-- the call on the model of the code, with the id it returns (0 for `void`) -/
def Mesh.step {K : Type} (m : Mesh K) : MOp K → Res (Mesh K × Int)
  | .setColor c => some (m.setColor c, 0)
  | .addVertex p => some (m.addVertex p)
  | .setVertex i p => (m.setVertex i p).map (·, 0)
  | .addTriangle a b c => m.addTriangle a b c
  | .addTrianglePts p q r => m.addTrianglePts p q r
  | .addQuad a b c d => (m.addQuad a b c d).map (·, 0)
  | .addQuadPts first p q r s => (m.addQuadPtsWith first p q r s).map (·, 0)
  | .addPentagon a b c d e => (m.addPentagon a b c d e).map (·, 0)
  | .unlinkTriangle i => (m.unlinkTriangle i).map (·, 0)
  | .flipTriangle i => (m.flipTriangle i).map (·, 0)
  | .splitTriangleWithVertex t v => (m.splitTriangleWithVertex t v).map (·, 0)
  | .splitTriangleWithPoint t p => (m.splitTriangleWithPoint t p).map (·, 0)
  | .splitEdgeWithVertex t1 t2 v1 v2 s => (m.splitEdgeWithVertex t1 t2 v1 v2 s).map (·, 0)
  | .addMesh o => (m.addMesh o).map (·, 0)
  | .assign o => (m.assign o).map (·, 0)
  | .applyTransform f => (m.applyTransform f).map (·, 0)
  | .clear => some (m.clear, 0)

/-- a history of calls on a mesh `m`: final state and the returned ids -/
def Mesh.runFrom {K : Type} (m : Mesh K) (ops : List (MOp K)) : Res (Mesh K × List Int) :=
  ops.foldlM (fun s op => (s.1.step op).map fun r => (r.1, s.2 ++ [r.2])) (m, [])

/-- a history of calls on a freshly constructed mesh -/
def Mesh.run {K : Type} (ops : List (MOp K)) : Res (Mesh K × List Int) := Mesh.new.runFrom ops

/-- What a caller can observe of `m` through the query methods is exactly `a`:
sizes, points, corners, unlinked flags and colour; queries with an invalid id
are undefined (`none`) on both sides. -/
structure Answers {K : Type} (m : Mesh K) (a : AMesh K) : Prop where
  nbVertices : m.nbVertices = a.points.length
  getVertex : ∀ i, m.getVertex i = getI a.points i
  nbTriangles : m.nbTriangles = a.faces.length
  corners : ∀ i, m.getTriangleVertices i = (getI a.faces i).map AFace.corners
  unlinked : ∀ i, m.isTriangleUnlinked i = (getI a.faces i).map (!·.linked)
  color : m.getColor = a.color

/-- A mesh as a value: what its queries answer (see `answers_view`). -/
def Mesh.view {K : Type} (m : Mesh K) : AMesh K :=
  ⟨m.kern.verts,
   m.kern.tris.map fun t => ⟨(t.v1, t.v2, t.v3), decide (t.unlinked ≠ -1)⟩, m.color⟩

namespace AMesh
variable {K : Type}

/-- corner triple of the first triangle of an edge split as line 264-269 leaves
it: the wanted vertex first; after a rotation the last corner is a copy (see the
`rotate` macro), `none` if the vertex is not among the corners -/
def splitCorners1 (v : Int) (f : Int × Int × Int) : Res (Int × Int × Int) :=
  if f.1 = v then some f
  else if f.2.1 = v then some (f.2.1, f.2.2, f.2.1)
  else if f.2.2 = v then some (f.2.2, f.2.1, f.2.2)
  else none

/-- the same for the second triangle, 276-281: the wanted vertex second -/
def splitCorners2 (v : Int) (f : Int × Int × Int) : Res (Int × Int × Int) :=
  if f.2.1 = v then some f
  else if f.2.2 = v then some (f.2.1, f.2.2, f.2.1)
  else none

/-- what each call is expected to do to the abstract mesh, with the returned id -/
def step (a : AMesh K) : MOp K → Res (AMesh K × Int)
  | .setColor c => some ({ a with color := c }, 0)
  | .addVertex p => some (a.addPoints [p], a.points.length)
  | .setVertex i p =>
    if InRange a.points.length i then some ({ a with points := a.points.set i.toNat p }, 0)
    else none
  | .addTriangle i j k => (a.addFaces [(i, j, k)]).map (·, (a.faces.length : Int))
  | .addTrianglePts p q r =>
    let n := (a.points.length : Int)
    ((a.addPoints [p, q, r]).addFaces [(n, n + 1, n + 2)]).map (·, (a.faces.length : Int))
  | .addQuad i j k l => (a.addFaces [(i, j, k), (k, l, i)]).map (·, 0)
  | .addQuadPts first p q r s =>
    let n := (a.points.length : Int)
    ((a.addPoints [p, q, r, s]).addFaces
      (if first then [(n, n + 1, n + 2), (n + 2, n + 3, n)]
        else [(n + 1, n + 2, n + 3), (n + 3, n, n + 1)])).map (·, 0)
  | .addPentagon i j k l o => (a.addFaces [(i, j, k), (k, l, o), (i, k, o)]).map (·, 0)
  | .unlinkTriangle i => (a.erase i).map (·, 0)
  | .flipTriangle i => do
    let (u, v, w) ← a.corners i
    let a ← a.erase i
    let a ← a.addFaces [(u, w, v)]
    return (a, 0)
  | .splitTriangleWithVertex t s => do
    let (u, v, w) ← a.corners t
    let a ← a.erase t
    let a ← a.addFaces [(u, v, s), (v, w, s), (w, u, s)]
    return (a, 0)
  | .splitTriangleWithPoint t p => do
    let s := (a.points.length : Int)
    let (u, v, w) ← a.corners t
    let a ← (a.addPoints [p]).erase t
    let a ← a.addFaces [(u, v, s), (v, w, s), (w, u, s)]
    return (a, 0)
  | .splitEdgeWithVertex t1 t2 v1 v2 s => do
    let f ← a.corners t1
    let f ← splitCorners1 v1 f
    let a ← a.addFaces [(f.1, s, f.2.2), (s, f.2.1, f.2.2)]
    let a ← a.erase t1
    let f ← a.corners t2
    let f ← splitCorners2 v2 f
    let a ← a.addFaces [(f.2.1, s, f.2.2), (s, f.1, f.2.2)]
    let a ← a.erase t2
    return (a, 0)
  | .addMesh o => (a.append o.view).map (·, 0)
  | .assign o => (AMesh.new.append o.view).map (·, 0)
  | .applyTransform f => some ({ a with points := a.points.map f }, 0)
  | .clear => some ({ a with points := [], faces := [] }, 0)

def runFrom (a : AMesh K) (ops : List (MOp K)) : Res (AMesh K × List Int) :=
  ops.foldlM (fun s op => (s.1.step op).map fun r => (r.1, s.2 ++ [r.2])) (a, [])

def run (ops : List (MOp K)) : Res (AMesh K × List Int) := AMesh.new.runFrom ops

end AMesh
end CAD
