import Verif.Model.Mesh

/-! Model of `/repo/src/MeshUtil.cpp`. -/

namespace CAD
namespace MeshUtil
variable {K : Type}

/-- second pair of loops of `create_from_z` 28-35 and of `create_from_grid`
49-56 (the same text) -/
def addGridQuads (X Y : Int) (m : Mesh K) : Res (Mesh K) :=
  loopN (Y - 1).toNat (fun j m =>
    loopN (X - 1).toNat (fun i m =>
      m.addQuad (i + X * j) ((i + 1) + X * j) ((i + 1) + X * (j + 1)) (i + X * (j + 1))) m) m

/-- `create_from_z` 13-36.  The comparison `iSizeX * iSizeY == vz.size()` is
between `int` and `size_t`; here both sides are integers, so a negative product
is simply different (in C++ it is converted to a huge unsigned number, which is
also different from any possible size).  The state of the vertex loops is the
mesh and the running index `idx`. -/
def createFromZ [Field K] (vz : List K) (X Y : Int) (m : Mesh K) : Res (Mesh K) := do
  let m := m.clear
  assert (X * Y = vz.length)
  let s ← loopN Y.toNat (fun y s =>
    loopN X.toNat (fun x (s : Mesh K × Int) => do
      let z ← getI vz s.2
      return ((s.1.addVertex ⟨(x : K), (y : K), z⟩).1, s.2 + 1)) s) (m, (0 : Int))
  addGridQuads X Y s.1

/-- `create_from_grid` 38-57 -/
def createFromGrid (vp : List (P3 K)) (X Y : Int) (m : Mesh K) : Res (Mesh K) := do
  let m := m.clear
  assert (X * Y = vp.length)
  let m ← loopN Y.toNat (fun j m =>
    loopN X.toNat (fun i m => do
      let p ← getI vp (i + X * j)
      return (m.addVertex p).1) m) m
  addGridQuads X Y m

section
variable [Field K] [LinearOrder K]

/-- first loop of `merge_vertices`, 67-84: `al` is `verticesAlias`.  `v1` is read
before the inner loop.  The test `v1.distance_square(v2) < dToleranceSquared` is left open
(`near`): in exact arithmetic it is `nearTol` below. -/
def findAliases (near : P3 K → P3 K → Bool) (m : Mesh K) (al : List Int) : Res (List Int) :=
  loopN m.nbVertices.toNat (fun i al => do
    let v1 ← m.getVertex i
    loopN i (fun j al => do
      let aj ← getI al j
      if 0 ≤ aj then return al
      let v2 ← m.getVertex j
      if near v1 v2 then setI al i j else return al) al) al

/-- second loop of `merge_vertices`, 91-105; the state is the new mesh and
`verticesAlias` -/
def readdVertices (mOld : Mesh K) (n : Nat) (s : Mesh K × List Int) : Res (Mesh K × List Int) :=
  loopN n (fun i s => do
    let ai ← getI s.2 i
    if ai = -1 then
      let p ← mOld.getVertex i
      let r := s.1.addVertex p
      let al ← setI s.2 i r.2
      return (r.1, al)
    else
      let iAlias ← getI s.2 ai
      let al ← setI s.2 i iAlias
      return (s.1, al)) s

/-- third loop of `merge_vertices`, 108-126 -/
def readdTriangles (mOld : Mesh K) (al : List Int) (m : Mesh K) : Res (Mesh K) :=
  loopN mOld.nbTriangles.toNat (fun i m => do
    let u ← mOld.isTriangleUnlinked i
    if u then return m
    let (i1, i2, i3) ← mOld.getTriangleVertices i
    let n1 ← getI al i1
    let n2 ← getI al i2
    let n3 ← getI al i3
    assert (n1 < m.nbVertices)
    assert (n2 < m.nbVertices)
    assert (n3 < m.nbVertices)
    let (m, _) ← m.addTriangle n1 n2 n3
    return m) m

/-- `merge_vertices` 59-127 with the comparison of two vertices left open.  `junk` is the
indeterminate colour of `mOld` before its copy constructor assigns it. -/
def mergeVerticesBy (near : P3 K → P3 K → Bool) (junk : Int) (m : Mesh K) : Res (Mesh K) := do
  let iNbVertices := m.nbVertices
  let al := List.replicate iNbVertices.toNat (-1 : Int)
  let al ← findAliases near m al
  let mOld ← Mesh.copyConstruct junk m
  let m := m.clear
  let s ← readdVertices mOld al.length (m, al)
  readdTriangles mOld s.2 s.1

/-- the comparison of `merge_vertices`, lines 61 and 78, in exact arithmetic -/
def nearTol (tol : K) (v1 v2 : P3 K) : Bool :=
  let tolSq := tol * tol
  decide (v1.distSq v2 < tolSq)

/-- `merge_vertices` 59-127 in exact arithmetic -/
def mergeVerticesJunk (junk : Int) (m : Mesh K) (tol : K) : Res (Mesh K) :=
  mergeVerticesBy (nearTol tol) junk m

/-- `merge_vertices` 59-127 -/
def mergeVertices (m : Mesh K) (tol : K) : Res (Mesh K) := mergeVerticesJunk 0 m tol

/-- `remove_empty_triangles` 129-157.  The bound `nb_triangles()` does not change:
`unlink_triangle` only marks. -/
def removeEmptyTriangles (m : Mesh K) (tol : K) : Res (Mesh K) :=
  loopN m.nbTriangles.toNat (fun i m => do
    let u ← m.isTriangleUnlinked i
    if u then return m
    let t ← m.getTriangle i
    if (t.p1 - t.p2).normSq < tol * tol then m.unlinkTriangle i
    else if (t.p2 - t.p3).normSq < tol * tol then m.unlinkTriangle i
    else if (t.p3 - t.p1).normSq < tol * tol then m.unlinkTriangle i
    else return m) m

end
end MeshUtil
end CAD
