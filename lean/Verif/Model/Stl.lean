import Verif.Model.Bytes

/-!
Model of `/repo/src/STLFile.cpp`.

The conversion `double` → `float` followed by the store of the four bytes is the
parameter `enc`, the load of four bytes followed by `float` → `double` the parameter `dec`;
nothing else is done with the coordinates, so `K` may be any type (also one with infinities
and NaN).  `Verif/Model/Float32.lean` gives `enc` and `dec` for IEEE 754 numbers.
A file that can be opened for writing is assumed to accept all bytes.
-/

namespace CAD.Stl
variable {K : Type}

/-- the nine coordinates of a triangle in the order they are stored -/
def coords (t : Tri3 K) : List K :=
  [t.p1.x, t.p1.y, t.p1.z, t.p2.x, t.p2.y, t.p2.z, t.p3.x, t.p3.y, t.p3.z]

/-- lines 41-59: zero normal, three points, two bytes of the `int32_t zero` -/
def facet (enc : K → List Byte) (t : Tri3 K) : List Byte :=
  List.replicate 12 0 ++ (coords t).flatMap enc ++ [0, 0]

/-- `save` 10-62 for a file that can be opened; the result is the content of the file -/
def save (enc : K → List Byte) (m : Mesh K) : Res (List Byte) := do
  let n ← loopN m.nbTriangles.toNat (fun i (n : Int) => do
    if (← m.isTriangleUnlinked i) = true then return n
    else return n + 1) 0
  loopN m.nbTriangles.toNat (fun i out => do
    if (← m.isTriangleUnlinked i) = true then return out
    else
      let t ← m.getTriangle i
      return out ++ facet enc t) (List.replicate 80 0 ++ le32 n)

/-- consecutive `f.read((char*)(&v), 4)` into the variables of a list -/
def readVars : List (List Byte) → IStream → Res (IStream × List (List Byte))
  | [], s => some (s, [])
  | b :: bs, s => do
    let (s, b) ← s.read 4 b
    let (s, bs) ← readVars bs s
    return (s, b :: bs)

/-- the same variable read `n` times, its value is not used -/
def skipVar (n : Nat) (s : IStream) : Res IStream :=
  loopN n (fun _ s => do
    let (s, _) ← s.read 4 [0, 0, 0, 0]
    return s) s

/-- the corners in the variables `p1x … p3z` -/
def corners (dec : List Byte → K) (v : List (List Byte)) : Tri3 K :=
  let c (i : Nat) : K := dec (v.getD i [])
  ⟨⟨c 0, c 1, c 2⟩, ⟨c 3, c 4, c 5⟩, ⟨c 6, c 7, c 8⟩⟩

/-- lines 105-108; `nb_vertices()` is an `int` -/
def addFacet (m : Mesh K) (t : Tri3 K) : Res (Mesh K) := do
  let m := (m.addVertex t.p1).1
  let m := (m.addVertex t.p2).1
  let m := (m.addVertex t.p3).1
  let n ← int32 m.nbVertices
  let (m, _) ← m.addTriangle (n - 3) (n - 2) (n - 1)
  return m

/-- one facet, lines 86-108 -/
def readFacet (dec : List Byte → K) (st : IStream × List (List Byte) × Mesh K) : Res (IStream × List (List Byte) × Mesh K) := do
  let s ← skipVar 3 st.1
  let (s, v) ← readVars st.2.1 s
  let (s, _) ← s.read 2 [0, 0, 0, 0]
  let m ← addFacet st.2.2 (corners dec v)
  return (s, v, m)

/-- lines 71-111 with the content of the file -/
def loadFrom (dec : List Byte → K) (bytes : List Byte) (m : Mesh K) : Res (Mesh K) := do
  let s ← skipVar 20 ⟨bytes, true⟩
  let (s, n) ← s.read 4 [0, 0, 0, 0]
  let r ← loopN (dec32 n).toNat (fun _ st => readFacet dec st) (s, List.replicate 9 [0, 0, 0, 0], m)
  return r.2.2

/-- `load` 64-112; `none` is a file that cannot be opened -/
def load (dec : List Byte → K) (file : Option (List Byte)) (m : Mesh K) : Res (Bool × Mesh K) :=
  match file with
  | none => some (false, m.clear)
  | some bytes => do
    let m ← loadFrom dec bytes m.clear
    return (true, m)

end CAD.Stl
