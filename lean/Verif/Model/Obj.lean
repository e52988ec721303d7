import Verif.Model.Bytes

/-!
Model of `/repo/src/OBJFile.cpp`: text files are lists of characters.

The text `operator<<(ostream&, double)` writes and what `operator>>(istream&, double&)` reads
are a parameter (`Codec`), integers are concrete.  A file that can be opened for writing is
assumed to accept all characters.
-/

namespace CAD.Obj

/-- `isspace` in the "C" locale -/
def isSpace (c : Char) : Bool := c = ' ' || c = '\t' || c = '\n' || c = '\r' || c.toNat = 11 || c.toNat = 12

def isDigit (c : Char) : Bool := 48 ≤ c.toNat && c.toNat ≤ 57

/-- the last `k` decimal digits of a number, without leading zeros -/
def digitsOf : Nat → Nat → List Char
  | 0, _ => []
  | k + 1, n => (if n < 10 then [] else digitsOf k (n / 10)) ++ [Char.ofNat (48 + n % 10)]

/-- decimal digits of a number -/
def showNat (n : Nat) : List Char := digitsOf (n + 1) n

/-- `operator<<(ostream&, int)` -/
def showInt (i : Int) : List Char := if i < 0 then '-' :: showNat (-i).toNat else showNat i.toNat

/-- text form of a `double`: `fmt` is `operator<<`, `scan` is `num_get` (after white space is
skipped): the value and the rest, or `none` when there is no number -/
structure Codec (K : Type) where
  fmt : K → List Char
  scan : List Char → Option (K × List Char)
  zero : K

/-- a `stringstream` for reading: the rest of the line and `good()` -/
structure SS where
  rest : List Char
  ok : Bool

/-- `ss >> string` -/
def SS.word (s : SS) : SS × List Char :=
  if s.ok then
    let r := s.rest.dropWhile isSpace
    (⟨r.dropWhile (!isSpace ·), !r.isEmpty⟩, r.takeWhile (!isSpace ·))
  else (s, [])

/-- `ss >> x` for a `double` that has no value yet.  At the end of the line the variable
stays without a value (`none`), text that is not a number gives 0; both fail the stream. -/
def SS.real {K : Type} (c : Codec K) (s : SS) : SS × Option K :=
  if s.ok then
    let r := s.rest.dropWhile isSpace
    if r.isEmpty then (⟨r, false⟩, none)
    else match c.scan r with
      | none => (⟨r, false⟩, some c.zero)
      | some (x, r') => (⟨r', true⟩, some x)
  else (s, none)

/-- `num_get` for a decimal `int`: sign, digits; the rest; no digits give 0 and too large
numbers the nearest `int`, both fail -/
def scanInt (r : List Char) : Int × Bool × List Char :=
  let neg := r.head? = some '-'
  let r' := if r.head? = some '-' ∨ r.head? = some '+' then r.tail else r
  let ds := r'.takeWhile isDigit
  let v : Int := (ds.foldl (fun a ch => 10 * a + (ch.toNat - 48)) 0 : Nat)
  let v := if neg then -v else v
  let rest := r'.dropWhile isDigit
  if ds.isEmpty then (0, false, rest)
  else if v < -2147483648 then (-2147483648, false, rest)
  else if 2147483647 < v then (2147483647, false, rest)
  else (v, true, rest)

/-- `ss >> i` for an `int` that has no value yet -/
def SS.int (s : SS) : SS × Option Int :=
  if s.ok then
    let r := s.rest.dropWhile isSpace
    if r.isEmpty then (⟨r, false⟩, none)
    else
      let (v, good, rest) := scanInt r
      (⟨rest, good⟩, some v)
  else (s, none)

variable {K : Type}

/-- lines 42-48; the use of a variable without value is undefined -/
def loadVertex (c : Codec K) (s : SS) (m : Mesh K) : Res (Mesh K) := do
  let (s, x) := s.real c
  let (s, y) := s.real c
  let (_, z) := s.real c
  return (m.addVertex ⟨← x, ← y, ← z⟩).1

/-- lines 50-57 -/
def loadFace (s : SS) (m : Mesh K) : Res (Mesh K) := do
  let (s, i1) := s.int
  let (s, i2) := s.int
  let (_, i3) := s.int
  let a ← int32 ((← i1) - 1)
  let b ← int32 ((← i2) - 1)
  let d ← int32 ((← i3) - 1)
  let (m, _) ← m.addTriangle a b d
  return m

/-- one line, 36-57 -/
def loadLine (c : Codec K) (m : Mesh K) (line : List Char) : Res (Mesh K) :=
  if line.isEmpty then some m
  else
    let (s, ty) := SS.word ⟨line, true⟩
    if ty = ['v'] then loadVertex c s m
    else if ty = ['f'] then loadFace s m
    else some m

/-- what `getline` returns one after the other until `eof()` -/
def lines : List Char → List (List Char)
  | [] => [[]]
  | ch :: cs =>
    if ch = '\n' then [] :: lines cs
    else match lines cs with
      | [] => [[ch]]
      | l :: ls => (ch :: l) :: ls

/-- `load` 24-61; `none` is a file that cannot be opened -/
def load (c : Codec K) (file : Option (List Char)) (m : Mesh K) : Res (Bool × Mesh K) :=
  match file with
  | none => some (false, m)
  | some text => do
    let m ← (lines text).foldlM (loadLine c) m.clear
    return (true, m)

/-- `class OBJWriter`: `_verticesCount`, the state of `_f` (`is_open()`, `good()`), the text
in the open file, and the files that were closed -/
structure Writer where
  count : Int
  isOpen : Bool
  good : Bool
  out : List Char
  files : List (List Char)

/-- constructor 65-68 -/
def Writer.new : Writer := ⟨0, false, true, [], []⟩

/-- `open` 76-79; `can` tells whether the file can be created.  Opening while a file is open
fails and leaves that file open. -/
def Writer.open (w : Writer) (can : Bool) : Writer :=
  if w.isOpen ∨ !can then { w with good := false }
  else { w with isOpen := true, good := true, out := [] }

/-- `close` 86-89 -/
def Writer.close (w : Writer) : Writer :=
  if w.isOpen then { w with isOpen := false, out := [], files := w.files ++ [w.out] }
  else { w with good := false }

/-- `_f << text` -/
def Writer.put (w : Writer) (t : List Char) : Writer :=
  if w.isOpen ∧ w.good then { w with out := w.out ++ t }
  else { w with good := false }

/-- the three numbers of a point -/
def pointText (c : Codec K) (p : P3 K) : List Char :=
  c.fmt p.x ++ [' '] ++ c.fmt p.y ++ [' '] ++ c.fmt p.z

/-- lines 93-100, 107-109: the colour after a vertex; `col n` is the text of `n / 255.` -/
def colorText (col : Int → List Char) (color : Int) : List Char :=
  if color ≠ -1 then
    [' '] ++ col (color / 65536) ++ [' '] ++ col (color / 256 % 256) ++ [' '] ++ col (color % 256)
  else []

/-- lines 102-113 -/
def vertexText (c : Codec K) (col : Int → List Char) (m : Mesh K) : Res (List Char) := do
  let t ← loopN m.nbVertices.toNat (fun i t => do
    let p ← m.getVertex i
    return t ++ (['v', ' '] ++ pointText c p ++ colorText col m.getColor ++ ['\n'])) []
  return t ++ ['\n']

/-- line 124 for one triangle -/
def faceText (count : Int) (f : Int × Int × Int) : Res (List Char) := do
  let a ← int32 (f.1 + 1 + count)
  let b ← int32 (f.2.1 + 1 + count)
  let d ← int32 (f.2.2 + 1 + count)
  return ['f', ' '] ++ showInt a ++ [' '] ++ showInt b ++ [' '] ++ showInt d ++ ['\n']

/-- lines 115-125 -/
def facesText (count : Int) (m : Mesh K) : Res (List Char) :=
  loopN m.nbTriangles.toNat (fun i t => do
    if (← m.isTriangleUnlinked i) = true then return t
    else
      let f ← m.getTriangleVertices i
      let l ← faceText count f
      return t ++ l) []

/-- `write(const Mesh&)` 91-128 -/
def Writer.mesh (c : Codec K) (col : Int → List Char) (w : Writer) (m : Mesh K) : Res Writer := do
  let t1 ← vertexText c col m
  let t2 ← facesText w.count m
  let n ← int32 (w.count + m.nbVertices)
  return { (w.put (t1 ++ t2)) with count := n }

/-- lines 132-145: the text of a polyline -/
def polylineText (c : Codec K) (count : Int) (ps : List (P3 K)) : Res (List Char) := do
  let refs ← (List.range ps.length).mapM fun (i : Nat) => int32 (i + count)
  return (ps.flatMap fun p => ['v', ' '] ++ pointText c p ++ ['\n']) ++ ['\n'] ++ ['l', ' '] ++
    refs.flatMap fun i => showInt i ++ [' ']

/-- `write(const vector<Point3>&)` 130-148 -/
def Writer.polyline (c : Codec K) (w : Writer) (ps : List (P3 K)) : Res Writer := do
  let t ← polylineText c w.count ps
  let n ← int32 (w.count + ps.length)
  return { (w.put t) with count := n }

/-- `save` 11-21 for a file that can be created; the result is its content -/
def save (c : Codec K) (col : Int → List Char) (m : Mesh K) : Res (List Char) := do
  let w ← (Writer.new.open true).mesh c col m
  (w.close.files)[0]?

end CAD.Obj
