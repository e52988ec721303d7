import Verif.Model.NurbsSurface
import Verif.Model.Obj

/-!
Model of `/repo/src/StepFile.cpp` (`class StepWriter`).

A file is a list of tokens; `render` gives its text.  A file that can be opened accepts all
text.  The file name is not modelled.  The counter that runs over the control points
(`iPointIndex`) is written as a formula; it is checked for overflow at its last value.
-/

namespace CAD.Step

/-- what one `<<` writes: fixed text, `"#" << id`, the equals sign of a definition (in the
header between blanks), an `int`, a `double` -/
inductive Tok (K : Type)
  | s (t : String)
  | id (n : Int)
  | eq (blanks : Bool)
  | i (n : Int)
  | d (x : K)
deriving DecidableEq

variable {K : Type}

/-- the text of a token; `fmt` is `operator<<` for `double` -/
def Tok.text (fmt : K → List Char) : Tok K → List Char
  | .s t => t.toList
  | .id n => '#' :: Obj.showInt n
  | .eq b => if b then [' ', '=', ' '] else ['=']
  | .i n => Obj.showInt n
  | .d x => fmt x

/-- the text of a file -/
def render (fmt : K → List Char) (l : List (Tok K)) : List Char := l.flatMap (Tok.text fmt)

/-- `endl` -/
def nl : Tok K := .s "\n"

/-- `write_header` 20-36 -/
def header : List (Tok K) :=
  [.s "ISO-10303-21;", nl, .s "HEADER;", nl,
   .s "FILE_SCHEMA(('AUTOMOTIVE_DESIGN { 1 0 10303 214 3 1 1 }'));", nl, .s "ENDSEC;", nl, nl, .s "DATA;", nl,
   .id 10, .eq true, .s "SHAPE_DEFINITION_REPRESENTATION(", .id 11, .s ", ", .id 12, .s ");", nl,
   .id 11, .eq true, .s "PRODUCT_DEFINITION_SHAPE('', $, ", .id 14, .s ");", nl,
   .id 12, .eq true, .s "SHAPE_REPRESENTATION('', (), '');", nl,
   .id 13, .eq true, .s "PRODUCT_DEFINITION_CONTEXT('part definition', '', 'design');", nl,
   .id 14, .eq true, .s "PRODUCT_DEFINITION('(Unsaved)', '(Unsaved)', '', ", .id 13, .s ");", nl, nl]

/-- `write_footer` 38-42 -/
def footer : List (Tok K) := [.s "ENDSEC;", nl, .s "END-ISO-10303-21;"]

/-- `write_cartesian_point` 72-76 with the id `n` -/
def pointToks (n : Int) (p : P3 K) : List (Tok K) :=
  [.id n, .eq false, .s "CARTESIAN_POINT('',(", .d p.x, .s ",", .d p.y, .s ",", .d p.z, .s "));", nl]

/-- lines 82-83, the ids are `n`, `n + 1`, … -/
def pointsToks (n : Int) : List (P3 K) → List (Tok K)
  | [] => []
  | p :: ps => pointToks n p ++ pointsToks (n + 1) ps

/-- `if (i + 1 != nb) _f << ","` -/
def comma (i : Nat) (nb : Int) : List (Tok K) := if (i : Int) + 1 ≠ nb then [.s ","] else []

/-- lines 93-101: one row of references -/
def refRow (start nu : Int) : List (Tok K) :=
  [.s "("] ++ ((List.range nu.toNat).flatMap fun (i : Nat) => .id (start + i) :: comma i nu) ++ [.s ")"]

/-- lines 91-104 -/
def refRows (start nu nv : Int) : List (Tok K) :=
  (List.range nv.toNat).flatMap fun (j : Nat) =>
    refRow (start + nu.toNat * j) nu ++ if (j : Int) + 1 ≠ nv then [.s ",", nl] else []

/-- a `size_t` expression -/
def usize (x : Int) : Int := x % 18446744073709551616

/-- lines 117-120 and 122-125 for a knot vector with `len` knots.  When there are less than
`2 * degree + 2` knots the bound wraps around and `i` overflows (`none`). -/
def multToks (degree len : Int) : Res (List (Tok K)) := do
  let n := usize (len - degree * 2 - 2)
  assert (n ≤ 2147483647)
  let d ← int32 (degree + 1)
  return [.s "(", .i d, .s ","] ++ ((List.range n.toNat).flatMap fun _ => [.i 1, .s ","]) ++ [.i d, .s ")"]

/-- lines 126-135 and 135-143: the knots `degree ≤ i < len - degree` -/
def knotToks (degree : Int) (ks : List K) : Res (List (Tok K)) := do
  let n := usize (ks.length - degree)
  let cnt := if 0 ≤ degree then n - degree else n - usize degree
  assert (n ≤ 2147483647 ∨ cnt ≤ 0)
  let l ← loopN cnt.toNat (fun k (t : List (Tok K)) => do
    let x ← getI ks (degree + k)
    return t ++ .d x :: if degree + k ≠ usize (ks.length - degree - 1) then [.s ","] else []) []
  return [.s "("] ++ l ++ [.s ")"]

/-- lines 153-160: one row of weights -/
def weightRow (ws : List K) (nu : Int) (j : Nat) : Res (List (Tok K)) := do
  let l ← loopN nu.toNat (fun i (t : List (Tok K)) => do
    let w ← getI ws (nu * j + i)
    return t ++ .d w :: comma i nu) []
  return [.s "("] ++ l ++ [.s ")"]

/-- lines 151-163 -/
def weightRows (ws : List K) (nu nv : Int) : Res (List (Tok K)) :=
  loopN nv.toNat (fun j (t : List (Tok K)) => do
    let r ← weightRow ws nu j
    return t ++ r ++ if (j : Int) + 1 ≠ nv then [.s ",", nl] else []) []

/-- lines 106-107 -/
def closedText (b : Bool) : Tok K := .s (if b then ".T." else ".F.")

/-- lines 86-167, the entity of the surface: `n` is the id of the surface, `p0` the id of the first point -/
def surfaceToks (p0 n : Int) (a : Nurbs.Surface K) : Res (List (Tok K)) := do
  let mu ← multToks a.degreeU a.knotsU.length
  let mv ← multToks a.degreeV a.knotsV.length
  let ku ← knotToks a.degreeU a.knotsU
  let kv ← knotToks a.degreeV a.knotsV
  let ws ← weightRows a.weights a.nbU a.nbV
  return [nl, .id n, .eq false, .s "(", nl, .s "BOUNDED_SURFACE()", nl,
      .s "B_SPLINE_SURFACE(", .i a.degreeU, .s ",", .i a.degreeV, .s ",(", nl] ++
    refRows p0 a.nbU a.nbV ++
    [nl, .s "),.UNSPECIFIED.,", closedText a.closedU, .s ",", closedText a.closedV, .s ",.F.", .s ")", nl] ++
    [.s "B_SPLINE_SURFACE_WITH_KNOTS(", nl] ++ mu ++ [.s ",", nl] ++ mv ++ [.s ",", nl] ++
    ku ++ [.s ",", nl] ++ kv ++ [.s ",", nl] ++
    [.s ".UNSPECIFIED.)", nl, .s "GEOMETRIC_REPRESENTATION_ITEM()", nl, .s "RATIONAL_B_SPLINE_SURFACE((", nl] ++
    ws ++ [nl, .s "))", nl, .s "REPRESENTATION_ITEM('')", nl, .s "SURFACE()", nl, .s ");", nl, nl]

/-- lines 169-178; `n` is the id of the surface -/
def faceToks (n : Int) : List (Tok K) :=
  [.id (n + 1), .eq false, .s "ADVANCED_FACE('', (), ", .id n, .s ", .T.);", nl,
   .id (n + 2), .eq false, .s "CLOSED_SHELL('',(", .id (n + 2 - 1), .s "));", nl,
   .id (n + 3), .eq false, .s "MANIFOLD_SOLID_BREP('',", .id (n + 3 - 1), .s ");", nl,
   .id (n + 4), .eq false, .s "ADVANCED_BREP_SHAPE_REPRESENTATION('',(", .id (n + 4 - 1), .s "),'');", nl,
   .id (n + 5), .eq false, .s "SHAPE_REPRESENTATION_RELATIONSHIP('','None',", .id 12, .s ",", .id (n + 5 - 1), .s ");", nl, nl]

/-- `class StepWriter`: `_iItemIndent`, the state of `_f` (`is_open()`, `good()`), the tokens in
the open file, and the files that were closed -/
structure Writer (K : Type) where
  next : Int
  isOpen : Bool
  good : Bool
  out : List (Tok K)
  files : List (List (Tok K))

/-- constructor 15-18 -/
def Writer.new : Writer K := ⟨10, false, true, [], []⟩

/-- `_f << …` -/
def Writer.put (w : Writer K) (t : List (Tok K)) : Writer K :=
  if w.isOpen ∧ w.good then { w with out := w.out ++ t }
  else { w with good := false }

/-- `_f.open` (`can` tells whether the file can be created): opening while a file is open
fails and leaves that file open -/
def Writer.openFile (w : Writer K) (can : Bool) : Writer K :=
  if w.isOpen ∨ !can then { w with good := false }
  else { w with isOpen := true, good := true, out := [] }

/-- `open` 50-56 -/
def Writer.open (w : Writer K) (can : Bool) : Writer K :=
  { ((w.openFile can).put header) with next := 20 }

/-- `close` 63-70 -/
def Writer.close (w : Writer K) : Writer K :=
  if w.isOpen then
    let w := w.put footer
    { w with isOpen := false, out := [], files := w.files ++ [w.out] }
  else w

/-- `write(const NurbsSurface&)` 78-179 -/
def Writer.surface (w : Writer K) (a : Nurbs.Surface K) : Res (Writer K) := do
  let n ← int32 (w.next + a.points.length)
  let _ ← int32 (w.next + a.nbU.toNat * a.nbV.toNat)
  let t ← surfaceToks w.next n a
  let m ← int32 (n + 6)
  return { w.put (pointsToks w.next a.points ++ t ++ faceToks n) with next := m }

/-- `write(const NurbsSolid&)` 181-185 -/
def Writer.solid (w : Writer K) (l : List (Nurbs.Surface K)) : Res (Writer K) := l.foldlM Writer.surface w

/-- what can be done with a writer -/
inductive Op (K : Type)
  | open (can : Bool)
  | close
  | surface (a : Nurbs.Surface K)
  | solid (l : List (Nurbs.Surface K))

/-- one call -/
def Op.run (w : Writer K) : Op K → Res (Writer K)
  | .open can => some (w.open can)
  | .close => some w.close
  | .surface a => w.surface a
  | .solid l => w.solid l

/-- the files written by a new writer that does the calls `ops` and is then destroyed (44-48) -/
def session (ops : List (Op K)) : Res (List (List (Tok K))) := do
  let w ← ops.foldlM Op.run Writer.new
  return w.close.files

end CAD.Step
