import Verif.Model.Geometry
import Mathlib.Logic.Function.Basic

/-! Model of the parts of `/repo/src/Geometry.cpp` that change objects in place, of `Line3`, and of
`/repo/src/GeometryUtil.cpp`.

`P3` values have no identity, but the compound assignments take a reference that may be the object
itself (`p += p`).  They are modelled on a store of `Point3` objects, statement by statement: each
statement reads both objects anew. -/

namespace CAD

/-- the `Point3` objects of a program, by address -/
abbrev Store (K : Type*) := Nat → P3 K

namespace Store
variable {K : Type*}

/-- `_x = v` on object `a` (also through `x() = v`, Geometry.cpp 22-25) -/
def setX (s : Store K) (a : Nat) (v : K) : Store K := Function.update s a { s a with x := v }
/-- `_y = v`; `y() = v`, 27-30 -/
def setY (s : Store K) (a : Nat) (v : K) : Store K := Function.update s a { s a with y := v }
/-- `_z = v`; `z() = v`, 32-35 -/
def setZ (s : Store K) (a : Nat) (v : K) : Store K := Function.update s a { s a with z := v }

variable [Field K]

/-- `operator+=` 53-60: object `a` is `*this`, object `b` is `p` -/
def addAssign (s : Store K) (a b : Nat) : Store K :=
  let s := s.setX a ((s a).x + (s b).x)
  let s := s.setY a ((s a).y + (s b).y)
  s.setZ a ((s a).z + (s b).z)

/-- `operator-=` 62-69 -/
def subAssign (s : Store K) (a b : Nat) : Store K :=
  let s := s.setX a ((s a).x - (s b).x)
  let s := s.setY a ((s a).y - (s b).y)
  s.setZ a ((s a).z - (s b).z)

/-- `operator*=` 71-78; the factor is passed by value -/
def mulAssign (s : Store K) (a : Nat) (d : K) : Store K :=
  let s := s.setX a ((s a).x * d)
  let s := s.setY a ((s a).y * d)
  s.setZ a ((s a).z * d)

/-- `operator/=` 80-87; `none`: division by zero, coordinates inf or NaN -/
def divAssign [DecidableEq K] (s : Store K) (a : Nat) (d : K) : Res (Store K) :=
  if d = 0 then none else
  let s := s.setX a ((s a).x / d)
  let s := s.setY a ((s a).y / d)
  some (s.setZ a ((s a).z / d))

open Classical in
/-- `normalize` 165-169; `none`: the norm is zero, coordinates NaN -/
noncomputable def normalize (s : Store ℝ) (a : Nat) : Res (Store ℝ) :=
  if (s a).norm = 0 then none else some (s.mulAssign a (1 / (s a).norm))

end Store

/-- `class Line3`, Geometry.cpp 171-199 -/
@[ext] structure Line3 (K : Type*) where
  p1 : P3 K
  p2 : P3 K
deriving DecidableEq, Repr

namespace Line3
variable {K : Type*}

/-- default constructor 171-173: two points at the origin -/
def new [Field K] : Line3 K := ⟨0, 0⟩
/-- `set_p1` 191-194 -/
def setP1 (l : Line3 K) (p : P3 K) : Line3 K := { l with p1 := p }
/-- `set_p2` 196-199 -/
def setP2 (l : Line3 K) (p : P3 K) : Line3 K := { l with p2 := p }

end Line3

/-- `Plane3::intersect_with(const Plane3&, Line3&)` 505-522 with its output parameter, which no
statement of the function writes -/
def Plane3.intersectPlaneLine {K : Type*} [Field K] [LinearOrder K] (p q : Plane3 K) (line : Line3 K) : Bool × Line3 K :=
  (p.intersectPlane q, line)

namespace GeometryUtil

/-- `std::default_random_engine` with `std::normal_distribution`: how to seed, and how to draw a
number from a state of engine and distribution.  Which numbers come out is up to the library. -/
structure Random (σ : Type) where
  seed : Int → σ
  draw : σ → ℝ × σ

/-- `compute_random_axis` GeometryUtil.cpp 9-18 on object `a` of the store; the default seed is 0 -/
noncomputable def computeRandomAxis {σ : Type} (g : Random σ) (s : Store ℝ) (a : Nat) (seed : Int) : Res (Store ℝ) :=
  let d1 := g.draw (g.seed seed)
  let s := s.setX a d1.1
  let d2 := g.draw d1.2
  let s := s.setY a d2.1
  let d3 := g.draw d2.2
  let s := s.setZ a d3.1
  s.normalize a

end GeometryUtil

namespace Color

/-- `PIXELRGB(r,g,b)`, Color.h 4 -/
def pixelRgb (r g b : Nat) : Nat := r * 2 ^ 16 + g * 2 ^ 8 + b

/-- Color.h 6-17 -/
def blue : Nat := pixelRgb 0xff 0 0
def green : Nat := pixelRgb 0 0xff 0
def red : Nat := pixelRgb 0 0 0xff
def black : Nat := pixelRgb 0 0 0
def white : Nat := pixelRgb 0xff 0xff 0xff
def grey : Nat := pixelRgb 0x80 0x80 0x80
def darkGrey : Nat := pixelRgb 0x20 0x20 0x20
def darkGreen : Nat := pixelRgb 0x20 0x80 0x20
def noColor : Nat := 0xffffffff

end Color
end CAD
