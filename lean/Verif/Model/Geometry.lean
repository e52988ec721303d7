import Mathlib.Algebra.Order.Field.Basic
import Mathlib.Analysis.Real.Sqrt

/-!
Model of `/repo/src/Geometry.h` and `/repo/src/Geometry.cpp`.

`double` is an arbitrary linearly ordered field `K` (executable over `ℚ`); the
functions that call `sqrt` are over `ℝ`.  Results that would be NaN/inf in the
C++ (division by a zero norm) are the distinct outcome `none`.
-/

namespace CAD

/-- Outcome of a C++ call: `none` is undefined behaviour (failed `assert`,
index out of range) or, where noted, a NaN result. -/
abbrev Res (α : Type*) := Option α

/-- `class Point3`, Geometry.h; constructors Geometry.cpp 11-19. -/
@[ext] structure P3 (K : Type*) where
  x : K
  y : K
  z : K
deriving DecidableEq, Repr

/-- `class Triangle3`, Geometry.cpp 296-333. -/
@[ext] structure Tri3 (K : Type*) where
  p1 : P3 K
  p2 : P3 K
  p3 : P3 K
deriving DecidableEq, Repr

/-- `class Segment3`, Geometry.cpp 201-229 (`Line3`, 171-199, has the same data). -/
@[ext] structure Seg3 (K : Type*) where
  p1 : P3 K
  p2 : P3 K
deriving DecidableEq, Repr

/-- `class Plane3`: coefficients of `a x + b y + c z + d`, Geometry.cpp 442-445. -/
@[ext] structure Plane3 (K : Type*) where
  a : K
  b : K
  c : K
  d : K
deriving DecidableEq, Repr

/-- `class BoundingBox3`: `_bInitialized`, lower corner `(_x1,_y1,_z1)`, upper
corner `(_x2,_y2,_z2)`. -/
@[ext] structure BBox (K : Type*) where
  init : Bool
  lo : P3 K
  hi : P3 K
deriving DecidableEq, Repr

namespace P3
variable {K : Type*}

section field
variable [Field K]

/-- default constructor, Geometry.cpp 11-14 -/
instance : Zero (P3 K) := ⟨⟨0, 0, 0⟩⟩
/-- `operator+` 90-99 (and `operator+=` 53-60) -/
instance : Add (P3 K) := ⟨fun p q => ⟨p.x + q.x, p.y + q.y, p.z + q.z⟩⟩
/-- `operator-` 123-132 (and `operator-=` 62-69) -/
instance : Sub (P3 K) := ⟨fun p q => ⟨p.x - q.x, p.y - q.y, p.z - q.z⟩⟩
/-- `operator*(double)` 101-110 (and `operator*=` 71-78); the C++ `p * d` is
written `d • p` here. -/
instance : SMul K (P3 K) := ⟨fun d p => ⟨d * p.x, d * p.y, d * p.z⟩⟩
/-- Not in the C++; the group structure on points used by the statements. -/
instance : Neg (P3 K) := ⟨fun p => ⟨-p.x, -p.y, -p.z⟩⟩

/-- `operator/(double)` 112-121 (and `operator/=` 80-87).  In the C++ a zero
divisor gives inf/NaN: every theorem using it carries the guard `d ≠ 0`. -/
def div (p : P3 K) (d : K) : P3 K := ⟨p.x / d, p.y / d, p.z / d⟩

/-- `distance_square` 134-137 -/
def distSq (p q : P3 K) : K :=
  (p.x - q.x) * (p.x - q.x) + (p.y - q.y) * (p.y - q.y) + (p.z - q.z) * (p.z - q.z)

/-- `dot_product` 139-142 -/
def dot (p q : P3 K) : K := p.x * q.x + p.y * q.y + p.z * q.z

/-- `cross_product` 144-148 -/
def cross (p q : P3 K) : P3 K :=
  ⟨p.y * q.z - p.z * q.y, p.z * q.x - p.x * q.z, p.x * q.y - p.y * q.x⟩

/-- `norm_square` 155-158 -/
def normSq (p : P3 K) : K := p.x * p.x + p.y * p.y + p.z * p.z

end field

/-- `norm` 150-153 -/
noncomputable def norm (p : P3 ℝ) : ℝ := Real.sqrt (p.x * p.x + p.y * p.y + p.z * p.z)

open Classical in
/-- `normalized` 160-164 (and `normalize` 165-169): multiplication by
`1. / norm()`.  `none`: the norm is zero and the C++ result is NaN. -/
noncomputable def normalized (p : P3 ℝ) : Res (P3 ℝ) :=
  if p.norm = 0 then none else some ((1 / p.norm) • p)

end P3

namespace Seg3
variable {K : Type*} [Field K]

/-- `Segment3::norm_square` 236-239 -/
def normSq (s : Seg3 K) : K := (s.p1 - s.p2).normSq

/-- `Segment3::norm` 231-234 -/
noncomputable def norm (s : Seg3 ℝ) : ℝ := (s.p1 - s.p2).norm

/-- The constant `EPS = 1.e-10` of `Segment3::intersect`, line 255. -/
def EPS : K := 1 / 10000000000

/-- `Segment3::intersect` 241-293. `some p`: returns true and sets
`pIntersection := p`; `none`: returns false.  The commented-out test on `mub`
(287-290) is, as in the C++, not performed. -/
def intersect [LinearOrder K] (s t : Seg3 K) : Option (P3 K) :=
  let p13 := s.p1 - t.p1
  let p43 := t.p2 - t.p1
  if p43.normSq < EPS * EPS then none else
  let p21 := s.p2 - s.p1
  if p21.normSq < EPS * EPS then none else
  let d4321 := p43.dot p21
  let d4343 := p43.dot p43
  let d2121 := p21.dot p21
  let denom := d2121 * d4343 - d4321 * d4321
  if |denom| < EPS then none else
  let d1321 := p13.dot p21
  let d1343 := p13.dot p43
  let numerator := d1343 * d4321 - d1321 * d4343
  let mua := numerator / denom
  if mua < 0 ∨ mua > 1 then none else
  some (s.p1 + mua • p21)

end Seg3

namespace Plane3
variable {K : Type*} [Field K]

/-- `Plane3::normal` 531-534 -/
def normal (p : Plane3 K) : P3 K := ⟨p.a, p.b, p.c⟩

/-- `Plane3::distance_to` 473-476 -/
def distanceTo (p : Plane3 K) (q : P3 K) : K := p.a * q.x + p.b * q.y + p.c * q.z + p.d

/-- `Plane3::intersect_with(const Segment3&, Point3&)` 483-503.
`some q`: true with `pIntersection := q`; `none`: false. -/
def intersectSeg [LinearOrder K] (p : Plane3 K) (s : Seg3 K) : Option (P3 K) :=
  let k := p.a * s.p1.x + p.b * s.p1.y + p.c * s.p1.z + p.d
  let u := p.a * (s.p2.x - s.p1.x) + p.b * (s.p2.y - s.p1.y) + p.c * (s.p2.z - s.p1.z)
  if u = 0 then none else
  let t := -k / u
  if t ≤ 0 ∨ t ≥ 1 then none else
  some ⟨s.p1.x + t * (s.p2.x - s.p1.x), s.p1.y + t * (s.p2.y - s.p1.y),
        s.p1.z + t * (s.p2.z - s.p1.z)⟩

/-- `Plane3::intersect_with(const Plane3&, Line3&)` 505-522: only the boolean;
the C++ never writes the line (todo in the source). -/
def intersectPlane [LinearOrder K] (p q : Plane3 K) : Bool :=
  let e : K := 1 / 100000000
  if ((p.normal).cross q.normal).normSq < e * e then false else true

/-- `Plane3::project_point` 524-529 -/
def projectPoint (p : Plane3 K) (q : P3 K) : P3 K :=
  q - (p.normal.dot q + p.d) • p.normal

/-- `Plane3::compute_using` 457-466 (constructors 447-455, 468-471).
`none`: the three points are collinear and all coefficients are NaN. -/
noncomputable def computeUsing (p1 p2 p3 : P3 ℝ) : Res (Plane3 ℝ) :=
  match ((p1 - p2).cross (p1 - p3)).normalized with
  | none => none
  | some pn => some ⟨pn.x, pn.y, pn.z, -(pn.x * p1.x + pn.y * p1.y + pn.z * p1.z)⟩

end Plane3

namespace BBox
variable {K : Type*}

/-- default constructor 536-541 -/
def empty [Field K] : BBox K := ⟨false, 0, 0⟩

/-- one coordinate of `BoundingBox3::add`, lines 565-568 (569-578): the new
`(_x1, _x2)`. -/
def grow [LT K] [DecidableLT K] (x lo hi : K) : K × K :=
  if x < lo then (x, hi) else if x > hi then (lo, x) else (lo, hi)

/-- `BoundingBox3::add` 551-579 -/
def add [LT K] [DecidableLT K] (b : BBox K) (p : P3 K) : BBox K :=
  if b.init = false then ⟨true, p, p⟩
  else
    let gx := grow p.x b.lo.x b.hi.x
    let gy := grow p.y b.lo.y b.hi.y
    let gz := grow p.z b.lo.z b.hi.z
    ⟨b.init, ⟨gx.1, gy.1, gz.1⟩, ⟨gx.2, gy.2, gz.2⟩⟩

/-- `BoundingBox3::BoundingBox3(const Triangle3&)` 543-549.  (The C++ leaves the
coordinates uninitialised before the first `add`, which overwrites all.) -/
def ofTri [Field K] [LT K] [DecidableLT K] (t : Tri3 K) : BBox K :=
  ((empty.add t.p1).add t.p2).add t.p3

/-- `BoundingBox3::intersect_with` 581-602; it does not look at `_bInitialized`. -/
def intersectWith [LT K] [DecidableLT K] (a b : BBox K) : Bool :=
  if a.hi.x < b.lo.x then false
  else if a.hi.y < b.lo.y then false
  else if a.hi.z < b.lo.z then false
  else if b.hi.x < a.lo.x then false
  else if b.hi.y < a.lo.y then false
  else if b.hi.z < a.lo.z then false
  else true

end BBox

namespace Tri3
variable {K : Type*} [Field K]

/-- `Triangle3::orthogonal` 436-439 -/
def orthogonal (t : Tri3 K) : P3 K := (t.p1 - t.p2).cross (t.p1 - t.p3)

/-- `Triangle3::surface` 426-429 -/
noncomputable def surface (t : Tri3 ℝ) : ℝ := t.orthogonal.norm * (1 / 2)

/-- `Triangle3::normal` 431-434; `none`: NaN. -/
noncomputable def normal (t : Tri3 ℝ) : Res (P3 ℝ) := t.orthogonal.normalized

/-- the two increments of lines 340-341 (344-345, 348-349) -/
def countSides [LinearOrder K] (proj : K) (c : Nat × Nat) : Nat × Nat :=
  ((if proj > 0 then c.1 + 1 else c.1), (if proj < 0 then c.2 + 1 else c.2))

/-- `Triangle3::cutted_by` 335-352 -/
def cuttedBy [LinearOrder K] (t : Tri3 K) (p : Plane3 K) : Bool :=
  let c := countSides (p.distanceTo t.p1) (0, 0)
  let c := countSides (p.distanceTo t.p2) c
  let c := countSides (p.distanceTo t.p3) c
  decide (c.1 > 0) && decide (c.2 > 0)

/-- `Triangle3::contains` 354-373 -/
def contains [LinearOrder K] (t : Tri3 K) (p : P3 K) : Bool :=
  let a := t.p1 - p
  let b := t.p2 - p
  let c := t.p3 - p
  let u := b.cross c
  let v := c.cross a
  if u.dot v < 0 then false
  else
    let w := a.cross b
    if u.dot w < 0 then false else true

/-- `Plane3(const Triangle3&)` 452-455 -/
noncomputable def plane (t : Tri3 ℝ) : Res (Plane3 ℝ) := Plane3.computeUsing t.p1 t.p2 t.p3

/-- `Triangle3::intersect_with(const Segment3&, Point3&)` 375-383.  Outer `none`:
degenerate triangle (NaN plane; the C++ then answers true with a NaN point).
Inner `none`: false.  (When the C++ answers false it may still have written
`pIntersection`; that by-product is not modelled.) -/
noncomputable def intersectSeg (t : Tri3 ℝ) (s : Seg3 ℝ) : Res (Option (P3 ℝ)) :=
  match t.plane with
  | none => none
  | some p =>
    match p.intersectSeg s with
    | none => some none
    | some q => some (if t.contains q then some q else none)

/-- the boolean result of `intersect_with(Segment3)` -/
noncomputable def hitsSeg (t : Tri3 ℝ) (s : Seg3 ℝ) : Res Bool :=
  (t.intersectSeg s).map Option.isSome

/-- short-circuit `if (x) return true; …` of lines 405-423 -/
def firstTrue : List (Res Bool) → Res Bool
  | [] => some false
  | none :: _ => none
  | some true :: _ => some true
  | some false :: l => firstTrue l

/-- `Triangle3::intersect_with(const Triangle3&)` 385-424. `none`: a plane of a
degenerate triangle had to be used. -/
noncomputable def intersectTri (s t : Tri3 ℝ) : Res Bool :=
  if (BBox.ofTri s).intersectWith (BBox.ofTri t) = false then some false else
  match t.plane with
  | none => none
  | some planeB =>
  if s.cuttedBy planeB = false then some false else
  match s.plane with
  | none => none
  | some planeA =>
  if t.cuttedBy planeA = false then some false else
  firstTrue [s.hitsSeg ⟨t.p1, t.p2⟩, s.hitsSeg ⟨t.p1, t.p3⟩, s.hitsSeg ⟨t.p2, t.p3⟩,
             t.hitsSeg ⟨s.p1, s.p2⟩, t.hitsSeg ⟨s.p1, s.p3⟩, t.hitsSeg ⟨s.p2, s.p3⟩]

end Tri3
end CAD
