import Verif.Model.MeasureRounded

/-! Planes, triangles and their intersections with segments (Geometry.cpp) in rounded arithmetic:
every `+ - * /` and `sqrt` is followed by a rounding `fl`, in the order of the C++ code.
Negation and comparison are exact; bounding boxes only compare and are those of the exact model. -/

namespace CAD
namespace Rounded
variable (fl : ℝ → ℝ)

/-- `Plane3::distance_to` 473-476 -/
def distanceTo (p : Plane3 ℝ) (q : P3 ℝ) : ℝ :=
  fl (fl (fl (fl (p.a * q.x) + fl (p.b * q.y)) + fl (p.c * q.z)) + p.d)

/-- `Plane3::compute_using` 457-466.  `none`: the norm of the cross product is zero, the
coefficients are NaN or infinite. -/
noncomputable def computeUsing (p1 p2 p3 : P3 ℝ) : Res (Plane3 ℝ) :=
  match normalized fl (cross fl (sub fl p1 p2) (sub fl p1 p3)) with
  | none => none
  | some pn => some ⟨pn.x, pn.y, pn.z, -(fl (fl (fl (pn.x * p1.x) + fl (pn.y * p1.y)) + fl (pn.z * p1.z)))⟩

/-- `Plane3(const Triangle3&)` 452-455 -/
noncomputable def plane (t : Tri3 ℝ) : Res (Plane3 ℝ) := computeUsing fl t.p1 t.p2 t.p3

open Classical in
/-- `Plane3::intersect_with(const Segment3&, Point3&)` 483-503.
`some q`: true with `pIntersection := q`; `none`: false. -/
noncomputable def planeSeg (p : Plane3 ℝ) (s : Seg3 ℝ) : Option (P3 ℝ) :=
  let k := fl (fl (fl (fl (p.a * s.p1.x) + fl (p.b * s.p1.y)) + fl (p.c * s.p1.z)) + p.d)
  let u := fl (fl (fl (p.a * fl (s.p2.x - s.p1.x)) + fl (p.b * fl (s.p2.y - s.p1.y))) + fl (p.c * fl (s.p2.z - s.p1.z)))
  if u = 0 then none else
  let t := fl (-k / u)
  if t ≤ 0 ∨ t ≥ 1 then none else
  some ⟨fl (s.p1.x + fl (t * fl (s.p2.x - s.p1.x))), fl (s.p1.y + fl (t * fl (s.p2.y - s.p1.y))),
        fl (s.p1.z + fl (t * fl (s.p2.z - s.p1.z)))⟩

/-- `Plane3::project_point` 524-529 -/
def projectPoint (p : Plane3 ℝ) (q : P3 ℝ) : P3 ℝ :=
  sub fl q (scale fl (fl (dot fl p.normal q + p.d)) p.normal)

open Classical in
/-- the two increments of lines 340-341 (344-345, 348-349) -/
noncomputable def countSides (proj : ℝ) (c : Nat × Nat) : Nat × Nat :=
  ((if proj > 0 then c.1 + 1 else c.1), (if proj < 0 then c.2 + 1 else c.2))

/-- `Triangle3::cutted_by` 335-352 -/
noncomputable def cuttedBy (t : Tri3 ℝ) (p : Plane3 ℝ) : Bool :=
  let c := countSides (distanceTo fl p t.p1) (0, 0)
  let c := countSides (distanceTo fl p t.p2) c
  let c := countSides (distanceTo fl p t.p3) c
  decide (c.1 > 0) && decide (c.2 > 0)

open Classical in
/-- `Triangle3::contains` 354-373 -/
noncomputable def contains (t : Tri3 ℝ) (p : P3 ℝ) : Bool :=
  let a := sub fl t.p1 p
  let b := sub fl t.p2 p
  let c := sub fl t.p3 p
  let u := cross fl b c
  let v := cross fl c a
  if dot fl u v < 0 then false
  else
    let w := cross fl a b
    if dot fl u w < 0 then false else true

/-- `Triangle3::intersect_with(const Segment3&, Point3&)` 375-383.  Outer `none`: no plane (NaN). -/
noncomputable def triSeg (t : Tri3 ℝ) (s : Seg3 ℝ) : Res (Option (P3 ℝ)) :=
  match plane fl t with
  | none => none
  | some p =>
    match planeSeg fl p s with
    | none => some none
    | some q => some (if contains fl t q then some q else none)

/-- the boolean result of `intersect_with(Segment3)` -/
noncomputable def hitsSeg (t : Tri3 ℝ) (s : Seg3 ℝ) : Res Bool := (triSeg fl t s).map Option.isSome

/-- `Triangle3::intersect_with(const Triangle3&)` 385-424 -/
noncomputable def intersectTri (s t : Tri3 ℝ) : Res Bool :=
  if (BBox.ofTri s).intersectWith (BBox.ofTri t) = false then some false else
  match plane fl t with
  | none => none
  | some planeB =>
  if cuttedBy fl s planeB = false then some false else
  match plane fl s with
  | none => none
  | some planeA =>
  if cuttedBy fl t planeA = false then some false else
  Tri3.firstTrue [hitsSeg fl s ⟨t.p1, t.p2⟩, hitsSeg fl s ⟨t.p1, t.p3⟩, hitsSeg fl s ⟨t.p2, t.p3⟩,
             hitsSeg fl t ⟨s.p1, s.p2⟩, hitsSeg fl t ⟨s.p1, s.p3⟩, hitsSeg fl t ⟨s.p2, s.p3⟩]

end Rounded
end CAD
