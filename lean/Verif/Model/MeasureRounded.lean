import Verif.Model.Rounded
import Verif.Model.Measure

/-! `MeshMeasurements::volume`, `surface` and `is_oriented_outside` in rounded arithmetic, with the
loop of the exact model (`Measure.foldLinked`). -/

namespace CAD
namespace Rounded
variable (fl : ℝ → ℝ)

/-- `Point3::dot_product` 139-142 -/
def dot (p q : P3 ℝ) : ℝ := fl (fl (fl (p.x * q.x) + fl (p.y * q.y)) + fl (p.z * q.z))

/-- `Point3::cross_product` 144-148 -/
def cross (p q : P3 ℝ) : P3 ℝ :=
  ⟨fl (fl (p.y * q.z) - fl (p.z * q.y)), fl (fl (p.z * q.x) - fl (p.x * q.z)), fl (fl (p.x * q.y) - fl (p.y * q.x))⟩

/-- `Triangle3::orthogonal` 436-439 -/
def orthogonal (t : Tri3 ℝ) : P3 ℝ := cross fl (sub fl t.p1 t.p2) (sub fl t.p1 t.p3)

open Classical in
/-- `Triangle3::surface` 426-429.  `none`: the root of a negative number, NaN. -/
noncomputable def triSurface (t : Tri3 ℝ) : Res ℝ :=
  let s := normSq fl (orthogonal fl t)
  if s < 0 then none else some (fl (fl (Real.sqrt s) * (1 / 2)))

/-- `MeshMeasurements::volume` 81-97 -/
noncomputable def volume (m : Mesh ℝ) : Res ℝ := do
  let v ← Measure.foldLinked m (fun acc t => some (fl (acc + dot fl t.p1 (orthogonal fl t)))) 0
  return fl (v / 6)

/-- `MeshMeasurements::surface` 99-115 -/
noncomputable def surface (m : Mesh ℝ) : Res ℝ :=
  Measure.foldLinked m (fun acc t => do
    let s ← triSurface fl t
    return fl (acc + s)) 0

open Classical in
/-- `is_oriented_outside` 47-50 -/
noncomputable def isOrientedOutside (m : Mesh ℝ) : Res Bool := do
  let v ← volume fl m
  return decide (v ≥ 0)

end Rounded
end CAD
