import Verif.Model.Rounded
import Verif.Model.NurbsFactory

/-! `NurbsCurve::evaluate`, `NurbsSurface::evaluate`, `NurbsCurve::to_polyline` and `NurbsUtil::to_mesh` in rounded arithmetic, with the loops of
the exact model (`Curve.evaluateBy`, `Surface.evaluateBy`).  `find_knot_span` only compares. -/

namespace CAD
namespace Nurbs
variable (fl : ℝ → ℝ)

/-- `a * (1. - alpha) + b * alpha` for one coordinate or weight, NurbsCurve.cpp 256-257 -/
def roundedBlend (alpha a b : ℝ) : ℝ := fl (fl (fl (1 - alpha) * a) + fl (alpha * b))

open Classical in
/-- The arithmetic of NurbsCurve.cpp 249-260 and NurbsSurface.cpp 414-438, every operation
followed by a rounding.  `Point3::operator*` multiplies each coordinate, `operator/` divides
each.  `none`: division by zero, the result is infinite or NaN. -/
noncomputable def roundedOps : EvalOps ℝ where
  alpha u a b := if fl (b - a) = 0 then none else some (fl (fl (u - a) / fl (b - a)))
  weigh w p := Rounded.scale fl w p
  blendP alpha p0 p1 := Rounded.add fl (Rounded.scale fl (fl (1 - alpha)) p0) (Rounded.scale fl alpha p1)
  blendW alpha w0 w1 := fl (fl (w0 * fl (1 - alpha)) + fl (w1 * alpha))
  divide p w := if w = 0 then none else some ⟨fl (p.x / w), fl (p.y / w), fl (p.z / w)⟩

/-- `NurbsCurve::evaluate` 233-261, the point alone -/
noncomputable def Curve.atRounded (c : Curve ℝ) (u : ℝ) : Res (P3 ℝ) := (c.evaluateBy (roundedOps fl) u).map Prod.snd

/-- `NurbsSurface::evaluate` 384-439, the point alone -/
noncomputable def Surface.atRounded (s : Surface ℝ) (u v : ℝ) : Res (P3 ℝ) :=
  (s.evaluateBy (roundedOps fl) u v).map Prod.snd

/-- `(double)u / iNbPointsU` of NurbsUtil.cpp 97-98; the conversions from `int` are exact.
`none`: division by zero -/
noncomputable def roundedQuot (a b : ℝ) : Res ℝ := open Classical in if b = 0 then none else some (fl (a / b))

/-- `NurbsUtil::to_mesh` 77-124 -/
noncomputable def toMeshRounded (n : Surface ℝ) (m : Mesh ℝ) (iNbSegments : Int) (bClearMesh : Bool) : Res (Surface ℝ × Mesh ℝ) :=
  toMeshBy (roundedOps fl) (roundedQuot fl) n m iNbSegments bClearMesh

/-- `NurbsUtil::to_mesh` (solid) 126-133 -/
noncomputable def toMeshSolidRounded (ns : Solid ℝ) (m : Mesh ℝ) (iNbSegments : Int) : Res (Mesh ℝ) :=
  toMeshSolidBy (roundedOps fl) (roundedQuot fl) ns m iNbSegments

/-- `deltaT` of `NurbsCurve::to_polyline` 270, for `n` control points -/
noncomputable def polyDelta (n : Nat) : ℝ := fl (1 / fl ((n : ℝ) * 10))

/-- `NurbsCurve::to_polyline` 264-277 -/
noncomputable def toPolylineRounded (c : Curve ℝ) : Res (Curve ℝ × List (P3 ℝ)) :=
  toPolylineBy (roundedOps fl) (fun t => fl (t + polyDelta fl c.points.length)) c

end Nurbs
end CAD
