import Verif.Model.Bezier
import Verif.Model.MeasureRounded

/-! `BezierUtil` and `CubicBezierTriangles::set_normals` in rounded arithmetic: every operation is followed by a rounding `fl`, in the order
of the C++. -/

namespace CAD
namespace Bezier
variable (fl : ℝ → ℝ)

/-- `square` BezierUtil.cpp 3-6 -/
def squareR (a : ℝ) : ℝ := fl (a * a)
/-- `cubic` 8-11 -/
def cubicR (a : ℝ) : ℝ := fl (fl (a * a) * a)
/-- `Bernstein01` 13-16 -/
def b01R (u : ℝ) : ℝ := fl (1 - u)
/-- `Bernstein02` 23-26 -/
def b02R (u : ℝ) : ℝ := squareR fl (fl (1 - u))
/-- `Bernstein12` 28-31 -/
def b12R (u : ℝ) : ℝ := fl (fl (2 * u) * fl (1 - u))
/-- `Bernstein22` 33-36 -/
def b22R (u : ℝ) : ℝ := squareR fl u
/-- `Bernstein03` 38-41 -/
def b03R (u : ℝ) : ℝ := cubicR fl (fl (1 - u))
/-- `Bernstein13` 43-46 -/
def b13R (u : ℝ) : ℝ := fl (fl (3 * u) * squareR fl (fl (1 - u)))
/-- `Bernstein23` 48-51 -/
def b23R (u : ℝ) : ℝ := fl (fl (3 * squareR fl u) * fl (1 - u))
/-- `Bernstein33` 53-56 -/
def b33R (u : ℝ) : ℝ := cubicR fl u

end Bezier

namespace CubicBez
open Rounded
variable (fl : ℝ → ℝ)

/-- `Point3::operator/` Geometry.cpp 112-121, for a divisor other than zero -/
noncomputable def overR (p : P3 ℝ) (d : ℝ) : P3 ℝ := ⟨fl (p.x / d), fl (p.y / d), fl (p.z / d)⟩

/-- one of the six formulas of `set_normals` CubicBezierTriangles.cpp 42-58 -/
noncomputable def edgeControlR (p q n : P3 ℝ) : P3 ℝ :=
  let w := dot fl (sub fl q p) n
  overR fl (sub fl (add fl (add fl p p) q) (scale fl w n)) 3

/-- `set_normals` 37-64 -/
noncomputable def setNormalsR (q : CubicBez ℝ) (n1 n2 n3 : P3 ℝ) : CubicBez ℝ :=
  let c12 := edgeControlR fl q.p1 q.p2 n1
  let c21 := edgeControlR fl q.p2 q.p1 n2
  let c13 := edgeControlR fl q.p1 q.p3 n1
  let c31 := edgeControlR fl q.p3 q.p1 n3
  let c23 := edgeControlR fl q.p2 q.p3 n2
  let c32 := edgeControlR fl q.p3 q.p2 n3
  let e := overR fl (add fl (add fl (add fl (add fl (add fl c12 c21) c13) c31) c23) c32) 6
  let v := overR fl (add fl (add fl q.p1 q.p2) q.p3) 3
  { q with c12 := c12, c21 := c21, c13 := c13, c31 := c31, c23 := c23, c32 := c32
           center := add fl e (overR fl (sub fl e v) 2) }

end CubicBez
end CAD
