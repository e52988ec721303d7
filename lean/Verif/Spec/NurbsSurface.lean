import Verif.Model.NurbsSurface
import Verif.Spec.Nurbs

/-! Vocabulary for statements about NURBS surfaces. -/

namespace CAD
namespace Nurbs
variable {K : Type} [Field K] [LinearOrder K]

/-- A consistent surface of degrees `p`, `q` with a net of `nu` times `nv` points and
clamped knots.  The scratch vectors may hold anything; `set_degree` makes them large
enough. -/
structure Surface.Valid (s : Surface K) (p q nu nv : Nat) : Prop where
  degreeU : s.degreeU = p
  degreeV : s.degreeV = q
  nbU : s.nbU = nu
  nbV : s.nbV = nv
  points : s.points.length = nu * nv
  weights : s.weights.length = nu * nv
  knotsU : ClampedKnots s.knotsU p nu
  knotsV : ClampedKnots s.knotsV q nv
  tempPointsU : p + 1 ≤ s.tempPointsU.length
  tempPointsV : q + 1 ≤ s.tempPointsV.length
  tempWeightsU : p + 1 ≤ s.tempWeightsU.length
  tempWeightsV : q + 1 ≤ s.tempWeightsV.length

/-- control point in column `i` and row `j` of a net with `nu` columns -/
def Surface.pt (s : Surface K) (nu i j : Nat) : P3 K := s.points.getD (i + nu * j) ⟨0, 0, 0⟩

/-- its weight -/
def Surface.wt (s : Surface K) (nu i j : Nat) : K := s.weights.getD (i + nu * j) 0

/-- the denominator of the rational surface on the knot spans `k`, `l` -/
def Surface.denom (s : Surface K) (p q nu nv k l : Nat) (u v : K) : K :=
  ∑ j ∈ Finset.range nv, ∑ i ∈ Finset.range nu,
    BSpline.basis (kn s.knotsU) k u p i * BSpline.basis (kn s.knotsV) l v q j * s.wt nu i j

/-- the numerator of the rational surface on the knot spans `k`, `l` -/
def Surface.numer (s : Surface K) (p q nu nv k l : Nat) (u v : K) : P3 K :=
  ∑ j ∈ Finset.range nv, ∑ i ∈ Finset.range nu,
    (BSpline.basis (kn s.knotsU) k u p i * BSpline.basis (kn s.knotsV) l v q j * s.wt nu i j) • s.pt nu i j

/-- the same surface up to the scratch vectors -/
def Surface.SameShape (s s' : Surface K) : Prop :=
  s'.degreeU = s.degreeU ∧ s'.degreeV = s.degreeV ∧ s'.nbU = s.nbU ∧ s'.nbV = s.nbV ∧
    s'.closedU = s.closedU ∧ s'.closedV = s.closedV ∧ s'.knotsU = s.knotsU ∧ s'.knotsV = s.knotsV ∧
    s'.weights = s.weights ∧ s'.points = s.points

/-- the evaluated point alone -/
def Surface.at (s : Surface K) (u v : K) : Res (P3 K) := (s.evaluate u v).map Prod.snd

end Nurbs
end CAD
