import Verif.Model.Nurbs
import Verif.Spec.BSpline
import Verif.Lemmas.Point

/-! Vocabulary for statements about NURBS. -/

namespace CAD
namespace Nurbs
variable {K : Type} [Field K] [LinearOrder K]

/-- knot number `i`; numbers past the end continue with the last knot of a clamped
vector -/
def kn (knots : List K) (i : Nat) : K := knots.getD i 1

/-- A clamped knot vector for degree `p` and `n` points: sorted, `p + 1` zeros at the
beginning and `p + 1` ones at the end (more are allowed), anything in between. -/
structure ClampedKnots (knots : List K) (p n : Nat) : Prop where
  length : knots.length = n + p + 1
  sorted : knots.Pairwise (· ≤ ·)
  first : ∀ i ≤ p, knots[i]? = some 0
  last : ∀ i, n ≤ i → i ≤ n + p → knots[i]? = some 1

/-- A consistent curve of degree `p` with `n` points and clamped knots.  The scratch
vectors may hold anything; `set_degree` makes them large enough. -/
structure Curve.Valid (c : Curve K) (p n : Nat) : Prop where
  degree : c.degree = p
  points : c.points.length = n
  nbPoints : c.nbPoints = n
  weights : c.weights.length = n
  knots : ClampedKnots c.knots p n
  tempPoints : p + 1 ≤ c.tempPoints.length
  tempWeights : p + 1 ≤ c.tempWeights.length

/-- the parameter brought into `[0, 1]` -/
def clamp (t : K) : K := max 0 (min t 1)

/-- `t` lies in the non-empty knot interval number `k` (half open, except that the
last one contains the end 1) -/
def InSpan (knots : List K) (t : K) (k : Nat) : Prop :=
  kn knots k < kn knots (k + 1) ∧ kn knots k ≤ t ∧ t ≤ kn knots (k + 1) ∧ (t < 1 → t < kn knots (k + 1))

/-- the denominator of the rational curve: sum of basis functions times weights -/
def Curve.denom (c : Curve K) (p n k : Nat) (u : K) : K :=
  ∑ i ∈ Finset.range n, BSpline.basis (kn c.knots) k u p i * c.weights.getD i 0

/-- the numerator: sum of basis functions times weights times points -/
def Curve.numer (c : Curve K) (p n k : Nat) (u : K) : P3 K :=
  ∑ i ∈ Finset.range n, BSpline.basis (kn c.knots) k u p i • c.weights.getD i 0 • c.points.getD i ⟨0, 0, 0⟩

/-- the same curve up to the scratch vectors -/
def Curve.SameShape (c c' : Curve K) : Prop :=
  c'.degree = c.degree ∧ c'.knots = c.knots ∧ c'.weights = c.weights ∧ c'.points = c.points ∧
    c'.nbPoints = c.nbPoints

/-- the evaluated point alone -/
def Curve.at (c : Curve K) (u : K) : Res (P3 K) := (c.evaluate u).map Prod.snd

end Nurbs
end CAD
