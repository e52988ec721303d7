import Mathlib.Algebra.BigOperators.Intervals
import Mathlib.Algebra.Field.Basic

/-! B-spline basis functions, the textbook definition of the curve. -/

namespace CAD
namespace BSpline
variable {K : Type} [Field K]

/-- Cox–de Boor recursion: value at `t` of the basis function of degree `q` and
index `i` for the knots `τ`, when `t` lies in the knot interval number `k`.
Quotients `0/0` are zero, as usual. -/
def basis (τ : Nat → K) (k : Nat) (t : K) : Nat → Nat → K
  | 0, i => if i = k then 1 else 0
  | q + 1, i => (t - τ i) / (τ (i + (q + 1)) - τ i) * basis τ k t q i +
      (τ (i + 1 + (q + 1)) - t) / (τ (i + 1 + (q + 1)) - τ (i + 1)) * basis τ k t q (i + 1)

end BSpline
end CAD
