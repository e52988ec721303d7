import Verif.Lemmas.Nurbs
import Verif.Spec.Soup
import Mathlib.Algebra.Module.LinearMap.Basic
import Mathlib.Algebra.BigOperators.Field

/-! C43-C47: knot spans, evaluation of curves. -/

set_option linter.unusedSimpArgs false

namespace CAD
namespace Nurbs
open BSpline
variable {K : Type} [Field K] [LinearOrder K] [IsStrictOrderedRing K]

/-! ### C43 -/

/-- C43.  For every sorted knot vector clamped for degree `p` and `n` points (any
interior multiplicities, `p = 0` covers every sorted vector from 0 to 1) and every
`t`, the search finds the interval containing `t` (brought into `[0, 1]`), which
is not empty and has enough control points on both sides. -/
theorem find_knot_span_spec {knots : List K} {p n : Nat} (h : ClampedKnots knots p n) (t : K) :
    ∃ k : Nat, findKnotSpan knots t = k ∧ p ≤ k ∧ k < n ∧ InSpan knots (clamp t) k := by
  obtain ⟨k, hk⟩ := exists_inSpan h (clamp_nonneg t) (clamp_le_one t)
  exact ⟨k, findKnotSpan_eq h hk, (hk.range h).1, (hk.range h).2, hk⟩

/-- C43: and there is only one such interval. -/
theorem find_knot_span_unique {knots : List K} {p n : Nat} (h : ClampedKnots knots p n) (t : K) {k : Nat}
    (hk : InSpan knots (clamp t) k) : findKnotSpan knots t = k := findKnotSpan_eq h hk

/-- a knot vector with a double interior knot, degree 2, 5 points -/
example : ClampedKnots ([0, 0, 0, 1 / 2, 1 / 2, 1, 1, 1] : List ℚ) 2 5 :=
  ⟨by decide, by decide +kernel, by decide +kernel, by
    intro i h1 h2
    obtain rfl | rfl | rfl : i = 5 ∨ i = 6 ∨ i = 7 := by omega
    all_goals decide +kernel⟩

example : findKnotSpan ([0, 0, 0, 1 / 2, 1 / 2, 1, 1, 1] : List ℚ) (1 / 2) = 4 := by decide +kernel
example : findKnotSpan ([0, 0, 0, 1 / 2, 1 / 2, 1, 1, 1] : List ℚ) 1 = 4 := by decide +kernel
example : findKnotSpan ([0, 0, 0, 1 / 2, 1 / 2, 1, 1, 1] : List ℚ) 7 = 4 := by decide +kernel
example : findKnotSpan ([0, 0, 0, 1 / 2, 1 / 2, 1, 1, 1] : List ℚ) (1 / 3) = 2 := by decide +kernel

/-- C43, the negation for knots that are not clamped: the span found at 0 has fewer
than `degree` control points before it, and `evaluate` fails its assert although
the curve is consistent. -/
theorem find_knot_span_unclamped_fails :
    let c : Curve ℚ := ⟨2, [0, 1 / 5, 2 / 5, 3 / 5, 4 / 5, 1], [1, 1, 1], [⟨0, 0, 0⟩, ⟨1, 0, 0⟩, ⟨1, 1, 0⟩], 3,
      [⟨0, 0, 0⟩, ⟨0, 0, 0⟩, ⟨0, 0, 0⟩], [0, 0, 0]⟩
    findKnotSpan c.knots 0 = 0 ∧ c.at 0 = none := by
  decide +kernel

/-- `scale_knots` maps the smallest knot to 0 and the largest to 1. -/
theorem scaleKnots_eq {knots : List K} {a b : K} (hs : knots.Pairwise (· ≤ ·)) (h0 : knots.head? = some a)
    (h1 : knots.getLast? = some b) (hab : a < b) :
    scaleKnots knots = some (knots.map fun x => (x - a) / (b - a)) := by
  obtain ⟨l, rfl⟩ : ∃ l, knots = a :: l := by
    cases knots with
    | nil => simp at h0
    | cons x l => simp at h0; exact ⟨l, by rw [h0]⟩
  have hmin : ∀ l : List K, (∀ x ∈ l, a ≤ x) → l.foldl min a = a := by
    intro l
    induction l with
    | nil => intro _; rfl
    | cons x l ih =>
      intro hx
      rw [List.foldl_cons, min_eq_left (hx x (by simp))]
      exact ih fun y hy => hx y (by simp [hy])
  have hmax : ∀ (l : List K) (m : K), (m :: l).Pairwise (· ≤ ·) → ∀ z, (m :: l).getLast? = some z →
      l.foldl max m = z := by
    intro l
    induction l with
    | nil => intro m _ z hz; simpa using hz
    | cons x l ih =>
      intro m hp z hz
      rw [List.foldl_cons, max_eq_right (List.rel_of_pairwise_cons hp (by simp))]
      exact ih x (List.Pairwise.of_cons hp) z (by simpa [List.getLast?_cons_cons] using hz)
  have hle : ∀ x ∈ a :: l, a ≤ x := by
    intro x hx
    rcases List.mem_cons.1 hx with rfl | hx
    · exact le_rfl
    · exact List.rel_of_pairwise_cons hs hx
  have e0 : getI (a :: l) 0 = some a := by simp [getI]
  unfold scaleKnots
  rw [e0]
  simp only [Option.bind_eq_bind, Option.bind_some]
  rw [hmin _ hle, List.foldl_cons, max_self, hmax l a hs b h1]
  have hne : b - a ≠ 0 := (sub_pos.2 hab).ne'
  simp only [divR, if_neg hne]
  generalize a :: l = L
  induction L with
  | nil => rfl
  | cons x L ih => rw [List.mapM_cons, ih]; rfl

/-- What `set_knots` produces from any clamped vector, whatever its range. -/
theorem scaleKnots_clamped {knots : List K} {p n : Nat} {a b : K} (hl : knots.length = n + p + 1)
    (hs : knots.Pairwise (· ≤ ·)) (h0 : ∀ i ≤ p, knots[i]? = some a)
    (h1 : ∀ i, n ≤ i → i ≤ n + p → knots[i]? = some b) (hab : a < b) :
    ∃ k', scaleKnots knots = some k' ∧ ClampedKnots k' p n := by
  have hne : b - a ≠ 0 := (sub_pos.2 hab).ne'
  refine ⟨_, scaleKnots_eq (a := a) (b := b) hs ?_ ?_ hab, ⟨by simpa using hl, ?_, ?_, ?_⟩⟩
  · rw [List.head?_eq_getElem?]; exact h0 0 (Nat.zero_le _)
  · rw [List.getLast?_eq_getElem?, hl]; exact h1 _ (by omega) (by omega)
  · rw [List.pairwise_map]
    refine hs.imp fun hxy => ?_
    exact div_le_div_of_nonneg_right (by linarith) (sub_pos.2 hab).le
  · intro i hi; simp [h0 i hi]
  · intro i hi hi'; simp [h1 i hi hi', div_self hne]

/-- C43/C45: the knots built by `set_uniform` are clamped. -/
theorem setUniform_clamped {c : Curve K} {p n : Nat} (hd : c.degree = p) (hn : c.nbPoints = n) (hpn : p < n) :
    ∃ c', c.setUniform = some c' ∧ ClampedKnots c'.knots p n ∧ c'.degree = c.degree ∧ c'.points = c.points ∧
      c'.weights = c.weights ∧ c'.nbPoints = c.nbPoints ∧ c'.tempPoints = c.tempPoints ∧
      c'.tempWeights = c.tempWeights := by
  have e : (uniformKnots (c.degree) (c.nbPoints) : List K) = List.replicate (p + 1) 0 ++
      ((List.range (n - p - 1)).map fun (i : Nat) => ((i + 1 : Nat) : K)) ++
      List.replicate (p + 1) ((n - p : Nat) : K) := by
    unfold uniformKnots
    rw [hd, hn, show ((p : Int) + 1).toNat = p + 1 by omega,
      show ((n : Int) - p - 1).toNat = n - p - 1 by omega,
      show ((n : Int) - p) = ((n - p : Nat) : Int) by omega, Int.cast_natCast]
  obtain ⟨k', hk, hc⟩ := scaleKnots_clamped (K := K) (knots := uniformKnots c.degree c.nbPoints) (p := p) (n := n)
    (a := 0) (b := ((n - p : Nat) : K))
    (by rw [e]; simp; omega)
    (by
      rw [e, List.pairwise_append, List.pairwise_append]
      refine ⟨⟨?_, ?_, ?_⟩, ?_, ?_⟩
      · rw [List.pairwise_replicate]; simp
      · rw [List.pairwise_map]
        refine List.pairwise_lt_range.imp ?_
        intro i j hij
        exact Nat.cast_le.2 (by omega)
      · intro x hx y hy
        obtain rfl := List.eq_of_mem_replicate hx
        obtain ⟨i, _, rfl⟩ := List.mem_map.1 hy
        exact Nat.cast_nonneg _
      · rw [List.pairwise_replicate]; simp
      · intro x hx y hy
        obtain rfl := List.eq_of_mem_replicate hy
        rcases List.mem_append.1 hx with hx | hx
        · obtain rfl := List.eq_of_mem_replicate hx
          exact Nat.cast_nonneg _
        · obtain ⟨i, hi, rfl⟩ := List.mem_map.1 hx
          rw [List.mem_range] at hi
          exact Nat.cast_le.2 (by omega))
    (by
      intro i hi
      rw [e, List.append_assoc, List.getElem?_append_left (by simp; omega), List.getElem?_replicate,
        if_pos (by omega)])
    (by
      intro i h1 h2
      rw [e, List.getElem?_append_right (by simp; omega), List.getElem?_replicate, if_pos (by simp; omega)])
    (by exact_mod_cast (by omega : 0 < n - p))
  refine ⟨{ c with knots := k' }, ?_, hc, rfl, rfl, rfl, rfl, rfl, rfl⟩
  simp [Curve.setUniform, Curve.setKnots, hk]

/-! ### C44 -/

/-- C44.  A valid curve evaluates, at every parameter, to the rational B-spline
`Σ N_i w_i P_i / Σ N_i w_i`: no knot difference is zero, no index is outside a
vector, no assert fails; only a zero final denominator is a failure.  Outside
`[0, 1]` the first or last polynomial piece is continued. -/
theorem evaluate_spec {c : Curve K} {p n k : Nat} (h : c.Valid p n) (u : K) (hs : InSpan c.knots (clamp u) k) :
    c.at u = if c.denom p n k u = 0 then none else some ((1 / c.denom p n k u) • c.numer p n k u) := by
  rw [at_eq h hs, deB_hw h hs, deB_hp h hs]

theorem weights_pos {c : Curve K} {p n : Nat} (h : c.Valid p n) (hw : ∀ w ∈ c.weights, 0 < w) {i : Nat} (hi : i < n) :
    0 < c.weights.getD i 0 := by
  have hi' : i < c.weights.length := by rw [h.weights]; exact hi
  simp only [List.getD, List.getElem?_eq_getElem hi', Option.getD_some]
  exact hw _ (List.getElem_mem hi')

/-- C44: with positive weights the denominator is positive on `[0, 1]`. -/
theorem denom_pos {c : Curve K} {p n k : Nat} (h : c.Valid p n) (hw : ∀ w ∈ c.weights, 0 < w) {u : K}
    (hs : InSpan c.knots u k) : 0 < c.denom p n k u := by
  obtain ⟨hpk, hkn⟩ := hs.range h.knots
  have hn : ∀ i, 0 ≤ basis (kn c.knots) k u p i := fun i => basis_nonneg h.knots.mono hs.2.1 hs.2.2.1 p i
  have hsum := sum_basis_eq_one (kn c.knots) u hpk hkn (den_ne h.knots.mono hs.1)
  obtain ⟨i, hi, hne⟩ : ∃ i ∈ Finset.range n, basis (kn c.knots) k u p i ≠ 0 := by
    by_contra hc
    push Not at hc
    rw [Finset.sum_eq_zero hc] at hsum
    exact zero_ne_one hsum
  refine Finset.sum_pos' (fun j hj => ?_) ⟨i, hi, ?_⟩
  · exact mul_nonneg (hn j) (weights_pos h hw (Finset.mem_range.1 hj)).le
  · exact mul_pos (lt_of_le_of_ne (hn i) (Ne.symm hne)) (weights_pos h hw (Finset.mem_range.1 hi))

/-- C44: with positive weights evaluation succeeds on the whole domain. -/
theorem evaluate_defined {c : Curve K} {p n : Nat} (h : c.Valid p n) (hw : ∀ w ∈ c.weights, 0 < w) {u : K}
    (h0 : 0 ≤ u) (h1 : u ≤ 1) : (c.at u).isSome := by
  obtain ⟨k, hk⟩ := exists_inSpan h.knots h0 h1
  rw [evaluate_spec h u (k := k) (by rw [clamp_of_mem h0 h1]; exact hk), if_neg (denom_pos h hw hk).ne']
  rfl

/-- C44: the result does not depend on the scratch vectors left by earlier
evaluations, which only change those. -/
theorem evaluate_history_free {c c' : Curve K} {p n : Nat} (h : c.Valid p n) (h' : c'.Valid p n)
    (hsame : c.SameShape c') (u : K) : c'.at u = c.at u := by
  obtain ⟨k, hk⟩ := exists_inSpan h.knots (clamp_nonneg u) (clamp_le_one u)
  obtain ⟨_, e2, e3, e4, _⟩ := hsame
  rw [evaluate_spec h u hk, evaluate_spec h' u (by rw [e2]; exact hk), Curve.denom, Curve.numer, Curve.denom,
    Curve.numer, e2, e3, e4]

/-- C44: an evaluation leaves a valid curve valid and of the same shape. -/
theorem evaluate_keeps {c c' : Curve K} {p n : Nat} (h : c.Valid p n) {u : K} {q : P3 K}
    (he : c.evaluate u = some (c', q)) : c'.Valid p n ∧ c.SameShape c' := by
  obtain ⟨k, hk⟩ := exists_inSpan h.knots (clamp_nonneg u) (clamp_le_one u)
  obtain ⟨tp, tw, l1, l2, e⟩ := evaluate_eq h hk
  rw [e] at he
  split_ifs at he with hw
  obtain ⟨rfl, _⟩ := Prod.mk.inj (Option.some.inj he)
  refine ⟨⟨h.degree, h.points, h.nbPoints, h.weights, h.knots, ?_, ?_⟩, rfl, rfl, rfl, rfl, rfl⟩
  · have := h.tempPoints; simp only; omega
  · have := h.tempWeights; simp only; omega

/-- A quarter circle as a degree 2 curve, used in the examples. -/
def quarter : Curve ℚ := ⟨2, [0, 0, 0, 1, 1, 1], [1, 1, 2], [⟨1, 0, 0⟩, ⟨1, 1, 0⟩, ⟨0, 1, 0⟩], 3,
  [⟨7, 7, 7⟩, ⟨0, 0, 0⟩, ⟨0, 0, 0⟩], [0, 5, 0]⟩

theorem quarter_valid : quarter.Valid 2 3 :=
  ⟨rfl, rfl, rfl, rfl, ⟨rfl, by decide +kernel, by decide +kernel, by
    intro i h1 h2
    obtain rfl | rfl | rfl : i = 3 ∨ i = 4 ∨ i = 5 := by omega
    all_goals decide +kernel⟩, by decide, by decide⟩

example : quarter.at (1 / 2) = some ⟨3 / 5, 4 / 5, 0⟩ := by decide +kernel
example : ∀ w ∈ quarter.weights, 0 < w := by decide +kernel

/-- C44: a zero denominator is possible with weights of both signs. -/
theorem evaluate_zero_denom :
    ({ quarter with weights := [1, -1, 1] } : Curve ℚ).at (1 / 2) = none := by decide +kernel

/-! ### C45 -/

/-- At a knot of multiplicity at least the degree the curve passes through a control
point, if the weight is not zero. -/
theorem evaluate_at_full_knot {c : Curve K} {p n k : Nat} (h : c.Valid p n) {u : K}
    (hs : InSpan c.knots (clamp u) k) (hk : ∀ i, i ≤ k → k < i + p → kn c.knots i = u)
    (hw : c.weights.getD (k - p) 0 ≠ 0) : c.at u = c.points[k - p]? := by
  obtain ⟨hpk, hkn⟩ := hs.range h.knots
  have e : ∀ {M : Type} [AddCommGroup M] [Module K M] (f : Nat → M), deB (kn c.knots) u p f k = f (k - p) :=
    fun f => deB_left hpk hk f
  have hw' : c.hw (k - p) ≠ 0 := hw
  rw [at_eq h hs, e, e, if_neg hw', getD_of_lt c.points ⟨0, 0, 0⟩ (by rw [h.points]; omega)]
  simp only [Curve.hw, Curve.hp, smul_smul]
  rw [one_div, inv_mul_cancel₀ hw, one_smul]

/-- C45.  A clamped curve starts at its first control point.  (The knot after the
`p + 1` zeros must not be zero too: the first point would be without influence.) -/
theorem evaluate_zero {c : Curve K} {p n : Nat} (h : c.Valid p n) (h1 : 0 < kn c.knots (p + 1))
    (hw : c.weights.head? ≠ some 0) : c.at 0 = c.points.head? := by
  have hc : clamp (0 : K) = 0 := clamp_of_mem le_rfl zero_le_one
  have hs : InSpan c.knots (clamp 0) p := by
    rw [hc, InSpan, h.knots.kn_first le_rfl]
    exact ⟨h1, le_rfl, h1.le, fun _ => h1⟩
  have hn := h.knots.p_lt_n
  rw [evaluate_at_full_knot h hs (fun i hi _ => h.knots.kn_first hi), Nat.sub_self, List.head?_eq_getElem?]
  rw [Nat.sub_self]
  rw [List.head?_eq_getElem?, getD_of_lt c.weights 0 (by rw [h.weights]; omega)] at hw
  exact fun e => hw (by rw [e])

/-- C45.  And it ends at its last control point. -/
theorem evaluate_one {c : Curve K} {p n : Nat} (h : c.Valid p n) (h1 : kn c.knots (n - 1) < 1)
    (hw : c.weights.getLast? ≠ some 0) : c.at 1 = c.points.getLast? := by
  have hc : clamp (1 : K) = 1 := clamp_of_mem zero_le_one le_rfl
  have hn := h.knots.p_lt_n
  have hs : InSpan c.knots (clamp 1) (n - 1) := by
    rw [hc, InSpan, h.knots.kn_last (show n ≤ n - 1 + 1 by omega)]
    exact ⟨h1, h1.le, le_rfl, fun hh => absurd hh (lt_irrefl _)⟩
  have e : ∀ {M : Type} [AddCommGroup M] [Module K M] (f : Nat → M), deB (kn c.knots) 1 p f (n - 1) = f (n - 1) :=
    fun f => deB_right (by omega) (fun i hi _ => h.knots.kn_last (by omega)) (den_ne h.knots.mono hs.1) f
  rw [List.getLast?_eq_getElem?, h.weights, getD_of_lt c.weights 0 (by rw [h.weights]; omega)] at hw
  have hw' : c.hw (n - 1) ≠ 0 := fun e => hw (congrArg some e)
  rw [at_eq h hs, e, e, if_neg hw', List.getLast?_eq_getElem?, h.points,
    getD_of_lt c.points ⟨0, 0, 0⟩ (by rw [h.points]; omega)]
  simp only [Curve.hw, Curve.hp, smul_smul] at hw' ⊢
  rw [one_div, inv_mul_cancel₀ hw', one_smul]

example : quarter.at 0 = some ⟨1, 0, 0⟩ ∧ quarter.at 1 = some ⟨0, 1, 0⟩ := by decide +kernel
example : 0 < kn quarter.knots 3 ∧ kn quarter.knots 2 < 1 ∧ quarter.weights.head? ≠ some 0 := by decide +kernel

/-- C45, the negation without the hypothesis on the next knot: with one zero more
than needed the curve starts at its second point. -/
theorem evaluate_zero_extra_knot :
    let c : Curve ℚ := ⟨1, [0, 0, 0, 1, 1], [1, 1, 1], [⟨5, 0, 0⟩, ⟨1, 0, 0⟩, ⟨2, 0, 0⟩], 3,
      [⟨0, 0, 0⟩, ⟨0, 0, 0⟩], [0, 0]⟩
    c.at 0 = some ⟨1, 0, 0⟩ := by decide +kernel

/-! ### C46 -/

/-- C46.  Mapping the control points by an affine map moves every point of the curve
by that map; evaluation also fails at the same parameters. -/
theorem evaluate_affine {c : Curve K} {p n : Nat} (h : c.Valid p n) (r1 r2 r3 t : P3 K) (u : K) :
    (c.mapPoints (affine r1 r2 r3 t)).at u = (c.at u).map (affine r1 r2 r3 t) := by
  obtain ⟨k, hk⟩ := exists_inSpan h.knots (clamp_nonneg u) (clamp_le_one u)
  obtain ⟨hpk, hkn⟩ := hk.range h.knots
  have h' : (c.mapPoints (affine r1 r2 r3 t)).Valid p n :=
    ⟨h.degree, by simpa [Curve.mapPoints] using h.points, h.nbPoints, h.weights, h.knots, h.tempPoints, h.tempWeights⟩
  have hd := den_ne h.knots.mono hk.1
  rw [at_eq h hk, at_eq h' (by exact hk)]
  have ew : deB (kn (c.mapPoints (affine r1 r2 r3 t)).knots) u p (c.mapPoints (affine r1 r2 r3 t)).hw k =
      deB (kn c.knots) u p c.hw k := rfl
  have ep : deB (kn (c.mapPoints (affine r1 r2 r3 t)).knots) u p (c.mapPoints (affine r1 r2 r3 t)).hp k =
      affine r1 r2 r3 ⟨0, 0, 0⟩ (deB (kn c.knots) u p c.hp k) + deB (kn c.knots) u p c.hw k • t := by
    change deB (kn c.knots) u p _ k = _
    rw [deB_eq_sum _ u hpk hkn hd, deB_eq_sum _ u hpk hkn hd, deB_eq_sum _ u hpk hkn hd, Finset.sum_smul,
      ← linAff_apply, map_sum, ← Finset.sum_add_distrib]
    refine Finset.sum_congr rfl fun i hi => ?_
    rw [Finset.mem_range] at hi
    rw [map_smul, linAff_apply]
    have hg : (c.mapPoints (affine r1 r2 r3 t)).points.getD i ⟨0, 0, 0⟩ =
        affine r1 r2 r3 t (c.points.getD i ⟨0, 0, 0⟩) := by
      have hi' : i < c.points.length := by rw [h.points]; exact hi
      simp [Curve.mapPoints, List.getD, hi']
    simp only [Curve.hp, Curve.hw, hg]
    change basis (kn c.knots) k u p i • c.weights.getD i 0 • _ = _
    ext <;> simp [affine, P3.dot] <;> ring
  rw [ew, ep]
  by_cases hw : deB (kn c.knots) u p c.hw k = 0
  · rw [if_pos hw, if_pos hw]; rfl
  · rw [if_neg hw, if_neg hw, Option.map_some]
    congr 1
    generalize deB (kn c.knots) u p c.hw k = W at hw ⊢
    generalize deB (kn c.knots) u p c.hp k = S
    ext <;> simp [affine, P3.dot] <;> field_simp

example : (quarter.mapPoints (affine ⟨0, 2, 0⟩ ⟨1, 0, 0⟩ ⟨0, 0, 1⟩ ⟨0, 0, 3⟩)).at (1 / 2) = some ⟨8 / 5, 3 / 5, 3⟩ := by
  decide +kernel

/-! ### C47 -/

/-- C47.  With positive weights every point of the curve is a convex combination of
the `p + 1` control points active on the span. -/
theorem evaluate_hull {c : Curve K} {p n : Nat} (h : c.Valid p n) (hw : ∀ w ∈ c.weights, 0 < w) {u : K}
    (h0 : 0 ≤ u) (h1 : u ≤ 1) :
    ∃ (k : Nat) (lam : Nat → K), InSpan c.knots u k ∧ (∀ i, 0 ≤ lam i) ∧ (∀ i, ¬ (i ≤ k ∧ k ≤ i + p) → lam i = 0) ∧
      ∑ i ∈ Finset.range n, lam i = 1 ∧
      c.at u = some (∑ i ∈ Finset.range n, lam i • c.points.getD i ⟨0, 0, 0⟩) := by
  obtain ⟨k, hk⟩ := exists_inSpan h.knots h0 h1
  have hW := denom_pos h hw hk
  refine ⟨k, fun i => basis (kn c.knots) k u p i * c.weights.getD i 0 / c.denom p n k u, hk, ?_, ?_, ?_, ?_⟩
  · intro i
    refine div_nonneg (mul_nonneg (basis_nonneg h.knots.mono hk.2.1 hk.2.2.1 p i) ?_) hW.le
    by_cases hi : i < n
    · exact (weights_pos h hw hi).le
    · have : c.weights[i]? = none := List.getElem?_eq_none (by rw [h.weights]; omega)
      simp [List.getD, this]
  · intro i hi; simp [basis_support _ _ _ _ _ hi]
  · rw [← Finset.sum_div]; exact div_self hW.ne'
  · rw [evaluate_spec h u (k := k) (by rw [clamp_of_mem h0 h1]; exact hk), if_neg hW.ne', Curve.numer, Finset.smul_sum]
    congr 1
    refine Finset.sum_congr rfl fun i _ => ?_
    rw [smul_smul, smul_smul]
    congr 1
    ring

/-- C47.  One non-zero factor on all weights changes nothing. -/
theorem evaluate_weight_scale {c : Curve K} {p n : Nat} (h : c.Valid p n) {a : K} (ha : a ≠ 0) (u : K) :
    (c.setWeights (c.weights.map (a * ·))).at u = c.at u := by
  obtain ⟨k, hk⟩ := exists_inSpan h.knots (clamp_nonneg u) (clamp_le_one u)
  have h' : (c.setWeights (c.weights.map (a * ·))).Valid p n :=
    ⟨h.degree, h.points, h.nbPoints, by simpa [Curve.setWeights] using h.weights, h.knots, h.tempPoints, h.tempWeights⟩
  have hg : ∀ i, (c.weights.map (a * ·)).getD i 0 = a * c.weights.getD i 0 := by
    intro i
    simp only [List.getD, List.getElem?_map]
    cases c.weights[i]? <;> simp
  have ew : deB (kn c.knots) u p (c.setWeights (c.weights.map (a * ·))).hw k =
      a * deB (kn c.knots) u p c.hw k := by
    rw [← smul_eq_mul, ← LinearMap.lsmul_apply, ← deB_map]
    congr 1; funext i; simp only [Curve.hw, Curve.setWeights, hg]; rfl
  have ep : deB (kn c.knots) u p (c.setWeights (c.weights.map (a * ·))).hp k =
      a • deB (kn c.knots) u p c.hp k := by
    rw [← LinearMap.lsmul_apply, ← deB_map]
    congr 1; funext i; simp only [Curve.hp, Curve.setWeights, hg, mul_smul]; rfl
  rw [at_eq h hk, at_eq h' (by exact hk)]
  change (if deB (kn c.knots) u p (c.setWeights (c.weights.map (a * ·))).hw k = 0 then none else
    some ((1 / deB (kn c.knots) u p (c.setWeights (c.weights.map (a * ·))).hw k) •
      deB (kn c.knots) u p (c.setWeights (c.weights.map (a * ·))).hp k)) = _
  rw [ew, ep]
  by_cases hw : deB (kn c.knots) u p c.hw k = 0
  · rw [if_pos hw, if_pos (by rw [hw, mul_zero])]
  · rw [if_neg hw, if_neg (mul_ne_zero ha hw), smul_smul]
    congr 2
    field_simp

end Nurbs
end CAD
