import Verif.Props.NurbsSurface

/-! Two-row surfaces and quadratic arcs. -/

set_option linter.unusedSimpArgs false

namespace CAD
namespace Nurbs
open BSpline
variable {K : Type} [Field K] [LinearOrder K] [IsStrictOrderedRing K]

theorem knots01_clamped : ClampedKnots (knots01 : List K) 1 2 := by
  refine ⟨rfl, by simp [knots01], ?_, ?_⟩
  · intro i hi
    obtain rfl | rfl : i = 0 ∨ i = 1 := by omega
    all_goals rfl
  · intro i h1 h2
    obtain rfl | rfl : i = 2 ∨ i = 3 := by omega
    all_goals rfl

theorem knots01_span {t : K} (h0 : 0 ≤ t) (h1 : t ≤ 1) : InSpan (knots01 : List K) t 1 := by
  refine ⟨?_, ?_, ?_, ?_⟩ <;> simp [kn, knots01, h0, h1]

theorem knots01_deB {M : Type} [AddCommGroup M] [Module K M] (v : K) (f : Nat → M) :
    deB (kn (knots01 : List K)) v 1 f 1 = (1 - v) • f 0 + v • f 1 := by
  simp [deB, step, alpha, kn, knots01]

/-- a surface of two rows -/
theorem two_rows_at {s : Surface K} {p nu : Nat} (h : s.Valid p 1 nu 2) (hk : s.knotsV = knots01)
    (a b : Nat → P3 K × K) (ha : ∀ i < nu, s.pair nu i 0 = a i) (hb : ∀ i < nu, s.pair nu i 1 = b i) {u : K} {k : Nat}
    (hs : InSpan s.knotsU (clamp u) k) (v : K) :
    s.at u v = project ((1 - v) • deB (kn s.knotsU) u p a k + v • deB (kn s.knotsU) u p b k) := by
  obtain ⟨hpk, hkn⟩ := hs.range h.knotsU
  rw [surface_at_pair h hs (l := 1) (by rw [hk]; exact knots01_span (clamp_nonneg v) (clamp_le_one v)), hk, knots01_deB]
  rw [deB_congr (c' := a) _ _ hpk fun i h1 _ => ha i (by omega), deB_congr (c' := b) _ _ hpk fun i h1 _ => hb i (by omega)]

theorem isClosed_some (c : Curve K) (tol : K) : ∃ b, c.isClosed tol = some b := by
  unfold Curve.isClosed
  by_cases h : c.points.length ≤ 1
  · exact ⟨false, by simp [h]⟩
  · have h1 : 0 < c.points.length := by omega
    have e : (c.points.length : Int) - 1 = ((c.points.length - 1 : Nat) : Int) := by omega
    rw [if_neg h, e, getI_natCast, show (0 : Int) = ((0 : Nat) : Int) by rfl, getI_natCast,
      List.getElem?_eq_getElem h1, List.getElem?_eq_getElem (by omega : c.points.length - 1 < c.points.length)]
    exact ⟨_, rfl⟩

/-- quadratic Bézier arc: a span between two double knots -/
theorem deB_arc {M : Type} [AddCommGroup M] [Module K M] (τ : Nat → K) (k : Nat) (a b u : K)
    (h1 : τ (k + 1) = a) (h2 : τ (k + 2) = a) (h3 : τ (k + 3) = b) (h4 : τ (k + 4) = b) (f : Nat → M) :
    let x := (u - a) / (b - a)
    deB τ u 2 f (k + 2) = (1 - x) ^ 2 • f k + (2 * x * (1 - x)) • f (k + 1) + x ^ 2 • f (k + 2) := by
  intro x
  have e1 : alpha τ u 1 (k + 2) = x := by simp [alpha, h2, h3, x]
  have e2 : alpha τ u 2 (k + 2) = x := by simp [alpha, h2, h4, x]
  have e3 : alpha τ u 2 (k + 1) = x := by simp [alpha, h1, h3, x]
  simp only [deB, step, e1, e2, e3, Nat.add_sub_cancel, show k + 2 - 1 = k + 1 by omega]
  module

theorem knotsCircle_clamped : ClampedKnots (knotsCircle : List K) 2 9 := by
  refine ⟨rfl, ?_, ?_, ?_⟩
  · simp only [knotsCircle, List.pairwise_cons, List.mem_cons, List.not_mem_nil, or_false, forall_eq_or_imp, forall_eq,
      List.Pairwise.nil, and_true, false_imp_iff, implies_true]
    norm_num
  · intro i hi
    obtain rfl | rfl | rfl : i = 0 ∨ i = 1 ∨ i = 2 := by omega
    all_goals rfl
  · intro i h1 h2
    obtain rfl | rfl | rfl : i = 9 ∨ i = 10 ∨ i = 11 := by omega
    all_goals rfl

/-- the parameters of the four arcs -/
theorem knotsCircle_span {t : K} {k : Nat} (h : InSpan (knotsCircle : List K) t k) : ∃ j < 4, k = 2 * j + 2 := by
  obtain ⟨h1, h2⟩ := h.range knotsCircle_clamped
  have := h.1
  obtain rfl | rfl | rfl | rfl | rfl | rfl | rfl : k = 2 ∨ k = 3 ∨ k = 4 ∨ k = 5 ∨ k = 6 ∨ k = 7 ∨ k = 8 := by omega
  · exact ⟨0, by omega, rfl⟩
  · simp [kn, knotsCircle] at this
  · exact ⟨1, by omega, rfl⟩
  · simp [kn, knotsCircle] at this
  · exact ⟨2, by omega, rfl⟩
  · simp [kn, knotsCircle] at this
  · exact ⟨3, by omega, rfl⟩

theorem knotsCircle_deB {M : Type} [AddCommGroup M] [Module K M] (u : K) {j : Nat} (hj : j < 4) (f : Nat → M) :
    deB (kn (knotsCircle : List K)) u 2 f (2 * j + 2) = (1 - (4 * u - j)) ^ 2 • f (2 * j) +
      (2 * (4 * u - j) * (1 - (4 * u - j))) • f (2 * j + 1) + (4 * u - j) ^ 2 • f (2 * j + 2) := by
  have h := deB_arc (kn (knotsCircle : List K)) (2 * j) (j / 4) ((j + 1) / 4) u ?_ ?_ ?_ ?_ f
  · have e : (u - (j : K) / 4) / (((j : K) + 1) / 4 - j / 4) = 4 * u - j := by
      have : ((j : K) + 1) / 4 - j / 4 = 1 / 4 := by ring
      rw [this]; ring
    simp only [e] at h
    exact h
  all_goals
    obtain rfl | rfl | rfl | rfl : j = 0 ∨ j = 1 ∨ j = 2 ∨ j = 3 := by omega
    all_goals simp [kn, knotsCircle]
    all_goals norm_num

theorem arc_identity (r x : K) (hr : r * r = 2) :
    ((1 - x) ^ 2 + r * x * (1 - x)) ^ 2 + (x ^ 2 + r * x * (1 - x)) ^ 2 =
      ((1 - x) ^ 2 + r * x * (1 - x) + x ^ 2) ^ 2 := by
  linear_combination (x ^ 2 * (1 - x) ^ 2) * hr

theorem arc_pos (r x : K) (hr : r * r = 2) (h0 : 0 < r) : 0 < (1 - x) ^ 2 + r * x * (1 - x) + x ^ 2 := by
  have h1 : r < 2 := by nlinarith
  have h2 : (1 - x) ^ 2 + r * x * (1 - x) + x ^ 2 = (2 - r) * (x - 1 / 2) ^ 2 + (2 + r) / 4 := by ring
  rw [h2]
  have := mul_nonneg (sub_nonneg.2 h1.le) (sq_nonneg (x - 1 / 2))
  linarith

end Nurbs
end CAD
