import Verif.Lemmas.IeeeEval
import Verif.Props.NurbsLipschitz

/-! C79: `to_polyline` in rounded arithmetic.  The parameter of its loop is a sum of rounded steps,
so the loop makes `10 n` or `10 n + 1` rounds, and for many sizes the last point is missing. -/

namespace CAD
namespace Nurbs
open BSpline Mesh Set

variable {fl : ℝ → ℝ}

/-- the difference of two knots that are not too close does not round to zero -/
theorem EvalOK.apart {u η Ω g : ℝ} (H : EvalOK u η Ω g fl) {knots : List ℝ} {p n : Nat} (hk : ClampedKnots knots p n) (hΩ : 1 ≤ Ω)
    (gap : ∀ a ∈ knots, ∀ b ∈ knots, a < b → g ≤ b - a) : Apart fl knots := by
  have range : ∀ x ∈ knots, 0 ≤ x ∧ x ≤ 1 := by
    intro x hx
    obtain ⟨i, hi, rfl⟩ := List.getElem_of_mem hx
    have e : knots[i] = kn knots i := Option.some.inj (by rw [← kn_of_lt hi, List.getElem?_eq_getElem hi])
    rw [e]
    exact ⟨hk.nonneg i, hk.le_one i⟩
  intro a ha b hb hab e
  have r := gap a ha b hb hab
  have d : |b - a| = b - a := abs_of_pos (by linarith)
  have := H.rounds.err (b - a) (by rw [d]; linarith [(range a ha).1, (range b hb).2])
  rw [e, zero_sub, abs_neg, d] at this
  nlinarith [H.eta1, H.u0, H.u1, H.h0]

/-- an evaluation in rounded arithmetic does not depend on earlier evaluations -/
theorem curve_rounded_run {c : Curve ℝ} {p n : Nat} (h : c.Valid p n) (ha : Apart fl c.knots) {t : ℝ} {q : P3 ℝ}
    (hq : c.atRounded fl t = some q) {c' : Curve ℝ} (h' : c'.Valid p n) (hs : c.SameShape c') :
    ∃ c'', c'.evaluateBy (roundedOps fl) t = some (c'', q) ∧ c''.Valid p n ∧ c.SameShape c'' := by
  obtain ⟨k, hk⟩ := exists_inSpan h.knots (clamp_nonneg t) (clamp_le_one t)
  rw [atRounded_eq h hk _ (alpha_some h.knots ha hk t)] at hq
  obtain ⟨e1, e2, e3, e4, e5⟩ := hs
  have hk' : InSpan c'.knots (clamp t) k := by rw [e2]; exact hk
  obtain ⟨tp, tw, l1, l2, e⟩ := evaluateBy_eq (roundedOps fl) h' hk' _ (alpha_some h'.knots (by rw [e2]; exact ha) hk' t)
  have ew : c'.hw = c.hw := by funext i; simp only [Curve.hw, e3]
  rw [← e2, ← ew, ← e4] at hq
  rw [hq] at e
  refine ⟨_, e, ⟨h'.degree, h'.points, h'.nbPoints, h'.weights, h'.knots, ?_, ?_⟩, e1, e2, e3, e4, e5⟩
  · have := h'.tempPoints; simp only; omega
  · have := h'.tempWeights; simp only; omega

/-- the loop of `to_polyline` when the parameters reach 1 after `N` steps -/
theorem polyLoop_rounded {c : Curve ℝ} {p n : Nat} (h : c.Valid p n) (ha : Apart fl c.knots) {step : ℝ → ℝ} {T : Nat → ℝ}
    (hT : ∀ i, T (i + 1) = step (T i)) {N : Nat} (hN : ¬ T N ≤ 1) {g : Nat → P3 ℝ}
    (hg : ∀ i < N, T i ≤ 1 ∧ c.atRounded fl (T i) = some (g i)) :
    ∀ (r i f : Nat) (c' : Curve ℝ) (l : List (P3 ℝ)), i + r = N → r + 1 ≤ f → c'.Valid p n → c.SameShape c' →
      ∃ c'', polyLoopBy (roundedOps fl) step f (T i) (c', l) = some (c'', l ++ (List.range r).map fun k => g (i + k)) ∧ c.SameShape c'' := by
  intro r
  induction r with
  | zero =>
    intro i f c' l hi hf hv hs
    obtain ⟨f, rfl⟩ : ∃ m, f = m + 1 := ⟨f - 1, by omega⟩
    obtain rfl : i = N := by omega
    refine ⟨c', ?_, hs⟩
    rw [polyLoopBy, if_neg hN]
    simp
  | succ r ih =>
    intro i f c' l hi hf hv hs
    obtain ⟨f, rfl⟩ : ∃ m, f = m + 1 := ⟨f - 1, by omega⟩
    obtain ⟨le, at'⟩ := hg i (by omega)
    obtain ⟨c1, e, hv1, hs1⟩ := curve_rounded_run h ha at' hv hs
    obtain ⟨c2, e2, hs2⟩ := ih (i + 1) f c1 (l ++ [g i]) (by omega) (by omega) hv1 hs1
    refine ⟨c2, ?_, hs2⟩
    rw [polyLoopBy, if_pos le]
    simp only [e, Option.bind_eq_bind, Option.bind_some]
    rw [← hT, e2]
    congr 2
    rw [List.append_assoc, List.range_succ_eq_map, List.map_cons, List.map_map]
    congr 1
    simp only [Nat.add_zero, List.singleton_append, List.cons.injEq, true_and]
    refine List.map_congr_left fun k _ => ?_
    simp only [Function.comp]
    rw [show i + 1 + k = i + k.succ by omega]

/-- the parameters of the loop: 0, and each the rounded sum of the one before and the step -/
noncomputable def polyParam (fl : ℝ → ℝ) (n : Nat) : Nat → ℝ
  | 0 => 0
  | i + 1 => fl (polyParam fl n i + polyDelta fl n)

/-- the parameters stay close to the multiples of `1 / N` -/
theorem polyParam_near {u η Ω : ℝ} (H : Rounds u η Ω fl) (u0 : 0 ≤ u) (hη : η ≤ u / 10) (hΩ : 2 ≤ Ω) {n : Nat} (hn : 0 < n)
    (hint : fl ((n : ℝ) * 10) = n * 10) (hsmall : 6 * u * ((10 * n + 1 : ℕ) : ℝ) ^ 2 ≤ 1) :
    ∀ i ≤ 10 * n + 1, |polyParam fl n i - (i : ℝ) / (10 * n : ℕ)| ≤ 3 * u * i := by
  have n1 : (1 : ℝ) ≤ n := by exact_mod_cast hn
  set N : ℝ := ((10 * n : ℕ) : ℝ) with hN
  have hN' : N = n * 10 := by rw [hN]; push_cast; ring
  have N10 : 10 ≤ N := by rw [hN']; linarith
  have N0 : 0 < N := by linarith
  have inv : 1 / N ≤ 1 / 10 := by rw [div_le_div_iff₀ N0 (by norm_num)]; linarith
  have inv0 : 0 < 1 / N := by positivity
  have sm : 6 * u * (N + 1) ^ 2 ≤ 1 := by push_cast at hsmall; rw [hN]; push_cast; exact hsmall
  have du : |polyDelta fl n - 1 / N| ≤ u * (1 / N) + η := by
    unfold polyDelta
    rw [hint, ← hN']
    have := H.err (1 / N) (by rw [abs_of_pos inv0]; linarith)
    rwa [abs_of_pos inv0] at this
  have uN : u * (1 / N) ≤ u / 10 := by nlinarith
  have small : 3 * u * (N + 1) ≤ 1 / 20 := by nlinarith
  intro i
  induction i with
  | zero => intro _; simp [polyParam]
  | succ i ih =>
    intro hi
    have hi' : (i : ℝ) ≤ N := by rw [hN]; exact_mod_cast (by omega : i ≤ 10 * n)
    have a := ih (by omega)
    have i0 : (0 : ℝ) ≤ i := Nat.cast_nonneg i
    have q0 : 0 ≤ (i : ℝ) / N := by positivity
    have q1 : (i : ℝ) / N ≤ 1 := (div_le_one N0).2 hi'
    have ui : 3 * u * i ≤ 3 * u * (N + 1) := by nlinarith
    rw [abs_le] at a du
    have X : |polyParam fl n i + polyDelta fl n| ≤ 3 / 2 := by
      rw [abs_le]
      constructor <;> nlinarith [a.1, a.2, du.1, du.2]
    have e := H.err _ (X.trans (by linarith))
    have e' := mul_le_mul_of_nonneg_left X u0
    rw [abs_le] at e
    have s : ((i + 1 : ℕ) : ℝ) / N = i / N + 1 / N := by push_cast; ring
    rw [s]
    show |fl (polyParam fl n i + polyDelta fl n) - _| ≤ _
    rw [abs_le]
    push_cast
    constructor <;> nlinarith [a.1, a.2, du.1, du.2, e.1, e.2]

/-- **C79** `to_polyline` in rounded arithmetic: `10 n` or `10 n + 1` points, each within the
given distance of the point that exact arithmetic gives, in every coordinate.  The last point
(the end of the curve) is only there when the sum of the rounded steps does not exceed 1;
C79 says that it always is. -/
theorem polyline_rounded_partial {u η Ω g : ℝ} (H : EvalOK u η Ω g fl) {c : Curve ℝ} {p n : Nat} (hv : c.Valid p n) {w W R h : ℝ} {m : P3 ℝ}
    (hb : CurveBounds c p w W R h m) (hp : ∀ q ∈ c.points, |q.x| ≤ R ∧ |q.y| ≤ R ∧ |q.z| ≤ R)
    (hgh : g ≤ h) (hgw : g ≤ w) (hgR : g ≤ R) (hs : (21 * p + 2) * u * W ≤ w / 100) (hΩ : 2 * (W + 1) * (R + 1) ≤ Ω)
    (hη : η ≤ u / 10) (hint : fl ((n : ℝ) * 10) = n * 10) (hsmall : 6 * u * ((10 * n + 1 : ℕ) : ℝ) ^ 2 ≤ 1) :
    ∃ c' l, toPolylineRounded fl c = some (c', l) ∧ c.SameShape c' ∧
      l.length = (if polyParam fl n (10 * n) ≤ 1 then 10 * n + 1 else 10 * n) ∧
      ∀ (i : Nat) P, l[i]? = some P → ∃ Q, c.at ((i : ℝ) / (10 * n : ℕ)) = some Q ∧
        Near ((44 * p + 5) * u * (W / w) * R + 4 * p * (W / w) * R / h * (3 * u * i)) Q P := by
  have u0 := H.u0
  have w0 := hb.w0
  have n0 : 0 < n := lt_of_le_of_lt (Nat.zero_le _) hv.knots.p_lt_n
  have mem : c.points[0]'(by rw [hv.points]; omega) ∈ c.points := List.getElem_mem _
  have R0 : 0 ≤ R := (abs_nonneg _).trans (hp _ mem).1
  have W0 : 0 < W := by
    have : c.weights[0]'(by rw [hv.weights]; omega) ∈ c.weights := List.getElem_mem _
    have := hb.weight _ this
    linarith
  have h0 := hb.h0
  have Ω2 : 2 ≤ Ω := by nlinarith
  have near := polyParam_near H.rounds u0 hη Ω2 n0 hint hsmall
  set N : ℝ := ((10 * n : ℕ) : ℝ) with hN
  have N1 : (10 : ℝ) ≤ N := by rw [hN]; exact_mod_cast (by omega : 10 ≤ 10 * n)
  have N0 : 0 < N := by linarith
  have sm : 6 * u * (N + 1) ^ 2 ≤ 1 := by push_cast at hsmall; rw [hN]; push_cast; exact hsmall
  have small : 6 * u * (N + 1) ≤ 1 / (N + 1) := by rw [le_div_iff₀ (by linarith)]; nlinarith
  have inv : 1 / (N + 1) ≤ 1 / N := by gcongr; linarith
  have ge : ∀ i ≤ 10 * n + 1, 0 ≤ polyParam fl n i := by
    intro i hi
    have a := (abs_le.1 (near i hi)).1
    have i0 : (0 : ℝ) ≤ i := Nat.cast_nonneg i
    have b : 3 * u * i ≤ i / N := by
      rw [div_eq_mul_one_div, mul_comm]
      apply mul_le_mul_of_nonneg_left _ i0
      nlinarith
    linarith
  have le : ∀ i < 10 * n, polyParam fl n i ≤ 1 := by
    intro i hi
    have a := (abs_le.1 (near i (by omega))).2
    have i1 : (i : ℝ) + 1 ≤ N := by rw [hN]; exact_mod_cast hi
    have b : (i : ℝ) / N ≤ 1 - 1 / N := by
      rw [le_sub_iff_add_le, ← add_div, div_le_one N0]; exact i1
    have c : 3 * u * i ≤ 6 * u * (N + 1) := by nlinarith [Nat.cast_nonneg (α := ℝ) i]
    linarith
  have gt : ¬ polyParam fl n (10 * n + 1) ≤ 1 := by
    have a := (abs_le.1 (near (10 * n + 1) le_rfl)).1
    have e : ((10 * n + 1 : ℕ) : ℝ) = N + 1 := by rw [hN]; push_cast; ring
    rw [e, add_div, div_self N0.ne'] at a
    have : 1 / (N + 1) < 1 / N := by gcongr; linarith
    have : 0 ≤ 3 * u * (N + 1) := by positivity
    intro hle
    linarith
  have apart : Apart fl c.knots := H.apart hv.knots (by linarith) fun a ha b hb' hab => hgh.trans (hb.gap a ha b hb' hab)
  have ev : ∀ i ≤ 10 * n, polyParam fl n i ≤ 1 → ∃ P Q, c.atRounded fl (polyParam fl n i) = some P ∧ c.at ((i : ℝ) / N) = some Q ∧
      Near ((44 * p + 5) * u * (W / w) * R + 4 * p * (W / w) * R / h * (3 * u * i)) Q P := by
    intro i hi hle
    have iN : (i : ℝ) ≤ N := by rw [hN]; exact_mod_cast hi
    obtain ⟨q, q', e1, e2, d1, d2, d3⟩ := curve_rounded H hv hb.weight hp (fun a ha b hb' hab => hgh.trans (hb.gap a ha b hb' hab)) hgw hgR hs hΩ
      (ge i (by omega)) hle
    obtain ⟨Q, q2, f1, f2, g1, g2, g3⟩ := curve_lipschitz hv w0 hb.weight hb.point h0 hb.gap hb.mult (s := (i : ℝ) / N) (t := polyParam fl n i)
      ⟨by positivity, (div_le_one N0).2 iN⟩ ⟨ge i (by omega), hle⟩
    rw [e1, Option.some.injEq] at f2
    subst f2
    have L0 : 0 ≤ 4 * p * (W / w) * R / h := by positivity
    have nr := mul_le_mul_of_nonneg_left (near i (by omega)) L0
    refine ⟨q', Q, e2, f1, ?_, ?_, ?_⟩
    · have := abs_sub_le q'.x q.x Q.x; linarith
    · have := abs_sub_le q'.y q.y Q.y; linarith
    · have := abs_sub_le q'.z q.z Q.z; linarith
  have go : ∀ M : Nat, M ≤ 10 * n + 1 → ¬ polyParam fl n M ≤ 1 → (∀ i < M, polyParam fl n i ≤ 1) →
      ∃ c' l, toPolylineRounded fl c = some (c', l) ∧ c.SameShape c' ∧ l.length = M ∧
      ∀ (i : Nat) P, l[i]? = some P → ∃ Q, c.at ((i : ℝ) / N) = some Q ∧
        Near ((44 * p + 5) * u * (W / w) * R + 4 * p * (W / w) * R / h * (3 * u * i)) Q P := by
    intro M hM hM1 hM2
    obtain ⟨c', e, hs'⟩ := polyLoop_rounded (step := fun t => fl (t + polyDelta fl n)) (T := polyParam fl n) hv apart (fun i => rfl) hM1
      (g := fun i => (c.atRounded fl (polyParam fl n i)).getD ⟨0, 0, 0⟩)
      (fun i hi => ⟨hM2 i hi, by obtain ⟨P, Q, e, -⟩ := ev i (by omega) (hM2 i hi); rw [e]; rfl⟩)
      M 0 (10 * n + 2) c [] (by omega) (by omega) hv ⟨rfl, rfl, rfl, rfl, rfl⟩
    simp only [List.nil_append, Nat.zero_add] at e
    refine ⟨c', (List.range M).map fun k => (c.atRounded fl (polyParam fl n k)).getD ⟨0, 0, 0⟩, ?_, hs', ?_, ?_⟩
    · rw [toPolylineRounded, toPolylineBy, if_neg (by intro h0; have := hv.points; rw [h0] at this; simp at this; omega), hv.points]
      exact e
    · simp
    · intro i P hP
      simp only [List.getElem?_map, Option.map_eq_some_iff, List.getElem?_eq_some_iff, List.length_range,
        List.getElem_range] at hP
      obtain ⟨a, ⟨hi, rfl⟩, e⟩ := hP
      obtain ⟨P', Q, e1, e2, nr⟩ := ev i (by omega) (hM2 i hi)
      rw [e1, Option.getD_some] at e
      subst e
      exact ⟨Q, e2, nr⟩
  split_ifs with hl
  · refine go (10 * n + 1) le_rfl gt fun i hi => ?_
    rcases Nat.lt_or_ge i (10 * n) with h | h
    · exact le i h
    · obtain rfl : i = 10 * n := by omega
      exact hl
  · exact go (10 * n) (by omega) hl le

/-- **C79** for `double`, degrees up to 1000 and up to `2²⁰` control points: `10 n` or `10 n + 1`
points, each next to the exact one; C79 says `10 n + 1` -/
theorem polyline_double_partial {c : Curve ℝ} {p n : Nat} (hv : c.Valid p n) {w W R h : ℝ} (hr : DoubleRange c.knots c.weights c.points w W R)
    (h0 : 0 < h) (gap : ∀ a ∈ c.knots, ∀ b ∈ c.knots, a < b → h ≤ b - a) (mult : ∀ x, 0 < x → x < 1 → c.knots.count x ≤ p)
    (hp : p ≤ 1000) (hn : n ≤ 2 ^ 20) :
    ∃ c' l, toPolylineRounded double c = some (c', l) ∧ c.SameShape c' ∧
      l.length = (if polyParam double n (10 * n) ≤ 1 then 10 * n + 1 else 10 * n) ∧
      ∀ (i : Nat) P, l[i]? = some P → ∃ Q, c.at ((i : ℝ) / (10 * n : ℕ)) = some Q ∧
        Near ((44 * p + 5) * 2 ^ (-53 : ℤ) * (W / w) * R + 4 * p * (W / w) * R / h * (3 * 2 ^ (-53 : ℤ) * i)) Q P := by
  have le : (2 : ℝ) ^ (-511 : ℤ) ≤ 2 ^ (-500 : ℤ) := zpow_le_zpow_right₀ (by norm_num) (by norm_num)
  have n0 := hv.knots.p_lt_n
  have mem : c.weights[0]'(by rw [hv.weights]; omega) ∈ c.weights := List.getElem_mem _
  have wW : w ≤ W := (hr.weight _ mem).1.trans (hr.weight _ mem).2
  have w0 : 0 < w := lt_of_lt_of_le (by positivity) hr.w0
  have pR : (p : ℝ) ≤ 1000 := by exact_mod_cast hp
  have nR : (n : ℝ) ≤ 2 ^ 20 := by exact_mod_cast hn
  have n1 : (0 : ℝ) ≤ n := Nat.cast_nonneg n
  have pm : ∀ q ∈ c.points, |q.x - (⟨0, 0, 0⟩ : P3 ℝ).x| ≤ R ∧ |q.y - (⟨0, 0, 0⟩ : P3 ℝ).y| ≤ R ∧ |q.z - (⟨0, 0, 0⟩ : P3 ℝ).z| ≤ R := by
    simpa using hr.point
  set h' : ℝ := max h (2 ^ (-500 : ℤ)) with hh'
  have gap' : ∀ a ∈ c.knots, ∀ b ∈ c.knots, a < b → h' ≤ b - a := fun a ha b hb hab => max_le (gap a ha b hb hab) (hr.gap a ha b hb hab)
  obtain ⟨c', l, e, hs, hl, hP⟩ := polyline_rounded_partial evalOK_double hv (h := h') (m := ⟨0, 0, 0⟩)
    ⟨w0, lt_of_lt_of_le h0 (le_max_left _ _), hr.weight, pm, gap', mult⟩ hr.point (le.trans (le_max_right _ _)) (le.trans hr.w0) (le.trans hr.R0)
    (small_double (by norm_num; linarith) w0 hr.ratio (by linarith)) (hr.over wW) (by
      rw [show (2 : ℝ) ^ (-53 : ℤ) / 10 = 1 / 10 * 2 ^ (-53 : ℤ) by ring]
      have a : (2 : ℝ) ^ (-57 : ℤ) ≤ 1 / 10 * 2 ^ (-53 : ℤ) := by norm_num
      refine le_trans ?_ a
      exact zpow_le_zpow_right₀ (by norm_num) (by norm_num)) (by
      have := ieee_int (p := 53) (emin := -1074) (by norm_num) (k := n * 10) (by
        rw [abs_of_nonneg (by positivity)]
        have : (n : ℤ) ≤ 2 ^ 20 := by exact_mod_cast hn
        norm_num at this ⊢
        omega)
      push_cast at this
      exact this) (by
      push_cast
      have : (10 * (n : ℝ) + 1) ^ 2 ≤ (10 * 2 ^ 20 + 1) ^ 2 := by gcongr
      calc 6 * (2 : ℝ) ^ (-53 : ℤ) * (10 * (n : ℝ) + 1) ^ 2 ≤ 6 * (2 : ℝ) ^ (-53 : ℤ) * (10 * 2 ^ 20 + 1) ^ 2 := by gcongr
        _ ≤ 1 := by norm_num)
  refine ⟨c', l, e, hs, hl, fun i P hi => ?_⟩
  obtain ⟨Q, eQ, nr⟩ := hP i P hi
  have R0 : 0 ≤ R := le_trans (by positivity) hr.R0
  have W0 : 0 ≤ W := by linarith
  have : 4 * p * (W / w) * R / h' * (3 * 2 ^ (-53 : ℤ) * i) ≤ 4 * p * (W / w) * R / h * (3 * 2 ^ (-53 : ℤ) * i) := by
    gcongr
    exact le_max_left _ _
  exact ⟨Q, eQ, nr.1.trans (by linarith), nr.2.1.trans (by linarith), nr.2.2.trans (by linarith)⟩

/-! ### the last point is missing for many sizes -/

/-- the parameters of the loop in units of `2⁻ˢ`, when the step is `D` units -/
def natParam (D : ℕ) : ℕ → ℕ
  | 0 => 0
  | i + 1 => rnd53 (natParam D i + D)

theorem polyParam_nat {n D s : ℕ} (hs : s ≤ 1074) (hD : polyDelta double n = D / 2 ^ s) (i : ℕ) :
    polyParam double n i = (natParam D i : ℝ) / 2 ^ s := by
  induction i with
  | zero => simp [polyParam, natParam]
  | succ i ih =>
    show double (polyParam double n i + polyDelta double n) = _
    rw [ih, hD, ← add_div, ← Nat.cast_add, double_nat _ hs]
    rfl

/-- the step of a curve with two control points: 0.05 rounded to double is a bit more than 0.05 -/
theorem polyDelta_two : polyDelta double 2 = (7205759403792794 : ℕ) / 2 ^ 57 := by
  have a : double ((2 : ℕ) * 10) = 20 := by
    have := ieee_int (p := 53) (emin := -1074) (by norm_num) (k := 20) (by norm_num)
    norm_num at this ⊢
    exact this
  have b := ieee_eval (p := 53) (emin := -1074) (x := 1 / 20) 7205759403792794 (-57) (by norm_num) (by norm_num [abs_of_pos])
    (by norm_num [abs_of_pos]) (by norm_num [abs_lt])
  rw [polyDelta, a, double, b]
  norm_num

/-- the step of a curve with three control points -/
theorem polyDelta_three : polyDelta double 3 = (4803839602528529 : ℕ) / 2 ^ 57 := by
  have a : double ((3 : ℕ) * 10) = 30 := by
    have := ieee_int (p := 53) (emin := -1074) (by norm_num) (k := 30) (by norm_num)
    norm_num at this ⊢
    exact this
  have b := ieee_eval (p := 53) (emin := -1074) (x := 1 / 30) 4803839602528529 (-57) (by norm_num) (by norm_num [abs_of_pos])
    (by norm_num [abs_of_pos]) (by norm_num [abs_lt])
  rw [polyDelta, a, double, b]
  norm_num

/-- with two control points the 20 steps add up to more than 1 -/
theorem polyParam_two : ¬ polyParam double 2 20 ≤ 1 := by
  rw [polyParam_nat (by norm_num) polyDelta_two, div_le_one (by positivity), not_le]
  have : 2 ^ 57 < natParam 7205759403792794 20 := by decide +kernel
  exact_mod_cast this

/-- with three control points the 30 steps add up to a bit less than 1 -/
theorem polyParam_three : polyParam double 3 30 ≤ 1 := by
  rw [polyParam_nat (by norm_num) polyDelta_three, div_le_one (by positivity)]
  have : natParam 4803839602528529 30 ≤ 2 ^ 57 := by decide +kernel
  exact_mod_cast this

/-- the segment from the origin to (1, 0, 0) -/
noncomputable def segR : Curve ℝ := ⟨1, [0, 0, 1, 1], [1, 1], [⟨0, 0, 0⟩, ⟨1, 0, 0⟩], 2, [⟨0, 0, 0⟩, ⟨0, 0, 0⟩], [0, 0]⟩

theorem segR_valid : segR.Valid 1 2 :=
  ⟨rfl, rfl, rfl, rfl, ⟨rfl, by simp [segR], by
    intro i hi
    obtain rfl | rfl : i = 0 ∨ i = 1 := by omega
    all_goals rfl, by
    intro i h1 h2
    obtain rfl | rfl : i = 2 ∨ i = 3 := by omega
    all_goals rfl⟩, by simp [segR], by simp [segR]⟩

theorem segR_range : DoubleRange segR.knots segR.weights segR.points 1 1 1 := by
  have s : (2 : ℝ) ^ (-500 : ℤ) ≤ 2 ^ (-1 : ℤ) := zpow_le_zpow_right₀ (by norm_num) (by norm_num)
  have b : (1 : ℝ) ≤ 2 ^ (500 : ℤ) := one_le_zpow₀ (by norm_num) (by norm_num)
  rw [zpow_neg_one] at s
  constructor
  · intro a ha b hb hab
    simp only [segR, List.mem_cons, List.not_mem_nil, or_false, or_self] at ha hb
    rcases ha with rfl | rfl | rfl | rfl <;> rcases hb with rfl | rfl | rfl | rfl <;> linarith
  · intro x hx
    simp only [segR, List.mem_cons, List.not_mem_nil, or_false] at hx
    rcases hx with rfl | rfl <;> norm_num
  · intro q hq
    simp only [segR, List.mem_cons, List.not_mem_nil, or_false] at hq
    rcases hq with rfl | rfl <;> norm_num
  · linarith
  · exact b
  · norm_num
  · linarith
  · exact b

theorem segR_at (t : ℝ) (h0 : 0 ≤ t) (h1 : t ≤ 1) : segR.at t = some ⟨t, 0, 0⟩ := by
  have k1 : kn segR.knots 1 = 0 := rfl
  have k2 : kn segR.knots 2 = 1 := rfl
  have hs : InSpan segR.knots (clamp t) 1 := by
    rw [clamp_of_mem h0 h1]
    exact ⟨by rw [k1, k2]; exact one_pos, by rw [k1]; exact h0, by rw [k2]; exact h1, by rw [k2]; exact id⟩
  obtain ⟨_, _, _, _, e⟩ := evaluateBy_eq exactOps segR_valid hs _ (exactOps_alpha (den_ne segR_valid.knots.mono hs.1) t)
  rw [Curve.at, Curve.evaluate, e]
  simp only [levBy, k1, k2, Option.map_map]
  simp [exactOps, divP, segR, Curve.hw, P3.div]

/-- **C79: the negation in doubles.**  The polyline of the segment from (0, 0, 0) to (1, 0, 0)
has 20 points instead of 21 and ends before x = 0.96: the end of the curve is missing. -/
theorem polyline_misses_end : ∃ c' l, toPolylineRounded double segR = some (c', l) ∧ l.length = 20 ∧ (∀ P ∈ l, P.x ≤ 96 / 100) ∧
    segR.at 1 = some ⟨1, 0, 0⟩ := by
  obtain ⟨c', l, e, -, hl, hP⟩ := polyline_double_partial segR_valid segR_range (h := 1) one_pos (by
    intro a ha b hb hab
    simp only [segR, List.mem_cons, List.not_mem_nil, or_false, or_self] at ha hb
    rcases ha with rfl | rfl | rfl | rfl <;> rcases hb with rfl | rfl | rfl | rfl <;> linarith) (by
    intro x x0 x1
    simp [segR, x0.ne, x1.ne']) (by norm_num) (by norm_num)
  rw [show 10 * 2 = 20 from rfl, if_neg polyParam_two] at hl
  refine ⟨c', l, e, hl, fun P hm => ?_, segR_at 1 zero_le_one le_rfl⟩
  obtain ⟨i, hi, rfl⟩ := List.getElem_of_mem hm
  obtain ⟨Q, eQ, nr⟩ := hP i _ (List.getElem?_eq_getElem hi)
  have i1 : (i : ℝ) ≤ 19 := by exact_mod_cast (by omega : i ≤ 19)
  have i0 : (0 : ℝ) ≤ i := Nat.cast_nonneg i
  rw [segR_at _ (by positivity) (by norm_num; linarith), Option.some.injEq] at eQ
  subst eQ
  have := (abs_le.1 nr.1).2
  norm_num at this
  linarith

/-- the polyline of the arc with three control points has all its 31 points, each within `2e-13` -/
example : ∃ c' l, toPolylineRounded double arcR = some (c', l) ∧ l.length = 31 ∧ ∀ (i : Nat) P, l[i]? = some P →
    ∃ Q, arcR.at ((i : ℝ) / 30) = some Q ∧ Near (2 / 10 ^ 13) Q P := by
  obtain ⟨c', l, e, -, hl, hP⟩ := polyline_double_partial arcR_valid arcR_range (h := 1) one_pos arcR_bounds.gap arcR_bounds.mult
    (by norm_num) (by norm_num)
  rw [show 10 * 3 = 30 from rfl, if_pos polyParam_three] at hl
  refine ⟨c', l, e, hl, fun i P hi => ?_⟩
  obtain ⟨Q, eQ, nr⟩ := hP i P hi
  have i1 : (i : ℝ) ≤ 30 := by
    have := (List.getElem?_eq_some_iff.1 hi).1
    exact_mod_cast (by omega : i ≤ 30)
  norm_num at eQ
  have : (44 * (2 : ℕ) + 5) * (2 : ℝ) ^ (-53 : ℤ) * (1 / (3 / 4)) * 1 + 4 * (2 : ℕ) * (1 / (3 / 4)) * 1 / 1 * (3 * 2 ^ (-53 : ℤ) * i) ≤ 2 / 10 ^ 13 := by
    norm_num
    linarith
  exact ⟨Q, eQ, nr.1.trans this, nr.2.1.trans this, nr.2.2.trans this⟩

end Nurbs
end CAD
