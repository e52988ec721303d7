import Verif.Props.NurbsLocal
import Mathlib.Topology.Algebra.Order.Field
import Mathlib.Topology.LocallyFinite
import Mathlib.Topology.Algebra.Monoid
import Mathlib.Topology.Instances.Real.Lemmas
import Mathlib.Topology.Order.IntermediateValue

/-! When NURBS curves and surfaces are continuous (C102). -/

namespace CAD
namespace Nurbs
open BSpline Set

section field
variable {K : Type} [Field K] [LinearOrder K] [IsStrictOrderedRing K]

/-! ### Basis functions of neighbouring spans agree at the knot between them -/

theorem basis_left_knot {τ : Nat → K} {k m : Nat} {t : K} (hk : τ k < t) (he : ∀ j, k < j → j ≤ k + m → τ j = t) (q i : Nat) (hq : q ≤ m) :
    basis τ k t q i = if i = k then 1 else 0 := by
  induction q generalizing i with
  | zero => rfl
  | succ q ih =>
    unfold basis
    rw [ih _ (by omega), ih _ (by omega)]
    by_cases h1 : i = k
    · subst h1
      rw [if_pos rfl, if_neg (by omega), he (i + (q + 1)) (by omega) (by omega), mul_one, mul_zero, add_zero, div_self (sub_pos.2 hk).ne']
    · rw [if_neg h1, mul_zero, zero_add]
      by_cases h2 : i + 1 = k
      · rw [he (i + 1 + (q + 1)) (by omega) (by omega)]; simp
      · rw [if_neg h2, mul_zero]

theorem basis_right_knot {τ : Nat → K} {k m : Nat} {t : K} (hk : t < τ (k + m + 1)) (he : ∀ j, k < j → j ≤ k + m → τ j = t) (q i : Nat) (hq : q ≤ m) :
    basis τ (k + m) t q i = if i + q = k + m then 1 else 0 := by
  induction q generalizing i with
  | zero => rfl
  | succ q ih =>
    unfold basis
    rw [ih _ (by omega), ih _ (by omega)]
    by_cases h1 : i + (q + 1) = k + m
    · rw [if_neg (by omega), if_pos (by omega), if_pos h1, he (i + 1) (by omega) (by omega), show i + 1 + (q + 1) = k + m + 1 by omega, mul_zero, zero_add, mul_one,
        div_self (sub_pos.2 hk).ne']
    · rw [if_neg h1, if_neg (show ¬ i + 1 + q = k + m by omega), mul_zero, add_zero]
      by_cases h2 : i + q = k + m
      · rw [he i (by omega) (by omega)]; simp
      · rw [if_neg h2, mul_zero]

theorem basis_join {τ : Nat → K} {k m : Nat} {t : K} (h1 : τ k < t) (h2 : t < τ (k + m + 1)) (he : ∀ j, k < j → j ≤ k + m → τ j = t) (q i : Nat) (hq : m ≤ q) :
    basis τ k t q i = basis τ (k + m) t q i := by
  induction q, hq using Nat.le_induction generalizing i with
  | base =>
    rw [basis_left_knot h1 he m i le_rfl, basis_right_knot h2 he m i le_rfl]
    simp
  | succ q _ ih => unfold basis; rw [ih, ih]

theorem count_le {ks : List K} {p n : Nat} (h : ClampedKnots ks p n) (hm : ∀ x, 0 < x → x < 1 → ks.count x ≤ p) {i : Nat} (h0 : 0 < kn ks i) (h1 : kn ks i < 1) :
    kn ks i < kn ks (i + p) := by
  refine lt_of_le_of_ne (h.mono (by omega)) fun e => ?_
  have hl : i + p < ks.length := by
    rw [h.length]
    by_contra hc
    rw [e, h.kn_last (show n ≤ i + p by omega)] at h1
    exact lt_irrefl _ h1
  have : List.replicate (p + 1) (kn ks i) = (ks.drop i).take (p + 1) := by
    symm
    rw [List.eq_replicate_iff]
    refine ⟨by simp; omega, fun b hb => ?_⟩
    obtain ⟨j, hj, rfl⟩ := List.mem_iff_getElem.1 hb
    simp only [List.length_take, List.length_drop] at hj
    have hij : i + j < ks.length := by omega
    have : kn ks (i + j) = ks[i + j] := by simp [kn, List.getD_eq_getElem?_getD, hij]
    simp only [List.getElem_take, List.getElem_drop]
    rw [← this]
    exact le_antisymm ((h.mono (by omega)).trans e.symm.le) (h.mono (by omega))
  have hs : List.Sublist (List.replicate (p + 1) (kn ks i)) ks := by
    rw [this]; exact (List.take_sublist _ _).trans (List.drop_sublist _ _)
  have := hs.count_le (kn ks i)
  rw [List.count_replicate_self] at this
  have := hm _ h0 h1
  omega

/-- on a closed knot interval the basis functions of that span can be used -/
theorem basis_closed {ks : List K} {p n k k' : Nat} (h : ClampedKnots ks p n) (hm : ∀ x, 0 < x → x < 1 → ks.count x ≤ p) {u : K}
    (hk : kn ks k < kn ks (k + 1)) (h1 : kn ks k ≤ u) (h2 : u ≤ kn ks (k + 1)) (hs : InSpan ks u k') (i : Nat) :
    basis (kn ks) k' u p i = basis (kn ks) k u p i := by
  by_cases hc : u < 1 → u < kn ks (k + 1)
  · rw [inSpan_unique h (hs.mem h).1 (hs.mem h).2 hs ⟨hk, h1, h2, hc⟩]
  · push Not at hc
    obtain ⟨hu, hle⟩ := hc
    have e : kn ks (k + 1) = u := le_antisymm hle h2
    have hlt := hs.2.2.2 hu
    have hkk : k + 1 ≤ k' := by
      by_contra hcon
      exact absurd (hlt.trans_le (h.mono (show k' + 1 ≤ k + 1 by omega))) (by rw [e]; exact lt_irrefl _)
    obtain ⟨m, rfl⟩ := Nat.exists_eq_add_of_le (show k ≤ k' by omega)
    have he : ∀ j, k < j → j ≤ k + m → kn ks j = u := fun j a b =>
      le_antisymm ((h.mono b).trans hs.2.1) (e.symm.le.trans (h.mono a))
    have hu0 : 0 < u := (h.nonneg k).trans_lt (e ▸ hk)
    have hmp : m ≤ p := by
      by_contra hcon
      have := count_le h hm (i := k + 1) (by rw [e]; exact hu0) (by rw [e]; exact hu)
      rw [e, he (k + 1 + p) (by omega) (by omega)] at this
      exact lt_irrefl _ this
    exact (basis_join (e ▸ hk) hlt he p i hmp).symm

end field

/-- the span of a parameter -/
noncomputable def spanOf (ks : List ℝ) (u : ℝ) : Nat := by
  classical exact if h : ∃ k, InSpan ks u k then h.choose else 0

theorem spanOf_spec {ks : List ℝ} {p n : Nat} (h : ClampedKnots ks p n) {u : ℝ} (hu : u ∈ Icc (0 : ℝ) 1) : InSpan ks u (spanOf ks u) := by
  have := exists_inSpan h hu.1 hu.2
  unfold spanOf
  rw [dif_pos this]
  exact this.choose_spec

theorem basis_continuous (τ : Nat → ℝ) (k q i : Nat) : Continuous fun u => basis τ k u q i := by
  induction q generalizing i with
  | zero => exact continuous_const
  | succ q ih =>
    unfold basis
    have a := ih i
    have b := ih (i + 1)
    fun_prop

/-- the basis functions are continuous if no inner knot is repeated too often -/
theorem basis_continuousOn {ks : List ℝ} {p n : Nat} (h : ClampedKnots ks p n) (hm : ∀ x, 0 < x → x < 1 → ks.count x ≤ p) (i : Nat) :
    ContinuousOn (fun u => basis (kn ks) (spanOf ks u) u p i) (Icc 0 1) := by
  have hcov : Icc (0 : ℝ) 1 ⊆ ⋃ k : Fin n, (if kn ks k < kn ks (k + 1) then Icc (kn ks k) (kn ks (k + 1)) else ∅ : Set ℝ) := by
    intro u hu
    have hs := spanOf_spec h hu
    have := hs.range h
    refine mem_iUnion.2 ⟨⟨_, this.2⟩, ?_⟩
    rw [if_pos hs.1]
    exact ⟨hs.2.1, hs.2.2.1⟩
  refine ContinuousOn.mono ?_ hcov
  refine LocallyFinite.continuousOn_iUnion (locallyFinite_of_finite _) (fun k => ?_) (fun k => ?_)
  · split_ifs
    · exact isClosed_Icc
    · exact isClosed_empty
  · split_ifs with hk
    · refine (basis_continuous (kn ks) k p i).continuousOn.congr fun u hu => ?_
      have hu' : u ∈ Icc (0 : ℝ) 1 := ⟨(h.nonneg _).trans hu.1, hu.2.trans (h.le_one _)⟩
      exact basis_closed h hm hk hu.1 hu.2 (spanOf_spec h hu') i
    · exact continuousOn_empty _

theorem sum_x (f : Nat → P3 ℝ) (s : Finset Nat) : (∑ i ∈ s, f i).x = ∑ i ∈ s, (f i).x := by
  induction s using Finset.induction_on with
  | empty => rfl
  | insert a s ha ih => rw [Finset.sum_insert ha, Finset.sum_insert ha, ← ih]; rfl

theorem sum_y (f : Nat → P3 ℝ) (s : Finset Nat) : (∑ i ∈ s, f i).y = ∑ i ∈ s, (f i).y := by
  induction s using Finset.induction_on with
  | empty => rfl
  | insert a s ha ih => rw [Finset.sum_insert ha, Finset.sum_insert ha, ← ih]; rfl

theorem sum_z (f : Nat → P3 ℝ) (s : Finset Nat) : (∑ i ∈ s, f i).z = ∑ i ∈ s, (f i).z := by
  induction s using Finset.induction_on with
  | empty => rfl
  | insert a s ha ih => rw [Finset.sum_insert ha, Finset.sum_insert ha, ← ih]; rfl

/-- C102.  A curve with positive weights has no gap if no inner knot value appears more
than `p` times: the coordinates of the evaluated point are continuous functions of the
parameter. -/
theorem evaluate_continuous {c : Curve ℝ} {p n : Nat} (h : c.Valid p n) (hw : ∀ w ∈ c.weights, 0 < w)
    (hm : ∀ x, 0 < x → x < 1 → c.knots.count x ≤ p) :
    ∃ x y z : ℝ → ℝ, ContinuousOn x (Icc 0 1) ∧ ContinuousOn y (Icc 0 1) ∧ ContinuousOn z (Icc 0 1) ∧
      ∀ u ∈ Icc (0 : ℝ) 1, c.at u = some ⟨x u, y u, z u⟩ := by
  have hb := fun i => basis_continuousOn h.knots hm i
  have hd : ContinuousOn (fun u => c.denom p n (spanOf c.knots u) u) (Icc 0 1) := by
    unfold Curve.denom
    exact continuousOn_finsetSum _ fun i _ => (hb i).mul continuousOn_const
  have hd0 : ∀ u ∈ Icc (0 : ℝ) 1, c.denom p n (spanOf c.knots u) u ≠ 0 := fun u hu => (denom_pos h hw (spanOf_spec h.knots hu)).ne'
  refine ⟨fun u => 1 / c.denom p n (spanOf c.knots u) u * (c.numer p n (spanOf c.knots u) u).x, fun u => 1 / c.denom p n (spanOf c.knots u) u * (c.numer p n (spanOf c.knots u) u).y,
    fun u => 1 / c.denom p n (spanOf c.knots u) u * (c.numer p n (spanOf c.knots u) u).z, ?_, ?_, ?_, fun u hu => ?_⟩
  · refine (continuousOn_const.div hd hd0).mul ?_
    simp only [Curve.numer, sum_x]
    exact continuousOn_finsetSum _ fun i _ => (hb i).mul continuousOn_const
  · refine (continuousOn_const.div hd hd0).mul ?_
    simp only [Curve.numer, sum_y]
    exact continuousOn_finsetSum _ fun i _ => (hb i).mul continuousOn_const
  · refine (continuousOn_const.div hd hd0).mul ?_
    simp only [Curve.numer, sum_z]
    exact continuousOn_finsetSum _ fun i _ => (hb i).mul continuousOn_const
  · have hs := spanOf_spec h.knots hu
    rw [evaluate_spec h u (by rw [clamp_of_mem hu.1 hu.2]; exact hs), if_neg (hd0 u hu)]
    rfl

/-- C102.  The same for a surface, in both parameters together. -/
theorem surface_evaluate_continuous {s : Surface ℝ} {p q nu nv : Nat} (h : s.Valid p q nu nv) (hw : ∀ w ∈ s.weights, 0 < w)
    (hu : ∀ x, 0 < x → x < 1 → s.knotsU.count x ≤ p) (hv : ∀ x, 0 < x → x < 1 → s.knotsV.count x ≤ q) :
    ∃ x y z : ℝ × ℝ → ℝ, ContinuousOn x (Icc 0 1 ×ˢ Icc 0 1) ∧ ContinuousOn y (Icc 0 1 ×ˢ Icc 0 1) ∧ ContinuousOn z (Icc 0 1 ×ˢ Icc 0 1) ∧
      ∀ u ∈ Icc (0 : ℝ) 1, ∀ v ∈ Icc (0 : ℝ) 1, s.at u v = some ⟨x (u, v), y (u, v), z (u, v)⟩ := by
  have hbu : ∀ i, ContinuousOn (fun a : ℝ × ℝ => basis (kn s.knotsU) (spanOf s.knotsU a.1) a.1 p i) (Icc 0 1 ×ˢ Icc 0 1) := fun i =>
    (basis_continuousOn h.knotsU hu i).comp continuous_fst.continuousOn fun a ha => ha.1
  have hbv : ∀ i, ContinuousOn (fun a : ℝ × ℝ => basis (kn s.knotsV) (spanOf s.knotsV a.2) a.2 q i) (Icc 0 1 ×ˢ Icc 0 1) := fun i =>
    (basis_continuousOn h.knotsV hv i).comp continuous_snd.continuousOn fun a ha => ha.2
  have hd : ContinuousOn (fun a : ℝ × ℝ => s.denom p q nu nv (spanOf s.knotsU a.1) (spanOf s.knotsV a.2) a.1 a.2) (Icc 0 1 ×ˢ Icc 0 1) := by
    unfold Surface.denom
    exact continuousOn_finsetSum _ fun j _ => continuousOn_finsetSum _ fun i _ => ((hbu i).mul (hbv j)).mul continuousOn_const
  have hd0 : ∀ a ∈ Icc (0 : ℝ) 1 ×ˢ Icc (0 : ℝ) 1, s.denom p q nu nv (spanOf s.knotsU a.1) (spanOf s.knotsV a.2) a.1 a.2 ≠ 0 := fun a ha =>
    (surface_denom_pos h hw (spanOf_spec h.knotsU ha.1) (spanOf_spec h.knotsV ha.2)).ne'
  refine ⟨fun a => 1 / s.denom p q nu nv (spanOf s.knotsU a.1) (spanOf s.knotsV a.2) a.1 a.2 * (s.numer p q nu nv (spanOf s.knotsU a.1) (spanOf s.knotsV a.2) a.1 a.2).x,
    fun a => 1 / s.denom p q nu nv (spanOf s.knotsU a.1) (spanOf s.knotsV a.2) a.1 a.2 * (s.numer p q nu nv (spanOf s.knotsU a.1) (spanOf s.knotsV a.2) a.1 a.2).y,
    fun a => 1 / s.denom p q nu nv (spanOf s.knotsU a.1) (spanOf s.knotsV a.2) a.1 a.2 * (s.numer p q nu nv (spanOf s.knotsU a.1) (spanOf s.knotsV a.2) a.1 a.2).z, ?_, ?_, ?_, fun u hu' v hv' => ?_⟩
  · refine (continuousOn_const.div hd hd0).mul ?_
    simp only [Surface.numer, sum_x]
    exact continuousOn_finsetSum _ fun j _ => continuousOn_finsetSum _ fun i _ => (((hbu i).mul (hbv j)).mul continuousOn_const).mul continuousOn_const
  · refine (continuousOn_const.div hd hd0).mul ?_
    simp only [Surface.numer, sum_y]
    exact continuousOn_finsetSum _ fun j _ => continuousOn_finsetSum _ fun i _ => (((hbu i).mul (hbv j)).mul continuousOn_const).mul continuousOn_const
  · refine (continuousOn_const.div hd hd0).mul ?_
    simp only [Surface.numer, sum_z]
    exact continuousOn_finsetSum _ fun j _ => continuousOn_finsetSum _ fun i _ => (((hbu i).mul (hbv j)).mul continuousOn_const).mul continuousOn_const
  · have hs := spanOf_spec h.knotsU hu'
    have hs' := spanOf_spec h.knotsV hv'
    rw [surface_evaluate_spec h u v (by rw [clamp_of_mem hu'.1 hu'.2]; exact hs) (by rw [clamp_of_mem hv'.1 hv'.2]; exact hs'), if_neg (hd0 (u, v) ⟨hu', hv'⟩)]
    rfl

/-- a curve of degree 2 with a double inner knot, used in the examples -/
noncomputable def corner : Curve ℝ := ⟨2, [0, 0, 0, 1 / 2, 1 / 2, 1, 1, 1], [1, 1, 1, 1, 1],
  [⟨0, 0, 0⟩, ⟨1, 0, 0⟩, ⟨2, 0, 0⟩, ⟨2, 1, 0⟩, ⟨2, 2, 0⟩], 5, [⟨0, 0, 0⟩, ⟨0, 0, 0⟩, ⟨0, 0, 0⟩], [0, 0, 0]⟩

theorem corner_valid : corner.Valid 2 5 := by
  refine ⟨rfl, rfl, rfl, rfl, ⟨rfl, ?_, ?_, ?_⟩, by simp [corner], by simp [corner]⟩
  · simp [corner]; norm_num
  · intro i hi
    obtain rfl | rfl | rfl : i = 0 ∨ i = 1 ∨ i = 2 := by omega
    all_goals simp [corner]
  · intro i h1 h2
    obtain rfl | rfl | rfl : i = 5 ∨ i = 6 ∨ i = 7 := by omega
    all_goals simp [corner]

example : ∀ w ∈ corner.weights, 0 < w := by simp [corner]

example : ∀ x, 0 < x → x < 1 → corner.knots.count x ≤ 2 := by
  intro x h0 h1
  have a : ¬ (0 : ℝ) = x := h0.ne
  have b : ¬ (1 : ℝ) = x := h1.ne'
  simp only [corner, List.count_cons, List.count_nil, beq_iff_eq, a, b, if_false]
  split_ifs <;> simp

/-- a curve of degree 1 with a double inner knot -/
noncomputable def gap : Curve ℝ := ⟨1, [0, 0, 1 / 2, 1 / 2, 1, 1], [1, 1, 1, 1],
  [⟨0, 0, 0⟩, ⟨0, 1, 0⟩, ⟨5, 1, 0⟩, ⟨5, 2, 0⟩], 4, [⟨0, 0, 0⟩, ⟨0, 0, 0⟩], [0, 0]⟩

theorem gap_valid : gap.Valid 1 4 := by
  refine ⟨rfl, rfl, rfl, rfl, ⟨rfl, ?_, ?_, ?_⟩, by simp [gap], by simp [gap]⟩
  · simp [gap]; norm_num
  · intro i hi
    obtain rfl | rfl : i = 0 ∨ i = 1 := by omega
    all_goals simp [gap]
  · intro i h1 h2
    obtain rfl | rfl : i = 4 ∨ i = 5 := by omega
    all_goals simp [gap]

theorem gap_x {u : ℝ} (h0 : 0 ≤ u) (h1 : u ≤ 1) {P : P3 ℝ} (hP : gap.at u = some P) : P.x = if u < 1 / 2 then 0 else 5 := by
  obtain ⟨k, lam, hk, -, hz, hs, he⟩ := evaluate_hull gap_valid (by simp [gap]) h0 h1
  rw [he] at hP
  obtain rfl := Option.some.inj hP
  obtain ⟨a, b⟩ := hk.range gap_valid.knots
  have e1 : kn gap.knots 1 = 0 := rfl
  have e2 : kn gap.knots 2 = 1 / 2 := rfl
  have e3 : kn gap.knots 3 = 1 / 2 := rfl
  have e4 : kn gap.knots 4 = 1 := rfl
  rw [sum_x]
  simp only [Finset.sum_range_succ, Finset.sum_range_zero, zero_add] at hs ⊢
  have p0 : gap.points.getD 0 ⟨0, 0, 0⟩ = ⟨0, 0, 0⟩ := rfl
  have p1 : gap.points.getD 1 ⟨0, 0, 0⟩ = ⟨0, 1, 0⟩ := rfl
  have p2 : gap.points.getD 2 ⟨0, 0, 0⟩ = ⟨5, 1, 0⟩ := rfl
  have p3 : gap.points.getD 3 ⟨0, 0, 0⟩ = ⟨5, 2, 0⟩ := rfl
  rw [p0, p1, p2, p3]
  simp only [P3.smul_x, mul_zero, zero_add]
  obtain rfl | rfl | rfl : k = 1 ∨ k = 2 ∨ k = 3 := by omega
  · have := hk.2.2.2 (lt_of_le_of_ne h1 (by rintro rfl; have := hk.2.2.1; rw [e2] at this; norm_num at this))
    rw [e2] at this
    rw [if_pos this, hz 2 (by omega), hz 3 (by omega)]; simp
  · have := hk.1; rw [e2, e3] at this; exact absurd this (lt_irrefl _)
  · have := hk.2.1
    rw [e3] at this
    rw [if_neg (not_lt.2 this)]
    rw [hz 0 (by omega), hz 1 (by omega)] at hs
    linarith

/-- C102, the negation without the bound on repeated knots: one repetition more makes the
curve jump, although it is consistent and has positive weights. -/
theorem evaluate_jump : gap.Valid 1 4 ∧ (∀ w ∈ gap.weights, 0 < w) ∧
    ¬ ∃ x y z : ℝ → ℝ, ContinuousOn x (Icc 0 1) ∧ ContinuousOn y (Icc 0 1) ∧ ContinuousOn z (Icc 0 1) ∧
      ∀ u ∈ Icc (0 : ℝ) 1, gap.at u = some ⟨x u, y u, z u⟩ := by
  refine ⟨gap_valid, by simp [gap], ?_⟩
  rintro ⟨x, y, z, hx, -, -, hall⟩
  have hv : ∀ u ∈ Icc (0 : ℝ) 1, x u = if u < 1 / 2 then 0 else 5 := fun u hu => gap_x hu.1 hu.2 (hall u hu)
  have := intermediate_value_Icc (by norm_num : (0 : ℝ) ≤ 1) hx
  have h1 : (1 : ℝ) ∈ Icc (x 0) (x 1) := by
    rw [hv 0 ⟨le_rfl, by norm_num⟩, hv 1 ⟨by norm_num, le_rfl⟩]
    norm_num
  obtain ⟨u, hu, e⟩ := this h1
  rw [hv u hu] at e
  split_ifs at e <;> norm_num at e

end Nurbs
end CAD
