import Verif.Props.NurbsInsert

/-! The knots of `NurbsCurve::degree_elevation`. -/

set_option linter.unusedSimpArgs false

namespace CAD
namespace Nurbs
open BSpline
variable {K : Type} [Field K] [LinearOrder K]

/-- number of changes of value among the first `k + 1` knots -/
def dch (τ : Nat → K) : Nat → Nat
  | 0 => 0
  | k + 1 => dch τ k + if τ k ≠ τ (k + 1) then 1 else 0

/-- how many times the value of knot `k` has occurred up to there -/
def runLen (τ : Nat → K) : Nat → Nat
  | 0 => 1
  | k + 1 => if τ k ≠ τ (k + 1) then 1 else runLen τ k + 1

theorem dch_change {τ : Nat → K} {k : Nat} (h : τ k ≠ τ (k + 1)) : dch τ (k + 1) = dch τ k + 1 := by
  rw [dch, if_pos h]

theorem dch_same {τ : Nat → K} {k : Nat} (h : τ k = τ (k + 1)) : dch τ (k + 1) = dch τ k := by
  rw [dch, if_neg (not_not.2 h), Nat.add_zero]

theorem dch_mono (τ : Nat → K) : Monotone (dch τ) :=
  monotone_nat_of_le_succ fun k => by rw [dch]; omega

theorem dch_const {τ : Nat → K} {i j : Nat} (hij : i ≤ j) (h : ∀ m, i ≤ m → m < j → τ m = τ (m + 1)) :
    dch τ j = dch τ i := by
  induction j with
  | zero => rw [show i = 0 by omega]
  | succ j ih =>
    rcases Nat.lt_or_eq_of_le hij with h1 | rfl
    · rw [dch_same (h j (by omega) (by omega)), ih (by omega) fun m h2 h3 => h m h2 (by omega)]
    · rfl

theorem pos_step (τ : Nat → K) {j k : Nat} (h : j < k) :
    j + dch τ j + (if τ j ≠ τ (j + 1) then 2 else 1) ≤ k + dch τ k := by
  have := dch_mono τ (show j + 1 ≤ k from h)
  rw [dch] at this
  split_ifs at this ⊢ <;> omega

/-- What `degree_elevation` computes from sorted knots. -/
theorem elevateKnots_eq {knots : List K} {N : Nat} (hN : knots.length = N + 1) (hm : Monotone (kn knots)) :
    ∃ kn' mult, Curve.elevateKnots knots = some (kn', mult) ∧
      kn'.length = N + dch (kn knots) N + 2 ∧ mult.length = dch (kn knots) N + 1 ∧
      kn'.Pairwise (· ≤ ·) ∧
      (∀ j ≤ N, kn'[j + dch (kn knots) j]? = some (kn knots j)) ∧
      (∀ j ≤ N, (j = N ∨ kn knots j ≠ kn knots (j + 1)) → kn'[j + dch (kn knots) j + 1]? = some (kn knots j) ∧
        mult[dch (kn knots) j]? = some (runLen (kn knots) j : Int)) := by
  set τ := kn knots with hτ
  obtain ⟨s, e, i1, i2, i3, i4, i5, i6, i7⟩ := loopN_inv (n := N) (s := (⟨[], [], 1⟩ : Curve.Elev K))
    (f := fun k (s : Curve.Elev K) => do
      let a ← getI knots k
      let b ← getI knots (k + 1)
      if a ≠ b then return (⟨s.knots ++ [a, a], s.mult ++ [s.l], 0 + 1⟩ : Curve.Elev K)
      else return ⟨s.knots ++ [a], s.mult, s.l + 1⟩)
    (I := fun k (s : Curve.Elev K) => s.knots.length = k + dch τ k ∧ s.mult.length = dch τ k ∧
      s.l = (runLen τ k : Int) ∧ s.knots.Pairwise (· ≤ ·) ∧ (∀ x ∈ s.knots, x ≤ τ k) ∧
      (∀ j < k, s.knots[j + dch τ j]? = some (τ j)) ∧
      (∀ j < k, τ j ≠ τ (j + 1) → s.knots[j + dch τ j + 1]? = some (τ j) ∧
        s.mult[dch τ j]? = some (runLen τ j : Int)))
    ⟨rfl, rfl, rfl, List.Pairwise.nil, by simp, by simp, by simp⟩
    (by
      rintro k hk s ⟨i1, i2, i3, i4, i5, i6, i7⟩
      have g1 : getI knots (k : Int) = some (τ k) := by rw [getI_natCast]; exact kn_of_lt (by omega)
      have g2 : getI knots ((k : Int) + 1) = some (τ (k + 1)) := by
        rw [show (k : Int) + 1 = ((k + 1 : Nat) : Int) by omega, getI_natCast]; exact kn_of_lt (by omega)
      simp only [g1, g2, Option.bind_eq_bind, Option.bind_some, Option.pure_def]
      have hle : τ k ≤ τ (k + 1) := hm (Nat.le_succ k)
      by_cases hne : τ k ≠ τ (k + 1)
      · rw [if_pos hne]
        refine ⟨_, rfl, ?_, ?_, ?_, ?_, ?_, ?_, ?_⟩
        · rw [dch_change hne]; simp; omega
        · rw [dch_change hne]; simp; omega
        · simp only [runLen, if_pos hne]; rfl
        · simp only
          rw [List.pairwise_append]
          refine ⟨i4, by simp, ?_⟩
          intro x hx y hy
          simp at hy; rw [hy]; exact i5 x hx
        · intro x hx
          simp only [List.mem_append, List.mem_cons, List.not_mem_nil, or_false, or_self] at hx
          rcases hx with hx | rfl
          · exact (i5 x hx).trans hle
          · exact hle
        · intro j hj
          simp only
          rcases Nat.lt_succ_iff_lt_or_eq.1 hj with h | rfl
          · have := pos_step τ h
            rw [List.getElem?_append_left (by split_ifs at this <;> omega)]; exact i6 j h
          · rw [List.getElem?_append_right (by omega), i1]; simp
        · intro j hj hjn
          simp only
          rcases Nat.lt_succ_iff_lt_or_eq.1 hj with h | rfl
          · have := pos_step τ h
            rw [if_pos hjn] at this
            have h2 := dch_mono τ (show j + 1 ≤ k from h)
            rw [dch_change hjn] at h2
            rw [List.getElem?_append_left (by omega), List.getElem?_append_left (by omega)]; exact i7 j h hjn
          · rw [List.getElem?_append_right (by omega), List.getElem?_append_right (by omega), i1, i2, i3]
            simp
      · rw [if_neg hne]
        rw [not_not] at hne
        refine ⟨_, rfl, ?_, ?_, ?_, ?_, ?_, ?_, ?_⟩
        · rw [dch_same hne]; simp; omega
        · rw [dch_same hne]; simp; omega
        · simp only [runLen, if_neg (not_not.2 hne), i3]; push_cast; ring
        · simp only
          rw [List.pairwise_append]
          refine ⟨i4, by simp, ?_⟩
          intro x hx y hy
          simp at hy; rw [hy]; exact i5 x hx
        · intro x hx
          simp only [List.mem_append, List.mem_cons, List.not_mem_nil, or_false] at hx
          rcases hx with hx | rfl
          · exact (i5 x hx).trans hle
          · exact hle
        · intro j hj
          simp only
          rcases Nat.lt_succ_iff_lt_or_eq.1 hj with h | rfl
          · have := pos_step τ h
            rw [List.getElem?_append_left (by split_ifs at this <;> omega)]; exact i6 j h
          · rw [List.getElem?_append_right (by omega), i1]; simp
        · intro j hj hjn
          simp only
          rcases Nat.lt_succ_iff_lt_or_eq.1 hj with h | rfl
          · have := pos_step τ h
            rw [if_pos hjn] at this
            rw [List.getElem?_append_left (by omega)]; exact i7 j h hjn
          · exact absurd hne hjn)
  refine ⟨s.knots ++ [τ N, τ N], s.mult ++ [s.l], ?_, by simp; omega, by simp; omega, ?_, ?_, ?_⟩
  · unfold Curve.elevateKnots
    have gN : getI knots ((knots.length : Int) - 1) = some (τ N) := by
      rw [hN, show ((N + 1 : Nat) : Int) - 1 = (N : Int) by omega, getI_natCast]; exact kn_of_lt (by omega)
    rw [gN, hN, Nat.add_sub_cancel, e]
    rfl
  · rw [List.pairwise_append]
    refine ⟨i4, by simp, ?_⟩
    intro x hx y hy
    simp at hy; rw [hy]; exact i5 x hx
  · intro j hj
    rcases Nat.lt_or_eq_of_le hj with h | rfl
    · have := pos_step τ h
      rw [List.getElem?_append_left (by split_ifs at this <;> omega)]; exact i6 j h
    · rw [List.getElem?_append_right (by omega), i1]; simp
  · intro j hj hjn
    rcases Nat.lt_or_eq_of_le hj with h | rfl
    · have hjn : τ j ≠ τ (j + 1) := by
        rcases hjn with h2 | h2
        · omega
        · exact h2
      have := pos_step τ h
      rw [if_pos hjn] at this
      have h2 := dch_mono τ (show j + 1 ≤ N from h)
      rw [dch_change hjn] at h2
      rw [List.getElem?_append_left (by omega), List.getElem?_append_left (by omega)]; exact i7 j h hjn
    · rw [List.getElem?_append_right (by omega), List.getElem?_append_right (by omega), i1, i2, i3]
      simp

variable [IsStrictOrderedRing K]

/-- The elevated knots are clamped for one degree more. -/
theorem elevateKnots_clamped {knots : List K} {p n : Nat} (h : ClampedKnots knots p n) :
    ∃ kn' mult, Curve.elevateKnots knots = some (kn', mult) ∧
      ClampedKnots kn' (p + 1) (n + dch (kn knots) (n + p)) ∧
      mult.length = dch (kn knots) (n + p) + 1 ∧
      (∀ j ≤ n + p, kn kn' (j + dch (kn knots) j) = kn knots j) ∧
      (∀ j ≤ n + p, (j = n + p ∨ kn knots j ≠ kn knots (j + 1)) → kn kn' (j + dch (kn knots) j + 1) = kn knots j ∧
        mult[dch (kn knots) j]? = some (runLen (kn knots) j : Int)) := by
  obtain ⟨kn', mult, e, l1, l2, hs, h1, h2⟩ := elevateKnots_eq (N := n + p) h.length h.mono
  have hpn := h.p_lt_n
  have d0 : ∀ j ≤ p, dch (kn knots) j = 0 := fun j hj =>
    dch_const (Nat.zero_le j) fun m _ hm => by rw [h.kn_first (by omega), h.kn_first (by omega)]
  have dn : ∀ j, n ≤ j → j ≤ n + p → dch (kn knots) j = dch (kn knots) (n + p) := fun j hj hj2 =>
    (dch_const hj2 fun m h1 _ => by rw [h.kn_last (by omega), h.kn_last (by omega)]).symm
  have hkn : ∀ {i : Nat} {x : K}, kn'[i]? = some x → kn kn' i = x := by
    intro i x hx; simp [kn, List.getD, hx]
  have first : ∀ i ≤ p, kn'[i]? = some 0 := by
    intro i hi
    have := h1 i (by omega)
    rwa [d0 i hi, Nat.add_zero, h.kn_first hi] at this
  have last : ∀ i, n ≤ i → i ≤ n + p → kn'[i + dch (kn knots) (n + p)]? = some 1 := by
    intro i hi hi2
    have := h1 i (by omega)
    rwa [dn i hi hi2, h.kn_last hi] at this
  have hlast := h2 (n + p) le_rfl (Or.inl rfl)
  refine ⟨kn', mult, e, ⟨by rw [l1]; omega, hs, ?_, ?_⟩, l2, fun j hj => hkn (h1 j hj),
    fun j hj hc => ⟨hkn (h2 j hj hc).1, (h2 j hj hc).2⟩⟩
  · -- the last zero is followed by its copy
    obtain ⟨k, hk1, hk2, hk3, hk4⟩ := exists_cross (kn knots) (fun x => x ≤ 0) hpn.le
      (by rw [h.kn_first le_rfl]) (by rw [h.kn_last le_rfl]; simp)
    have hz : ∀ i ≤ k, kn knots i = 0 := fun i hi => le_antisymm ((h.mono hi).trans hk3) (h.nonneg i)
    have hd : dch (kn knots) k = 0 := dch_const (Nat.zero_le k) fun m _ hm => by
      rw [hz m (by omega), hz (m + 1) (by omega)]
    have hne : kn knots k ≠ kn knots (k + 1) := by
      rw [hz k le_rfl]; intro hc; exact hk4 hc.symm.le
    have hcopy := (h2 k (by omega) (Or.inr hne)).1
    rw [hd, hz k le_rfl, Nat.add_zero] at hcopy
    intro i hi
    rcases Nat.lt_or_eq_of_le (show i ≤ k + 1 by omega) with h3 | rfl
    · have := h1 i (by omega)
      have hd' : dch (kn knots) i = 0 := dch_const (Nat.zero_le i) fun m _ hm => by
        rw [hz m (by omega), hz (m + 1) (by omega)]
      rwa [hd', Nat.add_zero, hz i (by omega)] at this
    · exact hcopy
  · intro i hi1 hi2
    rcases Nat.lt_or_eq_of_le hi2 with h3 | h3
    · have := last (i - dch (kn knots) (n + p)) (by omega) (by omega)
      rwa [show i - dch (kn knots) (n + p) + dch (kn knots) (n + p) = i by omega] at this
    · have := hlast.1
      rw [h.kn_last (show n ≤ n + p by omega)] at this
      rw [← this]; congr 1; omega

/-- The knots around a span before and after. -/
theorem elevated_span {knots kn' : List K} {p n : Nat} (h : ClampedKnots knots p n)
    (h1 : ∀ j ≤ n + p, kn kn' (j + dch (kn knots) j) = kn knots j)
    (h2 : ∀ j ≤ n + p, (j = n + p ∨ kn knots j ≠ kn knots (j + 1)) → kn kn' (j + dch (kn knots) j + 1) = kn knots j)
    {t : K} {k : Nat} (hs : InSpan knots t k) :
    InSpan kn' t (k + dch (kn knots) k + 1) ∧ kn kn' (k + dch (kn knots) k) = kn knots k ∧
      kn kn' (k + dch (kn knots) k + 1) = kn knots k ∧ kn kn' (k + dch (kn knots) k + 2) = kn knots (k + 1) := by
  obtain ⟨hp, hn⟩ := hs.range h
  have hne : kn knots k ≠ kn knots (k + 1) := hs.1.ne
  have e1 := h1 k (by omega)
  have e2 := h2 k (by omega) (Or.inr hne)
  have e3 := h1 (k + 1) (by omega)
  rw [dch_change hne, show k + 1 + (dch (kn knots) k + 1) = k + dch (kn knots) k + 2 by omega] at e3
  refine ⟨?_, e1, e2, e3⟩
  unfold InSpan
  rw [show k + dch (kn knots) k + 1 + 1 = k + dch (kn knots) k + 2 by omega, e2, e3]
  exact hs

end Nurbs
end CAD
