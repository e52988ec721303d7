import Verif.Spec.BSpline
import Mathlib.Algebra.Module.LinearMap.Defs
import Mathlib.Algebra.Module.BigOperators
import Mathlib.Algebra.Order.Field.Basic
import Mathlib.Algebra.Order.BigOperators.Ring.Finset
import Mathlib.Tactic.FieldSimp
import Mathlib.Tactic.Ring
import Mathlib.Tactic.Module
import Mathlib.Tactic.Linarith
import Mathlib.Tactic.LinearCombination
import Mathlib.Tactic.Positivity

/-! De Boor's algorithm: equality with the basis sum, knot insertion. -/

namespace CAD
namespace BSpline

section
variable {K : Type} [Field K] {M N : Type} [AddCommGroup M] [Module K M] [AddCommGroup N] [Module K N]

def alpha (τ : Nat → K) (t : K) (q i : Nat) : K := (t - τ i) / (τ (i + q) - τ i)

/-- one level of de Boor's triangle -/
def step (τ : Nat → K) (t : K) (q : Nat) (c : Nat → M) (i : Nat) : M :=
  (1 - alpha τ t q i) • c (i - 1) + alpha τ t q i • c i

/-- all levels -/
def deB (τ : Nat → K) (t : K) : Nat → (Nat → M) → Nat → M
  | 0, c => c
  | q + 1, c => deB τ t q (step τ t (q + 1) c)

/-- the first `r` levels for degree `p` -/
def lev (τ : Nat → K) (t : K) (p : Nat) (c : Nat → M) : Nat → Nat → M
  | 0 => c
  | r + 1 => step τ t (p - r) (lev τ t p c r)

theorem lev_succ' (τ : Nat → K) (t : K) (p : Nat) (c : Nat → M) (r : Nat) :
    lev τ t (p + 1) c (r + 1) = lev τ t p (step τ t (p + 1) c) r := by
  induction r with
  | zero => rfl
  | succ r ih =>
    rw [lev, ih, lev, show p + 1 - (r + 1) = p - r by omega]

theorem lev_eq_deB (τ : Nat → K) (t : K) (p : Nat) (c : Nat → M) : lev τ t p c p = deB τ t p c := by
  induction p generalizing c with
  | zero => rfl
  | succ p ih => rw [lev_succ', ih]; rfl

theorem step_map (τ : Nat → K) (t : K) (q : Nat) (f : M →ₗ[K] N) (c : Nat → M) :
    step τ t q (fun i => f (c i)) = fun i => f (step τ t q c i) := by
  funext i; simp [step]

theorem deB_map (τ : Nat → K) (t : K) (p : Nat) (f : M →ₗ[K] N) (c : Nat → M) (k : Nat) :
    deB τ t p (fun i => f (c i)) k = f (deB τ t p c k) := by
  induction p generalizing c with
  | zero => rfl
  | succ p ih => rw [deB, step_map, ih]; rfl

theorem deB_congr (τ : Nat → K) (t : K) {p k : Nat} (hp : p ≤ k) {c c' : Nat → M}
    (h : ∀ i, i ≤ k → k ≤ i + p → c i = c' i) : deB τ t p c k = deB τ t p c' k := by
  induction p generalizing c c' with
  | zero => exact h k le_rfl le_rfl
  | succ p ih =>
    rw [deB, deB]
    refine ih (by omega) (fun i h1 h2 => ?_)
    unfold step
    rw [h i h1 (by omega), h (i - 1) (by omega) (by omega)]

theorem basis_support (τ : Nat → K) (k : Nat) (t : K) (q i : Nat) (h : ¬ (i ≤ k ∧ k ≤ i + q)) :
    basis τ k t q i = 0 := by
  induction q generalizing i with
  | zero => unfold basis; rw [if_neg]; omega
  | succ q ih => unfold basis; rw [ih i (by omega), ih (i + 1) (by omega)]; ring

theorem sum_basis_step (τ : Nat → K) {k n q : Nat} (t : K) (hq : q + 1 ≤ k) (hn : k < n)
    (hden : ∀ i, i ≤ k → k ≤ i + q → τ (i + (q + 1)) - τ i ≠ 0) (c : Nat → M) :
    ∑ i ∈ Finset.range n, basis τ k t (q + 1) i • c i =
      ∑ i ∈ Finset.range n, basis τ k t q i • step τ t (q + 1) c i := by
  have e1 : ∀ i, basis τ k t (q + 1) i • c i =
      (alpha τ t (q + 1) i * basis τ k t q i) • c i +
        ((1 - alpha τ t (q + 1) (i + 1)) * basis τ k t q (i + 1)) • c (i + 1 - 1) := by
    intro i
    rw [basis, add_smul]
    congr 2
    by_cases h : i + 1 ≤ k ∧ k ≤ i + 1 + q
    · have := hden (i + 1) h.1 h.2
      unfold alpha
      congr 1
      field_simp
      ring
    · rw [basis_support τ k t q (i + 1) h]; ring
  have e2 : ∀ i, basis τ k t q i • step τ t (q + 1) c i =
      (alpha τ t (q + 1) i * basis τ k t q i) • c i +
        ((1 - alpha τ t (q + 1) i) * basis τ k t q i) • c (i - 1) := by
    intro i; unfold step; module
  rw [Finset.sum_congr rfl fun i _ => e1 i, Finset.sum_congr rfl fun i _ => e2 i, Finset.sum_add_distrib,
    Finset.sum_add_distrib]
  congr 1
  have h3 := Finset.sum_range_succ' (fun i => ((1 - alpha τ t (q + 1) i) * basis τ k t q i) • c (i - 1)) n
  rw [Finset.sum_range_succ] at h3
  rw [basis_support τ k t q n (by omega), basis_support τ k t q 0 (by omega)] at h3
  simpa using h3.symm

/-- de Boor's algorithm computes the basis sum -/
theorem deB_eq_sum (τ : Nat → K) {k n p : Nat} (t : K) (hp : p ≤ k) (hn : k < n)
    (hden : ∀ i j, i ≤ k → k < j → τ j - τ i ≠ 0) (c : Nat → M) :
    deB τ t p c k = ∑ i ∈ Finset.range n, basis τ k t p i • c i := by
  induction p generalizing c with
  | zero =>
    rw [deB, Finset.sum_eq_single k]
    · simp [basis]
    · intro i _ hi; simp [basis, hi]
    · intro h; exact absurd (Finset.mem_range.2 hn) h
  | succ p ih =>
    rw [sum_basis_step τ t hp hn (fun i h1 h2 => hden i _ h1 (by omega)), deB]
    exact ih (by omega) _

theorem sum_basis_eq_one (τ : Nat → K) {k n p : Nat} (t : K) (hp : p ≤ k) (hn : k < n)
    (hden : ∀ i j, i ≤ k → k < j → τ j - τ i ≠ 0) : ∑ i ∈ Finset.range n, basis τ k t p i = 1 := by
  have h := deB_eq_sum (M := K) τ t hp hn hden (fun _ => 1)
  simp only [smul_eq_mul, mul_one] at h
  rw [← h]
  clear h hp
  induction p with
  | zero => rfl
  | succ p ih =>
    rw [deB]
    have : step τ t (p + 1) (fun _ => (1 : K)) = fun _ => 1 := by funext i; simp [step]
    rw [this, ih]

end

section
variable {K : Type} [Field K] [LinearOrder K] [IsStrictOrderedRing K] {M : Type} [AddCommGroup M] [Module K M]

theorem basis_nonneg {τ : Nat → K} (hτ : Monotone τ) {k : Nat} {t : K} (h1 : τ k ≤ t) (h2 : t ≤ τ (k + 1))
    (q i : Nat) : 0 ≤ basis τ k t q i := by
  induction q generalizing i with
  | zero => unfold basis; split_ifs <;> simp
  | succ q ih =>
    unfold basis
    apply add_nonneg
    · by_cases h : i ≤ k ∧ k ≤ i + q
      · refine mul_nonneg (div_nonneg ?_ ?_) (ih i)
        · linarith [hτ h.1]
        · linarith [hτ (show i ≤ i + (q + 1) by omega)]
      · rw [basis_support τ k t q i h]; simp
    · by_cases h : i + 1 ≤ k ∧ k ≤ i + 1 + q
      · refine mul_nonneg (div_nonneg ?_ ?_) (ih (i + 1))
        · linarith [hτ (show k + 1 ≤ i + 1 + (q + 1) by omega)]
        · linarith [hτ (show i + 1 ≤ i + 1 + (q + 1) by omega)]
      · rw [basis_support τ k t q (i + 1) h]; simp

theorem den_ne {τ : Nat → K} (hτ : Monotone τ) {k : Nat} (hk : τ k < τ (k + 1)) :
    ∀ i j, i ≤ k → k < j → τ j - τ i ≠ 0 := by
  intro i j h1 h2
  have := hτ h1
  have := hτ (show k + 1 ≤ j from h2)
  intro h; linarith

/-! ### Knot insertion -/

/-- the knots with `s` inserted after number `l` -/
def insKnot (τ : Nat → K) (s : K) (l : Nat) (i : Nat) : K :=
  if i ≤ l then τ i else if i = l + 1 then s else τ (i - 1)

/-- Boehm's new control points -/
def insPts (τ : Nat → K) (s : K) (l p : Nat) (c : Nat → M) (i : Nat) : M :=
  if i + p ≤ l then c i else if i ≤ l then step τ s p c i else c (i - 1)

theorem step_exchange (τ : Nat → K) (s t : K) (p : Nat) (c : Nat → M) (i : Nat) (hi : 1 ≤ i)
    (h0 : τ (i + p) - τ i ≠ 0) (h1 : τ (i + (p + 1)) - τ i ≠ 0) (h2 : τ (i - 1 + (p + 1)) - τ (i - 1) ≠ 0) :
    step τ t p (step τ s (p + 1) c) i = step τ s p (step τ t (p + 1) c) i := by
  have e : i - 1 + (p + 1) = i + p := by omega
  rw [e] at h2
  unfold step alpha
  rw [e]
  generalize τ (i + (p + 1)) = d at *
  generalize τ (i + p) = b at *
  generalize τ i = a at *
  generalize τ (i - 1) = z at *
  match_scalars <;> field_simp <;> ring

theorem insKnot_mono {τ : Nat → K} (hτ : Monotone τ) {s : K} {l : Nat} (h1 : τ l ≤ s) (h2 : s ≤ τ (l + 1)) :
    Monotone (insKnot τ s l) := by
  refine monotone_nat_of_le_succ fun i => ?_
  unfold insKnot
  rcases Nat.lt_trichotomy i l with h | h | h
  · rw [if_pos (by omega), if_pos (by omega)]; exact hτ (by omega)
  · subst h; rw [if_pos le_rfl, if_neg (by omega), if_pos rfl]; exact h1
  · rcases Nat.eq_or_lt_of_le (show l + 1 ≤ i from h) with h' | h'
    · subst h'
      rw [if_neg (by omega), if_pos rfl, if_neg (by omega), if_neg (by omega)]; exact h2
    · rw [if_neg (by omega), if_neg (by omega), if_neg (by omega), if_neg (by omega)]; exact hτ (by omega)

theorem step_ins {τ : Nat → K} (hτ : Monotone τ) {s : K} {l : Nat} (h1 : τ l ≤ s) (h2 : s ≤ τ (l + 1))
    (t : K) (p : Nat) (c : Nat → M) (i : Nat) (hi : 1 ≤ i)
    (hd : insKnot τ s l i < insKnot τ s l (i + (p + 1))) :
    step (insKnot τ s l) t (p + 1) (insPts τ s l (p + 1) c) i = insPts τ s l p (step τ t (p + 1) c) i := by
  rcases Nat.lt_or_ge l (i + p) with hl | hl
  swap
  · rcases Nat.lt_or_eq_of_le hl with hl' | hl'
    · -- everything to the left
      have k1 : insKnot τ s l i = τ i := by unfold insKnot; rw [if_pos (by omega)]
      have k2 : insKnot τ s l (i + (p + 1)) = τ (i + (p + 1)) := by unfold insKnot; rw [if_pos (by omega)]
      have c1 : insPts τ s l (p + 1) c i = c i := by unfold insPts; rw [if_pos (by omega)]
      have c0 : insPts τ s l (p + 1) c (i - 1) = c (i - 1) := by unfold insPts; rw [if_pos (by omega)]
      have r : insPts τ s l p (step τ t (p + 1) c) i = step τ t (p + 1) c i := by
        unfold insPts; rw [if_pos (by omega)]
      rw [r]
      unfold step alpha
      rw [k1, k2, c1, c0]
    · -- left border
      have k1 : insKnot τ s l i = τ i := by unfold insKnot; rw [if_pos (by omega)]
      have k2 : insKnot τ s l (i + (p + 1)) = s := by
        unfold insKnot; rw [if_neg (by omega), if_pos (by omega)]
      have c1 : insPts τ s l (p + 1) c i = step τ s (p + 1) c i := by
        unfold insPts; rw [if_neg (by omega), if_pos (by omega)]
      have c0 : insPts τ s l (p + 1) c (i - 1) = c (i - 1) := by unfold insPts; rw [if_pos (by omega)]
      have r : insPts τ s l p (step τ t (p + 1) c) i = step τ t (p + 1) c i := by
        unfold insPts; rw [if_pos (by omega)]
      rw [k1, k2] at hd
      have hd2 : s ≤ τ (i + (p + 1)) := h2.trans (hτ (by omega))
      have n1 : s - τ i ≠ 0 := by intro h; linarith
      have n2 : τ (i + (p + 1)) - τ i ≠ 0 := by intro h; linarith
      rw [r]
      unfold step alpha
      rw [k1, k2, c1, c0]
      unfold step alpha
      match_scalars <;> field_simp <;> ring
  · rcases Nat.lt_or_ge l i with hl2 | hl2
    · rcases Nat.lt_or_eq_of_le (show l + 1 ≤ i from hl2) with hl3 | hl3
      · -- everything to the right
        have k1 : insKnot τ s l i = τ (i - 1) := by
          unfold insKnot; rw [if_neg (by omega), if_neg (by omega)]
        have k2 : insKnot τ s l (i + (p + 1)) = τ (i - 1 + (p + 1)) := by
          unfold insKnot
          rw [if_neg (by omega), if_neg (by omega), show i + (p + 1) - 1 = i - 1 + (p + 1) by omega]
        have c1 : insPts τ s l (p + 1) c i = c (i - 1) := by
          unfold insPts; rw [if_neg (by omega), if_neg (by omega)]
        have c0 : insPts τ s l (p + 1) c (i - 1) = c (i - 1 - 1) := by
          unfold insPts; rw [if_neg (by omega), if_neg (by omega)]
        have r : insPts τ s l p (step τ t (p + 1) c) i = step τ t (p + 1) c (i - 1) := by
          unfold insPts; rw [if_neg (by omega), if_neg (by omega)]
        rw [r]
        unfold step alpha
        rw [k1, k2, c1, c0]
      · -- right border
        subst hl3
        have k1 : insKnot τ s l (l + 1) = s := by
          unfold insKnot; rw [if_neg (by omega), if_pos (by omega)]
        have k2 : insKnot τ s l (l + 1 + (p + 1)) = τ (l + (p + 1)) := by
          unfold insKnot
          rw [if_neg (by omega), if_neg (by omega), show l + 1 + (p + 1) - 1 = l + (p + 1) by omega]
        have c1 : insPts τ s l (p + 1) c (l + 1) = c l := by
          unfold insPts; rw [if_neg (by omega), if_neg (by omega)]; rfl
        have c0 : insPts τ s l (p + 1) c (l + 1 - 1) = step τ s (p + 1) c l := by
          unfold insPts; rw [if_neg (by omega), if_pos (by omega)]; rfl
        have r : insPts τ s l p (step τ t (p + 1) c) (l + 1) = step τ t (p + 1) c l := by
          unfold insPts; rw [if_neg (by omega), if_neg (by omega)]; rfl
        rw [k1, k2] at hd
        have n1 : τ (l + (p + 1)) - s ≠ 0 := by intro h; linarith
        have n2 : τ (l + (p + 1)) - τ l ≠ 0 := by intro h; linarith
        rw [r]
        unfold step alpha
        rw [k1, k2, c1, c0]
        unfold step alpha
        match_scalars <;> field_simp <;> ring
    · -- in the middle
      have k1 : insKnot τ s l i = τ i := by unfold insKnot; rw [if_pos (by omega)]
      have k2 : insKnot τ s l (i + (p + 1)) = τ (i + p) := by
        unfold insKnot
        split_ifs with a b
        · omega
        · omega
        · rfl
      have c1 : insPts τ s l (p + 1) c i = step τ s (p + 1) c i := by
        unfold insPts; rw [if_neg (by omega), if_pos (by omega)]
      have c0 : insPts τ s l (p + 1) c (i - 1) = step τ s (p + 1) c (i - 1) := by
        unfold insPts; rw [if_neg (by omega), if_pos (by omega)]
      have r : insPts τ s l p (step τ t (p + 1) c) i = step τ s p (step τ t (p + 1) c) i := by
        unfold insPts; rw [if_neg (by omega), if_pos (by omega)]
      rw [k1, k2] at hd
      have m1 : τ (i + p) ≤ τ (i + (p + 1)) := hτ (by omega)
      have m2 : τ (i - 1) ≤ τ i := hτ (by omega)
      rw [r]
      rw [← step_exchange τ s t p c i hi (by intro h; linarith) (by intro h; linarith)
        (by rw [show i - 1 + (p + 1) = i + p by omega]; intro h; linarith)]
      unfold step alpha
      rw [k1, k2, c1, c0]
      rfl

/-- de Boor's algorithm after Boehm's insertion gives what it gave before -/
theorem deB_ins {τ : Nat → K} (hτ : Monotone τ) {s : K} {l : Nat} (h1 : τ l ≤ s) (h2 : s ≤ τ (l + 1))
    (t : K) {p k : Nat} (hp : p ≤ k) (hk : insKnot τ s l k < insKnot τ s l (k + 1)) (c : Nat → M) :
    deB (insKnot τ s l) t p (insPts τ s l p c) k =
      if k ≤ l then deB τ t p c k else deB τ t p c (k - 1) := by
  induction p generalizing c with
  | zero =>
    simp only [deB, insPts, Nat.add_zero]
    split_ifs <;> rfl
  | succ p ih =>
    rw [deB, deB_congr (c' := insPts τ s l p (step τ t (p + 1) c)) _ _ (by omega), ih (by omega)]
    · rfl
    · intro i a b
      have hm := insKnot_mono hτ h1 h2
      exact step_ins hτ h1 h2 t p c i (by omega)
        (lt_of_le_of_lt (hm a) (lt_of_lt_of_le hk (hm (by omega))))

end
variable {K : Type} [Field K] {M : Type} [AddCommGroup M] [Module K M]

/-- at a knot of multiplicity at least `p`, seen from its right -/
theorem deB_left {τ : Nat → K} {t : K} {p k : Nat} (hp : p ≤ k) (hk : ∀ i, i ≤ k → k < i + p → τ i = t) (c : Nat → M) :
    deB τ t p c k = c (k - p) := by
  induction p generalizing c with
  | zero => rfl
  | succ p ih =>
    rw [deB, ih (by omega) (fun i h1 h2 => hk i h1 (by omega)), step, alpha, hk (k - p) (by omega) (by omega)]
    simp [show k - p - 1 = k - (p + 1) by omega]

/-- the same, seen from its left -/
theorem deB_right {τ : Nat → K} {t : K} {p k : Nat} (hp : p ≤ k) (hk : ∀ i, k < i → i ≤ k + p → τ i = t)
    (hden : ∀ i j, i ≤ k → k < j → τ j - τ i ≠ 0) (c : Nat → M) : deB τ t p c k = c k := by
  induction p generalizing c with
  | zero => rfl
  | succ p ih =>
    rw [deB, ih (by omega) (fun i h1 h2 => hk i h1 (by omega)), step, alpha, hk (k + (p + 1)) (by omega) (by omega)]
    have hd := hden k (k + (p + 1)) le_rfl (by omega)
    rw [hk (k + (p + 1)) (by omega) (by omega)] at hd
    simp [div_self hd]

end BSpline
end CAD
