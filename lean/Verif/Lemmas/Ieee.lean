import Verif.Model.Rounded
import Mathlib.Tactic.Linarith
import Mathlib.Tactic.NormNum
import Mathlib.Tactic.Positivity
import Mathlib.Tactic.FieldSimp

/-! Rounding to a binary floating point format: monotone, odd, exact on integers, error bound. -/

namespace CAD

theorem roundEven_near (y : ℝ) : |(roundEven y : ℝ) - y| ≤ 1 / 2 := by
  have a := Int.floor_add_fract y
  have b := Int.fract_nonneg y
  have c := Int.fract_lt_one y
  unfold roundEven
  split_ifs with h1 h2 h3 <;> rw [abs_le] <;> push_cast <;> constructor <;> linarith

theorem roundEven_int (k : ℤ) : roundEven (k : ℝ) = k := by
  unfold roundEven
  simp

theorem roundEven_mono : Monotone roundEven := by
  intro x y h
  by_contra hlt
  push Not at hlt
  have a := abs_le.1 (roundEven_near x)
  have b := abs_le.1 (roundEven_near y)
  have c : (roundEven y : ℝ) + 1 ≤ roundEven x := by exact_mod_cast hlt
  have : x = y := by linarith
  subst this
  exact lt_irrefl _ hlt

theorem roundEven_neg (y : ℝ) : roundEven (-y) = -roundEven y := by
  by_cases h0 : Int.fract y = 0
  · obtain ⟨k, rfl⟩ : ∃ k : ℤ, y = k := ⟨⌊y⌋, by have := Int.floor_add_fract y; linarith⟩
    have e : -(k : ℝ) = ((-k : ℤ) : ℝ) := by push_cast; rfl
    rw [e, roundEven_int, roundEven_int]
  · unfold roundEven
    have f1 : Int.fract (-y) = 1 - Int.fract y := Int.fract_neg h0
    have f2 : ⌊-y⌋ = -⌊y⌋ - 1 := by
      have a := Int.floor_add_fract (-y)
      have b := Int.floor_add_fract y
      have : (⌊-y⌋ : ℝ) = ((-⌊y⌋ - 1 : ℤ) : ℝ) := by push_cast; linarith
      exact_mod_cast this
    rw [f1, f2]
    have par : Even (-⌊y⌋ - 1) ↔ ¬ Even ⌊y⌋ := by
      rw [Int.even_sub_one, even_neg]
    split_ifs with h1 h2 h3 h4 h5 h6 h7 h8 <;> first | omega | (exfalso; linarith) | (exfalso; exact (par.1 ‹_›) ‹_›) | (exfalso; exact ‹¬ _› (par.2 ‹_›))

variable {p : ℕ} {emin : ℤ}

theorem ieee_zero : ieee p emin 0 = 0 := by
  unfold ieee
  have := roundEven_int 0
  simp only [Int.cast_zero] at this
  simp [this]

theorem ieee_neg (x : ℝ) : ieee p emin (-x) = -ieee p emin x := by
  unfold ieee
  simp only [abs_neg, neg_div, roundEven_neg]
  push_cast
  ring

/-- the error of one rounding -/
theorem ieee_err (x : ℝ) : |ieee p emin x - x| ≤ 2 ^ (-(p : ℤ)) * |x| + 2 ^ (emin - 1) := by
  by_cases hx : x = 0
  · subst hx
    rw [ieee_zero]; simp; positivity
  have hpos : 0 < |x| := abs_pos.2 hx
  have key : ∀ e : ℤ, (2 : ℝ) ^ (e - 1) ≤ 2 ^ (-(p : ℤ)) * |x| + 2 ^ (emin - 1) →
      |(roundEven (x / 2 ^ e) : ℝ) * 2 ^ e - x| ≤ 2 ^ (-(p : ℤ)) * |x| + 2 ^ (emin - 1) := by
    intro e he
    have h2 : (0 : ℝ) < 2 ^ e := by positivity
    have a := roundEven_near (x / 2 ^ e)
    have b : (roundEven (x / 2 ^ e) : ℝ) * 2 ^ e - x = ((roundEven (x / 2 ^ e) : ℝ) - x / 2 ^ e) * 2 ^ e := by
      field_simp
    rw [b, abs_mul, abs_of_pos h2]
    refine (mul_le_mul_of_nonneg_right a h2.le).trans (le_trans (le_of_eq ?_) he)
    rw [zpow_sub_one₀ (by norm_num)]; ring
  refine key _ ?_
  have hη : (0 : ℝ) < 2 ^ (emin - 1) := by positivity
  have hux : (0 : ℝ) < 2 ^ (-(p : ℤ)) * |x| := by positivity
  rcases le_total (Int.log 2 |x| - (p - 1)) emin with h | h
  · rw [max_eq_left h]
    linarith
  · rw [max_eq_right h]
    have c := Int.zpow_log_le_self (b := 2) (by norm_num) hpos
    have d : (2 : ℝ) ^ (Int.log 2 |x| - (p - 1) - 1) = 2 ^ (-(p : ℤ)) * 2 ^ Int.log 2 |x| := by
      rw [← zpow_add₀ (by norm_num)]; congr 1; ring
    rw [d]
    have := mul_le_mul_of_nonneg_left c (by positivity : (0 : ℝ) ≤ 2 ^ (-(p : ℤ)))
    push_cast at this
    linarith

theorem ieee_nonneg {x : ℝ} (h : 0 ≤ x) : 0 ≤ ieee p emin x := by
  unfold ieee
  have : (0 : ℤ) ≤ roundEven (x / 2 ^ max emin (Int.log 2 |x| - (p - 1))) := by
    have a := roundEven_mono (by positivity : 0 ≤ x / 2 ^ max emin (Int.log 2 |x| - (p - 1)))
    have b := roundEven_int 0
    simp only [Int.cast_zero] at b
    rwa [b] at a
  have : (0 : ℝ) ≤ roundEven (x / 2 ^ max emin (Int.log 2 |x| - (p - 1))) := by exact_mod_cast this
  positivity

theorem ieee_mono_nonneg (hp : 1 ≤ p) {x y : ℝ} (h0 : 0 ≤ x) (h : x ≤ y) : ieee p emin x ≤ ieee p emin y := by
  rcases h0.eq_or_lt with rfl | hx
  · rw [ieee_zero]; exact ieee_nonneg h
  have hy : 0 < y := hx.trans_le h
  have hlog : Int.log 2 x ≤ Int.log 2 y := Int.log_mono_right hx h
  unfold ieee
  simp only [abs_of_pos hx, abs_of_pos hy]
  set ex : ℤ := max emin (Int.log 2 x - (p - 1)) with hex
  set ey : ℤ := max emin (Int.log 2 y - (p - 1)) with hey
  have hle : ex ≤ ey := max_le_max le_rfl (by omega)
  rcases hle.eq_or_lt with e | hlt
  · rw [e]
    have h2 : (0 : ℝ) < 2 ^ ey := by positivity
    have : roundEven (x / 2 ^ ey) ≤ roundEven (y / 2 ^ ey) := roundEven_mono (div_le_div_of_nonneg_right h h2.le)
    have : (roundEven (x / 2 ^ ey) : ℝ) ≤ roundEven (y / 2 ^ ey) := by exact_mod_cast this
    exact mul_le_mul_of_nonneg_right this h2.le
  · have hey' : ey = Int.log 2 y - (p - 1) := by omega
    have hll : Int.log 2 x < Int.log 2 y := by omega
    have x1 : x ≤ 2 ^ Int.log 2 y := by
      have a := (Int.lt_zpow_succ_log_self (b := 2) (by norm_num) x).le
      refine a.trans ?_
      push_cast
      exact zpow_le_zpow_right₀ (by norm_num) (by omega)
    have y1 : (2 : ℝ) ^ Int.log 2 y ≤ y := by
      have := Int.zpow_log_le_self (b := 2) (by norm_num) hy
      exact_mod_cast this
    have pw : ∀ e : ℤ, e ≤ Int.log 2 y → (2 : ℝ) ^ Int.log 2 y / 2 ^ e = ((2 ^ (Int.log 2 y - e).toNat : ℤ) : ℝ) := by
      intro e he
      rw [← zpow_sub₀ (by norm_num)]
      push_cast
      rw [← zpow_natCast]
      congr 1
      omega
    have two : ∀ e : ℤ, (0 : ℝ) < 2 ^ e := fun e => by positivity
    have up : (roundEven (x / 2 ^ ex) : ℝ) * 2 ^ ex ≤ 2 ^ Int.log 2 y := by
      have a := roundEven_mono (div_le_div_of_nonneg_right x1 (two ex).le)
      rw [pw ex (by omega), roundEven_int] at a
      have b : (roundEven (x / 2 ^ ex) : ℝ) ≤ ((2 ^ (Int.log 2 y - ex).toNat : ℤ) : ℝ) := by exact_mod_cast a
      rw [← pw ex (by omega)] at b
      rwa [le_div_iff₀ (two ex)] at b
    have dn : (2 : ℝ) ^ Int.log 2 y ≤ (roundEven (y / 2 ^ ey) : ℝ) * 2 ^ ey := by
      have a := roundEven_mono (div_le_div_of_nonneg_right y1 (two ey).le)
      rw [pw ey (by omega), roundEven_int] at a
      have b : ((2 ^ (Int.log 2 y - ey).toNat : ℤ) : ℝ) ≤ (roundEven (y / 2 ^ ey) : ℝ) := by exact_mod_cast a
      rw [← pw ey (by omega)] at b
      rwa [div_le_iff₀ (two ey)] at b
    exact up.trans dn

/-- rounding is monotone -/
theorem ieee_mono (hp : 1 ≤ p) : Monotone (ieee p emin) := by
  intro x y h
  rcases le_total 0 x with hx | hx
  · exact ieee_mono_nonneg hp hx h
  · rcases le_total 0 y with hy | hy
    · have a := ieee_nonneg (p := p) (emin := emin) (by linarith : 0 ≤ -x)
      rw [ieee_neg] at a
      have b := ieee_nonneg (p := p) (emin := emin) hy
      linarith
    · have := ieee_mono_nonneg (p := p) (emin := emin) hp (by linarith : 0 ≤ -y) (by linarith : -y ≤ -x)
      rw [ieee_neg, ieee_neg] at this
      linarith

/-- integers below `2ᵖ` are not changed -/
theorem ieee_int (he : emin ≤ 0) {k : ℤ} (hk : |k| < 2 ^ p) : ieee p emin k = k := by
  by_cases h0 : k = 0
  · subst h0; simp [ieee_zero]
  have hpos : (0 : ℝ) < |(k : ℝ)| := abs_pos.2 (by exact_mod_cast h0)
  have hlog : Int.log 2 |(k : ℝ)| < p := by
    by_contra hc
    push Not at hc
    have a := Int.zpow_log_le_self (b := 2) (by norm_num) hpos
    have b : (2 : ℝ) ^ (p : ℤ) ≤ 2 ^ Int.log 2 |(k : ℝ)| := zpow_le_zpow_right₀ (by norm_num) hc
    have c : |(k : ℝ)| < 2 ^ p := by exact_mod_cast hk
    push_cast at a
    rw [zpow_natCast] at b
    linarith
  unfold ieee
  simp only
  set e : ℤ := max emin (Int.log 2 |(k : ℝ)| - (p - 1)) with hedef
  have he0 : e ≤ 0 := by omega
  have d : (k : ℝ) / 2 ^ e = ((k * 2 ^ (-e).toNat : ℤ) : ℝ) := by
    push_cast
    rw [div_eq_mul_inv, ← zpow_neg, ← zpow_natCast, Int.toNat_of_nonneg (by omega)]
  rw [d, roundEven_int, ← d]
  have : (2 : ℝ) ^ e ≠ 0 := by positivity
  field_simp

/-- the numbers of a binary floating point format with `p` significant bits and least exponent
`emin`, without the upper end of the range -/
def Representable (p : ℕ) (emin : ℤ) (y : ℝ) : Prop := ∃ m e : ℤ, |m| < 2 ^ p ∧ emin ≤ e ∧ y = m * 2 ^ e

/-- the result is a number of the format -/
theorem ieee_representable (hp : 1 ≤ p) (x : ℝ) : Representable p emin (ieee p emin x) := by
  by_cases hx : x = 0
  · subst hx
    exact ⟨0, emin, by simp, le_rfl, by rw [ieee_zero]; simp⟩
  have hpos : 0 < |x| := abs_pos.2 hx
  unfold ieee
  simp only
  set e : ℤ := max emin (Int.log 2 |x| - (p - 1)) with he
  have h2 : (0 : ℝ) < 2 ^ e := by positivity
  have hlt : |x / 2 ^ e| < 2 ^ p := by
    rw [abs_div, abs_of_pos h2, div_lt_iff₀ h2]
    refine lt_of_lt_of_le (by exact_mod_cast Int.lt_zpow_succ_log_self (b := 2) (by norm_num) |x|) ?_
    rw [← zpow_natCast, ← zpow_add₀ (by norm_num)]
    exact zpow_le_zpow_right₀ (by norm_num) (by omega)
  have hm : |roundEven (x / 2 ^ e)| ≤ 2 ^ p := by
    rw [abs_lt] at hlt
    rw [abs_le]
    have a := roundEven_mono (show (((-2 ^ p : ℤ)) : ℝ) ≤ x / 2 ^ e by push_cast; exact hlt.1.le)
    have b := roundEven_mono (show x / 2 ^ e ≤ ((2 ^ p : ℤ) : ℝ) by push_cast; exact hlt.2.le)
    rw [roundEven_int] at a b
    exact ⟨a, b⟩
  rcases hm.lt_or_eq with h | h
  · exact ⟨_, e, h, le_max_left _ _, rfl⟩
  · have half : (2 : ℝ) ^ p = 2 ^ (p - 1) * 2 := by rw [← pow_succ]; congr 1; omega
    have ex : (2 : ℝ) ^ (e + 1) = 2 ^ e * 2 := zpow_add_one₀ (by norm_num) e
    have small : |(2 : ℤ) ^ (p - 1)| < 2 ^ p := by
      rw [abs_of_pos (by positivity)]
      exact pow_lt_pow_right₀ (by norm_num) (by omega)
    rcases abs_cases (roundEven (x / 2 ^ e)) with ⟨a, -⟩ | ⟨a, -⟩
    · refine ⟨2 ^ (p - 1), e + 1, small, by have := le_max_left emin (Int.log 2 |x| - (p - 1)); omega, ?_⟩
      rw [← a, h, ex]
      push_cast
      rw [half]
      ring
    · refine ⟨-2 ^ (p - 1), e + 1, by rw [abs_neg]; exact small, by have := le_max_left emin (Int.log 2 |x| - (p - 1)); omega, ?_⟩
      have : roundEven (x / 2 ^ e) = -2 ^ p := by omega
      rw [this, ex]
      push_cast
      rw [half]
      ring

/-- no integer is nearer than the rounded one -/
theorem roundEven_nearest (y : ℝ) (k : ℤ) : |(roundEven y : ℝ) - y| ≤ |(k : ℝ) - y| := by
  by_cases h : k = roundEven y
  · rw [h]
  · have a := abs_le.1 (roundEven_near y)
    have b := roundEven_near y
    rcases lt_or_gt_of_ne h with hl | hl
    · have c : (k : ℝ) + 1 ≤ roundEven y := by exact_mod_cast hl
      refine b.trans ?_
      rw [abs_sub_comm]
      exact (by linarith : (1 : ℝ) / 2 ≤ y - k).trans (le_abs_self _)
    · have c : (roundEven y : ℝ) + 1 ≤ k := by exact_mod_cast hl
      exact b.trans ((by linarith : (1 : ℝ) / 2 ≤ k - y).trans (le_abs_self _))

/-- of two integers equally near the even one is taken -/
theorem roundEven_tie {y : ℝ} {k : ℤ} (hk : k ≠ roundEven y) (h : |(k : ℝ) - y| = |(roundEven y : ℝ) - y|) : Even (roundEven y) := by
  have hh : Int.fract y = 1 / 2 := by
    have a := Int.floor_add_fract y
    have b := roundEven_near y
    have n := Int.fract_nonneg y
    have n' := Int.fract_lt_one y
    have d : |(k : ℝ) - y| = 1 / 2 ∧ |(roundEven y : ℝ) - y| = 1 / 2 := by
      have c : (1 : ℝ) ≤ |(k : ℝ) - roundEven y| := by
        have : (1 : ℤ) ≤ |k - roundEven y| := Int.one_le_abs (sub_ne_zero.2 hk)
        exact_mod_cast this
      have t := abs_sub_le (k : ℝ) y (roundEven y)
      rw [abs_sub_comm y] at t
      constructor <;> linarith
    have e := d.2
    unfold roundEven at e
    split_ifs at e with h1 h2 h3
    · rw [show (⌊y⌋ : ℝ) - y = -Int.fract y by linarith, abs_neg, abs_of_nonneg n] at e
      exact e
    · push_cast at e
      rw [show (⌊y⌋ : ℝ) + 1 - y = 1 - Int.fract y by linarith, abs_of_nonneg (by linarith)] at e
      linarith
    · linarith
    · linarith
  unfold roundEven
  rw [hh]
  simp only [lt_irrefl, if_false]
  split
  · assumption
  · next h => exact Int.even_add_one.2 h

/-- **C112**, **C113** (the arithmetic): rounding gives the nearest number of the format -/
theorem ieee_nearest (x : ℝ) {y : ℝ} (hy : Representable p emin y) : |ieee p emin x - x| ≤ |y - x| := by
  by_cases hx : x = 0
  · subst hx
    rw [ieee_zero]
    simp
  have hpos : 0 < |x| := abs_pos.2 hx
  obtain ⟨m, f, hm, hf, rfl⟩ := hy
  unfold ieee
  simp only
  set e : ℤ := max emin (Int.log 2 |x| - (p - 1)) with he
  have h2 : (0 : ℝ) < 2 ^ e := by positivity
  have mult : ∀ k : ℤ, |(roundEven (x / 2 ^ e) : ℝ) * 2 ^ e - x| ≤ |(k : ℝ) * 2 ^ e - x| := by
    intro k
    have s : ∀ r : ℝ, |r * 2 ^ e - x| = |r - x / 2 ^ e| * 2 ^ e := by
      intro r
      rw [← abs_of_pos h2, ← abs_mul, abs_of_pos h2]
      congr 1
      field_simp
    rw [s, s]
    exact mul_le_mul_of_nonneg_right (roundEven_nearest _ _) h2.le
  by_cases hfe : e ≤ f
  · have : (m : ℝ) * 2 ^ f = ((m * 2 ^ (f - e).toNat : ℤ) : ℝ) * 2 ^ e := by
      push_cast
      rw [mul_assoc, ← zpow_natCast, ← zpow_add₀ (by norm_num)]
      congr 2
      omega
    rw [this]
    exact mult _
  · push Not at hfe
    have hee : e = Int.log 2 |x| - (p - 1) := by omega
    -- the power of two below `x` is at least as near
    have hP : ((2 : ℝ) ^ Int.log 2 |x|) ≤ |x| := by exact_mod_cast Int.zpow_log_le_self (b := 2) (by norm_num) hpos
    have hy : |(m : ℝ) * 2 ^ f| ≤ 2 ^ Int.log 2 |x| := by
      rw [abs_mul, abs_of_pos (by positivity : (0 : ℝ) < 2 ^ f)]
      have a : |(m : ℝ)| ≤ 2 ^ p := by
        have : |m| ≤ 2 ^ p := hm.le
        exact_mod_cast this
      refine (mul_le_mul_of_nonneg_right a (by positivity)).trans ?_
      rw [← zpow_natCast, ← zpow_add₀ (by norm_num)]
      exact zpow_le_zpow_right₀ (by norm_num) (by omega)
    have hp0 : 0 ≤ Int.log 2 |x| - e ∨ p = 0 := by omega
    rcases hp0 with hp0 | rfl
    · have pw : (2 : ℝ) ^ Int.log 2 |x| = ((2 ^ (Int.log 2 |x| - e).toNat : ℤ) : ℝ) * 2 ^ e := by
        push_cast
        rw [← zpow_natCast, ← zpow_add₀ (by norm_num)]
        congr 1
        omega
      rcases abs_cases x with ⟨a, b⟩ | ⟨a, b⟩
      · refine (mult (2 ^ (Int.log 2 |x| - e).toNat)).trans ?_
        rw [← pw, abs_sub_comm, abs_sub_comm _ x]
        rw [abs_of_nonneg (by linarith)]
        refine le_trans ?_ (le_abs_self _)
        have := (abs_le.1 hy).2
        linarith
      · refine (mult (-2 ^ (Int.log 2 |x| - e).toNat)).trans ?_
        have pw' : ((-2 ^ (Int.log 2 |x| - e).toNat : ℤ) : ℝ) * 2 ^ e = -(2 : ℝ) ^ Int.log 2 |x| := by
          rw [pw]; push_cast; ring
        rw [pw', abs_of_nonneg (by linarith)]
        refine le_trans ?_ (le_abs_self _)
        have := (abs_le.1 hy).1
        linarith
    · have : m = 0 := by
        rw [pow_zero] at hm
        exact Int.abs_lt_one_iff.1 hm
      subst this
      have := mult 0
      simpa using this

/-- a `float` near 1/10: the rounded value is at least as near as 13421773 / 2²⁷, which is a `float` -/
example : |single (1 / 10) - 1 / 10| ≤ |(13421773 : ℤ) * 2 ^ (-27 : ℤ) - (1 / 10 : ℝ)| :=
  ieee_nearest _ ⟨13421773, -27, by norm_num, by norm_num, rfl⟩

/-- a number of the format is not changed -/
theorem ieee_kept {y : ℝ} (hy : Representable p emin y) : ieee p emin y = y := by
  have := ieee_nearest y hy
  rw [sub_self, abs_zero] at this
  have := abs_nonpos_iff.1 this
  linarith

/-- the difference of two different numbers of the format does not round to zero -/
theorem ieee_sub_ne_zero (hp : 1 ≤ p) {x y : ℝ} (hx : Representable p emin x) (hy : Representable p emin y) (h : x ≠ y) :
    ieee p emin (x - y) ≠ 0 := by
  obtain ⟨m, e, -, he, rfl⟩ := hx
  obtain ⟨n, f, -, hf, rfl⟩ := hy
  have up : ∀ (m e : ℤ), emin ≤ e → (m : ℝ) * 2 ^ e = ((m * 2 ^ (e - emin).toNat : ℤ) : ℝ) * 2 ^ emin := by
    intro m e he
    push_cast
    rw [mul_assoc, ← zpow_natCast, ← zpow_add₀ (by norm_num), Int.toNat_of_nonneg (by omega)]
    congr 2
    omega
  rw [up m e he, up n f hf] at h ⊢
  set a := m * 2 ^ (e - emin).toNat
  set b := n * 2 ^ (f - emin).toNat
  have ab : a - b ≠ 0 := fun c => h (by rw [sub_eq_zero.1 c])
  have two : (0 : ℝ) < 2 ^ emin := by positivity
  have r1 : Representable p emin ((1 : ℤ) * 2 ^ emin) := ⟨1, emin, by rw [abs_one]; exact one_lt_pow₀ (by norm_num) (by omega), le_rfl, rfl⟩
  have r2 : Representable p emin ((-1 : ℤ) * 2 ^ emin) := ⟨-1, emin, by rw [abs_neg, abs_one]; exact one_lt_pow₀ (by norm_num) (by omega), le_rfl, rfl⟩
  intro z
  rw [← sub_mul] at z
  have n1 := ieee_nearest (((a : ℝ) - b) * 2 ^ emin) r1
  have n2 := ieee_nearest (((a : ℝ) - b) * 2 ^ emin) r2
  rw [z, ← sub_mul, abs_mul, abs_of_pos two, zero_sub, abs_neg, abs_mul, abs_of_pos two] at n1 n2
  have n1 := le_of_mul_le_mul_right n1 two
  have n2 := le_of_mul_le_mul_right n2 two
  have n1 : |a - b| ≤ |1 - (a - b)| := by exact_mod_cast n1
  have n2 : |a - b| ≤ |-1 - (a - b)| := by exact_mod_cast n2
  generalize a - b = d at *
  rcases lt_or_gt_of_ne ab with c | c
  · rw [abs_of_neg c] at n2
    rcases abs_cases (-1 - d) with ⟨k, _⟩ | ⟨k, _⟩ <;> omega
  · rw [abs_of_pos c] at n1
    rcases abs_cases (1 - d) with ⟨k, _⟩ | ⟨k, _⟩ <;> omega

example : Representable 53 (-1074) (double (1 / 10)) := ieee_representable (by norm_num) _

/-- 5/2 is half way between 2 and 3 -/
example : Even (roundEven (5 / 2)) := by
  have : ∃ k : ℤ, k ≠ roundEven (5 / 2) ∧ |(k : ℝ) - 5 / 2| = |(roundEven (5 / 2) : ℝ) - 5 / 2| := by
    have h : roundEven (5 / 2) = 2 := by
      have f : ⌊(5 / 2 : ℝ)⌋ = 2 := by rw [Int.floor_eq_iff]; norm_num
      have g : Int.fract (5 / 2 : ℝ) = 1 / 2 := by unfold Int.fract; rw [f]; norm_num
      unfold roundEven
      rw [g, f]
      norm_num
    rw [h]
    exact ⟨3, by norm_num, by norm_num⟩
  obtain ⟨k, hk, h⟩ := this
  exact roundEven_tie hk h

end CAD
