import Verif.Model.Float32
import Verif.Lemmas.Bytes
import Verif.Props.Stl
import Mathlib.Tactic.Ring
import Mathlib.Tactic.Linarith
import Mathlib.Tactic.FieldSimp
import Mathlib.Tactic.Positivity

/-! The `float` conversion of the STL files (C62): nearest, exact on `float` values. -/

namespace CAD.F32

theorem rne_near {q : ℚ} (hq : 0 ≤ q) : |(rne q : ℚ) - q| ≤ 1 / 2 := by
  have h1 := Nat.floor_le hq
  have h2 := Nat.lt_floor_add_one q
  unfold rne
  simp only
  split
  · rw [abs_le]; constructor <;> linarith
  · split
    · push_cast
      rw [abs_le]; constructor <;> linarith
    · split
      · rw [abs_le]; constructor <;> linarith
      · push_cast
        rw [abs_le]; constructor <;> linarith

theorem rne_nat (n : ℕ) : rne (n : ℚ) = n := by
  unfold rne
  simp

theorem le_rne {n : ℕ} {q : ℚ} (h : (n : ℚ) ≤ q) : n ≤ rne q := by
  have : n ≤ ⌊q⌋₊ := Nat.le_floor h
  unfold rne
  simp only
  split
  · exact this
  · split
    · omega
    · split <;> omega

theorem rne_le {n : ℕ} {q : ℚ} (hq : 0 ≤ q) (h : q < n + 1 / 2) : rne q ≤ n := by
  have h1 := (abs_le.1 (rne_near hq)).2
  have : (rne q : ℚ) < n + 1 := by linarith
  have : rne q < n + 1 := by exact_mod_cast this
  omega

theorem rne_lt {n : ℕ} {q : ℚ} (hq : 0 ≤ q) (h : q < n) : rne q ≤ n := rne_le hq (by linarith)

theorem two_zpow_pos (n : ℤ) : (0 : ℚ) < 2 ^ n := zpow_pos (by norm_num) n

theorem expo_lt {a : ℚ} : a < 2 ^ (expo a + 1) := by
  have h := Int.lt_zpow_succ_log_self (b := 2) (by norm_num) a
  refine lt_of_lt_of_le h ?_
  push_cast
  exact zpow_le_zpow_right₀ (by norm_num) (by unfold expo; omega)

theorem le_expo {a : ℚ} (ha : 0 < a) (h : expo a ≠ -126) : (2 : ℚ) ^ expo a ≤ a := by
  have h1 := Int.zpow_log_le_self (b := 2) (by norm_num) ha
  have : expo a = Int.log 2 a := by unfold expo at h ⊢; omega
  rw [this]
  exact_mod_cast h1

theorem expo_ge (a : ℚ) : -126 ≤ expo a := le_max_left _ _

theorem expo_eq {a : ℚ} {e : ℤ} (h1 : (2 : ℚ) ^ e ≤ a) (h2 : a < 2 ^ (e + 1)) (he : -126 ≤ e) : expo a = e := by
  have ha : 0 < a := lt_of_lt_of_le (two_zpow_pos e) h1
  have h3 : e ≤ Int.log 2 a := (Int.zpow_le_iff_le_log (b := 2) (by norm_num) ha).1 (by exact_mod_cast h1)
  have h4 : Int.log 2 a < e + 1 := (Int.lt_zpow_iff_log_lt (b := 2) (by norm_num) ha).1 (by exact_mod_cast h2)
  unfold expo
  omega

theorem expo_small {a : ℚ} (ha : 0 < a) (h2 : a < 2 ^ (-125 : ℤ)) : expo a = -126 := by
  have h4 : Int.log 2 a < -125 := (Int.lt_zpow_iff_log_lt (b := 2) (by norm_num) ha).1 (by exact_mod_cast h2)
  unfold expo
  omega

theorem scaled_lt (a : ℚ) : a * 2 ^ (23 - expo a) < 2 ^ 24 := by
  have h := expo_lt (a := a)
  have : (2 : ℚ) ^ (expo a + 1) * 2 ^ (23 - expo a) = 2 ^ 24 := by
    rw [← zpow_add₀ (by norm_num), show expo a + 1 + (23 - expo a) = ((24 : ℕ) : ℤ) by push_cast; ring, zpow_natCast]
  rw [← this]
  exact mul_lt_mul_of_pos_right h (two_zpow_pos _)

theorem le_scaled {a : ℚ} (ha : 0 < a) (h : expo a ≠ -126) : 2 ^ 23 ≤ a * 2 ^ (23 - expo a) := by
  have h := le_expo ha h
  have : (2 : ℚ) ^ expo a * 2 ^ (23 - expo a) = 2 ^ 23 := by
    rw [← zpow_add₀ (by norm_num), show expo a + (23 - expo a) = ((23 : ℕ) : ℤ) by push_cast; ring, zpow_natCast]
  rw [← this]
  exact mul_le_mul_of_nonneg_right h (two_zpow_pos _).le

theorem sig_le {a : ℚ} (ha : 0 < a) : rne (a * 2 ^ (23 - expo a)) ≤ 2 ^ 24 :=
  rne_lt (mul_nonneg ha.le (two_zpow_pos _).le) (by push_cast; exact scaled_lt a)

theorem le_sig {a : ℚ} (ha : 0 < a) (h : expo a ≠ -126) : 2 ^ 23 ≤ rne (a * 2 ^ (23 - expo a)) :=
  le_rne (by push_cast; exact le_scaled ha h)

/-- the value stored for a positive number is its significand times the last place -/
theorem magVal_magBits {a : ℚ} (ha : 0 < a) : magVal (magBits a) = rne (a * 2 ^ (23 - expo a)) * 2 ^ (expo a - 23) := by
  have hm := sig_le ha
  have hm' := le_sig ha
  have he := expo_ge a
  unfold magBits
  generalize rne (a * 2 ^ (23 - expo a)) = m at hm hm'
  obtain ⟨k, hk⟩ : ∃ k : ℕ, expo a = k - 126 := ⟨(expo a + 126).toNat, by omega⟩
  rw [hk] at hm' ⊢
  rw [show ((k : ℤ) - 126 + 126).toNat = k by omega]
  unfold magVal
  rcases lt_or_ge m (2 ^ 23) with h | h
  · have : k = 0 := by
      by_contra hk0
      have := hm' (by omega)
      omega
    subst this
    rw [if_pos (by rw [zero_mul, zero_add]; exact Nat.div_eq_of_lt h), zero_mul, zero_add, Nat.mod_eq_of_lt h]
    norm_num
  · rcases Nat.lt_or_ge m (2 ^ 24) with h' | h'
    · have h1 : (k * 2 ^ 23 + m) / 2 ^ 23 = k + 1 := by omega
      have h2 : (k * 2 ^ 23 + m) % 2 ^ 23 = m - 2 ^ 23 := by omega
      rw [h1, h2, if_neg (by omega), show 2 ^ 23 + (m - 2 ^ 23) = m by omega]
      congr 2
      push_cast
      ring
    · have : m = 2 ^ 24 := le_antisymm hm h'
      subst this
      have h1 : (k * 2 ^ 23 + 2 ^ 24) / 2 ^ 23 = k + 2 := by omega
      have h2 : (k * 2 ^ 23 + 2 ^ 24) % 2 ^ 23 = 0 := by omega
      rw [h1, h2, if_neg (by omega)]
      push_cast
      rw [show (k : ℤ) + 2 - 150 = (k - 126 - 23) + 1 by ring, zpow_add₀ (by norm_num) _ 1]
      norm_num
      ring

theorem magVal_near {a : ℚ} (ha : 0 < a) : |magVal (magBits a) - a| ≤ 2 ^ (expo a - 24) := by
  rw [magVal_magBits ha]
  have h := rne_near (q := a * 2 ^ (23 - expo a)) (mul_nonneg ha.le (two_zpow_pos _).le)
  have e1 : (2 : ℚ) ^ (23 - expo a) * 2 ^ (expo a - 23) = 1 := by
    rw [← zpow_add₀ (by norm_num)]
    simp
  have e2 : (rne (a * 2 ^ (23 - expo a)) : ℚ) * 2 ^ (expo a - 23) - a =
      ((rne (a * 2 ^ (23 - expo a)) : ℚ) - a * 2 ^ (23 - expo a)) * 2 ^ (expo a - 23) := by
    rw [sub_mul, mul_assoc a, e1, mul_one]
  rw [e2, abs_mul, abs_of_pos (two_zpow_pos (expo a - 23))]
  calc _ ≤ 1 / 2 * (2 : ℚ) ^ (expo a - 23) := mul_le_mul_of_nonneg_right h (two_zpow_pos _).le
    _ = 2 ^ (expo a - 24) := by
      rw [show expo a - 23 = (expo a - 24) + 1 by ring, zpow_add₀ (by norm_num) _ 1]
      norm_num
      ring

theorem magVal_exact {a : ℚ} (ha : 0 < a) {k : ℕ} {e : ℤ} (hk : k < 2 ^ 24) (he : -149 ≤ e) (h : a = k * 2 ^ e) :
    magVal (magBits a) = a := by
  have hke : 0 ≤ e + (23 - expo a) := by
    rcases eq_or_ne (expo a) (-126) with h1 | h1
    · rw [h1]; omega
    · have h2 := le_expo ha h1
      have h3 : a < 2 ^ (24 + e) := by
        rw [h, zpow_add₀ (by norm_num)]
        exact mul_lt_mul_of_pos_right (by exact_mod_cast hk) (two_zpow_pos e)
      have := (zpow_lt_zpow_iff_right₀ (by norm_num : (1 : ℚ) < 2)).1 (lt_of_le_of_lt h2 h3)
      omega
  have hi : a * 2 ^ (23 - expo a) = ((k * 2 ^ (e + (23 - expo a)).toNat : ℕ) : ℚ) := by
    rw [h, mul_assoc, ← zpow_add₀ (by norm_num)]
    push_cast
    rw [← zpow_natCast, Int.toNat_of_nonneg (by rw [← h]; exact hke)]
  rw [magVal_magBits ha, hi, rne_nat, ← hi, mul_assoc, ← zpow_add₀ (by norm_num)]
  simp

/-- the bits of the value of bits are the bits -/
theorem magBits_magVal {n : ℕ} (hn : 0 < n) : 0 < magVal n ∧ magBits (magVal n) = n := by
  unfold magVal
  have hmod := Nat.mod_lt n (show 0 < 2 ^ 23 by norm_num)
  have hdm := Nat.div_add_mod n (2 ^ 23)
  by_cases h : n / 2 ^ 23 = 0
  · rw [if_pos h]
    have hn' : n % 2 ^ 23 = n := by omega
    rw [hn'] at hmod ⊢
    have hpos : (0 : ℚ) < (n : ℚ) * 2 ^ (-149 : ℤ) := mul_pos (by exact_mod_cast hn) (two_zpow_pos _)
    refine ⟨hpos, ?_⟩
    have he : expo ((n : ℚ) * 2 ^ (-149 : ℤ)) = -126 := by
      refine expo_small hpos ?_
      calc (n : ℚ) * 2 ^ (-149 : ℤ) < 2 ^ 23 * 2 ^ (-149 : ℤ) := mul_lt_mul_of_pos_right (by exact_mod_cast hmod) (two_zpow_pos _)
        _ = 2 ^ (-126 : ℤ) := by norm_num
        _ ≤ _ := zpow_le_zpow_right₀ (by norm_num) (by norm_num)
    unfold magBits
    rw [he, mul_assoc, ← zpow_add₀ (by norm_num)]
    norm_num
    exact rne_nat n
  · rw [if_neg h]
    obtain ⟨k, hk⟩ : ∃ k, n / 2 ^ 23 = k + 1 := ⟨n / 2 ^ 23 - 1, by omega⟩
    rw [hk]
    generalize hf : n % 2 ^ 23 = f at *
    have hpos : (0 : ℚ) < ((2 ^ 23 + f : ℕ) : ℚ) := by positivity
    refine ⟨mul_pos hpos (two_zpow_pos _), ?_⟩
    have hexp : (((k + 1 : ℕ) : ℤ) - 150) = (k : ℤ) - 126 - 23 := by push_cast; ring
    rw [hexp]
    have he : expo (((2 ^ 23 + f : ℕ) : ℚ) * 2 ^ ((k : ℤ) - 126 - 23)) = k - 126 := by
      apply expo_eq
      · have : (2 : ℚ) ^ ((k : ℤ) - 126) = 2 ^ 23 * 2 ^ ((k : ℤ) - 126 - 23) := by
          rw [← zpow_natCast, ← zpow_add₀ (by norm_num)]
          congr 1
          push_cast
          ring
        rw [this]
        exact mul_le_mul_of_nonneg_right (by push_cast; linarith [(Nat.cast_nonneg f : (0 : ℚ) ≤ f)]) (two_zpow_pos _).le
      · have : (2 : ℚ) ^ ((k : ℤ) - 126 + 1) = 2 ^ 24 * 2 ^ ((k : ℤ) - 126 - 23) := by
          rw [← zpow_natCast, ← zpow_add₀ (by norm_num)]
          congr 1
          push_cast
          ring
        rw [this]
        exact mul_lt_mul_of_pos_right (by exact_mod_cast (by omega : 2 ^ 23 + f < 2 ^ 24)) (two_zpow_pos _)
      · omega
    unfold magBits
    rw [he, mul_assoc, ← zpow_add₀ (by norm_num), show (k : ℤ) - 126 - 23 + (23 - (k - 126)) = 0 by ring, zpow_zero, mul_one,
      rne_nat, show ((k : ℤ) - 126 + 126).toNat = k by omega]
    omega

/-! ### in terms of bytes -/

theorem length_enc (x : ℚ) : (enc x).length = 4 := length_leBytes _ _

theorem leNat_enc (x : ℚ) : leNat (enc x) =
    if x < 0 ∧ (if x = 0 then 0 else min infBits (magBits |x|)) ≠ 0 then 2 ^ 31 + (if x = 0 then 0 else min infBits (magBits |x|))
    else if x = 0 then 0 else min infBits (magBits |x|) := by
  unfold enc
  simp only
  rw [leNat_leBytes]
  have h1 : infBits < 2 ^ 31 := by decide
  have h2 : (if x = 0 then 0 else min infBits (magBits |x|)) ≤ infBits := by split <;> omega
  generalize (if x = 0 then 0 else min infBits (magBits |x|)) = n at h2
  split <;> omega

/-- the value of a stored number that does not overflow -/
theorem val_enc {x : ℚ} (hx : x ≠ 0) (h : magBits |x| < infBits) :
    val (enc x) = some (if x < 0 then - magVal (magBits |x|) else magVal (magBits |x|)) := by
  have h1 : infBits < 2 ^ 31 := by decide
  unfold val
  simp only [leNat_enc, if_neg hx, min_eq_right h.le]
  by_cases h0 : magBits |x| = 0
  · rw [h0]
    have : magVal 0 = 0 := by unfold magVal; norm_num
    simp [this, infBits]
  by_cases hs : x < 0
  · rw [if_pos (c := x < 0 ∧ _) ⟨hs, h0⟩, show (2 ^ 31 + magBits |x|) % 2 ^ 31 = magBits |x| by omega,
      show (2 ^ 31 + magBits |x|) / 2 ^ 31 = 1 by omega, if_pos h, if_pos rfl, if_pos hs]
  · rw [if_neg (c := x < 0 ∧ _) (fun hh => hs hh.1), show (magBits |x|) % 2 ^ 31 = magBits |x| by omega,
      show (magBits |x|) / 2 ^ 31 = 0 by omega, if_pos h, if_neg (by norm_num), if_neg hs]

theorem val_zero : val (enc 0) = some 0 := by
  unfold val
  simp only [leNat_enc]
  have : magVal 0 = 0 := by unfold magVal; norm_num
  simp [this, infBits]

/-- numbers below `2^128 - 2^103` do not overflow -/
theorem magBits_lt {a : ℚ} (ha : 0 < a) (h : a < 2 ^ 128 - 2 ^ 103) : magBits a < infBits := by
  have he : expo a ≤ 127 := by
    by_contra hc
    have h1 := le_expo ha (by omega)
    have h2 : (2 : ℚ) ^ (128 : ℤ) ≤ 2 ^ expo a := zpow_le_zpow_right₀ (by norm_num) (by omega)
    have h3 : (2 : ℚ) ^ (128 : ℤ) = 2 ^ 128 := by norm_num
    rw [h3] at h2
    have : (0 : ℚ) < 2 ^ 103 := by positivity
    linarith
  have hm := sig_le ha
  have hge := expo_ge a
  unfold magBits infBits
  rcases eq_or_lt_of_le he with h1 | h1
  · have : rne (a * 2 ^ (23 - expo a)) ≤ 2 ^ 24 - 1 := by
      apply rne_le (mul_nonneg ha.le (two_zpow_pos _).le)
      rw [h1]
      have : a * 2 ^ ((23 : ℤ) - 127) < (2 ^ 128 - 2 ^ 103) * 2 ^ ((23 : ℤ) - 127) := mul_lt_mul_of_pos_right h (two_zpow_pos _)
      refine lt_of_lt_of_le this ?_
      norm_num
    rw [h1] at this ⊢
    omega
  · have : (expo a + 126).toNat ≤ 252 := by omega
    omega

/-- C62.  The conversion to `float` and back is within half a unit in the last place: the
relative error is at most `2^-24`, the absolute error for tiny numbers at most `2^-150`. -/
theorem f32_near {x : ℚ} (h : |x| < 2 ^ 128 - 2 ^ 103) :
    |dec (enc x) - x| ≤ max (|x| * 2 ^ (-24 : ℤ)) (2 ^ (-150 : ℤ)) := by
  rcases eq_or_ne x 0 with rfl | hx
  · unfold dec
    rw [val_zero]
    simp
  have ha : 0 < |x| := abs_pos.2 hx
  have hn := magVal_near ha
  have hb : (2 : ℚ) ^ (expo |x| - 24) ≤ max (|x| * 2 ^ (-24 : ℤ)) (2 ^ (-150 : ℤ)) := by
    rcases eq_or_ne (expo |x|) (-126) with h1 | h1
    · rw [h1]
      exact le_max_of_le_right (by norm_num)
    · refine le_max_of_le_left ?_
      rw [sub_eq_add_neg, zpow_add₀ (by norm_num)]
      exact mul_le_mul_of_nonneg_right (le_expo ha h1) (two_zpow_pos _).le
  refine le_trans ?_ hb
  unfold dec
  rw [val_enc hx (magBits_lt ha h), Option.getD_some]
  by_cases hs : x < 0
  · rw [if_pos hs]
    rw [abs_of_neg hs] at hn ⊢
    rwa [show -magVal (magBits (-x)) - x = -(magVal (magBits (-x)) - -x) by ring, abs_neg]
  · rw [if_neg hs]
    rw [abs_of_nonneg (not_lt.1 hs)] at hn ⊢
    exact hn

/-- C62.  A number with at most 24 significant bits comes back exactly. -/
theorem f32_exact {x : ℚ} {k : ℤ} {e : ℤ} (hk : |k| < 2 ^ 24) (he : -149 ≤ e) (he' : e ≤ 104) (h : x = k * 2 ^ e) :
    dec (enc x) = x := by
  rcases eq_or_ne x 0 with rfl | hx
  · unfold dec
    rw [val_zero]
    rfl
  have ha : 0 < |x| := abs_pos.2 hx
  have hax : |x| = (k.natAbs : ℚ) * 2 ^ e := by
    rw [h, abs_mul, abs_of_pos (two_zpow_pos e)]
    congr 1
    rw [← Int.cast_abs, Int.abs_eq_natAbs]
    rfl
  have hk' : k.natAbs < 2 ^ 24 := by
    have := Int.abs_eq_natAbs k
    omega
  have hlt : |x| < 2 ^ 128 - 2 ^ 103 := by
    rw [hax]
    have h1 : (k.natAbs : ℚ) ≤ 2 ^ 24 - 1 := by
      have : k.natAbs ≤ 2 ^ 24 - 1 := by omega
      have : (k.natAbs : ℚ) ≤ ((2 ^ 24 - 1 : ℕ) : ℚ) := by exact_mod_cast this
      refine this.trans ?_
      norm_num
    have h2 : (2 : ℚ) ^ e ≤ 2 ^ (104 : ℤ) := zpow_le_zpow_right₀ (by norm_num) he'
    calc (k.natAbs : ℚ) * 2 ^ e ≤ (2 ^ 24 - 1) * 2 ^ (104 : ℤ) := mul_le_mul h1 h2 (two_zpow_pos e).le (by norm_num)
      _ < _ := by norm_num
  unfold dec
  rw [val_enc hx (magBits_lt ha hlt), Option.getD_some, magVal_exact ha hk' he hax]
  split
  · next hs => rw [abs_of_neg hs, neg_neg]
  · next hs => exact abs_of_nonneg (not_lt.1 hs)

/-- Converting again changes nothing (numbers that do not overflow). -/
theorem f32_again {x : ℚ} (h : |x| < 2 ^ 128 - 2 ^ 103) : enc (dec (enc x)) = enc x := by
  rcases eq_or_ne x 0 with rfl | hx
  · unfold dec
    rw [val_zero]
    rfl
  have ha : 0 < |x| := abs_pos.2 hx
  have hlt := magBits_lt ha h
  unfold dec
  rw [val_enc hx hlt, Option.getD_some]
  by_cases h0 : magBits |x| = 0
  · have hz : magVal 0 = 0 := by unfold magVal; norm_num
    rw [h0, hz]
    unfold enc
    simp [hx, h0]
  obtain ⟨hp, hb⟩ := magBits_magVal (Nat.pos_of_ne_zero h0)
  by_cases hs : x < 0
  · rw [if_pos hs]
    unfold enc
    simp only
    rw [if_neg hx, if_neg (show ¬ -magVal (magBits |x|) = 0 by intro hh; linarith), abs_neg, abs_of_pos hp, hb,
      if_pos (c := -magVal (magBits |x|) < 0 ∧ _) ⟨by linarith, by rw [min_eq_right hlt.le]; exact h0⟩,
      if_pos (c := x < 0 ∧ _) ⟨hs, by rw [min_eq_right hlt.le]; exact h0⟩]
  · rw [if_neg hs]
    unfold enc
    simp only
    rw [if_neg hx, if_neg (show ¬ magVal (magBits |x|) = 0 by intro hh; linarith), abs_of_pos hp, hb,
      if_neg (c := magVal (magBits |x|) < 0 ∧ _) (by rintro ⟨h1, -⟩; linarith), if_neg (c := x < 0 ∧ _) (fun hh => hs hh.1)]

/-- 1/10 is not a `float`; the stored number is 13421773 / 2^27 -/
example : enc (1 / 10) = [0xcd, 0xcc, 0xcc, 0x3d] := by decide +kernel
example : enc (-3 / 2) = [0, 0, 0xc0, 0xbf] := by decide +kernel
example : dec (enc (1 / 10)) = 13421773 / 134217728 := by decide +kernel
/-- ties to even -/
example : dec (enc 16777217) = 16777216 ∧ dec (enc 16777219) = 16777220 := by decide +kernel

end CAD.F32

namespace CAD.Stl

/-- C62 with IEEE single precision: every coordinate that comes back from an STL file is
within `2^-24` (relative) of the saved one. -/
theorem stl_float {m : Mesh ℚ} (hm : m.OK) (hn : 3 * m.triangles.length ≤ 2147483647)
    (hx : ∀ t ∈ m.triangles, ∀ x ∈ coords t, |x| < 2 ^ 128 - 2 ^ 103) :
    ∃ bytes, save F32.enc m = some bytes ∧ ∀ m0 : Mesh ℚ, ∃ m', load F32.dec (some bytes) m0 = some (true, m') ∧
      m'.OK ∧ m'.triangles.length = m.triangles.length ∧
      (∀ p ∈ m.triangles.zip m'.triangles, ∀ c ∈ (coords p.1).zip (coords p.2),
        |c.2 - c.1| ≤ max (|c.1| * 2 ^ (-24 : ℤ)) (2 ^ (-150 : ℤ))) ∧
      save F32.enc m' = some bytes := by
  obtain ⟨bytes, e, h⟩ := stl_roundtrip F32.length_enc F32.dec hm hn
  refine ⟨bytes, e, fun m0 => ?_⟩
  obtain ⟨m', e', hok, ht, -, -⟩ := h m0
  refine ⟨m', e', hok, by rw [ht, List.length_map], ?_, ?_⟩
  · rintro ⟨t, t'⟩ hp c hc
    rw [ht] at hp
    obtain ⟨i, hi, he⟩ := List.getElem_of_mem hp
    rw [List.getElem_zip] at he
    simp only [Prod.mk.injEq, List.getElem_map] at he
    have hi' : i < m.triangles.length := by
      rw [List.length_zip] at hi; omega
    obtain ⟨h1, h2⟩ := he
    have hmem : t ∈ m.triangles := h1 ▸ List.getElem_mem hi'
    rw [h1] at h2
    subst h2
    simp only at hc
    have hc' : ∃ x ∈ coords t, c = (x, F32.dec (F32.enc x)) := by
      have : coords (t.map (throughFile F32.enc F32.dec)) = (coords t).map fun x => F32.dec (F32.enc x) := rfl
      rw [this] at hc
      obtain ⟨j, hj, hje⟩ := List.getElem_of_mem hc
      rw [List.getElem_zip, List.getElem_map] at hje
      rw [List.length_zip] at hj
      exact ⟨_, List.getElem_mem (by omega), hje.symm⟩
    obtain ⟨x, hxm, rfl⟩ := hc'
    exact F32.f32_near (hx t hmem x hxm)
  · rw [← e, save_eq _ hok, save_eq _ hm, ht, List.length_map, List.flatMap_map]
    congr 2
    apply List.flatMap_congr
    intro t htm
    have hc := hx t htm
    simp only [coords, List.mem_cons, List.not_mem_nil, or_false, forall_eq_or_imp, forall_eq] at hc
    obtain ⟨h1, h2, h3, h4, h5, h6, h7, h8, h9⟩ := hc
    simp only [facet, coords, Tri3.map, throughFile, List.flatMap_cons, List.flatMap_nil, F32.f32_again h1, F32.f32_again h2,
      F32.f32_again h3, F32.f32_again h4, F32.f32_again h5, F32.f32_again h6, F32.f32_again h7, F32.f32_again h8, F32.f32_again h9]

end CAD.Stl
