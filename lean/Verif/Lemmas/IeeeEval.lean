import Verif.Lemmas.Ieee

/-! Evaluating roundings of concrete numbers: a certificate for one number (`ieee_eval`), and the
rounding of dyadic fractions as a computable function on natural numbers (`double_nat`). -/

namespace CAD

variable {p : ℕ} {emin : ℤ}

theorem roundEven_eval {y : ℝ} {k : ℤ} (h : |y - k| < 1 / 2) : roundEven y = k := by
  have a := roundEven_near y
  have b : |((roundEven y - k : ℤ) : ℝ)| < 1 := by
    push_cast
    have := abs_sub_le (roundEven y : ℝ) y k
    linarith
  have : |roundEven y - k| < 1 := by exact_mod_cast b
  rw [Int.abs_lt_one_iff] at this
  omega

/-- a certificate that `k 2ᵉ` is the number of the format nearest to `x` -/
theorem ieee_eval {x : ℝ} (k e : ℤ) (he : emin ≤ e) (h1 : 2 ^ (e + (p - 1)) ≤ |x|) (h2 : |x| < 2 ^ (e + p)) (h : |x / 2 ^ e - k| < 1 / 2) :
    ieee p emin x = k * 2 ^ e := by
  have pos : 0 < |x| := lt_of_lt_of_le (by positivity) h1
  have l1 : e + (p - 1) ≤ Int.log 2 |x| := by
    rw [← Int.zpow_le_iff_le_log (by norm_num) pos]
    exact_mod_cast h1
  have l2 : Int.log 2 |x| < e + p := by
    rw [← Int.lt_zpow_iff_log_lt (by norm_num) pos]
    exact_mod_cast h2
  have e1 : max emin (Int.log 2 |x| - (p - 1)) = e := by
    rw [show Int.log 2 |x| - (p - 1) = e by omega]
    exact max_eq_right he
  unfold ieee
  simp only [e1]
  rw [roundEven_eval h]

/-- rounding of a natural number to 53 significant bits, to nearest, ties to even -/
def rnd53 (m : ℕ) : ℕ :=
  let s := m.log2 - 52
  let q := m / 2 ^ s
  let r := m % 2 ^ s
  if 2 * r < 2 ^ s then q * 2 ^ s
  else if 2 ^ s < 2 * r then (q + 1) * 2 ^ s
  else if q % 2 = 0 then q * 2 ^ s else (q + 1) * 2 ^ s

/-- the integer nearest to a fraction with a power of two below -/
theorem roundEven_frac (m s : ℕ) : roundEven ((m : ℝ) / 2 ^ s) =
    ((if 2 * (m % 2 ^ s) < 2 ^ s then m / 2 ^ s else if 2 ^ s < 2 * (m % 2 ^ s) then m / 2 ^ s + 1
      else if (m / 2 ^ s) % 2 = 0 then m / 2 ^ s else m / 2 ^ s + 1 : ℕ) : ℤ) := by
  have pos : (0 : ℝ) < 2 ^ s := by positivity
  have dm : (m : ℝ) = 2 ^ s * (m / 2 ^ s : ℕ) + (m % 2 ^ s : ℕ) := by exact_mod_cast (Nat.div_add_mod m (2 ^ s)).symm
  have lt : ((m % 2 ^ s : ℕ) : ℝ) < 2 ^ s := by exact_mod_cast Nat.mod_lt m (by positivity)
  generalize m / 2 ^ s = q at *
  generalize m % 2 ^ s = r at *
  have fl : ⌊(m : ℝ) / 2 ^ s⌋ = (q : ℤ) := by
    rw [Int.floor_eq_iff]
    rw [le_div_iff₀ pos, div_lt_iff₀ pos]
    push_cast at *
    have : (0 : ℝ) ≤ (r : ℝ) := Nat.cast_nonneg _
    constructor <;> nlinarith
  have fr : Int.fract ((m : ℝ) / 2 ^ s) = (r : ℝ) / 2 ^ s := by
    rw [Int.fract, fl]
    field_simp
    push_cast
    linarith
  have c1 : (r : ℝ) / 2 ^ s < 1 / 2 ↔ 2 * r < 2 ^ s := by
    rw [div_lt_div_iff₀ pos (by norm_num)]
    rw [mul_comm, one_mul]
    exact_mod_cast Iff.rfl
  have c2 : 1 / 2 < (r : ℝ) / 2 ^ s ↔ 2 ^ s < 2 * r := by
    rw [div_lt_div_iff₀ (by norm_num) pos, one_mul, mul_comm]
    exact_mod_cast Iff.rfl
  have c3 : Even (q : ℤ) ↔ q % 2 = 0 := by
    rw [Int.even_coe_nat, Nat.even_iff]
  unfold roundEven
  rw [fr, fl]
  simp only [c1, c2, c3]
  split_ifs <;> simp

/-- rounding of a dyadic fraction to double -/
theorem double_nat (m : ℕ) {s : ℕ} (hs : s ≤ 1074) : double ((m : ℝ) / 2 ^ s) = (rnd53 m : ℝ) / 2 ^ s := by
  rcases Nat.lt_or_ge m (2 ^ 53) with h | h
  · have e : rnd53 m = m := by
      have : m.log2 - 52 = 0 := by
        rcases Nat.eq_zero_or_pos m with rfl | h0
        · rfl
        · have := (Nat.log2_lt h0.ne').2 h
          omega
      simp [rnd53, this, Nat.mod_one]
    rw [e]
    refine ieee_kept ⟨m, -s, by exact_mod_cast h, by omega, ?_⟩
    rw [zpow_neg, zpow_natCast, div_eq_mul_inv]
    push_cast
    rfl
  · have h0 : m ≠ 0 := by rintro rfl; simp at h
    have l1 : 2 ^ m.log2 ≤ m := Nat.log2_self_le h0
    have l2 : m < 2 ^ (m.log2 + 1) := Nat.lt_log2_self
    have l3 : 53 ≤ m.log2 := (Nat.le_log2 h0).2 h
    obtain ⟨a, ha⟩ : ∃ a, m.log2 = a + 52 := ⟨m.log2 - 52, by omega⟩
    have pos : (0 : ℝ) < (m : ℝ) / 2 ^ s := by positivity
    have z : ∀ n : ℕ, (2 : ℝ) ^ ((n : ℤ) - s) = 2 ^ n / 2 ^ s := fun n => by
      rw [zpow_sub₀ (by norm_num), zpow_natCast, zpow_natCast]
    have k1 : ((a + 52 : ℕ) : ℤ) - s ≤ Int.log 2 ((m : ℝ) / 2 ^ s) := by
      rw [← Int.zpow_le_iff_le_log (by norm_num) pos, Nat.cast_ofNat, z]
      gcongr
      rw [ha] at l1
      exact_mod_cast l1
    have k2 : Int.log 2 ((m : ℝ) / 2 ^ s) < ((a + 53 : ℕ) : ℤ) - s := by
      rw [← Int.lt_zpow_iff_log_lt (by norm_num) pos, Nat.cast_ofNat, z]
      gcongr
      rw [ha] at l2
      exact_mod_cast l2
    have e1 : max (-1074) (Int.log 2 |(m : ℝ) / 2 ^ s| - (((53 : ℕ) : ℤ) - 1)) = (a : ℤ) - s := by
      rw [abs_of_pos pos]
      omega
    unfold double ieee
    simp only [e1]
    have e2 : (m : ℝ) / 2 ^ s / 2 ^ ((a : ℤ) - s) = m / 2 ^ a := by
      rw [z]
      field_simp
    have e3 : m.log2 - 52 = a := by omega
    rw [e2, roundEven_frac, z, rnd53]
    simp only [e3]
    rw [← mul_div_assoc]
    congr 1
    generalize m / 2 ^ a = q
    split_ifs <;> push_cast <;> ring

/-- 1/20 = 0.05 as a double -/
example : double (1 / 20) = 3602879701896397 / 2 ^ 56 := by
  have := ieee_eval (p := 53) (emin := -1074) (x := 1 / 20) 7205759403792794 (-57) (by norm_num) (by norm_num [abs_of_pos])
    (by norm_num [abs_of_pos]) (by norm_num [abs_lt])
  rw [double, this]
  norm_num

/-- 2⁵³ + 1 is a tie and goes to the even neighbour -/
example : double (2 ^ 53 + 1) = 2 ^ 53 := by
  have := double_nat (2 ^ 53 + 1) (s := 0) (by norm_num)
  have e : rnd53 (2 ^ 53 + 1) = 2 ^ 53 := by decide +kernel
  rw [e] at this
  norm_num at this ⊢
  exact this

end CAD
