import Mathlib.Data.List.TakeWhile
import Verif.Model.Decimal
import Verif.Props.Float32
import Verif.Props.Obj

/-! Six digits: the coordinates in OBJ files (C64). -/

namespace CAD.Obj
set_option linter.unusedSimpArgs false

theorem foldl_digits (l : List Char) (a : Nat) :
    l.foldl (fun a ch => 10 * a + (ch.toNat - 48)) a = a * 10 ^ l.length + natOf l := by
  unfold natOf
  induction l generalizing a with
  | nil => simp
  | cons c l ih =>
    rw [List.foldl_cons, List.foldl_cons, ih, ih (10 * 0 + _), List.length_cons, pow_succ]
    ring

theorem natOf_append (l r : List Char) : natOf (l ++ r) = natOf l * 10 ^ r.length + natOf r := by
  conv_lhs => unfold natOf
  rw [List.foldl_append, foldl_digits]
  rfl

theorem natOf_zeros (k : Nat) : natOf (List.replicate k '0') = 0 := by
  induction k with
  | zero => rfl
  | succ k ih =>
    rw [List.replicate_succ', natOf_append, ih]
    rfl

theorem padDigits_length (k n : Nat) : (padDigits k n).length = k := by
  induction k generalizing n with
  | zero => rfl
  | succ k ih => simp [padDigits, ih]

theorem padDigits_digit (k n : Nat) : ∀ ch ∈ padDigits k n, isDigit ch = true := by
  induction k generalizing n with
  | zero => intro ch h; simp [padDigits] at h
  | succ k ih =>
    intro ch h
    unfold padDigits at h
    rcases List.mem_append.1 h with h | h
    · exact ih _ ch h
    · rw [List.mem_singleton] at h
      subst h
      have hd := digit_char (Nat.mod_lt n (by norm_num : 0 < 10))
      have := Nat.mod_lt n (by norm_num : 0 < 10)
      unfold isDigit
      rw [hd]
      simp
      omega

theorem natOf_padDigits (k n : Nat) (h : n < 10 ^ k) : natOf (padDigits k n) = n := by
  induction k generalizing n with
  | zero => simp at h; subst h; rfl
  | succ k ih =>
    unfold padDigits
    rw [natOf_append, ih _ (by rw [pow_succ] at h; omega)]
    have : natOf [Char.ofNat (48 + n % 10)] = n % 10 := by
      simp only [natOf, List.foldl_cons, List.foldl_nil, digit_char (Nat.mod_lt n (by norm_num : 0 < 10))]
      omega
    rw [this]
    simp only [List.length_cons, List.length_nil]
    omega

theorem natOf_showNat (n : Nat) : natOf (showNat n) = n := digitsOf_value (n + 1) n (by omega)

theorem strip_append (l : List Char) : ∃ k, l = strip l ++ List.replicate k '0' := by
  unfold strip
  have h := List.takeWhile_append_dropWhile (p := fun c : Char => decide (c = '0')) (l := l.reverse)
  refine ⟨(l.reverse.takeWhile (· = '0')).length, ?_⟩
  have hz : l.reverse.takeWhile (fun c : Char => decide (c = '0')) = List.replicate (l.reverse.takeWhile (fun c : Char => decide (c = '0'))).length '0' := by
    rw [List.eq_replicate_iff]
    refine ⟨rfl, fun b hb => ?_⟩
    have := List.mem_takeWhile_imp hb
    simpa using this
  conv_lhs => rw [← List.reverse_reverse l, ← h, List.reverse_append, hz, List.reverse_replicate]

theorem strip_mem {l : List Char} {ch : Char} (h : ch ∈ strip l) : ch ∈ l := by
  obtain ⟨k, hk⟩ := strip_append l
  rw [hk]
  exact List.mem_append_left _ h

/-- the value of digits around a point does not change when zeros at the end are dropped -/
theorem value_strip (i f : List Char) (e : Int) :
    (natOf (i ++ strip f) : ℚ) * 10 ^ (e - (strip f).length) = (natOf (i ++ f) : ℚ) * 10 ^ (e - f.length) := by
  obtain ⟨k, hk⟩ := strip_append f
  have h1 : f.length = (strip f).length + k := by
    conv_lhs => rw [hk]
    simp
  have h2 : natOf (i ++ f) = natOf (i ++ strip f) * 10 ^ k := by
    conv_lhs => rw [hk]
    rw [← List.append_assoc, natOf_append, natOf_zeros, List.length_replicate, add_zero]
  rw [h1, h2]
  push_cast
  rw [mul_assoc, ← zpow_natCast, ← zpow_add₀ (by norm_num)]
  congr 2
  ring

/-! ### reading what was written -/

/-- no digit at the start -/
def NoDigit (r : List Char) : Prop := ∀ x r', r = x :: r' → isDigit x = false

theorem Stop.noDigit {r : List Char} (h : Stop r) : NoDigit r := by
  rintro x r' rfl
  rcases h with h | ⟨r'', h⟩
  · simp at h
  · rw [List.cons.injEq] at h
    rw [h.1]; rfl

theorem Stop.head {r : List Char} (h : Stop r) {ch : Char} (hc : ch ≠ ' ') : r.head? ≠ some ch := by
  rcases h with rfl | ⟨r', rfl⟩
  · simp
  · simpa using hc.symm

theorem expDigits (n : Nat) : (if n < 10 then '0' :: showNat n else showNat n) ≠ [] ∧
    (∀ ch ∈ (if n < 10 then '0' :: showNat n else showNat n), isDigit ch = true) ∧
    natOf (if n < 10 then '0' :: showNat n else showNat n) = n := by
  have h1 := digitsOf_digit (n + 1) n
  split
  · refine ⟨by simp, ?_, ?_⟩
    · intro ch h
      rcases List.mem_cons.1 h with rfl | h
      · rfl
      · exact h1 ch h
    · rw [show '0' :: showNat n = ['0'] ++ showNat n from rfl, natOf_append, natOf_showNat]
      simp [natOf]
  · exact ⟨digitsOf_ne _ _, h1, natOf_showNat n⟩

theorem scanExp_text {e : Option Int} {r : List Char} (hr : Stop r) :
    scanExp (optExp e ++ r) = some (e.getD 0, r) := by
  cases e with
  | none =>
    show scanExp r = some (0, r)
    unfold scanExp
    rw [if_neg (by
      rintro (h | h)
      · exact hr.head (by decide) h
      · exact hr.head (by decide) h)]
  | some e =>
    obtain ⟨h1, h2, h3⟩ := expDigits e.natAbs
    show scanExp (['e', if e < 0 then '-' else '+'] ++ (if e.natAbs < 10 then '0' :: showNat e.natAbs else showNat e.natAbs) ++ r) = some (e, r)
    generalize (if e.natAbs < 10 then '0' :: showNat e.natAbs else showNat e.natAbs) = ds at h1 h2 h3
    obtain ⟨ht, hd⟩ := takeWhile_append_stop isDigit ds r h2 hr.noDigit
    unfold scanExp
    simp only [List.cons_append, List.nil_append, List.head?_cons, true_or, if_true, List.tail_cons]
    by_cases he : e < 0
    · simp only [if_pos he, List.head?_cons, true_or, if_true, List.tail_cons, ht, hd, if_neg h1, h3]
      simp only [Option.getD_some, Option.some.injEq, Prod.mk.injEq, and_true]
      omega
    · simp only [if_neg he, List.head?_cons, or_true, if_true, List.tail_cons, ht, hd, if_neg h1, h3]
      simp
      omega

theorem scanPos_text {i f : List Char} {e : Option Int} {r : List Char} (hi : i ≠ []) (hi' : ∀ ch ∈ i, isDigit ch = true)
    (hf : ∀ ch ∈ f, isDigit ch = true) (hr : Stop r) :
    scanPos (numText i f e ++ r) = some ((natOf (i ++ f) : ℚ) * 10 ^ (e.getD 0 - f.length), r) := by
  have he := scanExp_text (e := e) hr
  have hnd : NoDigit (optExp e ++ r) := by
    cases e with
    | none => exact hr.noDigit
    | some e =>
      intro x r' h
      simp only [optExp, expText, List.cons_append, List.nil_append, List.cons.injEq] at h
      rw [← h.1]
      rfl
  have hdot : (optExp e ++ r).head? ≠ some '.' := by
    cases e with
    | none => exact hr.head (by decide)
    | some e => simp [optExp, expText]
  unfold numText
  rw [List.append_assoc, List.append_assoc]
  generalize optExp e ++ r = r' at he hnd hdot
  unfold scanPos
  by_cases h0 : f = []
  · subst h0
    obtain ⟨ht, hd⟩ := takeWhile_append_stop isDigit i r' hi' hnd
    simp only [if_true, List.nil_append, ht, hd, if_neg hdot, List.append_nil, if_neg hi, he]
  · obtain ⟨ht, hd⟩ := takeWhile_append_stop isDigit i ('.' :: (f ++ r')) hi' (by
      intro x r'' h
      rw [List.cons.injEq] at h
      rw [← h.1]; rfl)
    obtain ⟨ht', hd'⟩ := takeWhile_append_stop isDigit f r' hf hnd
    simp only [if_neg h0, List.cons_append, ht, hd, List.head?_cons, if_true, List.tail_cons, ht', hd', he]
    rw [if_neg (by simp [hi])]

theorem sixDigits_spec {a : ℚ} (ha : 0 < a) :
    100000 ≤ (sixDigits a).1 ∧ (sixDigits a).1 < 1000000 ∧ |(sixDigits a).1 * (10 : ℚ) ^ ((sixDigits a).2 - 5) - a| ≤ a * (5 / 1000000) := by
  have h1 : (10 : ℚ) ^ Int.log 10 a ≤ a := by exact_mod_cast Int.zpow_log_le_self (b := 10) (by norm_num) ha
  have h2 : a < (10 : ℚ) ^ (Int.log 10 a + 1) := by exact_mod_cast Int.lt_zpow_succ_log_self (b := 10) (by norm_num) a
  unfold sixDigits
  simp only
  generalize Int.log 10 a = e at h1 h2
  have hp : ∀ n : ℤ, (0 : ℚ) < 10 ^ n := fun n => zpow_pos (by norm_num) n
  have e1 : (10 : ℚ) ^ e * 10 ^ (5 - e) = 100000 := by
    rw [← zpow_add₀ (by norm_num), show e + (5 - e) = 5 by ring]; norm_num
  have e2 : (10 : ℚ) ^ (e + 1) * 10 ^ (5 - e) = 1000000 := by
    rw [← zpow_add₀ (by norm_num), show e + 1 + (5 - e) = 6 by ring]; norm_num
  have e3 : (10 : ℚ) ^ (5 - e) * 10 ^ (e - 5) = 1 := by
    rw [← zpow_add₀ (by norm_num)]; simp
  have hs1 : 100000 ≤ a * (10 : ℚ) ^ (5 - e) := by rw [← e1]; exact mul_le_mul_of_nonneg_right h1 (hp _).le
  have hs2 : a * (10 : ℚ) ^ (5 - e) < 1000000 := by rw [← e2]; exact mul_lt_mul_of_pos_right h2 (hp _)
  have hq := F32.rne_near (q := a * (10 : ℚ) ^ (5 - e)) (by linarith)
  have hm1 : 100000 ≤ F32.rne (a * (10 : ℚ) ^ (5 - e)) := F32.le_rne (by exact_mod_cast hs1)
  have hm2 : F32.rne (a * (10 : ℚ) ^ (5 - e)) ≤ 1000000 := F32.rne_lt (by linarith) (by exact_mod_cast hs2)
  generalize F32.rne (a * (10 : ℚ) ^ (5 - e)) = m at hq hm1 hm2
  have hb : |(m : ℚ) * 10 ^ (e - 5) - a| ≤ a * (5 / 1000000) := by
    have : (m : ℚ) * 10 ^ (e - 5) - a = ((m : ℚ) - a * 10 ^ (5 - e)) * 10 ^ (e - 5) := by rw [sub_mul, mul_assoc a, e3, mul_one]
    rw [this, abs_mul, abs_of_pos (hp (e - 5))]
    calc _ ≤ 1 / 2 * (10 : ℚ) ^ (e - 5) := mul_le_mul_of_nonneg_right hq (hp _).le
      _ = (10 : ℚ) ^ e * (5 / 1000000) := by
        rw [zpow_sub₀ (by norm_num)]
        norm_num
        ring
      _ ≤ _ := mul_le_mul_of_nonneg_right h1 (by norm_num)
  split
  · next hmm =>
    refine ⟨by norm_num, by norm_num, ?_⟩
    rw [hmm] at hb
    have : ((100000 : ℕ) : ℚ) * 10 ^ (e + 1 - 5) = ((1000000 : ℕ) : ℚ) * 10 ^ (e - 5) := by
      rw [show e + 1 - 5 = (e - 5) + 1 by ring, zpow_add₀ (by norm_num) _ 1]
      push_cast
      ring
    simp only at this ⊢
    rw [this]
    exact hb
  · next hmm => exact ⟨hm1, lt_of_le_of_ne hm2 hmm, hb⟩

/-- the number that comes back -/
def roundG (x : ℚ) : ℚ :=
  if x = 0 then 0 else if x < 0 then -((sixDigits (-x)).1 * 10 ^ ((sixDigits (-x)).2 - 5)) else (sixDigits x).1 * 10 ^ ((sixDigits x).2 - 5)

theorem gText_spec {a : ℚ} (ha : 0 < a) :
    ∃ i f e, gText a = numText i f e ∧ i ≠ [] ∧ (∀ ch ∈ i, isDigit ch = true) ∧ (∀ ch ∈ f, isDigit ch = true) ∧
      (natOf (i ++ f) : ℚ) * 10 ^ (e.getD 0 - f.length) = (sixDigits a).1 * 10 ^ ((sixDigits a).2 - 5) := by
  obtain ⟨h1, h2, -⟩ := sixDigits_spec ha
  unfold gText
  generalize sixDigits a = q at h1 h2
  obtain ⟨m, e⟩ := q
  simp only at h1 h2 ⊢
  have hl := padDigits_length 6 m
  have hdig := padDigits_digit 6 m
  have hval := natOf_padDigits 6 m (by norm_num; exact h2)
  generalize padDigits 6 m = d at hl hdig hval
  split
  · refine ⟨_, _, _, rfl, ?_, ?_, ?_, ?_⟩
    · intro h
      have := congrArg List.length h
      rw [List.length_take, hl] at this
      simp at this
    · exact fun ch h => hdig ch (List.mem_of_mem_take h)
    · exact fun ch h => hdig ch (List.mem_of_mem_drop (strip_mem h))
    · rw [value_strip, List.take_append_drop, hval, List.length_drop, hl]
      simp
  · next hsci =>
    split
    · next he =>
      refine ⟨_, _, _, rfl, ?_, ?_, ?_, ?_⟩
      · intro h
        have := congrArg List.length h
        rw [List.length_take, hl] at this
        simp at this
      · exact fun ch h => hdig ch (List.mem_of_mem_take h)
      · exact fun ch h => hdig ch (List.mem_of_mem_drop (strip_mem h))
      · rw [value_strip, List.take_append_drop, hval, List.length_drop, hl]
        congr 2
        simp
        omega
    · next he =>
      refine ⟨_, _, _, rfl, by simp, by simp [isDigit], ?_, ?_⟩
      · intro ch h
        rcases List.mem_append.1 (strip_mem h) with h | h
        · rw [List.eq_of_mem_replicate h]; rfl
        · exact hdig ch h
      · rw [value_strip, List.length_append, hl, List.length_replicate]
        have : natOf (['0'] ++ (List.replicate (-e - 1).toNat '0' ++ d)) = m := by
          rw [natOf_append, natOf_append, natOf_zeros, hval]
          simp [natOf]
        rw [this]
        congr 2
        simp
        omega

theorem numText_token {i f : List Char} {e : Option Int} (hi : ∀ ch ∈ i, isDigit ch = true) (hf : ∀ ch ∈ f, isDigit ch = true) :
    ∀ ch ∈ numText i f e, isSpace ch = false := by
  intro ch h
  unfold numText at h
  rw [List.mem_append, List.mem_append] at h
  rcases h with (h | h) | h
  · exact isDigit_not_space (hi ch h)
  · split at h
    · simp at h
    · rcases List.mem_cons.1 h with rfl | h
      · rfl
      · exact isDigit_not_space (hf ch h)
  · cases e with
    | none => simp [optExp] at h
    | some e =>
      obtain ⟨h1, h2, h3⟩ := expDigits e.natAbs
      simp only [optExp, expText] at h
      rcases List.mem_append.1 h with h | h
      · simp only [List.mem_cons, List.not_mem_nil, or_false] at h
        rcases h with rfl | h
        · rfl
        · split at h <;> · subst h; rfl
      · exact isDigit_not_space (h2 ch h)

/-- The text form of a `double` is a token that reads as the number rounded to six digits. -/
theorem codecG_reads : codecG.Reads roundG := by
  have pos : ∀ a : ℚ, 0 < a → gText a ≠ [] ∧ (∀ ch ∈ gText a, isSpace ch = false) ∧
      (∃ c l, gText a = c :: l ∧ isDigit c = true) ∧
      ∀ r, Stop r → scanPos (gText a ++ r) = some ((sixDigits a).1 * (10 : ℚ) ^ ((sixDigits a).2 - 5), r) := by
    intro a ha
    obtain ⟨i, f, e, h1, h2, h3, h4, h5⟩ := gText_spec ha
    rw [h1]
    obtain ⟨c, l, rfl⟩ : ∃ c l, i = c :: l := by
      cases i with
      | nil => exact absurd rfl h2
      | cons c l => exact ⟨c, l, rfl⟩
    refine ⟨by simp [numText], numText_token h3 h4, ⟨c, _, rfl, h3 c (by simp)⟩, fun r hr => ?_⟩
    rw [scanPos_text h2 h3 h4 hr, h5]
  constructor
  · intro x
    simp only [codecG, showG]
    split
    · simp
    · next h0 =>
      split
      · simp
      · next h1 => exact (pos x (lt_of_le_of_ne (not_lt.1 h1) (Ne.symm h0))).1
  · intro x ch h
    simp only [codecG, showG] at h
    split at h
    · rw [List.mem_singleton] at h
      subst h; rfl
    · next h0 =>
      split at h
      · next h1 =>
        rcases List.mem_cons.1 h with rfl | h
        · rfl
        · exact (pos (-x) (by linarith)).2.1 ch h
      · next h1 => exact (pos x (lt_of_le_of_ne (not_lt.1 h1) (Ne.symm h0))).2.1 ch h
  · intro x r hr
    simp only [codecG, showG, roundG]
    by_cases h0 : x = 0
    · rw [if_pos h0, if_pos h0]
      unfold scanG
      have := scanPos_text (i := ['0']) (f := []) (e := none) (r := r) (by simp) (by simp [isDigit]) (by simp) hr
      rw [if_neg (by simp), if_neg (by simp)]
      simpa [numText, optExp, natOf] using this
    · rw [if_neg h0, if_neg h0]
      by_cases h1 : x < 0
      · rw [if_pos h1, if_pos h1]
        unfold scanG
        rw [if_pos (by simp), List.cons_append, List.tail_cons, (pos (-x) (by linarith)).2.2.2 r hr]
        rfl
      · rw [if_neg h1, if_neg h1]
        obtain ⟨-, -, ⟨c, l, hc, hd⟩, hs⟩ := pos x (lt_of_le_of_ne (not_lt.1 h1) (Ne.symm h0))
        unfold scanG
        have hh : ∀ ch, isDigit ch = false → (gText x ++ r).head? ≠ some ch := by
          intro ch hch
          rw [hc]
          simp only [List.cons_append, List.head?_cons, ne_eq, Option.some.injEq]
          rintro rfl
          rw [hd] at hch
          simp at hch
        rw [if_neg (hh '-' rfl), if_neg (hh '+' rfl), hs r hr]

/-- C64.  A coordinate that went through an OBJ file is off by at most 5 millionths of itself. -/
theorem roundG_near (x : ℚ) : |roundG x - x| ≤ |x| * (5 / 1000000) := by
  unfold roundG
  split
  · next h => subst h; simp
  · next h =>
    split
    · next h1 =>
      have := (sixDigits_spec (a := -x) (by linarith)).2.2
      rw [abs_of_neg h1]
      rwa [show ∀ y : ℚ, -y - x = -(y - -x) by intro y; ring, abs_neg]
    · next h1 =>
      have := (sixDigits_spec (a := x) (lt_of_le_of_ne (not_lt.1 h1) (Ne.symm h))).2.2
      rwa [abs_of_nonneg (not_lt.1 h1)]

theorem sixDigits_exact {a : ℚ} (ha : 0 < a) {k : ℕ} {j : ℤ} (hk : k < 1000000) (h : a = k * 10 ^ j) :
    (sixDigits a).1 * (10 : ℚ) ^ ((sixDigits a).2 - 5) = a := by
  have h1 : (10 : ℚ) ^ Int.log 10 a ≤ a := by exact_mod_cast Int.zpow_log_le_self (b := 10) (by norm_num) ha
  have h2 : a < (10 : ℚ) ^ (Int.log 10 a + 1) := by exact_mod_cast Int.lt_zpow_succ_log_self (b := 10) (by norm_num) a
  have hp : ∀ n : ℤ, (0 : ℚ) < 10 ^ n := fun n => zpow_pos (by norm_num) n
  unfold sixDigits
  simp only
  generalize Int.log 10 a = e at h1 h2
  have hle : 0 ≤ j + (5 - e) := by
    have : (10 : ℚ) ^ e < 10 ^ (6 + j) := by
      refine lt_of_le_of_lt h1 ?_
      rw [h, zpow_add₀ (by norm_num)]
      exact mul_lt_mul_of_pos_right (by norm_num; exact_mod_cast hk) (hp j)
    have := (zpow_lt_zpow_iff_right₀ (by norm_num : (1 : ℚ) < 10)).1 this
    omega
  have hi : a * (10 : ℚ) ^ (5 - e) = ((k * 10 ^ (j + (5 - e)).toNat : ℕ) : ℚ) := by
    rw [h, mul_assoc, ← zpow_add₀ (by norm_num)]
    push_cast
    rw [← zpow_natCast, Int.toNat_of_nonneg hle]
  have e2 : (10 : ℚ) ^ (e + 1) * 10 ^ (5 - e) = 1000000 := by
    rw [← zpow_add₀ (by norm_num), show e + 1 + (5 - e) = 6 by ring]; norm_num
  have e3 : (10 : ℚ) ^ (5 - e) * 10 ^ (e - 5) = 1 := by
    rw [← zpow_add₀ (by norm_num)]; simp
  have hs2 : a * (10 : ℚ) ^ (5 - e) < 1000000 := by rw [← e2]; exact mul_lt_mul_of_pos_right h2 (hp _)
  rw [hi] at hs2
  rw [hi, F32.rne_nat, if_neg]
  · simp only
    rw [← hi, mul_assoc, e3, mul_one]
  · intro hh
    rw [hh] at hs2
    norm_num at hs2

/-- C64.  A coordinate with at most six decimal digits comes back exactly. -/
theorem roundG_exact {x : ℚ} {k : ℤ} {j : ℤ} (hk : |k| < 1000000) (h : x = k * 10 ^ j) : roundG x = x := by
  have hp : (0 : ℚ) < 10 ^ j := zpow_pos (by norm_num) j
  unfold roundG
  split
  · next h0 => exact h0.symm
  · next h0 =>
    have hk0 : k ≠ 0 := by
      rintro rfl
      apply h0
      rw [h]
      simp
    split
    · next h1 =>
      have hk1 : k < 0 := by
        by_contra hc
        have : (0 : ℚ) ≤ k := by exact_mod_cast not_lt.1 hc
        rw [h] at h1
        nlinarith
      rw [abs_of_neg hk1] at hk
      rw [sixDigits_exact (a := -x) (by linarith) (k := (-k).toNat) (j := j) (by omega) ?_, neg_neg]
      rw [h]
      have : (((-k).toNat : ℕ) : ℚ) = -(k : ℚ) := by
        have : (((-k).toNat : ℕ) : ℤ) = -k := by omega
        exact_mod_cast this
      rw [this]
      ring
    · next h1 =>
      have hk1 : 0 < k := by
        rcases lt_or_gt_of_ne hk0 with hc | hc
        · exfalso
          have : (k : ℚ) < 0 := by exact_mod_cast hc
          rw [h] at h1
          nlinarith
        · exact hc
      rw [abs_of_pos hk1] at hk
      refine sixDigits_exact (lt_of_le_of_ne (not_lt.1 h1) (Ne.symm h0)) (k := k.toNat) (j := j) (by omega) ?_
      rw [h]
      have : ((k.toNat : ℕ) : ℚ) = (k : ℚ) := by
        have : ((k.toNat : ℕ) : ℤ) = k := by omega
        exact_mod_cast this
      rw [this]

/-- text of a colour channel -/
def colG (n : Int) : List Char := showG ((n : ℚ) / 255)

theorem colG_ok : ColorOK colG := by
  intro n ch h
  rintro rfl
  exact not_newline (codecG_reads.token _) h

/-- C64 with the real text form: what comes back from an OBJ file has the same vertex ids and
the linked triangles with the same corner ids; each coordinate is off by at most 5 millionths
of itself.  (`_partial`: the claim is equality, see `obj_six_digits`.) -/
theorem obj_text_roundtrip_partial {m : Mesh ℚ} (hm : m.OK) (hn : m.nbVertices ≤ 2147483647) :
    ∃ text, save codecG colG m = some text ∧ ∀ m0 : Mesh ℚ, ∃ m', load codecG (some text) m0 = some (true, m') ∧ m'.OK ∧
      m'.nbVertices = m.nbVertices ∧
      (∀ i p, m.getVertex i = some p → ∃ q, m'.getVertex i = some q ∧ |q.x - p.x| ≤ |p.x| * (5 / 1000000) ∧
        |q.y - p.y| ≤ |p.y| * (5 / 1000000) ∧ |q.z - p.z| ≤ |p.z| * (5 / 1000000)) ∧
      m'.cornerList = m.cornerList ∧ m'.nbTriangles = m.cornerList.length := by
  obtain ⟨text, e, h⟩ := obj_roundtrip codecG_reads colG_ok hm hn
  refine ⟨text, e, fun m0 => ?_⟩
  obtain ⟨m', e', hok, h1, h2, h3, h4⟩ := h m0
  refine ⟨m', e', hok, h1, fun i p hp => ⟨mapP roundG p, by rw [h2, hp]; rfl, ?_⟩, h3, h4⟩
  exact ⟨roundG_near _, roundG_near _, roundG_near _⟩

/-- C64.  When all coordinates have at most six digits the vertices come back exactly. -/
theorem obj_text_exact {m : Mesh ℚ} (hm : m.OK) (hn : m.nbVertices ≤ 2147483647)
    (hx : ∀ i p, m.getVertex i = some p → ∀ x ∈ [p.x, p.y, p.z], ∃ k j : ℤ, |k| < 1000000 ∧ x = k * 10 ^ j) :
    ∃ text, save codecG colG m = some text ∧ ∀ m0 : Mesh ℚ, ∃ m', load codecG (some text) m0 = some (true, m') ∧
      m'.nbVertices = m.nbVertices ∧ (∀ i, m'.getVertex i = m.getVertex i) ∧ m'.cornerList = m.cornerList := by
  obtain ⟨text, e, h⟩ := obj_roundtrip codecG_reads colG_ok hm hn
  refine ⟨text, e, fun m0 => ?_⟩
  obtain ⟨m', e', hok, h1, h2, h3, h4⟩ := h m0
  refine ⟨m', e', h1, fun i => ?_, h3⟩
  rw [h2]
  cases hp : m.getVertex i with
  | none => rfl
  | some p =>
    have := hx i p hp
    simp only [List.mem_cons, List.not_mem_nil, or_false, forall_eq_or_imp, forall_eq] at this
    obtain ⟨⟨k1, j1, a1, b1⟩, ⟨k2, j2, a2, b2⟩, ⟨k3, j3, a3, b3⟩⟩ := this
    simp only [Option.map_some, mapP, roundG_exact a1 b1, roundG_exact a2 b2, roundG_exact a3 b3]

example : String.ofList (showG (1 / 3)) = "0.333333" := by decide +kernel
example : String.ofList (showG (-1 / 80000)) = "-1.25e-05" := by decide +kernel
example : String.ofList (showG 1234567) = "1.23457e+06" := by decide +kernel
example : String.ofList (showG (1 / 2000)) = "0.0005" := by decide +kernel
example : String.ofList (showG 120) = "120" := by decide +kernel

/-- C64, the negation: coordinates with more digits are changed. -/
theorem obj_six_digits :
    (do
      let m := (Mesh.new.addVertex (⟨1234567, 1 / 3, 100001 / 100⟩ : P3 ℚ)).1
      let t ← save codecG colG m
      let (_, m') ← load codecG (some t) Mesh.new
      m'.getVertex 0 : Res (P3 ℚ)) = some ⟨1234570, 333333 / 1000000, 100001 / 100⟩ := by
  decide +kernel

end CAD.Obj
