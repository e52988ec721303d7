import Verif.Props.ObjText
import Verif.Props.Decimal

/-! C95: which words of an OBJ file are read as which numbers. -/

namespace CAD.Obj

/-- digits of a fraction with its point, or nothing -/
inductive FracTok : List Char → List Char → Prop
  | none : FracTok [] []
  | point {f : List Char} : (∀ ch ∈ f, isDigit ch = true) → FracTok ('.' :: f) f

/-- an exponent, or nothing -/
inductive ExpTok : List Char → Int → Prop
  | none : ExpTok [] 0
  | some {e : Char} {t : List Char} {i : Int} : e = 'e' ∨ e = 'E' → IntTok t i → ExpTok (e :: t) i

/-- a decimal number without sign: digits before or after the point, perhaps an exponent -/
inductive DecTok : List Char → ℚ → Prop
  | mk {i t f x : List Char} {e : Int} : (∀ ch ∈ i, isDigit ch = true) → FracTok t f → i ++ f ≠ [] → ExpTok x e →
      DecTok (i ++ (t ++ x)) ((decimal (i ++ f) : ℚ) * 10 ^ (e - f.length))

/-- a word that denotes a decimal number -/
inductive NumTok : List Char → ℚ → Prop
  | plain {t : List Char} {x : ℚ} : DecTok t x → NumTok t x
  | plus {t : List Char} {x : ℚ} : DecTok t x → NumTok ('+' :: t) x
  | minus {t : List Char} {x : ℚ} : DecTok t x → NumTok ('-' :: t) (-x)

theorem ExpTok.token {x : List Char} {e : Int} (h : ExpTok x e) : Token x := by
  cases h with
  | none => simp [Token]
  | some he ht =>
    intro ch hc
    rcases List.mem_cons.1 hc with rfl | hc
    · rcases he with rfl | rfl <;> rfl
    · exact ht.token ch hc

theorem DecTok.token {t : List Char} {x : ℚ} (h : DecTok t x) : Token t ∧ t ≠ [] ∧ t.head? ≠ some '-' ∧ t.head? ≠ some '+' := by
  obtain ⟨hi, hf, hn, he⟩ := h
  rename_i i t f y e
  refine ⟨?_, ?_, ?_⟩
  · intro ch hc
    rcases List.mem_append.1 hc with hc | hc
    · exact isDigit_not_space (hi ch hc)
    · rcases List.mem_append.1 hc with hc | hc
      · cases hf with
        | none => simp at hc
        | point hf =>
          rcases List.mem_cons.1 hc with rfl | hc
          · rfl
          · exact isDigit_not_space (hf ch hc)
      · exact he.token ch hc
  · cases i with
    | cons => simp
    | nil =>
      cases hf with
      | none => simp at hn
      | point => simp
  · cases i with
    | cons a l =>
      have := digit_not_sign (hi a (by simp))
      simp [this.1, this.2]
    | nil =>
      cases hf with
      | none => simp at hn
      | point => simp

theorem scanExp_tok {x r : List Char} {e : Int} (h : ExpTok x e) (hr : Sep r) : scanExp (x ++ r) = some (e, r) := by
  cases h with
  | none =>
    have : ∀ ch : Char, isSpace ch = false → r.head? ≠ some ch := by
      intro ch hc
      cases r with
      | nil => simp
      | cons a l =>
        have := hr a l rfl
        simp only [List.head?_cons, ne_eq, Option.some.injEq]
        rintro rfl
        rw [this] at hc; cases hc
    unfold scanExp
    rw [List.nil_append, if_neg]
    rintro (h | h)
    · exact this 'e' rfl h
    · exact this 'E' rfl h
  | some he ht =>
    rename_i c t
    have key : ∀ ds : List Char, Digits ds → (ds ++ r).takeWhile isDigit = ds ∧ (ds ++ r).dropWhile isDigit = r :=
      fun ds hd => takeWhile_append_stop isDigit ds r hd.2 (fun x r' e => space_not_digit (hr x r' e))
    unfold scanExp
    rw [if_pos (by rcases he with rfl | rfl <;> simp)]
    cases ht with
    | plain hd =>
      obtain ⟨e1, e2⟩ := key _ hd
      have hh : (t ++ r).head? ≠ some '-' ∧ (t ++ r).head? ≠ some '+' := by
        cases t with
        | nil => exact absurd rfl hd.1
        | cons a l =>
          have := digit_not_sign (hd.2 a (by simp))
          simp [this.1, this.2]
      simp only [List.cons_append, List.tail_cons, hh.1, hh.2, or_self, if_false, e1, e2, hd.1]
      rfl
    | plus hd =>
      obtain ⟨e1, e2⟩ := key _ hd
      simp only [List.cons_append, List.tail_cons, List.head?_cons, or_true, if_true, e1, e2, hd.1, if_false, Option.some.injEq,
        show ¬ ('+' = '-') by decide]
      rfl
    | minus hd =>
      obtain ⟨e1, e2⟩ := key _ hd
      simp only [List.cons_append, List.tail_cons, List.head?_cons, true_or, if_true, e1, e2, hd.1, if_false]
      rfl

theorem scanPos_tok {t r : List Char} {x : ℚ} (h : DecTok t x) (hr : Sep r) : scanPos (t ++ r) = some (x, r) := by
  obtain ⟨hi, hf, hn, he⟩ := h
  rename_i i t f y e
  have hx := scanExp_tok he hr
  have hy : ∀ ch r', y ++ r = ch :: r' → isDigit ch = false ∧ ch ≠ '.' := by
    intro ch r' h
    cases he with
    | none =>
      have := hr ch r' h
      refine ⟨space_not_digit this, ?_⟩
      rintro rfl
      exact absurd this (by decide)
    | some he ht =>
      rw [List.cons_append, List.cons.injEq] at h
      rw [← h.1]
      rcases he with rfl | rfl <;> decide
  unfold scanPos
  cases hf with
  | none =>
    obtain ⟨e1, e2⟩ := takeWhile_append_stop isDigit i (y ++ r) hi (fun a b h => (hy a b h).1)
    have hd : (y ++ r).head? ≠ some '.' := by
      cases hyr : y ++ r with
      | nil => simp
      | cons a l => simpa using (hy a l hyr).2
    rw [List.append_nil] at hn
    simp only [List.nil_append, List.append_assoc, e1, e2, if_neg hd, List.append_nil, if_neg hn, hx]
    rfl
  | point hf =>
    obtain ⟨e1, e2⟩ := takeWhile_append_stop isDigit i ('.' :: (f ++ (y ++ r))) hi (by
      intro a b h; rw [List.cons.injEq] at h; rw [← h.1]; rfl)
    obtain ⟨e3, e4⟩ := takeWhile_append_stop isDigit f (y ++ r) hf (fun a b h => (hy a b h).1)
    simp only [List.append_assoc, List.cons_append, e1, e2, List.head?_cons, if_true, List.tail_cons, e3, e4, if_neg hn, hx]
    rfl

/-- C95.  Words such as `12`, `-0.5`, `+.25`, `3.`, `1e-3` and `-2.5E+10` are read as the numbers they
denote; so the lines of `obj_load_foreign_partial` may contain any of them. -/
theorem realTok_decimal {t : List Char} {x : ℚ} (h : NumTok t x) : RealTok codecG t x := by
  have cons : ∀ {c : Char} {l : List Char}, isSpace c = false → Token l → Token (c :: l) := by
    intro c l hc hl ch h
    rcases List.mem_cons.1 h with rfl | h
    · exact hc
    · exact hl ch h
  cases h with
  | plain h =>
    obtain ⟨h1, h2, h3, h4⟩ := h.token
    refine ⟨h2, h1, fun r hr => ?_⟩
    have : ∀ ch, t.head? ≠ some ch → (t ++ r).head? ≠ some ch := by
      intro ch hc
      cases t with
      | nil => exact absurd rfl h2
      | cons a l => simpa using hc
    show scanG _ = _
    unfold scanG
    rw [if_neg (this _ h3), if_neg (this _ h4), scanPos_tok h hr]
  | plus h =>
    refine ⟨by simp, cons rfl h.token.1, fun r hr => ?_⟩
    simp only [codecG]
    unfold scanG
    rw [List.cons_append, if_neg (by simp), if_pos (by simp), List.tail_cons, scanPos_tok h hr]
  | minus h =>
    refine ⟨by simp, cons rfl h.token.1, fun r hr => ?_⟩
    simp only [codecG]
    unfold scanG
    rw [List.cons_append, if_pos (by simp), List.tail_cons, scanPos_tok h hr]
    rfl

/-- `-2.5E+10` and `+.25` -/
example : NumTok "-2.5E+10".toList (-25000000000) ∧ NumTok "+.25".toList (1 / 4) := by
  constructor
  · have h := NumTok.minus (DecTok.mk (i := ['2']) (t := ['.', '5']) (f := ['5']) (x := "E+10".toList) (e := 10) (by decide) (.point (by decide))
      (by simp) (.some (e := 'E') (t := "+10".toList) (.inr rfl) (IntTok.plus (ds := ['1', '0']) ⟨by simp, by decide⟩)))
    have e : -((decimal (['2'] ++ ['5']) : ℚ) * 10 ^ ((10 : ℤ) - (['5'] : List Char).length)) = -25000000000 := by
      rw [show decimal (['2'] ++ ['5']) = 25 by decide]; norm_num
    rw [e] at h
    exact h
  · have h := NumTok.plus (DecTok.mk (i := []) (t := ".25".toList) (f := ['2', '5']) (x := []) (e := 0) (by simp) (.point (by decide))
      (by simp) .none)
    have e : (decimal ([] ++ ['2', '5']) : ℚ) * 10 ^ ((0 : ℤ) - (['2', '5'] : List Char).length) = 1 / 4 := by
      rw [show decimal ([] ++ ['2', '5']) = 25 by decide]; norm_num
    rw [e] at h
    exact h

end CAD.Obj
