import Verif.Model.RenderRounded
import Verif.Lemmas.Ieee
import Verif.Props.RendererDepth

/-! **C113**: the renderer in floating point.  The theorems of `Props/Renderer` and
`Props/RendererDepth` compute with exact numbers; here every operation is rounded
(`Model/RenderRounded`) and still no assertion fails, nothing is written outside the buffers, a
triangle only touches pixels in the box of its corners, and depths stay between those of the
corners up to a rounding error. -/

namespace CAD.Render
set_option linter.unusedSectionVars false
set_option linter.unusedVariables false

/-- What is used of the two floating point formats: rounding is monotone, keeps `0` and `1`,
and is precise in the range that occurs (`u` relative for `double`, `v` relative for `float`,
`η` absolute near zero).  Nothing is said about larger numbers. -/
structure Arith.OK (A : Arith) (u v η : ℝ) : Prop where
  dmono : Monotone A.d
  fmono : Monotone A.f
  d0 : A.d 0 = 0
  d1 : A.d 1 = 1
  f0 : A.f 0 = 0
  f1 : A.f 1 = 1
  dnear : ∀ x, |x| ≤ 2 ^ 40 → |A.d x - x| ≤ u * |x| + η
  fnear : ∀ x, |x| ≤ 2 ^ 40 → |A.f x - x| ≤ v * |x| + η
  η0 : 0 ≤ η
  ηu : η ≤ u
  uv : u ≤ v
  usmall : u ≤ 1 / 2 ^ 40
  vsmall : v ≤ 1 / 2 ^ 10

/-- `x` is between `lo` and `hi`, up to `e` -/
def Btw (lo hi e x : ℝ) : Prop := lo - e ≤ x ∧ x ≤ hi + e

namespace Arith
variable {A : Arith} {u v η : ℝ}

theorem OK.u0 (h : A.OK u v η) : 0 ≤ u := h.η0.trans h.ηu
theorem OK.v0 (h : A.OK u v η) : 0 ≤ v := h.u0.trans h.uv

theorem OK.d01 (h : A.OK u v η) {t : ℝ} (h0 : 0 ≤ t) (h1 : t ≤ 1) : 0 ≤ A.d t ∧ A.d t ≤ 1 := by
  have a := h.dmono h0
  have b := h.dmono h1
  rw [h.d0] at a
  rw [h.d1] at b
  exact ⟨a, b⟩

theorem OK.f01 (h : A.OK u v η) {t : ℝ} (h0 : 0 ≤ t) (h1 : t ≤ 1) : 0 ≤ A.f t ∧ A.f t ≤ 1 := by
  have a := h.fmono h0
  have b := h.fmono h1
  rw [h.f0] at a
  rw [h.f1] at b
  exact ⟨a, b⟩

/-- rounding is monotone, so is interpolation -/
theorem OK.mix_le (h : A.OK u v η) {t a b c e : ℝ} (h0 : 0 ≤ t) (h1 : t ≤ 1) (hab : a ≤ b) (hce : c ≤ e) : A.mix t a c ≤ A.mix t b e := by
  unfold mix
  have s := (h.d01 (sub_nonneg.2 h1) (by linarith)).1
  exact h.dmono (add_le_add (h.dmono (mul_le_mul_of_nonneg_right hce h0)) (h.dmono (mul_le_mul_of_nonneg_left hab s)))

/-- the error of an interpolation between two numbers up to `M`; `t` itself may be off by `τ` -/
theorem OK.mix_near (h : A.OK u v η) {t t' a c M τ : ℝ} (h0 : 0 ≤ t') (h1 : t' ≤ 1) (ht : |t' - t| ≤ τ)
    (ha : |a| ≤ M) (hc : |c| ≤ M) (hM : M ≤ 2 ^ 38) :
    |A.mix t' a c - (c * t + (1 - t) * a)| ≤ 8 * (u * M + η) + 2 * τ * M := by
  have hM0 : 0 ≤ M := (abs_nonneg a).trans ha
  have hu := h.u0
  have hu1 := h.usmall
  have hη := h.η0
  have hηu := h.ηu
  have hη1 : η ≤ 1 / 2 ^ 40 := hηu.trans hu1
  have e1 : |1 - t'| ≤ 1 := abs_le.2 ⟨by linarith, by linarith⟩
  have p1 : |c * t'| ≤ M := by
    rw [abs_mul, abs_of_nonneg h0]
    exact (mul_le_mul hc h1 h0 hM0).trans (le_of_eq (mul_one M))
  have p := h.dnear (c * t') (p1.trans (by norm_num at hM ⊢; linarith))
  have s := h.dnear (1 - t') (e1.trans (by norm_num))
  obtain ⟨s0, s1⟩ := h.d01 (t := 1 - t') (by linarith) (by linarith)
  have q1 : |A.d (1 - t') * a| ≤ M := by
    rw [abs_mul, abs_of_nonneg s0]
    exact (mul_le_mul s1 ha (abs_nonneg _) zero_le_one).trans (le_of_eq (one_mul M))
  have q := h.dnear (A.d (1 - t') * a) (q1.trans (by norm_num at hM ⊢; linarith))
  have hp : |A.d (c * t') - c * t'| ≤ u * M + η := p.trans (by nlinarith)
  have hs : |A.d (1 - t') - (1 - t')| ≤ 2 * u := s.trans (by nlinarith)
  have hq : |A.d (A.d (1 - t') * a) - A.d (1 - t') * a| ≤ u * M + η := q.trans (by nlinarith)
  have hs2 : |(A.d (1 - t') - (1 - t')) * a| ≤ 2 * u * M := by
    rw [abs_mul]; exact mul_le_mul hs ha (abs_nonneg _) (by linarith)
  have uM : u * M ≤ 1 := by
    calc u * M ≤ 1 / 2 ^ 40 * 2 ^ 38 := mul_le_mul hu1 hM hM0 (by norm_num)
      _ ≤ 1 := by norm_num
  have uM0 : 0 ≤ u * M := mul_nonneg hu hM0
  set P := A.d (c * t')
  set S := A.d (1 - t')
  set Q := A.d (S * a)
  have hx : |P + Q - (c * t' + (1 - t') * a)| ≤ 4 * (u * M) + 2 * η := by
    rw [abs_le] at hp hq hs2 ⊢
    constructor <;> nlinarith
  have hbig : |c * t' + (1 - t') * a| ≤ M := by
    rw [abs_le] at ha hc ⊢
    constructor <;> nlinarith
  have hpq : |P + Q| ≤ M + 4 * (u * M) + 2 * η := by
    have := abs_add_le (P + Q - (c * t' + (1 - t') * a)) (c * t' + (1 - t') * a)
    rw [sub_add_cancel] at this
    linarith
  have r := h.dnear (P + Q) (hpq.trans (by norm_num at hM hη1 ⊢; linarith))
  have hr : |A.d (P + Q) - (P + Q)| ≤ 2 * (u * M) + 2 * η := by
    refine r.trans ?_
    have a1 := mul_le_mul_of_nonneg_left hpq hu
    have a2 : u * (M + 4 * (u * M) + 2 * η) = u * M + (4 * u) * (u * M) + (2 * u) * η := by ring
    have a3 : (4 * u) * (u * M) ≤ 1 / 2 * (u * M) := mul_le_mul_of_nonneg_right (by norm_num at hu1 ⊢; linarith) uM0
    have a4 : (2 * u) * η ≤ 1 / 2 * η := mul_le_mul_of_nonneg_right (by norm_num at hu1 ⊢; linarith) hη
    linarith
  have ht2 : |(t' - t) * (c - a)| ≤ 2 * τ * M := by
    rw [abs_mul]
    have : |c - a| ≤ 2 * M := by
      rw [abs_le] at ha hc ⊢; constructor <;> linarith
    have := mul_le_mul ht this (abs_nonneg _) ((abs_nonneg _).trans ht)
    linarith
  show |A.d (P + Q) - _| ≤ _
  rw [abs_le] at hr hx ht2 ⊢
  constructor <;> nlinarith

/-- the error that one interpolation adds to numbers up to `B` -/
noncomputable def step (u η B : ℝ) : ℝ := 16 * u * B + 8 * η

theorem OK.step_nonneg (h : A.OK u v η) {B : ℝ} (hB : 0 ≤ B) : 0 ≤ step u η B := by
  unfold step
  have := mul_nonneg h.u0 hB
  have := h.η0
  linarith

/-- interpolated numbers stay between the same bounds, up to a rounding error -/
theorem OK.mix_btw (h : A.OK u v η) {t a c lo hi e B : ℝ} (h0 : 0 ≤ t) (h1 : t ≤ 1) (ha : Btw lo hi e a) (hc : Btw lo hi e c)
    (hlo : |lo| ≤ B) (hhi : |hi| ≤ B) (he : 0 ≤ e) (heB : e ≤ B) (hB : B ≤ 2 ^ 37) : Btw lo hi (e + step u η B) (A.mix t a c) := by
  have key : ∀ x : ℝ, |x| ≤ 2 * B → |A.mix t x x - x| ≤ step u η B := by
    intro x hx
    have := h.mix_near (t := t) (τ := 0) h0 h1 (by simp) hx hx (by norm_num at hB ⊢; linarith)
    rw [show x * t + (1 - t) * x = x by ring] at this
    refine this.trans (le_of_eq ?_)
    unfold step; ring
  rw [abs_le] at hlo hhi
  have k1 := abs_le.1 (key (lo - e) (abs_le.2 ⟨by linarith, by linarith⟩))
  have k2 := abs_le.1 (key (hi + e) (abs_le.2 ⟨by linarith, by linarith⟩))
  have m1 := h.mix_le h0 h1 ha.1 hc.1
  have m2 := h.mix_le h0 h1 ha.2 hc.2
  exact ⟨by linarith, by linarith⟩

/-- `(int)(x + 0.5)` for `x` between integers, up to little -/
theorem OK.round_btw (h : A.OK u v η) {m M : Int} {x : ℝ} (hm : -big ≤ m) (hM : M ≤ big) (hx : Btw m M (1 / 8) x) (hmM : m ≤ M) :
    toInt (A.d (x + 1 / 2)) = some (trunc (A.d (x + 1 / 2))) ∧ m ≤ trunc (A.d (x + 1 / 2)) ∧ trunc (A.d (x + 1 / 2)) ≤ max M 0 := by
  have hbig := big_eq
  have c1 : (-536870912 : ℝ) ≤ m := by exact_mod_cast (by omega : (-536870912 : Int) ≤ m)
  have c2 : (M : ℝ) ≤ 536870912 := by exact_mod_cast (by omega : M ≤ (536870912 : Int))
  have c3 : (m : ℝ) ≤ M := by exact_mod_cast hmM
  obtain ⟨x1, x2⟩ := hx
  have hy : |x + 1 / 2| ≤ 536870913 := abs_le.2 ⟨by linarith, by linarith⟩
  have e := h.dnear (x + 1 / 2) (hy.trans (by norm_num))
  have hu1 := h.usmall
  have e2 : u * |x + 1 / 2| + η ≤ 1 / 8 := by
    have := mul_le_mul hu1 hy (abs_nonneg _) (by norm_num)
    have := h.ηu
    norm_num at *
    linarith
  have e3 := abs_le.1 (e.trans e2)
  have low : m ≤ trunc (A.d (x + 1 / 2)) := by
    have := trunc_mono (show (m : ℝ) ≤ A.d (x + 1 / 2) by linarith)
    rwa [trunc_intCast] at this
  have high : trunc (A.d (x + 1 / 2)) ≤ max M 0 := by
    have hlt : A.d (x + 1 / 2) < M + 1 := by linarith
    unfold trunc
    split
    · have : ⌊A.d (x + 1 / 2)⌋ < M + 1 := Int.floor_lt.2 (by push_cast; exact hlt)
      omega
    · next h0 =>
      have : ⌈A.d (x + 1 / 2)⌉ ≤ 0 := Int.ceil_le.2 (by push_cast; linarith)
      omega
  exact ⟨toInt_some (by omega) (by omega), low, high⟩

/-- `(int)(x + 0.5)` for `x` near an integer -/
theorem OK.round_near (h : A.OK u v η) {k : Int} {x : ℝ} (hk : -big ≤ k) (hk' : k ≤ big) (hx : |x - k| ≤ 1 / 8) :
    toInt (A.d (x + 1 / 2)) = some (if 0 ≤ k then k else k + 1) := by
  have hbig := big_eq
  have c1 : (-536870912 : ℝ) ≤ k := by exact_mod_cast (by omega : (-536870912 : Int) ≤ k)
  have c2 : (k : ℝ) ≤ 536870912 := by exact_mod_cast (by omega : k ≤ (536870912 : Int))
  rw [abs_le] at hx
  have hy : |x + 1 / 2| ≤ 536870913 := abs_le.2 ⟨by linarith, by linarith⟩
  have e := h.dnear (x + 1 / 2) (hy.trans (by norm_num))
  have hu1 := h.usmall
  have e2 : u * |x + 1 / 2| + η ≤ 1 / 8 := by
    have := mul_le_mul hu1 hy (abs_nonneg _) (by norm_num)
    have := h.ηu
    norm_num at *
    linarith
  have e3 := abs_le.1 (e.trans e2)
  have ht : trunc (A.d (x + 1 / 2)) = if 0 ≤ k then k else k + 1 := by
    unfold trunc
    by_cases hk0 : 0 ≤ k
    · have : (0 : ℝ) ≤ k := by exact_mod_cast hk0
      rw [if_pos (by linarith), if_pos hk0, Int.floor_eq_iff]
      constructor <;> linarith
    · have : (k : ℝ) ≤ -1 := by exact_mod_cast (by omega : k ≤ -1)
      rw [if_neg (by linarith), if_neg hk0, Int.ceil_eq_iff]
      push_cast
      constructor <;> linarith
  rw [toInt_some (by rw [ht]; split <;> omega) (by rw [ht]; split <;> omega), ht]

/-! ### Spans -/

theorem div01 {n d : Int} (hn : 0 ≤ n) (hd : 0 < d) (h : n ≤ d) : (0 : ℝ) ≤ (n : ℝ) / d ∧ (n : ℝ) / d ≤ 1 := by
  have e1 : (0 : ℝ) ≤ n := by exact_mod_cast hn
  have e2 : (0 : ℝ) < d := by exact_mod_cast hd
  have e3 : (n : ℝ) ≤ d := by exact_mod_cast h
  exact ⟨div_nonneg e1 e2.le, (div_le_one e2).2 e3⟩

/-- a quotient of `int`s in `float` -/
theorem OK.fdiv01 (h : A.OK u v η) {n d : Int} (hn : 0 ≤ n) (hd : 0 < d) (hnd : n ≤ d) :
    0 < A.f d ∧ 0 ≤ A.f (A.f n / A.f d) ∧ A.f (A.f n / A.f d) ≤ 1 := by
  have e1 : (0 : ℝ) ≤ n := by exact_mod_cast hn
  have e2 : (1 : ℝ) ≤ d := by exact_mod_cast hd
  have e3 : (n : ℝ) ≤ d := by exact_mod_cast hnd
  have a := h.fmono e1
  have b := h.fmono e2
  have c := h.fmono e3
  rw [h.f0] at a
  rw [h.f1] at b
  have hp : 0 < A.f d := by linarith
  exact ⟨hp, h.f01 (div_nonneg a hp.le) ((div_le_one hp).2 c)⟩

theorem OK.cutLeft_some (h : A.OK u v η) {ax bx : Int} (aw bw : ℝ) (hab : ax ≤ bx) (hb : 0 ≤ bx) (ha : -big ≤ ax) (hb' : bx ≤ big) :
    ∃ lw, A.cutLeft ax aw bx bw = some (max ax 0, lw) ∧ (lw = aw ∨ ∃ t, 0 ≤ t ∧ t ≤ 1 ∧ lw = A.mix t aw bw) := by
  have hbig := big_eq
  unfold cutLeft
  by_cases h0 : ax < 0
  · rw [if_pos h0, int32_bind (by omega) (by omega)]
    obtain ⟨q1, q2⟩ := div01 hb (by omega : 0 < bx - ax) (by omega)
    obtain ⟨t0, t1⟩ := h.d01 q1 q2
    simp only
    rw [assert_true ⟨t0, t1⟩]
    refine ⟨_, ?_, Or.inr ⟨_, t0, t1, rfl⟩⟩
    rw [max_eq_right (by omega)]
    rfl
  · rw [if_neg h0]
    exact ⟨aw, by rw [max_eq_left (by omega)], Or.inl rfl⟩

theorem OK.cutRight_some (h : A.OK u v η) {W ax bx : Int} (aw bw : ℝ) (hW : 0 < W) (hab : ax ≤ bx) (h0 : 0 ≤ ax) (hw : ax < W) (hb' : bx ≤ big) :
    ∃ rw', A.cutRight W ax aw bx bw = some (min bx (W - 1), rw') ∧ (rw' = bw ∨ ∃ t, 0 ≤ t ∧ t ≤ 1 ∧ rw' = A.mix t bw aw) := by
  have hbig := big_eq
  unfold cutRight
  by_cases hc : W ≤ bx
  · rw [if_pos hc, int32_bind (by omega) (by omega), int32_bind (by omega) (by omega)]
    obtain ⟨fp, t0, t1⟩ := h.fdiv01 (n := bx - (W - 1)) (d := bx - ax) (by omega) (by omega) (by omega)
    simp only
    rw [assert_true (ne_of_gt fp), assert_true ⟨t0, t1⟩]
    refine ⟨_, ?_, Or.inr ⟨_, t0, t1, rfl⟩⟩
    rw [min_eq_right (by omega)]
    rfl
  · rw [if_neg hc]
    exact ⟨bw, by rw [min_eq_left (by omega)], Or.inl rfl⟩

/-- the depth of a pixel, 307 -/
noncomputable def depth (A : Arith) (t aw bw : ℝ) : ℝ := A.f (A.d (A.d (bw * t) + A.d (aw * A.f (1 - t))))

/-- the error of `depth` -/
noncomputable def last (v η B : ℝ) : ℝ := 32 * v * B + 16 * η

theorem OK.depth_le (h : A.OK u v η) {t a b c e : ℝ} (h0 : 0 ≤ t) (h1 : t ≤ 1) (hab : a ≤ b) (hce : c ≤ e) : A.depth t a c ≤ A.depth t b e := by
  unfold depth
  have s := (h.f01 (sub_nonneg.2 h1) (by linarith)).1
  exact h.fmono (h.dmono (add_le_add (h.dmono (mul_le_mul_of_nonneg_right hce h0)) (h.dmono (mul_le_mul_of_nonneg_right hab s))))

theorem OK.depth_self (h : A.OK u v η) {t x M : ℝ} (h0 : 0 ≤ t) (h1 : t ≤ 1) (hx : |x| ≤ M) (hM : M ≤ 2 ^ 38) :
    |A.depth t x x - x| ≤ 16 * v * M + 16 * η := by
  have hM0 : 0 ≤ M := (abs_nonneg x).trans hx
  have hu := h.u0
  have hv := h.v0
  have hu1 := h.usmall
  have hv1 := h.vsmall
  have hη := h.η0
  have hηu := h.ηu
  have huv := h.uv
  have hη1 : η ≤ 1 / 2 ^ 40 := hηu.trans hu1
  have vM0 : 0 ≤ v * M := mul_nonneg hv hM0
  have uvM : u * M ≤ v * M := mul_le_mul_of_nonneg_right huv hM0
  have vM : v * M ≤ 1 / 2 ^ 10 * M := mul_le_mul_of_nonneg_right hv1 hM0
  have p1 : |x * t| ≤ M := by
    rw [abs_mul, abs_of_nonneg h0]
    exact (mul_le_mul hx h1 h0 hM0).trans (le_of_eq (mul_one M))
  have hp : |A.d (x * t) - x * t| ≤ v * M + η := (h.dnear (x * t) (p1.trans (by norm_num at hM ⊢; linarith))).trans (by nlinarith)
  have e1 : |1 - t| ≤ 1 := abs_le.2 ⟨by linarith, by linarith⟩
  have hs : |A.f (1 - t) - (1 - t)| ≤ 2 * v := (h.fnear (1 - t) (e1.trans (by norm_num))).trans (by nlinarith)
  obtain ⟨s0, s1⟩ := h.f01 (t := 1 - t) (by linarith) (by linarith)
  have q1 : |x * A.f (1 - t)| ≤ M := by
    rw [abs_mul, abs_of_nonneg s0]
    exact (mul_le_mul hx s1 s0 hM0).trans (le_of_eq (mul_one M))
  have hq : |A.d (x * A.f (1 - t)) - x * A.f (1 - t)| ≤ v * M + η :=
    (h.dnear _ (q1.trans (by norm_num at hM ⊢; linarith))).trans (by nlinarith)
  have hs2 : |x * (A.f (1 - t) - (1 - t))| ≤ M * (2 * v) := by
    rw [abs_mul]; exact mul_le_mul hx hs (abs_nonneg _) hM0
  unfold depth
  set P := A.d (x * t)
  set S := A.f (1 - t)
  set Q := A.d (x * S)
  have h2 : |P + Q - x| ≤ 4 * (v * M) + 2 * η := by
    rw [abs_le] at hp hq hs2 ⊢
    constructor <;> nlinarith
  have hpq : |P + Q| ≤ 2 * M + 2 * η := by
    have := abs_add_le (P + Q - x) x
    rw [sub_add_cancel] at this
    norm_num at vM
    linarith
  have hr : |A.d (P + Q) - (P + Q)| ≤ 2 * (v * M) + 3 * η := by
    refine (h.dnear (P + Q) (hpq.trans (by norm_num at hM hη1 ⊢; linarith))).trans ?_
    have a1 := mul_le_mul_of_nonneg_left hpq hu
    have a2 : u * (2 * M + 2 * η) = 2 * (u * M) + 2 * u * η := by ring
    have a3 : (2 * u) * η ≤ 1 * η := mul_le_mul_of_nonneg_right (by norm_num at hu1 ⊢; linarith) hη
    linarith
  have h3 : |A.d (P + Q) - x| ≤ 6 * (v * M) + 5 * η := by
    rw [abs_le] at hr h2 ⊢
    constructor <;> linarith
  have hd : |A.d (P + Q)| ≤ 2 * M + 5 * η := by
    have := abs_add_le (A.d (P + Q) - x) x
    rw [sub_add_cancel] at this
    norm_num at vM
    linarith
  have hf : |A.f (A.d (P + Q)) - A.d (P + Q)| ≤ 2 * (v * M) + 6 * η := by
    refine (h.fnear _ (hd.trans (by norm_num at hM hη1 ⊢; linarith))).trans ?_
    have a1 := mul_le_mul_of_nonneg_left hd hv
    have a2 : v * (2 * M + 5 * η) = 2 * (v * M) + 5 * v * η := by ring
    have a3 : (5 * v) * η ≤ 1 * η := mul_le_mul_of_nonneg_right (by norm_num at hv1 ⊢; linarith) hη
    linarith
  rw [abs_le] at hf h3 ⊢
  constructor <;> nlinarith

theorem OK.depth_btw (h : A.OK u v η) {t a c lo hi e B : ℝ} (h0 : 0 ≤ t) (h1 : t ≤ 1) (ha : Btw lo hi e a) (hc : Btw lo hi e c)
    (hlo : |lo| ≤ B) (hhi : |hi| ≤ B) (he : 0 ≤ e) (heB : e ≤ B) (hB : B ≤ 2 ^ 37) : Btw lo hi (e + last v η B) (A.depth t a c) := by
  have key : ∀ x : ℝ, |x| ≤ 2 * B → |A.depth t x x - x| ≤ last v η B := by
    intro x hx
    refine (h.depth_self h0 h1 hx (by norm_num at hB ⊢; linarith)).trans (le_of_eq ?_)
    unfold last; ring
  rw [abs_le] at hlo hhi
  have k1 := abs_le.1 (key (lo - e) (abs_le.2 ⟨by linarith, by linarith⟩))
  have k2 := abs_le.1 (key (hi + e) (abs_le.2 ⟨by linarith, by linarith⟩))
  have m1 := h.depth_le h0 h1 ha.1 hc.1
  have m2 := h.depth_le h0 h1 ha.2 hc.2
  exact ⟨by linarith, by linarith⟩

/-- what is known of depths: bounds `lo` and `hi` of size up to `B`, and an error `e` that leaves
room for `n` more interpolations -/
structure Room (u η lo hi B e : ℝ) (n : ℕ) : Prop where
  low : |lo| ≤ B
  high : |hi| ≤ B
  size : B ≤ 2 ^ 37
  e0 : 0 ≤ e
  left : e + n * step u η B ≤ B

theorem Room.next (h : A.OK u v η) {lo hi B e : ℝ} {n : ℕ} (r : Room u η lo hi B e (n + 1)) : Room u η lo hi B (e + step u η B) n := by
  have hB : 0 ≤ B := (abs_nonneg lo).trans r.low
  have := h.step_nonneg hB
  have e := r.left
  push_cast at e
  exact ⟨r.low, r.high, r.size, by have := r.e0; linarith, by linarith⟩

theorem Room.eB (h : A.OK u v η) {lo hi B e : ℝ} {n : ℕ} (r : Room u η lo hi B e n) : e ≤ B := by
  have hB : 0 ≤ B := (abs_nonneg lo).trans r.low
  have := mul_nonneg (Nat.cast_nonneg (α := ℝ) n) (h.step_nonneg hB)
  have := r.left
  linarith

theorem OK.mix_room (h : A.OK u v η) {t a c lo hi e B : ℝ} {n : ℕ} (h0 : 0 ≤ t) (h1 : t ≤ 1) (r : Room u η lo hi B e n)
    (ha : Btw lo hi e a) (hc : Btw lo hi e c) : Btw lo hi (e + step u η B) (A.mix t a c) :=
  h.mix_btw h0 h1 ha hc r.low r.high r.e0 (r.eB h) r.size

theorem _root_.CAD.Render.Btw.weaken {lo hi e e' x : ℝ} (h : Btw lo hi e x) (he : e ≤ e') : Btw lo hi e' x := ⟨by linarith [h.1], by linarith [h.2]⟩

/-- **C113** (spans): a horizontal line paints exactly its columns on the screen -/
theorem OK.hline_spec (h : A.OK u v η) {W H ax bx y : Int} (aw bw : ℝ) (color : Int) (hW : 0 < W) (hab : ax ≤ bx)
    (ha : -big ≤ ax) (hb' : bx ≤ big) :
    ∃ fs : List (Frag ℝ), (∀ fb : Fb ℝ, fb.OK W H → A.hline ax aw bx bw y color fb = some (fb.puts fs)) ∧
      (∀ f ∈ fs, f.color = color ∧ f.y = y) ∧
      (∀ x, (∃ f ∈ fs, f.x = x) ↔ OnScreen W H x y ∧ ax ≤ x ∧ x ≤ bx) ∧
      (∀ f ∈ fs, ∀ lo hi B e, Room u η lo hi B e 2 → Btw lo hi e aw → Btw lo hi e bw → Btw lo hi (e + 2 * step u η B + last v η B) f.w) := by
  by_cases hv : bx < 0 ∨ W ≤ ax ∨ y < 0 ∨ H ≤ y
  · refine ⟨[], fun fb hok => ?_, by simp, fun x => ?_, by simp⟩
    · unfold hline
      rw [assert_true hab]
      simp only [bind, Option.bind_some, pure]
      rw [hok.w, hok.h, if_pos hv]
      rfl
    · simp only [List.not_mem_nil, false_and, exists_false, false_iff]
      omega
  · obtain ⟨lw, hl, hlw⟩ := h.cutLeft_some aw bw hab (by omega) ha hb'
    obtain ⟨rw', hr, hrw⟩ := h.cutRight_some lw bw hW (ax := max ax 0) (bx := bx) (by omega) (by omega) (by omega) hb'
    have hends : ∀ lo hi B e, Room u η lo hi B e 2 → Btw lo hi e aw → Btw lo hi e bw →
        Btw lo hi (e + 2 * step u η B) lw ∧ Btw lo hi (e + 2 * step u η B) rw' := by
      intro lo hi B e r ba bb
      have hs := h.step_nonneg ((abs_nonneg lo).trans r.low)
      have b1 : Btw lo hi (e + step u η B) lw := by
        rcases hlw with rfl | ⟨t, t0, t1, rfl⟩
        · exact ba.weaken (by linarith)
        · exact h.mix_room t0 t1 r ba bb
      have bb' : Btw lo hi (e + step u η B) bw := bb.weaken (by linarith)
      have b2 : Btw lo hi (e + step u η B + step u η B) rw' := by
        rcases hrw with rfl | ⟨t, t0, t1, rfl⟩
        · exact bb'.weaken (by linarith)
        · exact h.mix_room t0 t1 (r.next h) bb' b1
      exact ⟨b1.weaken (by linarith), b2.weaken (by linarith)⟩
    have hlr : max ax 0 ≤ min bx (W - 1) := by omega
    have hl0 : 0 ≤ max ax 0 := by omega
    have hrW : min bx (W - 1) < W := by omega
    have hcols : ∀ x, (max ax 0 ≤ x ∧ x ≤ min bx (W - 1)) ↔ (OnScreen W H x y ∧ ax ≤ x ∧ x ≤ bx) := by
      intro x
      unfold OnScreen
      omega
    have run : ∀ fb : Fb ℝ, fb.OK W H → A.hline ax aw bx bw y color fb = loopN (min bx (W - 1) - max ax 0 + 1).toNat (fun k (f : Fb ℝ) =>
        (CAD.assert (0 ≤ (if max ax 0 = min bx (W - 1) then 1 else A.f (A.f k / A.f ((min bx (W - 1) - max ax 0 : Int) : ℝ))) ∧
          (if max ax 0 = min bx (W - 1) then 1 else A.f (A.f k / A.f ((min bx (W - 1) - max ax 0 : Int) : ℝ))) ≤ 1)).bind fun _ =>
        f.plot (y * W + (max ax 0 + k)) (A.depth (if max ax 0 = min bx (W - 1) then 1 else A.f (A.f k / A.f ((min bx (W - 1) - max ax 0 : Int) : ℝ))) lw rw')
          (A.depth (if max ax 0 = min bx (W - 1) then 1 else A.f (A.f k / A.f ((min bx (W - 1) - max ax 0 : Int) : ℝ))) lw rw') color) fb := by
      intro fb hok
      unfold hline
      rw [assert_true hab]
      simp only [bind, Option.bind_some, pure]
      rw [hok.w, hok.h, if_neg (by omega), hl]
      simp only [Option.bind_some]
      rw [hr]
      simp only [Option.bind_some]
      rfl
    generalize max ax 0 = l at *
    generalize min bx (W - 1) = r at *
    have ht : ∀ k : Nat, (k : Int) ≤ r - l → 0 ≤ (if l = r then 1 else A.f (A.f k / A.f ((r - l : Int) : ℝ))) ∧
        (if l = r then 1 else A.f (A.f k / A.f ((r - l : Int) : ℝ))) ≤ 1 := by
      intro k hk
      split
      · exact ⟨zero_le_one, le_rfl⟩
      · have := h.fdiv01 (n := (k : Int)) (d := r - l) (by omega) (by omega) hk
        rw [Int.cast_natCast] at this
        exact this.2
    refine ⟨(List.range (r - l + 1).toNat).map fun (k : Nat) => ⟨l + k, y, A.depth (if l = r then 1 else A.f (A.f k / A.f ((r - l : Int) : ℝ))) lw rw', color⟩,
      fun fb hok => ?_, ?_, ?_, ?_⟩
    · rw [run fb hok]
      have key : ∀ n : Nat, (n : Int) ≤ r - l + 1 → loopN n (fun k (f : Fb ℝ) =>
          (CAD.assert (0 ≤ (if l = r then 1 else A.f (A.f k / A.f ((r - l : Int) : ℝ))) ∧ (if l = r then 1 else A.f (A.f k / A.f ((r - l : Int) : ℝ))) ≤ 1)).bind fun _ =>
          f.plot (y * W + (l + k)) (A.depth (if l = r then 1 else A.f (A.f k / A.f ((r - l : Int) : ℝ))) lw rw')
            (A.depth (if l = r then 1 else A.f (A.f k / A.f ((r - l : Int) : ℝ))) lw rw') color) fb =
          some (fb.puts ((List.range n).map fun (k : Nat) => ⟨l + k, y, A.depth (if l = r then 1 else A.f (A.f k / A.f ((r - l : Int) : ℝ))) lw rw', color⟩)) := by
        intro n
        induction n with
        | zero => intro _; rfl
        | succ n ih =>
          intro hn
          rw [loopN_succ, ih (by push_cast at hn; omega), Option.bind_some, List.range_succ, List.map_append, Fb.puts_append]
          rw [assert_true (ht n (by push_cast at hn; omega)), Option.bind_some, plot_put (hok.puts _) ⟨by omega, by push_cast at hn; omega, by omega, by omega⟩]
          rfl
      exact key _ (by omega)
    · intro f hm
      rw [List.mem_map] at hm
      obtain ⟨k, -, rfl⟩ := hm
      exact ⟨rfl, rfl⟩
    · intro x
      rw [← hcols]
      constructor
      · rintro ⟨f, hm, rfl⟩
        rw [List.mem_map] at hm
        obtain ⟨k, hk, rfl⟩ := hm
        rw [List.mem_range] at hk
        simp only
        omega
      · rintro ⟨h5, h6⟩
        refine ⟨_, List.mem_map_of_mem (List.mem_range.2 (?_ : (x - l).toNat < _)), ?_⟩
        · omega
        · simp only
          omega
    · intro f hm lo hi B e rm ba bb
      rw [List.mem_map] at hm
      obtain ⟨k, hk, rfl⟩ := hm
      rw [List.mem_range] at hk
      obtain ⟨t0, t1⟩ := ht k (by omega)
      obtain ⟨b1, b2⟩ := hends lo hi B e rm ba bb
      have hs := h.step_nonneg ((abs_nonneg lo).trans rm.low)
      have r2 := ((rm.next h).next h)
      exact h.depth_btw t0 t1 b1 b2 rm.low rm.high (by have := rm.e0; linarith) (by have := r2.eB h; linarith) rm.size

/-! ### Trapezes -/

/-- a trapeze whose sides are ordered and lie between the columns `m` and `M`, up to `e` -/
structure Fits (q : Trap ℝ) (m M : Int) (e : ℝ) : Prop where
  top : q.ax ≤ q.bx
  bottom : q.cx ≤ q.dx
  rows : q.ay ≤ q.cy
  a : Btw m M e q.ax
  b : Btw m M e q.bx
  c : Btw m M e q.cx
  d : Btw m M e q.dx
  ylow : -big ≤ q.ay
  yhigh : q.cy ≤ big

/-- all depths of a trapeze are between `lo` and `hi`, up to `e` -/
structure Deep (q : Trap ℝ) (lo hi e : ℝ) : Prop where
  a : Btw lo hi e q.aw
  b : Btw lo hi e q.bw
  c : Btw lo hi e q.cw
  d : Btw lo hi e q.dw

theorem Deep.weaken {q : Trap ℝ} {lo hi e e' : ℝ} (h : Deep q lo hi e) (he : e ≤ e') : Deep q lo hi e' :=
  ⟨h.a.weaken he, h.b.weaken he, h.c.weaken he, h.d.weaken he⟩

/-- columns stay within the columns, up to `1/64` for every interpolation -/
theorem OK.mix_col (h : A.OK u v η) {t a c e : ℝ} {m M : Int} (h0 : 0 ≤ t) (h1 : t ≤ 1) (ha : Btw m M e a) (hc : Btw m M e c)
    (hm : -big ≤ m) (hM : M ≤ big) (hmM : m ≤ M) (he : 0 ≤ e) (he1 : e ≤ 1) : Btw m M (e + 1 / 64) (A.mix t a c) := by
  have hbig := big_eq
  have c1 : (-536870912 : ℝ) ≤ m := by exact_mod_cast (by omega : (-536870912 : Int) ≤ m)
  have c2 : (M : ℝ) ≤ 536870912 := by exact_mod_cast (by omega : M ≤ (536870912 : Int))
  have c3 : (m : ℝ) ≤ M := by exact_mod_cast hmM
  have := h.mix_btw (B := 536870912) h0 h1 ha hc (abs_le.2 ⟨by linarith, by linarith⟩) (abs_le.2 ⟨by linarith, by linarith⟩) he (by linarith) (by norm_num)
  refine this.weaken ?_
  have hu1 := h.usmall
  have := h.ηu
  unfold step
  norm_num at hu1 ⊢
  linarith

theorem OK.cutTop_spec (h : A.OK u v η) {q : Trap ℝ} {m M : Int} {e : ℝ} (hq : Fits q m M e) (hc : 0 ≤ q.cy)
    (hm : -big ≤ m) (hM : M ≤ big) (hmM : m ≤ M) (he : 0 ≤ e) (he1 : e ≤ 1) :
    ∃ q', A.cutTop q = some q' ∧ Fits q' m M (e + 1 / 64) ∧ q'.ay = max q.ay 0 ∧ q'.cy = q.cy ∧
      ∀ lo hi B e n, Room u η lo hi B e n → Deep q lo hi e → Deep q' lo hi (e + step u η B) := by
  have hbig := big_eq
  have hrows := hq.rows
  have hy1 := hq.ylow
  have hy2 := hq.yhigh
  have wk : ∀ {x : ℝ}, Btw m M e x → Btw m M (e + 1 / 64) x := fun hx => hx.weaken (by linarith)
  unfold cutTop
  by_cases h0 : q.ay < 0
  · rw [if_pos h0, int32_bind (by omega) (by omega)]
    obtain ⟨q1, q2⟩ := div01 (n := 0 - q.ay) (d := q.cy - q.ay) (by omega) (by omega) (by omega)
    obtain ⟨t0, t1⟩ := h.d01 q1 q2
    rw [Int.cast_sub, Int.cast_zero] at t0 t1
    simp only
    rw [assert_true ⟨t0, t1⟩]
    refine ⟨_, rfl, ⟨h.mix_le t0 t1 hq.top hq.bottom, hq.bottom, hc, h.mix_col t0 t1 hq.a hq.c hm hM hmM he he1, h.mix_col t0 t1 hq.b hq.d hm hM hmM he he1,
      wk hq.c, wk hq.d, by show -big ≤ (0 : Int); decide, hy2⟩, (max_eq_right h0.le).symm, rfl, fun lo hi B e n r dp => ?_⟩
    have hs := h.step_nonneg ((abs_nonneg lo).trans r.low)
    exact ⟨h.mix_room t0 t1 r dp.a dp.c, h.mix_room t0 t1 r dp.b dp.d, dp.c.weaken (by linarith), dp.d.weaken (by linarith)⟩
  · rw [if_neg h0]
    refine ⟨q, rfl, ⟨hq.top, hq.bottom, hrows, wk hq.a, wk hq.b, wk hq.c, wk hq.d, hy1, hy2⟩, (max_eq_left (by omega)).symm, rfl, fun lo hi B e n r dp => ?_⟩
    have hs := h.step_nonneg ((abs_nonneg lo).trans r.low)
    exact dp.weaken (by linarith)

theorem OK.cutBottom_spec (h : A.OK u v η) {q : Trap ℝ} {m M H : Int} {e : ℝ} (hq : Fits q m M e) (h0 : 0 ≤ q.ay) (hH : q.ay < H)
    (hm : -big ≤ m) (hM : M ≤ big) (hmM : m ≤ M) (he : 0 ≤ e) (he1 : e ≤ 1) :
    ∃ q', A.cutBottom H q = some q' ∧ Fits q' m M (e + 1 / 64) ∧ q'.ay = q.ay ∧ q'.cy = min q.cy (H - 1) ∧
      ∀ lo hi B e n, Room u η lo hi B e n → Deep q lo hi e → Deep q' lo hi (e + step u η B) := by
  have hbig := big_eq
  have hrows := hq.rows
  have hy1 := hq.ylow
  have hy2 := hq.yhigh
  have wk : ∀ {x : ℝ}, Btw m M e x → Btw m M (e + 1 / 64) x := fun hx => hx.weaken (by linarith)
  unfold cutBottom
  by_cases hc : H ≤ q.cy
  · rw [if_pos hc, int32_bind (by omega) (by omega), int32_bind (by omega) (by omega)]
    obtain ⟨q1, q2⟩ := div01 (n := q.cy - (H - 1)) (d := q.cy - q.ay) (by omega) (by omega) (by omega)
    obtain ⟨t0, t1⟩ := h.d01 q1 q2
    simp only
    rw [assert_true (by omega : q.cy - q.ay ≠ 0), assert_true ⟨t0, t1⟩]
    refine ⟨_, rfl, ⟨hq.top, h.mix_le t0 t1 hq.bottom hq.top, by show q.ay ≤ H - 1; omega, wk hq.a, wk hq.b, h.mix_col t0 t1 hq.c hq.a hm hM hmM he he1,
      h.mix_col t0 t1 hq.d hq.b hm hM hmM he he1, hy1, by show H - 1 ≤ big; omega⟩, rfl, by show H - 1 = min q.cy (H - 1); omega, fun lo hi B e n r dp => ?_⟩
    have hs := h.step_nonneg ((abs_nonneg lo).trans r.low)
    exact ⟨dp.a.weaken (by linarith), dp.b.weaken (by linarith), h.mix_room t0 t1 r dp.c dp.a, h.mix_room t0 t1 r dp.d dp.b⟩
  · rw [if_neg hc]
    refine ⟨q, rfl, ⟨hq.top, hq.bottom, hrows, wk hq.a, wk hq.b, wk hq.c, wk hq.d, hy1, hy2⟩, rfl, (min_eq_left (by omega)).symm, fun lo hi B e n r dp => ?_⟩
    have hs := h.step_nonneg ((abs_nonneg lo).trans r.low)
    exact dp.weaken (by linarith)

theorem OK.row_spec (h : A.OK u v η) {q : Trap ℝ} {m M : Int} (hq : Fits q m M (3 / 64)) (color : Int) {W H y : Int} (hW : 0 < W)
    (hm : -big ≤ m) (hM : M ≤ big) (hmM : m ≤ M) (h1 : q.ay ≤ y) (h2 : y < q.cy) :
    ∃ fs : List (Frag ℝ), (∀ fb : Fb ℝ, fb.OK W H → A.row q color y fb = some (fb.puts fs)) ∧
      ∀ f ∈ fs, f.color = color ∧ f.y = y ∧ OnScreen W H f.x f.y ∧ m ≤ f.x ∧ f.x ≤ max M 0 ∧
        ∀ lo hi B e, Room u η lo hi B e 3 → Deep q lo hi e → Btw lo hi (e + 3 * step u η B + last v η B) f.w := by
  have hbig := big_eq
  have hy1 := hq.ylow
  have hy2 := hq.yhigh
  obtain ⟨q1, q2⟩ := div01 (n := y - q.ay) (d := q.cy - q.ay) (by omega) (by omega) (by omega)
  obtain ⟨t0, t1⟩ := h.d01 q1 q2
  have cl := h.mix_col t0 t1 hq.a hq.c hm hM hmM (by norm_num) (by norm_num)
  have cr := h.mix_col t0 t1 hq.b hq.d hm hM hmM (by norm_num) (by norm_num)
  obtain ⟨a1, a2, a3⟩ := h.round_btw hm hM (cl.weaken (by norm_num)) hmM
  obtain ⟨b1, b2, b3⟩ := h.round_btw hm hM (cr.weaken (by norm_num)) hmM
  have hle : trunc (A.d (A.mix (A.d (((y - q.ay : Int) : ℝ) / ((q.cy - q.ay : Int) : ℝ))) q.ax q.cx + 1 / 2)) ≤
      trunc (A.d (A.mix (A.d (((y - q.ay : Int) : ℝ) / ((q.cy - q.ay : Int) : ℝ))) q.bx q.dx + 1 / 2)) :=
    trunc_mono (h.dmono (by have := h.mix_le t0 t1 hq.top hq.bottom; linarith))
  obtain ⟨fs, f1, f2, f3, f4⟩ := h.hline_spec (H := H) (y := y) (A.mix (A.d (((y - q.ay : Int) : ℝ) / ((q.cy - q.ay : Int) : ℝ))) q.aw q.cw)
    (A.mix (A.d (((y - q.ay : Int) : ℝ) / ((q.cy - q.ay : Int) : ℝ))) q.bw q.dw) color hW hle (by omega) (by omega)
  refine ⟨fs, fun fb hok => ?_, fun f hf => ?_⟩
  · rw [← f1 fb hok]
    unfold row
    rw [int32_bind (by omega) (by omega), int32_bind (by omega) (by omega)]
    simp only
    rw [assert_true ⟨t0, t1⟩, a1, b1]
    simp only [bind, Option.bind_some]
    rw [assert_true hle, Option.bind_some]
  · obtain ⟨o, x1, x2⟩ := (f3 f.x).1 ⟨f, hf, rfl⟩
    obtain ⟨c1, c2⟩ := f2 f hf
    rw [← c2] at o
    refine ⟨c1, c2, o, by omega, by omega, fun lo hi B e r dp => ?_⟩
    have := f4 f hf lo hi B (e + step u η B) (r.next h) (h.mix_room t0 t1 r dp.a dp.c) (h.mix_room t0 t1 r dp.b dp.d)
    exact this.weaken (by linarith)

/-- **C113** (trapezes) -/
theorem OK.trapeze_spec (h : A.OK u v η) {q : Trap ℝ} {m M : Int} (hq : Fits q m M (1 / 64)) (color : Int) {W H : Int} (hW : 0 < W) (hH : 0 < H)
    (hm : -big ≤ m) (hM : M ≤ big) (hmM : m ≤ M) :
    ∃ (vis : Bool) (fs : List (Frag ℝ)), (∀ fb : Fb ℝ, fb.OK W H → A.trapeze q color fb = some (vis, fb.puts fs)) ∧
      ∀ f ∈ fs, f.color = color ∧ OnScreen W H f.x f.y ∧ q.ay ≤ f.y ∧ f.y < q.cy ∧ m ≤ f.x ∧ f.x ≤ max M 0 ∧
        ∀ lo hi B e, Room u η lo hi B e 5 → Deep q lo hi e → Btw lo hi (e + 5 * step u η B + last v η B) f.w := by
  by_cases hv : q.cy < 0 ∨ H ≤ q.ay
  · refine ⟨false, [], fun fb hok => ?_, by simp⟩
    unfold trapeze
    rw [assert_true hq.top, assert_true hq.bottom, assert_true hq.rows]
    simp only [bind, Option.bind_some, pure]
    rw [hok.h, if_pos hv]
    rfl
  · obtain ⟨q1, e1, o1, a1, c1, s1⟩ := h.cutTop_spec hq (by omega) hm hM hmM (by norm_num) (by norm_num)
    obtain ⟨q2, e2, o2, a2, c2, s2⟩ := h.cutBottom_spec (H := H) o1 (by omega) (by omega) hm hM hmM (by norm_num) (by norm_num)
    rw [show (1 : ℝ) / 64 + 1 / 64 + 1 / 64 = 3 / 64 by norm_num] at o2
    have hrows := o2.rows
    have rows : ∀ n : Nat, q2.ay + n ≤ q2.cy → ∃ fs : List (Frag ℝ),
        (∀ fb : Fb ℝ, fb.OK W H → loopN n (fun k fb => A.row q2 color (q2.ay + k) fb) fb = some (fb.puts fs)) ∧
        ∀ f ∈ fs, f.color = color ∧ OnScreen W H f.x f.y ∧ q2.ay ≤ f.y ∧ f.y < q2.cy ∧ m ≤ f.x ∧ f.x ≤ max M 0 ∧
          ∀ lo hi B e, Room u η lo hi B e 3 → Deep q2 lo hi e → Btw lo hi (e + 3 * step u η B + last v η B) f.w := by
      intro n
      induction n with
      | zero => intro _; exact ⟨[], fun fb _ => rfl, by simp⟩
      | succ n ih =>
        intro hn
        push_cast at hn
        obtain ⟨fs, i1, i2⟩ := ih (by omega)
        obtain ⟨gs, g1, g2⟩ := h.row_spec o2 color (H := H) (y := q2.ay + n) hW hm hM hmM (by omega) (by omega)
        refine ⟨fs ++ gs, fun fb hok => ?_, fun f hf => ?_⟩
        · rw [loopN_succ, i1 fb hok, Option.bind_some, g1 _ (hok.puts fs), Fb.puts_append]
        · rcases List.mem_append.1 hf with hf | hf
          · exact i2 f hf
          · obtain ⟨k1, k2, k3, k4, k5, k6⟩ := g2 f hf
            exact ⟨k1, k3, by omega, by omega, k4, k5, k6⟩
    obtain ⟨fs, f1, f2⟩ := rows (q2.cy - q2.ay).toNat (by omega)
    refine ⟨true, fs, fun fb hok => ?_, fun f hf => ?_⟩
    · unfold trapeze
      rw [assert_true hq.top, assert_true hq.bottom, assert_true hq.rows]
      simp only [bind, Option.bind_some, pure]
      rw [hok.h, if_neg hv, e1]
      simp only [Option.bind_some]
      rw [e2]
      simp only [Option.bind_some]
      rw [assert_true (by omega : 0 ≤ q2.ay), assert_true o2.rows, assert_true (by omega : q2.cy < H)]
      simp only [Option.bind_some]
      rw [f1 fb hok]
      rfl
    · obtain ⟨k1, k2, k3, k4, k5, k6, k7⟩ := f2 f hf
      refine ⟨k1, k2, by omega, by omega, k5, k6, fun lo hi B e r dp => ?_⟩
      have d1 := s1 lo hi B e 5 r dp
      have d2 := s2 lo hi B _ 4 (r.next h) d1
      exact (k7 lo hi B _ ((r.next h).next h) d2).weaken (by linarith)

/-! ### Triangles -/

theorem OK.splitPoint_spec (h : A.OK u v η) {a b c : V ℝ} (hab : a.y ≤ b.y) (hbc : b.y ≤ c.y) (ha : a.Small) (hb : b.Small) (hc : c.Small) :
    ∃ d, A.splitPoint a b c = some d ∧ d.y = (if 0 ≤ b.y then b.y else b.y + 1) ∧ min a.x c.x ≤ d.x ∧ d.x ≤ max (max a.x c.x) 0 ∧
      (∀ lo hi B e n, Room u η lo hi B e n → Btw lo hi e a.w → Btw lo hi e c.w → Btw lo hi (e + step u η B) d.w) := by
  have hbig := big_eq
  obtain ⟨ha1, ha2, ha3, ha4⟩ := ha
  obtain ⟨hb1, hb2, hb3, hb4⟩ := hb
  obtain ⟨hc1, hc2, hc3, hc4⟩ := hc
  have hu1 := h.usmall
  have hηu := h.ηu
  have hu0 := h.u0
  have cast : ∀ {k : Int}, -big ≤ k → k ≤ big → |(k : ℝ)| ≤ 536870912 := by
    intro k h1 h2
    rw [abs_le]
    exact ⟨by exact_mod_cast (by omega : (-536870912 : Int) ≤ k), by exact_mod_cast (by omega : k ≤ (536870912 : Int))⟩
  have ht : ∃ t t' : ℝ, A.splitT a b c = some t' ∧ 0 ≤ t' ∧ t' ≤ 1 ∧ |t' - t| ≤ 2 * u ∧ (c.y : ℝ) * t + (1 - t) * a.y = b.y := by
    unfold splitT
    by_cases hne : c.y ≠ a.y
    · rw [if_pos hne, int32_bind (by omega) (by omega), int32_bind (by omega) (by omega)]
      obtain ⟨q1, q2⟩ := div01 (n := b.y - a.y) (d := c.y - a.y) (by omega) (by omega) (by omega)
      obtain ⟨t0, t1⟩ := h.d01 q1 q2
      refine ⟨((b.y - a.y : Int) : ℝ) / ((c.y - a.y : Int) : ℝ), _, rfl, t0, t1, ?_, ?_⟩
      · have e := h.dnear (((b.y - a.y : Int) : ℝ) / ((c.y - a.y : Int) : ℝ)) (by rw [abs_of_nonneg q1]; exact q2.trans (by norm_num))
        rw [abs_of_nonneg q1] at e
        nlinarith
      · have e2 : (0 : ℝ) < ((c.y - a.y : Int) : ℝ) := by exact_mod_cast (by omega : 0 < c.y - a.y)
        push_cast at e2 ⊢
        have e4 := ne_of_gt e2
        field_simp
        ring
    · rw [if_neg hne]
      refine ⟨0, 0, rfl, le_rfl, zero_le_one, by simpa using hu0, ?_⟩
      have : a.y = b.y := by omega
      rw [this]
      ring
  obtain ⟨t, t', ht, t0, t1, tt, hy⟩ := ht
  have ey := h.mix_near (a := (a.y : ℝ)) (c := (c.y : ℝ)) t0 t1 tt (cast ha3 ha4) (cast hc3 hc4) (by norm_num)
  rw [hy] at ey
  have ry := h.round_near hb3 hb4 (ey.trans (by norm_num at hu1 ⊢; linarith))
  have bx : ∀ k : Int, k = a.x ∨ k = c.x → Btw ((min a.x c.x : Int) : ℝ) ((max a.x c.x : Int) : ℝ) 0 k := by
    intro k hk
    constructor
    · rw [sub_zero]; exact_mod_cast (by omega : min a.x c.x ≤ k)
    · rw [add_zero]; exact_mod_cast (by omega : k ≤ max a.x c.x)
  have ex := h.mix_col t0 t1 (bx a.x (Or.inl rfl)) (bx c.x (Or.inr rfl)) (by omega) (by omega) (by omega) le_rfl zero_le_one
  obtain ⟨rx1, rx2, rx3⟩ := h.round_btw (by omega) (by omega) (ex.weaken (by norm_num)) (by omega)
  refine ⟨⟨trunc (A.d (A.mix t' a.x c.x + 1 / 2)), if 0 ≤ b.y then b.y else b.y + 1, A.mix t' a.w c.w⟩, ?_, rfl, rx2, rx3, fun lo hi B e n r ba bc => h.mix_room t0 t1 r ba bc⟩
  unfold splitPoint
  rw [ht]
  simp only [bind, Option.bind_some]
  rw [assert_true t0, assert_true t1, rx1, ry]
  rfl

/-- the two trapezes of a triangle whose points are ordered by rows -/
theorem OK.halves_spec (h : A.OK u v η) {a b c : V ℝ} (hab : a.y ≤ b.y) (hbc : b.y ≤ c.y) (hc0 : 0 < c.y) (ha : a.Small) (hb : b.Small) (hc : c.Small)
    (color : Int) {W H : Int} (hW : 0 < W) (hH : 0 < H) {m M : Int} (hm : -big ≤ m) (hM : M ≤ big) (hM0 : 0 ≤ M) (am : m ≤ a.x) (aM : a.x ≤ M)
    (bm : m ≤ b.x) (bM : b.x ≤ M) (cm : m ≤ c.x) (cM : c.x ≤ M) :
    ∃ (vis : Bool) (fs : List (Frag ℝ)), (∀ fb : Fb ℝ, fb.OK W H → A.halves a b c (some color) fb = some (vis, fb.puts fs)) ∧
      (∀ f ∈ fs, f.color = color ∧ OnScreen W H f.x f.y ∧ a.y ≤ f.y ∧ f.y < c.y ∧ m ≤ f.x ∧ f.x ≤ M ∧
        ∀ lo hi B e, Room u η lo hi B e 6 → Btw lo hi e a.w → Btw lo hi e b.w → Btw lo hi e c.w → Btw lo hi (e + 6 * step u η B + last v η B) f.w) := by
  obtain ⟨d, hd, dy, d1, d2, d5⟩ := h.splitPoint_spec hab hbc ha hb hc
  obtain ⟨ha1, ha2, ha3, ha4⟩ := ha
  obtain ⟨hb1, hb2, hb3, hb4⟩ := hb
  obtain ⟨hc1, hc2, hc3, hc4⟩ := hc
  have btw : ∀ {k : Int}, m ≤ k → k ≤ M → Btw (m : ℝ) M (1 / 64) k := by
    intro k h1 h2
    have e1 : (m : ℝ) ≤ k := by exact_mod_cast h1
    have e2 : (k : ℝ) ≤ M := by exact_mod_cast h2
    exact ⟨by linarith, by linarith⟩
  -- the two points in the middle, after the exchange
  have key : ∀ (b d : V ℝ), b.x ≤ d.x → a.y ≤ b.y → b.y ≤ c.y → m ≤ b.x → d.x ≤ M →
      ∃ (vis : Bool) (fs : List (Frag ℝ)), (∀ fb : Fb ℝ, fb.OK W H →
        ((A.trapeze ⟨a.x, a.w, a.x, a.w, a.y, b.x, b.w, d.x, d.w, b.y⟩ color fb).bind fun r1 =>
          (A.trapeze ⟨b.x, b.w, d.x, d.w, b.y, c.x, c.w, c.x, c.w, c.y⟩ color r1.2).bind fun r2 => some (r1.1 || r2.1, r2.2)) = some (vis, fb.puts fs)) ∧
      (∀ f ∈ fs, f.color = color ∧ OnScreen W H f.x f.y ∧ a.y ≤ f.y ∧ f.y < c.y ∧ m ≤ f.x ∧ f.x ≤ M ∧
        ∀ lo hi B e, Room u η lo hi B e 5 → Btw lo hi e a.w → Btw lo hi e b.w → Btw lo hi e d.w → Btw lo hi e c.w →
          Btw lo hi (e + 5 * step u η B + last v η B) f.w) := by
    intro b d h1 h2 h3 h4 h5
    have cast : ∀ {m n : Int}, m ≤ n → (m : ℝ) ≤ (n : ℝ) := fun h => by exact_mod_cast h
    obtain ⟨v1, f1, p1, z1⟩ := h.trapeze_spec (q := ⟨a.x, a.w, a.x, a.w, a.y, b.x, b.w, d.x, d.w, b.y⟩) (m := m) (M := M)
      ⟨le_rfl, cast h1, h2, btw am aM, btw am aM, btw h4 (by omega), btw (by omega) h5, ha3, by show b.y ≤ big; omega⟩ color (H := H) hW hH hm hM (by omega)
    obtain ⟨v2, f2, p2, z2⟩ := h.trapeze_spec (q := ⟨b.x, b.w, d.x, d.w, b.y, c.x, c.w, c.x, c.w, c.y⟩) (m := m) (M := M)
      ⟨cast h1, le_rfl, h3, btw h4 (by omega), btw (by omega) h5, btw cm cM, btw cm cM, by show -big ≤ b.y; omega, hc4⟩ color (H := H) hW hH hm hM (by omega)
    refine ⟨v1 || v2, f1 ++ f2, fun fb hok => ?_, fun f hf => ?_⟩
    · rw [p1 fb hok, Option.bind_some]
      rw [p2 _ (hok.puts f1), Option.bind_some, Fb.puts_append]
    · rcases List.mem_append.1 hf with hf | hf
      · obtain ⟨g0, o, g1, g2, g3, g4, g5⟩ := z1 f hf
        simp only at g1 g2
        exact ⟨g0, o, g1, by omega, g3, by omega, fun lo hi B e r la lb ld lc => g5 lo hi B e r ⟨la, la, lb, ld⟩⟩
      · obtain ⟨g0, o, g1, g2, g3, g4, g5⟩ := z2 f hf
        simp only at g1 g2
        exact ⟨g0, o, by omega, g2, g3, by omega, fun lo hi B e r la lb ld lc => g5 lo hi B e r ⟨lb, ld, lc, lc⟩⟩
  have fin : ∀ (lo hi B e : ℝ), Room u η lo hi B e 6 → Btw lo hi e a.w → Btw lo hi e b.w → Btw lo hi e c.w → Room u η lo hi B (e + step u η B) 5 ∧
      Btw lo hi (e + step u η B) a.w ∧ Btw lo hi (e + step u η B) b.w ∧ Btw lo hi (e + step u η B) d.w ∧ Btw lo hi (e + step u η B) c.w := by
    intro lo hi B e r la lb lc
    have hs := h.step_nonneg ((abs_nonneg lo).trans r.low)
    exact ⟨r.next h, la.weaken (by linarith), lb.weaken (by linarith), d5 lo hi B e 6 r la lc, lc.weaken (by linarith)⟩
  unfold halves
  rw [hd]
  simp only [bind, Option.bind_some, pure]
  by_cases hx : d.x < b.x
  · simp only [if_pos hx]
    have e2 : a.y ≤ d.y := by rw [dy]; split <;> omega
    have e3 : d.y ≤ c.y := by rw [dy]; split <;> omega
    rw [assert_true hx.le, assert_true e2, assert_true e3]
    simp only [Option.bind_some]
    obtain ⟨vis, fs, k1, k2⟩ := key ⟨d.x, d.y, d.w⟩ ⟨b.x, d.y, b.w⟩ hx.le e2 e3 (by show m ≤ d.x; omega) bM
    refine ⟨vis, fs, k1, fun f hf => ?_⟩
    obtain ⟨m1, m2, m3, m4, m5, m6, m7⟩ := k2 f hf
    refine ⟨m1, m2, m3, m4, m5, m6, fun lo hi B e r la lb lc => ?_⟩
    obtain ⟨n1, n2, n3, n4, n5⟩ := fin lo hi B e r la lb lc
    exact (m7 lo hi B _ n1 n2 n4 n3 n5).weaken (by linarith)
  · simp only [if_neg hx]
    rw [assert_true (not_lt.1 hx), assert_true hab, assert_true hbc]
    simp only [Option.bind_some]
    obtain ⟨vis, fs, k1, k2⟩ := key b d (not_lt.1 hx) hab hbc bm (by omega)
    refine ⟨vis, fs, k1, fun f hf => ?_⟩
    obtain ⟨m1, m2, m3, m4, m5, m6, m7⟩ := k2 f hf
    refine ⟨m1, m2, m3, m4, m5, m6, fun lo hi B e r la lb lc => ?_⟩
    obtain ⟨n1, n2, n3, n4, n5⟩ := fin lo hi B e r la lb lc
    exact (m7 lo hi B _ n1 n2 n3 n4 n5).weaken (by linarith)

/-- **C113** (triangles, any arithmetic): drawing a triangle in floating point never fails, and is
the depth test for a list of fragments that depends on the triangle only; they are on the
screen, in the box of the three projected corners, and their depths are between those of the
corners up to `96 u B + 32 v B + 64 η`, where `B` bounds the depths. -/
theorem OK.triangle_frags (h : A.OK u v η) {a b c : V ℝ} (ha : a.Small) (hb : b.Small) (hc : c.Small)
    (color : Int) (two : Bool) {W H : Int} (hW : 0 < W) (hH : 0 < H) :
    ∃ (vis : Bool) (fs : List (Frag ℝ)), (∀ fb : Fb ℝ, fb.OK W H → A.triangleV a b c (some color) two fb = some (vis, fb.puts fs)) ∧
      (∀ f ∈ fs, f.color = color ∧ OnScreen W H f.x f.y ∧ min a.y (min b.y c.y) ≤ f.y ∧ f.y < max a.y (max b.y c.y) ∧
        min a.x (min b.x c.x) ≤ f.x ∧ f.x ≤ max a.x (max b.x c.x) ∧
        ∀ lo hi B, |lo| ≤ B → |hi| ≤ B → 1000 * η ≤ B → B ≤ 2 ^ 37 → lo ≤ a.w ∧ a.w ≤ hi → lo ≤ b.w ∧ b.w ≤ hi → lo ≤ c.w ∧ c.w ≤ hi →
          Btw lo hi (96 * u * B + 32 * v * B + 64 * η) f.w) := by
  have hbig := big_eq
  have ha' := ha
  have hb' := hb
  have hc' := hc
  obtain ⟨ha1, ha2, ha3, ha4⟩ := ha
  obtain ⟨hb1, hb2, hb3, hb4⟩ := hb
  obtain ⟨hc1, hc2, hc3, hc4⟩ := hc
  have hback : ∃ bk, A.hidden two a b c = some bk := by
    unfold hidden
    split
    · unfold backFace
      rw [int32_bind (by omega) (by omega), int32_bind (by omega) (by omega), int32_bind (by omega) (by omega), int32_bind (by omega) (by omega)]
      exact ⟨_, rfl⟩
    · exact ⟨_, rfl⟩
  obtain ⟨bk, hbk⟩ := hback
  unfold triangleV
  rw [hbk]
  simp only [bind, Option.bind_some, pure]
  cases bk with
  | true => exact ⟨false, [], fun fb _ => rfl, by simp⟩
  | false =>
    by_cases ho : offScreen W H a b c = true
    · refine ⟨false, [], fun fb hok => ?_, by simp⟩
      simp only [Bool.false_eq_true, if_false]
      rw [hok.w, hok.h, if_pos ho]
      rfl
    · obtain ⟨s1, s2, s3⟩ := sortY_cases a b c
      have hpos : 0 < max a.y (max b.y c.y) ∧ 0 < max a.x (max b.x c.x) := by
        constructor
        · by_contra hcon
          apply ho
          unfold offScreen
          have : a.y ≤ 0 ∧ b.y ≤ 0 ∧ c.y ≤ 0 := by omega
          simp [this.1, this.2.1, this.2.2]
        · by_contra hcon
          apply ho
          unfold offScreen
          have : a.x ≤ 0 ∧ b.x ≤ 0 ∧ c.x ≤ 0 := by omega
          simp [this.1, this.2.1, this.2.2]
      have small : (sortY a b c).1.Small ∧ (sortY a b c).2.1.Small ∧ (sortY a b c).2.2.Small := by
        rcases s3 with h | h | h | h | h | h <;> rw [h] <;> exact ⟨by assumption, by assumption, by assumption⟩
      have hmax : (sortY a b c).2.2.y = max a.y (max b.y c.y) ∧ (sortY a b c).1.y = min a.y (min b.y c.y) := by
        rcases s3 with h | h | h | h | h | h <;> rw [h] at s1 s2 ⊢ <;> simp only at s1 s2 ⊢ <;> omega
      have box : ∀ w, (w = (sortY a b c).1 ∨ w = (sortY a b c).2.1 ∨ w = (sortY a b c).2.2) →
          min a.x (min b.x c.x) ≤ w.x ∧ w.x ≤ max a.x (max b.x c.x) := by
        intro w hw
        rcases s3 with h | h | h | h | h | h <;> rw [h] at hw <;> rcases hw with rfl | rfl | rfl <;> omega
      have b1 := box _ (Or.inl rfl)
      have b2 := box _ (Or.inr (Or.inl rfl))
      have b3 := box _ (Or.inr (Or.inr rfl))
      obtain ⟨vis, fs, h1, h2⟩ := h.halves_spec s1 s2 (by rw [hmax.1]; exact hpos.1) small.1 small.2.1 small.2.2 color (H := H) hW hH
        (m := min a.x (min b.x c.x)) (M := max a.x (max b.x c.x)) (by omega) (by omega) (by omega) b1.1 b1.2 b2.1 b2.2 b3.1 b3.2
      refine ⟨vis, fs, fun fb hok => ?_, ?_⟩
      · simp only [Bool.false_eq_true, if_false]
        rw [hok.w, hok.h, if_neg ho]
        exact h1 fb hok
      · rw [hmax.1, hmax.2] at h2
        intro f hf
        obtain ⟨m1, m2, m4, m5, m6, m7, m8⟩ := h2 f hf
        refine ⟨m1, m2, m4, m5, m6, m7, fun lo hi B hl hh hB0 hB la lb lc => ?_⟩
        have hB' : 0 ≤ B := (abs_nonneg lo).trans hl
        have r : Room u η lo hi B 0 6 := by
          refine ⟨hl, hh, hB, le_rfl, ?_⟩
          have hu1 := h.usmall
          have := mul_le_mul_of_nonneg_right hu1 hB'
          unfold step
          norm_num at this ⊢
          linarith
        have wt : ∀ {x : ℝ}, lo ≤ x ∧ x ≤ hi → Btw lo hi 0 x := fun hx => ⟨by linarith [hx.1], by linarith [hx.2]⟩
        have fin : ∀ {x : ℝ}, Btw lo hi (0 + 6 * step u η B + last v η B) x → Btw lo hi (96 * u * B + 32 * v * B + 64 * η) x := by
          intro x hx
          refine hx.weaken (le_of_eq ?_)
          unfold step last
          ring
        have la := wt la
        have lb := wt lb
        have lc := wt lc
        apply fin
        rcases s3 with h | h | h | h | h | h <;> rw [h] at m8
        · exact m8 lo hi B 0 r la lb lc
        · exact m8 lo hi B 0 r la lc lb
        · exact m8 lo hi B 0 r lb la lc
        · exact m8 lo hi B 0 r lb lc la
        · exact m8 lo hi B 0 r lc la lb
        · exact m8 lo hi B 0 r lc lb la

/-! ### Lines, pixels, meshes -/

/-- drawing a line is safe whatever the arithmetic does: every access is guarded -/
theorem lineV_ok (A : Arith) {a b : V ℝ} (ha : a.Small) (hb : b.Small) (color : Int) {W H : Int} (hW : W ≤ 2147483647) (hH : H ≤ 2147483647)
    {fb : Fb ℝ} (h : fb.OK W H) : ∃ fb', A.lineV a b color fb = some fb' ∧ fb'.OK W H := by
  have hbig := big_eq
  obtain ⟨ha1, ha2, ha3, ha4⟩ := ha
  obtain ⟨hb1, hb2, hb3, hb4⟩ := hb
  unfold lineV
  rw [int32_bind (by omega) (by omega), int32_bind (by omega) (by omega)]
  simp only
  generalize him : (if |b.x - a.x| > |b.y - a.y| then |b.x - a.x| else |b.y - a.y|) = im
  have him1 : im ≤ 2147483647 := by
    have e1 : |b.x - a.x| ≤ 2147483647 := abs_le.2 ⟨by omega, by omega⟩
    have e2 : |b.y - a.y| ≤ 2147483647 := abs_le.2 ⟨by omega, by omega⟩
    rw [← him]
    split
    · exact e1
    · exact e2
  rw [assert_true him1]
  simp only [bind, Option.bind_some, pure]
  split
  · exact ⟨fb, rfl, h⟩
  · have step : ∀ dx dy dz : ℝ, ∀ s : Pen, s.fb.OK W H → ∃ s', A.lineStep W H dx dy dz color s = some s' ∧ s'.fb.OK W H := by
      intro dx dy dz s hs
      have hfb : ∃ fb', A.linePlot W H color s = some fb' ∧ fb'.OK W H := by
        unfold linePlot
        split
        · next hc =>
          obtain ⟨c1, c2, c3, c4⟩ := hc
          have tx : ∀ {v : ℝ} {n : Int}, 0 ≤ v → v < n → n ≤ 2147483647 → toInt v = some (trunc v) ∧ 0 ≤ trunc v ∧ trunc v < n := by
            intro v n h0 h1 h2
            have e : trunc v = ⌊v⌋ := by unfold trunc; rw [if_pos h0]
            have e1 : 0 ≤ ⌊v⌋ := Int.floor_nonneg.2 h0
            have e2 : ⌊v⌋ < n := Int.floor_lt.2 h1
            rw [← e] at e1 e2
            exact ⟨toInt_some (by omega) (by omega), e1, e2⟩
          obtain ⟨x1, x2, x3⟩ := tx c1 c2 hW
          obtain ⟨y1, y2, y3⟩ := tx c3 c4 hH
          rw [x1, y1]
          simp only [bind, Option.bind_some]
          obtain ⟨i1, i2⟩ := index_lt (W := W) (H := H) ⟨x2, x3, y2, y3⟩
          exact plot_ok hs (by linarith) (by linarith) _ _ _
        · exact ⟨s.fb, rfl, hs⟩
      obtain ⟨fb', e, o⟩ := hfb
      unfold lineStep
      rw [e]
      exact ⟨_, rfl, o⟩
    obtain ⟨s', e, o⟩ := loopN_inv (fun _ (s : Pen) => s.fb.OK W H) (n := im.toNat) (f := fun _ s => A.lineStep W H (A.d (((b.x - a.x : Int) : ℝ) / im))
      (A.d (((b.y - a.y : Int) : ℝ) / im)) (A.d (A.d (b.w - a.w) / im)) color s) (s := ⟨a.x, a.y, a.w, fb⟩) h (fun i hi s hs => step _ _ _ s hs)
    rw [h.w, h.h, e]
    exact ⟨s'.fb, rfl, o⟩

/-- a point whose computed projection is not too large -/
def View.Sees (w : View) (p : P3 ℝ) : Prop := ∃ q, w.project p = some q ∧ q.Small

/-- a triangle whose corners are seen and whose colour is defined -/
def View.Draws (w : View) (color : Int) (t : Tri3 ℝ) : Prop := w.Sees t.p1 ∧ w.Sees t.p2 ∧ w.Sees t.p3 ∧ ∃ c, w.shade color t = some c

/-- executing a call in floating point -/
noncomputable def run (A : Arith) (w : View) : Cmd ℝ → Fb ℝ → Res (Fb ℝ)
  | .mesh m e c, fb => A.drawMesh w m e c fb
  | .triangle t c two, fb => (A.drawTriangle w t c two fb).map Prod.snd
  | .line p q c, fb => A.drawLine w p q c fb
  | .polyline ps c, fb => A.drawPolyline w ps c fb
  | .pixel p c, fb => A.drawPixel w p c fb

/-- all points of the call are seen, all colours are defined -/
def View.Allows (w : View) : Cmd ℝ → Prop
  | .mesh m _ c => m.OK ∧ ∀ t ∈ m.triangles, w.Draws (if c = -1 then m.getColor else c) t
  | .triangle t c _ => w.Draws c t
  | .line p q _ => w.Sees p ∧ w.Sees q
  | .polyline ps _ => ∀ p ∈ ps, w.Sees p
  | .pixel p _ => w.Sees p

theorem OK.drawTriangle_ok (h : A.OK u v η) {w : View} {color : Int} {t : Tri3 ℝ} (ht : w.Draws color t) (two : Bool) {W H : Int} (hW : 0 < W) (hH : 0 < H)
    {fb : Fb ℝ} (hok : fb.OK W H) : ∃ vis fb', A.drawTriangle w t color two fb = some (vis, fb') ∧ fb'.OK W H := by
  obtain ⟨⟨a, ea, sa⟩, ⟨b, eb, sb⟩, ⟨c, ec, sc⟩, col, hcol⟩ := ht
  obtain ⟨vis, fs, h1, -⟩ := h.triangle_frags sa sb sc col two hW hH
  refine ⟨vis, fb.puts fs, ?_, hok.puts fs⟩
  unfold drawTriangle
  rw [ea, eb, ec, hcol]
  exact h1 fb hok

theorem drawLine_ok (A : Arith) {w : View} {p q : P3 ℝ} (hp : w.Sees p) (hq : w.Sees q) (color : Int) {W H : Int}
    (hW : W ≤ 2147483647) (hH : H ≤ 2147483647) {fb : Fb ℝ} (h : fb.OK W H) : ∃ fb', A.drawLine w p q color fb = some fb' ∧ fb'.OK W H := by
  obtain ⟨a, ea, sa⟩ := hp
  obtain ⟨b, eb, sb⟩ := hq
  unfold drawLine
  rw [ea, eb]
  exact lineV_ok A sa sb color hW hH h

/-- **C113** (any arithmetic): whatever is drawn, in any order, the drawing is defined (no
failing assertion, no overflow, no access outside the buffers) and the buffers keep their
size. -/
theorem OK.render_safe (h : A.OK u v η) (w : View) {W H : Int} (hW : 0 < W) (hH : 0 < H) (hW' : W ≤ 2147483647) (hH' : H ≤ 2147483647)
    (cmds : List (Cmd ℝ)) (hc : ∀ c ∈ cmds, w.Allows c) {fb : Fb ℝ} (hok : fb.OK W H) :
    ∃ fb', cmds.foldlM (fun fb c => A.run w c fb) fb = some fb' ∧ fb'.OK W H := by
  have one : ∀ c : Cmd ℝ, w.Allows c → ∀ fb : Fb ℝ, fb.OK W H → ∃ fb', A.run w c fb = some fb' ∧ fb'.OK W H := by
    intro c hd fb hok
    cases c with
    | mesh m e c =>
      obtain ⟨hm, hd⟩ := hd
      show ∃ fb', A.drawMesh w m e c fb = some fb' ∧ _
      unfold drawMesh
      simp only
      generalize (if c = -1 then m.getColor else c) = c at hd ⊢
      rw [Mesh.loop_soup hm (A.drawMeshTriangle w m e c) (fun t fb => do
        let (drawn, fb) ← A.drawTriangle w t c false fb
        if e ∧ drawn then do
          let fb ← A.drawLine w t.p1 t.p2 0 fb
          let fb ← A.drawLine w t.p1 t.p3 0 fb
          A.drawLine w t.p2 t.p3 0 fb
        else return fb) (fun i s hu => by simp [drawMeshTriangle, hu]) (fun i t s hu ht => by simp [drawMeshTriangle, hu, ht])]
      generalize m.triangles = ts at hd
      induction ts generalizing fb with
      | nil => exact ⟨fb, rfl, hok⟩
      | cons t ts ih =>
        rw [List.foldlM_cons]
        have ht := hd t (by simp)
        obtain ⟨vis, fb0, e1, o0⟩ := h.drawTriangle_ok ht false hW hH hok
        have hstep : ∃ fb1, (do
            let (drawn, fb) ← A.drawTriangle w t c false fb
            if e ∧ drawn then do
              let fb ← A.drawLine w t.p1 t.p2 0 fb
              let fb ← A.drawLine w t.p1 t.p3 0 fb
              A.drawLine w t.p2 t.p3 0 fb
            else return fb : Res (Fb ℝ)) = some fb1 ∧ fb1.OK W H := by
          rw [e1]
          simp only [bind, Option.bind_some, pure]
          split
          · obtain ⟨f1, g1, o1⟩ := drawLine_ok A ht.1 ht.2.1 0 hW' hH' o0
            obtain ⟨f2, g2, o2⟩ := drawLine_ok A ht.1 ht.2.2.1 0 hW' hH' o1
            obtain ⟨f3, g3, o3⟩ := drawLine_ok A ht.2.1 ht.2.2.1 0 hW' hH' o2
            rw [g1, Option.bind_some, g2, Option.bind_some, g3]
            exact ⟨f3, rfl, o3⟩
          · exact ⟨_, rfl, o0⟩
        obtain ⟨fb1, g1, o1⟩ := hstep
        rw [g1]
        exact ih fb1 o1 (fun u hu => hd u (by simp [hu]))
    | triangle t c two =>
      obtain ⟨vis, fb0, e1, o0⟩ := h.drawTriangle_ok hd two hW hH hok
      exact ⟨fb0, by show Option.map _ _ = _; rw [e1]; rfl, o0⟩
    | line p q c => exact drawLine_ok A hd.1 hd.2 c hW' hH' hok
    | polyline ps c =>
      show ∃ fb', A.drawPolyline w ps c fb = some fb' ∧ _
      unfold drawPolyline
      split
      · exact ⟨fb, rfl, hok⟩
      · next hl =>
        refine loopN_inv (fun _ (f : Fb ℝ) => f.OK W H) hok fun i hi f hf => ?_
        rw [List.getElem?_eq_getElem (by omega : i < ps.length), List.getElem?_eq_getElem (by omega : i + 1 < ps.length)]
        simp only [bind, Option.bind_some]
        exact drawLine_ok A (hd _ (List.getElem_mem _)) (hd _ (List.getElem_mem _)) c hW' hH' hf
    | pixel p c =>
      obtain ⟨q, hq, sq⟩ := (show w.Sees p from hd)
      show ∃ fb', A.drawPixel w p c fb = some fb' ∧ _
      unfold drawPixel
      rw [hq]
      simp only [bind, Option.bind_some, pure]
      rw [hok.w, hok.h]
      split
      · exact ⟨fb, rfl, hok⟩
      · obtain ⟨i1, i2⟩ := index_lt (W := W) (H := H) (x := q.x) (y := q.y) ⟨by omega, by omega, by omega, by omega⟩
        exact plot_ok hok (by linarith) (by linarith) _ _ _
  induction cmds generalizing fb with
  | nil => exact ⟨fb, rfl, hok⟩
  | cons c cs ih =>
    rw [List.foldlM_cons]
    obtain ⟨fb1, g1, o1⟩ := one c (hc c (by simp)) fb hok
    rw [g1]
    exact ih (fun d hd => hc d (by simp [hd])) o1

/-! ### IEEE 754 -/

/-- `double` and `float` as on all usual machines -/
noncomputable def machine : Arith := ⟨double, single⟩

theorem machine_ok : machine.OK (1 / 2 ^ 53) (1 / 2 ^ 24) (1 / 2 ^ 150) := by
  have i1 : ∀ {p : ℕ} {emin : ℤ}, 1 ≤ p → emin ≤ 0 → ieee p emin 1 = 1 := by
    intro p emin hp he
    have : |(1 : ℤ)| < 2 ^ p := by
      rw [abs_one]
      exact one_lt_pow₀ (by norm_num) (by omega)
    simpa using ieee_int he this
  refine ⟨ieee_mono (by norm_num), ieee_mono (by norm_num), ieee_zero, i1 (by norm_num) (by norm_num), ieee_zero, i1 (by norm_num) (by norm_num),
    fun x _ => ?_, fun x _ => ?_, by positivity, by norm_num, by norm_num, by norm_num, by norm_num⟩
  · have := ieee_err (p := 53) (emin := -1074) x
    have e : (2 : ℝ) ^ ((-1074 : ℤ) - 1) ≤ 1 / 2 ^ 150 := by
      rw [one_div, ← zpow_natCast, ← zpow_neg]
      exact zpow_le_zpow_right₀ (by norm_num) (by norm_num)
    have e2 : (2 : ℝ) ^ (-((53 : ℕ) : ℤ)) = 1 / 2 ^ 53 := by rw [zpow_neg, zpow_natCast, one_div]
    rw [e2] at this
    exact this.trans (by linarith)
  · have := ieee_err (p := 24) (emin := -149) x
    have e : (2 : ℝ) ^ ((-149 : ℤ) - 1) = 1 / 2 ^ 150 := by
      rw [show ((-149 : ℤ) - 1) = -((150 : ℕ) : ℤ) by norm_num, zpow_neg, zpow_natCast, one_div]
    have e2 : (2 : ℝ) ^ (-((24 : ℕ) : ℤ)) = 1 / 2 ^ 24 := by rw [zpow_neg, zpow_natCast, one_div]
    rw [e, e2] at this
    exact this

end Arith

/-- **C113**: with `double` and `float` of IEEE 754, no sequence of drawings whose points are
projected to coordinates up to `2²⁹` fails an assertion, overflows an `int` or accesses anything
outside the buffers. -/
theorem render_rounded (w : Arith.View) {W H : Int} (hW : 0 < W) (hH : 0 < H) (hW' : W ≤ 2147483647) (hH' : H ≤ 2147483647)
    (cmds : List (Cmd ℝ)) (hc : ∀ c ∈ cmds, w.Allows c) {fb : Fb ℝ} (hok : fb.OK W H) :
    ∃ fb', cmds.foldlM (fun fb c => Arith.machine.run w c fb) fb = some fb' ∧ fb'.OK W H :=
  Arith.machine_ok.render_safe w hW hH hW' hH' cmds hc hok

/-- **C113** (triangles): with `double` and `float` of IEEE 754 a triangle is the depth test for
fragments on the screen in the box of its projected corners, with depths between those of the
corners up to a relative error of `2⁻¹⁸` (`B` bounds the depths; it may be as small as
`2⁻¹⁰⁰`). -/
theorem triangle_rounded {a b c : V ℝ} (ha : a.Small) (hb : b.Small) (hc : c.Small)
    (color : Int) (two : Bool) {W H : Int} (hW : 0 < W) (hH : 0 < H) :
    ∃ (vis : Bool) (fs : List (Frag ℝ)), (∀ fb : Fb ℝ, fb.OK W H → Arith.machine.triangleV a b c (some color) two fb = some (vis, fb.puts fs)) ∧
      (∀ f ∈ fs, f.color = color ∧ OnScreen W H f.x f.y ∧ min a.y (min b.y c.y) ≤ f.y ∧ f.y < max a.y (max b.y c.y) ∧
        min a.x (min b.x c.x) ≤ f.x ∧ f.x ≤ max a.x (max b.x c.x) ∧
        ∀ lo hi B, |lo| ≤ B → |hi| ≤ B → 1 / 2 ^ 100 ≤ B → B ≤ 2 ^ 37 → lo ≤ a.w ∧ a.w ≤ hi → lo ≤ b.w ∧ b.w ≤ hi → lo ≤ c.w ∧ c.w ≤ hi →
          lo - B / 2 ^ 18 ≤ f.w ∧ f.w ≤ hi + B / 2 ^ 18) := by
  obtain ⟨vis, fs, h1, h2⟩ := Arith.machine_ok.triangle_frags ha hb hc color two hW hH
  refine ⟨vis, fs, h1, fun f hf => ?_⟩
  obtain ⟨m1, m2, m3, m4, m5, m6, m7⟩ := h2 f hf
  refine ⟨m1, m2, m3, m4, m5, m6, fun lo hi B hl hh hB0 hB la lb lc => ?_⟩
  have := m7 lo hi B hl hh (le_trans (by norm_num) hB0) hB la lb lc
  refine this.weaken ?_
  norm_num at hB0 ⊢
  linarith

/-! ### Without rounding it is the exact model -/

namespace Arith

/-- no rounding -/
def exact : Arith := ⟨id, id⟩

theorem exact_mix (t a c : ℝ) : exact.mix t a c = c * t + a * (1 - t) := by
  rw [mul_comm a]
  rfl

theorem exact_cutLeft (ax : Int) (aw : ℝ) (bx : Int) (bw : ℝ) : exact.cutLeft ax aw bx bw = Render.cutLeft ax aw bx bw := rfl

theorem assert_congr {p q : Prop} [Decidable p] [Decidable q] (h : p ↔ q) : CAD.assert p = CAD.assert q := by
  unfold CAD.assert
  exact if_congr h rfl rfl

theorem exact_cutRight (W ax : Int) (aw : ℝ) (bx : Int) (bw : ℝ) : exact.cutRight W ax aw bx bw = Render.cutRight W ax aw bx bw := by
  unfold cutRight Render.cutRight
  split
  · cases int32 (bx - ax) with
    | none => rfl
    | some d =>
      cases int32 (bx - (W - 1)) with
      | none => rfl
      | some n =>
        simp only [bind, Option.bind_some]
        rw [assert_congr (show exact.f (d : ℝ) ≠ 0 ↔ d ≠ 0 from by show (d : ℝ) ≠ 0 ↔ _; simp)]
        rfl
  · rfl

theorem exact_hline (ax : Int) (aw : ℝ) (bx : Int) (bw : ℝ) (y color : Int) (fb : Fb ℝ) :
    exact.hline ax aw bx bw y color fb = Render.hline id ax aw bx bw y color fb := by
  unfold hline Render.hline
  simp only [exact_cutLeft, exact_cutRight]
  rfl

theorem exact_row (q : Trap ℝ) (color y : Int) (fb : Fb ℝ) : exact.row q color y fb = q.row id color y fb := by
  unfold row Trap.row
  simp only [exact_hline, exact_mix]
  rfl

theorem exact_trapeze (q : Trap ℝ) (color : Int) (fb : Fb ℝ) : exact.trapeze q color fb = Render.trapeze id q color fb := by
  unfold trapeze Render.trapeze
  simp only [exact_row]
  rfl

theorem exact_triangleV (a b c : V ℝ) (color : Res Int) (two : Bool) (fb : Fb ℝ) :
    exact.triangleV a b c color two fb = Render.triangleV id a b c color two fb := by
  have hb : exact.hidden two a b c = Render.hidden two a b c := by
    unfold hidden Render.hidden
    split
    · unfold backFace Render.backFace
      congr
    · rfl
  have hh : ∀ a b c : V ℝ, exact.halves a b c color fb = Render.halves id a b c color fb := by
    intro a b c
    unfold halves Render.halves
    simp only [exact_trapeze]
    rfl
  unfold triangleV Render.triangleV
  simp only [hb, hh]

theorem exact_lineV (a b : V ℝ) (color : Int) (fb : Fb ℝ) : exact.lineV a b color fb = Render.lineV id a b color fb := by
  unfold lineV Render.lineV
  cases int32 (b.x - a.x) with
  | none => rfl
  | some dx =>
    cases int32 (b.y - a.y) with
    | none => rfl
    | some dy =>
      simp only [bind, Option.bind_some]
      generalize (if |dx| > |dy| then |dx| else |dy|) = im
      congr 1
      funext _
      split
      · rfl
      · have key : ∀ n : Nat, loopN n (fun _ s => exact.lineStep fb.W fb.H (exact.d ((dx : ℝ) / im)) (exact.d ((dy : ℝ) / im))
            (exact.d (exact.d (b.w - a.w) / im)) color s) ⟨a.x, a.y, a.w, fb⟩ =
            (loopN n (fun i (f : Fb ℝ) =>
              if 0 ≤ (a.x : ℝ) + i * ((dx : ℝ) / im) ∧ (a.x : ℝ) + i * ((dx : ℝ) / im) < fb.W ∧ 0 ≤ (a.y : ℝ) + i * ((dy : ℝ) / im) ∧ (a.y : ℝ) + i * ((dy : ℝ) / im) < fb.H then
                (toInt ((a.x : ℝ) + i * ((dx : ℝ) / im))).bind fun x => (toInt ((a.y : ℝ) + i * ((dy : ℝ) / im))).bind fun y =>
                f.plot (x + y * fb.W) (a.w + i * ((b.w - a.w) / im) + wEpsilon) (id (a.w + i * ((b.w - a.w) / im))) color
              else some f) fb).map fun f => ⟨a.x + n * ((dx : ℝ) / im), a.y + n * ((dy : ℝ) / im), a.w + n * ((b.w - a.w) / im), f⟩ := by
          intro n
          induction n with
          | zero => simp [loopN]
          | succ n ih =>
            rw [loopN_succ, loopN_succ, ih]
            cases loopN n _ fb with
            | none => rfl
            | some f =>
              simp only [Option.map_some, Option.bind_some]
              unfold lineStep linePlot
              simp only [exact, id, bind]
              have fin : ∀ (r : Res (Fb ℝ)) (F G : Fb ℝ → Pen), F = G → (r.bind fun f => pure (F f)) = r.map G := by
                rintro r F _ rfl
                cases r <;> rfl
              refine fin _ (fun f => ⟨_, _, _, f⟩) _ ?_
              funext f
              congr 1 <;> push_cast <;> ring
        rw [key]
        generalize loopN im.toNat _ fb = r
        cases r <;> rfl

/-- the view of a scene of the exact model -/
noncomputable def ofScene (sc : Scene ℝ) : View := ⟨sc.camera.project, fun c t => shade sc.lights c (sc.normal t)⟩

theorem exact_project (c : Camera ℝ) (p : P3 ℝ) : exact.project c p = c.project p := rfl

/-- **C113**: without rounding, the functions of this part are those of the exact model. -/
theorem exact_model (sc : Scene ℝ) (hr : sc.rnd = id) (c : Cmd ℝ) (fb : Fb ℝ) : exact.run (ofScene sc) c fb = c.run sc fb := by
  have tri : ∀ t c two fb, exact.drawTriangle (ofScene sc) t c two fb = Render.drawTriangle sc t c two fb := by
    intro t c two fb
    unfold drawTriangle Render.drawTriangle
    simp only [exact_triangleV, hr]
    rfl
  have lin : ∀ p q c fb, exact.drawLine (ofScene sc) p q c fb = Render.drawLine sc p q c fb := by
    intro p q c fb
    unfold drawLine Render.drawLine
    simp only [exact_lineV, hr]
    rfl
  cases c with
  | mesh m e c =>
    show exact.drawMesh (ofScene sc) m e c fb = Render.drawMesh sc m e c fb
    unfold drawMesh Render.drawMesh
    have : ∀ c, exact.drawMeshTriangle (ofScene sc) m e c = Render.drawMeshTriangle sc m e c := by
      intro c
      funext i fb
      unfold drawMeshTriangle Render.drawMeshTriangle
      simp only [tri, lin]
    simp only [this]
  | triangle t c two =>
    show Option.map _ (exact.drawTriangle (ofScene sc) t c two fb) = Option.map _ (Render.drawTriangle sc t c two fb)
    rw [tri]
  | line p q c => exact lin p q c fb
  | polyline ps c =>
    show exact.drawPolyline (ofScene sc) ps c fb = Render.drawPolyline sc ps c fb
    unfold drawPolyline Render.drawPolyline
    simp only [lin]
  | pixel p c =>
    show exact.drawPixel (ofScene sc) p c fb = Render.drawPixel sc p c fb
    unfold drawPixel Render.drawPixel
    rw [hr]
    rfl

/-! ### The projection -/

variable {A : Arith} {u v η : ℝ}

/-- the screen coordinate of a quotient up to `2²⁸` is not too large -/
theorem OK.coord_small (h : A.OK u v η) {r : ℝ} {k : Int} (hr : |r| ≤ 2 ^ 28) (hk : -268435456 ≤ k ∧ k ≤ 268435456) :
    toInt (A.d (A.d (r + k) + 1 / 2)) = some (trunc (A.d (A.d (r + k) + 1 / 2))) ∧ -big ≤ trunc (A.d (A.d (r + k) + 1 / 2)) ∧
      trunc (A.d (A.d (r + k) + 1 / 2)) ≤ big := by
  have k1 : (-268435456 : ℝ) ≤ k := by exact_mod_cast hk.1
  have k2 : (k : ℝ) ≤ 268435456 := by exact_mod_cast hk.2
  norm_num at hr
  rw [abs_le] at hr
  have hx : |r + k| ≤ 536870912 := abs_le.2 ⟨by linarith, by linarith⟩
  have e := h.dnear (r + k) (hx.trans (by norm_num))
  have e2 : u * |r + k| + η ≤ 1 / 8 := by
    have := mul_le_mul h.usmall hx (abs_nonneg _) (by norm_num)
    have := h.ηu
    have := h.usmall
    norm_num at *
    linarith
  have e3 := abs_le.1 (e.trans e2)
  obtain ⟨a1, a2, a3⟩ := h.round_btw (m := -big) (M := big) (x := A.d (r + k)) le_rfl le_rfl
    (by rw [big_eq]; push_cast; constructor <;> linarith) (by decide)
  exact ⟨a1, a2, by rw [big_eq] at a3 ⊢; omega⟩

/-- **C113** (projection): a point whose computed depth is not zero and whose computed offsets
from the centre of the screen are at most `2²⁸` pixels has small coordinates, as the theorems
above ask. -/
theorem OK.camera_sees (h : A.OK u v η) (c : Camera ℝ) (p : P3 ℝ) {q : P3 ℝ} {z : ℝ}
    (hq : q = c.rot ⟨A.d (p.x - c.x), A.d (p.y - c.y), A.d (p.z - c.z)⟩) (hz : z = A.d (q.z + c.ahead)) (h0 : z ≠ 0)
    (hx : |A.d (A.d (q.x * c.zoom) / z)| ≤ 2 ^ 28) (hy : |A.d (A.d (q.y * c.zoom) / z)| ≤ 2 ^ 28)
    (hcx : -268435456 ≤ c.cx ∧ c.cx ≤ 268435456) (hcy : -268435456 ≤ c.cy ∧ c.cy ≤ 268435456) :
    ∃ r, A.project c p = some r ∧ r.Small := by
  obtain ⟨x1, x2, x3⟩ := h.coord_small hx hcx
  obtain ⟨y1, y2, y3⟩ := h.coord_small hy hcy
  refine ⟨⟨_, _, A.d (1 / z)⟩, ?_, ⟨x2, x3, y2, y3⟩⟩
  unfold project
  simp only
  rw [← hq, ← hz, assert_true h0, x1, y1]
  rfl

/-- a camera in `(0, 0, -10)` and its picture of 640 by 480 pixels -/
noncomputable def exampleCamera : Camera ℝ := ⟨0, 0, -10, 0, 500, 320, 240, id⟩

theorem machine_int {k : Int} (hk : |k| < 2 ^ 53) : machine.d k = k := ieee_int (p := 53) (emin := -1074) (by norm_num) hk

/-- the hypotheses of `render_rounded` for a triangle before that camera -/
example : (⟨machine.project exampleCamera, fun c _ => some c⟩ : View).Allows (.triangle ⟨⟨-3, 0, 0⟩, ⟨3, 0, 0⟩, ⟨0, 4, 1⟩⟩ 255 true) := by
  have sees : ∀ x y z : Int, |x| ≤ 10 → |y| ≤ 10 → 0 ≤ z → z ≤ 10 → (⟨machine.project exampleCamera, fun c _ => some c⟩ : View).Sees ⟨x, y, z⟩ := by
    intro x y z hx hy hz hz'
    rw [abs_le] at hx hy
    have i : ∀ k : Int, -6000 ≤ k → k ≤ 6000 → machine.d (k : ℝ) = k := by
      intro k h1 h2
      exact machine_int (by rw [abs_lt]; constructor <;> norm_num <;> omega)
    have ex : machine.d ((x : ℝ) - 0) = x := by rw [sub_zero]; exact i x (by omega) (by omega)
    have ey : machine.d ((y : ℝ) - 0) = y := by rw [sub_zero]; exact i y (by omega) (by omega)
    have ez : machine.d ((z : ℝ) - -10) = ((z + 10 : Int) : ℝ) := by
      rw [← i (z + 10) (by omega) (by omega)]
      push_cast
      congr 1
      ring
    have ez' : machine.d ((((z + 10 : Int) : ℝ)) + 0) = ((z + 10 : Int) : ℝ) := by rw [add_zero]; exact i _ (by omega) (by omega)
    have zp : (10 : ℝ) ≤ ((z + 10 : Int) : ℝ) := by exact_mod_cast (by omega : (10 : Int) ≤ z + 10)
    have quot : ∀ k : Int, -10 ≤ k → k ≤ 10 → |machine.d (machine.d ((k : ℝ) * 500) / ((z + 10 : Int) : ℝ))| ≤ 2 ^ 28 := by
      intro k h1 h2
      have e : machine.d ((k : ℝ) * 500) = ((k * 500 : Int) : ℝ) := by
        rw [← i (k * 500) (by omega) (by omega)]
        push_cast
        rfl
      rw [e]
      have k1 : (-5000 : ℝ) ≤ ((k * 500 : Int) : ℝ) := by exact_mod_cast (by omega : (-5000 : Int) ≤ k * 500)
      have k2 : ((k * 500 : Int) : ℝ) ≤ 5000 := by exact_mod_cast (by omega : k * 500 ≤ (5000 : Int))
      have b1 : ((-5000 : Int) : ℝ) ≤ ((k * 500 : Int) : ℝ) / ((z + 10 : Int) : ℝ) := by
        rw [le_div_iff₀ (by linarith)]; push_cast at *; linarith
      have b2 : ((k * 500 : Int) : ℝ) / ((z + 10 : Int) : ℝ) ≤ ((5000 : Int) : ℝ) := by
        rw [div_le_iff₀ (by linarith)]; push_cast at *; linarith
      have m1 := machine_ok.dmono b1
      have m2 := machine_ok.dmono b2
      rw [i _ (by norm_num) (by norm_num)] at m1 m2
      rw [abs_le]
      push_cast at m1 m2
      constructor <;> norm_num <;> linarith
    refine machine_ok.camera_sees exampleCamera ⟨x, y, z⟩ (q := ⟨x, y, ((z + 10 : Int) : ℝ)⟩) (z := ((z + 10 : Int) : ℝ)) ?_ ?_ (by linarith)
      (quot x (by omega) (by omega)) (quot y (by omega) (by omega)) (by decide) (by decide)
    · show _ = id _
      simp only [id, exampleCamera]
      rw [ex, ey, ez]
    · exact ez'.symm
  refine ⟨?_, ?_, ?_, _, rfl⟩
  · have := sees (-3) 0 0 (by norm_num) (by norm_num) (by norm_num) (by norm_num); simpa using this
  · have := sees 3 0 0 (by norm_num) (by norm_num) (by norm_num) (by norm_num); simpa using this
  · have := sees 0 4 1 (by norm_num) (by norm_num) (by norm_num) (by norm_num); simpa using this

/-- the hypotheses of `triangle_rounded`: corners on and outside a screen -/
example : (⟨-50, 20, 1 / 7⟩ : V ℝ).Small ∧ (⟨700, -30, 1 / 3⟩ : V ℝ).Small ∧ (⟨100, 900, 2⟩ : V ℝ).Small := by
  refine ⟨⟨?_, ?_, ?_, ?_⟩, ⟨?_, ?_, ?_, ?_⟩, ⟨?_, ?_, ?_, ?_⟩⟩ <;> decide

end Arith

end CAD.Render
