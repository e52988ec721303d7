import Verif.Props.Mandelbrot
import Verif.Lemmas.Rounding
import Verif.Lemmas.Ieee

/-! C114: `ImageGenerator::Mandelbrot` in `float` arithmetic. -/

namespace CAD
namespace ImageUtil
open Rounded

/-- what is used of the rounding of `float`: small errors for numbers of moderate size and
relative errors for integers -/
structure FloatOK (u : ℝ) (rnd : ℝ → ℝ) : Prop where
  unit1 : Unit1 u rnd
  int : ∀ k : ℤ, |(k : ℝ)| ≤ 2147483648 → |rnd k - k| ≤ 1.1 * u * |(k : ℝ)|

variable {u : ℝ} {rnd : ℝ → ℝ}

/-- a column or row, as a fraction -/
theorem fraction_near (h : FloatOK u rnd) {n i : ℤ} (hi : 0 ≤ i) (hn : i < n) (hn' : n ≤ 2147483647) :
    |rnd (rnd ((n - i : ℤ) : ℝ) / rnd (n : ℝ)) - ((n - i : ℤ) : ℝ) / n| ≤ 4.4 * u := by
  have h0 := h.unit1.nonneg
  have h1 := h.unit1.small
  have nb : (n : ℝ) ≤ 2147483647 := by exact_mod_cast hn'
  have npos : (0 : ℝ) < n := by exact_mod_cast (show 0 < n by omega)
  have a0 : (0 : ℝ) ≤ ((n - i : ℤ) : ℝ) := by exact_mod_cast (show 0 ≤ n - i by omega)
  have a1 : ((n - i : ℤ) : ℝ) ≤ n := by exact_mod_cast (show n - i ≤ n by omega)
  have ea := h.int (n - i) (by rw [abs_of_nonneg a0]; linarith)
  have eb := h.int n (by rw [abs_of_pos npos]; linarith)
  rw [abs_of_nonneg a0] at ea
  rw [abs_of_pos npos] at eb
  generalize ((n - i : ℤ) : ℝ) = a at *
  generalize rnd a = a' at *
  generalize rnd (n : ℝ) = b' at *
  generalize (n : ℝ) = b at *
  have hb' : 0.99 * b ≤ b' := by
    have := (abs_le.1 eb).1
    nlinarith
  have bpos : 0 < b' := by nlinarith
  refine h.unit1.near (c := 2.3) (M := 1) ?_ ?_ (by norm_num) (by norm_num) (by norm_num)
  · rw [div_sub_div _ _ bpos.ne' npos.ne', abs_div, abs_of_pos (mul_pos bpos npos), div_le_iff₀ (mul_pos bpos npos)]
    have e : a' * b - b' * a = (a' - a) * b - (b' - b) * a := by ring
    rw [e]
    have t1 : |(a' - a) * b| ≤ 1.1 * u * b * b := by
      rw [abs_mul, abs_of_pos npos]
      refine mul_le_mul_of_nonneg_right (ea.trans ?_) npos.le
      exact mul_le_mul_of_nonneg_left a1 (by positivity)
    have t2 : |(b' - b) * a| ≤ 1.1 * u * b * b := by
      rw [abs_mul, abs_of_nonneg a0]
      exact mul_le_mul eb a1 a0 (by positivity)
    have t3 := abs_sub ((a' - a) * b) ((b' - b) * a)
    have t4 : 2.2 * u * b * b ≤ 2.3 * u * (b' * b) := by
      have : 2.2 * b ≤ 2.3 * b' := by linarith
      nlinarith [mul_nonneg h0 npos.le]
    linarith
  · rw [abs_of_nonneg (div_nonneg a0 npos.le)]
    exact (div_le_one npos).2 a1

/-- the coordinates of a pixel -/
theorem pos_near (h : FloatOK u rnd) {n i : ℤ} (hi : 0 ≤ i) (hn : i < n) (hn' : n ≤ 2147483647) {lo hi' : ℝ} (d : hi' - lo = 3)
    (l1 : -2.1 ≤ lo) (l2 : lo ≤ -1.5) :
    |mandelPos rnd (rnd lo) (rnd hi') n i - (hi' - 3 * i / n)| ≤ 35 * u := by
  have h0 := h.unit1.nonneg
  have npos : (0 : ℝ) < n := by exact_mod_cast (show 0 < n by omega)
  have i0 : (0 : ℝ) ≤ i := by exact_mod_cast hi
  have i1 : (i : ℝ) ≤ n := by exact_mod_cast hn.le
  have q0 : 0 ≤ (i : ℝ) / n := div_nonneg i0 npos.le
  have q1 : (i : ℝ) / n ≤ 1 := (div_le_one npos).2 i1
  have ef := fraction_near h hi hn hn'
  have eq : ((n - i : ℤ) : ℝ) / n = 1 - i / n := by push_cast; field_simp
  have elo : |rnd lo - lo| ≤ 3.2 * u :=
    h.unit1.near (c := 0) (M := 2.1) (by simp) (by rw [abs_of_nonpos (by linarith)]; linarith) (by norm_num) (by norm_num) (by norm_num)
  have ehi : |rnd hi' - hi'| ≤ 2.6 * u :=
    h.unit1.near (c := 0) (M := 1.5) (by simp) (by rw [abs_of_nonneg (by linarith)]; linarith) (by norm_num) (by norm_num) (by norm_num)
  have ed : |rnd (rnd hi' - rnd lo) - (hi' - lo)| ≤ 9.9 * u :=
    h.unit1.sub (M := 3) ehi elo (by rw [d]; norm_num) (by norm_num) (by norm_num) (by norm_num)
  rw [eq] at ef
  have ep := h.unit1.mul (A := 1) (B := 3) (e := 28.2) ef ed (by rw [abs_of_nonneg (by linarith)]; linarith) (by rw [d]; norm_num)
    (by norm_num) (by norm_num) (by norm_num) (by norm_num) (by norm_num) (by norm_num) (by norm_num)
  have es := h.unit1.add (M := 2.1) (e := 34.6) elo ep (by
    rw [d, abs_le]; constructor <;> linarith) (by norm_num) (by norm_num) (by norm_num)
  have e : lo + (1 - (i : ℝ) / n) * (hi' - lo) = hi' - 3 * i / n := by rw [d]; linear_combination -d
  rw [e] at es
  unfold mandelPos
  exact es.trans (by nlinarith)

theorem norm_le_parts {z : ℂ} {a b : ℝ} (ha : |z.re| ≤ a) (hb : |z.im| ≤ b) : ‖z‖ ≤ a + b :=
  (Complex.norm_le_abs_re_add_abs_im z).trans (add_le_add ha hb)

/-- the point of a pixel as computed (specification of nothing: a complex number made of the
two computed coordinates) -/
noncomputable def seenPoint (rnd : ℝ → ℝ) (w h : ℤ) (x y : ℕ) : ℂ :=
  ⟨mandelPos rnd (rnd (-21 / 10)) (rnd (9 / 10)) w x, mandelPos rnd (rnd (-3 / 2)) (rnd (3 / 2)) h y⟩

theorem point_near (h : FloatOK u rnd) {W H : ℤ} {x y : ℕ} (hx : (x : ℤ) < W) (hy : (y : ℤ) < H) (hW : W ≤ 2147483647)
    (hH : H ≤ 2147483647) : ‖seenPoint rnd W H x y - pointOf W H x y‖ ≤ 70 * u := by
  have e1 := pos_near h (by omega) hx hW (lo := -21 / 10) (hi' := 9 / 10) (by norm_num) (by norm_num) (by norm_num)
  have e2 := pos_near h (by omega) hy hH (lo := -3 / 2) (hi' := 3 / 2) (by norm_num) (by norm_num) (by norm_num)
  refine (norm_le_parts (a := 35 * u) (b := 35 * u) ?_ ?_).trans (by linarith)
  · simpa [seenPoint, pointOf] using e1
  · simpa [seenPoint, pointOf] using e2

theorem point_size {W H : ℤ} {x y : ℕ} (hx : (x : ℤ) < W) (hy : (y : ℤ) < H) : ‖pointOf W H x y‖ ≤ 2.6 := by
  have key : ∀ {n : ℤ} {i : ℕ}, (i : ℤ) < n → 0 ≤ (i : ℝ) / n ∧ (i : ℝ) / n ≤ 1 := by
    intro n i hi
    have npos : (0 : ℝ) < n := by exact_mod_cast (show 0 < n by omega)
    exact ⟨by positivity, (div_le_one npos).2 (by exact_mod_cast hi.le)⟩
  obtain ⟨a0, a1⟩ := key hx
  obtain ⟨b0, b1⟩ := key hy
  have : ‖pointOf W H x y‖ ^ 2 ≤ 2.6 ^ 2 := by
    rw [Complex.sq_norm, Complex.normSq_apply]
    simp only [pointOf, mul_div_assoc]
    nlinarith
  exact (pow_le_pow_iff_left₀ (norm_nonneg _) (by norm_num) two_ne_zero).1 this

/-- one round from a point of the disk of radius two -/
theorem step_near (h : FloatOK u rnd) {z c : ℂ} (hz : ‖z‖ ≤ 2) (hc : ‖c‖ ≤ 2.61) :
    ‖(⟨(mandelStep rnd c.re c.im (z.re, z.im)).1, (mandelStep rnd c.re c.im (z.re, z.im)).2⟩ : ℂ) - (z ^ 2 + c)‖ ≤ 64 * u := by
  have h0 := h.unit1.nonneg
  have sq : z.re ^ 2 + z.im ^ 2 ≤ 4 := by
    have := Complex.sq_norm z
    rw [Complex.normSq_apply] at this
    nlinarith [norm_nonneg z]
  have c1 := (Complex.abs_re_le_norm c).trans hc
  have c2 := (Complex.abs_im_le_norm c).trans hc
  have p1 := sq_nonneg (z.re + z.im)
  have p2 := sq_nonneg (z.re - z.im)
  have b1 : |z.re + z.im| ≤ 3 := abs_le_of_sq_le_sq (by nlinarith) (by norm_num)
  have b2 : |z.re - z.im| ≤ 3 := abs_le_of_sq_le_sq (by nlinarith) (by norm_num)
  have b3 : |z.re * z.im| ≤ 2 := by rw [abs_le]; constructor <;> nlinarith
  have b4 : |(z.re + z.im) * (z.re - z.im)| ≤ 4 := by
    rw [abs_le]; constructor <;> nlinarith [sq_nonneg z.re, sq_nonneg z.im]
  have e1 : |rnd (z.re + z.im) - (z.re + z.im)| ≤ 4.1 * u :=
    h.unit1.near (c := 0) (by simp) b1 (by norm_num) (by norm_num) (by norm_num)
  have e2 : |rnd (z.re - z.im) - (z.re - z.im)| ≤ 4.1 * u :=
    h.unit1.near (c := 0) (by simp) b2 (by norm_num) (by norm_num) (by norm_num)
  have e3 := h.unit1.mul (e := 35.7) e1 e2 b1 b2 (by norm_num) (by norm_num) (by norm_num) (by norm_num) (by norm_num) (by norm_num) (by norm_num)
  have e4 := h.unit1.add (a' := rnd (rnd (z.re + z.im) * rnd (z.re - z.im))) (b' := c.re) (b := c.re) (d := 0) (M := 6.61) (e := 43.5) e3 (by simp)
    ((abs_add_le _ _).trans (by linarith)) (by norm_num) (by norm_num) (by norm_num)
  have f1 : |rnd (z.re * z.im) - z.re * z.im| ≤ 3.1 * u :=
    h.unit1.near (c := 0) (by simp) b3 (by norm_num) (by norm_num) (by norm_num)
  have f2 := h.unit1.add (M := 4) (e := 11.3) f1 f1 ((abs_add_le _ _).trans (by linarith)) (by norm_num) (by norm_num) (by norm_num)
  have f3 := h.unit1.add (a' := rnd (rnd (z.re * z.im) + rnd (z.re * z.im))) (b' := c.im) (b := c.im) (d := 0) (M := 6.61) (e := 19.1) f2 (by simp)
    ((abs_add_le _ _).trans (by have := abs_add_le (z.re * z.im) (z.re * z.im); linarith)) (by norm_num) (by norm_num) (by norm_num)
  refine (norm_le_parts (a := 43.5 * u) (b := 19.1 * u) ?_ ?_).trans (by linarith)
  · have : (z ^ 2 + c).re = (z.re + z.im) * (z.re - z.im) + c.re := by
      simp only [pow_two, Complex.add_re, Complex.mul_re]; ring
    rw [Complex.sub_re, this]
    exact e4
  · have : (z ^ 2 + c).im = z.re * z.im + z.re * z.im + c.im := by
      simp only [pow_two, Complex.add_im, Complex.mul_im]; ring
    rw [Complex.sub_im, this]
    exact f3

/-- the test of the loop, for points not too near to the circle of radius two -/
theorem size_near_two (h : FloatOK u rnd) {z : ℂ} :
    (‖z‖ + 8 * u ≤ 2 → 0 < u → mandelSize rnd (z.re, z.im) < 4) ∧ (2 + 8 * u ≤ ‖z‖ → ‖z‖ ≤ 7 → 4 ≤ mandelSize rnd (z.re, z.im)) := by
  have h0 := h.unit1.nonneg
  have h1 := h.unit1.small
  have sq : z.re * z.re + z.im * z.im = ‖z‖ ^ 2 := by rw [Complex.sq_norm, Complex.normSq_apply]
  have n0 := norm_nonneg z
  have key : ∀ M : ℝ, ‖z‖ ^ 2 ≤ M → M ≤ 49 → |mandelSize rnd (z.re, z.im) - ‖z‖ ^ 2| ≤ (3 * M + 3.3) * u := by
    intro M hM hM'
    have x0 := mul_self_nonneg z.re
    have y0 := mul_self_nonneg z.im
    have e1 : |rnd (z.re * z.re) - z.re * z.re| ≤ (M + 1.1) * u :=
      h.unit1.near (c := 0) (M := M) (by simp) (by rw [abs_of_nonneg x0]; linarith) (by norm_num) (by linarith) (by linarith)
    have e2 : |rnd (z.im * z.im) - z.im * z.im| ≤ (M + 1.1) * u :=
      h.unit1.near (c := 0) (M := M) (by simp) (by rw [abs_of_nonneg y0]; linarith) (by norm_num) (by linarith) (by linarith)
    have e3 := h.unit1.add (M := M) (e := 3 * M + 3.3) e1 e2 (by rw [sq, abs_of_nonneg (sq_nonneg _)]; exact hM) (by linarith) (by linarith) (by linarith)
    rw [sq] at e3
    exact e3
  constructor
  · intro hz up
    have := (abs_le.1 (key 4 (by nlinarith) (by norm_num))).2
    nlinarith
  · intro hz h7
    by_cases h3 : ‖z‖ ≤ 3
    · have := (abs_le.1 (key 9 (by nlinarith) (by norm_num))).1
      nlinarith
    · have := (abs_le.1 (key 49 (by nlinarith) (by norm_num))).1
      nlinarith

/-- the computed orbit -/
noncomputable def seenOrbit (rnd : ℝ → ℝ) (c : ℂ) (j : ℕ) : ℂ :=
  ⟨((mandelStep rnd c.re c.im)^[j] (c.re, c.im)).1, ((mandelStep rnd c.re c.im)^[j] (c.re, c.im)).2⟩

theorem seenOrbit_pair (c : ℂ) (j : ℕ) :
    (mandelStep rnd c.re c.im)^[j] (c.re, c.im) = ((seenOrbit rnd c j).re, (seenOrbit rnd c j).im) := rfl

theorem seenOrbit_succ (c : ℂ) (j : ℕ) : seenOrbit rnd c (j + 1) =
    ⟨(mandelStep rnd c.re c.im ((seenOrbit rnd c j).re, (seenOrbit rnd c j).im)).1,
      (mandelStep rnd c.re c.im ((seenOrbit rnd c j).re, (seenOrbit rnd c j).im)).2⟩ := by
  unfold seenOrbit
  rw [Function.iterate_succ_apply']

/-- `E j` bounds how far rounding has moved the orbit of `c` after `j` rounds: 70 units in the
last place for the point itself, 140 more in each round, on top of what squaring makes of the
error so far (specification) -/
structure ErrorBound (u : ℝ) (c : ℂ) (k : ℕ) (E : ℕ → ℝ) : Prop where
  start : 70 * u ≤ E 0
  next : ∀ j < k, (2 * ‖orbit c j‖ + E j) * E j + 140 * u ≤ E (j + 1)

theorem orbit_near (h : FloatOK u rnd) {c c' : ℂ} (hc : ‖c' - c‖ ≤ 70 * u) (hc' : ‖c‖ ≤ 2.6) {k : ℕ} {E : ℕ → ℝ} (hE : ErrorBound u c k E)
    (hin : ∀ j < k, ‖orbit c j‖ + E j ≤ 2) : ∀ j ≤ k, ‖seenOrbit rnd c' j - orbit c j‖ ≤ E j := by
  have h0 := h.unit1.nonneg
  have h1 := h.unit1.small
  have c2 : ‖c'‖ ≤ 2.61 := by
    have := norm_add_le (c' - c) c
    rw [sub_add_cancel] at this
    linarith
  intro j
  induction j with
  | zero => intro _; exact hc.trans hE.start
  | succ j ih =>
    intro hj
    have e := ih (by omega)
    have hz := hin j (by omega)
    have n := hE.next j (by omega)
    rw [seenOrbit_succ, orbit_succ]
    set z := seenOrbit rnd c' j
    set o := orbit c j
    have zs : ‖z‖ ≤ ‖o‖ + E j := by
      have := norm_add_le (z - o) o
      rw [sub_add_cancel] at this
      linarith
    have st := step_near h (z := z) (zs.trans hz) c2
    have alg : z ^ 2 + c' - (o ^ 2 + c) = (z + o) * (z - o) + (c' - c) := by ring
    have t1 : ‖z ^ 2 + c' - (o ^ 2 + c)‖ ≤ (2 * ‖o‖ + E j) * E j + 70 * u := by
      rw [alg]
      refine (norm_add_le _ _).trans (add_le_add ?_ hc)
      rw [norm_mul]
      refine mul_le_mul ((norm_add_le _ _).trans (by linarith)) e (norm_nonneg _) ?_
      linarith [norm_nonneg o, (norm_nonneg _).trans e]
    refine (norm_sub_le_norm_sub_add_norm_sub _ (z ^ 2 + c') _).trans ?_
    linarith

/-- the count of the loop is the escape time of the exact orbit, if this keeps away from the
circle of radius two by more than the errors -/
theorem escapes_near (h : FloatOK u rnd) (up : 0 < u) {c c' : ℂ} (hc : ‖c' - c‖ ≤ 70 * u) (hc' : ‖c‖ ≤ 2.6) {n k : ℕ} (hk : EscapeTime c n k)
    {E : ℕ → ℝ} (hE : ErrorBound u c k E) (hin : ∀ j < k, ‖orbit c j‖ + E j + 8 * u ≤ 2) (hout : k < n → 2 + E k + 8 * u ≤ ‖orbit c k‖) :
    Escapes (mandelStep rnd c'.re c'.im) (mandelSize rnd) (c'.re, c'.im) n k := by
  have h0 := h.unit1.nonneg
  have h1 := h.unit1.small
  have near := orbit_near h hc hc' hE fun j hj => by linarith [hin j hj]
  have c2 : ‖c'‖ ≤ 2.61 := by
    have := norm_add_le (c' - c) c
    rw [sub_add_cancel] at this
    linarith
  have up' : ∀ j ≤ k, ‖seenOrbit rnd c' j‖ ≤ ‖orbit c j‖ + E j := by
    intro j hj
    have := norm_add_le (seenOrbit rnd c' j - orbit c j) (orbit c j)
    rw [sub_add_cancel] at this
    linarith [near j hj]
  refine ⟨hk.le, fun j hj => ?_, fun hkn => ?_⟩
  · rw [seenOrbit_pair]
    exact (size_near_two h).1 (by linarith [up' j hj.le, hin j hj]) up
  · rw [seenOrbit_pair]
    refine (size_near_two h).2 ?_ ?_
    · have := norm_sub_norm_le (orbit c k) (seenOrbit rnd c' k)
      rw [norm_sub_rev] at this
      linarith [near k le_rfl, hout hkn]
    · cases k with
      | zero => exact c2.trans (by norm_num)
      | succ k =>
        have z2 : ‖seenOrbit rnd c' k‖ ≤ 2 := (up' k (by omega)).trans (by linarith [hin k (by omega)])
        have st := step_near h z2 c2
        rw [← seenOrbit_succ] at st
        have t := norm_add_le (seenOrbit rnd c' (k + 1) - (seenOrbit rnd c' k ^ 2 + c')) (seenOrbit rnd c' k ^ 2 + c')
        rw [sub_add_cancel] at t
        have t2 := norm_add_le (seenOrbit rnd c' k ^ 2) c'
        rw [norm_pow] at t2
        nlinarith [norm_nonneg (seenOrbit rnd c' k)]

/-- **C114** the picture in rounded arithmetic: a pixel has the level of its exact point whenever
the exact orbit keeps away from the circle of radius two by more than the rounding errors that
can have gathered.  `ErrorBound` says how they gather. -/
theorem mandelbrot_rounded (hf : FloatOK u rnd) (up : 0 < u) (im : Image) {w h : Int} (n : Nat) (hw : 0 ≤ w) (hh : 0 ≤ h)
    (hs : w * h * 4 ≤ 2147483647) (hn : n ≤ 255) :
    ∃ im', mandelbrot rnd im w h n = some im' ∧ im'.WF ∧ im'.w = w ∧ im'.h = h ∧ im'.p = 4 ∧
      ∀ x y : Nat, (x : Int) < w → (y : Int) < h →
        (∃ g : UInt8, g.toNat ≤ n ∧ ∀ c : Nat, c < 4 → im'.get x y c = some (if c = 3 then 0 else g)) ∧
        ∀ (k : Nat) (E : ℕ → ℝ), EscapeTime (pointOf w h x y) n k → ErrorBound u (pointOf w h x y) k E →
          (∀ j < k, ‖orbit (pointOf w h x y) j‖ + E j + 8 * u ≤ 2) → (k < n → 2 + E k + 8 * u ≤ ‖orbit (pointOf w h x y) k‖) →
          ∀ c : Nat, c < 4 → im'.get x y c = some (if c = 3 then 0 else UInt8.ofNat k) := by
  obtain ⟨im', e, h1, h2, h3, h4, h5⟩ := mandelbrot_ints rnd im n hw hh hs (by omega)
  refine ⟨im', e, h1, h2, h3, h4, fun x y hx hy => ?_⟩
  obtain ⟨k, hk, hc⟩ := h5 x y hx hy
  have hkn := hk.le
  refine ⟨⟨UInt8.ofNat k, ?_, fun c hc' => ?_⟩, fun k' E hk' hE hin hout c hc' => ?_⟩
  · have : (UInt8.ofNat k).toNat = k := by simp; omega
    omega
  · rw [hc c hc', le32_grey k (by omega) c hc']
  · have hW : w ≤ 2147483647 := by nlinarith
    have hH : h ≤ 2147483647 := by nlinarith
    have := escapes_near hf up (c' := seenPoint rnd w h x y) (point_near hf hx hy hW hH) (point_size hx hy) hk' hE hin hout
    obtain rfl := escapes_unique hk this
    rw [hc c hc', le32_grey k (by omega) c hc']

/-- the `float` of IEEE 754 -/
theorem floatOK_single : FloatOK (2 ^ (-24 : ℤ)) single := by
  have tiny : (2 : ℝ) ^ (-149 - 1 : ℤ) ≤ 0.1 * 2 ^ (-24 : ℤ) := by
    rw [show (-149 - 1 : ℤ) = -126 + -24 by norm_num, zpow_add₀ (by norm_num)]
    exact mul_le_mul_of_nonneg_right (by norm_num) (by positivity)
  have pos : (0 : ℝ) < 2 ^ (-24 : ℤ) := by positivity
  refine ⟨⟨pos.le, by norm_num, fun x _ => ?_⟩, fun k _ => ?_⟩
  · have := ieee_err (p := 24) (emin := -149) x
    have e : (2 : ℝ) ^ (-((24 : ℕ) : ℤ)) = 2 ^ (-24 : ℤ) := by norm_num
    rw [e] at this
    refine this.trans ?_
    rw [mul_add, mul_one]
    exact add_le_add le_rfl (tiny.trans (by norm_num))
  · by_cases hk : k = 0
    · subst hk
      have : single ((0 : ℤ) : ℝ) = 0 := by
        rw [Int.cast_zero]; exact ieee_zero
      rw [this]; simp
    · have := ieee_err (p := 24) (emin := -149) (k : ℝ)
      have e : (2 : ℝ) ^ (-((24 : ℕ) : ℤ)) = 2 ^ (-24 : ℤ) := by norm_num
      rw [e] at this
      refine this.trans ?_
      have one : (1 : ℝ) ≤ |(k : ℝ)| := by exact_mod_cast Int.one_le_abs hk
      nlinarith

/-- an error bound that needs no knowledge of the orbit other than that it stays in the circle -/
theorem errorBound_four (hu : 0 ≤ u) {c : ℂ} {k : ℕ} (hin : ∀ j < k, ‖orbit c j‖ + 117 * u * 4 ^ j ≤ 2) :
    ErrorBound u c k fun j => u * (117 * 4 ^ j - 47) := by
  refine ⟨by norm_num; linarith, fun j hj => ?_⟩
  have h4 : (1 : ℝ) ≤ 4 ^ j := one_le_pow₀ (by norm_num)
  have e0 : 0 ≤ u * (117 * 4 ^ j - 47) := mul_nonneg hu (by linarith)
  have : (2 * ‖orbit c j‖ + u * (117 * 4 ^ j - 47)) * (u * (117 * 4 ^ j - 47)) ≤ 4 * (u * (117 * 4 ^ j - 47)) := by
    refine mul_le_mul_of_nonneg_right ?_ e0
    nlinarith [hin j hj, mul_nonneg hu (by linarith : (0 : ℝ) ≤ 4 ^ j)]
  simp only [pow_succ]
  linarith

/-- the orbits of the points near the origin keep away from the circle -/
theorem orbit_small {c : ℂ} (hc : ‖c‖ ≤ 6 / 25) (j : ℕ) : ‖orbit c j‖ ≤ 2 / 5 := by
  induction j with
  | zero => exact hc.trans (by norm_num)
  | succ j ih =>
    rw [orbit_succ]
    refine (norm_add_le _ _).trans ?_
    rw [norm_pow]
    nlinarith [norm_nonneg (orbit c j)]

theorem errorBound_small (hu : 0 ≤ u) (hu' : u ≤ 1 / 1000000) {c : ℂ} (hc : ‖c‖ ≤ 6 / 25) (k : ℕ) : ErrorBound u c k fun _ => 800 * u := by
  refine ⟨by linarith, fun j _ => ?_⟩
  have := orbit_small hc j
  nlinarith [mul_nonneg hu hu]

/-- **C114** for `float`: the picture `ImageGenerator::Mandelbrot` draws is that of the exact
orbits, at every pixel whose orbit leaves the circle of radius two with a margin that grows
fourfold with each round, and at every pixel within 0.24 of the origin. -/
theorem mandelbrot_float (im : Image) {w h : Int} (n : Nat) (hw : 0 ≤ w) (hh : 0 ≤ h)
    (hs : w * h * 4 ≤ 2147483647) (hn : n ≤ 255) :
    ∃ im', mandelbrot single im w h n = some im' ∧ im'.WF ∧ im'.w = w ∧ im'.h = h ∧ im'.p = 4 ∧
      ∀ x y : Nat, (x : Int) < w → (y : Int) < h →
        (∃ g : UInt8, g.toNat ≤ n ∧ ∀ c : Nat, c < 4 → im'.get x y c = some (if c = 3 then 0 else g)) ∧
        (∀ k : Nat, k ≤ n → (∀ j < k, ‖orbit (pointOf w h x y) j‖ + 117 * 2 ^ (-24 : ℤ) * 4 ^ j ≤ 2) →
          (k < n → 2 + 117 * 2 ^ (-24 : ℤ) * 4 ^ k ≤ ‖orbit (pointOf w h x y) k‖) →
          ∀ c : Nat, c < 4 → im'.get x y c = some (if c = 3 then 0 else UInt8.ofNat k)) ∧
        (‖pointOf w h x y‖ ≤ 6 / 25 → ∀ c : Nat, c < 4 → im'.get x y c = some (if c = 3 then 0 else UInt8.ofNat n)) := by
  have pos : (0 : ℝ) < 2 ^ (-24 : ℤ) := by positivity
  have small := floatOK_single.unit1.small
  obtain ⟨im', e, h1, h2, h3, h4, h5⟩ := mandelbrot_rounded floatOK_single pos im n hw hh hs hn
  refine ⟨im', e, h1, h2, h3, h4, fun x y hx hy => ⟨(h5 x y hx hy).1, fun k hk hin hout => ?_, fun hc => ?_⟩⟩
  · have p4 : ∀ j : ℕ, (0 : ℝ) < 117 * 2 ^ (-24 : ℤ) * 4 ^ j := fun j => by positivity
    refine (h5 x y hx hy).2 k _ ⟨hk, fun j hj => ?_, fun hkn => ?_⟩ (errorBound_four pos.le hin) (fun j hj => ?_) (fun hkn => ?_)
    · linarith [hin j hj, p4 j]
    · linarith [hout hkn, p4 k]
    · linarith [hin j hj]
    · linarith [hout hkn]
  · have os := orbit_small hc
    refine (h5 x y hx hy).2 n _ ⟨le_rfl, fun j _ => ?_, fun hkn => absurd hkn (lt_irrefl _)⟩
      (errorBound_small pos.le small hc n) (fun j _ => ?_) (fun hkn => absurd hkn (lt_irrefl _))
    · linarith [os j]
    · have := os j
      norm_num
      linarith

/-- a picture of ten columns and ten rows with fifty rounds: the origin stays for all of them,
the corner leaves after one, the opposite side at once -/
example (im : Image) : ∃ im', mandelbrot single im 10 10 50 = some im' ∧ im'.get 3 5 0 = some 50 ∧ im'.get 0 0 0 = some 1 ∧
    im'.get 9 0 0 = some 0 := by
  obtain ⟨im', e, _, _, _, _, h⟩ := mandelbrot_float im (w := 10) (h := 10) 50 (by norm_num) (by norm_num) (by norm_num) (by norm_num)
  refine ⟨im', e, ?_, ?_, ?_⟩
  · refine (h 3 5 (by norm_num) (by norm_num)).2.2 ?_ 0 (by norm_num)
    have : pointOf 10 10 3 5 = 0 := by simp [pointOf, Complex.ext_iff]; norm_num
    rw [this]; norm_num
  · have h0 : pointOf 10 10 0 0 = ⟨9 / 10, 3 / 2⟩ := by simp [pointOf, Complex.ext_iff]
    refine (h 0 0 (by norm_num) (by norm_num)).2.1 1 (by norm_num) (fun j hj => ?_) (fun _ => ?_) 0 (by norm_num)
    · obtain rfl : j = 0 := by omega
      rw [h0]
      have : ‖(⟨9 / 10, 3 / 2⟩ : ℂ)‖ ≤ 1.8 := by
        rw [← sq_le_sq₀ (norm_nonneg _) (by norm_num), Complex.sq_norm, Complex.normSq_apply]; norm_num
      simp only [orbit, Function.iterate_zero, id]
      norm_num at this ⊢
      linarith
    · rw [h0]
      have : orbit (⟨9 / 10, 3 / 2⟩ : ℂ) 1 = ⟨-27 / 50, 21 / 5⟩ := by
        simp [orbit, Complex.ext_iff, sq]; norm_num
      rw [this]
      refine le_trans ?_ (Complex.abs_im_le_norm _)
      norm_num
  · have h0 : pointOf 10 10 9 0 = ⟨-9 / 5, 3 / 2⟩ := by simp [pointOf, Complex.ext_iff]; norm_num
    refine (h 9 0 (by norm_num) (by norm_num)).2.1 0 (by norm_num) (fun j hj => absurd hj (by omega)) (fun _ => ?_) 0 (by norm_num)
    rw [h0]
    have : 2.3 ≤ ‖(⟨-9 / 5, 3 / 2⟩ : ℂ)‖ := by
      rw [← sq_le_sq₀ (by norm_num) (norm_nonneg _), Complex.sq_norm, Complex.normSq_apply]; norm_num
    simp only [orbit, Function.iterate_zero, id]
    norm_num at this ⊢
    linarith

end ImageUtil
end CAD
