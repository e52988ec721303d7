import Verif.Model.Mandelbrot
import Verif.Props.ImageUtil
import Mathlib.Analysis.Complex.Norm
import Mathlib.Analysis.SpecificLimits.Basic

/-! C93: `ImageGenerator::Mandelbrot`. -/

namespace CAD
namespace ImageUtil
open Image

section
variable {K : Type} [Field K] [LinearOrder K]

/-- `k` counts the rounds before the iterates of `f` from `z` leave `size < 4`, at most `n`
(specification) -/
structure Escapes {α : Type} (f : α → α) (size : α → K) (z : α) (n k : Nat) : Prop where
  le : k ≤ n
  before : ∀ j < k, size (f^[j] z) < 4
  after : k < n → 4 ≤ size (f^[k] z)

theorem loop_escapes (rnd : K → K) (cx cy : K) (it : Nat) (hit : it ≤ 2147483647) : ∀ z : K × K,
    ∃ k, Escapes (mandelStep rnd cx cy) (mandelSize rnd) z it k ∧
      mandelLoop rnd cx cy (it + 1) z it = some ((it : Int) - k) := by
  induction it with
  | zero =>
    intro z
    refine ⟨0, ⟨le_rfl, by omega, by omega⟩, ?_⟩
    unfold mandelLoop
    by_cases h : mandelSize rnd z < 4
    · rw [if_pos h]; simp
    · rw [if_neg h]; simp
  | succ it ih =>
    intro z
    unfold mandelLoop
    by_cases h : mandelSize rnd z < 4
    · obtain ⟨k, hk, e⟩ := ih (by omega) (mandelStep rnd cx cy z)
      refine ⟨k + 1, ⟨by have := hk.le; omega, ?_, ?_⟩, ?_⟩
      · intro j hj
        cases j with
        | zero => exact h
        | succ j => exact hk.before j (by omega)
      · intro hk'; exact hk.after (by omega)
      · rw [if_pos h]
        dsimp only
        rw [if_neg (by push_cast; omega), int32_eq (by push_cast; omega) (by push_cast; omega)]
        simp only [Option.bind_eq_bind, Option.bind_some]
        rw [show ((it + 1 : Nat) : Int) - 1 = (it : Int) by push_cast; ring, e]
        congr 1; push_cast; ring
    · refine ⟨0, ⟨by omega, by omega, fun _ => not_lt.1 h⟩, ?_⟩
      rw [if_neg h]; simp

theorem count_escapes (rnd : K → K) (cx cy : K) (n : Nat) (hn : n ≤ 2147483647) :
    ∃ k, Escapes (mandelStep rnd cx cy) (mandelSize rnd) (cx, cy) n k ∧ mandelCount rnd cx cy n = some (k : Int) := by
  obtain ⟨k, hk, e⟩ := loop_escapes rnd cx cy n hn (cx, cy)
  refine ⟨k, hk, ?_⟩
  have := hk.le
  unfold mandelCount
  rw [if_pos (by omega), Int.toNat_natCast]
  simp only [e, Option.bind_eq_bind, Option.bind_some]
  rw [int32_eq (by omega) (by omega)]
  congr 1; ring

/-- with a negative number of iterations a point that never escapes is iterated until
`iterMax` overflows -/
theorem loop_negative (rnd : K → K) (cx cy : K) (fuel : Nat) : ∀ (it : Int) (z : K × K), it < 0 →
    (∀ j, mandelSize rnd ((mandelStep rnd cx cy)^[j] z) < 4) → mandelLoop rnd cx cy fuel z it = none := by
  induction fuel with
  | zero => intros; rfl
  | succ fuel ih =>
    intro it z hit hz
    unfold mandelLoop
    rw [if_pos (show mandelSize rnd z < 4 from hz 0)]
    dsimp only
    rw [if_neg (by omega)]
    unfold int32
    split_ifs
    · exact ih (it - 1) _ (by omega) fun j => hz (j + 1)
    · rfl

theorem escapes_unique {α : Type} {f : α → α} {size : α → K} {z : α} {n k k' : Nat}
    (h : Escapes f size z n k) (h' : Escapes f size z n k') : k = k' := by
  rcases lt_trichotomy k k' with hk | hk | hk
  · exact absurd (h'.before k hk) (not_lt.2 (h.after (lt_of_lt_of_le hk h'.le)))
  · exact hk
  · exact absurd (h.before k' hk) (not_lt.2 (h'.after (lt_of_lt_of_le hk h.le)))

theorem le32_grey (k : Nat) (hk : k ≤ 255) (c : Nat) (hc : c < 4) :
    (le32 ((k : Int) * 65793)).getD c 0 = if c = 3 then 0 else UInt8.ofNat k := by
  have h : k < 256 := by omega
  clear hk
  revert k
  interval_cases c <;> decide +kernel

/-- the picture as far as the stored integers go -/
theorem mandelbrot_ints (rnd : K → K) (im : Image) {w h : Int} (n : Nat) (hw : 0 ≤ w) (hh : 0 ≤ h)
    (hs : w * h * 4 ≤ 2147483647) (hn : n ≤ 32640) :
    ∃ im', mandelbrot rnd im w h n = some im' ∧ im'.WF ∧ im'.w = w ∧ im'.h = h ∧ im'.p = 4 ∧
      ∀ x y : Nat, (x : Int) < w → (y : Int) < h → ∃ k : Nat,
        Escapes (mandelStep rnd (mandelPos rnd (rnd (-21 / 10)) (rnd (9 / 10)) w x) (mandelPos rnd (rnd (-3 / 2)) (rnd (3 / 2)) h y))
          (mandelSize rnd) (mandelPos rnd (rnd (-21 / 10)) (rnd (9 / 10)) w x, mandelPos rnd (rnd (-3 / 2)) (rnd (3 / 2)) h y) n k ∧
        ∀ c : Nat, c < 4 → im'.get x y c = some ((le32 ((k : Int) * 65793)).getD c 0) := by
  obtain ⟨im0, e, hwf, h1, h2, h3⟩ := resize_some im hw hh (p := 4) (by norm_num)
  have hsm : im0.Small := by unfold Image.Small; rw [h1, h2, h3]; exact hs
  have hcount : ∀ x y : Int, ∃ k : Nat,
        Escapes (mandelStep rnd (mandelPos rnd (rnd (-21 / 10)) (rnd (9 / 10)) w x) (mandelPos rnd (rnd (-3 / 2)) (rnd (3 / 2)) h y))
          (mandelSize rnd) (mandelPos rnd (rnd (-21 / 10)) (rnd (9 / 10)) w x, mandelPos rnd (rnd (-3 / 2)) (rnd (3 / 2)) h y) n k ∧
        mandelColor rnd w h x y n = some ((k : Int) * 65793) := by
    intro x y
    obtain ⟨k, hk, ek⟩ := count_escapes rnd (mandelPos rnd (rnd (-21 / 10)) (rnd (9 / 10)) w x)
      (mandelPos rnd (rnd (-3 / 2)) (rnd (3 / 2)) h y) n (by omega)
    refine ⟨k, hk, ?_⟩
    have := hk.le
    unfold mandelColor
    simp only [ek, Option.bind_eq_bind, Option.bind_some]
    rw [int32_eq (by omega) (by omega)]
  choose k hk ek using hcount
  obtain ⟨im', e', hs', hg⟩ := pixel_loop (im0 := im0) ⟨hwf, hsm, rfl, rfl, rfl⟩
    (fun x y c => if 0 ≤ c ∧ c < 4 then some ((le32 ((k x y : Int) * 65793)).getD c.toNat 0) else none)
    (fun w h im => do
      let v ← mandelColor rnd im0.w im0.h w h n
      let im ← im.set w h 0 ((le32 v).getD 0 0)
      let im ← im.set w h 1 ((le32 v).getD 1 0)
      let im ← im.set w h 2 ((le32 v).getD 2 0)
      im.set w h 3 ((le32 v).getD 3 0)) (by
      intro i j m hi hj hm _
      have hin : ∀ c : Int, 0 ≤ c → c < 4 → im0.In i j c := fun c c0 c1 => ⟨by omega, hi, by omega, hj, c0, by omega⟩
      simp only [h1, h2, ek, Option.bind_eq_bind, Option.bind_some]
      generalize le32 _ = L
      obtain ⟨m1, e1, hm1, g1⟩ := hm.set (hin 0 (by norm_num) (by norm_num)) (L.getD 0 0)
      obtain ⟨m2, e2, hm2, g2⟩ := hm1.set (hin 1 (by norm_num) (by norm_num)) (L.getD 1 0)
      obtain ⟨m3, e3, hm3, g3⟩ := hm2.set (hin 2 (by norm_num) (by norm_num)) (L.getD 2 0)
      obtain ⟨m4, e4, hm4, g4⟩ := hm3.set (hin 3 (by norm_num) (by norm_num)) (L.getD 3 0)
      refine ⟨m4, by simp only [e1, e2, e3, e4, Option.bind_some], hm4, fun x y c => ?_⟩
      rw [g4, g3, g2, g1]
      by_cases hxy : x = i ∧ y = j
      · obtain ⟨rfl, rfl⟩ := hxy
        by_cases hc : 0 ≤ c ∧ c < 4
        · obtain ⟨c0, c1⟩ := hc
          interval_cases c <;> simp
        · rw [if_neg (by omega), if_neg (by omega), if_neg (by omega), if_neg (by omega), if_pos ⟨rfl, rfl⟩, if_neg hc]
          exact get_out (by rintro ⟨-, -, -, -, h5, h6⟩; rw [hm.p, h3] at h6; omega)
      · rw [if_neg (by tauto), if_neg (by tauto), if_neg (by tauto), if_neg (by tauto), if_neg hxy])
  refine ⟨im', ?_, hs'.wf, by rw [hs'.w, h1], by rw [hs'.h, h2], by rw [hs'.p, h3], ?_⟩
  · unfold mandelbrot
    rw [e]
    exact e'
  · intro x y hx hy
    refine ⟨k x y, hk x y, fun c hc => ?_⟩
    rw [hg x y c (by omega) (by omega) (by omega) (by omega), if_pos (by omega)]
    simp only [Int.toNat_natCast]

theorem loopN_fail_at {σ : Type} {n i : Nat} (hi : i < n) {f : Nat → σ → Res σ} {s : σ} (h : ∀ s, f i s = none) :
    loopN n f s = none := by
  induction n with
  | zero => omega
  | succ n ih =>
    rw [loopN_succ]
    rcases Nat.lt_succ_iff_lt_or_eq.1 hi with h1 | rfl
    · rw [ih h1]; rfl
    · cases loopN i f s with
      | none => rfl
      | some a => exact h a

/-- a pixel that cannot be computed spoils the picture -/
theorem mandelbrot_fails (rnd : K → K) (im : Image) (w h n : Int) (x y : Nat) (hx : (x : Int) < w) (hy : (y : Int) < h)
    (hc : mandelColor rnd w h x y n = none) : mandelbrot rnd im w h n = none := by
  obtain ⟨im0, e, hwf, h1, h2, h3⟩ := resize_some im (show 0 ≤ w by omega) (show 0 ≤ h by omega) (p := 4) (by norm_num)
  unfold mandelbrot
  rw [e]
  simp only [Option.bind_eq_bind, Option.bind_some, h1, h2]
  apply loopN_fail_at (i := x) (by omega)
  intro im
  apply loopN_fail_at (i := y) (by omega)
  intro im
  rw [hc]; rfl

end

/-- the orbit of `c` under squaring and adding `c` (specification) -/
def orbit (c : ℂ) (n : Nat) : ℂ := (fun z => z ^ 2 + c)^[n] c

/-- the point of the plane that column `x`, row `y` stands for (specification) -/
noncomputable def pointOf (w h : Int) (x y : Nat) : ℂ := ⟨9 / 10 - 3 * x / w, 3 / 2 - 3 * y / h⟩

/-- `k` rounds before the orbit of `c` leaves the open disk of radius two, at most `n`
(specification) -/
structure EscapeTime (c : ℂ) (n k : Nat) : Prop where
  le : k ≤ n
  before : ∀ j < k, ‖orbit c j‖ < 2
  after : k < n → 2 ≤ ‖orbit c k‖

theorem size_norm (z : ℂ) : mandelSize id (z.re, z.im) < 4 ↔ ‖z‖ < 2 := by
  have h : mandelSize id (z.re, z.im) = ‖z‖ ^ 2 := by
    rw [Complex.sq_norm, Complex.normSq_apply]; rfl
  rw [h]
  constructor
  · intro h; nlinarith [norm_nonneg z]
  · intro h; nlinarith [norm_nonneg z]

theorem iterate_orbit (c : ℂ) (j : Nat) :
    (mandelStep id c.re c.im)^[j] (c.re, c.im) = ((orbit c j).re, (orbit c j).im) := by
  induction j with
  | zero => rfl
  | succ j ih =>
    rw [Function.iterate_succ_apply', ih]
    unfold orbit
    rw [Function.iterate_succ_apply']
    simp only [mandelStep, id, sq, Complex.add_re, Complex.add_im, Complex.mul_re, Complex.mul_im, Prod.mk.injEq]
    constructor <;> ring

theorem escapes_iff (c : ℂ) (n k : Nat) :
    Escapes (mandelStep id c.re c.im) (mandelSize id) (c.re, c.im) n k ↔ EscapeTime c n k := by
  constructor
  · rintro ⟨h1, h2, h3⟩
    refine ⟨h1, fun j hj => ?_, fun hk => ?_⟩
    · have := h2 j hj
      rwa [iterate_orbit, size_norm] at this
    · have := h3 hk
      rw [iterate_orbit, ← not_lt, size_norm] at this
      exact not_lt.1 this
  · rintro ⟨h1, h2, h3⟩
    refine ⟨h1, fun j hj => ?_, fun hk => ?_⟩
    · rw [iterate_orbit, size_norm]; exact h2 j hj
    · rw [iterate_orbit, ← not_lt, size_norm]; exact not_lt.2 (h3 hk)

theorem pos_exact {w h : Int} {x y : Nat} (hx : (x : Int) < w) (hy : (y : Int) < h) :
    (mandelPos id (id (-21 / 10 : ℝ)) (id (9 / 10)) w x, mandelPos id (id (-3 / 2 : ℝ)) (id (3 / 2)) h y) =
      ((pointOf w h x y).re, (pointOf w h x y).im) := by
  have hw : (w : ℝ) ≠ 0 := by exact_mod_cast (show w ≠ 0 by omega)
  have hh : (h : ℝ) ≠ 0 := by exact_mod_cast (show h ≠ 0 by omega)
  simp only [mandelPos, pointOf, id, Prod.mk.injEq]
  push_cast
  constructor <;> field_simp <;> ring

/-- **C93** with exact arithmetic the picture of at most 255 iterations has the asked size
whatever the image was before, and the pixel `(x, y)` is the grey of level `k` (alpha 0),
`k` being the number of steps before the orbit of its point leaves the disk of radius two -/
theorem mandelbrot_spec (im : Image) {w h : Int} (n : Nat) (hw : 0 ≤ w) (hh : 0 ≤ h)
    (hs : w * h * 4 ≤ 2147483647) (hn : n ≤ 255) :
    ∃ im', mandelbrot (id : ℝ → ℝ) im w h n = some im' ∧ im'.WF ∧ im'.w = w ∧ im'.h = h ∧ im'.p = 4 ∧
      ∀ x y : Nat, (x : Int) < w → (y : Int) < h → ∃ k : Nat, EscapeTime (pointOf w h x y) n k ∧
        ∀ c : Nat, c < 4 → im'.get x y c = some (if c = 3 then 0 else UInt8.ofNat k) := by
  obtain ⟨im', e, h1, h2, h3, h4, h5⟩ := mandelbrot_ints (id : ℝ → ℝ) im n hw hh hs (by omega)
  refine ⟨im', e, h1, h2, h3, h4, fun x y hx hy => ?_⟩
  obtain ⟨k, hk, hc⟩ := h5 x y hx hy
  have hp := pos_exact hx hy
  rw [hp] at hk
  simp only [Prod.mk.injEq] at hp
  rw [hp.1, hp.2, escapes_iff] at hk
  refine ⟨k, hk, fun c hc' => ?_⟩
  rw [hc c hc', le32_grey k (by have := hk.le; omega) c hc']

theorem orbit_succ (c : ℂ) (n : Nat) : orbit c (n + 1) = orbit c n ^ 2 + c := Function.iterate_succ_apply' _ _ _

/-- once the orbit is farther from the origin than 2 and than `c`, it tends to infinity -/
theorem orbit_grows (c : ℂ) (k : Nat) (h : 2 < ‖orbit c k‖) (hc : ‖c‖ ≤ ‖orbit c k‖) :
    Filter.Tendsto (fun n => ‖orbit c n‖) Filter.atTop Filter.atTop := by
  set r := ‖orbit c k‖ with hr
  have key : ∀ j, (r - 1) ^ j * r ≤ ‖orbit c (k + j)‖ ∧ r ≤ ‖orbit c (k + j)‖ := by
    intro j
    induction j with
    | zero => simp [← hr]
    | succ j ih =>
      have h1 : ‖orbit c (k + j)‖ ^ 2 - ‖c‖ ≤ ‖orbit c (k + (j + 1))‖ := by
        rw [← add_assoc, orbit_succ]
        have := norm_sub_le (orbit c (k + j) ^ 2 + c) c
        rw [add_sub_cancel_right, norm_pow] at this
        linarith
      set a := ‖orbit c (k + j)‖
      have h2 : (r - 1) * a ≤ ‖orbit c (k + (j + 1))‖ := by nlinarith
      refine ⟨?_, by nlinarith⟩
      calc (r - 1) ^ (j + 1) * r = (r - 1) * ((r - 1) ^ j * r) := by ring
        _ ≤ (r - 1) * a := by
          apply mul_le_mul_of_nonneg_left ih.1
          linarith
        _ ≤ _ := h2
  have ht : Filter.Tendsto (fun j => (r - 1) ^ j * r) Filter.atTop Filter.atTop :=
    (tendsto_pow_atTop_atTop_of_one_lt (by linarith)).atTop_mul_const (by linarith)
  have h2 := Filter.tendsto_atTop_mono (fun j => (key j).1) ht
  refine (Filter.tendsto_add_atTop_iff_nat k).1 ?_
  simpa [add_comm] using h2

/-- **C93** a pixel below the full level whose orbit is not exactly on the circle of radius
two shows a point outside the Mandelbrot set: its orbit tends to infinity -/
theorem escape_outside {c : ℂ} {n k : Nat} (h : EscapeTime c n k) (hk : k < n) (h2 : ‖orbit c k‖ ≠ 2) :
    Filter.Tendsto (fun n => ‖orbit c n‖) Filter.atTop Filter.atTop := by
  have hgt := lt_of_le_of_ne (h.after hk) (Ne.symm h2)
  apply orbit_grows c k hgt
  cases k with
  | zero => exact le_rfl
  | succ k => exact le_trans (le_of_lt (h.before 0 (by omega))) (le_of_lt hgt)

/-- **C93** a point of the Mandelbrot set, its orbit being bounded, has the full level,
except when its orbit meets the circle of radius two -/
theorem escape_inside {c : ℂ} {n k : Nat} (h : EscapeTime c n k) {B : ℝ} (hB : ∀ j, ‖orbit c j‖ ≤ B)
    (h2 : ∀ j, ‖orbit c j‖ ≠ 2) : k = n := by
  rcases lt_or_eq_of_le h.le with hk | hk
  · exfalso
    have ht := escape_outside h hk (h2 k)
    obtain ⟨j, hj⟩ := (ht.eventually_gt_atTop B).exists
    exact absurd (hB j) (not_le.2 hj)
  · exact hk

/-- the tip -2 of the set is bounded and yet shown as escaping at once -/
theorem tip_lost (n : Nat) (hn : 0 < n) : (∀ j, ‖orbit (-2) j‖ ≤ 2) ∧ EscapeTime (-2) n 0 := by
  have h : ∀ j, orbit (-2) (j + 1) = 2 := by
    intro j
    induction j with
    | zero => rw [orbit_succ]; norm_num [orbit]
    | succ j ih => rw [orbit_succ, ih]; norm_num
  constructor
  · intro j
    cases j with
    | zero => simp [orbit]
    | succ j => rw [h]; simp
  · exact ⟨by omega, by omega, fun _ => by simp [orbit]⟩

/-- **C93** the picture is symmetric: rows `y` and `h - y` show conjugate points, with the
same escape time -/
theorem mandelbrot_symmetric {w h : Int} {x y y' : Nat} (hy : (y : Int) + y' = h) (hh : 0 < h) (n k : Nat) :
    EscapeTime (pointOf w h x y) n k ↔ EscapeTime (pointOf w h x y') n k := by
  have hh' : (h : ℝ) ≠ 0 := by exact_mod_cast hh.ne'
  have hp : pointOf w h x y' = (starRingEnd ℂ) (pointOf w h x y) := by
    apply Complex.ext
    · simp [pointOf]
    · have : (y : ℝ) + y' = h := by exact_mod_cast hy
      simp only [pointOf, Complex.conj_im]
      field_simp
      linear_combination -2 * this
  have ho : ∀ j, ‖orbit (pointOf w h x y') j‖ = ‖orbit (pointOf w h x y) j‖ := by
    intro j
    rw [hp]
    have : orbit ((starRingEnd ℂ) (pointOf w h x y)) j = (starRingEnd ℂ) (orbit (pointOf w h x y) j) := by
      induction j with
      | zero => rfl
      | succ j ih => rw [orbit_succ, orbit_succ, ih]; simp
    rw [this, Complex.norm_conj]
  constructor
  · rintro ⟨h1, h2, h3⟩; exact ⟨h1, by simpa only [ho] using h2, by simpa only [ho] using h3⟩
  · rintro ⟨h1, h2, h3⟩; exact ⟨h1, by simpa only [ho] using h2, by simpa only [ho] using h3⟩

/-- the origin of the plane, in column 3 of 10 and row 1 of 2, never escapes -/
theorem origin_stays (j : Nat) : mandelSize (id : ℝ → ℝ) ((mandelStep id 0 0)^[j] (0, 0)) < 4 := by
  have : (mandelStep (id : ℝ → ℝ) 0 0)^[j] (0, 0) = (0, 0) := by
    induction j with
    | zero => rfl
    | succ j ih => rw [Function.iterate_succ_apply', ih]; simp [mandelStep]
  rw [this]; simp [mandelSize]

theorem origin_pos : mandelPos id (id (-21 / 10 : ℝ)) (id (9 / 10)) 10 (3 : Nat) = 0 ∧
    mandelPos id (id (-3 / 2 : ℝ)) (id (3 / 2)) 2 (1 : Nat) = 0 := by
  constructor <;> norm_num [mandelPos]

/-- **C93** (disagreement) a number of iterations above 32640 overflows the colour at points
of the set, and a negative one is not "no iteration": such a point is iterated until the
counter overflows.  Both are undefined behaviour; here for the 10 × 2 picture. -/
theorem mandelbrot_overflow (im : Image) (n : Int) (hn : 32640 < n ∨ n < 0) (hn' : n ≤ 2147483647) :
    mandelbrot (id : ℝ → ℝ) im 10 2 n = none := by
  apply mandelbrot_fails _ _ _ _ _ 3 1 (by norm_num) (by norm_num)
  unfold mandelColor
  simp only [origin_pos.1, origin_pos.2]
  rcases hn with hn | hn
  · obtain ⟨m, rfl⟩ := Int.eq_ofNat_of_zero_le (show 0 ≤ n by omega)
    obtain ⟨k, hk, e⟩ := count_escapes (id : ℝ → ℝ) 0 0 m (by omega)
    have hkm : k = m := by
      rcases lt_or_eq_of_le hk.le with h | h
      · exact absurd (origin_stays k) (not_lt.2 (hk.after h))
      · exact h
    rw [e]
    simp only [Option.bind_eq_bind, Option.bind_some]
    unfold int32
    rw [if_neg (by omega)]
  · unfold mandelCount
    simp only [loop_negative _ _ _ _ _ _ hn origin_stays, Option.bind_eq_bind, Option.bind_none]

/-- Concrete: 10 × 2 picture, 5 iterations, over the rationals: the origin has level 5, the
point 0.9 + 1.5i level 1. -/
example : (mandelbrot (id : ℚ → ℚ) ⟨0, 0, 0, []⟩ 10 2 5).map (fun im => (im.get 3 1 0, im.get 3 1 3, im.get 0 0 0)) =
    some (some 5, some 0, some 1) := by decide +kernel

end ImageUtil
end CAD
