import Verif.Props.MandelbrotFloat

/-! C141: no number in `ImageGenerator::Mandelbrot` leaves the range of `float`. -/

namespace CAD
namespace ImageUtil
open Rounded

/-- the numbers computed for the position of a column or row, before each rounding: ImageGenerator.cpp 25-26 -/
noncomputable def posValues (rnd : ℝ → ℝ) (lo hi : ℝ) (n i : Int) : List ℝ :=
  let a := rnd ((n - i : Int) : ℝ)
  let b := rnd (n : ℝ)
  [((n - i : Int) : ℝ), (n : ℝ), a / b, hi - lo, rnd (a / b) * rnd (hi - lo), lo + rnd (rnd (a / b) * rnd (hi - lo))]

/-- the numbers computed by the test of the loop, before each rounding: 34 -/
def testValues (rnd : ℝ → ℝ) (z : ℝ × ℝ) : List ℝ := [z.1 * z.1, z.2 * z.2, rnd (z.1 * z.1) + rnd (z.2 * z.2)]

/-- the numbers computed by one round of the loop, before each rounding: 36-38 -/
def stepValues (rnd : ℝ → ℝ) (cx cy : ℝ) (z : ℝ × ℝ) : List ℝ :=
  let fxy := rnd (z.1 * z.2)
  [z.1 * z.2, z.1 + z.2, z.1 - z.2, rnd (z.1 + z.2) * rnd (z.1 - z.2), rnd (rnd (z.1 + z.2) * rnd (z.1 - z.2)) + cx, fxy + fxy, rnd (fxy + fxy) + cy]

/-- the lists hold what the model rounds: its results are the roundings of their last elements -/
theorem values_rounded (rnd : ℝ → ℝ) (lo hi cx cy : ℝ) (n i : Int) (z : ℝ × ℝ) :
    (posValues rnd lo hi n i).getLast?.map rnd = some (mandelPos rnd lo hi n i) ∧ (testValues rnd z).getLast?.map rnd = some (mandelSize rnd z) ∧
    (mandelStep rnd cx cy z).1 = rnd ((stepValues rnd cx cy z).getD 4 0) ∧ (mandelStep rnd cx cy z).2 = rnd ((stepValues rnd cx cy z).getD 6 0) :=
  ⟨rfl, rfl, rfl, rfl⟩

theorem single_err (x : ℝ) : |single x - x| ≤ (|x| + 1) / 1000000 := by
  have := ieee_err (p := 24) (emin := -149) x
  have e : (2 : ℝ) ^ (-((24 : ℕ) : ℤ)) ≤ 1 / 1000000 := by norm_num
  have t : (2 : ℝ) ^ (-149 - 1 : ℤ) ≤ 1 / 1000000 := by norm_num
  have k := mul_le_mul_of_nonneg_right e (abs_nonneg x)
  exact this.trans ((add_le_add k t).trans (by linarith))

theorem single_le {x M : ℝ} (h : |x| ≤ M) : |single x| ≤ M + (M + 1) / 1000000 := by
  have := single_err x
  have t := abs_add_le (single x - x) x
  rw [sub_add_cancel] at t
  linarith

/-- the test bounds the point -/
theorem inside_bound {z : ℝ × ℝ} (h : mandelSize single z < 4) : |z.1| ≤ 2.1 ∧ |z.2| ≤ 2.1 := by
  obtain ⟨x, y⟩ := z
  unfold mandelSize at h
  simp only at h ⊢
  have x0 := mul_self_nonneg x
  have y0 := mul_self_nonneg y
  have ex := single_err (x * x)
  have ey := single_err (y * y)
  have es := single_err (single (x * x) + single (y * y))
  rw [abs_of_nonneg x0, abs_le] at ex
  rw [abs_of_nonneg y0, abs_le] at ey
  have sb : |single (x * x) + single (y * y)| ≤ x * x + y * y + (x * x + y * y + 2) / 1000000 := by
    rw [abs_le]; constructor <;> linarith
  rw [abs_le] at es
  have : x * x + y * y ≤ 4.1 := by linarith
  constructor <;> refine abs_le_of_sq_le_sq ?_ (by norm_num) <;> nlinarith

theorem prod_le {a b A B : ℝ} (ha : |a| ≤ A) (hb : |b| ≤ B) : |a * b| ≤ A * B := by
  rw [abs_mul]; exact mul_le_mul ha hb (abs_nonneg _) ((abs_nonneg _).trans ha)

theorem sum_le {a b A B : ℝ} (ha : |a| ≤ A) (hb : |b| ≤ B) : |a + b| ≤ A + B := (abs_add_le a b).trans (add_le_add ha hb)

theorem diff_le {a b A B : ℝ} (ha : |a| ≤ A) (hb : |b| ≤ B) : |a - b| ≤ A + B := (abs_sub a b).trans (add_le_add ha hb)

theorem step_bound {cx cy : ℝ} {z : ℝ × ℝ} (hx : |cx| ≤ 3) (hy : |cy| ≤ 3) (h : mandelSize single z < 4) :
    (∀ v ∈ stepValues single cx cy z, |v| ≤ 1000) ∧ |(mandelStep single cx cy z).1| ≤ 22 ∧ |(mandelStep single cx cy z).2| ≤ 22 := by
  obtain ⟨x, y⟩ := inside_bound h
  have p := prod_le x y
  have s := sum_le x y
  have d := diff_le x y
  have m := prod_le (single_le s) (single_le d)
  have c := sum_le (single_le m) hx
  have f := sum_le (single_le p) (single_le p)
  have g := sum_le (single_le f) hy
  have c' := single_le c
  have g' := single_le g
  refine ⟨?_, c'.trans (by norm_num), g'.trans (by norm_num)⟩
  unfold stepValues
  simp only [List.forall_mem_cons]
  exact ⟨p.trans (by norm_num), s.trans (by norm_num), d.trans (by norm_num), m.trans (by norm_num), c.trans (by norm_num), f.trans (by norm_num),
    g.trans (by norm_num), by simp⟩

theorem test_bound {z : ℝ × ℝ} (hx : |z.1| ≤ 22) (hy : |z.2| ≤ 22) : ∀ v ∈ testValues single z, |v| ≤ 1000 := by
  have a := prod_le hx hx
  have b := prod_le hy hy
  have s := sum_le (single_le a) (single_le b)
  unfold testValues
  simp only [List.forall_mem_cons]
  exact ⟨a.trans (by norm_num), b.trans (by norm_num), s.trans (by norm_num), by simp⟩

theorem pos_bound {n i : ℤ} (hi : 0 ≤ i) (hn : i < n) (hn' : n ≤ 2147483647) {lo hi' : ℝ} (d : hi' - lo = 3) (l1 : -2.1 ≤ lo) (l2 : lo ≤ -1.5) :
    (∀ v ∈ posValues single (single lo) (single hi') n i, |v| ≤ 2147483647) ∧ single (n : ℝ) ≠ 0 ∧
    |mandelPos single (single lo) (single hi') n i| ≤ 3 := by
  have npos : (0 : ℝ) < n := by exact_mod_cast (show 0 < n by omega)
  have nb : (n : ℝ) ≤ 2147483647 := by exact_mod_cast hn'
  have n1 : (1 : ℝ) ≤ n := by exact_mod_cast (show 1 ≤ n by omega)
  have k0 : (0 : ℝ) ≤ ((n - i : ℤ) : ℝ) := by exact_mod_cast (show 0 ≤ n - i by omega)
  have k1 : ((n - i : ℤ) : ℝ) ≤ n := by exact_mod_cast (show n - i ≤ n by omega)
  have i0 : (0 : ℝ) ≤ i := by exact_mod_cast hi
  have i1 : (i : ℝ) ≤ n := by exact_mod_cast hn.le
  have P := pos_near floatOK_single hi hn hn' d l1 l2
  have u35 : (35 : ℝ) * 2 ^ (-24 : ℤ) ≤ 1 / 10 := by norm_num
  have q0 : 0 ≤ 3 * (i : ℝ) / n := by positivity
  have q1 : 3 * (i : ℝ) / n ≤ 3 := by rw [div_le_iff₀ npos]; linarith
  have eb := single_err (n : ℝ)
  rw [abs_of_pos npos, abs_le] at eb
  have ea := single_le (x := ((n - i : ℤ) : ℝ)) (M := n) (by rw [abs_of_nonneg k0]; exact k1)
  have b0 : (n : ℝ) / 2 ≤ single (n : ℝ) := by linarith
  have bpos : 0 < single (n : ℝ) := by linarith
  have q : |single ((n - i : ℤ) : ℝ) / single (n : ℝ)| ≤ 3 := by
    rw [abs_div, abs_of_pos bpos, div_le_iff₀ bpos]; linarith
  have L := single_le (x := lo) (M := 2.1) (by rw [abs_le]; constructor <;> linarith)
  have H := single_le (x := hi') (M := 2) (by rw [abs_le]; constructor <;> linarith)
  have D := diff_le H L
  have m := prod_le (single_le q) (single_le D)
  have s := sum_le L (single_le m)
  refine ⟨?_, bpos.ne', ?_⟩
  · unfold posValues
    simp only [List.forall_mem_cons]
    exact ⟨by rw [abs_of_nonneg k0]; linarith, by rw [abs_of_pos npos]; exact nb, q.trans (by norm_num), D.trans (by norm_num), m.trans (by norm_num),
      s.trans (by norm_num), by simp⟩
  · have P' := abs_le.1 (P.trans u35)
    rw [abs_le]
    constructor <;> linarith

/-- **C141** no number `Mandelbrot` computes leaves the range of `float`, whose greatest number is above 2¹²⁷, and it divides by no zero: at every pixel of every
picture the numbers of the position are at most 2³¹, and in every round the loop gets to those of the test and of the step are at most 1000.  So
infinities and NaN, which the model leaves out, do not occur. -/
theorem mandelbrot_in_range {W H : Int} {w h : Nat} (hw : (w : Int) < W) (hh : (h : Int) < H) (hW : W ≤ 2147483647) (hH : H ≤ 2147483647) :
    let cx := mandelPos single (single (-21 / 10)) (single (9 / 10)) W w
    let cy := mandelPos single (single (-3 / 2)) (single (3 / 2)) H h
    (∀ v ∈ posValues single (single (-21 / 10)) (single (9 / 10)) W w ++ posValues single (single (-3 / 2)) (single (3 / 2)) H h, |v| ≤ 2147483647) ∧
    single (W : ℝ) ≠ 0 ∧ single (H : ℝ) ≠ 0 ∧
    ∀ j : Nat, (∀ i < j, mandelSize single ((mandelStep single cx cy)^[i] (cx, cy)) < 4) →
      (∀ v ∈ testValues single ((mandelStep single cx cy)^[j] (cx, cy)), |v| ≤ 1000) ∧
      (mandelSize single ((mandelStep single cx cy)^[j] (cx, cy)) < 4 →
        ∀ v ∈ stepValues single cx cy ((mandelStep single cx cy)^[j] (cx, cy)), |v| ≤ 1000) := by
  intro cx cy
  obtain ⟨x1, x2, x3⟩ := pos_bound (n := W) (i := w) (by omega) hw hW (lo := -21 / 10) (hi' := 9 / 10) (by norm_num) (by norm_num) (by norm_num)
  obtain ⟨y1, y2, y3⟩ := pos_bound (n := H) (i := h) (by omega) hh hH (lo := -3 / 2) (hi' := 3 / 2) (by norm_num) (by norm_num) (by norm_num)
  refine ⟨fun v hv => (List.mem_append.1 hv).elim (x1 v) (y1 v), x2, y2, fun j hj => ⟨?_, fun hs => (step_bound x3 y3 hs).1⟩⟩
  cases j with
  | zero => exact test_bound (x3.trans (by norm_num)) (y3.trans (by norm_num))
  | succ j =>
    rw [Function.iterate_succ_apply']
    obtain ⟨-, a, b⟩ := step_bound x3 y3 (hj j (by omega))
    exact test_bound a b

/-- the first round is reached at every pixel, here of a picture of 640 × 480 -/
example : ((100 : ℕ) : Int) < 640 ∧ ((200 : ℕ) : Int) < 480 := by norm_num

end ImageUtil
end CAD
