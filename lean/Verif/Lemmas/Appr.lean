import Verif.Model.Rounded
import Mathlib.Tactic.Linarith
import Mathlib.Tactic.Ring
import Mathlib.Tactic.Positivity

/-! Running error bounds: a computed number is `e` units `u·s` off a number of size at most `b·s`. -/

namespace CAD

/-- rounding at the scale `s` -/
structure FlAt (u s : ℝ) (fl : ℝ → ℝ) : Prop where
  u0 : 0 ≤ u
  u1 : u ≤ 1 / 1000000
  s0 : 0 < s
  err : ∀ x, |x| ≤ 1000 * s → |fl x - x| ≤ u * (|x| + s / 4)

theorem Rounds.flAt {u η Ω : ℝ} {fl : ℝ → ℝ} (h : Rounds u η Ω fl) {s : ℝ} (u0 : 0 ≤ u) (u1 : u ≤ 1 / 1000000) (s0 : 0 < s) (hη : 4 * η ≤ u * s)
    (hΩ : 1000 * s ≤ Ω) : FlAt u s fl := ⟨u0, u1, s0, fun x hx => (h.err x (hx.trans hΩ)).trans (by linarith)⟩

/-- `x'` is a computed value for `x` -/
structure Appr (u s e b x' x : ℝ) : Prop where
  near : |x' - x| ≤ e * (u * s)
  size : |x| ≤ b * s

namespace Appr
variable {u s e b x' x e1 b1 e2 b2 y' y : ℝ} {fl : ℝ → ℝ}

theorem exact (hs : |x| ≤ b * s) : Appr u s 0 b x x := ⟨by simp, hs⟩

theorem bound (h : Appr u s e b x' x) (hb : |x| ≤ b1 * s) : Appr u s e b1 x' x := ⟨h.near, hb⟩

theorem round (F : FlAt u s fl) (h : Appr u s e b x' x) (he : e ≤ 500) (hb : b ≤ 100) : Appr u s (e + b + 1) b (fl x') x := by
  obtain ⟨u0, u1, s0, err⟩ := F
  obtain ⟨h1, h2⟩ := h
  have us : u * s ≤ 1 / 1000000 * s := mul_le_mul_of_nonneg_right u1 s0.le
  have us0 : 0 ≤ u * s := mul_nonneg u0 s0.le
  have a : |x'| ≤ |x' - x| + |x| := by
    have := abs_add_le (x' - x) x
    simpa using this
  have e3 : e * (u * s) ≤ 500 * (u * s) := mul_le_mul_of_nonneg_right he us0
  have hb' : b * s ≤ 100 * s := mul_le_mul_of_nonneg_right hb s0.le
  have r := err x' (by linarith)
  refine ⟨?_, h2⟩
  have t : |fl x' - x| ≤ |fl x' - x'| + |x' - x| := by
    have := abs_add_le (fl x' - x') (x' - x)
    simpa using this
  have k : u * (|x'| + s / 4) ≤ u * (500 * (1 / 1000000 * s) + b * s + s / 4) := mul_le_mul_of_nonneg_left (by linarith) u0
  have : u * (500 * (1 / 1000000 * s) + b * s + s / 4) ≤ (b + 1) * (u * s) := by linarith
  linarith

theorem add (h : Appr u s e1 b1 x' x) (k : Appr u s e2 b2 y' y) : Appr u s (e1 + e2) (b1 + b2) (x' + y') (x + y) := by
  obtain ⟨h1, h2⟩ := h
  obtain ⟨k1, k2⟩ := k
  constructor
  · have := abs_add_le (x' - x) (y' - y)
    rw [show x' + y' - (x + y) = (x' - x) + (y' - y) by ring]; linarith
  · have := abs_add_le x y; linarith

theorem neg (h : Appr u s e b x' x) : Appr u s e b (-x') (-x) := by
  obtain ⟨h1, h2⟩ := h
  exact ⟨by rw [show -x' - -x = -(x' - x) by ring, abs_neg]; exact h1, by rwa [abs_neg]⟩

theorem sub (h : Appr u s e1 b1 x' x) (k : Appr u s e2 b2 y' y) : Appr u s (e1 + e2) (b1 + b2) (x' - y') (x - y) := by
  rw [sub_eq_add_neg, sub_eq_add_neg]; exact h.add k.neg

theorem mul (u0 : 0 ≤ u) (u1 : u ≤ 1 / 1000000) (s0 : 0 ≤ s) (h : Appr u 1 e1 b1 x' x) (k : Appr u s e2 b2 y' y) (he1 : e1 ≤ 500) (he2 : e2 ≤ 500) :
    Appr u s (e1 * b2 + b1 * e2 + 1) (b1 * b2) (x' * y') (x * y) := by
  obtain ⟨h1, h2⟩ := h
  obtain ⟨k1, k2⟩ := k
  rw [mul_one] at h1 h2
  have us0 : 0 ≤ u * s := mul_nonneg u0 s0
  have h3 : |x' - x| ≤ 500 * u := h1.trans (mul_le_mul_of_nonneg_right he1 u0)
  have k3 : |y' - y| ≤ 500 * (u * s) := k1.trans (mul_le_mul_of_nonneg_right he2 us0)
  constructor
  · have e : x' * y' - x * y = (x' - x) * (y' - y) + (x * (y' - y) + (x' - x) * y) := by ring
    have a1 := abs_add_le ((x' - x) * (y' - y)) (x * (y' - y) + (x' - x) * y)
    have a2 := abs_add_le (x * (y' - y)) ((x' - x) * y)
    rw [← e] at a1
    simp only [abs_mul] at a1 a2
    have p1 : |x' - x| * |y' - y| ≤ 500 * u * (500 * (u * s)) := mul_le_mul h3 k3 (abs_nonneg _) (by positivity)
    have p2 : |x| * |y' - y| ≤ b1 * (e2 * (u * s)) := mul_le_mul h2 k1 (abs_nonneg _) ((abs_nonneg _).trans h2)
    have p3 : |x' - x| * |y| ≤ e1 * u * (b2 * s) := mul_le_mul h1 k2 (abs_nonneg _) ((abs_nonneg _).trans h1)
    have p4 : 500 * u * (500 * (u * s)) ≤ 1 * (u * s) := by
      have : u * (u * s) ≤ 1 / 1000000 * (u * s) := mul_le_mul_of_nonneg_right u1 us0
      linarith
    linarith
  · rw [abs_mul, mul_assoc]
    exact mul_le_mul h2 k2 (abs_nonneg _) ((abs_nonneg _).trans h2)

theorem mul' (u0 : 0 ≤ u) (u1 : u ≤ 1 / 1000000) (s0 : 0 ≤ s) (k : Appr u s e2 b2 y' y) (h : Appr u 1 e1 b1 x' x) (he1 : e1 ≤ 500) (he2 : e2 ≤ 500) :
    Appr u s (e1 * b2 + b1 * e2 + 1) (b1 * b2) (y' * x') (y * x) := by
  rw [mul_comm y', mul_comm y]; exact mul u0 u1 s0 h k he1 he2

theorem weaken (h : Appr u s e b x' x) (us0 : 0 ≤ u * s) (he : e ≤ e1) : Appr u s e1 b x' x :=
  ⟨h.near.trans (mul_le_mul_of_nonneg_right he us0), h.size⟩

end Appr
end CAD
