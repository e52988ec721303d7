import Verif.Model.NurbsRounded
import Verif.Props.NurbsSurface
import Verif.Lemmas.Rounding
import Verif.Lemmas.Ieee

/-! C116: NURBS curves and surfaces evaluated in rounded arithmetic. -/

set_option linter.unusedSimpArgs false

namespace CAD
namespace Nurbs
open BSpline

/-- What is assumed of the rounding: errors as in `Rounds`, and the underflow error `η` is
small against the smallest knot distance, weight and coordinate bound `h`.  For `double`,
`h = 2⁻⁵¹¹`. -/
structure EvalOK (u η Ω h : ℝ) (fl : ℝ → ℝ) : Prop where
  rounds : Rounds u η Ω fl
  u0 : 0 ≤ u
  u1 : u ≤ 1 / 1000000
  h0 : 0 < h
  h1 : h ≤ 1
  under : η ≤ u * h ^ 2

variable {u η Ω h : ℝ} {fl : ℝ → ℝ}

theorem EvalOK.near (H : EvalOK u η Ω h fl) {x a e X : ℝ} (hx : |x - a| ≤ e) (hX : |x| ≤ X) (hΩ : X ≤ Ω) :
    |fl x - a| ≤ e + u * X + η := by
  have f := H.rounds.err x (hX.trans hΩ)
  have t := abs_sub_le (fl x) x a
  have := mul_le_mul_of_nonneg_left hX H.u0
  linarith

theorem EvalOK.eta1 (H : EvalOK u η Ω h fl) : η ≤ u * h := by
  have := H.under
  have : u * h ^ 2 ≤ u * h := mul_le_mul_of_nonneg_left (by nlinarith [H.h0, H.h1]) H.u0
  linarith

/-- the quotient of line 255 -/
theorem EvalOK.alpha (H : EvalOK u η Ω h fl) {a b t : ℝ} (ha : a ≤ t) (hb : t ≤ b) (hg : h ≤ b - a) (hab : b - a ≤ 1)
    (hΩ : 2 ≤ Ω) : fl (b - a) ≠ 0 ∧ 0 ≤ (t - a) / (b - a) ∧ (t - a) / (b - a) ≤ 1 ∧
      |fl (fl (t - a) / fl (b - a)) - (t - a) / (b - a)| ≤ 6.1 * u := by
  have u0 := H.u0
  have u1 := H.u1
  have h0 := H.h0
  have eta := H.eta1
  set x := t - a with hx
  set g := b - a with hg'
  have x0 : 0 ≤ x := by linarith
  have xg : x ≤ g := by linarith
  have g0 : 0 < g := by linarith
  have ug : u * h ≤ u * g := mul_le_mul_of_nonneg_left hg u0
  have e1 : |fl x - x| ≤ 2 * (u * g) := by
    have := H.near (x := x) (a := x) (e := 0) (X := g) (by simp) (by rw [abs_of_nonneg x0]; exact xg) (by linarith)
    linarith
  have e2 : |fl g - g| ≤ 2 * (u * g) := by
    have := H.near (x := g) (a := g) (e := 0) (X := g) (by simp) (by rw [abs_of_nonneg g0.le]) (by linarith)
    linarith
  have smallg : u * g ≤ 0.000001 * g := by nlinarith
  have g' : 0.999 * g ≤ fl g := by have := (abs_le.1 e2).1; linarith
  have g'0 : 0 < fl g := by linarith
  have q : |fl x / fl g - x / g| ≤ 4.01 * u := by
    have e : fl x / fl g - x / g = ((fl x - x) * g - x * (fl g - g)) / (fl g * g) := by field_simp; ring
    rw [e, abs_div, abs_of_pos (mul_pos g'0 g0), div_le_iff₀ (mul_pos g'0 g0)]
    have n : |(fl x - x) * g - x * (fl g - g)| ≤ 2 * (u * g) * g + g * (2 * (u * g)) := by
      refine (abs_sub _ _).trans (add_le_add ?_ ?_)
      · rw [abs_mul, abs_of_pos g0]; exact mul_le_mul_of_nonneg_right e1 g0.le
      · rw [abs_mul, abs_of_nonneg x0]; exact mul_le_mul xg e2 (abs_nonneg _) g0.le
    have : 4 * u * (g * g) ≤ 4.01 * u * (0.999 * g * g) := by
      have : 0 ≤ u * (g * g) := by positivity
      nlinarith
    have : 4.01 * u * (0.999 * g * g) ≤ 4.01 * u * (fl g * g) := by
      refine mul_le_mul_of_nonneg_left (mul_le_mul_of_nonneg_right g' g0.le) (by linarith)
    nlinarith
  have a1 : x / g ≤ 1 := (div_le_one g0).2 xg
  have a0 : 0 ≤ x / g := div_nonneg x0 g0.le
  refine ⟨g'0.ne', a0, a1, ?_⟩
  have big : |fl x / fl g| ≤ 1.01 := by
    have t := abs_add_le (fl x / fl g - x / g) (x / g)
    rw [sub_add_cancel, abs_of_nonneg a0] at t
    linarith
  have := H.near q big (by linarith)
  nlinarith [H.h1]

/-- exact interpolation between two numbers -/
def blendS (alpha x y : ℝ) : ℝ := (1 - alpha) * x + alpha * y

theorem blendS_abs {alpha x y M : ℝ} (h0 : 0 ≤ alpha) (h1 : alpha ≤ 1) (hx : |x| ≤ M) (hy : |y| ≤ M) :
    |blendS alpha x y| ≤ M := by
  have := abs_le.1 hx
  have := abs_le.1 hy
  unfold blendS
  rw [abs_le]
  constructor <;> nlinarith

/-- one step of de Boor's triangle -/
theorem EvalOK.blend (H : EvalOK u η Ω h fl) {α α' x y x' y' E M : ℝ} (h0 : 0 ≤ α) (h1 : α ≤ 1) (hα : |α' - α| ≤ 6.1 * u)
    (hx : |x| ≤ M) (hy : |y| ≤ M) (hx' : |x' - x| ≤ E) (hy' : |y' - y| ≤ E) (hE : E ≤ M / 100) (hη : η ≤ u * M)
    (hΩ : 2 ≤ Ω) (hM : 2 * M ≤ Ω) :
    |roundedBlend fl α' x' y' - blendS α x y| ≤ E + 21 * u * M := by
  have u0 := H.u0
  have u1 := H.u1
  have M0 : 0 ≤ M := (abs_nonneg x).trans hx
  have E0 : 0 ≤ E := (abs_nonneg _).trans hx'
  have um : 0 ≤ u * M := mul_nonneg u0 M0
  have eta : η ≤ u := by have := H.eta1; nlinarith [H.h0, H.h1]
  have c : |fl (1 - α') - (1 - α)| ≤ 8.2 * u := by
    have e : |1 - α' - (1 - α)| ≤ 6.1 * u := by
      rw [show 1 - α' - (1 - α) = -(α' - α) by ring, abs_neg]; exact hα
    have := H.near e (X := 1.01) (by
      have t := abs_add_le (1 - α' - (1 - α)) (1 - α)
      rw [sub_add_cancel, abs_of_nonneg (by linarith : 0 ≤ 1 - α)] at t
      linarith) (by linarith)
    linarith
  unfold roundedBlend blendS
  generalize fl (1 - α') = c' at *
  -- a product of a factor near `f` and a coordinate near `z`
  have prod : ∀ {f f' z z' d : ℝ}, 0 ≤ f → f ≤ 1 → |f' - f| ≤ d * u → |z| ≤ M → |z' - z| ≤ E → 0 ≤ d → d ≤ 9 →
      |fl (f' * z') - f * z| ≤ f * E + (1.01 * d + 2.1) * (u * M) := by
    intro f f' z z' d f0 f1 hf hz hz' d0 d9
    have z'M : |z'| ≤ 1.01 * M := by
      have t := abs_add_le (z' - z) z
      rw [sub_add_cancel] at t
      linarith
    have e : |f' * z' - f * z| ≤ f * E + d * u * (1.01 * M) := by
      rw [show f' * z' - f * z = f * (z' - z) + (f' - f) * z' by ring]
      refine (abs_add_le _ _).trans (add_le_add ?_ ?_)
      · rw [abs_mul, abs_of_nonneg f0]; exact mul_le_mul_of_nonneg_left hz' f0
      · rw [abs_mul]; exact mul_le_mul hf z'M (abs_nonneg _) (by positivity)
    have du : d * u ≤ 0.00001 := by nlinarith
    have fE : f * E ≤ M / 100 := by nlinarith
    have big : |f' * z'| ≤ 1.05 * M := by
      have t := abs_add_le (f' * z' - f * z) (f * z)
      rw [sub_add_cancel, abs_mul f, abs_of_nonneg f0] at t
      have : f * |z| ≤ M := by nlinarith [abs_nonneg z]
      have : d * u * (1.01 * M) ≤ 0.00001 * (1.01 * M) := mul_le_mul_of_nonneg_right du (by linarith)
      linarith
    have := H.near e big (by linarith)
    linarith
  have p1 := prod (by linarith) (by linarith) c hx hx' (by norm_num) (by norm_num)
  have p2 := prod h0 h1 hα hy hy' (by norm_num) (by norm_num)
  have s : |fl (c' * x') + fl (α' * y') - ((1 - α) * x + α * y)| ≤ E + 18.9 * (u * M) := by
    rw [show fl (c' * x') + fl (α' * y') - ((1 - α) * x + α * y) =
      (fl (c' * x') - (1 - α) * x) + (fl (α' * y') - α * y) by ring]
    refine (abs_add_le _ _).trans ?_
    linarith
  have b := blendS_abs h0 h1 hx hy
  unfold blendS at b
  have uM : u * M ≤ 0.000001 * M := by nlinarith
  have big : |fl (c' * x') + fl (α' * y')| ≤ 1.02 * M := by
    have t := abs_add_le (fl (c' * x') + fl (α' * y') - ((1 - α) * x + α * y)) ((1 - α) * x + α * y)
    rw [sub_add_cancel] at t
    linarith
  have := H.near s big (by linarith)
  nlinarith

/-- the whole triangle -/
theorem EvalOK.levels (H : EvalOK u η Ω h fl) {k p : Nat} {A A' : Nat → Nat → ℝ}
    (hA : ∀ i j, i ≤ k → k < j → 0 ≤ A i j ∧ A i j ≤ 1 ∧ |A' i j - A i j| ≤ 6.1 * u) {f f' : Nat → ℝ} {E M : ℝ}
    (hf : ∀ i, i ≤ k → k ≤ i + p → |f i| ≤ M) (hf' : ∀ i, i ≤ k → k ≤ i + p → |f' i - f i| ≤ E)
    (hE : E + 21 * p * u * M ≤ M / 100) (hη : η ≤ u * M) (hΩ : 2 ≤ Ω) (hM : 2 * M ≤ Ω) {r : Nat} (hr : r ≤ p) :
    ∀ i, i ≤ k → k ≤ i + (p - r) → |levBy (fun i j => blendS (A i j)) p f r i| ≤ M ∧
      |levBy (fun i j => roundedBlend fl (A' i j)) p f' r i - levBy (fun i j => blendS (A i j)) p f r i| ≤ E + 21 * r * u * M := by
  induction r with
  | zero => intro i h1 h2; simpa [levBy] using ⟨hf i h1 h2, hf' i h1 h2⟩
  | succ r ih =>
    intro i h1 h2
    obtain ⟨x1, x2⟩ := ih (by omega) (i - 1) (by omega) (by omega)
    obtain ⟨y1, y2⟩ := ih (by omega) i h1 (by omega)
    obtain ⟨a0, a1, a2⟩ := hA i (i + (p - r)) h1 (by omega)
    have M0 : 0 ≤ M := (abs_nonneg _).trans x1
    have um : 0 ≤ u * M := mul_nonneg H.u0 M0
    have hrp : (r : ℝ) ≤ p := by exact_mod_cast (by omega : r ≤ p)
    have le : E + 21 * r * u * M ≤ M / 100 := by nlinarith
    refine ⟨blendS_abs a0 a1 x1 y1, ?_⟩
    have := H.blend a0 a1 a2 x1 y1 x2 y2 le hη hΩ hM
    push_cast
    simp only [levBy]
    linarith

theorem levels_ratio {k p : Nat} {A : Nat → Nat → ℝ} (hA : ∀ i j, i ≤ k → k < j → 0 ≤ A i j ∧ A i j ≤ 1) {f g : Nat → ℝ} {R : ℝ}
    (hf : ∀ i, i ≤ k → k ≤ i + p → |f i| ≤ R * g i) {r : Nat} (hr : r ≤ p) : ∀ i, i ≤ k → k ≤ i + (p - r) →
    |levBy (fun i j => blendS (A i j)) p f r i| ≤ R * levBy (fun i j => blendS (A i j)) p g r i := by
  induction r with
  | zero => intro i h1 h2; exact hf i h1 h2
  | succ r ih =>
    intro i h1 h2
    have x := abs_le.1 (ih (by omega) (i - 1) (by omega) (by omega))
    have y := abs_le.1 (ih (by omega) i h1 (by omega))
    obtain ⟨a0, a1⟩ := hA i (i + (p - r)) h1 (by omega)
    simp only [levBy, blendS]
    rw [abs_le]
    constructor <;> nlinarith

theorem levels_ge {k p : Nat} {A : Nat → Nat → ℝ} (hA : ∀ i j, i ≤ k → k < j → 0 ≤ A i j ∧ A i j ≤ 1) {g : Nat → ℝ} {w : ℝ}
    (hg : ∀ i, i ≤ k → k ≤ i + p → w ≤ g i) {r : Nat} (hr : r ≤ p) : ∀ i, i ≤ k → k ≤ i + (p - r) →
    w ≤ levBy (fun i j => blendS (A i j)) p g r i := by
  induction r with
  | zero => intro i h1 h2; exact hg i h1 h2
  | succ r ih =>
    intro i h1 h2
    have x := ih (by omega) (i - 1) (by omega) (by omega)
    have y := ih (by omega) i h1 (by omega)
    obtain ⟨a0, a1⟩ := hA i (i + (p - r)) h1 (by omega)
    simp only [levBy, blendS]
    nlinarith

/-- the final division; `e` is the number of roundings so far -/
theorem EvalOK.quotient (H : EvalOK u η Ω h fl) {P N P' N' W w R e : ℝ} (he : 0 ≤ e) (hP : |P| ≤ R * N) (hw : h ≤ w) (hN : w ≤ N)
    (hWw : w ≤ W) (hR : h ≤ R) (hP' : |P' - P| ≤ (e + 2) * u * (W * R)) (hN' : |N' - N| ≤ e * u * W)
    (hsmall : (e + 2) * u * W ≤ w / 100) (hΩ : 2 * R ≤ Ω) :
    N ≠ 0 ∧ N' ≠ 0 ∧ |fl (P' / N') - P / N| ≤ (2.05 * e + 5) * u * (W / w) * R := by
  have u0 := H.u0
  have u1 := H.u1
  have h0 := H.h0
  have w0 : 0 < w := by linarith
  have R0 : 0 < R := by linarith
  have N0 : 0 < N := by linarith
  have W0 : 0 < W := by linarith
  have uW : 0 ≤ u * W := by positivity
  have n' : 0.99 * w ≤ N' := by have := (abs_le.1 hN').1; nlinarith
  have N'0 : 0 < N' := by linarith
  set κ := W / w with hκ
  have κ1 : 1 ≤ κ := (one_le_div w0).2 hWw
  have κw : κ * w = W := div_mul_cancel₀ W w0.ne'
  have PN : |P / N| ≤ R := by rw [abs_div, abs_of_pos N0, div_le_iff₀ N0]; exact hP
  have uκR : 0 ≤ u * κ * R := by positivity
  have d : |P' / N' - P / N| ≤ (2.03 * e + 2.05) * (u * κ * R) := by
    have e1 : P' / N' - P / N = ((P' - P) - P / N * (N' - N)) / N' := by field_simp; ring
    rw [e1, abs_div, abs_of_pos N'0, div_le_iff₀ N'0]
    have s : |(P' - P) - P / N * (N' - N)| ≤ (e + 2) * u * (W * R) + R * (e * u * W) := by
      refine (abs_sub _ _).trans (add_le_add hP' ?_)
      rw [abs_mul]
      exact mul_le_mul PN hN' (abs_nonneg _) R0.le
    have t : (2.03 * e + 2.05) * (u * κ * R) * (0.99 * w) = (2.0097 * e + 2.0295) * (u * W * R) := by
      rw [← κw]; ring
    have : (2.03 * e + 2.05) * (u * κ * R) * (0.99 * w) ≤ (2.03 * e + 2.05) * (u * κ * R) * N' :=
      mul_le_mul_of_nonneg_left n' (by positivity)
    have : 0 ≤ u * W * R := by positivity
    nlinarith [mul_nonneg he this]
  have small : (e + 2) * (u * κ) ≤ 1 / 100 := by
    have : (e + 2) * (u * κ) * w ≤ 1 / 100 * w := by
      calc (e + 2) * (u * κ) * w = (e + 2) * u * (κ * w) := by ring
        _ ≤ 1 / 100 * w := by rw [κw]; linarith
    exact le_of_mul_le_mul_right this w0
  have big : |P' / N'| ≤ 1.05 * R := by
    have t := abs_add_le (P' / N' - P / N) (P / N)
    rw [sub_add_cancel] at t
    have : (2.03 * e + 2.05) * (u * κ * R) ≤ 2.03 * (1 / 100) * R := by
      have : (2.03 * e + 2.05) * (u * κ * R) ≤ 2.03 * ((e + 2) * (u * κ)) * R := by nlinarith
      nlinarith
    linarith
  have η1 : η ≤ u * R := H.eta1.trans (mul_le_mul_of_nonneg_left hR u0)
  have uR : u * R ≤ u * κ * R := by nlinarith [mul_nonneg u0 R0.le]
  have := H.near d big (by linarith)
  refine ⟨N0.ne', N'0.ne', this.trans ?_⟩
  rw [show (2.05 * e + 5) * u * κ * R = (2.05 * e + 5) * (u * κ * R) by ring]
  nlinarith [mul_nonneg he uκR]

/-! ### coordinates of the triangles -/

theorem levBy_rounded_x (A : Nat → Nat → ℝ) (p : Nat) (f : Nat → P3 ℝ) (r i : Nat) :
    (levBy (fun i j => (roundedOps fl).blendP (A i j)) p f r i).x = levBy (fun i j => roundedBlend fl (A i j)) p (fun i => (f i).x) r i := by
  induction r generalizing i with
  | zero => rfl
  | succ r ih => simp only [levBy, ← ih]; rfl

theorem levBy_rounded_y (A : Nat → Nat → ℝ) (p : Nat) (f : Nat → P3 ℝ) (r i : Nat) :
    (levBy (fun i j => (roundedOps fl).blendP (A i j)) p f r i).y = levBy (fun i j => roundedBlend fl (A i j)) p (fun i => (f i).y) r i := by
  induction r generalizing i with
  | zero => rfl
  | succ r ih => simp only [levBy, ← ih]; rfl

theorem levBy_rounded_z (A : Nat → Nat → ℝ) (p : Nat) (f : Nat → P3 ℝ) (r i : Nat) :
    (levBy (fun i j => (roundedOps fl).blendP (A i j)) p f r i).z = levBy (fun i j => roundedBlend fl (A i j)) p (fun i => (f i).z) r i := by
  induction r generalizing i with
  | zero => rfl
  | succ r ih => simp only [levBy, ← ih]; rfl

theorem levBy_rounded_w (A : Nat → Nat → ℝ) (p : Nat) (f : Nat → ℝ) :
    levBy (fun i j => (roundedOps fl).blendW (A i j)) p f = levBy (fun i j => roundedBlend fl (A i j)) p f := by
  congr 1
  funext i j x y
  simp only [roundedOps, roundedBlend, mul_comm]

theorem levBy_exact_x (A : Nat → Nat → ℝ) (p : Nat) (f : Nat → P3 ℝ) (r i : Nat) :
    (levBy (fun i j => exactOps.blendP (A i j)) p f r i).x = levBy (fun i j => blendS (A i j)) p (fun i => (f i).x) r i := by
  induction r generalizing i with
  | zero => rfl
  | succ r ih => simp only [levBy, ← ih]; rfl

theorem levBy_exact_y (A : Nat → Nat → ℝ) (p : Nat) (f : Nat → P3 ℝ) (r i : Nat) :
    (levBy (fun i j => exactOps.blendP (A i j)) p f r i).y = levBy (fun i j => blendS (A i j)) p (fun i => (f i).y) r i := by
  induction r generalizing i with
  | zero => rfl
  | succ r ih => simp only [levBy, ← ih]; rfl

theorem levBy_exact_z (A : Nat → Nat → ℝ) (p : Nat) (f : Nat → P3 ℝ) (r i : Nat) :
    (levBy (fun i j => exactOps.blendP (A i j)) p f r i).z = levBy (fun i j => blendS (A i j)) p (fun i => (f i).z) r i := by
  induction r generalizing i with
  | zero => rfl
  | succ r ih => simp only [levBy, ← ih]; rfl

theorem levBy_exact_w (A : Nat → Nat → ℝ) (p : Nat) (f : Nat → ℝ) :
    levBy (fun i j => exactOps.blendW (A i j)) p f = levBy (fun i j => blendS (A i j)) p f := by
  congr 1
  funext i j x y
  simp only [exactOps, blendS, mul_comm]

theorem kn_mem {knots : List ℝ} {p n : Nat} (hk : ClampedKnots knots p n) (i : Nat) : kn knots i ∈ knots := by
  by_cases hi : i < knots.length
  · exact List.mem_of_getElem? (kn_of_lt hi)
  · rw [kn_of_ge (by omega)]
    exact List.mem_of_getElem? (hk.last n le_rfl (by omega))

/-- the quotients on one knot span -/
theorem EvalOK.alphas (H : EvalOK u η Ω h fl) {knots : List ℝ} {p n k : Nat} (hk : ClampedKnots knots p n)
    (hg : ∀ a ∈ knots, ∀ b ∈ knots, a < b → h ≤ b - a) {t : ℝ} (hs : InSpan knots t k) (hΩ : 2 ≤ Ω) {i j : Nat} (hi : i ≤ k) (hj : k < j) :
    exactOps.alpha t (kn knots i) (kn knots j) = some ((t - kn knots i) / (kn knots j - kn knots i)) ∧
    (roundedOps fl).alpha t (kn knots i) (kn knots j) = some (fl (fl (t - kn knots i) / fl (kn knots j - kn knots i))) ∧
    0 ≤ (t - kn knots i) / (kn knots j - kn knots i) ∧ (t - kn knots i) / (kn knots j - kn knots i) ≤ 1 ∧
    |fl (fl (t - kn knots i) / fl (kn knots j - kn knots i)) - (t - kn knots i) / (kn knots j - kn knots i)| ≤ 6.1 * u := by
  have m1 := hk.mono hi
  have m2 := hk.mono (show k + 1 ≤ j from hj)
  have lt : kn knots i < kn knots j := lt_of_le_of_lt m1 (lt_of_lt_of_le hs.1 m2)
  obtain ⟨a1, a2, a3, a4⟩ := H.alpha (m1.trans hs.2.1) (hs.2.2.1.trans m2) (hg _ (kn_mem hk i) _ (kn_mem hk j) lt)
    (by linarith [hk.nonneg i, hk.le_one j]) hΩ
  refine ⟨?_, ?_, a2, a3, a4⟩
  · simp only [exactOps, divR, if_neg (sub_ne_zero.2 lt.ne')]
  · simp only [roundedOps, if_neg a1]

/-- **C116** `NurbsCurve::evaluate` in rounded arithmetic: on a valid curve with positive weights
it succeeds on the whole of `[0, 1]`, and every coordinate is within `(44 p + 5) u κ R` of that of
the rational B-spline (C44), where `p` is the degree, `κ` the ratio of the largest to the smallest
weight and `R` the largest coordinate of a control point. -/
theorem curve_rounded (H : EvalOK u η Ω h fl) {c : Curve ℝ} {p n : Nat} (hv : c.Valid p n) {w W R : ℝ}
    (hw : ∀ x ∈ c.weights, w ≤ x ∧ x ≤ W) (hp : ∀ q ∈ c.points, |q.x| ≤ R ∧ |q.y| ≤ R ∧ |q.z| ≤ R)
    (hk : ∀ a ∈ c.knots, ∀ b ∈ c.knots, a < b → h ≤ b - a) (hhw : h ≤ w) (hhR : h ≤ R)
    (hsmall : (21 * p + 2) * u * W ≤ w / 100) (hΩ : 2 * (W + 1) * (R + 1) ≤ Ω) {t : ℝ} (h0 : 0 ≤ t) (h1 : t ≤ 1) :
    ∃ q q', c.at t = some q ∧ c.atRounded fl t = some q' ∧ |q'.x - q.x| ≤ (44 * p + 5) * u * (W / w) * R ∧
      |q'.y - q.y| ≤ (44 * p + 5) * u * (W / w) * R ∧ |q'.z - q.z| ≤ (44 * p + 5) * u * (W / w) * R := by
  obtain ⟨k, hs⟩ := exists_inSpan hv.knots h0 h1
  obtain ⟨hpk, hkn⟩ := hs.range hv.knots
  have u0 := H.u0
  have hp0 := H.h0
  have w0 : 0 < w := by linarith
  have R0 : 0 < R := by linarith
  have wt : ∀ i, i ≤ k → k ≤ i + p → w ≤ c.hw i ∧ c.hw i ≤ W := fun i h1 h2 =>
    hw _ (List.mem_of_getElem? (getD_of_lt c.weights 0 (by rw [hv.weights]; omega)))
  have pt : ∀ i, i ≤ k → k ≤ i + p → c.points.getD i ⟨0, 0, 0⟩ ∈ c.points := fun i h1 h2 =>
    List.mem_of_getElem? (getD_of_lt c.points ⟨0, 0, 0⟩ (by rw [hv.points]; omega))
  have wW : w ≤ W := (wt k le_rfl (by omega)).1.trans (wt k le_rfl (by omega)).2
  have W0 : 0 < W := by linarith
  have WR : 0 < W * R := mul_pos W0 R0
  have O1 : 2 ≤ Ω := by nlinarith
  have O2 : 2 * W ≤ Ω := by nlinarith
  have O3 : 2 * (W * R) ≤ Ω := by nlinarith
  have O4 : 2 * R ≤ Ω := by nlinarith
  have al := fun i j hi hj => H.alphas hv.knots hk hs O1 (i := i) (j := j) hi hj
  set A : Nat → Nat → ℝ := fun i j => (t - kn c.knots i) / (kn c.knots j - kn c.knots i) with hA
  set A' : Nat → Nat → ℝ := fun i j => fl (fl (t - kn c.knots i) / fl (kn c.knots j - kn c.knots i)) with hA'
  have hAA : ∀ i j, i ≤ k → k < j → 0 ≤ A i j ∧ A i j ≤ 1 ∧ |A' i j - A i j| ≤ 6.1 * u :=
    fun i j hi hj => (al i j hi hj).2.2
  have hA1 : ∀ i j, i ≤ k → k < j → 0 ≤ A i j ∧ A i j ≤ 1 := fun i j hi hj => ⟨(hAA i j hi hj).1, (hAA i j hi hj).2.1⟩
  have hs' : InSpan c.knots (clamp t) k := by rw [clamp_of_mem h0 h1]; exact hs
  obtain ⟨_, _, _, _, e⟩ := evaluateBy_eq exactOps hv hs' A (fun i j hi hj => (al i j hi hj).1)
  obtain ⟨_, _, _, _, e'⟩ := evaluateBy_eq (roundedOps fl) hv hs' A' (fun i j hi hj => (al i j hi hj).2.1)
  have hpR : (0 : ℝ) ≤ p := Nat.cast_nonneg p
  have etaW : η ≤ u * W := H.eta1.trans (mul_le_mul_of_nonneg_left (by linarith) u0)
  have etaWR : η ≤ u * (W * R) := H.under.trans (mul_le_mul_of_nonneg_left (by nlinarith) u0)
  have smallR : 2 * u * (W * R) + 21 * p * u * (W * R) ≤ W * R / 100 := by
    have : (21 * p + 2) * u * W * R ≤ w / 100 * R := mul_le_mul_of_nonneg_right hsmall R0.le
    nlinarith
  have smallW : 0 + 21 * p * u * W ≤ W / 100 := by nlinarith [mul_nonneg u0 W0.le]
  obtain ⟨-, N'⟩ := H.levels (p := p) hAA (f := c.hw) (f' := c.hw) (E := 0) (M := W)
    (fun i h1 h2 => by rw [abs_of_pos (by linarith [(wt i h1 h2).1])]; exact (wt i h1 h2).2) (fun i _ _ => by simp)
    smallW etaW O1 O2 le_rfl k le_rfl (by omega)
  have N := levels_ge (p := p) hA1 (g := c.hw) (w := w) (fun i h1 h2 => (wt i h1 h2).1) le_rfl k le_rfl (by omega)
  rw [zero_add] at N'
  -- one coordinate
  have coord : ∀ x : Nat → ℝ, (∀ i, i ≤ k → k ≤ i + p → |x i| ≤ R) →
      levBy (fun i j => blendS (A i j)) p c.hw p k ≠ 0 ∧ levBy (fun i j => roundedBlend fl (A' i j)) p c.hw p k ≠ 0 ∧
      |fl (levBy (fun i j => roundedBlend fl (A' i j)) p (fun i => fl (c.hw i * x i)) p k /
          levBy (fun i j => roundedBlend fl (A' i j)) p c.hw p k) -
        levBy (fun i j => blendS (A i j)) p (fun i => c.hw i * x i) p k / levBy (fun i j => blendS (A i j)) p c.hw p k| ≤
      (44 * p + 5) * u * (W / w) * R := by
    intro x hx
    have hxw : ∀ i, i ≤ k → k ≤ i + p → |c.hw i * x i| ≤ R * c.hw i := by
      intro i h1 h2
      have := (wt i h1 h2).1
      rw [abs_mul, abs_of_pos (by linarith : 0 < c.hw i), mul_comm]
      exact mul_le_mul_of_nonneg_right (hx i h1 h2) (by linarith)
    have hxM : ∀ i, i ≤ k → k ≤ i + p → |c.hw i * x i| ≤ W * R := fun i h1 h2 =>
      (hxw i h1 h2).trans (by rw [mul_comm]; exact mul_le_mul_of_nonneg_right (wt i h1 h2).2 R0.le)
    obtain ⟨-, P'⟩ := H.levels (p := p) hAA (f := fun i => c.hw i * x i) (f' := fun i => fl (c.hw i * x i))
      (E := 2 * u * (W * R)) (M := W * R) hxM (fun i h1 h2 => by
        have := H.near (x := c.hw i * x i) (a := c.hw i * x i) (e := 0) (by simp) (hxM i h1 h2) (by linarith)
        linarith) smallR etaWR O1 O3 le_rfl k le_rfl (by omega)
    have P := levels_ratio (p := p) hA1 hxw le_rfl k le_rfl (by omega)
    obtain ⟨q1, q2, q3⟩ := H.quotient (e := 21 * p) (by linarith) P hhw N wW hhR (P'.trans (by linarith)) N' hsmall O4
    refine ⟨q1, q2, q3.trans ?_⟩
    refine mul_le_mul_of_nonneg_right (mul_le_mul_of_nonneg_right (mul_le_mul_of_nonneg_right (by linarith) u0) (by positivity)) R0.le
  have cx := coord (fun i => (c.points.getD i ⟨0, 0, 0⟩).x) fun i h1 h2 => (hp _ (pt i h1 h2)).1
  have cy := coord (fun i => (c.points.getD i ⟨0, 0, 0⟩).y) fun i h1 h2 => (hp _ (pt i h1 h2)).2.1
  have cz := coord (fun i => (c.points.getD i ⟨0, 0, 0⟩).z) fun i h1 h2 => (hp _ (pt i h1 h2)).2.2
  have E : c.at t = some ⟨levBy (fun i j => blendS (A i j)) p (fun i => c.hw i * (c.points.getD i ⟨0, 0, 0⟩).x) p k /
        levBy (fun i j => blendS (A i j)) p c.hw p k,
      levBy (fun i j => blendS (A i j)) p (fun i => c.hw i * (c.points.getD i ⟨0, 0, 0⟩).y) p k / levBy (fun i j => blendS (A i j)) p c.hw p k,
      levBy (fun i j => blendS (A i j)) p (fun i => c.hw i * (c.points.getD i ⟨0, 0, 0⟩).z) p k /
        levBy (fun i j => blendS (A i j)) p c.hw p k⟩ := by
    rw [Curve.at, Curve.evaluate, e, levBy_exact_w]
    simp only [show ∀ P N, (exactOps : EvalOps ℝ).divide P N = divP P N from fun _ _ => rfl, divP, if_neg cx.1, Option.map_some,
      P3.div, levBy_exact_x, levBy_exact_y, levBy_exact_z]
    rfl
  have E' : c.atRounded fl t = some ⟨fl (levBy (fun i j => roundedBlend fl (A' i j)) p (fun i => fl (c.hw i * (c.points.getD i ⟨0, 0, 0⟩).x)) p k /
        levBy (fun i j => roundedBlend fl (A' i j)) p c.hw p k),
      fl (levBy (fun i j => roundedBlend fl (A' i j)) p (fun i => fl (c.hw i * (c.points.getD i ⟨0, 0, 0⟩).y)) p k /
        levBy (fun i j => roundedBlend fl (A' i j)) p c.hw p k),
      fl (levBy (fun i j => roundedBlend fl (A' i j)) p (fun i => fl (c.hw i * (c.points.getD i ⟨0, 0, 0⟩).z)) p k /
        levBy (fun i j => roundedBlend fl (A' i j)) p c.hw p k)⟩ := by
    rw [Curve.atRounded, e', levBy_rounded_w]
    simp only [show ∀ P N, (roundedOps fl).divide P N = if N = 0 then none else some ⟨fl (P.x / N), fl (P.y / N), fl (P.z / N)⟩ from
      fun _ _ => by simp [roundedOps], if_neg cx.2.1, Option.map_some, levBy_rounded_x, levBy_rounded_y, levBy_rounded_z]
    rfl
  exact ⟨_, _, E, E', cx.2.2, cy.2.2, cz.2.2⟩

/-- **C116** `NurbsSurface::evaluate` in rounded arithmetic: on a valid surface with positive
weights it succeeds on the whole unit square, and every coordinate is within
`(44 (p + q) + 5) u κ R` of that of the rational B-spline surface (C52). -/
theorem surface_rounded (H : EvalOK u η Ω h fl) {s : Surface ℝ} {p q nu nv : Nat} (hv : s.Valid p q nu nv) {w W R : ℝ}
    (hw : ∀ x ∈ s.weights, w ≤ x ∧ x ≤ W) (hp : ∀ q ∈ s.points, |q.x| ≤ R ∧ |q.y| ≤ R ∧ |q.z| ≤ R)
    (hku : ∀ a ∈ s.knotsU, ∀ b ∈ s.knotsU, a < b → h ≤ b - a) (hkv : ∀ a ∈ s.knotsV, ∀ b ∈ s.knotsV, a < b → h ≤ b - a)
    (hhw : h ≤ w) (hhR : h ≤ R) (hsmall : (21 * (p + q) + 2) * u * W ≤ w / 100) (hΩ : 2 * (W + 1) * (R + 1) ≤ Ω)
    {a b : ℝ} (a0 : 0 ≤ a) (a1 : a ≤ 1) (b0 : 0 ≤ b) (b1 : b ≤ 1) :
    ∃ x x', s.at a b = some x ∧ s.atRounded fl a b = some x' ∧ |x'.x - x.x| ≤ (44 * (p + q) + 5) * u * (W / w) * R ∧
      |x'.y - x.y| ≤ (44 * (p + q) + 5) * u * (W / w) * R ∧ |x'.z - x.z| ≤ (44 * (p + q) + 5) * u * (W / w) * R := by
  obtain ⟨k, hs⟩ := exists_inSpan hv.knotsU a0 a1
  obtain ⟨l, hl⟩ := exists_inSpan hv.knotsV b0 b1
  obtain ⟨hpk, hkn⟩ := hs.range hv.knotsU
  obtain ⟨hql, hln⟩ := hl.range hv.knotsV
  have u0 := H.u0
  have hp0 := H.h0
  have w0 : 0 < w := by linarith
  have R0 : 0 < R := by linarith
  have wt : ∀ i j, i ≤ k → k ≤ i + p → j ≤ l → l ≤ j + q → w ≤ s.wt nu i j ∧ s.wt nu i j ≤ W := fun i j h1 h2 h3 h4 =>
    hw _ (List.mem_of_getElem? (getD_of_lt s.weights 0 (by rw [hv.weights]; exact idx_lt (by omega) (by omega))))
  have pt : ∀ i j, i ≤ k → k ≤ i + p → j ≤ l → l ≤ j + q → s.pt nu i j ∈ s.points := fun i j h1 h2 h3 h4 =>
    List.mem_of_getElem? (getD_of_lt s.points ⟨0, 0, 0⟩ (by rw [hv.points]; exact idx_lt (by omega) (by omega)))
  have wW : w ≤ W := (wt k l le_rfl (by omega) le_rfl (by omega)).1.trans (wt k l le_rfl (by omega) le_rfl (by omega)).2
  have W0 : 0 < W := by linarith
  have WR : 0 < W * R := mul_pos W0 R0
  have O1 : 2 ≤ Ω := by nlinarith
  have O2 : 2 * W ≤ Ω := by nlinarith
  have O3 : 2 * (W * R) ≤ Ω := by nlinarith
  have O4 : 2 * R ≤ Ω := by nlinarith
  have al := fun i j hi hj => H.alphas hv.knotsU hku hs O1 (i := i) (j := j) hi hj
  have bl := fun i j hi hj => H.alphas hv.knotsV hkv hl O1 (i := i) (j := j) hi hj
  set A : Nat → Nat → ℝ := fun i j => (a - kn s.knotsU i) / (kn s.knotsU j - kn s.knotsU i) with hA
  set A' : Nat → Nat → ℝ := fun i j => fl (fl (a - kn s.knotsU i) / fl (kn s.knotsU j - kn s.knotsU i)) with hA'
  set B : Nat → Nat → ℝ := fun i j => (b - kn s.knotsV i) / (kn s.knotsV j - kn s.knotsV i) with hB
  set B' : Nat → Nat → ℝ := fun i j => fl (fl (b - kn s.knotsV i) / fl (kn s.knotsV j - kn s.knotsV i)) with hB'
  have hAA : ∀ i j, i ≤ k → k < j → 0 ≤ A i j ∧ A i j ≤ 1 ∧ |A' i j - A i j| ≤ 6.1 * u :=
    fun i j hi hj => (al i j hi hj).2.2
  have hBB : ∀ i j, i ≤ l → l < j → 0 ≤ B i j ∧ B i j ≤ 1 ∧ |B' i j - B i j| ≤ 6.1 * u :=
    fun i j hi hj => (bl i j hi hj).2.2
  have hA1 : ∀ i j, i ≤ k → k < j → 0 ≤ A i j ∧ A i j ≤ 1 := fun i j hi hj => ⟨(hAA i j hi hj).1, (hAA i j hi hj).2.1⟩
  have hB1 : ∀ i j, i ≤ l → l < j → 0 ≤ B i j ∧ B i j ≤ 1 := fun i j hi hj => ⟨(hBB i j hi hj).1, (hBB i j hi hj).2.1⟩
  have hs' : InSpan s.knotsU (clamp a) k := by rw [clamp_of_mem a0 a1]; exact hs
  have hl' : InSpan s.knotsV (clamp b) l := by rw [clamp_of_mem b0 b1]; exact hl
  obtain ⟨_, _, _, _, _, _, _, _, e⟩ := surface_evaluateBy_eq exactOps hv hs' hl' A B (fun i j hi hj => (al i j hi hj).1)
    (fun i j hi hj => (bl i j hi hj).1)
  obtain ⟨_, _, _, _, _, _, _, _, e'⟩ := surface_evaluateBy_eq (roundedOps fl) hv hs' hl' A' B' (fun i j hi hj => (al i j hi hj).2.1)
    (fun i j hi hj => (bl i j hi hj).2.1)
  have hpR : (0 : ℝ) ≤ p := Nat.cast_nonneg p
  have hqR : (0 : ℝ) ≤ q := Nat.cast_nonneg q
  have etaW : η ≤ u * W := H.eta1.trans (mul_le_mul_of_nonneg_left (by linarith) u0)
  have etaWR : η ≤ u * (W * R) := H.under.trans (mul_le_mul_of_nonneg_left (by nlinarith) u0)
  have uWR : 0 ≤ u * (W * R) := by positivity
  have uW : 0 ≤ u * W := by positivity
  have smallR : 2 * u * (W * R) + 21 * p * u * (W * R) + 21 * q * u * (W * R) ≤ W * R / 100 := by
    have : (21 * (p + q) + 2) * u * W * R ≤ w / 100 * R := mul_le_mul_of_nonneg_right hsmall R0.le
    nlinarith
  have smallR1 : 2 * u * (W * R) + 21 * p * u * (W * R) ≤ W * R / 100 := by
    have : 0 ≤ 21 * q * u * (W * R) := by positivity
    linarith
  have smallW : 0 + 21 * p * u * W + 21 * q * u * W ≤ W / 100 := by nlinarith
  have smallW1 : 0 + 21 * p * u * W ≤ W / 100 := by
    have : 0 ≤ 21 * q * u * W := by positivity
    linarith
  have row := fun j (h3 : j ≤ l) (h4 : l ≤ j + q) => H.levels (p := p) hAA (f := fun i => s.wt nu i j) (f' := fun i => s.wt nu i j) (E := 0) (M := W)
    (fun i h1 h2 => by
      have := wt i j h1 h2 h3 h4
      rw [abs_of_pos (by linarith)]; exact this.2) (fun i _ _ => by simp)
    smallW1 etaW O1 O2 le_rfl k le_rfl (by omega)
  obtain ⟨-, N'⟩ := H.levels (p := q) hBB (M := W) (fun j h3 h4 => (row j h3 h4).1) (fun j h3 h4 => (row j h3 h4).2)
    smallW etaW O1 O2 le_rfl l le_rfl (by omega)
  have N := levels_ge (p := q) hB1 (w := w) (fun j h3 h4 => levels_ge (p := p) hA1 (g := fun i => s.wt nu i j) (w := w)
    (fun i h1 h2 => (wt i j h1 h2 h3 h4).1) le_rfl k le_rfl (by omega)) le_rfl l le_rfl (by omega)
  rw [zero_add] at N'
  -- one coordinate
  have coord : ∀ x : Nat → Nat → ℝ, (∀ i j, i ≤ k → k ≤ i + p → j ≤ l → l ≤ j + q → |x i j| ≤ R) →
      levBy (fun i j => blendS (B i j)) q (fun j => levBy (fun i j => blendS (A i j)) p (fun i => s.wt nu i j) p k) q l ≠ 0 ∧
      levBy (fun i j => roundedBlend fl (B' i j)) q (fun j => levBy (fun i j => roundedBlend fl (A' i j)) p (fun i => s.wt nu i j) p k) q l ≠ 0 ∧
      |fl (levBy (fun i j => roundedBlend fl (B' i j)) q (fun j => levBy (fun i j => roundedBlend fl (A' i j)) p (fun i => fl (s.wt nu i j * x i j)) p k) q l /
          levBy (fun i j => roundedBlend fl (B' i j)) q (fun j => levBy (fun i j => roundedBlend fl (A' i j)) p (fun i => s.wt nu i j) p k) q l) -
        levBy (fun i j => blendS (B i j)) q (fun j => levBy (fun i j => blendS (A i j)) p (fun i => s.wt nu i j * x i j) p k) q l /
          levBy (fun i j => blendS (B i j)) q (fun j => levBy (fun i j => blendS (A i j)) p (fun i => s.wt nu i j) p k) q l| ≤ (44 * (p + q) + 5) * u * (W / w) * R := by
    intro x hx
    have hxw : ∀ i j, i ≤ k → k ≤ i + p → j ≤ l → l ≤ j + q → |s.wt nu i j * x i j| ≤ R * s.wt nu i j := by
      intro i j h1 h2 h3 h4
      have := (wt i j h1 h2 h3 h4).1
      rw [abs_mul, abs_of_pos (by linarith : 0 < s.wt nu i j), mul_comm]
      exact mul_le_mul_of_nonneg_right (hx i j h1 h2 h3 h4) (by linarith)
    have hxM : ∀ i j, i ≤ k → k ≤ i + p → j ≤ l → l ≤ j + q → |s.wt nu i j * x i j| ≤ W * R := fun i j h1 h2 h3 h4 =>
      (hxw i j h1 h2 h3 h4).trans (by rw [mul_comm]; exact mul_le_mul_of_nonneg_right (wt i j h1 h2 h3 h4).2 R0.le)
    have rowx := fun j (h3 : j ≤ l) (h4 : l ≤ j + q) => H.levels (p := p) hAA (f := fun i => s.wt nu i j * x i j)
      (f' := fun i => fl (s.wt nu i j * x i j))
      (E := 2 * u * (W * R)) (M := W * R) (fun i h1 h2 => hxM i j h1 h2 h3 h4) (fun i h1 h2 => by
        have := H.near (x := s.wt nu i j * x i j) (a := s.wt nu i j * x i j) (e := 0) (by simp) (hxM i j h1 h2 h3 h4) (by linarith)
        linarith) smallR1 etaWR O1 O3 le_rfl k le_rfl (by omega)
    obtain ⟨-, P'⟩ := H.levels (p := q) hBB (M := W * R) (fun j h3 h4 => (rowx j h3 h4).1) (fun j h3 h4 => (rowx j h3 h4).2)
      smallR etaWR O1 O3 le_rfl l le_rfl (by omega)
    have P := levels_ratio (p := q) hB1 (fun j h3 h4 => levels_ratio (p := p) hA1 (fun i h1 h2 => hxw i j h1 h2 h3 h4) le_rfl k le_rfl (by omega))
      le_rfl l le_rfl (by omega)
    obtain ⟨q1, q2, q3⟩ := H.quotient (e := 21 * (p + q)) (by linarith) P hhw N wW hhR (P'.trans (by linarith)) (N'.trans (by linarith)) hsmall O4
    refine ⟨q1, q2, q3.trans ?_⟩
    refine mul_le_mul_of_nonneg_right (mul_le_mul_of_nonneg_right (mul_le_mul_of_nonneg_right (by linarith) u0) (by positivity)) R0.le
  have cx := coord (fun i j => (s.pt nu i j).x) fun i j h1 h2 h3 h4 => (hp _ (pt i j h1 h2 h3 h4)).1
  have cy := coord (fun i j => (s.pt nu i j).y) fun i j h1 h2 h3 h4 => (hp _ (pt i j h1 h2 h3 h4)).2.1
  have cz := coord (fun i j => (s.pt nu i j).z) fun i j h1 h2 h3 h4 => (hp _ (pt i j h1 h2 h3 h4)).2.2
  have E : s.at a b = some ⟨levBy (fun i j => blendS (B i j)) q (fun j => levBy (fun i j => blendS (A i j)) p (fun i => s.wt nu i j * (s.pt nu i j).x) p k) q l / levBy (fun i j => blendS (B i j)) q (fun j => levBy (fun i j => blendS (A i j)) p (fun i => s.wt nu i j) p k) q l,
      levBy (fun i j => blendS (B i j)) q (fun j => levBy (fun i j => blendS (A i j)) p (fun i => s.wt nu i j * (s.pt nu i j).y) p k) q l / levBy (fun i j => blendS (B i j)) q (fun j => levBy (fun i j => blendS (A i j)) p (fun i => s.wt nu i j) p k) q l,
      levBy (fun i j => blendS (B i j)) q (fun j => levBy (fun i j => blendS (A i j)) p (fun i => s.wt nu i j * (s.pt nu i j).z) p k) q l / levBy (fun i j => blendS (B i j)) q (fun j => levBy (fun i j => blendS (A i j)) p (fun i => s.wt nu i j) p k) q l⟩ := by
    rw [Surface.at, Surface.evaluate, e]
    simp only [show ∀ P N, (exactOps : EvalOps ℝ).divide P N = divP P N from fun _ _ => rfl, divP, levBy_exact_w, if_neg cx.1, Option.map_some,
      P3.div, levBy_exact_x, levBy_exact_y, levBy_exact_z]
    rfl
  have E' : s.atRounded fl a b = some ⟨fl (levBy (fun i j => roundedBlend fl (B' i j)) q (fun j => levBy (fun i j => roundedBlend fl (A' i j)) p (fun i => fl (s.wt nu i j * (s.pt nu i j).x)) p k) q l / levBy (fun i j => roundedBlend fl (B' i j)) q (fun j => levBy (fun i j => roundedBlend fl (A' i j)) p (fun i => s.wt nu i j) p k) q l),
      fl (levBy (fun i j => roundedBlend fl (B' i j)) q (fun j => levBy (fun i j => roundedBlend fl (A' i j)) p (fun i => fl (s.wt nu i j * (s.pt nu i j).y)) p k) q l / levBy (fun i j => roundedBlend fl (B' i j)) q (fun j => levBy (fun i j => roundedBlend fl (A' i j)) p (fun i => s.wt nu i j) p k) q l),
      fl (levBy (fun i j => roundedBlend fl (B' i j)) q (fun j => levBy (fun i j => roundedBlend fl (A' i j)) p (fun i => fl (s.wt nu i j * (s.pt nu i j).z)) p k) q l / levBy (fun i j => roundedBlend fl (B' i j)) q (fun j => levBy (fun i j => roundedBlend fl (A' i j)) p (fun i => s.wt nu i j) p k) q l)⟩ := by
    rw [Surface.atRounded, e']
    simp only [show ∀ P N, (roundedOps fl).divide P N = if N = 0 then none else some ⟨fl (P.x / N), fl (P.y / N), fl (P.z / N)⟩ from
      fun _ _ => by simp [roundedOps], levBy_rounded_w, if_neg cx.2.1, Option.map_some, levBy_rounded_x, levBy_rounded_y, levBy_rounded_z]
    rfl
  exact ⟨_, _, E, E', cx.2.2, cy.2.2, cz.2.2⟩

/-- `double` satisfies the assumptions -/
theorem evalOK_double : EvalOK (2 ^ (-53 : ℤ)) (2 ^ (-1075 : ℤ)) (2 ^ (1023 : ℤ)) (2 ^ (-511 : ℤ)) double where
  rounds := ⟨fun x _ => by
    have := ieee_err (p := 53) (emin := -1074) x
    norm_num at this ⊢
    exact this⟩
  u0 := by positivity
  u1 := by norm_num
  h0 := by positivity
  h1 := zpow_le_one_of_nonpos₀ (by norm_num) (by norm_num)
  under := by
    have e : (2 : ℝ) ^ (-53 : ℤ) * ((2 : ℝ) ^ (-511 : ℤ)) ^ 2 = 2 ^ (-1075 : ℤ) := by
      rw [← zpow_natCast, ← zpow_mul, ← zpow_add₀ (by norm_num)]
      norm_num
    rw [e]

/-- what `double` needs: knot distances, weights and coordinates neither tiny nor huge -/
structure DoubleRange (knots weights : List ℝ) (points : List (P3 ℝ)) (w W R : ℝ) : Prop where
  gap : ∀ a ∈ knots, ∀ b ∈ knots, a < b → 2 ^ (-500 : ℤ) ≤ b - a
  weight : ∀ x ∈ weights, w ≤ x ∧ x ≤ W
  point : ∀ q ∈ points, |q.x| ≤ R ∧ |q.y| ≤ R ∧ |q.z| ≤ R
  w0 : 2 ^ (-500 : ℤ) ≤ w
  W1 : W ≤ 2 ^ (500 : ℤ)
  ratio : W ≤ 2 ^ 20 * w
  R0 : 2 ^ (-500 : ℤ) ≤ R
  R1 : R ≤ 2 ^ (500 : ℤ)

theorem DoubleRange.over {knots weights : List ℝ} {points : List (P3 ℝ)} {w W R : ℝ} (h : DoubleRange knots weights points w W R) (hW : w ≤ W) :
    2 * (W + 1) * (R + 1) ≤ (2 : ℝ) ^ (1023 : ℤ) := by
  have one : (1 : ℝ) ≤ 2 ^ (500 : ℤ) := one_le_zpow₀ (by norm_num) (by norm_num)
  have p : (0 : ℝ) < 2 ^ (-500 : ℤ) := by positivity
  have a := h.W1
  have b := h.R1
  have c := h.w0
  have d := h.R0
  have e : (2 : ℝ) ^ (1003 : ℤ) = 8 * (2 ^ (500 : ℤ) * 2 ^ (500 : ℤ)) := by
    rw [← zpow_add₀ (by norm_num), show (8 : ℝ) = 2 ^ (3 : ℤ) by norm_num, ← zpow_add₀ (by norm_num)]
    norm_num
  have f : (2 : ℝ) ^ (1003 : ℤ) ≤ 2 ^ (1023 : ℤ) := zpow_le_zpow_right₀ (by norm_num) (by norm_num)
  refine le_trans ?_ f
  rw [e]
  clear e f h
  generalize (2 : ℝ) ^ (500 : ℤ) = B at *
  generalize (2 : ℝ) ^ (-500 : ℤ) = s at *
  have : (W + 1) * (R + 1) ≤ (2 * B) * (2 * B) := mul_le_mul (by linarith) (by linarith) (by linarith) (by linarith)
  linarith

theorem small_double {e w W : ℝ} (he : e ≤ 2 ^ 20) (hw : 0 < w) (hW : W ≤ 2 ^ 20 * w) (hW0 : 0 ≤ W) :
    e * 2 ^ (-53 : ℤ) * W ≤ w / 100 := by
  have a : e * 2 ^ (-53 : ℤ) ≤ 2 ^ 20 * 2 ^ (-53 : ℤ) := mul_le_mul_of_nonneg_right he (by positivity)
  have b : (2 : ℝ) ^ 20 * 2 ^ (-53 : ℤ) * 2 ^ 20 ≤ 1 / 100 := by norm_num
  calc e * 2 ^ (-53 : ℤ) * W ≤ 2 ^ 20 * 2 ^ (-53 : ℤ) * W := mul_le_mul_of_nonneg_right a hW0
    _ ≤ 2 ^ 20 * 2 ^ (-53 : ℤ) * (2 ^ 20 * w) := mul_le_mul_of_nonneg_left hW (by positivity)
    _ = 2 ^ 20 * 2 ^ (-53 : ℤ) * 2 ^ 20 * w := by ring
    _ ≤ 1 / 100 * w := mul_le_mul_of_nonneg_right b hw.le
    _ = w / 100 := by ring

/-- **C116** for `double`, curves of degree up to 1000 -/
theorem curve_double {c : Curve ℝ} {p n : Nat} (hv : c.Valid p n) {w W R : ℝ} (hr : DoubleRange c.knots c.weights c.points w W R)
    (hp : p ≤ 1000) {t : ℝ} (h0 : 0 ≤ t) (h1 : t ≤ 1) :
    ∃ q q', c.at t = some q ∧ c.atRounded double t = some q' ∧ |q'.x - q.x| ≤ (44 * p + 5) * 2 ^ (-53 : ℤ) * (W / w) * R ∧
      |q'.y - q.y| ≤ (44 * p + 5) * 2 ^ (-53 : ℤ) * (W / w) * R ∧ |q'.z - q.z| ≤ (44 * p + 5) * 2 ^ (-53 : ℤ) * (W / w) * R := by
  have le : (2 : ℝ) ^ (-511 : ℤ) ≤ 2 ^ (-500 : ℤ) := zpow_le_zpow_right₀ (by norm_num) (by norm_num)
  have n0 := hv.knots.p_lt_n
  have mem : c.weights[0]'(by rw [hv.weights]; omega) ∈ c.weights := List.getElem_mem _
  have wW : w ≤ W := (hr.weight _ mem).1.trans (hr.weight _ mem).2
  have w0 : 0 < w := lt_of_lt_of_le (by positivity) hr.w0
  have pR : (p : ℝ) ≤ 1000 := by exact_mod_cast hp
  exact curve_rounded evalOK_double hv hr.weight hr.point (fun a ha b hb hab => le.trans (hr.gap a ha b hb hab)) (le.trans hr.w0) (le.trans hr.R0)
    (small_double (by norm_num; linarith) w0 hr.ratio (by linarith)) (hr.over wW) h0 h1

/-- **C116** for `double`, surfaces of degrees up to 1000 -/
theorem surface_double {s : Surface ℝ} {p q nu nv : Nat} (hv : s.Valid p q nu nv) {w W R : ℝ}
    (hu : DoubleRange s.knotsU s.weights s.points w W R) (hv' : DoubleRange s.knotsV s.weights s.points w W R)
    (hp : p ≤ 1000) (hq : q ≤ 1000) {a b : ℝ} (a0 : 0 ≤ a) (a1 : a ≤ 1) (b0 : 0 ≤ b) (b1 : b ≤ 1) :
    ∃ x x', s.at a b = some x ∧ s.atRounded double a b = some x' ∧ |x'.x - x.x| ≤ (44 * (p + q) + 5) * 2 ^ (-53 : ℤ) * (W / w) * R ∧
      |x'.y - x.y| ≤ (44 * (p + q) + 5) * 2 ^ (-53 : ℤ) * (W / w) * R ∧ |x'.z - x.z| ≤ (44 * (p + q) + 5) * 2 ^ (-53 : ℤ) * (W / w) * R := by
  have le : (2 : ℝ) ^ (-511 : ℤ) ≤ 2 ^ (-500 : ℤ) := zpow_le_zpow_right₀ (by norm_num) (by norm_num)
  have n0 := hv.knotsU.p_lt_n
  have m0 := hv.knotsV.p_lt_n
  have mem : s.weights[0]'(by rw [hv.weights]; exact Nat.mul_pos (by omega) (by omega)) ∈ s.weights := List.getElem_mem _
  have wW : w ≤ W := (hu.weight _ mem).1.trans (hu.weight _ mem).2
  have w0 : 0 < w := lt_of_lt_of_le (by positivity) hu.w0
  have pR : (p : ℝ) ≤ 1000 := by exact_mod_cast hp
  have qR : (q : ℝ) ≤ 1000 := by exact_mod_cast hq
  exact surface_rounded evalOK_double hv hu.weight hu.point (fun a ha b hb hab => le.trans (hu.gap a ha b hb hab))
    (fun a ha b hb hab => le.trans (hv'.gap a ha b hb hab)) (le.trans hu.w0) (le.trans hu.R0)
    (small_double (by norm_num; linarith) w0 hu.ratio (by linarith)) (hu.over wW) a0 a1 b0 b1

/-- a quarter circle with the weight `1/√2` rounded somehow: `3/4` -/
noncomputable def arcR : Curve ℝ := ⟨2, [0, 0, 0, 1, 1, 1], [1, 3 / 4, 1], [⟨1, 0, 0⟩, ⟨1, 1, 0⟩, ⟨0, 1, 0⟩], 3,
  [⟨7, 7, 7⟩, ⟨0, 0, 0⟩, ⟨0, 0, 0⟩], [0, 5, 0]⟩

theorem arcR_valid : arcR.Valid 2 3 :=
  ⟨rfl, rfl, rfl, rfl, ⟨rfl, by simp [arcR], by
    intro i hi
    obtain rfl | rfl | rfl : i = 0 ∨ i = 1 ∨ i = 2 := by omega
    all_goals rfl, by
    intro i h1 h2
    obtain rfl | rfl | rfl : i = 3 ∨ i = 4 ∨ i = 5 := by omega
    all_goals rfl⟩, by simp [arcR], by simp [arcR]⟩

theorem arcR_range : DoubleRange arcR.knots arcR.weights arcR.points (3 / 4) 1 1 := by
  have s : (2 : ℝ) ^ (-500 : ℤ) ≤ 2 ^ (-1 : ℤ) := zpow_le_zpow_right₀ (by norm_num) (by norm_num)
  have b : (1 : ℝ) ≤ 2 ^ (500 : ℤ) := one_le_zpow₀ (by norm_num) (by norm_num)
  rw [zpow_neg_one] at s
  constructor
  · intro a ha b hb hab
    simp only [arcR, List.mem_cons, List.not_mem_nil, or_false, or_self] at ha hb
    rcases ha with rfl | rfl | rfl | rfl | rfl | rfl <;> rcases hb with rfl | rfl | rfl | rfl | rfl | rfl <;> linarith
  · intro x hx
    simp only [arcR, List.mem_cons, List.not_mem_nil, or_false] at hx
    rcases hx with rfl | rfl | rfl <;> norm_num
  · intro q hq
    simp only [arcR, List.mem_cons, List.not_mem_nil, or_false] at hq
    rcases hq with rfl | rfl | rfl <;> norm_num
  · linarith
  · exact b
  · norm_num
  · linarith
  · exact b

/-- it is evaluated to within `2e-14` everywhere -/
example (t : ℝ) (h0 : 0 ≤ t) (h1 : t ≤ 1) : ∃ q q', arcR.at t = some q ∧ arcR.atRounded double t = some q' ∧
    |q'.x - q.x| ≤ 2 / 10 ^ 14 ∧ |q'.y - q.y| ≤ 2 / 10 ^ 14 := by
  obtain ⟨q, q', e, e', x, y, -⟩ := curve_double arcR_valid arcR_range (by norm_num) h0 h1
  have : (44 * (2 : ℕ) + 5) * (2 : ℝ) ^ (-53 : ℤ) * (1 / (3 / 4)) * 1 ≤ 2 / 10 ^ 14 := by norm_num
  exact ⟨q, q', e, e', x.trans this, y.trans this⟩

end Nurbs
end CAD
