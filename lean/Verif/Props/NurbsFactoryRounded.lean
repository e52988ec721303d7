import Verif.Model.NurbsFactoryRounded
import Verif.Props.NurbsRounded
import Verif.Props.NurbsSolids
import Verif.Props.MergeDouble
import Verif.Props.NurbsContinuous
import Mathlib.Algebra.Order.BigOperators.Group.Finset
import Mathlib.Tactic.Linarith
import Mathlib.Tactic.Positivity
import Mathlib.Tactic.FieldSimp

/-! C130: circles, disks, spheres, tori and cylinders made by `NurbsFactory` and evaluated in
`double` lie on the true shapes up to the stated error. -/

namespace CAD
namespace Nurbs
open BSpline

/-! ### control points and weights that are a little off -/

/-- A weighted mean moves little when the weights change relatively by `ε` and the values by `δ`. -/
theorem mean_stable {ι : Type} (s : Finset ι) {B w w' x x' : ι → ℝ} {δ ε R : ℝ} (hB : ∀ i ∈ s, 0 ≤ B i) (hw : ∀ i ∈ s, 0 < w i)
    (hw' : ∀ i ∈ s, |w' i - w i| ≤ ε * w i) (hx : ∀ i ∈ s, |x i| ≤ R) (hx' : ∀ i ∈ s, |x' i - x i| ≤ δ)
    (hε0 : 0 ≤ ε) (hε : ε ≤ 1 / 10) (hδ : 0 ≤ δ) (hR : 0 ≤ R) (hpos : 0 < ∑ i ∈ s, B i * w i) :
    0 < ∑ i ∈ s, B i * w' i ∧
      |(∑ i ∈ s, B i * w' i * x' i) / (∑ i ∈ s, B i * w' i) - (∑ i ∈ s, B i * w i * x i) / (∑ i ∈ s, B i * w i)| ≤ δ + 3 * ε * R := by
  set N := ∑ i ∈ s, B i * w i with hN
  set N' := ∑ i ∈ s, B i * w' i with hN'
  set q := (∑ i ∈ s, B i * w i * x i) / N with hq
  have hNN : |N' - N| ≤ ε * N := by
    rw [hN, hN', ← Finset.sum_sub_distrib, Finset.mul_sum]
    refine (Finset.abs_sum_le_sum_abs _ _).trans (Finset.sum_le_sum fun i hi => ?_)
    rw [← mul_sub, abs_mul, abs_of_nonneg (hB i hi)]
    nlinarith [hw' i hi, hB i hi]
  have pos : (9 / 10) * N ≤ N' := by
    have := (abs_le.1 hNN).1
    nlinarith
  have hN'0 : 0 < N' := by linarith
  have hqR : |q| ≤ R := by
    rw [hq, abs_div, abs_of_pos hpos, div_le_iff₀ hpos, hN, Finset.mul_sum]
    refine (Finset.abs_sum_le_sum_abs _ _).trans (Finset.sum_le_sum fun i hi => ?_)
    have : 0 ≤ B i * w i := mul_nonneg (hB i hi) (hw i hi).le
    rw [abs_mul, abs_of_nonneg this, mul_comm R]
    exact mul_le_mul_of_nonneg_left (hx i hi) this
  refine ⟨hN'0, ?_⟩
  have key : (∑ i ∈ s, B i * w' i * x' i) - q * N' =
      (∑ i ∈ s, B i * w' i * (x' i - x i)) + ∑ i ∈ s, B i * (w' i - w i) * (x i - q) := by
    have z : (∑ i ∈ s, B i * w i * x i) - q * N = 0 := by rw [hq]; field_simp; ring
    have e1 : (∑ i ∈ s, B i * w' i * (x' i - x i)) = (∑ i ∈ s, B i * w' i * x' i) - ∑ i ∈ s, B i * w' i * x i := by
      rw [← Finset.sum_sub_distrib]; exact Finset.sum_congr rfl fun i _ => by ring
    have e2 : (∑ i ∈ s, B i * (w' i - w i) * (x i - q)) = (∑ i ∈ s, B i * w' i * x i) - (∑ i ∈ s, B i * w i * x i) - q * N' + q * N := by
      rw [hN, hN', Finset.mul_sum, Finset.mul_sum, ← Finset.sum_sub_distrib, ← Finset.sum_sub_distrib, ← Finset.sum_add_distrib]
      exact Finset.sum_congr rfl fun i _ => by ring
    rw [e1, e2]
    linarith
  have b1 : |∑ i ∈ s, B i * w' i * (x' i - x i)| ≤ δ * N' := by
    rw [hN', Finset.mul_sum]
    refine (Finset.abs_sum_le_sum_abs _ _).trans (Finset.sum_le_sum fun i hi => ?_)
    have w0 : 0 ≤ w' i := by
      have := (abs_le.1 (hw' i hi)).1
      nlinarith [hw i hi]
    have : 0 ≤ B i * w' i := mul_nonneg (hB i hi) w0
    rw [abs_mul, abs_of_nonneg this, mul_comm δ]
    exact mul_le_mul_of_nonneg_left (hx' i hi) this
  have b2 : |∑ i ∈ s, B i * (w' i - w i) * (x i - q)| ≤ 2 * R * ε * N := by
    rw [hN, Finset.mul_sum]
    refine (Finset.abs_sum_le_sum_abs _ _).trans (Finset.sum_le_sum fun i hi => ?_)
    rw [abs_mul, abs_mul, abs_of_nonneg (hB i hi)]
    have c1 : |x i - q| ≤ 2 * R := (abs_sub _ _).trans (by linarith [hx i hi])
    calc B i * |w' i - w i| * |x i - q| ≤ B i * (ε * w i) * (2 * R) :=
          mul_le_mul (mul_le_mul_of_nonneg_left (hw' i hi) (hB i hi)) c1 (abs_nonneg _)
            (mul_nonneg (hB i hi) (mul_nonneg hε0 (hw i hi).le))
      _ = 2 * R * ε * (B i * w i) := by ring
  have d : (∑ i ∈ s, B i * w' i * x' i) / N' - q = ((∑ i ∈ s, B i * w' i * x' i) - q * N') / N' := by
    field_simp
  rw [d, abs_div, abs_of_pos hN'0, div_le_iff₀ hN'0, key]
  refine (abs_add_le _ _).trans ?_
  have : 0 ≤ ε * R := mul_nonneg hε0 hR
  nlinarith

/-- the coordinates of two points differ by at most `δ` -/
def Within (δ : ℝ) (p q : P3 ℝ) : Prop := |q.x - p.x| ≤ δ ∧ |q.y - p.y| ≤ δ ∧ |q.z - p.z| ≤ δ

theorem Within.mono {δ δ' : ℝ} {p q : P3 ℝ} (h : Within δ p q) (hd : δ ≤ δ') : Within δ' p q :=
  ⟨h.1.trans hd, h.2.1.trans hd, h.2.2.trans hd⟩

theorem Within.trans {δ δ' : ℝ} {p q r : P3 ℝ} (h : Within δ p q) (h' : Within δ' q r) : Within (δ + δ') p r := by
  refine ⟨?_, ?_, ?_⟩
  · rw [show r.x - p.x = (q.x - p.x) + (r.x - q.x) by ring]; exact (abs_add_le _ _).trans (add_le_add h.1 h'.1)
  · rw [show r.y - p.y = (q.y - p.y) + (r.y - q.y) by ring]; exact (abs_add_le _ _).trans (add_le_add h.2.1 h'.2.1)
  · rw [show r.z - p.z = (q.z - p.z) + (r.z - q.z) by ring]; exact (abs_add_le _ _).trans (add_le_add h.2.2 h'.2.2)

/-- the coordinates of a point are at most `R` -/
def Box (R : ℝ) (p : P3 ℝ) : Prop := |p.x| ≤ R ∧ |p.y| ≤ R ∧ |p.z| ≤ R

/-- `c'` is `c` with control points off by at most `δ` and weights off by a fraction `ε` -/
structure CurveOff (δ ε : ℝ) (n : Nat) (c c' : Curve ℝ) : Prop where
  knots : c'.knots = c.knots
  points : ∀ i < n, Within δ (c.points.getD i ⟨0, 0, 0⟩) (c'.points.getD i ⟨0, 0, 0⟩)
  weights : ∀ i < n, |c'.weights.getD i 0 - c.weights.getD i 0| ≤ ε * c.weights.getD i 0

/-- the same for surfaces -/
structure SurfOff (δ ε : ℝ) (nu nv : Nat) (s s' : Surface ℝ) : Prop where
  knotsU : s'.knotsU = s.knotsU
  knotsV : s'.knotsV = s.knotsV
  points : ∀ i < nu, ∀ j < nv, Within δ (s.pt nu i j) (s'.pt nu i j)
  weights : ∀ i < nu, ∀ j < nv, |s'.wt nu i j - s.wt nu i j| ≤ ε * s.wt nu i j

/-- A curve whose data are a little off passes within `δ + 3 ε R` of where it should. -/
theorem curve_off {c c' : Curve ℝ} {p n : Nat} (hv : c.Valid p n) (hv' : c'.Valid p n) {δ ε R : ℝ} (ho : CurveOff δ ε n c c')
    (hw : ∀ i < n, 0 < c.weights.getD i 0) (hp : ∀ i < n, Box R (c.points.getD i ⟨0, 0, 0⟩)) (hε0 : 0 ≤ ε) (hε : ε ≤ 1 / 10)
    (hδ : 0 ≤ δ) (hR : 0 ≤ R) {t : ℝ} (h0 : 0 ≤ t) (h1 : t ≤ 1) :
    ∃ P P', c.at t = some P ∧ c'.at t = some P' ∧ Within (δ + 3 * ε * R) P P' := by
  obtain ⟨k, hs⟩ := exists_inSpan hv.knots h0 h1
  have hs1 : InSpan c.knots (clamp t) k := by rw [clamp_of_mem h0 h1]; exact hs
  have hs2 : InSpan c'.knots (clamp t) k := by rw [ho.knots]; exact hs1
  have hB : ∀ i ∈ Finset.range n, 0 ≤ basis (kn c.knots) k t p i := fun i _ => basis_nonneg hv.knots.mono hs.2.1 hs.2.2.1 p i
  have wpos : ∀ w ∈ c.weights, 0 < w := by
    intro w hw'
    obtain ⟨i, hi, rfl⟩ := List.getElem_of_mem hw'
    have := hw i (by rw [← hv.weights]; exact hi)
    simpa [List.getD, hi] using this
  have pos := denom_pos hv wpos hs
  unfold Curve.denom at pos
  have S := fun (x x' : Nat → ℝ) (hx : ∀ i ∈ Finset.range n, |x i| ≤ R) (hx' : ∀ i ∈ Finset.range n, |x' i - x i| ≤ δ) =>
    mean_stable (Finset.range n) (x := x) (x' := x') hB (fun i hi => hw i (Finset.mem_range.1 hi))
      (fun i hi => ho.weights i (Finset.mem_range.1 hi)) hx hx' hε0 hε hδ hR pos
  have sx := S (fun i => (c.points.getD i ⟨0, 0, 0⟩).x) (fun i => (c'.points.getD i ⟨0, 0, 0⟩).x)
    (fun i hi => (hp i (Finset.mem_range.1 hi)).1) (fun i hi => (ho.points i (Finset.mem_range.1 hi)).1)
  have sy := S (fun i => (c.points.getD i ⟨0, 0, 0⟩).y) (fun i => (c'.points.getD i ⟨0, 0, 0⟩).y)
    (fun i hi => (hp i (Finset.mem_range.1 hi)).2.1) (fun i hi => (ho.points i (Finset.mem_range.1 hi)).2.1)
  have sz := S (fun i => (c.points.getD i ⟨0, 0, 0⟩).z) (fun i => (c'.points.getD i ⟨0, 0, 0⟩).z)
    (fun i hi => (hp i (Finset.mem_range.1 hi)).2.2) (fun i hi => (ho.points i (Finset.mem_range.1 hi)).2.2)
  have e1 := evaluate_spec hv t hs1
  have e2 := evaluate_spec hv' t hs2
  rw [if_neg (by unfold Curve.denom; exact pos.ne')] at e1
  rw [if_neg (by unfold Curve.denom; rw [ho.knots]; exact sx.1.ne')] at e2
  refine ⟨_, _, e1, e2, ?_, ?_, ?_⟩
  · have := sx.2
    simp only [Curve.numer, Curve.denom, ho.knots, P3.smul_x, sum_x, one_div, ← div_eq_inv_mul, ← mul_assoc]
    simpa only [← mul_assoc] using this
  · have := sy.2
    simp only [Curve.numer, Curve.denom, ho.knots, P3.smul_y, sum_y, one_div, ← div_eq_inv_mul, ← mul_assoc]
    simpa only [← mul_assoc] using this
  · have := sz.2
    simp only [Curve.numer, Curve.denom, ho.knots, P3.smul_z, sum_z, one_div, ← div_eq_inv_mul, ← mul_assoc]
    simpa only [← mul_assoc] using this

theorem surf_weight_pos {s : Surface ℝ} {p q nu nv : Nat} (hv : s.Valid p q nu nv) {w W : ℝ}
    (hw : ∀ i < nu, ∀ j < nv, w ≤ s.wt nu i j ∧ s.wt nu i j ≤ W) : ∀ x ∈ s.weights, w ≤ x ∧ x ≤ W := by
  intro x hx
  obtain ⟨k, hk, rfl⟩ := List.getElem_of_mem hx
  rw [hv.weights] at hk
  have nu0 : 0 < nu := Nat.pos_of_ne_zero (by rintro rfl; simp at hk)
  have := hw (k % nu) (Nat.mod_lt _ nu0) (k / nu) (Nat.div_lt_of_lt_mul hk)
  rw [Surface.wt, Nat.mod_add_div] at this
  rw [← hv.weights] at hk
  simpa [List.getD, hk] using this

theorem surf_point_box {s : Surface ℝ} {p q nu nv : Nat} (hv : s.Valid p q nu nv) {P : P3 ℝ → Prop}
    (hp : ∀ i < nu, ∀ j < nv, P (s.pt nu i j)) : ∀ x ∈ s.points, P x := by
  intro x hx
  obtain ⟨k, hk, rfl⟩ := List.getElem_of_mem hx
  rw [hv.points] at hk
  have nu0 : 0 < nu := Nat.pos_of_ne_zero (by rintro rfl; simp at hk)
  have := hp (k % nu) (Nat.mod_lt _ nu0) (k / nu) (Nat.div_lt_of_lt_mul hk)
  rw [Surface.pt, Nat.mod_add_div] at this
  rw [← hv.points] at hk
  simpa [List.getD, hk] using this

/-- A surface whose data are a little off passes within `δ + 3 ε R` of where it should. -/
theorem surface_off {s s' : Surface ℝ} {p q nu nv : Nat} (hv : s.Valid p q nu nv) (hv' : s'.Valid p q nu nv) {δ ε R : ℝ}
    (ho : SurfOff δ ε nu nv s s') (hw : ∀ i < nu, ∀ j < nv, 0 < s.wt nu i j) (hp : ∀ i < nu, ∀ j < nv, Box R (s.pt nu i j))
    (hε0 : 0 ≤ ε) (hε : ε ≤ 1 / 10) (hδ : 0 ≤ δ) (hR : 0 ≤ R) {a b : ℝ} (a0 : 0 ≤ a) (a1 : a ≤ 1) (b0 : 0 ≤ b) (b1 : b ≤ 1) :
    ∃ P P', s.at a b = some P ∧ s'.at a b = some P' ∧ Within (δ + 3 * ε * R) P P' := by
  obtain ⟨k, hs⟩ := exists_inSpan hv.knotsU a0 a1
  obtain ⟨l, hl⟩ := exists_inSpan hv.knotsV b0 b1
  have hs1 : InSpan s.knotsU (clamp a) k := by rw [clamp_of_mem a0 a1]; exact hs
  have hs2 : InSpan s'.knotsU (clamp a) k := by rw [ho.knotsU]; exact hs1
  have hl1 : InSpan s.knotsV (clamp b) l := by rw [clamp_of_mem b0 b1]; exact hl
  have hl2 : InSpan s'.knotsV (clamp b) l := by rw [ho.knotsV]; exact hl1
  have mem : ∀ x : Nat × Nat, x ∈ Finset.range nv ×ˢ Finset.range nu → x.2 < nu ∧ x.1 < nv := fun x hx => by
    rw [Finset.mem_product, Finset.mem_range, Finset.mem_range] at hx
    exact ⟨hx.2, hx.1⟩
  have hB : ∀ x ∈ Finset.range nv ×ˢ Finset.range nu, 0 ≤ basis (kn s.knotsU) k a p x.2 * basis (kn s.knotsV) l b q x.1 := fun x _ =>
    mul_nonneg (basis_nonneg hv.knotsU.mono hs.2.1 hs.2.2.1 p _) (basis_nonneg hv.knotsV.mono hl.2.1 hl.2.2.1 q _)
  have wpos : ∀ w ∈ s.weights, 0 < w := by
    intro x hx
    obtain ⟨m, hm, rfl⟩ := List.getElem_of_mem hx
    rw [hv.weights] at hm
    have nu0 : 0 < nu := Nat.pos_of_ne_zero (by rintro rfl; simp at hm)
    have := hw (m % nu) (Nat.mod_lt _ nu0) (m / nu) (Nat.div_lt_of_lt_mul hm)
    rw [Surface.wt, Nat.mod_add_div] at this
    rw [← hv.weights] at hm
    simpa [List.getD, hm] using this
  have pos := surface_denom_pos hv wpos hs hl
  unfold Surface.denom at pos
  rw [← Finset.sum_product' (f := fun j i => basis (kn s.knotsU) k a p i * basis (kn s.knotsV) l b q j * s.wt nu i j)] at pos
  have S := fun (x x' : Nat × Nat → ℝ) (hx : ∀ i ∈ Finset.range nv ×ˢ Finset.range nu, |x i| ≤ R)
      (hx' : ∀ i ∈ Finset.range nv ×ˢ Finset.range nu, |x' i - x i| ≤ δ) =>
    mean_stable (Finset.range nv ×ˢ Finset.range nu) (w := fun x => s.wt nu x.2 x.1) (w' := fun x => s'.wt nu x.2 x.1) (x := x) (x' := x')
      hB (fun i hi => hw _ (mem i hi).1 _ (mem i hi).2)
      (fun i hi => ho.weights _ (mem i hi).1 _ (mem i hi).2) hx hx' hε0 hε hδ hR pos
  have sx := S (fun i => (s.pt nu i.2 i.1).x) (fun i => (s'.pt nu i.2 i.1).x)
    (fun i hi => (hp _ (mem i hi).1 _ (mem i hi).2).1) (fun i hi => (ho.points _ (mem i hi).1 _ (mem i hi).2).1)
  have sy := S (fun i => (s.pt nu i.2 i.1).y) (fun i => (s'.pt nu i.2 i.1).y)
    (fun i hi => (hp _ (mem i hi).1 _ (mem i hi).2).2.1) (fun i hi => (ho.points _ (mem i hi).1 _ (mem i hi).2).2.1)
  have sz := S (fun i => (s.pt nu i.2 i.1).z) (fun i => (s'.pt nu i.2 i.1).z)
    (fun i hi => (hp _ (mem i hi).1 _ (mem i hi).2).2.2) (fun i hi => (ho.points _ (mem i hi).1 _ (mem i hi).2).2.2)
  have e1 := surface_evaluate_spec hv a b hs1 hl1
  have e2 := surface_evaluate_spec hv' a b hs2 hl2
  have D := fun (t : Surface ℝ) => Finset.sum_product' (Finset.range nv) (Finset.range nu)
    (f := fun j i => basis (kn s.knotsU) k a p i * basis (kn s.knotsV) l b q j * t.wt nu i j)
  rw [if_neg (by unfold Surface.denom; rw [← D s]; exact pos.ne')] at e1
  rw [if_neg (by unfold Surface.denom; rw [ho.knotsU, ho.knotsV, ← D s']; exact sx.1.ne')] at e2
  refine ⟨_, _, e1, e2, ?_, ?_, ?_⟩
  · have := sx.2
    simp only [Finset.sum_product] at this
    simpa only [Surface.numer, Surface.denom, ho.knotsU, ho.knotsV, P3.smul_x, sum_x, one_div, ← div_eq_inv_mul] using this
  · have := sy.2
    simp only [Finset.sum_product] at this
    simpa only [Surface.numer, Surface.denom, ho.knotsU, ho.knotsV, P3.smul_y, sum_y, one_div, ← div_eq_inv_mul] using this
  · have := sz.2
    simp only [Finset.sum_product] at this
    simpa only [Surface.numer, Surface.denom, ho.knotsU, ho.knotsV, P3.smul_z, sum_z, one_div, ← div_eq_inv_mul] using this

/-! ### in `double` -/

theorem eta_le {R : ℝ} (hR : 2 ^ (-400 : ℤ) ≤ R) : (2 : ℝ) ^ (-1075 : ℤ) ≤ 2 ^ (-53 : ℤ) * (R / 1000) := by
  have : (2 : ℝ) ^ (-1075 : ℤ) ≤ 2 ^ (-53 : ℤ) * (2 ^ (-400 : ℤ) / 1000) := by
    rw [show (2 : ℝ) ^ (-1075 : ℤ) = 2 ^ (-53 : ℤ) * (2 ^ (-400 : ℤ) * 2 ^ (-622 : ℤ)) by
      rw [← zpow_add₀ (by norm_num), ← zpow_add₀ (by norm_num)]; norm_num]
    have : (2 : ℝ) ^ (-622 : ℤ) ≤ 1 / 1000 := (zpow_le_zpow_right₀ (by norm_num) (by norm_num : (-622 : ℤ) ≤ -10)).trans (by norm_num)
    have h0 : (0 : ℝ) < 2 ^ (-400 : ℤ) := by positivity
    have := mul_le_mul_of_nonneg_left this h0.le
    exact mul_le_mul_of_nonneg_left (by linarith) (by positivity)
  refine this.trans (mul_le_mul_of_nonneg_left (by linarith) (by positivity))

/-- `double` off by at most `1.001 u R` below `R` -/
theorem double_off {x R : ℝ} (hR : 2 ^ (-400 : ℤ) ≤ R) (hx : |x| ≤ R) : |double x - x| ≤ 1.001 * (2 ^ (-53 : ℤ) * R) := by
  have a := Rounded.double_err x
  have b := eta_le hR
  have c : (2 : ℝ) ^ (-53 : ℤ) * |x| ≤ 2 ^ (-53 : ℤ) * R := mul_le_mul_of_nonneg_left hx (by positivity)
  generalize (2 : ℝ) ^ (-53 : ℤ) = u at *
  linarith

theorem small_off {R : ℝ} (hR : 2 ^ (-400 : ℤ) ≤ R) : 0 < R := lt_of_lt_of_le (by positivity) hR

/-- `w / sqrt(2.)` in `double`, `w` itself being off by a fraction `ε` -/
theorem overRoot2_off {w w' ε : ℝ} (hw : 1 / 2 ≤ w) (hw1 : w ≤ 1) (hε0 : 0 ≤ ε) (hε : ε ≤ 1 / 100) (h : |w' - w| ≤ ε * w) :
    |overRoot2 double w' - w / Real.sqrt 2| ≤ (1.1 * ε + 2.5 * 2 ^ (-53 : ℤ)) * (w / Real.sqrt 2) := by
  unfold overRoot2
  set σ := Real.sqrt 2 with hσ
  have s1 : 1.4 ≤ σ := Real.le_sqrt_of_sq_le (by norm_num)
  have s2 : σ ≤ 1.5 := Real.sqrt_le_iff.2 ⟨by norm_num, by norm_num⟩
  have one : (2 : ℝ) ^ (-400 : ℤ) ≤ 1 / 4 := (zpow_le_zpow_right₀ (by norm_num) (by norm_num : (-400 : ℤ) ≤ -2)).trans (by norm_num)
  have hs := double_off (x := σ) (R := σ) (by linarith) (by rw [abs_of_nonneg (by linarith)])
  set σ' := double σ with hσ'
  have u0 : (0 : ℝ) < 2 ^ (-53 : ℤ) := by positivity
  have u1 : (2 : ℝ) ^ (-53 : ℤ) ≤ 1 / 10 ^ 10 := by norm_num
  have k : |w' / σ' - w / σ| ≤ (1.01 * ε + 1.02 * 2 ^ (-53 : ℤ)) * (w / σ) := by
    generalize (2 : ℝ) ^ (-53 : ℤ) = u at *
    have b := abs_le.1 hs
    have c := abs_le.1 h
    have p : 0 < σ' := by nlinarith
    have e : w' / σ' - w / σ = (w' * σ - w * σ') / (σ' * σ) := by field_simp
    have n : |w' * σ - w * σ'| ≤ (ε + 1.001 * u) * (w * σ) := by
      rw [show w' * σ - w * σ' = (w' - w) * σ - w * (σ' - σ) by ring]
      refine (abs_sub _ _).trans ?_
      rw [abs_mul, abs_mul, abs_of_nonneg (by linarith : 0 ≤ σ), abs_of_nonneg (by linarith : 0 ≤ w)]
      nlinarith
    rw [e, abs_div, abs_of_pos (by positivity : 0 < σ' * σ), div_le_iff₀ (by positivity)]
    refine n.trans ?_
    have : (1.01 * ε + 1.02 * u) * (w / σ) * (σ' * σ) = (1.01 * ε + 1.02 * u) * w * σ' := by field_simp
    rw [this]
    have q : 0.9999 * σ ≤ σ' := by nlinarith
    have ww : 0 ≤ (1.01 * ε + 1.02 * u) * w := mul_nonneg (by linarith) (by linarith)
    have r := mul_le_mul_of_nonneg_left q ww
    refine le_trans ?_ r
    have : 0 ≤ w * σ := by positivity
    nlinarith
  have ws : 1 / 3 ≤ w / σ := by rw [le_div_iff₀ (by linarith)]; linarith
  have big : |w' / σ'| ≤ 1.02 * (w / σ) := by
    have := abs_add_le (w' / σ' - w / σ) (w / σ)
    rw [sub_add_cancel, abs_of_nonneg (by linarith : 0 ≤ w / σ)] at this
    generalize (2 : ℝ) ^ (-53 : ℤ) = u at *
    nlinarith
  have f := double_off (x := w' / σ') (R := 1.02 * (w / σ)) (by linarith) big
  rw [show double (w' / σ') - w / σ = (double (w' / σ') - w' / σ') + (w' / σ' - w / σ) by ring]
  refine (abs_add_le _ _).trans ?_
  generalize (2 : ℝ) ^ (-53 : ℤ) = u at *
  nlinarith

/-- all knots that differ do so by a quarter at least -/
def QuarterKnots (knots : List ℝ) : Prop := ∀ a ∈ knots, ∀ b ∈ knots, a < b → 1 / 4 ≤ b - a

theorem range_off {knots weights : List ℝ} {points : List (P3 ℝ)} {R : ℝ} (hk : QuarterKnots knots) (hw : ∀ x ∈ weights, 0.499 ≤ x ∧ x ≤ 1.001)
    (hp : ∀ x ∈ points, Box (1.001 * R) x) (hR : 2 ^ (-400 : ℤ) ≤ R) (hR' : R ≤ 2 ^ (400 : ℤ)) :
    DoubleRange knots weights points 0.499 1.001 (1.001 * R) := by
  have a : (2 : ℝ) ^ (-500 : ℤ) ≤ 1 / 4 := (zpow_le_zpow_right₀ (by norm_num) (by norm_num : (-500 : ℤ) ≤ -2)).trans (by norm_num)
  have b : (2 : ℝ) ^ (-500 : ℤ) ≤ 2 ^ (-400 : ℤ) := zpow_le_zpow_right₀ (by norm_num) (by norm_num)
  have c : (2 : ℝ) * 2 ^ (400 : ℤ) ≤ 2 ^ (500 : ℤ) := by
    rw [show (2 : ℝ) * 2 ^ (400 : ℤ) = 2 ^ (401 : ℤ) by rw [show (401 : ℤ) = 1 + 400 by norm_num, zpow_add₀ (by norm_num), zpow_one]]
    exact zpow_le_zpow_right₀ (by norm_num) (by norm_num)
  have d : (1 : ℝ) ≤ 2 ^ (400 : ℤ) := one_le_zpow₀ (by norm_num) (by norm_num)
  have R0 := small_off hR
  have w1 : (1.001 : ℝ) ≤ 2 ^ (500 : ℤ) ∧ 1.001 * R ≤ 2 ^ (500 : ℤ) := by
    generalize (2 : ℝ) ^ (500 : ℤ) = A at *
    generalize (2 : ℝ) ^ (400 : ℤ) = B at *
    constructor <;> linarith
  exact ⟨fun x hx y hy h => a.trans (hk x hx y hy h), hw, hp, by linarith, w1.1, by norm_num, by linarith, w1.2⟩

theorem box_off {R : ℝ} (R0 : 0 < R) {p p' : P3 ℝ} (h : Box R p) (h' : Within (10 * (2 ^ (-53 : ℤ) * R)) p p') : Box (1.001 * R) p' := by
  have u1 : (2 : ℝ) ^ (-53 : ℤ) ≤ 1 / 10 ^ 10 := by norm_num
  have k : 10 * (2 ^ (-53 : ℤ) * R) ≤ 0.001 * R := by
    generalize (2 : ℝ) ^ (-53 : ℤ) = u at *
    nlinarith
  have H : ∀ x y : ℝ, |x| ≤ R → |y - x| ≤ 10 * (2 ^ (-53 : ℤ) * R) → |y| ≤ 1.001 * R := fun x y h h' => by
    have := abs_add_le x (y - x)
    rw [add_sub_cancel] at this
    generalize 10 * ((2 : ℝ) ^ (-53 : ℤ) * R) = e at *
    linarith
  exact ⟨H _ _ h.1 h'.1, H _ _ h.2.1 h'.2.1, H _ _ h.2.2 h'.2.2⟩

/-- Evaluation in `double` of a surface whose data are themselves rounded. -/
theorem surface_off_double {s s' : Surface ℝ} {q nu nv : Nat} (hq : q ≤ 2) (hv : s.Valid 2 q nu nv) (hv' : s'.Valid 2 q nu nv) {R : ℝ}
    (hR : 2 ^ (-400 : ℤ) ≤ R) (hR' : R ≤ 2 ^ (400 : ℤ)) (ho : SurfOff (10 * (2 ^ (-53 : ℤ) * R)) (6 * 2 ^ (-53 : ℤ)) nu nv s s')
    (hw : ∀ i < nu, ∀ j < nv, 1 / 2 ≤ s.wt nu i j ∧ s.wt nu i j ≤ 1) (hp : ∀ i < nu, ∀ j < nv, Box R (s.pt nu i j))
    (ku : QuarterKnots s.knotsU) (kv : QuarterKnots s.knotsV) {a b : ℝ} (a0 : 0 ≤ a) (a1 : a ≤ 1) (b0 : 0 ≤ b) (b1 : b ≤ 1) :
    ∃ P P', s.at a b = some P ∧ s'.atRounded double a b = some P' ∧ Within (400 * 2 ^ (-53 : ℤ) * R) P P' := by
  have R0 := small_off hR
  have u0 : (0 : ℝ) < 2 ^ (-53 : ℤ) := by positivity
  have u1 : (2 : ℝ) ^ (-53 : ℤ) ≤ 1 / 10 ^ 10 := by norm_num
  obtain ⟨P, P1, e, e1, h1⟩ := surface_off hv hv' ho (fun i hi j hj => by linarith [(hw i hi j hj).1]) hp (by positivity)
    (by linarith) (by positivity) R0.le a0 a1 b0 b1
  have w' : ∀ x ∈ s'.weights, 0.499 ≤ x ∧ x ≤ 1.001 := surf_weight_pos hv' fun i hi j hj => by
    have a := abs_le.1 (ho.weights i hi j hj)
    have b := hw i hi j hj
    generalize (2 : ℝ) ^ (-53 : ℤ) = u at *
    constructor <;> nlinarith
  have p' : ∀ x ∈ s'.points, Box (1.001 * R) x := surf_point_box hv' fun i hi j hj => box_off R0 (hp i hi j hj) (ho.points i hi j hj)
  obtain ⟨P2, P', e2, e3, h2⟩ := surface_double hv' (range_off (by rw [ho.knotsU]; exact ku) w' p' hR hR')
    (range_off (by rw [ho.knotsV]; exact kv) w' p' hR hR') (by norm_num) (by omega) a0 a1 b0 b1
  obtain rfl : P1 = P2 := Option.some_inj.1 (e1.symm.trans e2)
  refine ⟨P, P', e, e3, (h1.trans (q := P1) h2).mono ?_⟩
  have qR : (q : ℝ) ≤ 2 := by exact_mod_cast hq
  have uR : 0 < 2 ^ (-53 : ℤ) * R := by positivity
  have : (44 * (((2 : ℕ) : ℝ) + q) + 5) * 2 ^ (-53 : ℤ) * (1.001 / 0.499) * (1.001 * R) =
      (44 * (2 + q) + 5) * (1.001 / 0.499 * 1.001) * (2 ^ (-53 : ℤ) * R) := by push_cast; ring
  rw [this]
  have : (44 * (2 + (q : ℝ)) + 5) * (1.001 / 0.499 * 1.001) ≤ 370 := by
    norm_num
    linarith
  have := mul_le_mul_of_nonneg_right this uR.le
  nlinarith

/-- Evaluation in `double` of a curve whose data are themselves rounded. -/
theorem curve_off_double {c c' : Curve ℝ} {n : Nat} (hv : c.Valid 2 n) (hv' : c'.Valid 2 n) {R : ℝ}
    (hR : 2 ^ (-400 : ℤ) ≤ R) (hR' : R ≤ 2 ^ (400 : ℤ)) (ho : CurveOff (8 * (2 ^ (-53 : ℤ) * R)) (6 * 2 ^ (-53 : ℤ)) n c c')
    (hw : ∀ i < n, 1 / 2 ≤ c.weights.getD i 0 ∧ c.weights.getD i 0 ≤ 1) (hp : ∀ i < n, Box R (c.points.getD i ⟨0, 0, 0⟩))
    (k : QuarterKnots c.knots) {t : ℝ} (t0 : 0 ≤ t) (t1 : t ≤ 1) :
    ∃ P P', c.at t = some P ∧ c'.atRounded double t = some P' ∧ Within (250 * 2 ^ (-53 : ℤ) * R) P P' := by
  have R0 := small_off hR
  have u0 : (0 : ℝ) < 2 ^ (-53 : ℤ) := by positivity
  have u1 : (2 : ℝ) ^ (-53 : ℤ) ≤ 1 / 10 ^ 10 := by norm_num
  obtain ⟨P, P1, e, e1, h1⟩ := curve_off hv hv' ho (fun i hi => by linarith [(hw i hi).1]) hp (by positivity)
    (by linarith) (by positivity) R0.le t0 t1
  have w' : ∀ x ∈ c'.weights, 0.499 ≤ x ∧ x ≤ 1.001 := by
    intro x hx
    obtain ⟨i, hi, rfl⟩ := List.getElem_of_mem hx
    have hin : i < n := by rw [← hv'.weights]; exact hi
    have a := abs_le.1 (ho.weights i hin)
    have b := hw i hin
    have e : c'.weights.getD i 0 = c'.weights[i] := by simp [List.getD, hi]
    rw [e] at a
    generalize (2 : ℝ) ^ (-53 : ℤ) = u at *
    constructor <;> nlinarith
  have p' : ∀ x ∈ c'.points, Box (1.001 * R) x := by
    intro x hx
    obtain ⟨i, hi, rfl⟩ := List.getElem_of_mem hx
    have hin : i < n := by rw [← hv'.points]; exact hi
    have o := ho.points i hin
    rw [show c'.points.getD i ⟨0, 0, 0⟩ = c'.points[i] by simp [List.getD, hi]] at o
    exact box_off R0 (hp i hin) (o.mono (mul_le_mul_of_nonneg_right (by norm_num) (by positivity)))
  obtain ⟨P2, P', e2, e3, h2⟩ := curve_double hv' (range_off (by rw [ho.knots]; exact k) w' p' hR hR') (by norm_num) t0 t1
  obtain rfl : P1 = P2 := Option.some_inj.1 (e1.symm.trans e2)
  refine ⟨P, P', e, e3, (h1.trans (q := P1) h2).mono ?_⟩
  have uR : 0 < 2 ^ (-53 : ℤ) * R := by positivity
  have : (44 * ((2 : ℕ) : ℝ) + 5) * 2 ^ (-53 : ℤ) * (1.001 / 0.499) * (1.001 * R) =
      (44 * 2 + 5) * (1.001 / 0.499 * 1.001) * (2 ^ (-53 : ℤ) * R) := by push_cast; ring
  rw [this]
  have : (44 * (2 : ℝ) + 5) * (1.001 / 0.499 * 1.001) ≤ 200 := by norm_num
  have := mul_le_mul_of_nonneg_right this uR.le
  nlinarith

/-! ### `revolve` -/

/-- a profile point, what became of it, and where it may be -/
def Profile (R : ℝ) (p p' : P3 ℝ) : Prop := Within (3 * (2 ^ (-53 : ℤ) * R)) p p' ∧ |p.x| + |p.y| ≤ R ∧ |p.z| ≤ R

theorem Profile.turn {R : ℝ} {p p' : P3 ℝ} (h : Profile R p p') : Profile R (turn p) (turn p') := by
  obtain ⟨⟨a, b, c⟩, d, e⟩ := h
  refine ⟨⟨b, ?_, c⟩, ?_, e⟩
  · simp only [Nurbs.turn]
    rw [show -p'.x - -p.x = -(p'.x - p.x) by ring, abs_neg]
    exact a
  · simp only [Nurbs.turn, abs_neg]
    linarith

theorem Profile.self {R : ℝ} {p p' : P3 ℝ} (hR : 0 ≤ R) (h : Profile R p p') : Within (8 * (2 ^ (-53 : ℤ) * R)) p p' ∧ Box R p := by
  obtain ⟨a, d, e⟩ := h
  have : 0 ≤ 2 ^ (-53 : ℤ) * R := by positivity
  exact ⟨a.mono (by linarith), by linarith [abs_nonneg p.y], by linarith [abs_nonneg p.x], e⟩

theorem Profile.diag {R : ℝ} {p p' : P3 ℝ} (hR : 2 ^ (-400 : ℤ) ≤ R) (h : Profile R p p') :
    Within (8 * (2 ^ (-53 : ℤ) * R)) (diag p) (diagRounded double p') ∧ Box R (diag p) := by
  obtain ⟨⟨a, b, c⟩, d, e⟩ := h
  have R0 := small_off hR
  have u1 : (2 : ℝ) ^ (-53 : ℤ) ≤ 1 / 10 ^ 10 := by norm_num
  have uR : 0 < 2 ^ (-53 : ℤ) * R := by positivity
  have uR1 : 2 ^ (-53 : ℤ) * R ≤ 1 / 10 ^ 10 * R := mul_le_mul_of_nonneg_right u1 R0.le
  have H : ∀ x y x' y' : ℝ, |x| + |y| ≤ R → |x' - x| ≤ 3 * (2 ^ (-53 : ℤ) * R) → |y' - y| ≤ 3 * (2 ^ (-53 : ℤ) * R) →
      |double (x' + y') - (x + y)| ≤ 8 * (2 ^ (-53 : ℤ) * R) := by
    intro x y x' y' h1 h2 h3
    have n : |x' + y' - (x + y)| ≤ 6 * (2 ^ (-53 : ℤ) * R) := by
      rw [show x' + y' - (x + y) = (x' - x) + (y' - y) by ring]
      exact (abs_add_le _ _).trans (by linarith)
    have m : |x' + y'| ≤ 1.001 * R := by
      have := abs_add_le (x' + y' - (x + y)) (x + y)
      rw [sub_add_cancel] at this
      have := abs_add_le x y
      generalize (2 : ℝ) ^ (-53 : ℤ) * R = v at *
      linarith
    have f := double_off (x := x' + y') (R := 1.001 * R) (by linarith) m
    rw [show double (x' + y') - (x + y) = (double (x' + y') - (x' + y')) + (x' + y' - (x + y)) by ring]
    refine (abs_add_le _ _).trans ?_
    rw [show (2 : ℝ) ^ (-53 : ℤ) * (1.001 * R) = 1.001 * (2 ^ (-53 : ℤ) * R) by ring] at f
    generalize (2 : ℝ) ^ (-53 : ℤ) * R = v at *
    linarith
  have a' : |-p'.x - -p.x| ≤ 3 * (2 ^ (-53 : ℤ) * R) := by rw [show -p'.x - -p.x = -(p'.x - p.x) by ring, abs_neg]; exact a
  refine ⟨⟨H _ _ _ _ (by simp only [Nurbs.turn]; linarith) b a, H _ _ _ _ (by simp only [Nurbs.turn, abs_neg]; linarith) a' b, ?_⟩, ?_, ?_, e⟩
  · exact c.trans (by linarith)
  · exact (abs_add_le _ _).trans (by simp only [Nurbs.turn]; linarith)
  · exact (abs_add_le _ _).trans (by simp only [Nurbs.turn, abs_neg]; linarith)

theorem isClosedRounded_some (fl : ℝ → ℝ) (c : Curve ℝ) (tol : ℝ) : ∃ b, c.isClosedRounded fl tol = some b := by
  unfold Curve.isClosedRounded
  by_cases h : c.points.length ≤ 1
  · exact ⟨false, by simp [h]⟩
  · have h1 : 0 < c.points.length := by omega
    have e : (c.points.length : Int) - 1 = ((c.points.length - 1 : Nat) : Int) := by omega
    rw [if_neg h, e, getI_natCast, show (0 : Int) = ((0 : Nat) : Int) by rfl, getI_natCast,
      List.getElem?_eq_getElem h1, List.getElem?_eq_getElem (by omega : c.points.length - 1 < c.points.length)]
    exact ⟨_, rfl⟩

theorem revolveRounded_eq (fl : ℝ → ℝ) {nc : Curve ℝ} {q n : Nat} (h : nc.Valid q n) (tol : ℝ) (ns : Surface ℝ) :
    ∃ b pu pv wu wv, nc.isClosedRounded fl tol = some b ∧ revolveRounded fl tol nc ns = some ⟨2, q, 9, n, true, b, knotsCircle, nc.knots,
      (List.range n).flatMap (fun i => circleWtsRounded fl (nc.weights.getD i 0)),
      (List.range n).flatMap (fun i => circlePtsRounded fl (nc.points.getD i ⟨0, 0, 0⟩)), pu, pv, wu, wv⟩ ∧
      pu.length = 3 ∧ pv.length = q + 1 ∧ wu.length = 3 ∧ wv.length = q + 1 := by
  obtain ⟨b, hb⟩ := isClosedRounded_some fl nc tol
  obtain ⟨a, ha, ha1, ha2⟩ := loopN_inv (n := nc.points.length) (s := (([], []) : List (P3 ℝ) × List ℝ))
    (f := fun i (a : List (P3 ℝ) × List ℝ) => do
      let w ← getI nc.weights i
      let p ← getI nc.points i
      return (a.1 ++ circlePtsRounded fl p, a.2 ++ circleWtsRounded fl w))
    (I := fun r (a : List (P3 ℝ) × List ℝ) =>
      a.1 = (List.range r).flatMap (fun i => circlePtsRounded fl (nc.points.getD i ⟨0, 0, 0⟩)) ∧
      a.2 = (List.range r).flatMap (fun i => circleWtsRounded fl (nc.weights.getD i 0))) ⟨rfl, rfl⟩ (by
      rintro i hi a ⟨e1, e2⟩
      simp only [getI_natCast, getD_of_lt nc.weights 0 (show i < _ by rw [h.weights, ← h.points]; exact hi),
        getD_of_lt nc.points ⟨0, 0, 0⟩ hi]
      refine ⟨_, rfl, ?_, ?_⟩ <;> simp [List.range_succ, e1, e2])
  rw [h.points] at ha1 ha2
  obtain ⟨pu, pv, wu, wv, e, l1, l2, l3, l4⟩ := setDegree_some ns.clear.clear 2 q
  refine ⟨b, pu, pv, wu, wv, hb, ?_, l1, l2, l3, l4⟩
  unfold revolveRounded
  rw [ha]
  simp only [Nat.cast_ofNat] at e
  simp only [h.degree]
  simp only [e, Option.bind_some, Surface.setKnotsU, Surface.setKnotsV, scaleKnots_self h.knots,
    scaleKnots_self knotsCircle_clamped, hb, Surface.setWeights, Surface.setPoints, Surface.setClosedU, Surface.setClosedV,
    Option.bind_eq_bind, Option.pure_def, Curve.nb, h.points, ha1, ha2]

theorem getD_flat {α : Type} (g : Nat → List α) (d : α) {n i j : Nat} (hg : ∀ x, (g x).length = 9) (hi : i < 9) (hj : j < n) :
    ((List.range n).flatMap g).getD (i + 9 * j) d = (g j).getD i d := by
  have f1 := getElem?_flatMap_uniform g (List.range n) (fun x _ => hg x) hi j
  rw [List.getElem?_range hj, Option.bind_some] at f1
  exact congrArg (Option.getD · d) f1

theorem length_flat {α : Type} (g : Nat → List α) {n : Nat} (hg : ∀ x, (g x).length = 9) : ((List.range n).flatMap g).length = 9 * n := by
  rw [length_flatMap_uniform g _ (fun x _ => hg x), List.length_range]

/-- `revolve` in `double` of a rounded profile: control points and weights are a little off those of
the exact surface of revolution. -/
theorem revolve_off {nc nc' : Curve ℝ} {q n : Nat} (h : nc.Valid q n) (h' : nc'.Valid q n) {R : ℝ} (hR : 2 ^ (-400 : ℤ) ≤ R)
    (hk : nc'.knots = nc.knots) (hp : ∀ i < n, Profile R (nc.points.getD i ⟨0, 0, 0⟩) (nc'.points.getD i ⟨0, 0, 0⟩))
    (hw : ∀ i < n, 1 / Real.sqrt 2 ≤ nc.weights.getD i 0 ∧ nc.weights.getD i 0 ≤ 1 ∧
      |nc'.weights.getD i 0 - nc.weights.getD i 0| ≤ 2.5 * 2 ^ (-53 : ℤ) * nc.weights.getD i 0)
    (tol : ℝ) (ns ns' : Surface ℝ) :
    ∃ s s', revolve tol (Real.sqrt 2) nc ns = some s ∧ revolveRounded double tol nc' ns' = some s' ∧ s.Valid 2 q 9 n ∧ s'.Valid 2 q 9 n ∧
      s.knotsU = knotsCircle ∧ s.knotsV = nc.knots ∧
      (s.closedU = true ∧ s'.closedU = true ∧ nc.isClosed tol = some s.closedV ∧ nc'.isClosedRounded double tol = some s'.closedV) ∧
      SurfOff (8 * (2 ^ (-53 : ℤ) * R)) (6 * 2 ^ (-53 : ℤ)) 9 n s s' ∧
      (∀ i < 9, ∀ j < n, 1 / 2 ≤ s.wt 9 i j ∧ s.wt 9 i j ≤ 1) ∧ ∀ i < 9, ∀ j < n, Box R (s.pt 9 i j) := by
  obtain ⟨b, pu, pv, wu, wv, hb, e, l1, l2, l3, l4⟩ := revolve_eq h tol (Real.sqrt 2) ns
  obtain ⟨b', pu', pv', wu', wv', hb', e', l1', l2', l3', l4'⟩ := revolveRounded_eq double h' tol ns'
  have R0 := small_off hR
  have hs2 : Real.sqrt 2 * Real.sqrt 2 = 2 := Real.mul_self_sqrt (by norm_num)
  have hs0 : 1.4 ≤ Real.sqrt 2 := Real.le_sqrt_of_sq_le (by norm_num)
  have hs1 : Real.sqrt 2 ≤ 1.5 := Real.sqrt_le_iff.2 ⟨by norm_num, by norm_num⟩
  have u0 : (0 : ℝ) < 2 ^ (-53 : ℤ) := by positivity
  have u1 : (2 : ℝ) ^ (-53 : ℤ) ≤ 1 / 10 ^ 10 := by norm_num
  have half : 1 / Real.sqrt 2 = Real.sqrt 2 / 2 := by field_simp; linarith [Real.sq_sqrt (by norm_num : (0 : ℝ) ≤ 2)]
  refine ⟨_, _, e, e', ⟨rfl, rfl, rfl, rfl, ?_, ?_, knotsCircle_clamped, h.knots, l1.ge, l2.ge, l3.ge, l4.ge⟩,
    ⟨rfl, rfl, rfl, rfl, ?_, ?_, knotsCircle_clamped, h'.knots, l1'.ge, l2'.ge, l3'.ge, l4'.ge⟩, rfl, rfl, ⟨rfl, rfl, hb, hb'⟩,
    ⟨rfl, hk, fun i hi j hj => ?_, fun i hi j hj => ?_⟩, fun i hi j hj => ?_, fun i hi j hj => ?_⟩
  · exact length_flat _ fun _ => rfl
  · exact length_flat _ fun _ => rfl
  · exact length_flat _ fun _ => rfl
  · exact length_flat _ fun _ => rfl
  · unfold Surface.pt
    simp only
    rw [getD_flat (fun x => circlePts (nc.points.getD x ⟨0, 0, 0⟩)) _ (fun _ => rfl) hi hj,
      getD_flat (fun x => circlePtsRounded double (nc'.points.getD x ⟨0, 0, 0⟩)) _ (fun _ => rfl) hi hj]
    have P := hp j hj
    obtain rfl | rfl | rfl | rfl | rfl | rfl | rfl | rfl | rfl : i = 0 ∨ i = 1 ∨ i = 2 ∨ i = 3 ∨ i = 4 ∨ i = 5 ∨ i = 6 ∨ i = 7 ∨ i = 8 := by omega
    · exact (P.self R0.le).1
    · exact (P.diag hR).1
    · exact (P.turn.self R0.le).1
    · exact (P.turn.diag hR).1
    · exact (P.turn.turn.self R0.le).1
    · exact (P.turn.turn.diag hR).1
    · exact (P.turn.turn.turn.self R0.le).1
    · exact (P.turn.turn.turn.diag hR).1
    · exact (P.turn.turn.turn.turn.self R0.le).1
  · unfold Surface.wt
    simp only
    rw [getD_flat (fun x => circleWts (Real.sqrt 2) (nc.weights.getD x 0)) _ (fun _ => rfl) hi hj,
      getD_flat (fun x => circleWtsRounded double (nc'.weights.getD x 0)) _ (fun _ => rfl) hi hj]
    obtain ⟨w0, w1, w2⟩ := hw j hj
    have w5 : 1 / 2 ≤ nc.weights.getD j 0 := by linarith
    have even : |nc'.weights.getD j 0 - nc.weights.getD j 0| ≤ 6 * 2 ^ (-53 : ℤ) * nc.weights.getD j 0 :=
      w2.trans (mul_le_mul_of_nonneg_right (by linarith) (by linarith))
    have odd : |overRoot2 double (nc'.weights.getD j 0) - nc.weights.getD j 0 / Real.sqrt 2| ≤
        6 * 2 ^ (-53 : ℤ) * (nc.weights.getD j 0 / Real.sqrt 2) :=
      (overRoot2_off w5 w1 (by linarith) (by linarith) w2).trans
        (mul_le_mul_of_nonneg_right (by linarith) (div_nonneg (by linarith) (by linarith)))
    obtain rfl | rfl | rfl | rfl | rfl | rfl | rfl | rfl | rfl : i = 0 ∨ i = 1 ∨ i = 2 ∨ i = 3 ∨ i = 4 ∨ i = 5 ∨ i = 6 ∨ i = 7 ∨ i = 8 := by omega
    all_goals first | exact even | exact odd
  · unfold Surface.wt
    simp only
    rw [getD_flat (fun x => circleWts (Real.sqrt 2) (nc.weights.getD x 0)) _ (fun _ => rfl) hi hj]
    obtain ⟨w0, w1, w2⟩ := hw j hj
    have even : 1 / 2 ≤ nc.weights.getD j 0 ∧ nc.weights.getD j 0 ≤ 1 := ⟨by linarith, w1⟩
    have odd : 1 / 2 ≤ nc.weights.getD j 0 / Real.sqrt 2 ∧ nc.weights.getD j 0 / Real.sqrt 2 ≤ 1 := by
      constructor
      · rw [le_div_iff₀ (by linarith)]
        linarith
      · rw [div_le_one (by linarith)]
        linarith
    obtain rfl | rfl | rfl | rfl | rfl | rfl | rfl | rfl | rfl : i = 0 ∨ i = 1 ∨ i = 2 ∨ i = 3 ∨ i = 4 ∨ i = 5 ∨ i = 6 ∨ i = 7 ∨ i = 8 := by omega
    all_goals first | exact even | exact odd
  · unfold Surface.pt
    simp only
    rw [getD_flat (fun x => circlePts (nc.points.getD x ⟨0, 0, 0⟩)) _ (fun _ => rfl) hi hj]
    have P := hp j hj
    obtain rfl | rfl | rfl | rfl | rfl | rfl | rfl | rfl | rfl : i = 0 ∨ i = 1 ∨ i = 2 ∨ i = 3 ∨ i = 4 ∨ i = 5 ∨ i = 6 ∨ i = 7 ∨ i = 8 := by omega
    · exact (P.self R0.le).2
    · exact (P.diag hR).2
    · exact (P.turn.self R0.le).2
    · exact (P.turn.diag hR).2
    · exact (P.turn.turn.self R0.le).2
    · exact (P.turn.turn.diag hR).2
    · exact (P.turn.turn.turn.self R0.le).2
    · exact (P.turn.turn.turn.diag hR).2
    · exact (P.turn.turn.turn.turn.self R0.le).2

end Nurbs
end CAD
