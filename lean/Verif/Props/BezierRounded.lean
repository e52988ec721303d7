import Verif.Model.BezierRounded
import Verif.Lemmas.Appr
import Verif.Props.SmoothMesh
import Verif.Props.NurbsMeshRounded
import Verif.Props.GeodesicRounded
import Verif.Props.GeometryRounded
import Verif.Props.NurbsShapesMesh
import Verif.Props.FactoryDouble
import Verif.Lemmas.IeeeEval

/-! C136: Bézier patches and smooth meshes in floating point. -/

namespace CAD
namespace QuadBez
open Nurbs Mesh
variable {fl : ℝ → ℝ}

/-- without rounding the model is that of exact arithmetic -/
theorem eval2Rounded_id (q : QuadBez ℝ) (s u : ℝ) : q.eval2Rounded id s u = q.eval2 s u := by
  unfold eval2Rounded evalRounded eval2 eval evalBaryRounded evalBary sumRounded
  simp only [id, if_true]
  congr 1
  simp only [Option.some_inj, P3.ext_iff, P3.div, P3.add_x, P3.add_y, P3.add_z, P3.smul_x, P3.smul_y, P3.smul_z]
  refine ⟨?_, ?_, ?_⟩ <;> congr 1 <;> ring

/-- the sums of `eval`, without rounding -/
def sumExact (a1 a2 a3 a12 a13 a23 s u v : ℝ) : ℝ :=
  a1 * s * s + a2 * u * u + a3 * v * v + a12 * 2 * s * u + a13 * 2 * s * v + a23 * 2 * u * v

section
variable {U S : ℝ}

theorem square_near (F : FlAt U S fl) {a a' s s' t t' : ℝ} (ha : Appr U S 2 1 a' a) (hs : Appr U 1 8 1 s' s) (ht : Appr U 1 8 1 t' t) :
    Appr U S 24 1 (fl (fl (a' * s') * t')) (a * s * t) := by
  have h1 := (ha.mul' F.u0 F.u1 F.s0.le hs (by norm_num) (by norm_num)).round F (by norm_num) (by norm_num)
  have h2 := (h1.mul' F.u0 F.u1 F.s0.le ht (by norm_num) (by norm_num)).round F (by norm_num) (by norm_num)
  norm_num at h2
  exact h2

theorem cross_near (F : FlAt U S fl) {a a' s s' t t' : ℝ} (ha : Appr U S 2 1 a' a) (hs : Appr U 1 8 1 s' s) (ht : Appr U 1 8 1 t' t) :
    Appr U S 48 2 (fl (fl (fl (a' * 2) * s') * t')) (a * 2 * s * t) := by
  have two : Appr U 1 0 2 (2 : ℝ) 2 := Appr.exact (by norm_num)
  have h0 := (ha.mul' F.u0 F.u1 F.s0.le two (by norm_num) (by norm_num)).round F (by norm_num) (by norm_num)
  have h1 := (h0.mul' F.u0 F.u1 F.s0.le hs (by norm_num) (by norm_num)).round F (by norm_num) (by norm_num)
  have h2 := (h1.mul' F.u0 F.u1 F.s0.le ht (by norm_num) (by norm_num)).round F (by norm_num) (by norm_num)
  norm_num at h2
  exact h2

theorem sum_near (F : FlAt U S fl) {a1 a2 a3 a12 a13 a23 b1 b2 b3 b12 b13 b23 s u v s' u' v' : ℝ}
    (h1 : Appr U S 2 1 b1 a1) (h2 : Appr U S 2 1 b2 a2) (h3 : Appr U S 2 1 b3 a3) (h12 : Appr U S 2 1 b12 a12) (h13 : Appr U S 2 1 b13 a13)
    (h23 : Appr U S 2 1 b23 a23) (hs : Appr U 1 8 1 s' s) (hu : Appr U 1 8 1 u' u) (hv : Appr U 1 8 1 v' v) :
    |sumRounded fl b1 b2 b3 b12 b13 b23 s' u' v' - sumExact a1 a2 a3 a12 a13 a23 s u v| ≤ 247 * (U * S) := by
  have x1 := ((square_near F h1 hs hs).add (square_near F h2 hu hu)).round F (by norm_num) (by norm_num)
  have x2 := (x1.add (square_near F h3 hv hv)).round F (by norm_num) (by norm_num)
  have x3 := (x2.add (cross_near F h12 hs hu)).round F (by norm_num) (by norm_num)
  have x4 := (x3.add (cross_near F h13 hs hv)).round F (by norm_num) (by norm_num)
  have x5 := (x4.add (cross_near F h23 hu hv)).round F (by norm_num) (by norm_num)
  norm_num at x5
  exact x5.near
end

/-- weights between `w` and `W`, coordinates of all six points up to `R` -/
structure Within (q : QuadBez ℝ) (w W R : ℝ) : Prop where
  w1 : w ≤ q.w1 ∧ q.w1 ≤ W
  w2 : w ≤ q.w2 ∧ q.w2 ≤ W
  w3 : w ≤ q.w3 ∧ q.w3 ≤ W
  w12 : w ≤ q.w12 ∧ q.w12 ≤ W
  w13 : w ≤ q.w13 ∧ q.w13 ≤ W
  w23 : w ≤ q.w23 ∧ q.w23 ≤ W
  pts : ∀ p ∈ [q.p1, q.p2, q.p3, q.c12, q.c13, q.c23], |p.x| ≤ R ∧ |p.y| ≤ R ∧ |p.z| ≤ R

/-- one coordinate -/
theorem quotient_near {w W R U N N' D D' ε : ℝ} (w0 : 0 < w) (wW : w ≤ W) (R0 : 0 < R) (U0 : 0 ≤ U) (hU : 247 * (U * W) ≤ 1 / 32 * w)
    (hε : 4 * ε ≤ U * R) (hfl : ∀ x, |x| ≤ 2 * R → |fl x - x| ≤ U * |x| + ε) (hN : |N' - N| ≤ 247 * (U * (W * R))) (hD : |D' - D| ≤ 247 * (U * W))
    (hw : w ≤ D) (hR : |N| ≤ R * D) : D' ≠ 0 ∧ |fl (N' / D') - N / D| ≤ 512 * U * (W / w) * R := by
  have W0 := w0.trans_le wW
  have D0 := w0.trans_le hw
  obtain ⟨d1, d2⟩ := abs_le.1 hD
  have D1 : 31 / 32 * w ≤ D' := by linarith
  have D'0 : 0 < D' := by linarith
  refine ⟨D'0.ne', ?_⟩
  have q1 : |N / D| ≤ R := by rw [abs_div, abs_of_pos D0, div_le_iff₀ D0]; exact hR
  have e : N' / D' - N / D = ((N' - N) - N / D * (D' - D)) / D' := by
    field_simp
    ring
  have k : |N' / D' - N / D| ≤ 510 * U * (W / w) * R := by
    rw [e, abs_div, abs_of_pos D'0, div_le_iff₀ D'0]
    have a := abs_sub (N' - N) (N / D * (D' - D))
    rw [abs_mul] at a
    have b := mul_le_mul q1 hD (abs_nonneg _) R0.le
    have c : 510 * U * (W / w) * R * (31 / 32 * w) ≤ 510 * U * (W / w) * R * D' := mul_le_mul_of_nonneg_left D1 (by positivity)
    have c' : 510 * U * (W / w) * R * (31 / 32 * w) = 15810 / 32 * (U * W * R) := by
      rw [show 510 * U * (W / w) * R * (31 / 32 * w) = 15810 / 32 * (U * (W / w * w) * R) by ring, div_mul_cancel₀ _ w0.ne']
    have n : 0 ≤ U * W * R := by positivity
    linarith
  have UW : U * (W / w) ≤ 1 / 7904 := by
    rw [← mul_div_assoc, div_le_iff₀ w0]
    linarith
  have U1 : U ≤ U * (W / w) := le_mul_of_one_le_right U0 ((one_le_div w0).2 wW)
  have k1 : 510 * U * (W / w) * R ≤ 510 * (1 / 7904) * R := by
    rw [mul_assoc 510 U]
    exact mul_le_mul_of_nonneg_right (mul_le_mul_of_nonneg_left UW (by norm_num)) R0.le
  have s1 : |N' / D'| ≤ 107 / 100 * R := by
    have := abs_add_le (N' / D' - N / D) (N / D)
    rw [sub_add_cancel] at this
    linarith
  have r := hfl (N' / D') (by linarith)
  have t := abs_add_le (fl (N' / D') - N' / D') (N' / D' - N / D)
  rw [sub_add_sub_cancel] at t
  have r1 := mul_le_mul_of_nonneg_left s1 U0
  have r2 := mul_le_mul_of_nonneg_right U1 R0.le
  have r3 : 0 ≤ U * (W / w) * R := by positivity
  linarith

theorem weight_least {w a b c d e f s u v : ℝ} (ha : w ≤ a) (hb : w ≤ b) (hc : w ≤ c) (hd : w ≤ d) (he : w ≤ e) (hf : w ≤ f)
    (s0 : 0 ≤ s) (u0 : 0 ≤ u) (v0 : 0 ≤ v) (h : s + u + v = 1) : w ≤ sumExact a b c d e f s u v := by
  have e1 : sumExact a b c d e f s u v = w * (s + u + v) ^ 2 + ((a - w) * (s * s) + (b - w) * (u * u) + (c - w) * (v * v) +
      (d - w) * (2 * (s * u)) + (e - w) * (2 * (s * v)) + (f - w) * (2 * (u * v))) := by
    unfold sumExact
    ring
  rw [e1, h]
  have := sub_nonneg.2 ha
  have := sub_nonneg.2 hb
  have := sub_nonneg.2 hc
  have := sub_nonneg.2 hd
  have := sub_nonneg.2 he
  have := sub_nonneg.2 hf
  have : 0 ≤ (a - w) * (s * s) + (b - w) * (u * u) + (c - w) * (v * v) +
      (d - w) * (2 * (s * u)) + (e - w) * (2 * (s * v)) + (f - w) * (2 * (u * v)) := by positivity
  linarith

theorem sum_bound {R a b c d e f x1 x2 x3 x4 x5 x6 s u v : ℝ} (ha : 0 ≤ a) (hb : 0 ≤ b) (hc : 0 ≤ c) (hd : 0 ≤ d) (he : 0 ≤ e) (hf : 0 ≤ f)
    (s0 : 0 ≤ s) (u0 : 0 ≤ u) (v0 : 0 ≤ v) (h1 : |x1| ≤ R) (h2 : |x2| ≤ R) (h3 : |x3| ≤ R) (h4 : |x4| ≤ R) (h5 : |x5| ≤ R) (h6 : |x6| ≤ R) :
    |sumExact (x1 * a) (x2 * b) (x3 * c) (x4 * d) (x5 * e) (x6 * f) s u v| ≤ R * sumExact a b c d e f s u v := by
  have e1 : sumExact (x1 * a) (x2 * b) (x3 * c) (x4 * d) (x5 * e) (x6 * f) s u v = a * s * s * x1 + b * u * u * x2 + c * v * v * x3 +
      d * 2 * s * u * x4 + e * 2 * s * v * x5 + f * 2 * u * v * x6 := by
    unfold sumExact
    ring
  have e2 : R * sumExact a b c d e f s u v = a * s * s * R + b * u * u * R + c * v * v * R + d * 2 * s * u * R + e * 2 * s * v * R +
      f * 2 * u * v * R := by
    unfold sumExact
    ring
  have key : ∀ {k x : ℝ}, 0 ≤ k → |x| ≤ R → -(k * R) ≤ k * x ∧ k * x ≤ k * R := fun {k x} hk hx => by
    obtain ⟨y, z⟩ := abs_le.1 hx
    exact ⟨by nlinarith, by nlinarith⟩
  obtain ⟨l1, m1⟩ := key (k := a * s * s) (by positivity) h1
  obtain ⟨l2, m2⟩ := key (k := b * u * u) (by positivity) h2
  obtain ⟨l3, m3⟩ := key (k := c * v * v) (by positivity) h3
  obtain ⟨l4, m4⟩ := key (k := d * 2 * s * u) (by positivity) h4
  obtain ⟨l5, m5⟩ := key (k := e * 2 * s * v) (by positivity) h5
  obtain ⟨l6, m6⟩ := key (k := f * 2 * u * v) (by positivity) h6
  rw [e1, e2, abs_le]
  constructor <;> linarith

theorem flAt_double {S : ℝ} (h : 2 ^ (-900 : ℤ) ≤ S) (h' : S ≤ 2 ^ (900 : ℤ)) : FlAt (2 ^ (-53 : ℤ)) S double := by
  have S0 : 0 < S := lt_of_lt_of_le (by positivity) h
  refine Rounded.double_rounds.flAt (by positivity) (by norm_num) S0 ?_ ?_
  · have a : (2 : ℝ) ^ (-53 : ℤ) * 2 ^ (-900 : ℤ) ≤ 2 ^ (-53 : ℤ) * S := mul_le_mul_of_nonneg_left h (by positivity)
    rw [← zpow_add₀ two_ne_zero] at a
    refine le_trans ?_ a
    rw [show (4 : ℝ) = 2 ^ (2 : ℤ) by norm_num, ← zpow_add₀ two_ne_zero]
    exact zpow_le_zpow_right₀ one_le_two (by norm_num)
  · have a : 1000 * S ≤ 2 ^ (10 : ℤ) * 2 ^ (900 : ℤ) := mul_le_mul (by norm_num) h' S0.le (by positivity)
    rw [← zpow_add₀ two_ne_zero] at a
    exact a.trans (zpow_le_zpow_right₀ one_le_two (by norm_num))

/-- sizes at which the arithmetic of `eval` neither overflows nor loses its accuracy by underflow -/
structure EvalRange (w W R : ℝ) : Prop where
  w0 : 2 ^ (-400 : ℤ) ≤ w
  ratio : W ≤ 2 ^ 40 * w
  W1 : W ≤ 2 ^ (400 : ℤ)
  R0 : 2 ^ (-400 : ℤ) ≤ R
  R1 : R ≤ 2 ^ (400 : ℤ)

theorem Within.pos {q : QuadBez ℝ} {w W R : ℝ} (hq : q.Within w W R) (w0 : 0 < w) : q.PosWeights :=
  ⟨w0.trans_le hq.w1.1, w0.trans_le hq.w2.1, w0.trans_le hq.w3.1, w0.trans_le hq.w12.1, w0.trans_le hq.w13.1, w0.trans_le hq.w23.1⟩

/-- `eval` for parameters that are themselves computed -/
theorem bary_double {q : QuadBez ℝ} {w W R : ℝ} (hq : q.Within w W R) (hr : EvalRange w W R) {s u v s' u' v' : ℝ} (s0 : 0 ≤ s) (u0 : 0 ≤ u)
    (v0 : 0 ≤ v) (h1 : s + u + v = 1) (hs : |s' - s| ≤ 8 * 2 ^ (-53 : ℤ)) (hu : |u' - u| ≤ 8 * 2 ^ (-53 : ℤ))
    (hv : |v' - v| ≤ 8 * 2 ^ (-53 : ℤ)) :
    ∃ P P', q.evalBary s u v = some P ∧ q.evalBaryRounded double s' u' v' = some P' ∧ Near (2 ^ (-44 : ℤ) * (W / w) * R) P P' := by
  obtain ⟨r1, r2, r3, r4, r5⟩ := hr
  have wW : w ≤ W := hq.w1.1.trans hq.w1.2
  have w0 : 0 < w := lt_of_lt_of_le (by positivity) r1
  have W0 : 0 < W := w0.trans_le wW
  have R0 : 0 < R := lt_of_lt_of_le (by positivity) r4
  have up : ∀ {a b : ℤ}, a ≤ b → (2 : ℝ) ^ a ≤ 2 ^ b := fun h => zpow_le_zpow_right₀ one_le_two h
  have FW : FlAt (2 ^ (-53 : ℤ)) W double := flAt_double ((up (by norm_num)).trans (r1.trans wW)) (r3.trans (up (by norm_num)))
  have FS : FlAt (2 ^ (-53 : ℤ)) (W * R) double := by
    refine flAt_double ?_ ?_
    · refine le_trans ?_ (mul_le_mul (r1.trans wW) r4 (by positivity) W0.le)
      rw [← zpow_add₀ two_ne_zero]
      exact up (by norm_num)
    · refine (mul_le_mul r3 r5 R0.le (by positivity)).trans ?_
      rw [← zpow_add₀ two_ne_zero]
      exact up (by norm_num)
  have F1 : FlAt (2 ^ (-53 : ℤ)) R double := flAt_double ((up (by norm_num)).trans r4) (r5.trans (up (by norm_num)))
  have as : Appr (2 ^ (-53 : ℤ)) 1 8 1 s' s := ⟨by rw [mul_one]; exact hs, by rw [abs_of_nonneg s0]; linarith⟩
  have au : Appr (2 ^ (-53 : ℤ)) 1 8 1 u' u := ⟨by rw [mul_one]; exact hu, by rw [abs_of_nonneg u0]; linarith⟩
  have av : Appr (2 ^ (-53 : ℤ)) 1 8 1 v' v := ⟨by rw [mul_one]; exact hv, by rw [abs_of_nonneg v0]; linarith⟩
  have aw : ∀ {x : ℝ}, w ≤ x ∧ x ≤ W → Appr (2 ^ (-53 : ℤ)) W 2 1 x x := fun {x} hx =>
    (Appr.exact (by rw [abs_of_pos (w0.trans_le hx.1), one_mul]; exact hx.2)).weaken (mul_nonneg FW.u0 W0.le) (by norm_num)
  have ap : ∀ {p x : ℝ}, |p| ≤ R → w ≤ x ∧ x ≤ W → Appr (2 ^ (-53 : ℤ)) (W * R) 2 1 (double (p * x)) (p * x) := fun {p x} hp hx => by
    have := (Appr.exact (u := 2 ^ (-53 : ℤ)) (x := p * x) (b := 1) (s := W * R) (by
      rw [abs_mul, abs_of_pos (w0.trans_le hx.1), one_mul, mul_comm W]
      exact mul_le_mul hp hx.2 (w0.trans_le hx.1).le R0.le)).round FS (by norm_num) (by norm_num)
    rw [show (0 : ℝ) + 1 + 1 = 2 by norm_num] at this
    exact this
  have hD := sum_near FW (aw hq.w1) (aw hq.w2) (aw hq.w3) (aw hq.w12) (aw hq.w13) (aw hq.w23) as au av
  have hw := weight_least hq.w1.1 hq.w2.1 hq.w3.1 hq.w12.1 hq.w13.1 hq.w23.1 s0 u0 v0 h1
  obtain ⟨b1, b2, b3, b12, b13, b23⟩ := hq.pos w0
  have hU : 247 * (2 ^ (-53 : ℤ) * W) ≤ 1 / 32 * w := by
    have : (2 : ℝ) ^ (-53 : ℤ) * W ≤ 2 ^ (-53 : ℤ) * (2 ^ 40 * w) := mul_le_mul_of_nonneg_left r2 (by positivity)
    norm_num at this ⊢
    linarith
  have hfl : ∀ x, |x| ≤ 2 * R → |double x - x| ≤ 2 ^ (-53 : ℤ) * |x| + 2 ^ (-53 : ℤ) * R / 4 := fun x hx => by
    have := F1.err x (by linarith)
    linarith
  have coord : ∀ c : P3 ℝ → ℝ, (∀ p ∈ [q.p1, q.p2, q.p3, q.c12, q.c13, q.c23], |c p| ≤ R) →
      sumRounded double q.w1 q.w2 q.w3 q.w12 q.w13 q.w23 s' u' v' ≠ 0 ∧
      |double (sumRounded double (double (c q.p1 * q.w1)) (double (c q.p2 * q.w2)) (double (c q.p3 * q.w3)) (double (c q.c12 * q.w12))
          (double (c q.c13 * q.w13)) (double (c q.c23 * q.w23)) s' u' v' / sumRounded double q.w1 q.w2 q.w3 q.w12 q.w13 q.w23 s' u' v') -
        sumExact (c q.p1 * q.w1) (c q.p2 * q.w2) (c q.p3 * q.w3) (c q.c12 * q.w12) (c q.c13 * q.w13) (c q.c23 * q.w23) s u v /
          sumExact q.w1 q.w2 q.w3 q.w12 q.w13 q.w23 s u v| ≤ 2 ^ (-44 : ℤ) * (W / w) * R := fun c hc => by
    have i1 := hc q.p1 (by simp)
    have i2 := hc q.p2 (by simp)
    have i3 := hc q.p3 (by simp)
    have i4 := hc q.c12 (by simp)
    have i5 := hc q.c13 (by simp)
    have i6 := hc q.c23 (by simp)
    have hN := sum_near FS (ap i1 hq.w1) (ap i2 hq.w2) (ap i3 hq.w3) (ap i4 hq.w12) (ap i5 hq.w13) (ap i6 hq.w23) as au av
    have hR := sum_bound b1.le b2.le b3.le b12.le b13.le b23.le s0 u0 v0 i1 i2 i3 i4 i5 i6
    obtain ⟨x, y⟩ := quotient_near (fl := double) (ε := 2 ^ (-53 : ℤ) * R / 4) w0 wW R0 FW.u0 hU (by linarith) hfl hN hD hw hR
    refine ⟨x, y.trans (le_of_eq ?_)⟩
    rw [show (2 : ℝ) ^ (-44 : ℤ) = 512 * 2 ^ (-53 : ℤ) by norm_num]
  have hw0 := weight_pos ⟨b1, b2, b3, b12, b13, b23⟩ s0 u0 v0 h1
  obtain ⟨nz, nx⟩ := coord P3.x fun p hp => (hq.pts p hp).1
  have ny := (coord P3.y fun p hp => (hq.pts p hp).2.1).2
  have nz' := (coord P3.z fun p hp => (hq.pts p hp).2.2).2
  refine ⟨_, _, if_neg hw0.ne', if_neg nz, ?_⟩
  have conv : ∀ x1 x2 x3 x4 x5 x6 : ℝ, sumExact (x1 * q.w1) (x2 * q.w2) (x3 * q.w3) (x4 * q.w12) (x5 * q.w13) (x6 * q.w23) s u v =
      q.w1 * s * s * x1 + q.w2 * u * u * x2 + q.w3 * v * v * x3 + q.w12 * 2 * s * u * x4 + q.w13 * 2 * s * v * x5 + q.w23 * 2 * u * v * x6 :=
    fun _ _ _ _ _ _ => by
      unfold sumExact
      ring
  rw [conv] at nx ny nz'
  refine ⟨?_, ?_, ?_⟩ <;> simp only [P3.div, P3.add_x, P3.add_y, P3.add_z, P3.smul_x, P3.smul_y, P3.smul_z]
  · exact nx
  · exact ny
  · exact nz'

/-- a computed `1 - s - u` -/
theorem third_double {s u s' u' : ℝ} (s0 : 0 ≤ s) (u0 : 0 ≤ u) (h1 : s + u ≤ 1) (hs : |s' - s| ≤ 2 * 2 ^ (-53 : ℤ)) (hu : |u' - u| ≤ 2 * 2 ^ (-53 : ℤ)) :
    |double (double (1 - s') - u') - (1 - s - u)| ≤ 8 * 2 ^ (-53 : ℤ) := by
  have F : FlAt (2 ^ (-53 : ℤ)) 1 double := flAt_double (zpow_le_one_of_nonpos₀ one_le_two (by norm_num)) (one_le_zpow₀ one_le_two (by norm_num))
  have as : Appr (2 ^ (-53 : ℤ)) 1 2 1 s' s := ⟨by rw [mul_one]; exact hs, by rw [abs_of_nonneg s0]; linarith⟩
  have au : Appr (2 ^ (-53 : ℤ)) 1 2 1 u' u := ⟨by rw [mul_one]; exact hu, by rw [abs_of_nonneg u0]; linarith⟩
  have one : Appr (2 ^ (-53 : ℤ)) 1 0 1 (1 : ℝ) 1 := Appr.exact (by norm_num)
  have a := ((one.sub as).bound (b1 := 1) (by rw [abs_of_nonneg (by linarith)]; linarith)).round F (by norm_num) (by norm_num)
  have b := ((a.sub au).bound (b1 := 1) (by rw [abs_of_nonneg (by linarith)]; linarith)).round F (by norm_num) (by norm_num)
  have := b.near
  norm_num at this ⊢
  exact this

/-- **C136** `eval(s, u)` in `double` is off by at most `2⁻⁴⁴ (W / w) R` in each coordinate. -/
theorem eval_double {q : QuadBez ℝ} {w W R : ℝ} (hq : q.Within w W R) (hr : EvalRange w W R) {s u s' u' : ℝ} (s0 : 0 ≤ s) (u0 : 0 ≤ u)
    (h1 : s + u ≤ 1) (hs : |s' - s| ≤ 2 * 2 ^ (-53 : ℤ)) (hu : |u' - u| ≤ 2 * 2 ^ (-53 : ℤ)) :
    ∃ P P', q.eval2 s u = some P ∧ q.eval2Rounded double s' u' = some P' ∧ Near (2 ^ (-44 : ℤ) * (W / w) * R) P P' := by
  have h28 : (2 : ℝ) * 2 ^ (-53 : ℤ) ≤ 8 * 2 ^ (-53 : ℤ) := by norm_num
  obtain ⟨P, P', a, b, c⟩ := bary_double hq hr s0 u0 (by linarith : 0 ≤ 1 - s - u) (by ring) (hs.trans h28) (hu.trans h28) (third_double s0 u0 h1 hs hu)
  refine ⟨P, P', ?_, ?_, c⟩
  · rw [(eval_default q s u).1]
    exact a
  · unfold eval2Rounded evalRounded
    simp only [if_true]
    exact b

/-- **C136** neighbours: along a common side two patches agree up to twice the error, whatever their other corners are. -/
theorem side_double {q q' : QuadBez ℝ} {w W R : ℝ} (hq : q.Within w W R) (hq' : q'.Within w W R) (hr : EvalRange w W R)
    (h1 : q.p1 = q'.p1) (h2 : q.p2 = q'.p2) (h3 : q.c12 = q'.c12) (h4 : q.w1 = q'.w1) (h5 : q.w2 = q'.w2) (h6 : q.w12 = q'.w12)
    {s s' u' : ℝ} (s0 : 0 ≤ s) (s1 : s ≤ 1) (hs : |s' - s| ≤ 2 * 2 ^ (-53 : ℤ)) (hu : |u' - (1 - s)| ≤ 2 * 2 ^ (-53 : ℤ)) :
    ∃ P P', q.eval2Rounded double s' u' = some P ∧ q'.eval2Rounded double s' u' = some P' ∧ Near (2 ^ (-43 : ℤ) * (W / w) * R) P P' := by
  obtain ⟨A, P, a, b, c⟩ := eval_double hq hr s0 (by linarith) (by linarith) hs hu
  obtain ⟨A', P', a', b', c'⟩ := eval_double hq' hr s0 (by linarith) (by linarith) hs hu
  rw [eval_side q q' h1 h2 h3 h4 h5 h6, a'] at a
  obtain rfl := Option.some_inj.1 a
  refine ⟨P, P', b, b', ?_⟩
  have e : (2 : ℝ) ^ (-43 : ℤ) * (W / w) * R = 2 ^ (-44 : ℤ) * (W / w) * R + 2 ^ (-44 : ℤ) * (W / w) * R := by
    rw [show (2 : ℝ) ^ (-43 : ℤ) = 2 ^ (-44 : ℤ) + 2 ^ (-44 : ℤ) by norm_num]
    ring
  rw [e]
  have tri : ∀ {x y z d : ℝ}, |y - x| ≤ d → |z - x| ≤ d → |z - y| ≤ d + d := fun {x y z d} h k => by
    rw [abs_le] at h k ⊢
    constructor <;> linarith [h.1, h.2, k.1, k.2]
  exact ⟨tri c.1 c'.1, tri c.2.1 c'.2.1, tri c.2.2 c'.2.2⟩

theorem double_0 : double 0 = 0 := ieee_zero

/-- a number of the format `double` -/
abbrev IsD (x : ℝ) : Prop := Representable 53 (-1074) x

theorem IsD.kept {x : ℝ} (h : IsD x) : double x = x := ieee_kept h

/-- **C136** at a corner of weight 1 the computed point is exactly the corner. -/
theorem corner_double (q : QuadBez ℝ) :
    (q.w1 = 1 → IsD q.p1.x → IsD q.p1.y → IsD q.p1.z → q.eval2Rounded double 1 0 = some q.p1) ∧
    (q.w2 = 1 → IsD q.p2.x → IsD q.p2.y → IsD q.p2.z → q.eval2Rounded double 0 1 = some q.p2) ∧
    (q.w3 = 1 → IsD q.p3.x → IsD q.p3.y → IsD q.p3.z → q.eval2Rounded double 0 0 = some q.p3) := by
  have one : double 1 = 1 := Rounded.double_one
  have c1 : ∀ a1 a2 a3 a12 a13 a23 : ℝ, double a1 = a1 → sumRounded double a1 a2 a3 a12 a13 a23 1 0 0 = a1 := fun a1 a2 a3 a12 a13 a23 h => by
    simp [sumRounded, double_0, h]
  have c2 : ∀ a1 a2 a3 a12 a13 a23 : ℝ, double a2 = a2 → sumRounded double a1 a2 a3 a12 a13 a23 0 1 0 = a2 := fun a1 a2 a3 a12 a13 a23 h => by
    simp [sumRounded, double_0, h]
  have c3 : ∀ a1 a2 a3 a12 a13 a23 : ℝ, double a3 = a3 → sumRounded double a1 a2 a3 a12 a13 a23 0 0 1 = a3 := fun a1 a2 a3 a12 a13 a23 h => by
    simp [sumRounded, double_0, h]
  unfold eval2Rounded evalRounded evalBaryRounded
  refine ⟨fun h x y z => ?_, fun h x y z => ?_, fun h x y z => ?_⟩
  · simp only [if_true, sub_self, double_0, h, mul_one]
    rw [c1 _ _ _ _ _ _ one, if_neg one_ne_zero]
    simp only [div_one, x.kept, y.kept, z.kept]
    rw [c1 _ _ _ _ _ _ x.kept, c1 _ _ _ _ _ _ y.kept, c1 _ _ _ _ _ _ z.kept, x.kept, y.kept, z.kept]
  · simp only [if_true, sub_zero, one, sub_self, double_0, h, mul_one]
    rw [c2 _ _ _ _ _ _ one, if_neg one_ne_zero]
    simp only [div_one, x.kept, y.kept, z.kept]
    rw [c2 _ _ _ _ _ _ x.kept, c2 _ _ _ _ _ _ y.kept, c2 _ _ _ _ _ _ z.kept, x.kept, y.kept, z.kept]
  · simp only [if_true, sub_zero, one, h, mul_one]
    rw [c3 _ _ _ _ _ _ one, if_neg one_ne_zero]
    simp only [div_one, x.kept, y.kept, z.kept]
    rw [c3 _ _ _ _ _ _ x.kept, c3 _ _ _ _ _ _ y.kept, c3 _ _ _ _ _ _ z.kept, x.kept, y.kept, z.kept]

/-! ### a crack -/

theorem third_value : double (1 / 3) = 6004799503160661 / 2 ^ 54 := by
  have := ieee_eval (p := 53) (emin := -1074) (x := 1 / 3) 6004799503160661 (-54) (by norm_num) (by norm_num [abs_of_pos])
    (by norm_num [abs_of_pos]) (by norm_num [abs_lt])
  rw [double, this]
  norm_num

theorem two_thirds_value : double (2 / 3) = 6004799503160661 / 2 ^ 53 := by
  have := ieee_eval (p := 53) (emin := -1074) (x := 2 / 3) 6004799503160661 (-53) (by norm_num) (by norm_num [abs_of_pos])
    (by norm_num [abs_of_pos]) (by norm_num [abs_lt])
  rw [double, this]
  norm_num

/-- at `s = 1/3`, `u = 2/3` the computed third coordinate is not zero -/
theorem third_not_zero : double (double (1 - double (1 / 3)) - double (2 / 3)) = 1 / 2 ^ 53 := by
  have a : double (1 - double (1 / 3)) = 12009599006321324 / 2 ^ 54 := by
    have := double_nat 12009599006321323 (s := 54) (by norm_num)
    have e : rnd53 12009599006321323 = 12009599006321324 := by decide +kernel
    rw [e] at this
    rw [third_value, show (1 : ℝ) - 6004799503160661 / 2 ^ 54 = ((12009599006321323 : ℕ) : ℝ) / 2 ^ 54 by norm_num, this]
    norm_num
  rw [a, two_thirds_value, show (12009599006321324 : ℝ) / 2 ^ 54 - 6004799503160661 / 2 ^ 53 = 1 / 2 ^ 53 by norm_num]
  exact IsD.kept ⟨1, -53, by norm_num, by norm_num, by norm_num⟩

/-- two patches over a common side -/
noncomputable def crackPatch (c : P3 ℝ) : QuadBez ℝ := (QuadBez.new.setPoints ⟨0, 0, 0⟩ ⟨2, 0, 0⟩ ⟨0, 2, 0⟩).setControlPoints ⟨1, 0, 0⟩ c ⟨1, 1, 0⟩

theorem crackPatch_within : (crackPatch ⟨0, 1, 1⟩).Within 1 1 2 ∧ (crackPatch ⟨0, 1, 0⟩).Within 1 1 2 := by
  constructor <;> constructor <;> simp [crackPatch, new, setPoints, setControlPoints]

theorem range_112 : EvalRange 1 1 2 :=
  ⟨zpow_le_one_of_nonpos₀ one_le_two (by norm_num), by norm_num, one_le_zpow₀ one_le_two (by norm_num),
    le_trans (zpow_le_one_of_nonpos₀ one_le_two (by norm_num)) one_le_two,
    le_trans (by norm_num) (zpow_le_zpow_right₀ one_le_two (by norm_num : (1 : ℤ) ≤ 400))⟩

/-- **C136** (disagreement) the bound for neighbours cannot be zero: two patches with the same side, meshed with three segments, get
different vertices at the same place of the side, because the computed third coordinate `1 - 1/3 - 2/3` is `2⁻⁵³`.  In exact arithmetic they agree. -/
theorem side_crack : ∃ P P', (crackPatch ⟨0, 1, 1⟩).eval2Rounded double (double (1 / 3)) (double (2 / 3)) = some P ∧
    (crackPatch ⟨0, 1, 0⟩).eval2Rounded double (double (1 / 3)) (double (2 / 3)) = some P' ∧ P ≠ P' ∧
    (crackPatch ⟨0, 1, 1⟩).eval2 (1 / 3) (2 / 3) = (crackPatch ⟨0, 1, 0⟩).eval2 (1 / 3) (2 / 3) := by
  have e1 : |double (1 / 3) - 1 / 3| ≤ 2 * 2 ^ (-53 : ℤ) := by
    rw [third_value]
    norm_num [abs_le]
  have e2 : |double (2 / 3) - 2 / 3| ≤ 2 * 2 ^ (-53 : ℤ) := by
    rw [two_thirds_value]
    norm_num [abs_le]
  obtain ⟨-, P, -, b, -⟩ := eval_double crackPatch_within.1 range_112 (by norm_num) (by norm_num) (by norm_num : (1 / 3 : ℝ) + 2 / 3 ≤ 1) e1 e2
  obtain ⟨-, P', -, b', -⟩ := eval_double crackPatch_within.2 range_112 (by norm_num) (by norm_num) (by norm_num : (1 / 3 : ℝ) + 2 / 3 ≤ 1) e1 e2
  have ex := eval_side (crackPatch ⟨0, 1, 1⟩) (crackPatch ⟨0, 1, 0⟩) rfl rfl rfl rfl rfl rfl (1 / 3)
  rw [show (1 : ℝ) - 1 / 3 = 2 / 3 by norm_num] at ex
  refine ⟨P, P', b, b', ?_, ex⟩
  have F : FlAt (2 ^ (-53 : ℤ)) 1 double := flAt_double (zpow_le_one_of_nonpos₀ one_le_two (by norm_num)) (one_le_zpow₀ one_le_two (by norm_num))
  have a1 : Appr (2 ^ (-53 : ℤ)) 1 2 1 (1 : ℝ) 1 := ⟨by norm_num, by norm_num⟩
  have D := sum_near F a1 a1 a1 a1 a1 a1 (s' := double (1 / 3)) (s := 1 / 3) (u' := double (2 / 3)) (u := 2 / 3) (v' := 1 / 2 ^ 53) (v := 0)
    ⟨e1.trans (by norm_num), by norm_num [abs_le]⟩ ⟨e2.trans (by norm_num), by norm_num [abs_le]⟩ ⟨by norm_num, by norm_num⟩
  rw [show sumExact 1 1 1 1 1 1 (1 / 3) (2 / 3) 0 = 1 by norm_num [sumExact]] at D
  unfold eval2Rounded evalRounded evalBaryRounded at b b'
  simp only [if_true, third_not_zero] at b b'
  simp only [crackPatch, new, setPoints, setControlPoints, mul_one, Rounded.double_one, double_0] at b b'
  generalize hD : sumRounded double 1 1 1 1 1 1 (double (1 / 3)) (double (2 / 3)) (1 / 2 ^ 53) = d at *
  have d0 : 0 < d := by
    have := (abs_le.1 D).1
    norm_num at this
    linarith
  have d2 : d ≤ 2 := by
    have := (abs_le.1 D).2
    norm_num at this
    linarith
  rw [if_neg d0.ne', Option.some_inj] at b b'
  have z' : P'.z = 0 := by
    rw [← b']
    simp [sumRounded, double_0]
  have z : 0 < P.z := by
    rw [← b]
    simp only [sumRounded, zero_mul, double_0, zero_add, add_zero, one_mul]
    have two : double 2 = 2 := IsD.kept ⟨1, 1, by norm_num, by norm_num, by norm_num⟩
    have two' : double (2 * double (1 / 3)) = 6004799503160661 / 2 ^ 53 := by
      rw [third_value, show (2 : ℝ) * (6004799503160661 / 2 ^ 54) = 6004799503160661 / 2 ^ 53 by norm_num]
      exact IsD.kept ⟨6004799503160661, -53, by norm_num, by norm_num, by norm_num⟩
    have thr : double (6004799503160661 / 2 ^ 53 * (1 / 2 ^ 53)) = 6004799503160661 / 2 ^ 106 := by
      rw [show (6004799503160661 : ℝ) / 2 ^ 53 * (1 / 2 ^ 53) = 6004799503160661 / 2 ^ 106 by norm_num]
      exact IsD.kept ⟨6004799503160661, -106, by norm_num, by norm_num, by norm_num⟩
    have four : double (6004799503160661 / 2 ^ 106) = 6004799503160661 / 2 ^ 106 :=
      IsD.kept ⟨6004799503160661, -106, by norm_num, by norm_num, by norm_num⟩
    rw [two, two', thr, four, four]
    have T : (2 : ℝ) ^ (-800 : ℤ) ≤ 1 / 2 ^ 100 := by
      rw [one_div, ← zpow_natCast, ← zpow_neg]
      exact zpow_le_zpow_right₀ one_le_two (by norm_num)
    have := double_ge T (x := 6004799503160661 / 2 ^ 106 / d) (by
      rw [le_div_iff₀ d0]
      refine (mul_le_mul_of_nonneg_left d2 (by positivity)).trans ?_
      norm_num)
    refine lt_of_lt_of_le ?_ this
    positivity
  intro h
  rw [h, z'] at z
  exact lt_irrefl _ z

/-! ### meshes -/

theorem addVerticesRounded_eq (q : QuadBez ℝ) (n : Nat) (g : Par → P3 ℝ)
    (hg : ∀ x : Par, x.1 + x.2 ≤ n → q.eval2Rounded fl (fl ((x.1 : ℝ) / n)) (fl ((x.2 : ℝ) / n)) = some (g x)) (m : Mesh ℝ) :
    q.addVerticesRounded fl n m = some (m.pushPts (bezPts n g)) := by
  unfold addVerticesRounded bezPts
  rw [show ((n : Int) + 1).toNat = n + 1 by omega]
  apply loopN_pushPts
  intro i hi m
  rw [show ((n : Int) - i + 1).toNat = n + 1 - i by omega]
  rw [show ((List.range (n + 1 - i)).map fun iu => g (i, iu)) =
    (List.range (n + 1 - i)).flatMap fun iu => [g (i, iu)] from List.map_eq_flatMap]
  apply loopN_pushPts
  intro j hj m
  have := hg (i, j) (by simp only; omega)
  simp only at this
  simp only [Int.cast_natCast, this, addVertex_eq]
  rfl

theorem addToMeshRounded_eq (q : QuadBez ℝ) (n : Nat) (g : Par → P3 ℝ)
    (hg : ∀ x : Par, x.1 + x.2 ≤ n → q.eval2Rounded fl (fl ((x.1 : ℝ) / n)) (fl ((x.2 : ℝ) / n)) = some (g x)) (m : Mesh ℝ) :
    q.addToMeshRounded fl m n = some ((m.pushPts (bezPts n g)).pushTris (bezFaces n m.kern.verts.length)) := by
  unfold addToMeshRounded
  rw [addVerticesRounded_eq q n g hg]
  obtain ⟨p, hp⟩ := addTriangles_eq n m.kern.verts.length (m.pushPts (bezPts n g))
    (by rw [pushPts_verts, List.length_append, length_bezPts])
  have : m.nbVertices = (m.kern.verts.length : Int) := rfl
  simp only [Option.bind_eq_bind, Option.bind_some, this, hp]
  rfl

theorem quot_double {i n : Nat} (hi : i ≤ n) (hn : 1 ≤ n) : |double ((i : ℝ) / n) - i / n| ≤ 2 * 2 ^ (-53 : ℤ) := by
  have n0 : (0 : ℝ) < n := by exact_mod_cast hn
  have F : FlAt (2 ^ (-53 : ℤ)) 1 double := flAt_double (zpow_le_one_of_nonpos₀ one_le_two (by norm_num)) (one_le_zpow₀ one_le_two (by norm_num))
  have a : |(i : ℝ) / n| ≤ 1 := by
    rw [abs_of_nonneg (by positivity), div_le_one n0]
    exact_mod_cast hi
  have e := F.err ((i : ℝ) / n) (by linarith)
  have : (2 : ℝ) ^ (-53 : ℤ) * (|(i : ℝ) / n| + 1 / 4) ≤ 2 ^ (-53 : ℤ) * 2 := mul_le_mul_of_nonneg_left (by linarith) (by positivity)
  linarith

theorem patch_close {q : QuadBez ℝ} {w W R E : ℝ} (hq : q.Within w W R) (hr : EvalRange w W R) (hE : 2 ^ (-44 : ℤ) * (W / w) * R ≤ E) {n : Nat}
    (hn : 1 ≤ n) {A B : Mesh ℝ} (hA : A.OK) (hB : B.OK) (h : Close E A B) :
    ∃ A' B', q.addToMesh A n = some A' ∧ q.addToMeshRounded double B n = some B' ∧ A'.OK ∧ B'.OK ∧ Close E A' B' ∧
      ∀ P ∈ A'.kern.verts, P ∈ A.kern.verts ∨ ∃ s u, 0 ≤ s ∧ 0 ≤ u ∧ s + u ≤ 1 ∧ q.eval2 s u = some P := by
  have n0 : (0 : ℝ) < n := by exact_mod_cast hn
  have hdef : ∀ x : Par, ∃ p : P3 ℝ × P3 ℝ, x.1 + x.2 ≤ n → q.eval2 ((x.1 : ℝ) / n) ((x.2 : ℝ) / n) = some p.1 ∧
      q.eval2Rounded double (double ((x.1 : ℝ) / n)) (double ((x.2 : ℝ) / n)) = some p.2 ∧ Near E p.1 p.2 := by
    intro x
    by_cases hx : x.1 + x.2 ≤ n
    · obtain ⟨P, P', a, b, c⟩ := eval_double hq hr (s := (x.1 : ℝ) / n) (u := (x.2 : ℝ) / n) (by positivity) (by positivity)
        (by rw [← add_div, div_le_one n0]; exact_mod_cast hx) (quot_double (by omega) hn) (quot_double (by omega) hn)
      exact ⟨(P, P'), fun _ => ⟨a, b, c.mono hE⟩⟩
    · exact ⟨(⟨0, 0, 0⟩, ⟨0, 0, 0⟩), fun h => absurd h hx⟩
  choose g hg using hdef
  have len : B.kern.verts.length = A.kern.verts.length := h.2.length_eq.symm
  have ok : ∀ {M : Mesh ℝ} (g : Par → P3 ℝ), M.OK → ((M.pushPts (bezPts n g)).pushTris (bezFaces n M.kern.verts.length)).OK := fun {M} g hM =>
    (hM.pushPts _).pushTris (by
      rw [pushPts_verts, List.length_append, length_bezPts]
      exact bezFaces_valid n _)
  have pts : ∀ P ∈ bezPts n fun x => (g x).1, ∃ x : Par, x.1 + x.2 ≤ n ∧ P = (g x).1 := fun P hP => by
    simp only [bezPts, List.mem_flatMap, List.mem_map, List.mem_range] at hP
    obtain ⟨i, hi, j, hj, rfl⟩ := hP
    exact ⟨(i, j), by simp only; omega, rfl⟩
  refine ⟨_, _, addToMesh_eq q n (fun x => (g x).1) (fun x hx => (hg x hx).1) A,
    addToMeshRounded_eq q n (fun x => (g x).2) (fun x hx => (hg x hx).2.1) B, ok _ hA, ok _ hB, ⟨?_, ?_⟩, ?_⟩
  · simp only [pushTris, pushPts_tris, h.1, len]
  · simp only [pushTris_verts, pushPts_verts]
    refine List.rel_append h.2 ?_
    unfold bezPts
    refine List.rel_flatMap (R := fun a b => a = b ∧ a ≤ n) ?_ ?_
    · refine List.forall₂_same.2 fun i hi => ⟨rfl, ?_⟩
      have := List.mem_range.1 hi
      omega
    · rintro i - ⟨rfl, hi⟩
      rw [List.forall₂_map_left_iff, List.forall₂_map_right_iff, List.forall₂_same]
      intro j hj
      have := List.mem_range.1 hj
      exact (hg (i, j) (by simp only; omega)).2.2
  · intro P hP
    simp only [pushTris_verts, pushPts_verts, List.mem_append] at hP
    refine hP.imp id fun hP => ?_
    obtain ⟨x, hx, rfl⟩ := pts P hP
    exact ⟨_, _, by positivity, by positivity, by rw [← add_div, div_le_one n0]; exact_mod_cast hx, (hg x hx).1⟩

end QuadBez

namespace SmoothMesh
open Nurbs QuadBez Rounded

theorem vertex_mem {M : Mesh ℝ} {P : P3 ℝ} : (∃ i, M.getVertex i = some P) ↔ P ∈ M.kern.verts := by
  constructor
  · rintro ⟨i, h⟩
    rw [(Mesh.answers_view M).getVertex] at h
    obtain ⟨j, -, hj⟩ := getI_eq_some_iff.1 h
    exact List.mem_of_getElem? hj
  · intro h
    obtain ⟨j, hj, e⟩ := List.mem_iff_getElem.1 h
    refine ⟨j, ?_⟩
    rw [(Mesh.answers_view M).getVertex]
    exact getI_eq_some_iff.2 ⟨j, rfl, by rw [← e]; exact List.getElem?_eq_getElem hj⟩

/-- **C136** a smooth mesh meshed in `double` has the triangles of the exact mesh; its vertices are off from points of the patches by at
most `E`. -/
theorem mesh_double (s : SmoothMesh ℝ) {E : ℝ} (hE : 0 ≤ E)
    (hs : ∀ q ∈ s.tris, ∃ w W R, q.Within w W R ∧ EvalRange w W R ∧ 2 ^ (-44 : ℤ) * (W / w) * R ≤ E) {n : Nat} (hn : 1 ≤ n) (m : Mesh ℝ) (hm : m.OK) :
    ∃ A B, s.addToMesh m n = some A ∧ s.addToMeshRounded double m n = some B ∧ A.OK ∧ B.OK ∧ MeshNear E A B ∧
      ∀ i P, A.getVertex i = some P → (∃ j, m.getVertex j = some P) ∨
        ∃ q ∈ s.tris, ∃ a b, 0 ≤ a ∧ 0 ≤ b ∧ a + b ≤ 1 ∧ q.eval2 a b = some P := by
  have key : ∀ k ≤ s.tris.length, ∃ A B, loopN k (fun i m => do
        let t ← s.triangle i
        t.addToMesh m n) m = some A ∧
      loopN k (fun i m => do
        let t ← s.triangle i
        t.addToMeshRounded double m n) m = some B ∧ A.OK ∧ B.OK ∧ Close E A B ∧
      ∀ P ∈ A.kern.verts, P ∈ m.kern.verts ∨ ∃ q ∈ s.tris, ∃ a b, 0 ≤ a ∧ 0 ≤ b ∧ a + b ≤ 1 ∧ q.eval2 a b = some P := by
    intro k
    induction k with
    | zero => intro _; exact ⟨m, m, rfl, rfl, hm, hm, Close.refl hE m, fun P hP => Or.inl hP⟩
    | succ k ih =>
      intro hk
      obtain ⟨A, B, h1, h2, h3, h4, h5, h6⟩ := ih (by omega)
      have ht : s.triangle k = some (s.tris[k]) := by unfold triangle; rw [getI_natCast]; simp
      have mem : s.tris[k] ∈ s.tris := List.getElem_mem _
      obtain ⟨w, W, R, hq, hr, e⟩ := hs _ mem
      obtain ⟨A', B', a, b, c, d, f, g⟩ := patch_close hq hr e hn h3 h4 h5
      refine ⟨A', B', ?_, ?_, c, d, f, fun P hP => ?_⟩
      · rw [loopN_succ, h1]; simp only [Option.bind_eq_bind, Option.bind_some, ht]; exact a
      · rw [loopN_succ, h2]; simp only [Option.bind_eq_bind, Option.bind_some, ht]; exact b
      · rcases g P hP with h | h
        · exact h6 P h
        · exact Or.inr ⟨_, mem, h⟩
  obtain ⟨A, B, h1, h2, h3, h4, h5, h6⟩ := key s.tris.length le_rfl
  refine ⟨A, B, h1, h2, h3, h4, h5.meshNear, fun i P hP => ?_⟩
  rcases h6 P (vertex_mem.1 ⟨i, hP⟩) with h | h
  · exact Or.inl (vertex_mem.2 h)
  · exact Or.inr h

theorem sphere_within {d : ℝ} (hd : 0 ≤ d) (m : SmoothMesh ℝ) : ∀ q ∈ (m.createSphere d).tris, q.Within 1 1 d := by
  intro q hq
  simp only [createSphere, clear, addTriangle, List.nil_append, List.cons_append, List.mem_cons,
    List.not_mem_nil, or_false] at hq
  rcases hq with rfl | rfl | rfl | rfl | rfl | rfl | rfl | rfl <;>
    constructor <;> simp [spherePatch, QuadBez.new, setPoints, setControlPoints, abs_of_nonneg hd, hd]

/-- **C136** the smooth "sphere" meshed in `double` (its construction does no arithmetic): it has the triangles of the exact mesh, each vertex
is off by at most `2⁻⁴⁴ d` from it, and lies between the radii `0.96 d` and `1.07 d`. -/
theorem sphere_double {d : ℝ} (h : 2 ^ (-400 : ℤ) ≤ d) (h' : d ≤ 2 ^ (400 : ℤ)) (s : SmoothMesh ℝ) {n : Nat} (hn : 1 ≤ n) :
    ∃ A B, (s.createSphere d).addToMesh Mesh.new n = some A ∧ (s.createSphere d).addToMeshRounded double Mesh.new n = some B ∧ B.OK ∧
      MeshNear (2 ^ (-44 : ℤ) * d) A B ∧ ∀ i P, B.getVertex i = some P → (0.96 * d) ^ 2 ≤ P.normSq ∧ P.normSq ≤ (1.07 * d) ^ 2 := by
  have d0 : 0 < d := lt_of_lt_of_le (by positivity) h
  have R : EvalRange 1 1 d := ⟨zpow_le_one_of_nonpos₀ one_le_two (by norm_num), by norm_num, one_le_zpow₀ one_le_two (by norm_num), h, h'⟩
  obtain ⟨A, B, a, b, o, c, e, f⟩ := mesh_double (s.createSphere d) (E := 2 ^ (-44 : ℤ) * d) (by positivity)
    (fun q hq => ⟨1, 1, d, sphere_within d0.le s q hq, R, by rw [div_one, mul_one]⟩) hn Mesh.new Mesh.new_ok
  refine ⟨A, B, a, b, c, e, fun i P' hP' => ?_⟩
  obtain ⟨P, hP, near⟩ := Factory.near_ids e hP'
  have rad : 25 / 27 * d ^ 2 ≤ P.normSq ∧ P.normSq ≤ 9 / 8 * d ^ 2 := by
    rcases f i P hP with ⟨j, hj⟩ | ⟨q, hq, x, y, x0, y0, xy, ev⟩
    · have := vertex_mem.1 ⟨j, hj⟩
      exact absurd this List.not_mem_nil
    · obtain ⟨j, hj, rfl⟩ := List.mem_iff_getElem.1 hq
      have ht : (s.createSphere d).triangle j = some ((s.createSphere d).tris[j]) := by
        unfold triangle
        rw [getI_natCast]
        exact List.getElem?_eq_getElem hj
      obtain ⟨p, hp, lo, hi⟩ := (sphere_radius_partial d s j _ ht).1 x y x0 y0 xy
      rw [ev] at hp
      obtain rfl := Option.some_inj.1 hp
      exact ⟨lo, hi⟩
  obtain ⟨lo, hi⟩ := rad
  obtain ⟨nx, ny, nz⟩ := near
  have sq : ∀ {x x' : ℝ}, x ^ 2 ≤ 9 / 8 * d ^ 2 → |x' - x| ≤ 2 ^ (-44 : ℤ) * d → |x' ^ 2 - x ^ 2| ≤ 1 / 1000 * d ^ 2 := fun {x x'} hx hn => by
    have e : |x' - x| ≤ 1 / 10000 * d := hn.trans (mul_le_mul_of_nonneg_right (by norm_num) d0.le)
    have x1 : |x| ≤ 2 * d := by
      rw [← abs_of_pos (show 0 < 2 * d by positivity)]
      exact sq_le_sq.1 (by nlinarith)
    have s1 : |x' + x| ≤ 5 * d := by
      have := abs_add_le (x' - x) (2 * x)
      rw [show x' - x + 2 * x = x' + x by ring, abs_mul, abs_two] at this
      linarith
    rw [show x' ^ 2 - x ^ 2 = (x' - x) * (x' + x) by ring, abs_mul]
    have := mul_le_mul e s1 (abs_nonneg _) (by positivity)
    nlinarith
  have N : ∀ Q : P3 ℝ, Q.normSq = Q.x ^ 2 + Q.y ^ 2 + Q.z ^ 2 := fun Q => by
    unfold P3.normSq
    ring
  rw [N] at lo hi ⊢
  have tx := abs_le.1 (sq (by nlinarith [sq_nonneg P.y, sq_nonneg P.z]) nx)
  have ty := abs_le.1 (sq (by nlinarith [sq_nonneg P.x, sq_nonneg P.z]) ny)
  have tz := abs_le.1 (sq (by nlinarith [sq_nonneg P.y, sq_nonneg P.x]) nz)
  have d2 : 0 < d ^ 2 := by positivity
  rw [mul_pow, mul_pow]
  constructor
  · norm_num
    linarith [tx.1, ty.1, tz.1]
  · norm_num
    linarith [tx.2, ty.2, tz.2]

/-- a sphere of size 3 with 20 segments -/
example : ∃ A B, (SmoothMesh.new.createSphere 3).addToMesh Mesh.new (20 : Nat) = some A ∧
    (SmoothMesh.new.createSphere 3).addToMeshRounded double Mesh.new (20 : Nat) = some B ∧ B.OK ∧ MeshNear (2 ^ (-44 : ℤ) * 3) A B ∧
    ∀ i P, B.getVertex i = some P → (0.96 * 3) ^ 2 ≤ P.normSq ∧ P.normSq ≤ (1.07 * 3) ^ 2 :=
  sphere_double (le_trans (zpow_le_one_of_nonpos₀ one_le_two (by norm_num)) (by norm_num))
    (le_trans (by norm_num) (zpow_le_zpow_right₀ one_le_two (by norm_num : (2 : ℤ) ≤ 400))) _ (by norm_num)

/-- a patch that is not flat, with its neighbour -/
example : ∃ P P', (crackPatch ⟨0, 1, 1⟩).eval2Rounded double (double (1 / 3)) (double (2 / 3)) = some P ∧
    (crackPatch ⟨0, 1, 0⟩).eval2Rounded double (double (1 / 3)) (double (2 / 3)) = some P' ∧ Near (2 ^ (-43 : ℤ) * (1 / 1) * 2) P P' :=
  side_double crackPatch_within.1 crackPatch_within.2 range_112 rfl rfl rfl rfl rfl rfl (s := 1 / 3) (by norm_num) (by norm_num)
    (by rw [third_value]; norm_num [abs_le]) (by rw [two_thirds_value]; norm_num [abs_le])

/-- its corner -/
example : (crackPatch ⟨0, 1, 1⟩).eval2Rounded double 0 1 = some ⟨2, 0, 0⟩ :=
  (corner_double _).2.1 rfl ⟨1, 1, by norm_num, by norm_num, by norm_num [crackPatch, QuadBez.new, setPoints, setControlPoints]⟩
    ⟨0, 0, by norm_num, by norm_num, by norm_num [crackPatch, QuadBez.new, setPoints, setControlPoints]⟩
    ⟨0, 0, by norm_num, by norm_num, by norm_num [crackPatch, QuadBez.new, setPoints, setControlPoints]⟩

end SmoothMesh
end CAD
