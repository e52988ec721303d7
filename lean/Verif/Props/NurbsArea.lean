import Verif.Props.NurbsVolume

/-! C135: the surface area of the meshes of the NURBS sphere, torus and cylinder tends to that of
the solid as the number of segments grows. -/

namespace CAD
namespace Nurbs
open BSpline Mesh MeshUtil Real

/-- The area of one of the two triangles between neighbouring samples of a turned surface: `2 ρ s` is the length of the
side on one circle, `s` and `c` are sine and cosine of half the step, `l` is the step along the profile. -/
theorem strip_area {ρ ρ' z z' a b a' b' s c l : ℝ} (h : a ^ 2 + b ^ 2 = 1) (h' : a' ^ 2 + b' ^ 2 = 1)
    (hc : a * a' + b * b' = 1 - 2 * s ^ 2) (hsc : s ^ 2 + c ^ 2 = 1) (s0 : 0 ≤ s) (c0 : 0 ≤ c) (ρ0 : 0 ≤ ρ) (l0 : 0 ≤ l)
    (hl : l ^ 2 = (ρ' - ρ) ^ 2 + (z' - z) ^ 2) :
    ρ * (s * c) * l ≤ (⟨⟨ρ * a, ρ * b, z⟩, ⟨ρ * a', ρ * b', z⟩, ⟨ρ' * a', ρ' * b', z'⟩⟩ : Tri3 ℝ).surface ∧
      (⟨⟨ρ * a, ρ * b, z⟩, ⟨ρ * a', ρ * b', z⟩, ⟨ρ' * a', ρ' * b', z'⟩⟩ : Tri3 ℝ).surface ≤ ρ * s * l := by
  have c1 : c ≤ 1 := by nlinarith [sq_nonneg s]
  have w2 : (a * b' - b * a') ^ 2 = 4 * s ^ 2 * c ^ 2 := by
    have lag : (a * b' - b * a') ^ 2 = 1 - (a * a' + b * b') ^ 2 := by linear_combination (a' ^ 2 + b' ^ 2) * h + h'
    rw [lag, hc]
    linear_combination -4 * s ^ 2 * hsc
  have d2 : (a' - a) ^ 2 + (b' - b) ^ 2 = 4 * s ^ 2 := by linear_combination h + h' - 2 * hc
  have e : (⟨⟨ρ * a, ρ * b, z⟩, ⟨ρ * a', ρ * b', z⟩, ⟨ρ' * a', ρ' * b', z'⟩⟩ : Tri3 ℝ).surface =
      Real.sqrt (4 * (ρ ^ 2 * s ^ 2 * ((ρ' - ρ) ^ 2 * c ^ 2 + (z' - z) ^ 2))) * (1 / 2) := by
    unfold Tri3.surface P3.norm Tri3.orthogonal
    congr 2
    simp only [P3.cross, P3.sub_x, P3.sub_y, P3.sub_z]
    linear_combination ρ ^ 2 * (ρ' - ρ) ^ 2 * w2 + ρ ^ 2 * (z' - z) ^ 2 * d2
  rw [e]
  constructor
  · have : 2 * (ρ * (s * c) * l) ≤ Real.sqrt (4 * (ρ ^ 2 * s ^ 2 * ((ρ' - ρ) ^ 2 * c ^ 2 + (z' - z) ^ 2))) := by
      refine Real.le_sqrt_of_sq_le ?_
      have k : c ^ 2 * (z' - z) ^ 2 ≤ (z' - z) ^ 2 := mul_le_of_le_one_left (sq_nonneg _) (by nlinarith)
      have := mul_le_mul_of_nonneg_left k (show 0 ≤ 4 * (ρ ^ 2 * s ^ 2) by positivity)
      rw [show (2 * (ρ * (s * c) * l)) ^ 2 = 4 * (ρ ^ 2 * s ^ 2) * c ^ 2 * l ^ 2 by ring, hl]
      linarith
    linarith
  · have : Real.sqrt (4 * (ρ ^ 2 * s ^ 2 * ((ρ' - ρ) ^ 2 * c ^ 2 + (z' - z) ^ 2))) ≤ 2 * (ρ * s * l) := by
      refine Real.sqrt_le_iff.2 ⟨by positivity, ?_⟩
      have k : c ^ 2 * (ρ' - ρ) ^ 2 ≤ (ρ' - ρ) ^ 2 := mul_le_of_le_one_left (sq_nonneg _) (by nlinarith)
      have := mul_le_mul_of_nonneg_left k (show 0 ≤ 4 * (ρ ^ 2 * s ^ 2) by positivity)
      rw [show (2 * (ρ * s * l)) ^ 2 = 4 * (ρ ^ 2 * s ^ 2) * l ^ 2 by ring, hl]
      linarith
    linarith

/-- The area of the mesh of a turned surface, from below and above: a factor for the turn and one for the profile. -/
theorem turned_surface {S : Surface ℝ} {U V : Nat} {a b δ ρ z l : Nat → ℝ}
    (hs : ∀ i j : Nat, i ≤ U → j ≤ V → samplePos S U V (i, j) = ⟨ρ j * a i, ρ j * b i, z j⟩)
    (hu : a 0 = a U ∧ b 0 = b U) (hv : S.closedV = true → ρ 0 = ρ V ∧ z 0 = z V) (hρ : ∀ j ≤ V, 0 ≤ ρ j)
    (h1 : ∀ i, a i ^ 2 + b i ^ 2 = 1) (hδ : ∀ i < U, 0 ≤ δ i ∧ δ i ≤ π)
    (hcos : ∀ i, a i * a (i + 1) + b i * b (i + 1) = cos (δ i))
    (hl : ∀ j < V, 0 ≤ l j ∧ l j ^ 2 = (ρ (j + 1) - ρ j) ^ 2 + (z (j + 1) - z j) ^ 2) :
    (∑ i ∈ Finset.range U, sin (δ i)) / 2 * ∑ j ∈ Finset.range V, (ρ j + ρ (j + 1)) * l j ≤ ((surfaceSoup S U V).map Tri3.surface).sum ∧
      ((surfaceSoup S U V).map Tri3.surface).sum ≤
        (∑ i ∈ Finset.range U, sin (δ i / 2)) * ∑ j ∈ Finset.range V, (ρ j + ρ (j + 1)) * l j := by
  rw [sum_surfaceSoup (fun _ j hj => ?_) (fun h i hi => ?_), Finset.sum_comm, Finset.sum_div, Finset.sum_mul_sum, Finset.sum_mul_sum]
  · have cell : ∀ i < U, ∀ j < V,
        sin (δ i) / 2 * ((ρ j + ρ (j + 1)) * l j) ≤
          (⟨samplePos S U V (i, j), samplePos S U V ((i + 1 : Nat), j), samplePos S U V ((i + 1 : Nat), (j + 1 : Nat))⟩ : Tri3 ℝ).surface +
          (⟨samplePos S U V ((i + 1 : Nat), (j + 1 : Nat)), samplePos S U V (i, (j + 1 : Nat)), samplePos S U V (i, j)⟩ : Tri3 ℝ).surface ∧
          (⟨samplePos S U V (i, j), samplePos S U V ((i + 1 : Nat), j), samplePos S U V ((i + 1 : Nat), (j + 1 : Nat))⟩ : Tri3 ℝ).surface +
          (⟨samplePos S U V ((i + 1 : Nat), (j + 1 : Nat)), samplePos S U V (i, (j + 1 : Nat)), samplePos S U V (i, j)⟩ : Tri3 ℝ).surface ≤
        sin (δ i / 2) * ((ρ j + ρ (j + 1)) * l j) := by
      intro i hi j hj
      rw [hs i j hi.le hj.le, hs (i + 1) j hi hj.le, hs (i + 1) (j + 1) hi hj, hs i (j + 1) hi.le hj]
      obtain ⟨d0, d1⟩ := hδ i hi
      obtain ⟨l0, l2⟩ := hl j hj
      have p := pi_pos
      have s0 : 0 ≤ sin (δ i / 2) := sin_nonneg_of_nonneg_of_le_pi (by linarith) (by linarith)
      have c0 : 0 ≤ cos (δ i / 2) := cos_nonneg_of_neg_pi_div_two_le_of_le (by linarith) (by linarith)
      have sc := sin_sq_add_cos_sq (δ i / 2)
      have hc : cos (δ i) = 1 - 2 * sin (δ i / 2) ^ 2 := by
        have := cos_two_mul (δ i / 2)
        rw [mul_div_cancel₀ _ two_ne_zero] at this
        linarith
      have hsin : sin (δ i) = 2 * sin (δ i / 2) * cos (δ i / 2) := by
        rw [← sin_two_mul, mul_div_cancel₀ _ two_ne_zero]
      have C := hcos i
      rw [hc] at C
      obtain ⟨x1, y1⟩ := strip_area (z := z j) (z' := z (j + 1)) (h1 i) (h1 (i + 1)) C sc s0 c0 (hρ j hj.le) l0 l2
      obtain ⟨x2, y2⟩ := strip_area (z := z (j + 1)) (z' := z j) (ρ' := ρ j) (h1 (i + 1)) (h1 i)
        (by linarith : a (i + 1) * a i + b (i + 1) * b i = 1 - 2 * sin (δ i / 2) ^ 2) sc s0 c0 (hρ (j + 1) hj) l0 (by rw [l2]; ring)
      rw [hsin]
      constructor <;> linarith
    exact ⟨Finset.sum_le_sum fun i hi => Finset.sum_le_sum fun j hj => (cell i (Finset.mem_range.1 hi) j (Finset.mem_range.1 hj)).1,
      Finset.sum_le_sum fun i hi => Finset.sum_le_sum fun j hj => (cell i (Finset.mem_range.1 hi) j (Finset.mem_range.1 hj)).2⟩
  · have := hs 0 j (Nat.zero_le _) hj
    rw [Nat.cast_zero] at this
    rw [this, hs U j le_rfl hj, hu.1, hu.2]
  · have := hs i 0 hi (Nat.zero_le _)
    rw [Nat.cast_zero] at this
    rw [this, hs i V hi le_rfl, (hv h).1, (hv h).2]

theorem half_sin (x y : ℝ) : (sin x + sin y) * sin ((y - x) / 2) = cos ((y - x) / 2) * (cos x - cos y) := by
  obtain ⟨m, h, rfl, rfl⟩ : ∃ m h : ℝ, x = m - h ∧ y = m + h := ⟨(x + y) / 2, (y - x) / 2, by ring, by ring⟩
  rw [show (m + h - (m - h)) / 2 = h by ring, sin_sub, sin_add, cos_sub, cos_add]
  ring

theorem half_cos (x y : ℝ) : (cos x + cos y) * sin ((y - x) / 2) = cos ((y - x) / 2) * (sin y - sin x) := by
  obtain ⟨m, h, rfl, rfl⟩ : ∃ m h : ℝ, x = m - h ∧ y = m + h := ⟨(x + y) / 2, (y - x) / 2, by ring, by ring⟩
  rw [show (m + h - (m - h)) / 2 = h by ring, sin_sub, sin_add, cos_sub, cos_add]
  ring

theorem chord_sq (x y : ℝ) : (2 * sin ((y - x) / 2)) ^ 2 = (sin y - sin x) ^ 2 + (cos y - cos x) ^ 2 := by
  have a := cos_two_mul ((y - x) / 2)
  rw [mul_div_cancel₀ _ two_ne_zero, cos_sub] at a
  have b := sin_sq_add_cos_sq ((y - x) / 2)
  have u := sin_sq_add_cos_sq x
  have v := sin_sq_add_cos_sq y
  linear_combination 4 * b - u - v + 2 * a

/-- sines of half the steps -/
theorem sum_sin_half {n : Nat} {t : Nat → ℝ} {d : ℝ} (h : ∀ i < n, 0 ≤ t (i + 1) - t i ∧ t (i + 1) - t i ≤ d) :
    (t n - t 0) / 2 * (1 - d ^ 2 / 24) ≤ ∑ i ∈ Finset.range n, sin ((t (i + 1) - t i) / 2) ∧
      ∑ i ∈ Finset.range n, sin ((t (i + 1) - t i) / 2) ≤ (t n - t 0) / 2 := by
  obtain ⟨a, b⟩ := sum_sin (n := n) (t := fun i => t i / 2) (d := d / 2) (fun i hi => by
    obtain ⟨x, y⟩ := h i hi
    constructor <;> linarith)
  simp only [← sub_div] at a b
  refine ⟨le_trans (le_of_eq ?_) a, b⟩
  ring

/-- the sum over the profile of the sphere -/
theorem sum_profile_half {n : Nat} {t : Nat → ℝ} {d : ℝ} (h0 : t 0 = 0) (hn : t n = π) (hr : ∀ i ≤ n, 0 ≤ t i ∧ t i ≤ π)
    (h : ∀ i < n, 0 ≤ t (i + 1) - t i ∧ t (i + 1) - t i ≤ d) :
    2 * (1 - d ^ 2 / 8) ≤ ∑ i ∈ Finset.range n, (sin (t i) + sin (t (i + 1))) * sin ((t (i + 1) - t i) / 2) ∧
      ∑ i ∈ Finset.range n, (sin (t i) + sin (t (i + 1))) * sin ((t (i + 1) - t i) / 2) ≤ 2 := by
  have tel : ∑ i ∈ Finset.range n, (cos (t i) - cos (t (i + 1))) = 2 := by
    rw [Finset.sum_range_sub' (fun i => cos (t i)), h0, hn]
    simp
    norm_num
  have pos : ∀ i < n, 0 ≤ cos (t i) - cos (t (i + 1)) := fun i hi => by
    have := cos_le_cos_of_nonneg_of_le_pi (hr i hi.le).1 (hr (i + 1) hi).2 (by linarith [(h i hi).1])
    linarith
  simp only [half_sin]
  constructor
  · have e4 : 2 * (1 - d ^ 2 / 8) = ∑ i ∈ Finset.range n, (1 - d ^ 2 / 8) * (cos (t i) - cos (t (i + 1))) := by
      rw [← Finset.mul_sum, tel]
      ring
    rw [e4]
    refine Finset.sum_le_sum fun i hi => ?_
    have hi := Finset.mem_range.1 hi
    obtain ⟨a, b⟩ := h i hi
    have c := one_sub_sq_div_two_le_cos (x := (t (i + 1) - t i) / 2)
    have : (t (i + 1) - t i) ^ 2 ≤ d ^ 2 := pow_le_pow_left₀ a b 2
    exact mul_le_mul_of_nonneg_right (by linarith) (pos i hi)
  · have e4 : (2 : ℝ) = ∑ i ∈ Finset.range n, 1 * (cos (t i) - cos (t (i + 1))) := by
      rw [← Finset.mul_sum, tel, one_mul]
    refine le_trans ?_ e4.ge
    refine Finset.sum_le_sum fun i hi => ?_
    exact mul_le_mul_of_nonneg_right (cos_le_one _) (pos i (Finset.mem_range.1 hi))

/-- the sum over the circle of the torus -/
theorem sum_circle_half {n : Nat} {t : Nat → ℝ} {d : ℝ} (h0 : t 0 = 0) (hn : t n = 2 * π)
    (h : ∀ i < n, 0 ≤ t (i + 1) - t i ∧ t (i + 1) - t i ≤ d) :
    |∑ i ∈ Finset.range n, (cos (t i) + cos (t (i + 1))) * sin ((t (i + 1) - t i) / 2)| ≤ π * d ^ 2 / 4 := by
  have tel : ∑ i ∈ Finset.range n, (sin (t (i + 1)) - sin (t i)) = 0 := by
    rw [Finset.sum_range_sub (fun i => sin (t i)), h0, hn]
    simp
  have key : ∀ i, (cos (t i) + cos (t (i + 1))) * sin ((t (i + 1) - t i) / 2) =
      (sin (t (i + 1)) - sin (t i)) - (1 - cos ((t (i + 1) - t i) / 2)) * (sin (t (i + 1)) - sin (t i)) := fun i => by
    rw [half_cos]
    ring
  simp only [key]
  rw [Finset.sum_sub_distrib, tel, zero_sub, abs_neg]
  refine (Finset.abs_sum_le_sum_abs _ _).trans ?_
  have : π * d ^ 2 / 4 = ∑ i ∈ Finset.range n, d ^ 2 / 8 * (t (i + 1) - t i) := by
    rw [← Finset.mul_sum, Finset.sum_range_sub, h0, hn]
    ring
  rw [this]
  refine Finset.sum_le_sum fun i hi => ?_
  obtain ⟨a, b⟩ := h i (Finset.mem_range.1 hi)
  have c := one_sub_sq_div_two_le_cos (x := (t (i + 1) - t i) / 2)
  have e : (t (i + 1) - t i) ^ 2 ≤ d ^ 2 := pow_le_pow_left₀ a b 2
  rw [abs_mul, abs_of_nonneg (by linarith [cos_le_one ((t (i + 1) - t i) / 2)])]
  refine mul_le_mul (by linarith) ?_ (abs_nonneg _) (by positivity)
  rw [show sin (t (i + 1)) - sin (t i) = 2 * sin ((t (i + 1) - t i) / 2) * cos ((t (i + 1) + t i) / 2) from sin_sub_sin _ _]
  rw [abs_mul, abs_mul]
  have f := abs_sin_le_abs (x := (t (i + 1) - t i) / 2)
  have g := abs_cos_le_one ((t (i + 1) + t i) / 2)
  rw [abs_of_nonneg (show 0 ≤ (t (i + 1) - t i) / 2 by linarith)] at f
  rw [abs_two]
  have := mul_le_mul f g (abs_nonneg _) (by linarith)
  linarith

/-- what the turn contributes -/
theorem turn_facts {k : Nat} (hk : 0 < k) :
    (∀ i < k * 9, 0 ≤ ang ((i + 1 : Nat) / (k * 9 : Nat)) - ang (i / (k * 9 : Nat)) ∧
      ang ((i + 1 : Nat) / (k * 9 : Nat)) - ang (i / (k * 9 : Nat)) ≤ π) ∧
    π * (1 - 1 / (12 * k ^ 2)) ≤ ∑ i ∈ Finset.range (k * 9), sin ((ang ((i + 1 : Nat) / (k * 9 : Nat)) - ang (i / (k * 9 : Nat))) / 2) ∧
    ∑ i ∈ Finset.range (k * 9), sin ((ang ((i + 1 : Nat) / (k * 9 : Nat)) - ang (i / (k * 9 : Nat))) / 2) ≤ π := by
  have U0 : 0 < k * 9 := by omega
  have U1 : (0 : ℝ) < (k * 9 : Nat) := by exact_mod_cast U0
  have k0 : (0 : ℝ) < k := by exact_mod_cast hk
  obtain ⟨a, b⟩ := sum_sin_half (n := k * 9) (t := fun i : Nat => ang ((i : ℝ) / (k * 9 : Nat))) (d := 4 * π / (k * 9 : Nat)) (turn_steps U0)
  simp only [Nat.cast_zero, zero_div, div_self U1.ne', ang_ends.1, ang_ends.2.2, sub_zero] at a b
  rw [mul_div_cancel_left₀ _ two_ne_zero] at a b
  refine ⟨fun i hi => ?_, le_trans (mul_le_mul_of_nonneg_left ?_ pi_pos.le) a, b⟩
  · obtain ⟨x, y⟩ := turn_steps U0 i hi
    refine ⟨x, y.trans ?_⟩
    rw [div_le_iff₀ U1]
    have : (4 : ℝ) ≤ (k * 9 : Nat) := by exact_mod_cast (show 4 ≤ k * 9 by omega)
    nlinarith [pi_pos]
  · have : (4 * π / (k * 9 : Nat)) ^ 2 / 24 ≤ 1 / (12 * (k : ℝ) ^ 2) := by
      push_cast
      rw [div_pow, div_div, div_le_div_iff₀ (by positivity) (by positivity)]
      have p2 : π ^ 2 ≤ 3.15 ^ 2 := pow_le_pow_left₀ pi_pos.le pi_lt_d2.le 2
      have := mul_le_mul_of_nonneg_right p2 (sq_nonneg (k : ℝ))
      nlinarith [sq_nonneg (k : ℝ)]
    linarith

/-- **C135** sphere.  The mesh of the NURBS sphere has at most the area of the sphere and, with `k` segments for each
control point, at least `(1 - 1 / (3 k²)) (1 - 1 / (5 k²))` of it. -/
theorem sphere_area {r tol : ℝ} (ht : 0 ≤ tol) (r0 : 0 < r) (htr : tol ≤ 2 * r) {k : Nat} (hk : 0 < k) (m : Mesh ℝ) :
    ∃ B M A, createSphereSolid tol (Real.sqrt 2) r = some B ∧ toMeshSolid B m k = some M ∧ Measure.surface M = some A ∧
      (1 - 1 / (3 * k ^ 2)) * (1 - 1 / (5 * k ^ 2)) * (4 * π * r ^ 2) ≤ A ∧ A ≤ 4 * π * r ^ 2 := by
  obtain ⟨S, M, eB, e', hok, hT', hcv, hs⟩ := sphere_samples ht r0 htr hk m
  have U0 : 0 < k * 9 := by omega
  have V0 : 0 < k * 5 := by omega
  have k0 : (0 : ℝ) < k := by exact_mod_cast hk
  have U1 : (0 : ℝ) < (k * 9 : Nat) := by exact_mod_cast U0
  have V1 : (0 : ℝ) < (k * 5 : Nat) := by exact_mod_cast V0
  set θ : Nat → ℝ := fun i => ang ((i : ℝ) / (k * 9 : Nat)) with hθ
  set φ : Nat → ℝ := fun j => ang ((j : ℝ) / (k * 5 : Nat) / 2) with hφ
  have θ0 : θ 0 = 0 := by simp [hθ, ang_ends.1]
  have θ1 : θ (k * 9) = 2 * π := by simp only [hθ]; rw [div_self U1.ne', ang_ends.2.2]
  have φ0 : φ 0 = 0 := by simp [hφ, ang_ends.1]
  have φ1 : φ (k * 5) = π := by simp only [hφ]; rw [div_self V1.ne', ang_ends.2.1]
  have φr : ∀ j ≤ k * 5, 0 ≤ φ j ∧ φ j ≤ π := fun j hj => by
    obtain ⟨b0, b1⟩ := frac_mem (K := ℝ) hj V0
    have a := (ang_step (u := 0) (v := (j : ℝ) / (k * 5 : Nat) / 2) le_rfl (by linarith) (by linarith)).1
    have b := (ang_step (u := (j : ℝ) / (k * 5 : Nat) / 2) (v := 1 / 2) (by linarith) (by linarith) (by norm_num)).1
    rw [ang_ends.1] at a
    rw [ang_ends.2.1] at b
    exact ⟨a, b⟩
  have p := pi_pos
  obtain ⟨f1, -, f2⟩ := turn_facts hk
  obtain ⟨w1, w2⟩ := turn_area hk
  obtain ⟨lo, hi⟩ := turned_surface (S := S) (U := k * 9) (V := k * 5) (a := fun i => sin (θ i)) (b := fun i => -cos (θ i))
    (δ := fun i => θ (i + 1) - θ i) (ρ := fun j => r * sin (φ j)) (z := fun j => -(r * cos (φ j)))
    (l := fun j => 2 * r * sin ((φ (j + 1) - φ j) / 2)) hs (by simp [θ0, θ1]) (fun h => absurd h (by rw [hcv]; simp))
    (fun j hj => mul_nonneg r0.le (sin_nonneg_of_nonneg_of_le_pi (φr j hj).1 (φr j hj).2))
    (fun i => by simp only [neg_sq]; exact sin_sq_add_cos_sq _) f1 (fun i => by simp only [cos_sub]; ring)
    (fun j hj => ⟨mul_nonneg (by positivity) (sin_nonneg_of_nonneg_of_le_pi (by linarith [(half_steps V0 j hj).1])
      (by linarith [(φr (j + 1) hj).2, (φr j hj.le).1])), by
        have := chord_sq (φ j) (φ (j + 1))
        linear_combination r ^ 2 * this⟩)
  obtain ⟨z1, z2⟩ := sum_profile_half (n := k * 5) (t := φ) (d := 2 * π / (k * 5 : Nat)) φ0 φ1 φr (half_steps V0)
  have c : ∀ j, (r * sin (φ j) + r * sin (φ (j + 1))) * (2 * r * sin ((φ (j + 1) - φ j) / 2)) =
      2 * r ^ 2 * ((sin (φ j) + sin (φ (j + 1))) * sin ((φ (j + 1) - φ j) / 2)) := fun j => by ring
  simp only [c, ← Finset.mul_sum] at lo hi
  have d2 : (2 * π / (k * 5 : Nat)) ^ 2 / 8 ≤ 1 / (5 * (k : ℝ) ^ 2) := by
    push_cast
    rw [div_pow, div_div, div_le_div_iff₀ (by positivity) (by positivity)]
    have p2 : π ^ 2 ≤ 3.15 ^ 2 := pow_le_pow_left₀ pi_pos.le pi_lt_d2.le 2
    have := mul_le_mul_of_nonneg_right p2 (sq_nonneg (k : ℝ))
    nlinarith [sq_nonneg (k : ℝ)]
  have kk : 1 / (k : ℝ) ^ 2 ≤ 1 := by
    rw [div_le_one (by positivity)]
    exact one_le_pow₀ (by exact_mod_cast hk)
  have g3 : 1 / (3 * (k : ℝ) ^ 2) = 1 / 3 * (1 / k ^ 2) := by ring
  have g5 : 1 / (5 * (k : ℝ) ^ 2) = 1 / 5 * (1 / k ^ 2) := by ring
  have g1 : 0 ≤ 2 * π * (1 - 1 / (3 * (k : ℝ) ^ 2)) := mul_nonneg (by positivity) (by rw [g3]; linarith)
  have g2 : 0 ≤ 2 * (1 - 1 / (5 * (k : ℝ) ^ 2)) := by rw [g5]; linarith
  have hA := surface_is_sum M hok
  rw [hT'] at hA
  change _ ≤ ∑ i ∈ Finset.range (k * 9), sin (θ (i + 1) - θ i) at w1
  change ∑ i ∈ Finset.range (k * 9), sin ((θ (i + 1) - θ i) / 2) ≤ _ at f2
  generalize ∑ i ∈ Finset.range (k * 9), sin (θ (i + 1) - θ i) = W at *
  generalize ∑ i ∈ Finset.range (k * 9), sin ((θ (i + 1) - θ i) / 2) = H at *
  generalize ∑ i ∈ Finset.range (k * 5), (sin (φ i) + sin (φ (i + 1))) * sin ((φ (i + 1) - φ i) / 2) = Z at *
  have z1' : 2 * (1 - 1 / (5 * (k : ℝ) ^ 2)) ≤ Z := le_trans (by linarith) z1
  have r3 : 0 < r ^ 2 := by positivity
  have lo' := mul_le_mul_of_nonneg_right (mul_le_mul w1 z1' g2 (g1.trans w1)) r3.le
  have hi' := mul_le_mul_of_nonneg_right (mul_le_mul f2 z2 (g2.trans z1') p.le) r3.le
  exact ⟨_, M, _, eB, e', hA, by linarith, by linarith⟩

/-- **C135** torus.  The area of the mesh of the NURBS torus tends to `4 π² major minor`. -/
theorem torus_area {major minor : ℝ} (tol : ℝ) (m0 : 0 < minor) (hM : minor ≤ major) {k : Nat} (hk : 0 < k) (m : Mesh ℝ) :
    ∃ B M A, createTorusSolid tol (Real.sqrt 2) major minor = some B ∧ toMeshSolid B m k = some M ∧ Measure.surface M = some A ∧
      (1 - 1 / (3 * k ^ 2)) ^ 2 * (4 * π ^ 2 * major * minor) ≤ A ∧ A ≤ (1 + 1 / (4 * k ^ 2)) * (4 * π ^ 2 * major * minor) := by
  obtain ⟨S, M, eB, e', hok, hT', hs⟩ := torus_samples (major := major) (minor := minor) tol hk m
  have U0 : 0 < k * 9 := by omega
  have k0 : (0 : ℝ) < k := by exact_mod_cast hk
  have U1 : (0 : ℝ) < (k * 9 : Nat) := by exact_mod_cast U0
  set θ : Nat → ℝ := fun i => ang ((i : ℝ) / (k * 9 : Nat)) with hθ
  have θ0 : θ 0 = 0 := by simp [hθ, ang_ends.1]
  have θ1 : θ (k * 9) = 2 * π := by simp only [hθ]; rw [div_self U1.ne', ang_ends.2.2]
  have p := pi_pos
  have M0 : 0 < major := m0.trans_le hM
  obtain ⟨f1, f3, f2⟩ := turn_facts hk
  obtain ⟨w1, w2⟩ := turn_area hk
  obtain ⟨lo, hi⟩ := turned_surface (S := S) (U := k * 9) (V := k * 9) (a := fun i => cos (θ i)) (b := fun i => sin (θ i))
    (δ := fun i => θ (i + 1) - θ i) (ρ := fun j => minor * cos (θ j) + major) (z := fun j => minor * sin (θ j))
    (l := fun j => 2 * minor * sin ((θ (j + 1) - θ j) / 2)) hs (by simp [θ0, θ1]) (fun _ => by simp [θ0, θ1])
    (fun j hj => by nlinarith [neg_one_le_cos (θ j)])
    (fun i => cos_sq_add_sin_sq _) f1 (fun i => by simp only [cos_sub]; ring)
    (fun j hj => ⟨mul_nonneg (by positivity) (sin_nonneg_of_nonneg_of_le_pi (div_nonneg (f1 j hj).1 two_pos.le)
      ((div_le_self (f1 j hj).1 one_le_two).trans (f1 j hj).2)), by
        have := chord_sq (θ j) (θ (j + 1))
        linear_combination minor ^ 2 * this⟩)
  have z := sum_circle_half (n := k * 9) (t := θ) (d := 4 * π / (k * 9 : Nat)) θ0 θ1 (turn_steps U0)
  have c : ∀ j, (minor * cos (θ j) + major + (minor * cos (θ (j + 1)) + major)) * (2 * minor * sin ((θ (j + 1) - θ j) / 2)) =
      4 * major * minor * sin ((θ (j + 1) - θ j) / 2) + 2 * minor ^ 2 * ((cos (θ j) + cos (θ (j + 1))) * sin ((θ (j + 1) - θ j) / 2)) :=
    fun j => by ring
  simp only [c, Finset.sum_add_distrib, ← Finset.mul_sum] at lo hi
  have d2 : π * (4 * π / (k * 9 : Nat)) ^ 2 / 4 ≤ π / 2 * (1 / (k : ℝ) ^ 2) := by
    have : (4 * π / (k * 9 : Nat)) ^ 2 ≤ 2 / (k : ℝ) ^ 2 := by
      push_cast
      rw [div_pow, div_le_div_iff₀ (by positivity) (by positivity)]
      have p2 : π ^ 2 ≤ 3.15 ^ 2 := pow_le_pow_left₀ pi_pos.le pi_lt_d2.le 2
      have := mul_le_mul_of_nonneg_right p2 (sq_nonneg (k : ℝ))
      nlinarith [sq_nonneg (k : ℝ)]
    refine (div_le_div_of_nonneg_right (mul_le_mul_of_nonneg_left this p.le) (by norm_num)).trans (le_of_eq ?_)
    ring
  have kk : 1 / (k : ℝ) ^ 2 ≤ 1 := by
    rw [div_le_one (by positivity)]
    exact one_le_pow₀ (by exact_mod_cast hk)
  have kk0 : 0 < 1 / (k : ℝ) ^ 2 := by positivity
  have hA := surface_is_sum M hok
  rw [hT'] at hA
  change _ ≤ ∑ i ∈ Finset.range (k * 9), sin (θ (i + 1) - θ i) at w1
  change ∑ i ∈ Finset.range (k * 9), sin ((θ (i + 1) - θ i) / 2) ≤ _ at f2
  change _ ≤ ∑ i ∈ Finset.range (k * 9), sin ((θ (i + 1) - θ i) / 2) at f3
  obtain ⟨z1, z2⟩ := abs_le.1 (z.trans d2)
  rw [show 1 / (3 * (k : ℝ) ^ 2) = 1 / 3 * (1 / k ^ 2) by ring] at w1 ⊢
  rw [show 1 / (12 * (k : ℝ) ^ 2) = 1 / 12 * (1 / k ^ 2) by ring] at f3
  rw [show 1 / (4 * (k : ℝ) ^ 2) = 1 / 4 * (1 / k ^ 2) by ring]
  clear z d2 c hs f1 hT'
  generalize ∑ i ∈ Finset.range (k * 9), sin (θ (i + 1) - θ i) = W at *
  generalize ∑ i ∈ Finset.range (k * 9), sin ((θ (i + 1) - θ i) / 2) = H at *
  generalize ∑ i ∈ Finset.range (k * 9), (cos (θ i) + cos (θ (i + 1))) * sin ((θ (i + 1) - θ i) / 2) = Z at *
  generalize 1 / (k : ℝ) ^ 2 = q at *
  have A0 : 0 < major * minor := by positivity
  have m2 : minor ^ 2 ≤ major * minor := by nlinarith
  have zz : |minor ^ 2 * Z| ≤ major * minor * (π / 2 * q) := by
    rw [abs_mul, abs_of_pos (by positivity : 0 < minor ^ 2)]
    exact mul_le_mul m2 (abs_le.2 ⟨z1, z2⟩) (abs_nonneg _) A0.le
  obtain ⟨y1, y2⟩ := abs_le.1 zz
  rw [mul_assoc 2 (minor ^ 2) Z] at lo hi
  generalize minor ^ 2 * Z = Y at *
  have plo : 4 * π * (major * minor) * (1 - 1 / 3 * q) ≤ 4 * major * minor * H + 2 * Y := by
    have := mul_le_mul_of_nonneg_left f3 A0.le
    linarith
  have phi : 4 * major * minor * H + 2 * Y ≤ 4 * π * (major * minor) * (1 + 1 / 4 * q) := by
    have := mul_le_mul_of_nonneg_left f2 A0.le
    linarith
  have g1 : 0 ≤ 2 * π * (1 - 1 / 3 * q) := mul_nonneg (by positivity) (by linarith)
  have g2 : 0 ≤ 4 * π * (major * minor) * (1 - 1 / 3 * q) := mul_nonneg (by positivity) (by linarith)
  have a := mul_le_mul w1 plo g2 (g1.trans w1)
  have b := mul_le_mul f2 phi (g2.trans plo) p.le
  exact ⟨_, M, _, eB, e', hA, by linarith, by linarith⟩

/-- **C135** cylinder.  The mesh of the NURBS cylinder has at most the area `2 π r² + 2 π r h` and at least
`1 - 1 / (3 k²)` of it. -/
theorem cylinder_area {r h tol : ℝ} (ht : 0 < tol) (htr : tol ≤ r) (hth : tol ≤ h) {k : Nat} (hk : 0 < k) (m : Mesh ℝ) :
    ∃ B M A, createCylinder tol (Real.sqrt 2) r h = some B ∧ toMeshSolid B m k = some M ∧ Measure.surface M = some A ∧
      (1 - 1 / (3 * k ^ 2)) * (2 * π * r * (r + h)) ≤ A ∧ A ≤ 2 * π * r * (r + h) := by
  have r0 := ht.trans_le htr
  have h0 := ht.trans_le hth
  obtain ⟨S1, S2, S3, M, eB, e', hok, hT', c1, c2, c3, hs1, hs2, hs3⟩ := cylinder_samples ht htr hth hk m
  have U0 : 0 < k * 9 := by omega
  have V0 : 0 < k * 2 := by omega
  have k0 : (0 : ℝ) < k := by exact_mod_cast hk
  have U1 : (0 : ℝ) < (k * 9 : Nat) := by exact_mod_cast U0
  have V1 : (0 : ℝ) < (k * 2 : Nat) := by exact_mod_cast V0
  set θ : Nat → ℝ := fun i => ang ((i : ℝ) / (k * 9 : Nat)) with hθ
  have θ0 : θ 0 = 0 := by simp [hθ, ang_ends.1]
  have θ1 : θ (k * 9) = 2 * π := by simp only [hθ]; rw [div_self U1.ne', ang_ends.2.2]
  set ν : Nat → ℝ := fun j => (j : ℝ) / (k * 2 : Nat) with hν
  have ν0 : ν 0 = 0 := by simp [hν]
  have ν1 : ν (k * 2) = 1 := by simp only [hν]; rw [div_self V1.ne']
  have νn : ∀ j, 0 ≤ ν j := fun j => by simp only [hν]; positivity
  have νd : ∀ j, 0 ≤ ν (j + 1) - ν j := fun j => by
    have : ν (j + 1) - ν j = 1 / (k * 2 : Nat) := by simp only [hν]; push_cast; ring
    rw [this]
    positivity
  obtain ⟨f1, -, f2⟩ := turn_facts hk
  obtain ⟨w1, -⟩ := turn_area hk
  obtain ⟨lo1, hi1⟩ := turned_surface (S := S1) (U := k * 9) (V := k * 2) (a := fun i => cos (θ i)) (b := fun i => sin (θ i))
    (δ := fun i => θ (i + 1) - θ i) (ρ := fun j => r * ν j) (z := fun _ => -(h / 2)) (l := fun j => r * (ν (j + 1) - ν j)) hs1
    (by simp [θ0, θ1]) (fun h => absurd h (by rw [c1]; simp)) (fun j _ => mul_nonneg r0.le (νn j))
    (fun i => cos_sq_add_sin_sq _) f1 (fun i => by simp only [cos_sub]; ring) (fun j _ => ⟨mul_nonneg r0.le (νd j), by ring⟩)
  obtain ⟨lo2, hi2⟩ := turned_surface (S := S2) (U := k * 9) (V := k * 2) (a := fun i => cos (θ i)) (b := fun i => sin (θ i))
    (δ := fun i => θ (i + 1) - θ i) (ρ := fun _ => r) (z := fun j => h * ν j - h / 2) (l := fun j => h * (ν (j + 1) - ν j)) hs2
    (by simp [θ0, θ1]) (fun h => absurd h (by rw [c2]; simp)) (fun _ _ => r0.le)
    (fun i => cos_sq_add_sin_sq _) f1 (fun i => by simp only [cos_sub]; ring) (fun j _ => ⟨mul_nonneg h0.le (νd j), by ring⟩)
  obtain ⟨lo3, hi3⟩ := turned_surface (S := S3) (U := k * 9) (V := k * 2) (a := fun i => cos (θ i)) (b := fun i => -sin (θ i))
    (δ := fun i => θ (i + 1) - θ i) (ρ := fun j => r * ν j) (z := fun _ => h / 2) (l := fun j => r * (ν (j + 1) - ν j)) hs3
    (by simp [θ0, θ1]) (fun h => absurd h (by rw [c3]; simp)) (fun j _ => mul_nonneg r0.le (νn j))
    (fun i => by simp only [neg_sq]; exact cos_sq_add_sin_sq _) f1 (fun i => by simp only [cos_sub]; ring)
    (fun j _ => ⟨mul_nonneg r0.le (νd j), by ring⟩)
  have q1 : ∀ j, (r * ν j + r * ν (j + 1)) * (r * (ν (j + 1) - ν j)) = r ^ 2 * (ν (j + 1) ^ 2 - ν j ^ 2) := fun j => by ring
  have q2 : ∀ j, (r + r) * (h * (ν (j + 1) - ν j)) = 2 * r * h * (ν (j + 1) - ν j) := fun j => by ring
  simp only [q1, q2, ← Finset.mul_sum, Finset.sum_range_sub ν, Finset.sum_range_sub (fun j => ν j ^ 2), ν0, ν1] at lo1 lo2 lo3 hi1 hi2 hi3
  have hA := surface_is_sum M hok
  rw [hT', List.map_append, List.map_append, List.sum_append, List.sum_append] at hA
  change _ ≤ ∑ i ∈ Finset.range (k * 9), sin (θ (i + 1) - θ i) at w1
  change ∑ i ∈ Finset.range (k * 9), sin ((θ (i + 1) - θ i) / 2) ≤ _ at f2
  generalize ∑ i ∈ Finset.range (k * 9), sin (θ (i + 1) - θ i) = W at *
  generalize ∑ i ∈ Finset.range (k * 9), sin ((θ (i + 1) - θ i) / 2) = H at *
  have A0 : 0 < r * (r + h) := by positivity
  have a := mul_le_mul_of_nonneg_right w1 A0.le
  have b := mul_le_mul_of_nonneg_right f2 A0.le
  exact ⟨_, M, _, eB, e', hA, by linarith, by linarith⟩

/-! ### in `double` -/

/-- the rounding error of the measured area for `c k²` triangles -/
theorem area_noise {c E R : ℝ} {k : Nat} (hk : 0 < k) (c0 : 0 ≤ c) (h : 5 * (c + 860) * c * 1.002002 * 2 ^ (-53 : ℤ) ≤ E) :
    5 * (c * k ^ 2 + 860) * (c * k ^ 2) * (1.001 * R) ^ 2 * 2 ^ (-53 : ℤ) ≤ E * k ^ 4 * R ^ 2 := by
  have k1 : (1 : ℝ) ≤ (k : ℝ) ^ 2 := one_le_pow₀ (by exact_mod_cast hk)
  have u0 : (0 : ℝ) < 2 ^ (-53 : ℤ) := by positivity
  generalize (2 : ℝ) ^ (-53 : ℤ) = u at *
  have a : 5 * (c * (k : ℝ) ^ 2 + 860) ≤ 5 * (c + 860) * k ^ 2 := by nlinarith
  have b : 5 * (c * (k : ℝ) ^ 2 + 860) * (c * k ^ 2) ≤ 5 * (c + 860) * k ^ 2 * (c * k ^ 2) := mul_le_mul_of_nonneg_right a (by positivity)
  have d : (1.001 * R) ^ 2 ≤ 1.002002 * R ^ 2 := by
    rw [mul_pow]
    exact mul_le_mul_of_nonneg_right (by norm_num) (by positivity)
  have e := mul_le_mul_of_nonneg_right (mul_le_mul b d (by positivity) (by positivity)) u0.le
  have f := mul_le_mul_of_nonneg_right h (show 0 ≤ (k : ℝ) ^ 4 * R ^ 2 by positivity)
  refine e.trans (le_trans (le_of_eq ?_) (f.trans (le_of_eq ?_))) <;> ring

/-- **C135** sphere in `double`. -/
theorem sphere_area_double {r tol : ℝ} (hr : 1 ≤ r) (hr' : r ≤ 2 ^ 199) (ht : 2 ^ (-400 : ℤ) ≤ tol) (htr : tol ≤ r) {k : Nat} (hk : 0 < k)
    (hk' : k ≤ 2 ^ 16) (m : Mesh ℝ) :
    ∃ B M T, createSphereSolidRounded double tol r = some B ∧ toMeshSolidRounded double B m k = some M ∧ Rounded.surface double M = some T ∧
      |T - 4 * π * r ^ 2| ≤ 8 / (15 * k ^ 2) * (4 * π * r ^ 2) + 5 / 10 ^ 11 * k ^ 4 * r ^ 2 := by
  have r0 : 0 < r := by linarith
  obtain ⟨B, B', M, M', e, e', f, f', -, -, -, -, -, g⟩ := sphere_mesh_double (range_one hr) (range_199 hr') ht htr hk m m
  obtain ⟨V, W, S, T, -, -, hS, hT, -, d, -⟩ := g hr hr' hk'
  obtain ⟨B1, M1, A, e1, f1, hA, lo, hi⟩ := sphere_area (small_off ht).le r0 (by linarith) hk m
  obtain rfl : B = B1 := Option.some_inj.1 (e.symm.trans e1)
  obtain rfl : M = M1 := Option.some_inj.1 (f.symm.trans f1)
  obtain rfl : S = A := Option.some_inj.1 (hS.symm.trans hA)
  have n := area_noise (c := 90) (E := 5 / 10 ^ 11) (R := r) hk (by norm_num) (by norm_num)
  have kk0 : 0 < 1 / (k : ℝ) ^ 2 := by have : (0 : ℝ) < k := by exact_mod_cast hk
                                       positivity
  rw [show 1 / (3 * (k : ℝ) ^ 2) = 1 / 3 * (1 / k ^ 2) by ring, show 1 / (5 * (k : ℝ) ^ 2) = 1 / 5 * (1 / k ^ 2) by ring] at lo
  rw [show 8 / (15 * (k : ℝ) ^ 2) = 8 / 15 * (1 / k ^ 2) by ring]
  generalize 1 / (k : ℝ) ^ 2 = q at *
  have X1 : 0 < 4 * π * r ^ 2 := by positivity
  generalize 4 * π * r ^ 2 = X at *
  have lo1 : (1 - 8 / 15 * q) * X ≤ S := le_trans (mul_le_mul_of_nonneg_right (by nlinarith [sq_nonneg q]) X1.le) lo
  refine ⟨B', M', T, e', f', hT, ?_⟩
  obtain ⟨d1, d2⟩ := abs_le.1 (d.trans n)
  have : 0 < q * X := by positivity
  rw [abs_le]
  constructor <;> linarith

/-- **C135** torus in `double`. -/
theorem torus_area_double {major minor tol : ℝ} (hm : 2 ^ (-400 : ℤ) ≤ minor) (hM : minor ≤ major) (h1 : 1 ≤ major + minor)
    (hM' : major + minor ≤ 2 ^ 199) (ht : 2 ^ (-400 : ℤ) ≤ tol) {k : Nat} (hk : 0 < k) (hk' : k ≤ 2 ^ 16) (m : Mesh ℝ) :
    ∃ B M T, createTorusSolidRounded double tol major minor = some B ∧ toMeshSolidRounded double B m k = some M ∧
      Rounded.surface double M = some T ∧
      |T - 4 * π ^ 2 * major * minor| ≤ 2 / (3 * k ^ 2) * (4 * π ^ 2 * major * minor) + 1 / 10 ^ 10 * k ^ 4 * (major + minor) ^ 2 := by
  have m0 := small_off hm
  have M0 : 0 < major := m0.trans_le hM
  obtain ⟨B, B', M, M', e, e', f, f', -, -, -, -, -, g⟩ := torus_mesh_double hm M0.le (range_199 hM') ht hk m m
  obtain ⟨V, W, S, T, -, -, hS, hT, -, d, -⟩ := g h1 hM' hk'
  obtain ⟨B1, M1, A, e1, f1, hA, lo, hi⟩ := torus_area tol m0 hM hk m
  obtain rfl : B = B1 := Option.some_inj.1 (e.symm.trans e1)
  obtain rfl : M = M1 := Option.some_inj.1 (f.symm.trans f1)
  obtain rfl : S = A := Option.some_inj.1 (hS.symm.trans hA)
  have n := area_noise (c := 162) (E := 1 / 10 ^ 10) (R := major + minor) hk (by norm_num) (by norm_num)
  have kk0 : 0 < 1 / (k : ℝ) ^ 2 := by have : (0 : ℝ) < k := by exact_mod_cast hk
                                       positivity
  rw [show 1 / (3 * (k : ℝ) ^ 2) = 1 / 3 * (1 / k ^ 2) by ring] at lo
  rw [show 1 / (4 * (k : ℝ) ^ 2) = 1 / 4 * (1 / k ^ 2) by ring] at hi
  rw [show 2 / (3 * (k : ℝ) ^ 2) = 2 / 3 * (1 / k ^ 2) by ring]
  generalize 1 / (k : ℝ) ^ 2 = q at *
  have X1 : 0 < 4 * π ^ 2 * major * minor := by positivity
  generalize 4 * π ^ 2 * major * minor = X at *
  have lo1 : (1 - 2 / 3 * q) * X ≤ S := le_trans (mul_le_mul_of_nonneg_right (by nlinarith [sq_nonneg q]) X1.le) lo
  refine ⟨B', M', T, e', f', hT, ?_⟩
  obtain ⟨d1, d2⟩ := abs_le.1 (d.trans n)
  have : 0 < q * X := by positivity
  rw [abs_le]
  constructor <;> linarith

/-- **C135** cylinder in `double`. -/
theorem cylinder_area_double {r h tol : ℝ} (hr : 2 ^ (-400 : ℤ) ≤ r) (htr : 2 * tol ≤ r) (hth : 2 * tol ≤ h) (h1 : 1 ≤ r + h)
    (hR : r + h ≤ 2 ^ 199) (ht : 2 ^ (-400 : ℤ) ≤ tol) {k : Nat} (hk : 0 < k) (hk' : k ≤ 2 ^ 16) (m : Mesh ℝ) :
    ∃ B M T, createCylinderRounded double tol r h = some B ∧ toMeshSolidRounded double B m k = some M ∧ Rounded.surface double M = some T ∧
      |T - 2 * π * r * (r + h)| ≤ 1 / (3 * k ^ 2) * (2 * π * r * (r + h)) + 1 / 10 ^ 10 * k ^ 4 * (r + h) ^ 2 := by
  have t0 := small_off ht
  have r0 : 0 < r := by linarith
  have h0 : 0 < h := by linarith
  obtain ⟨B, B', M, M', e, e', f, f', -, -, -, -, -, g⟩ := cylinder_mesh_double hr hth (range_199 hR) ht htr hk m m
  obtain ⟨V, W, S, T, -, -, hS, hT, -, d, -⟩ := g h1 hR hk'
  obtain ⟨B1, M1, A, e1, f1, hA, lo, hi⟩ := cylinder_area (r := r) (h := h) t0 (by linarith) (by linarith) hk m
  obtain rfl : B = B1 := Option.some_inj.1 (e.symm.trans e1)
  obtain rfl : M = M1 := Option.some_inj.1 (f.symm.trans f1)
  obtain rfl : S = A := Option.some_inj.1 (hS.symm.trans hA)
  have n := area_noise (c := 108) (E := 1 / 10 ^ 10) (R := r + h) hk (by norm_num) (by norm_num)
  have kk0 : 0 < 1 / (k : ℝ) ^ 2 := by have : (0 : ℝ) < k := by exact_mod_cast hk
                                       positivity
  rw [show 1 / (3 * (k : ℝ) ^ 2) = 1 / 3 * (1 / k ^ 2) by ring] at lo ⊢
  generalize 1 / (k : ℝ) ^ 2 = q at *
  have X1 : 0 < 2 * π * r * (r + h) := by positivity
  generalize 2 * π * r * (r + h) = X at *
  refine ⟨B', M', T, e', f', hT, ?_⟩
  obtain ⟨d1, d2⟩ := abs_le.1 (d.trans n)
  have : 0 < q * X := by positivity
  rw [abs_le]
  constructor <;> linarith

/-- a sphere of radius 2 with ten segments for each control point: the area to one percent -/
example : ∃ B M T, createSphereSolidRounded double (1 / 1000000) 2 = some B ∧ toMeshSolidRounded double B Mesh.new (10 : Nat) = some M ∧
    Rounded.surface double M = some T ∧ |T - 4 * π * 2 ^ 2| ≤ 1 / 100 * (4 * π * 2 ^ 2) := by
  obtain ⟨B, M, T, a, b, c, d⟩ := sphere_area_double (r := 2) (tol := 1 / 1000000) (k := 10) (by norm_num) (by norm_num) tol_ok (by norm_num)
    (by norm_num) (by norm_num) Mesh.new
  refine ⟨B, M, T, a, b, c, d.trans ?_⟩
  norm_num
  linarith [pi_gt_d2]

/-- a torus and a cylinder -/
example : ∃ B M T, createTorusSolidRounded double (1 / 1000000) 3 1 = some B ∧ toMeshSolidRounded double B Mesh.new (10 : Nat) = some M ∧
    Rounded.surface double M = some T ∧ |T - 4 * π ^ 2 * 3 * 1| ≤ 1 / 100 * (4 * π ^ 2 * 3 * 1) := by
  obtain ⟨B, M, T, a, b, c, d⟩ := torus_area_double (major := 3) (minor := 1) (tol := 1 / 1000000) (k := 10)
    (range_one (by norm_num)) (by norm_num) (by norm_num) (by norm_num) tol_ok (by norm_num) (by norm_num) Mesh.new
  refine ⟨B, M, T, a, b, c, d.trans ?_⟩
  have : 3.14 ^ 2 ≤ π ^ 2 := pow_le_pow_left₀ (by norm_num) pi_gt_d2.le 2
  norm_num at this ⊢
  linarith

example : ∃ B M T, createCylinderRounded double (1 / 1000000) 2 5 = some B ∧ toMeshSolidRounded double B Mesh.new (10 : Nat) = some M ∧
    Rounded.surface double M = some T ∧ |T - 2 * π * 2 * (2 + 5)| ≤ 1 / 100 * (2 * π * 2 * (2 + 5)) := by
  obtain ⟨B, M, T, a, b, c, d⟩ := cylinder_area_double (r := 2) (h := 5) (tol := 1 / 1000000) (k := 10)
    (range_one (by norm_num)) (by norm_num) (by norm_num) (by norm_num) (by norm_num) tol_ok (by norm_num) (by norm_num) Mesh.new
  refine ⟨B, M, T, a, b, c, d.trans ?_⟩
  norm_num
  linarith [pi_gt_d2]

end Nurbs
end CAD
