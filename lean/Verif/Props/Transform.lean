import Verif.Model.Transform
import Verif.Spec.Geometry
import Mathlib.Analysis.Real.Pi.Bounds

/-! Properties C37, C38, C39: transforms. -/

namespace CAD
open Transform
variable {K : Type*} [Field K]

/-! ### C37 translations and scales -/

/-- C37: translations compose by adding, in any order, and are undone by the opposite one. -/
theorem translation_laws (s t p : P3 K) :
    translation s (translation t p) = translation (t + s) p ∧
    translation s (translation t p) = translation t (translation s p) ∧
    translation (-t) (translation t p) = p := by
  unfold translation
  refine ⟨by abel, by abel, by abel⟩

/-- C37: translations keep differences. -/
theorem translation_rigid (t p q : P3 K) : translation t p - translation t q = p - q := by
  unfold translation; abel

/-- C37: scales multiply, commute, and are undone by the inverse factors. -/
theorem scale_laws (a b c a' b' c' : K) (p : P3 K) :
    scale a b c (scale a' b' c' p) = scale (a' * a) (b' * b) (c' * c) p ∧
    scale a b c (scale a' b' c' p) = scale a' b' c' (scale a b c p) ∧
    (a ≠ 0 → b ≠ 0 → c ≠ 0 → scale (1 / a) (1 / b) (1 / c) (scale a b c p) = p) ∧
    scale a b c (0 : P3 K) = 0 := by
  unfold scale
  refine ⟨?_, ?_, ?_, ?_⟩
  · ext <;> simp <;> ring
  · ext <;> simp <;> ring
  · intro ha hb hc; ext <;> simp <;> field_simp
  · ext <;> simp

-- non-vacuity
example : scale (1 / 2 : ℚ) (1 / 3) (1 / 4) (scale 2 3 4 ⟨1, 1, 1⟩) = ⟨1, 1, 1⟩ := by decide +kernel

/-! ### C38 rotations -/

/-- A linear isometry that keeps orientation: what a rotation about the origin must satisfy. -/
structure ProperRotation (f : P3 K → P3 K) : Prop where
  add : ∀ p q, f (p + q) = f p + f q
  smul : ∀ (k : K) p, f (k • p) = k • f p
  dot : ∀ p q, (f p).dot (f q) = p.dot q
  cross : ∀ p q, (f p).cross (f q) = f (p.cross q)

theorem Mat.apply_linear (m : Mat K) :
    (∀ p q, m.apply (p + q) = m.apply p + m.apply q) ∧ (∀ (k : K) p, m.apply (k • p) = k • m.apply p) := by
  constructor
  · intro p q; ext <;> simp [Mat.apply] <;> ring
  · intro k p; ext <;> simp [Mat.apply] <;> ring

/-- rotation matrix from an angle and an axis is Rodrigues' formula -/
theorem matrix_rodrigues (c s : K) (u p : P3 K) :
    (Mat.ofCS c s u).apply p = c • p + s • (u.cross p) + ((1 - c) * u.dot p) • u := by
  ext <;> simp [Mat.ofCS, Mat.apply, P3.dot] <;> ring

theorem ofCS_cofactor (c s x y z : K) (hu : x * x + y * y + z * z = 1) (hcs : c * c + s * s = 1) :
    let m := Mat.ofCS c s ⟨x, y, z⟩
    m.m4 * m.m8 - m.m5 * m.m7 = m.m0 ∧ m.m5 * m.m6 - m.m3 * m.m8 = m.m1 ∧
    m.m3 * m.m7 - m.m4 * m.m6 = m.m2 ∧ m.m7 * m.m2 - m.m8 * m.m1 = m.m3 ∧
    m.m8 * m.m0 - m.m6 * m.m2 = m.m4 ∧ m.m6 * m.m1 - m.m7 * m.m0 = m.m5 ∧
    m.m1 * m.m5 - m.m2 * m.m4 = m.m6 ∧ m.m2 * m.m3 - m.m0 * m.m5 = m.m7 ∧
    m.m0 * m.m4 - m.m1 * m.m3 = m.m8 := by
  simp only [Mat.ofCS]
  refine ⟨?_, ?_, ?_, ?_, ?_, ?_, ?_, ?_, ?_⟩
  · linear_combination (c * (1 - c)) * hu + (x * x) * hcs
  · linear_combination (-(1 - c) * s * z) * hu + (x * y) * hcs
  · linear_combination ((1 - c) * s * y) * hu + (x * z) * hcs
  · linear_combination ((1 - c) * s * z) * hu + (x * y) * hcs
  · linear_combination (c * (1 - c)) * hu + (y * y) * hcs
  · linear_combination (-(1 - c) * s * x) * hu + (y * z) * hcs
  · linear_combination (-(1 - c) * s * y) * hu + (x * z) * hcs
  · linear_combination ((1 - c) * s * x) * hu + (y * z) * hcs
  · linear_combination (c * (1 - c)) * hu + (z * z) * hcs

theorem ofCS_comp (c s c' s' : K) (u : P3 K) (hu : u.normSq = 1) (p : P3 K) :
    (Mat.ofCS c s u).apply ((Mat.ofCS c' s' u).apply p) =
      (Mat.ofCS (c * c' - s * s') (s * c' + c * s') u).apply p := by
  rw [matrix_rodrigues, matrix_rodrigues, matrix_rodrigues]
  obtain ⟨x, y, z⟩ := u
  obtain ⟨p1, p2, p3⟩ := p
  have hu' : x * x + y * y + z * z = 1 := hu
  ext <;> simp only [P3.dot, P3.add_x, P3.add_y, P3.add_z, P3.smul_x, P3.smul_y, P3.smul_z, P3.cross_x,
      P3.cross_y, P3.cross_z] <;> grind

theorem ofCS_proper (c s : K) (u : P3 K) (hu : u.normSq = 1) (hcs : c * c + s * s = 1) :
    ProperRotation (Mat.ofCS c s u).apply := by
  obtain ⟨x, y, z⟩ := u
  have hu' : x * x + y * y + z * z = 1 := hu
  refine ⟨(Mat.apply_linear _).1, (Mat.apply_linear _).2, ?_, ?_⟩
  · intro p q
    rw [matrix_rodrigues, matrix_rodrigues]
    obtain ⟨p1, p2, p3⟩ := p
    obtain ⟨q1, q2, q3⟩ := q
    simp only [P3.dot, P3.add_x, P3.add_y, P3.add_z, P3.smul_x, P3.smul_y, P3.smul_z, P3.cross_x,
      P3.cross_y, P3.cross_z]
    linear_combination (p1 * q1 + p2 * q2 + p3 * q3) * hcs +
      (s * s * (p1 * q1 + p2 * q2 + p3 * q3) +
       (1 - c) * (1 - c) * (x * p1 + y * p2 + z * p3) * (x * q1 + y * q2 + z * q3)) * hu' -
      (x * p1 + y * p2 + z * p3) * (x * q1 + y * q2 + z * q3) * hcs
  · obtain ⟨k0, k1, k2, k3, k4, k5, k6, k7, k8⟩ := ofCS_cofactor c s x y z hu' hcs
    generalize Mat.ofCS c s ⟨x, y, z⟩ = m at *
    intro p q
    obtain ⟨p1, p2, p3⟩ := p
    obtain ⟨q1, q2, q3⟩ := q
    ext
    · simp only [Mat.apply, P3.cross_x, P3.cross_y, P3.cross_z]
      linear_combination (p2 * q3 - p3 * q2) * k0 + (p3 * q1 - p1 * q3) * k1 + (p1 * q2 - p2 * q1) * k2
    · simp only [Mat.apply, P3.cross_x, P3.cross_y, P3.cross_z]
      linear_combination (p2 * q3 - p3 * q2) * k3 + (p3 * q1 - p1 * q3) * k4 + (p1 * q2 - p2 * q1) * k5
    · simp only [Mat.apply, P3.cross_x, P3.cross_y, P3.cross_z]
      linear_combination (p2 * q3 - p3 * q2) * k6 + (p3 * q1 - p1 * q3) * k7 + (p1 * q2 - p2 * q1) * k8

/-- C38: `RotationMatrix::from_angle_axis` (and `RotationAngleAxis`) with a unit axis is a
proper rotation for every angle, fixes its axis, is the identity for angle 0, and
turns about one axis add up (so the opposite angle undoes it). -/
theorem rotation_matrix_spec (a b : ℝ) (u : P3 ℝ) (hu : u.normSq = 1) (p : P3 ℝ) :
    ProperRotation (Mat.ofAngleAxis a u).apply ∧
    (Mat.ofAngleAxis a u).apply u = u ∧
    (Mat.ofAngleAxis 0 u).apply p = p ∧
    (Mat.ofAngleAxis a u).apply ((Mat.ofAngleAxis b u).apply p) = (Mat.ofAngleAxis (a + b) u).apply p ∧
    (Mat.ofAngleAxis (-a) u).apply ((Mat.ofAngleAxis a u).apply p) = p := by
  have hcs : ∀ x : ℝ, Real.cos x * Real.cos x + Real.sin x * Real.sin x = 1 := fun x => by
    have := Real.cos_sq_add_sin_sq x; nlinarith
  have hadd : ∀ a b : ℝ, (Mat.ofAngleAxis a u).apply ((Mat.ofAngleAxis b u).apply p) =
      (Mat.ofAngleAxis (a + b) u).apply p := by
    intro a b
    unfold Mat.ofAngleAxis
    rw [add_mul, Real.cos_add, Real.sin_add]
    exact ofCS_comp _ _ _ _ u hu p
  have hzero : (Mat.ofAngleAxis 0 u).apply p = p := by
    unfold Mat.ofAngleAxis
    rw [matrix_rodrigues]; simp
  refine ⟨ofCS_proper _ _ u hu (hcs _), ?_, hzero, hadd a b, ?_⟩
  · unfold Mat.ofAngleAxis
    rw [matrix_rodrigues]
    have h1 : u.cross u = 0 := by ext <;> simp <;> ring
    have h2 : u.dot u = 1 := hu
    rw [h1, h2]; ext <;> simp
  · rw [hadd, neg_add_cancel, hzero]

/-- C38: the quaternion rotation with a unit axis is the same map as the matrix rotation,
for every angle. -/
theorem quaternion_eq_matrix (a : ℝ) (u : P3 ℝ) (hu : u.normSq = 1) (p : P3 ℝ) :
    (Quat.ofAngleAxis a u).apply p = (Mat.ofAngleAxis a u).apply p := by
  have h1 : Real.cos (a * degToRad) = 2 * Real.cos (a * degToRad * 0.5) ^ 2 - 1 := by
    rw [← Real.cos_two_mul]; congr 1; ring
  have h2 : Real.sin (a * degToRad) =
      2 * Real.sin (a * degToRad * 0.5) * Real.cos (a * degToRad * 0.5) := by
    rw [← Real.sin_two_mul]; congr 1; ring
  unfold Quat.ofAngleAxis Mat.ofAngleAxis
  rw [h1, h2]
  generalize a * degToRad * 0.5 = x at *
  have hcs := Real.cos_sq_add_sin_sq x
  have hu' : u.x * u.x + u.y * u.y + u.z * u.z = 1 := hu
  generalize Real.cos x = c at *
  generalize Real.sin x = s at *
  have hc2 : (2 : ℝ) * c ^ 2 - 1 = 1 - 2 * s ^ 2 := by linarith
  rw [hc2, matrix_rodrigues]
  ext <;> simp [Quat.ofCS, Quat.apply, P3.dot]
  · linear_combination -2 * s ^ 2 * p.x * hu'
  · linear_combination -2 * s ^ 2 * p.y * hu'
  · linear_combination -2 * s ^ 2 * p.z * hu'

/-- C38: any unit quaternion gives a proper rotation; the default one is the identity. -/
theorem quaternion_proper (q : Quat K) (hq : q.q0 * q.q0 + q.q1 * q.q1 + q.q2 * q.q2 + q.q3 * q.q3 = 1) :
    ProperRotation q.apply := by
  obtain ⟨a, b, c, d⟩ := q
  simp only at hq
  refine ⟨?_, ?_, ?_, ?_⟩
  · intro p q; ext <;> simp [Quat.apply] <;> ring
  · intro k p; ext <;> simp [Quat.apply] <;> ring
  · intro p q
    simp only [Quat.apply, P3.dot]
    grind
  · intro p q
    ext <;> simp only [Quat.apply, P3.cross_x, P3.cross_y, P3.cross_z] <;> grind

theorem quaternion_default (p : P3 K) : (Quat.one : Quat K).apply p = p := by
  ext <;> simp [Quat.one, Quat.apply]

theorem matrix_default (p : P3 K) : (Mat.one : Mat K).apply p = p := by
  ext <;> simp [Mat.one, Mat.apply]

/-- C38: any matrix with orthonormal, positively oriented rows is a proper rotation. -/
theorem matrix_proper (m : Mat K) (h00 : m.m0 * m.m0 + m.m1 * m.m1 + m.m2 * m.m2 = 1)
    (h11 : m.m3 * m.m3 + m.m4 * m.m4 + m.m5 * m.m5 = 1)
    (h01 : m.m0 * m.m3 + m.m1 * m.m4 + m.m2 * m.m5 = 0)
    (hx : m.m6 = m.m1 * m.m5 - m.m2 * m.m4) (hy : m.m7 = m.m2 * m.m3 - m.m0 * m.m5)
    (hz : m.m8 = m.m0 * m.m4 - m.m1 * m.m3) : ProperRotation m.apply := by
  obtain ⟨a, b, c, d, e, f, g, h, i⟩ := m
  simp only at *
  subst hx hy hz
  -- columns are orthonormal too, and cofactors reproduce the matrix
  refine ⟨(Mat.apply_linear _).1, (Mat.apply_linear _).2, ?_, ?_⟩
  · have c00 : a * a + d * d + (b * f - c * e) * (b * f - c * e) = 1 := by grind
    have c11 : b * b + e * e + (c * d - a * f) * (c * d - a * f) = 1 := by grind
    have c22 : c * c + f * f + (a * e - b * d) * (a * e - b * d) = 1 := by grind
    have c01 : a * b + d * e + (b * f - c * e) * (c * d - a * f) = 0 := by grind
    have c02 : a * c + d * f + (b * f - c * e) * (a * e - b * d) = 0 := by grind
    have c12 : b * c + e * f + (c * d - a * f) * (a * e - b * d) = 0 := by grind
    intro p q
    simp only [Mat.apply, P3.dot]
    linear_combination (p.x * q.x) * c00 + (p.y * q.y) * c11 + (p.z * q.z) * c22 +
      (p.x * q.y + p.y * q.x) * c01 + (p.x * q.z + p.z * q.x) * c02 + (p.y * q.z + p.z * q.y) * c12
  · have k0 : e * (a * e - b * d) - f * (c * d - a * f) = a := by grind
    have k1 : f * (b * f - c * e) - d * (a * e - b * d) = b := by grind
    have k2 : d * (c * d - a * f) - e * (b * f - c * e) = c := by grind
    have k3 : (c * d - a * f) * c - (a * e - b * d) * b = d := by grind
    have k4 : (a * e - b * d) * a - (b * f - c * e) * c = e := by grind
    have k5 : (b * f - c * e) * b - (c * d - a * f) * a = f := by grind
    intro p q
    ext
    · simp only [Mat.apply, P3.cross_x, P3.cross_y, P3.cross_z]
      linear_combination (p.y * q.z - p.z * q.y) * k0 + (p.z * q.x - p.x * q.z) * k1 +
        (p.x * q.y - p.y * q.x) * k2
    · simp only [Mat.apply, P3.cross_x, P3.cross_y, P3.cross_z]
      linear_combination (p.y * q.z - p.z * q.y) * k3 + (p.z * q.x - p.x * q.z) * k4 +
        (p.x * q.y - p.y * q.x) * k5
    · simp only [Mat.apply, P3.cross_x, P3.cross_y, P3.cross_z]
      ring

-- non-vacuity: a unit axis, a unit quaternion
example : (⟨3/5, 0, 4/5⟩ : P3 ℝ).normSq = 1 := by norm_num [P3.normSq]
example : (1/2 : ℚ) * (1/2) + (1/2) * (1/2) + (1/2) * (1/2) + (1/2) * (1/2) = 1 := by norm_num

/-- C38, precision of the degree conversion: because the source uses 3.14159265359 for π, a
turn of 360 degrees is not the identity (the error is in the twelfth digit). -/
theorem rotation_360_not_identity :
    (Mat.ofAngleAxis 360 ⟨0, 0, 1⟩).apply ⟨1, 0, 0⟩ ≠ (⟨1, 0, 0⟩ : P3 ℝ) := by
  intro h
  have hy := congrArg P3.y h
  simp [Mat.ofAngleAxis, Mat.ofCS, Mat.apply] at hy
  have e : (360 : ℝ) * degToRad = 2 * 3.14159265359 := by unfold degToRad; norm_num
  rw [e] at hy
  have h1 := Real.pi_lt_d20
  have h2 := Real.pi_gt_d20
  have hs : 0 < Real.sin (2 * 3.14159265359 - 2 * Real.pi) := by
    apply Real.sin_pos_of_pos_of_lt_pi
    · norm_num at h1 ⊢; linarith
    · norm_num at h2 ⊢; linarith
  rw [Real.sin_sub_two_pi] at hs
  linarith

/-! ### C39 Euler angles -/

/-- C39 (partial): the Euler rotation is a linear isometry for all angles.
Missing (false in the code): it keeps orientation / is the identity for zero angles. -/
theorem euler_isometry_partial (yaw pitch roll : ℝ) (p q : P3 ℝ) :
    (euler yaw pitch roll p).dot (euler yaw pitch roll q) = p.dot q ∧
    (euler yaw pitch roll p).distSq (euler yaw pitch roll q) = p.distSq q ∧
    euler yaw pitch roll 0 = 0 := by
  unfold euler
  have h1 := Real.cos_sq_add_sin_sq (yaw * degToRad)
  have h2 := Real.cos_sq_add_sin_sq (pitch * degToRad)
  have h3 := Real.cos_sq_add_sin_sq (roll * degToRad)
  generalize Real.cos (yaw * degToRad) = yc at *
  generalize Real.sin (yaw * degToRad) = ys at *
  generalize Real.cos (pitch * degToRad) = pc at *
  generalize Real.sin (pitch * degToRad) = ps at *
  generalize Real.cos (roll * degToRad) = rc at *
  generalize Real.sin (roll * degToRad) = rs at *
  have hdot : ∀ p q : P3 ℝ, (eulerCS yc ys pc ps rc rs p).dot (eulerCS yc ys pc ps rc rs q) = p.dot q := by
    rintro ⟨p1, p2, p3⟩ ⟨q1, q2, q3⟩
    simp only [eulerCS, P3.dot]
    grind
  refine ⟨hdot p q, ?_, ?_⟩
  · have e : ∀ p q : P3 ℝ, p.distSq q = p.dot p - 2 * p.dot q + q.dot q := by
      intro p q; simp [P3.distSq, P3.dot]; ring
    rw [e, e, hdot, hdot, hdot]
  · ext <;> simp [eulerCS]

/-- C39, the code violates the property: for *all* angles the Euler "rotation" reverses
orientation (it is a rotation composed with a reflection), so it is never a proper
rotation; with zero angles it is the reflection `y ↦ -y`. -/
theorem euler_reverses_orientation (yaw pitch roll : ℝ) :
    (∀ p q, (euler yaw pitch roll p).cross (euler yaw pitch roll q) =
      -(euler yaw pitch roll (p.cross q))) ∧
    ¬ ProperRotation (euler yaw pitch roll) ∧
    (∀ p, euler 0 0 0 p = ⟨p.x, -p.y, p.z⟩) := by
  have hneg : ∀ p q, (euler yaw pitch roll p).cross (euler yaw pitch roll q) =
      -(euler yaw pitch roll (p.cross q)) := by
    unfold euler
    have h1 := Real.cos_sq_add_sin_sq (yaw * degToRad)
    have h2 := Real.cos_sq_add_sin_sq (pitch * degToRad)
    have h3 := Real.cos_sq_add_sin_sq (roll * degToRad)
    generalize Real.cos (yaw * degToRad) = yc at *
    generalize Real.sin (yaw * degToRad) = ys at *
    generalize Real.cos (pitch * degToRad) = pc at *
    generalize Real.sin (pitch * degToRad) = ps at *
    generalize Real.cos (roll * degToRad) = rc at *
    generalize Real.sin (roll * degToRad) = rs at *
    rintro ⟨p1, p2, p3⟩ ⟨q1, q2, q3⟩
    ext <;> simp only [eulerCS, P3.cross_x, P3.cross_y, P3.cross_z, P3.neg_x, P3.neg_y, P3.neg_z] <;> grind
  refine ⟨hneg, ?_, ?_⟩
  · intro h
    have e1 := h.cross ⟨1, 0, 0⟩ ⟨0, 1, 0⟩
    rw [hneg] at e1
    have hx : euler yaw pitch roll ((⟨1, 0, 0⟩ : P3 ℝ).cross ⟨0, 1, 0⟩) = 0 := by
      set v := euler yaw pitch roll ((⟨1, 0, 0⟩ : P3 ℝ).cross ⟨0, 1, 0⟩)
      have a := congrArg P3.x e1
      have b := congrArg P3.y e1
      have c := congrArg P3.z e1
      simp only [P3.neg_x, P3.neg_y, P3.neg_z] at a b c
      ext <;> simp only [P3.zero_x, P3.zero_y, P3.zero_z] <;> linarith
    have h2 := h.dot ((⟨1, 0, 0⟩ : P3 ℝ).cross ⟨0, 1, 0⟩) ((⟨1, 0, 0⟩ : P3 ℝ).cross ⟨0, 1, 0⟩)
    rw [hx] at h2
    norm_num [P3.dot] at h2
  · intro p
    ext <;> simp [euler, eulerCS]

/-! ### affine maps -/

/-- C07/C38: `apply_all` maps every point, in order, and nothing else. -/
theorem apply_all_get (f : P3 K → P3 K) (vp : List (P3 K)) :
    (applyAll f vp).length = vp.length ∧ ∀ i : Nat, (applyAll f vp)[i]? = (vp[i]?).map f := by
  unfold applyAll; exact ⟨List.length_map _, fun i => by simp⟩

end CAD
