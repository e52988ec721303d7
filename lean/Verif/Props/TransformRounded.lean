import Verif.Model.TransformRounded
import Verif.Lemmas.Appr
import Verif.Props.Transform
import Verif.Props.MeasureRounded
import Verif.Props.GeodesicRounded
import Verif.Props.MeshHistory
import Mathlib.Analysis.Real.Pi.Bounds

/-! C123: rotations in floating point. -/

namespace CAD
namespace Transform
open Real

/-- the turn by the angle `θ` around the unit vector `k`, Rodrigues' formula (specification) -/
noncomputable def turn (θ : ℝ) (k p : P3 ℝ) : P3 ℝ := cos θ • p + sin θ • k.cross p + ((1 - cos θ) * k.dot p) • k

/-- what is assumed on the library functions `cos` and `sin`: an error of at most two units -/
structure LibTrig (u : ℝ) (C S : ℝ → ℝ) : Prop where
  cos : ∀ x, |C x - Real.cos x| ≤ 2 * u
  sin : ∀ x, |S x - Real.sin x| ≤ 2 * u

/-- the axis is a unit vector up to rounding of its coordinates -/
structure NearUnit (u : ℝ) (axis k : P3 ℝ) : Prop where
  unit : k.normSq = 1
  x : |axis.x - k.x| ≤ 4 * u
  y : |axis.y - k.y| ≤ 4 * u
  z : |axis.z - k.z| ≤ 4 * u

theorem turn_eq (θ : ℝ) (k p : P3 ℝ) : turn θ k p = (Mat.ofCS (cos θ) (sin θ) k).apply p := (matrix_rodrigues _ _ _ _).symm

theorem cs (θ : ℝ) : cos θ * cos θ + sin θ * sin θ = 1 := by have := cos_sq_add_sin_sq θ; linarith

theorem turn_proper (θ : ℝ) {k : P3 ℝ} (hk : k.normSq = 1) : ProperRotation (turn θ k) := by
  have := ofCS_proper (cos θ) (sin θ) k hk (cs θ)
  have e : turn θ k = (Mat.ofCS (cos θ) (sin θ) k).apply := funext fun p => turn_eq θ k p
  rw [e]; exact this

theorem turn_norm (θ : ℝ) {k : P3 ℝ} (hk : k.normSq = 1) (p : P3 ℝ) : (turn θ k p).norm = p.norm := by
  have := (turn_proper θ hk).dot p p
  have e : ∀ q : P3 ℝ, q.dot q = q.normSq := fun q => rfl
  rw [P3.norm_eq, P3.norm_eq, ← e, ← e, this]

theorem turn_add (a b : ℝ) {k : P3 ℝ} (hk : k.normSq = 1) (p : P3 ℝ) : turn a k (turn b k p) = turn (a + b) k p := by
  rw [turn_eq, turn_eq, turn_eq, ofCS_comp _ _ _ _ k hk, cos_add, sin_add]

theorem turn_sub (θ : ℝ) {k : P3 ℝ} (hk : k.normSq = 1) (p q : P3 ℝ) : turn θ k p - turn θ k q = turn θ k (p - q) := by
  have h := turn_proper θ hk
  have e : p - q = p + (-1 : ℝ) • q := by ext <;> simp <;> ring
  rw [e, h.add, h.smul]
  ext <;> simp <;> ring

/-- turns by nearby angles are near -/
theorem turn_angle (a b : ℝ) {k : P3 ℝ} (hk : k.normSq = 1) (p : P3 ℝ) : (turn a k p - turn b k p).norm ≤ |a - b| * p.norm := by
  have hk' : k.x * k.x + k.y * k.y + k.z * k.z = 1 := hk
  have hc : (cos a - cos b) ^ 2 + (sin a - sin b) ^ 2 ≤ (a - b) ^ 2 := by
    have e : (cos a - cos b) ^ 2 + (sin a - sin b) ^ 2 = 2 - 2 * cos (a - b) := by
      rw [cos_sub]
      linear_combination cos_sq_add_sin_sq a + cos_sq_add_sin_sq b
    have := one_sub_sq_div_two_le_cos (x := a - b)
    rw [e]; linarith
  have hp := P3.norm_nonneg p
  have hp2 : p.norm * p.norm = p.x * p.x + p.y * p.y + p.z * p.z := P3.norm_sq p
  rw [P3.norm_eq]
  refine sqrt_le_iff.2 ⟨by positivity, ?_⟩
  have e : (turn a k p - turn b k p).normSq = ((cos a - cos b) ^ 2 + (sin a - sin b) ^ 2) * (p.norm * p.norm - (k.dot p) ^ 2) := by
    rw [hp2]
    simp only [turn, P3.normSq, P3.dot, P3.sub_x, P3.sub_y, P3.sub_z, P3.add_x, P3.add_y, P3.add_z, P3.smul_x, P3.smul_y, P3.smul_z, P3.cross_x, P3.cross_y, P3.cross_z]
    linear_combination ((cos a - cos b) ^ 2 * (k.x * p.x + k.y * p.y + k.z * p.z) ^ 2 + (sin a - sin b) ^ 2 * (p.x * p.x + p.y * p.y + p.z * p.z)) * hk'
  rw [e, mul_pow, sq_abs]
  have h2 : p.norm * p.norm - (k.dot p) ^ 2 ≤ p.norm ^ 2 := by nlinarith [sq_nonneg (k.dot p)]
  exact mul_le_mul hc h2 (by
    have : p.norm * p.norm - (k.dot p) ^ 2 = (k.y * p.z - k.z * p.y) ^ 2 + (k.z * p.x - k.x * p.z) ^ 2 + (k.x * p.y - k.y * p.x) ^ 2 := by
      rw [hp2]; simp only [P3.dot]; linear_combination (-(p.x * p.x + p.y * p.y + p.z * p.z)) * hk'
    rw [this]; positivity) (by positivity)


/-! ### The matrix -/

variable {u : ℝ} {fl C S : ℝ → ℝ}

/-- entries of a rotation matrix are at most 1 -/
theorem entry_le {θ : ℝ} {k : P3 ℝ} (hk : k.normSq = 1) : let m := Mat.ofCS (cos θ) (sin θ) k
    (|m.m0| ≤ 1 ∧ |m.m1| ≤ 1 ∧ |m.m2| ≤ 1) ∧ (|m.m3| ≤ 1 ∧ |m.m4| ≤ 1 ∧ |m.m5| ≤ 1) ∧ (|m.m6| ≤ 1 ∧ |m.m7| ≤ 1 ∧ |m.m8| ≤ 1) := by
  intro m
  have hd := (ofCS_proper (cos θ) (sin θ) k hk (cs θ)).dot
  have col : ∀ e : P3 ℝ, e.dot e = 1 → |(m.apply e).x| ≤ 1 ∧ |(m.apply e).y| ≤ 1 ∧ |(m.apply e).z| ≤ 1 := by
    intro e he
    have h : (m.apply e).dot (m.apply e) = 1 := (hd e e).trans he
    simp only [P3.dot] at h
    refine ⟨?_, ?_, ?_⟩ <;> refine abs_le_one_iff_mul_self_le_one.2 ?_ <;>
      nlinarith [mul_self_nonneg (m.apply e).x, mul_self_nonneg (m.apply e).y, mul_self_nonneg (m.apply e).z]
  have c1 := col ⟨1, 0, 0⟩ (by simp [P3.dot])
  have c2 := col ⟨0, 1, 0⟩ (by simp [P3.dot])
  have c3 := col ⟨0, 0, 1⟩ (by simp [P3.dot])
  simp only [Mat.apply, one_mul, zero_mul, add_zero, zero_add] at c1 c2 c3
  exact ⟨⟨c1.1, c2.1, c3.1⟩, ⟨c1.2.1, c2.2.1, c3.2.1⟩, c1.2.2, c2.2.2, c3.2.2⟩

theorem coord_le {k : P3 ℝ} (hk : k.normSq = 1) : |k.x| ≤ 1 ∧ |k.y| ≤ 1 ∧ |k.z| ≤ 1 := by
  have hk' : k.x * k.x + k.y * k.y + k.z * k.z = 1 := hk
  refine ⟨?_, ?_, ?_⟩ <;> refine abs_le_one_iff_mul_self_le_one.2 ?_ <;>
    nlinarith [mul_self_nonneg k.x, mul_self_nonneg k.y, mul_self_nonneg k.z]

/-- the entries of a matrix are computed with an error of at most `e` units -/
structure MatNear (u e : ℝ) (m' m : Mat ℝ) : Prop where
  m0 : Appr u 1 e 1 m'.m0 m.m0
  m1 : Appr u 1 e 1 m'.m1 m.m1
  m2 : Appr u 1 e 1 m'.m2 m.m2
  m3 : Appr u 1 e 1 m'.m3 m.m3
  m4 : Appr u 1 e 1 m'.m4 m.m4
  m5 : Appr u 1 e 1 m'.m5 m.m5
  m6 : Appr u 1 e 1 m'.m6 m.m6
  m7 : Appr u 1 e 1 m'.m7 m.m7
  m8 : Appr u 1 e 1 m'.m8 m.m8

theorem matrix_near (F : FlAt u 1 fl) {θ c s : ℝ} {axis k : P3 ℝ} (hc : |c - cos θ| ≤ 2 * u) (hs : |s - sin θ| ≤ 2 * u) (hk : NearUnit u axis k) :
    MatNear u 40 (Mat.ofCSR fl c s axis) (Mat.ofCS (cos θ) (sin θ) k) := by
  obtain ⟨hk, kx, ky, kz⟩ := hk
  obtain ⟨⟨b0, b1, b2⟩, ⟨b3, b4, b5⟩, b6, b7, b8⟩ := entry_le (θ := θ) hk
  obtain ⟨lx, ly, lz⟩ := coord_le hk
  obtain ⟨u0, u1, -, -⟩ := id F
  have z1 : (0 : ℝ) ≤ 1 := zero_le_one
  have u1' : 0 ≤ u * 1 := by linarith
  have vx : Appr u 1 4 1 axis.x k.x := ⟨by linarith, by linarith⟩
  have vy : Appr u 1 4 1 axis.y k.y := ⟨by linarith, by linarith⟩
  have vz : Appr u 1 4 1 axis.z k.z := ⟨by linarith, by linarith⟩
  have t1 : Appr u 1 2 1 c (cos θ) := ⟨by linarith, by linarith [abs_cos_le_one θ]⟩
  have t8 : Appr u 1 2 1 s (sin θ) := ⟨by linarith, by linarith [abs_sin_le_one θ]⟩
  have one : Appr u 1 0 1 1 1 := Appr.exact (by norm_num)
  have t2 := ((one.sub t1).bound (b1 := 2) (by norm_num at *; have := abs_sub (1 : ℝ) (cos θ); have := abs_cos_le_one θ; norm_num at *; linarith)).round F (by norm_num) (by norm_num)
  norm_num1 at t2
  have sq : ∀ {v' v}, Appr u 1 4 1 v' v → Appr u 1 11 1 (fl (v' * v')) (v * v) := by
    intro v' v h
    have := ((h.mul u0 u1 z1 h (by norm_num) (by norm_num)).round F (by norm_num) (by norm_num))
    norm_num1 at this
    exact this
  have t6 : ∀ {v' v}, Appr u 1 4 1 v' v → Appr u 1 17 2 (fl (fl (1 - c) * v')) ((1 - cos θ) * v) := by
    intro v' v h
    have := ((t2.mul u0 u1 z1 h (by norm_num) (by norm_num)).round F (by norm_num) (by norm_num))
    norm_num1 at this
    exact this
  have t7 : ∀ {v' v w' w}, Appr u 1 4 1 v' v → Appr u 1 4 1 w' w → Appr u 1 29 2 (fl (fl (fl (1 - c) * v') * w')) ((1 - cos θ) * v * w) := by
    intro v' v w' w h k
    have := (((t6 h).mul u0 u1 z1 k (by norm_num) (by norm_num)).round F (by norm_num) (by norm_num))
    norm_num1 at this
    exact this
  have t9 : ∀ {v' v}, Appr u 1 4 1 v' v → Appr u 1 9 1 (fl (s * v')) (sin θ * v) := by
    intro v' v h
    have := ((t8.mul u0 u1 z1 h (by norm_num) (by norm_num)).round F (by norm_num) (by norm_num))
    norm_num1 at this
    exact this
  have d : ∀ {v' v}, Appr u 1 4 1 v' v → |cos θ + (1 - cos θ) * (v * v)| ≤ 1 → Appr u 1 40 1 (fl (c + fl (fl (1 - c) * fl (v' * v')))) (cos θ + (1 - cos θ) * (v * v)) := by
    intro v' v h hb
    have a := ((t2.mul u0 u1 z1 (sq h) (by norm_num) (by norm_num)).round F (by norm_num) (by norm_num))
    have := ((t1.add a).bound (b1 := 1) (by linarith)).round F (by norm_num) (by norm_num)
    exact this.weaken u1' (by norm_num)
  have o : ∀ {a' a b' b : ℝ}, Appr u 1 29 2 a' a → Appr u 1 9 1 b' b → (|a + b| ≤ 1 → Appr u 1 40 1 (fl (a' + b')) (a + b)) ∧
      (|a - b| ≤ 1 → Appr u 1 40 1 (fl (a' - b')) (a - b)) := by
    intro a' a b' b h k
    constructor
    · intro hb
      have := ((h.add k).bound (b1 := 1) (by linarith)).round F (by norm_num) (by norm_num)
      exact this.weaken u1' (by norm_num)
    · intro hb
      have := ((h.sub k).bound (b1 := 1) (by linarith)).round F (by norm_num) (by norm_num)
      exact this.weaken u1' (by norm_num)
  exact ⟨d vx b0, (o (t7 vx vy) (t9 vz)).2 b1, (o (t7 vx vz) (t9 vy)).1 b2, (o (t7 vx vy) (t9 vz)).1 b3, d vy b4,
    (o (t7 vy vz) (t9 vx)).2 b5, (o (t7 vx vz) (t9 vy)).2 b6, (o (t7 vy vz) (t9 vx)).1 b7, d vz b8⟩

/-- coordinates and the norm -/
theorem norm_of_coords {p : P3 ℝ} {d : ℝ} (hx : |p.x| ≤ d) (hy : |p.y| ≤ d) (hz : |p.z| ≤ d) : p.norm ≤ 1.7321 * d := by
  have d0 : 0 ≤ d := (abs_nonneg _).trans hx
  rw [P3.norm_eq]
  refine sqrt_le_iff.2 ⟨by positivity, ?_⟩
  simp only [P3.normSq]
  have h : ∀ {a : ℝ}, |a| ≤ d → a * a ≤ d * d := fun {a} h => by
    rw [← abs_mul_abs_self a]; exact mul_self_le_mul_self (abs_nonneg _) h
  have := h hx
  have := h hy
  have := h hz
  nlinarith [mul_self_nonneg d]

theorem coord_norm (p : P3 ℝ) : |p.x| ≤ p.norm ∧ |p.y| ≤ p.norm ∧ |p.z| ≤ p.norm := by
  have h : p.norm * p.norm = p.x * p.x + p.y * p.y + p.z * p.z := P3.norm_sq p
  have n := P3.norm_nonneg p
  refine ⟨?_, ?_, ?_⟩ <;> refine abs_le_of_sq_le_sq ?_ n <;> nlinarith [mul_self_nonneg p.x, mul_self_nonneg p.y, mul_self_nonneg p.z]

/-- a computed matrix applied to a point -/
theorem apply_near {h : ℝ} (h0 : 0 < h) {p : P3 ℝ} (F : FlAt u (p.norm + h) fl) {m' m : Mat ℝ} (hm : MatNear u 40 m' m)
    (hn : (m.apply p).norm = p.norm) : (Mat.applyR fl m' p - m.apply p).norm ≤ 233 * u * (p.norm + h) := by
  have hp0 := P3.norm_nonneg p
  obtain ⟨u0, u1, s0, -⟩ := id F
  obtain ⟨px, py, pz⟩ := coord_norm p
  obtain ⟨qx, qy, qz⟩ := coord_norm (m.apply p)
  rw [hn] at qx qy qz
  set s := p.norm + h with hs
  have ax : Appr u s 0 1 p.x p.x := Appr.exact (by linarith)
  have ay : Appr u s 0 1 p.y p.y := Appr.exact (by linarith)
  have az : Appr u s 0 1 p.z p.z := Appr.exact (by linarith)
  have row : ∀ {a' b' c' a b c : ℝ}, Appr u 1 40 1 a' a → Appr u 1 40 1 b' b → Appr u 1 40 1 c' c → |p.x * a + p.y * b + p.z * c| ≤ p.norm →
      |fl (fl (fl (p.x * a') + fl (p.y * b')) + fl (p.z * c')) - (p.x * a + p.y * b + p.z * c)| ≤ 134 * (u * s) := by
    intro a' b' c' a b c ha hb hc hle
    have pr : ∀ {v a' a : ℝ}, Appr u s 0 1 v v → Appr u 1 40 1 a' a → Appr u s 43 1 (fl (v * a')) (v * a) := by
      intro v a' a hv ha
      have := (hv.mul' u0 u1 s0.le ha (by norm_num) (by norm_num)).round F (by norm_num) (by norm_num)
      norm_num1 at this
      exact this
    have s1 := ((pr ax ha).add (pr ay hb)).round F (by norm_num) (by norm_num)
    have s2 := ((s1.add (pr az hc)).bound (b1 := 1) (by linarith)).round F (by norm_num) (by norm_num)
    norm_num1 at s2
    exact s2.near
  have rx := row hm.m0 hm.m1 hm.m2 qx
  have ry := row hm.m3 hm.m4 hm.m5 qy
  have rz := row hm.m6 hm.m7 hm.m8 qz
  have := norm_of_coords (p := Mat.applyR fl m' p - m.apply p) rx ry rz
  have us : 0 ≤ u * s := mul_nonneg u0 s0.le
  refine this.trans ?_
  linarith

/-! ### The quaternion -/

theorem turn_quat (θ : ℝ) {k : P3 ℝ} (hk : k.normSq = 1) (p : P3 ℝ) : (Quat.ofCS (cos (θ / 2)) (sin (θ / 2)) k).apply p = turn θ k p := by
  have hd : degToRad ≠ 0 := by unfold degToRad; norm_num
  have := quaternion_eq_matrix (θ / degToRad) k hk p
  unfold Quat.ofAngleAxis Mat.ofAngleAxis at this
  rw [div_mul_cancel₀ _ hd, ← turn_eq, show θ * 0.5 = θ / 2 by norm_num [div_eq_mul_inv]] at this
  exact this

/-- the quaternion computed from an angle and an axis, applied to a point -/
theorem quat_near {h : ℝ} (h0 : 0 < h) {p : P3 ℝ} (F1 : FlAt u 1 fl) (F : FlAt u (p.norm + h) fl) {θ c s : ℝ} {axis k : P3 ℝ} (hc : |c - cos (θ / 2)| ≤ 2 * u)
    (hs : |s - sin (θ / 2)| ≤ 2 * u) (hk : NearUnit u axis k) :
    (Quat.applyR fl ⟨c, fl (axis.x * s), fl (axis.y * s), fl (axis.z * s)⟩ p - turn θ k p).norm ≤ 517 * u * (p.norm + h) := by
  obtain ⟨hk, kx, ky, kz⟩ := hk
  obtain ⟨lx, ly, lz⟩ := coord_le hk
  have hk' : k.x * k.x + k.y * k.y + k.z * k.z = 1 := hk
  have hcs := cs (θ / 2)
  have hq := turn_quat θ hk p
  have hn := turn_norm θ hk p
  obtain ⟨qx, qy, qz⟩ := coord_norm (turn θ k p)
  rw [hn] at qx qy qz
  have hp0 := P3.norm_nonneg p
  obtain ⟨u0, u1, s0, -⟩ := id F
  obtain ⟨px, py, pz⟩ := coord_norm p
  have z1 : (0 : ℝ) ≤ 1 := zero_le_one
  have vx : Appr u 1 4 1 axis.x k.x := ⟨by linarith, by linarith⟩
  have vy : Appr u 1 4 1 axis.y k.y := ⟨by linarith, by linarith⟩
  have vz : Appr u 1 4 1 axis.z k.z := ⟨by linarith, by linarith⟩
  have t1 : Appr u 1 2 1 c (cos (θ / 2)) := ⟨by linarith, by linarith [abs_cos_le_one (θ / 2)]⟩
  have t8 : Appr u 1 2 1 s (sin (θ / 2)) := ⟨by linarith, by linarith [abs_sin_le_one (θ / 2)]⟩
  rw [← hq] at qx qy qz ⊢
  clear hq hn
  generalize cos (θ / 2) = a at *
  generalize sin (θ / 2) = w at *
  have im : ∀ {v' v}, Appr u 1 4 1 v' v → Appr u 1 9 1 (fl (v' * s)) (v * w) := by
    intro v' v h
    have := (h.mul u0 u1 z1 t8 (by norm_num) (by norm_num)).round F1 (by norm_num) (by norm_num)
    norm_num1 at this
    exact this
  have ib := im vx
  have ic := im vy
  have id := im vz
  have unit : a * a + (k.x * w) * (k.x * w) + (k.y * w) * (k.y * w) + (k.z * w) * (k.z * w) = 1 := by linear_combination hcs + w * w * hk'
  simp only [Quat.ofCS, Quat.apply] at qx qy qz ⊢
  simp only [Quat.applyR]
  generalize fl (axis.x * s) = b' at *
  generalize fl (axis.y * s) = c' at *
  generalize fl (axis.z * s) = d' at *
  generalize k.x * w = b at *
  generalize k.y * w = cc at *
  generalize k.z * w = d at *
  clear vx vy vz im t8 hcs hk' lx ly lz kx ky kz hc hs hk
  set sc := p.norm + h with hsc
  have pa : ∀ {y' y}, Appr u 1 9 1 y' y → Appr u 1 21 1 (fl (c * y')) (a * y) := by
    intro y' y hy
    have := (t1.mul u0 u1 z1 hy (by norm_num) (by norm_num)).round F1 (by norm_num) (by norm_num)
    norm_num1 at this
    exact this.weaken (by linarith) (by norm_num)
  have pb : ∀ {x' x y' y}, Appr u 1 9 1 x' x → Appr u 1 9 1 y' y → Appr u 1 21 1 (fl (x' * y')) (x * y) := by
    intro x' x y' y hx hy
    have := (hx.mul u0 u1 z1 hy (by norm_num) (by norm_num)).round F1 (by norm_num) (by norm_num)
    norm_num1 at this
    exact this
  have sm : ∀ {x' x y' y}, Appr u 1 21 1 x' x → Appr u 1 21 1 y' y → |x + y| ≤ 1 → Appr u 1 44 1 (fl (x' + y')) (x + y) := by
    intro x' x y' y hx hy hb
    have := ((hx.add hy).bound (b1 := 1) (by linarith)).round F1 (by norm_num) (by norm_num)
    norm_num1 at this
    exact this
  have sd : ∀ {x' x y' y}, Appr u 1 21 1 x' x → Appr u 1 21 1 y' y → |x - y| ≤ 1 → Appr u 1 44 1 (fl (x' - y')) (x - y) := by
    intro x' x y' y hx hy hb
    have := ((hx.sub hy).bound (b1 := 1) (by linarith)).round F1 (by norm_num) (by norm_num)
    norm_num1 at this
    exact this
  have ax : Appr u sc 0 1 p.x p.x := Appr.exact (by linarith)
  have ay : Appr u sc 0 1 p.y p.y := Appr.exact (by linarith)
  have az : Appr u sc 0 1 p.z p.z := Appr.exact (by linarith)
  have row : ∀ {x' y' z' x y z v : ℝ}, Appr u 1 44 1 x' x → Appr u 1 44 1 y' y → Appr u 1 44 1 z' z → |v| ≤ p.norm →
      |2 * (x * p.x + y * p.y + z * p.z) + v| ≤ p.norm →
      |fl (fl (2 * fl (fl (fl (x' * p.x) + fl (y' * p.y)) + fl (z' * p.z))) + v) - (2 * (x * p.x + y * p.y + z * p.z) + v)| ≤ 298 * (u * sc) := by
    intro x' y' z' x y z v hx hy hz hv hle
    have pr : ∀ {x' x v : ℝ}, Appr u 1 44 1 x' x → Appr u sc 0 1 v v → Appr u sc 47 1 (fl (x' * v)) (x * v) := by
      intro x' x v hx hv
      have := (hx.mul u0 u1 s0.le hv (by norm_num) (by norm_num)).round F (by norm_num) (by norm_num)
      norm_num1 at this
      exact this
    have hin : |x * p.x + y * p.y + z * p.z| ≤ 1 * sc := by
      have := abs_add_le (2 * (x * p.x + y * p.y + z * p.z) + v) (-v)
      rw [abs_neg, add_neg_cancel_right, abs_mul, abs_two] at this
      linarith
    have s1 := ((pr hx ax).add (pr hy ay)).round F (by norm_num) (by norm_num)
    have s2 := ((s1.add (pr hz az)).bound hin).round F (by norm_num) (by norm_num)
    norm_num1 at s2
    have two : Appr u 1 0 2 2 2 := Appr.exact (by norm_num)
    have s3 := (two.mul u0 u1 s0.le s2 (by norm_num) (by norm_num)).round F (by norm_num) (by norm_num)
    norm_num1 at s3
    have av : Appr u sc 0 1 v v := Appr.exact (by linarith)
    have s4 := ((s3.add av).bound (b1 := 1) (by linarith)).round F (by norm_num) (by norm_num)
    norm_num1 at s4
    exact s4.near
  have le1 : ∀ {t : ℝ}, -1 ≤ t → t ≤ 1 → |t| ≤ 1 := fun h1 h2 => abs_le.2 ⟨h1, h2⟩
  have q1 := mul_self_nonneg (a - b)
  have q2 := mul_self_nonneg (a + b)
  have q3 := mul_self_nonneg (a - cc)
  have q4 := mul_self_nonneg (a + cc)
  have q5 := mul_self_nonneg (a - d)
  have q6 := mul_self_nonneg (a + d)
  have q7 := mul_self_nonneg (b - cc)
  have q8 := mul_self_nonneg (b + cc)
  have q9 := mul_self_nonneg (b - d)
  have q10 := mul_self_nonneg (b + d)
  have q11 := mul_self_nonneg (cc - d)
  have q12 := mul_self_nonneg (cc + d)
  have r1 := mul_self_nonneg a
  have r2 := mul_self_nonneg b
  have r3 := mul_self_nonneg cc
  have r4 := mul_self_nonneg d
  have nb := pb ib.neg ib
  have nc := pb ic.neg ic
  have nd := pb id.neg id
  have rx := row (sm nc nd (le1 (by linarith) (by linarith))) (sd (pb ib ic) (pa id) (le1 (by linarith) (by linarith)))
    (sm (pa ic) (pb ib id) (le1 (by linarith) (by linarith))) px qx
  have ry := row (sm (pa id) (pb ib ic) (le1 (by linarith) (by linarith))) (sm nb nd (le1 (by linarith) (by linarith)))
    (sd (pb ic id) (pa ib) (le1 (by linarith) (by linarith))) py qy
  have rz := row (sd (pb ib id) (pa ic) (le1 (by linarith) (by linarith))) (sm (pa ib) (pb ic id) (le1 (by linarith) (by linarith)))
    (sm nb nc (le1 (by linarith) (by linarith))) pz qz
  refine (norm_of_coords (d := 298 * (u * sc)) rx ry rz).trans ?_
  have us : 0 ≤ u * sc := mul_nonneg u0 s0.le
  linarith

/-! ### The angle -/

/-- the conversion to radians with the constant of the source -/
theorem angle_near (F : FlAt u 1 fl) (hu : u ≤ 1 / 9007199254740992) {angle : ℝ} (ha : |angle| ≤ 50000) :
    |fl (angle * degToRadR fl) - angle * π / 180| ≤ |angle| * 0.0000000000000012 + u ∧
      |2 * fl (fl (angle * degToRadR fl) * 0.5) - angle * π / 180| ≤ |angle| * 0.0000000000000012 + u := by
  obtain ⟨u0, u1, -, err⟩ := F
  have p1 := pi_gt_d20
  have p2 := pi_lt_d20
  have a0 := abs_nonneg angle
  have e1 := abs_le.1 (err 3.14159265359 (by rw [abs_of_nonneg (by norm_num)]; norm_num))
  rw [abs_of_nonneg (by norm_num)] at e1
  have h1 : |2 * fl 3.14159265359| ≤ 7 := by rw [abs_le]; constructor <;> norm_num at * <;> linarith
  have e2 := abs_le.1 (err (2 * fl 3.14159265359) (by linarith))
  have h1' : u * (|2 * fl 3.14159265359| + 1 / 4) ≤ u * (7 + 1 / 4) := mul_le_mul_of_nonneg_left (by linarith) u0
  have h2 : |fl (2 * fl 3.14159265359) / 360| ≤ 0.02 := by rw [abs_le]; constructor <;> norm_num at * <;> linarith
  have e3 := abs_le.1 (err (fl (2 * fl 3.14159265359) / 360) (by norm_num at *; linarith))
  have h2' : u * (|fl (2 * fl 3.14159265359) / 360| + 1 / 4) ≤ u * (0.02 + 1 / 4) := mul_le_mul_of_nonneg_left (by linarith) u0
  have hD : |degToRadR fl - π / 180| ≤ 0.00000000000000119 - 0.05 * u := by
    unfold degToRadR
    rw [abs_le]; constructor <;> norm_num at * <;> linarith
  generalize degToRadR fl = D at *
  clear e1 e2 e3 h1 h1' h2 h2'
  have hD2 : |D| ≤ 0.0176 := by
    rw [abs_le] at hD ⊢; constructor <;> norm_num at * <;> linarith
  have hx : |angle * D| ≤ |angle| * 0.0176 := by rw [abs_mul]; exact mul_le_mul_of_nonneg_left hD2 a0
  have e4 := err (angle * D) (by norm_num at *; linarith)
  have h4 : u * (|angle * D| + 1 / 4) ≤ u * (|angle| * 0.0176 + 1 / 4) := mul_le_mul_of_nonneg_left (by linarith) u0
  have hd : |angle * D - angle * π / 180| ≤ |angle| * (0.00000000000000119 - 0.05 * u) := by
    rw [show angle * D - angle * π / 180 = angle * (D - π / 180) by ring, abs_mul]
    exact mul_le_mul_of_nonneg_left hD a0
  have hau : 0 ≤ |angle| * u := mul_nonneg a0 u0
  have t1 : |fl (angle * D) - angle * π / 180| ≤ |fl (angle * D) - angle * D| + |angle * D - angle * π / 180| := by
    have := abs_add_le (fl (angle * D) - angle * D) (angle * D - angle * π / 180)
    rwa [sub_add_sub_cancel] at this
  constructor
  · norm_num at *; linarith [abs_nonneg angle]
  · set y := fl (angle * D) with hy
    have hy1 : |y| ≤ |angle| * 0.018 + 1 := by
      have : |y| ≤ |y - angle * D| + |angle * D| := by
        have := abs_add_le (y - angle * D) (angle * D)
        rwa [sub_add_cancel] at this
      have hu' : |angle| * u ≤ |angle| * (1 / 1000000) := mul_le_mul_of_nonneg_left u1 a0
      norm_num at *; linarith
    have hy2 : |y * 0.5| ≤ |angle| * 0.009 + 0.5 := by
      rw [abs_mul, abs_of_nonneg (show (0 : ℝ) ≤ 0.5 by norm_num)]; norm_num at *; linarith
    have e5 := err (y * 0.5) (by norm_num at *; linarith)
    have hy3 : |y * 0.5| ≤ |angle| * 0.0088 + 1 / 1000000 * (0.0088 * 50000 + 1) := by
      have : |y| ≤ |y - angle * D| + |angle * D| := by
        have := abs_add_le (y - angle * D) (angle * D)
        rwa [sub_add_cancel] at this
      have hu' : |angle| * u ≤ 50000 * (1 / 1000000) := mul_le_mul ha u1 u0 (by norm_num)
      rw [abs_mul, abs_of_nonneg (show (0 : ℝ) ≤ 0.5 by norm_num)]; norm_num at *; linarith
    have h5 : u * (|y * 0.5| + 1 / 4) ≤ u * (|angle| * 0.0088 + 1 / 1000000 * (0.0088 * 50000 + 1) + 1 / 4) := mul_le_mul_of_nonneg_left (by linarith) u0
    have t2 : |2 * fl (y * 0.5) - angle * π / 180| ≤ 2 * |fl (y * 0.5) - y * 0.5| + |y - angle * π / 180| := by
      have := abs_add_le (2 * (fl (y * 0.5) - y * 0.5)) (y - angle * π / 180)
      rw [abs_mul, abs_two] at this
      rwa [show 2 * (fl (y * 0.5) - y * 0.5) + (y - angle * π / 180) = 2 * fl (y * 0.5) - angle * π / 180 by norm_num; ring] at this
    norm_num at *; linarith [abs_nonneg angle]

/-! ### Many turns -/

/-- small errors add up slowly -/
theorem pow_small {δ : ℝ} (h0 : 0 ≤ δ) : ∀ {k : ℕ}, k * δ ≤ 1 / 2 → (1 + δ) ^ k ≤ 1 + 2 * (k * δ)
  | 0, _ => by simp
  | k + 1, h => by
    push_cast at h ⊢
    have hk : k * δ ≤ 1 / 2 := by linarith
    have ih := pow_small h0 hk
    have hk0 : 0 ≤ k * δ := by positivity
    rw [pow_succ]
    have : (1 + δ) ^ k * (1 + δ) ≤ (1 + 2 * (k * δ)) * (1 + δ) := mul_le_mul_of_nonneg_right ih (by linarith)
    have h2 : k * δ * δ ≤ 1 / 2 * δ := mul_le_mul_of_nonneg_right hk h0
    nlinarith

/-- a map that is near an isometry stays near its iterates -/
theorem iterate_near {f A : P3 ℝ → P3 ℝ} {δ h R : ℝ} (hδ : 0 ≤ δ) (hd : ∀ p q, (A p - A q).norm = (p - q).norm) (hA : ∀ p, (A p).norm = p.norm)
    (hf : ∀ p : P3 ℝ, p.norm + h ≤ R → (f p - A p).norm ≤ δ * (p.norm + h)) (p : P3 ℝ) (hp0 : 0 ≤ p.norm + h) :
    ∀ k : ℕ, (1 + δ) ^ k * (p.norm + h) ≤ R → (f^[k] p - A^[k] p).norm ≤ ((1 + δ) ^ k - 1) * (p.norm + h) ∧ (f^[k] p).norm + h ≤ (1 + δ) ^ k * (p.norm + h)
  | 0, _ => by
    have e : p - p = 0 := by ext <;> simp
    refine ⟨?_, by simp⟩
    simp only [Function.iterate_zero, id_eq, e, pow_zero, sub_self, zero_mul]
    rw [P3.norm_eq_zero.2 rfl]
  | k + 1, hR => by
    have hle : (1 + δ) ^ k * (p.norm + h) ≤ (1 + δ) ^ (k + 1) * (p.norm + h) :=
      mul_le_mul_of_nonneg_right (pow_le_pow_right₀ (by linarith) (by omega)) hp0
    obtain ⟨a, b⟩ := iterate_near hδ hd hA hf p hp0 k (hle.trans hR)
    rw [Function.iterate_succ_apply', Function.iterate_succ_apply']
    generalize f^[k] p = x at *
    generalize A^[k] p = y at *
    have hx := hf x (b.trans (hle.trans hR))
    have hx2 : δ * (x.norm + h) ≤ δ * ((1 + δ) ^ k * (p.norm + h)) := mul_le_mul_of_nonneg_left b hδ
    have e1 : f x - A y = (f x - A x) + (A x - A y) := by ext <;> simp
    have e2 : f x = (f x - A x) + A x := by ext <;> simp
    constructor
    · rw [e1]
      refine (Rounded.norm_add_le _ _).trans ?_
      rw [hd x y, pow_succ]
      linarith
    · rw [e2]
      have := Rounded.norm_add_le (f x - A x) (A x)
      rw [hA] at this
      rw [pow_succ]
      linarith

theorem turn_iterate (θ : ℝ) {k : P3 ℝ} (hk : k.normSq = 1) (p : P3 ℝ) : ∀ n : ℕ, (turn θ k)^[n] p = turn (n * θ) k p
  | 0 => by
    have : turn 0 k p = p := by
      unfold turn; ext <;> simp
    simp [this]
  | n + 1 => by
    rw [Function.iterate_succ_apply', turn_iterate θ hk p n, turn_add _ _ hk]
    congr 1
    push_cast; ring

/-! ### Doubles -/

theorem double_at {s : ℝ} (s0 : 2 ^ (-1000 : ℤ) ≤ s) (s1 : s ≤ 2 ^ (1001 : ℤ)) : FlAt (2 ^ (-53 : ℤ)) s double := by
  have hs : (0 : ℝ) < 2 ^ (-1000 : ℤ) := by positivity
  refine Rounded.double_rounds.flAt (by positivity) ?_ (hs.trans_le s0) ?_ ?_
  · norm_num
  · refine le_trans ?_ (mul_le_mul_of_nonneg_left s0 (by positivity))
    rw [← zpow_add₀ (by norm_num)]
    rw [show (4 : ℝ) = 2 ^ (2 : ℤ) by norm_num, ← zpow_add₀ (by norm_num)]
    exact zpow_le_zpow_right₀ (by norm_num) (by norm_num)
  · refine le_trans (mul_le_mul_of_nonneg_left s1 (by norm_num)) ?_
    refine le_trans (mul_le_mul_of_nonneg_right (show (1000 : ℝ) ≤ 2 ^ (10 : ℤ) by norm_num) (by positivity)) ?_
    rw [← zpow_add₀ (by norm_num)]
    exact zpow_le_zpow_right₀ (by norm_num) (by norm_num)

theorem double_at_one : FlAt (2 ^ (-53 : ℤ)) 1 double :=
  double_at (zpow_le_one_of_nonpos₀ (by norm_num) (by norm_num)) (one_le_zpow₀ (by norm_num) (by norm_num))

/-- `RotationMatrix::apply` and `RotationAngleAxis::apply` in double -/
noncomputable def rotated (C S : ℝ → ℝ) (angle : ℝ) (axis p : P3 ℝ) : P3 ℝ := (Mat.ofAngleAxisR double C S angle axis).applyR double p

/-- `RotationQuaternion::apply` in double -/
noncomputable def rotatedQ (C S : ℝ → ℝ) (angle : ℝ) (axis p : P3 ℝ) : P3 ℝ := (Quat.ofAngleAxisR double C S angle axis).applyR double p

/-- **C123** one rotation in double: the result is the point turned by the angle in degrees around the
axis, up to the errors of the arithmetic and of the constant for π in the source -/
theorem rotation_double (L : LibTrig (2 ^ (-53 : ℤ)) C S) {axis k : P3 ℝ} (hk : NearUnit (2 ^ (-53 : ℤ)) axis k) {angle : ℝ} (ha : |angle| ≤ 50000)
    {p : P3 ℝ} (hp : p.norm + 2 ^ (-1000 : ℤ) ≤ 2 ^ (1001 : ℤ)) :
    (rotated C S angle axis p - turn (angle * π / 180) k p).norm ≤ (0.000000000000027 + |angle| * 0.0000000000000012) * (p.norm + 2 ^ (-1000 : ℤ)) ∧
    (rotatedQ C S angle axis p - turn (angle * π / 180) k p).norm ≤ (0.00000000000006 + |angle| * 0.0000000000000012) * (p.norm + 2 ^ (-1000 : ℤ)) := by
  have h0 : (0 : ℝ) < 2 ^ (-1000 : ℤ) := by positivity
  have p0 := P3.norm_nonneg p
  have F := double_at (s := p.norm + 2 ^ (-1000 : ℤ)) (by linarith) hp
  have F1 := double_at_one
  have hu : (2 : ℝ) ^ (-53 : ℤ) = 1 / 9007199254740992 := by norm_num
  obtain ⟨a1, a2⟩ := angle_near F1 hu.le ha
  have hs : 0 ≤ p.norm + 2 ^ (-1000 : ℤ) := by linarith
  have an := abs_nonneg angle
  constructor
  · have m := apply_near h0 F (matrix_near F1 (θ := double (angle * degToRadR double)) (L.cos _) (L.sin _) hk) (by rw [← turn_eq]; exact turn_norm _ hk.unit p)
    rw [← turn_eq] at m
    have t := turn_angle (double (angle * degToRadR double)) (angle * π / 180) hk.unit p
    have e : rotated C S angle axis p - turn (angle * π / 180) k p = (rotated C S angle axis p - turn (double (angle * degToRadR double)) k p) +
        (turn (double (angle * degToRadR double)) k p - turn (angle * π / 180) k p) := by ext <;> simp
    rw [e]
    refine (Rounded.norm_add_le _ _).trans ?_
    have t2 : |double (angle * degToRadR double) - angle * π / 180| * p.norm ≤ (|angle| * 0.0000000000000012 + 2 ^ (-53 : ℤ)) * (p.norm + 2 ^ (-1000 : ℤ)) :=
      mul_le_mul a1 (by linarith) p0 (by positivity)
    refine (add_le_add m (t.trans t2)).trans ?_
    rw [← add_mul]
    refine mul_le_mul_of_nonneg_right ?_ hs
    rw [hu]
    norm_num
    linarith
  · have m := quat_near h0 F1 F (θ := 2 * double (double (angle * degToRadR double) * 0.5)) (by rw [mul_div_cancel_left₀ _ two_ne_zero]; exact L.cos _)
      (by rw [mul_div_cancel_left₀ _ two_ne_zero]; exact L.sin _) hk
    have t := turn_angle (2 * double (double (angle * degToRadR double) * 0.5)) (angle * π / 180) hk.unit p
    have e : rotatedQ C S angle axis p - turn (angle * π / 180) k p = (rotatedQ C S angle axis p - turn (2 * double (double (angle * degToRadR double) * 0.5)) k p) +
        (turn (2 * double (double (angle * degToRadR double) * 0.5)) k p - turn (angle * π / 180) k p) := by ext <;> simp
    rw [e]
    refine (Rounded.norm_add_le _ _).trans ?_
    have t2 : |2 * double (double (angle * degToRadR double) * 0.5) - angle * π / 180| * p.norm ≤ (|angle| * 0.0000000000000012 + 2 ^ (-53 : ℤ)) * (p.norm + 2 ^ (-1000 : ℤ)) :=
      mul_le_mul a2 (by linarith) p0 (by positivity)
    refine (add_le_add m (t.trans t2)).trans ?_
    rw [← add_mul]
    refine mul_le_mul_of_nonneg_right ?_ hs
    rw [hu]
    norm_num
    linarith

/-- **C123** drift: after `n` rotations by the same angle the point is where one turn by `n` times the
angle takes it, up to twice `n` times the error of one rotation -/
theorem rotation_drift (L : LibTrig (2 ^ (-53 : ℤ)) C S) {axis k : P3 ℝ} (hk : NearUnit (2 ^ (-53 : ℤ)) axis k) {angle : ℝ} (ha : |angle| ≤ 50000)
    {p : P3 ℝ} (hp : p.norm ≤ 2 ^ (999 : ℤ)) {n : ℕ} :
    (n * (0.000000000000027 + |angle| * 0.0000000000000012) ≤ 1 / 2 → ((rotated C S angle axis)^[n] p - turn (n * (angle * π / 180)) k p).norm ≤
      2 * (n * (0.000000000000027 + |angle| * 0.0000000000000012)) * (p.norm + 2 ^ (-1000 : ℤ))) ∧
    (n * (0.00000000000006 + |angle| * 0.0000000000000012) ≤ 1 / 2 → ((rotatedQ C S angle axis)^[n] p - turn (n * (angle * π / 180)) k p).norm ≤
      2 * (n * (0.00000000000006 + |angle| * 0.0000000000000012)) * (p.norm + 2 ^ (-1000 : ℤ))) := by
  have h0 : (0 : ℝ) < 2 ^ (-1000 : ℤ) := by positivity
  have h1 : (2 : ℝ) ^ (-1000 : ℤ) ≤ 2 ^ (999 : ℤ) := zpow_le_zpow_right₀ (by norm_num) (by norm_num)
  have h2 : (2 : ℝ) ^ (1001 : ℤ) = 4 * 2 ^ (999 : ℤ) := by
    rw [show (1001 : ℤ) = 2 + 999 by norm_num, zpow_add₀ (by norm_num)]; norm_num
  have p0 := P3.norm_nonneg p
  have hs : 0 ≤ p.norm + 2 ^ (-1000 : ℤ) := by linarith
  have key : ∀ (f : P3 ℝ → P3 ℝ) (δ : ℝ), 0 ≤ δ → (∀ q : P3 ℝ, q.norm + 2 ^ (-1000 : ℤ) ≤ 2 ^ (1001 : ℤ) →
      (f q - turn (angle * π / 180) k q).norm ≤ δ * (q.norm + 2 ^ (-1000 : ℤ))) → n * δ ≤ 1 / 2 →
      (f^[n] p - turn (n * (angle * π / 180)) k p).norm ≤ 2 * (n * δ) * (p.norm + 2 ^ (-1000 : ℤ)) := by
    intro f δ hδ hf hn
    have pw := pow_small hδ hn
    have hd : ∀ a b, (turn (angle * π / 180) k a - turn (angle * π / 180) k b).norm = (a - b).norm := by
      intro a b
      rw [turn_sub _ hk.unit, turn_norm _ hk.unit]
    have hle : (1 + δ) ^ n * (p.norm + 2 ^ (-1000 : ℤ)) ≤ 2 * (p.norm + 2 ^ (-1000 : ℤ)) := mul_le_mul_of_nonneg_right (by linarith) hs
    obtain ⟨a, -⟩ := iterate_near (R := 2 ^ (1001 : ℤ)) hδ hd (fun q => turn_norm _ hk.unit q) hf p hs n (by
      refine hle.trans ?_
      rw [h2]
      generalize (2 : ℝ) ^ (999 : ℤ) = B at *
      generalize (2 : ℝ) ^ (-1000 : ℤ) = b at *
      linarith)
    rw [turn_iterate _ hk.unit] at a
    refine a.trans (mul_le_mul_of_nonneg_right (by linarith) hs)
  have an := abs_nonneg angle
  exact ⟨key _ _ (by positivity) fun q hq => (rotation_double L hk ha hq).1, key _ _ (by positivity) fun q hq => (rotation_double L hk ha hq).2⟩

/-- **C123** a body stays rigid: distances between its points are kept by `n` rotations in double -/
theorem rotation_rigid (L : LibTrig (2 ^ (-53 : ℤ)) C S) {axis k : P3 ℝ} (hk : NearUnit (2 ^ (-53 : ℤ)) axis k) {angle : ℝ} (ha : |angle| ≤ 50000)
    {p q : P3 ℝ} (hp : p.norm ≤ 2 ^ (999 : ℤ)) (hq : q.norm ≤ 2 ^ (999 : ℤ)) {n : ℕ} (hn : n * (0.00000000000006 + |angle| * 0.0000000000000012) ≤ 1 / 2) :
    |((rotated C S angle axis)^[n] p - (rotated C S angle axis)^[n] q).norm - (p - q).norm| ≤
      2 * (n * (0.000000000000027 + |angle| * 0.0000000000000012)) * (p.norm + q.norm + 2 * 2 ^ (-1000 : ℤ)) ∧
    |((rotatedQ C S angle axis)^[n] p - (rotatedQ C S angle axis)^[n] q).norm - (p - q).norm| ≤
      2 * (n * (0.00000000000006 + |angle| * 0.0000000000000012)) * (p.norm + q.norm + 2 * 2 ^ (-1000 : ℤ)) := by
  have h0 : (0 : ℝ) < 2 ^ (-1000 : ℤ) := by positivity
  have n0 : (0 : ℝ) ≤ n := Nat.cast_nonneg n
  have hn1 : n * (0.000000000000027 + |angle| * 0.0000000000000012) ≤ 1 / 2 :=
    le_trans (mul_le_mul_of_nonneg_left (by norm_num) n0) hn
  obtain ⟨a1, b1⟩ := rotation_drift L hk ha hp (n := n)
  obtain ⟨a2, b2⟩ := rotation_drift L hk ha hq (n := n)
  have key : ∀ (x y : P3 ℝ) (A B : ℝ), (x - turn (n * (angle * π / 180)) k p).norm ≤ A → (y - turn (n * (angle * π / 180)) k q).norm ≤ B →
      |(x - y).norm - (p - q).norm| ≤ A + B := by
    intro x y A B hA hB
    have e := turn_norm (n * (angle * π / 180)) hk.unit (p - q)
    rw [← turn_sub _ hk.unit] at e
    rw [← e]
    generalize turn (n * (angle * π / 180)) k p = x' at *
    generalize turn (n * (angle * π / 180)) k q = y' at *
    have e1 : x - y = (x' - y') + ((x - x') - (y - y')) := by ext <;> simp <;> ring
    have e2 : x' - y' = (x - y) + ((y - y') - (x - x')) := by ext <;> simp <;> ring
    have t1 := Rounded.norm_add_le (x' - y') ((x - x') - (y - y'))
    have t2 := Rounded.norm_sub_le (x - x') (y - y')
    have t3 := Rounded.norm_add_le (x - y) ((y - y') - (x - x'))
    have t4 := Rounded.norm_sub_le (y - y') (x - x')
    rw [← e1] at t1
    rw [← e2] at t3
    rw [abs_le]; constructor <;> linarith
  constructor
  · refine (key _ _ _ _ (a1 hn1) (a2 hn1)).trans (le_of_eq (by ring))
  · refine (key _ _ _ _ (b1 hn) (b2 hn)).trans (le_of_eq (by ring))

/-! ### Euler angles -/

/-- what `RotationEulerAngles` does: a turn around y, a mirror image, a turn around x and a turn around z (specification) -/
noncomputable def eulerTurn (yaw pitch roll : ℝ) (p : P3 ℝ) : P3 ℝ :=
  let q := turn yaw ⟨0, 1, 0⟩ p
  turn (-roll) ⟨0, 0, 1⟩ (turn (-pitch) ⟨1, 0, 0⟩ ⟨q.x, -q.y, q.z⟩)

theorem eulerTurn_eq (yaw pitch roll : ℝ) (p : P3 ℝ) :
    eulerCS (cos yaw) (sin yaw) (cos pitch) (sin pitch) (cos roll) (sin roll) p = eulerTurn yaw pitch roll p := by
  unfold eulerTurn turn eulerCS
  ext <;> simp [P3.cross, P3.dot] <;> ring

theorem unit_x : (⟨1, 0, 0⟩ : P3 ℝ).normSq = 1 := by simp [P3.normSq]
theorem unit_y : (⟨0, 1, 0⟩ : P3 ℝ).normSq = 1 := by simp [P3.normSq]
theorem unit_z : (⟨0, 0, 1⟩ : P3 ℝ).normSq = 1 := by simp [P3.normSq]

theorem mirror_norm (p : P3 ℝ) : (⟨p.x, -p.y, p.z⟩ : P3 ℝ).norm = p.norm := by
  rw [P3.norm_eq, P3.norm_eq]; simp [P3.normSq]

theorem eulerTurn_angle (a b c a' b' c' : ℝ) (p : P3 ℝ) : (eulerTurn a b c p - eulerTurn a' b' c' p).norm ≤ (|a - a'| + |b - b'| + |c - c'|) * p.norm := by
  unfold eulerTurn
  have h1 := turn_angle a a' unit_y p
  have n1 := turn_norm a unit_y p
  generalize turn a ⟨0, 1, 0⟩ p = q at *
  generalize turn a' ⟨0, 1, 0⟩ p = q' at *
  have m := mirror_norm (q - q')
  have m' := mirror_norm q
  rw [show (⟨(q - q').x, -(q - q').y, (q - q').z⟩ : P3 ℝ) = ⟨q.x, -q.y, q.z⟩ - ⟨q'.x, -q'.y, q'.z⟩ by ext <;> simp; ring] at m
  dsimp only
  generalize (⟨q.x, -q.y, q.z⟩ : P3 ℝ) = w at *
  generalize (⟨q'.x, -q'.y, q'.z⟩ : P3 ℝ) = w' at *
  rw [← m] at h1
  have h2 := turn_angle (-b) (-b') unit_x w
  have s2 := turn_norm (-b') unit_x (w - w')
  rw [← turn_sub _ unit_x] at s2
  have n2 := turn_norm (-b) unit_x w
  generalize turn (-b) ⟨1, 0, 0⟩ w = v at *
  generalize turn (-b') ⟨1, 0, 0⟩ w = v' at *
  generalize turn (-b') ⟨1, 0, 0⟩ w' = v'' at *
  have h3 := turn_angle (-c) (-c') unit_z v
  have s3 := turn_norm (-c') unit_z (v - v'')
  rw [← turn_sub _ unit_z] at s3
  generalize turn (-c) ⟨0, 0, 1⟩ v = z at *
  generalize turn (-c') ⟨0, 0, 1⟩ v = z' at *
  generalize turn (-c') ⟨0, 0, 1⟩ v'' = z'' at *
  have t1 := Rounded.norm_add_le (z - z') (z' - z'')
  have t2 := Rounded.norm_add_le (v - v') (v' - v'')
  rw [show (z - z') + (z' - z'') = z - z'' by ext <;> simp] at t1
  rw [show (v - v') + (v' - v'') = v - v'' by ext <;> simp] at t2
  rw [show -b - -b' = -(b - b') by ring, abs_neg, m', n1] at h2
  rw [show -c - -c' = -(c - c') by ring, abs_neg, n2, m', n1] at h3
  linarith

theorem eulerTurn_norm (a b c : ℝ) (p : P3 ℝ) : (eulerTurn a b c p).norm = p.norm := by
  unfold eulerTurn
  rw [turn_norm _ unit_z, turn_norm _ unit_x, mirror_norm, turn_norm _ unit_y]

theorem euler_near {h : ℝ} (h0 : 0 < h) {p : P3 ℝ} (F : FlAt u (p.norm + h) fl) {a b c yc ys pc ps rc rs : ℝ} (hyc : |yc - cos a| ≤ 2 * u) (hys : |ys - sin a| ≤ 2 * u)
    (hpc : |pc - cos b| ≤ 2 * u) (hps : |ps - sin b| ≤ 2 * u) (hrc : |rc - cos c| ≤ 2 * u) (hrs : |rs - sin c| ≤ 2 * u) :
    (eulerCSR fl yc ys pc ps rc rs p - eulerTurn a b c p).norm ≤ 84 * u * (p.norm + h) := by
  rw [← eulerTurn_eq]
  have hp0 := P3.norm_nonneg p
  obtain ⟨u0, u1, s0, -⟩ := id F
  obtain ⟨px, py, pz⟩ := coord_norm p
  have na := coord_norm (eulerTurn a 0 0 p)
  have nb := coord_norm (eulerTurn a b 0 p)
  have nc := coord_norm (eulerTurn a b c p)
  rw [eulerTurn_norm] at na nb nc
  rw [← eulerTurn_eq] at na nb nc
  obtain ⟨x1, -, z1⟩ := na
  obtain ⟨-, y1, z2⟩ := nb
  obtain ⟨x2, y2, -⟩ := nc
  simp only [eulerCS, cos_zero, sin_zero, mul_zero, mul_one, add_zero, sub_zero] at x1 z1 y1 z2 x2 y2
  have cp : ∀ {x' θ : ℝ}, |x' - cos θ| ≤ 2 * u → Appr u 1 2 1 x' (cos θ) := fun {_ θ} h => ⟨by linarith, by linarith [abs_cos_le_one θ]⟩
  have sp : ∀ {x' θ : ℝ}, |x' - sin θ| ≤ 2 * u → Appr u 1 2 1 x' (sin θ) := fun {_ θ} h => ⟨by linarith, by linarith [abs_sin_le_one θ]⟩
  set s := p.norm + h with hs
  have ax : Appr u s 0 1 p.x p.x := Appr.exact (by linarith)
  have ay : Appr u s 0 1 p.y p.y := Appr.exact (by linarith)
  have az : Appr u s 0 1 p.z p.z := Appr.exact (by linarith)
  have pr : ∀ {v' v a' a e : ℝ}, e ≤ 30 → Appr u s e 1 v' v → Appr u 1 2 1 a' a → Appr u s (e + 5) 1 (fl (v' * a')) (v * a) := by
    intro v' v a' a e he hv ha
    have := (hv.mul' u0 u1 s0.le ha (by norm_num) (by linarith)).round F (by linarith) (by norm_num)
    rw [show 2 * 1 + 1 * e + 1 + 1 * 1 + 1 = e + 5 by ring, one_mul] at this
    exact this
  have sm : ∀ {v' v w' w e1 e2 : ℝ}, e1 + e2 ≤ 100 → Appr u s e1 1 v' v → Appr u s e2 1 w' w → |v + w| ≤ p.norm → Appr u s (e1 + e2 + 2) 1 (fl (v' + w')) (v + w) := by
    intro v' v w' w e1 e2 he hv hw hb
    have := ((hv.add hw).bound (b1 := 1) (by linarith)).round F (by linarith) (by norm_num)
    rw [show e1 + e2 + 1 + 1 = e1 + e2 + 2 by ring] at this
    exact this
  have sd : ∀ {v' v w' w e1 e2 : ℝ}, e1 + e2 ≤ 100 → Appr u s e1 1 v' v → Appr u s e2 1 w' w → |v - w| ≤ p.norm → Appr u s (e1 + e2 + 2) 1 (fl (v' - w')) (v - w) := by
    intro v' v w' w e1 e2 he hv hw hb
    have := sm he hv hw.neg (by rwa [← sub_eq_add_neg])
    rwa [← sub_eq_add_neg, ← sub_eq_add_neg] at this
  have X1 := sm (by norm_num) (pr (by norm_num) ax (cp hyc)) (pr (by norm_num) az (sp hys)) x1
  have Z1 := sd (by norm_num) (pr (by norm_num) az (cp hyc)) (pr (by norm_num) ax (sp hys)) z1
  norm_num1 at X1 Z1
  have Y1 := sd (by norm_num) (pr (by norm_num) Z1 (sp hps)) (pr (by norm_num) ay (cp hpc)) y1
  have Z2 := sm (by norm_num) (pr (by norm_num) Z1 (cp hpc)) (pr (by norm_num) ay (sp hps)) z2
  norm_num1 at Y1 Z2
  have X2 := sm (by norm_num) (pr (by norm_num) X1 (cp hrc)) (pr (by norm_num) Y1 (sp hrs)) x2
  have Y2 := sd (by norm_num) (pr (by norm_num) Y1 (cp hrc)) (pr (by norm_num) X1 (sp hrs)) y2
  norm_num1 at X2 Y2
  have us : 0 ≤ u * s := mul_nonneg u0 s0.le
  refine (norm_of_coords (d := 48 * (u * s)) X2.near Y2.near (Z2.near.trans (by linarith))).trans ?_
  linarith

/-- **C123** Euler angles in double: the result is the turn around y, the mirror image, the turn around x and the turn around z -/
theorem euler_double (L : LibTrig (2 ^ (-53 : ℤ)) C S) {yaw pitch roll : ℝ} (hy : |yaw| ≤ 50000) (hp' : |pitch| ≤ 50000) (hr : |roll| ≤ 50000)
    {p : P3 ℝ} (hp : p.norm + 2 ^ (-1000 : ℤ) ≤ 2 ^ (1001 : ℤ)) :
    (eulerR double C S yaw pitch roll p - eulerTurn (yaw * π / 180) (pitch * π / 180) (roll * π / 180) p).norm ≤
      (0.00000000000001 + (|yaw| + |pitch| + |roll|) * 0.0000000000000012) * (p.norm + 2 ^ (-1000 : ℤ)) := by
  have h0 : (0 : ℝ) < 2 ^ (-1000 : ℤ) := by positivity
  have p0 := P3.norm_nonneg p
  have F := double_at (s := p.norm + 2 ^ (-1000 : ℤ)) (by linarith) hp
  have F1 := double_at_one
  have hu : (2 : ℝ) ^ (-53 : ℤ) = 1 / 9007199254740992 := by norm_num
  obtain ⟨a1, -⟩ := angle_near F1 hu.le hy
  obtain ⟨a2, -⟩ := angle_near F1 hu.le hp'
  obtain ⟨a3, -⟩ := angle_near F1 hu.le hr
  have m : (eulerR double C S yaw pitch roll p - _).norm ≤ _ := euler_near h0 F (L.cos (double (yaw * degToRadR double))) (L.sin _) (L.cos (double (pitch * degToRadR double))) (L.sin _)
    (L.cos (double (roll * degToRadR double))) (L.sin _)
  have t := eulerTurn_angle (double (yaw * degToRadR double)) (double (pitch * degToRadR double)) (double (roll * degToRadR double))
    (yaw * π / 180) (pitch * π / 180) (roll * π / 180) p
  generalize eulerTurn (double (yaw * degToRadR double)) (double (pitch * degToRadR double)) (double (roll * degToRadR double)) p = w at *
  generalize eulerR double C S yaw pitch roll p = z at *
  generalize eulerTurn (yaw * π / 180) (pitch * π / 180) (roll * π / 180) p = v at *
  have e : z - v = (z - w) + (w - v) := by ext <;> simp
  rw [e]
  refine (Rounded.norm_add_le _ _).trans ?_
  have hs : 0 ≤ p.norm + 2 ^ (-1000 : ℤ) := by linarith
  have t2 := mul_le_mul (add_le_add (add_le_add a1 a2) a3) (show p.norm ≤ p.norm + 2 ^ (-1000 : ℤ) by linarith) p0 (by positivity)
  refine (add_le_add m (t.trans t2)).trans ?_
  rw [← add_mul]
  refine mul_le_mul_of_nonneg_right ?_ hs
  rw [hu]
  norm_num
  linarith [abs_nonneg yaw, abs_nonneg pitch, abs_nonneg roll]

/-! ### Meshes -/

/-- `n` calls of `apply_transform` with the same transform -/
theorem apply_many (f : P3 ℝ → P3 ℝ) (m : Mesh ℝ) : ∀ n : ℕ, loopN n (fun _ m => m.applyTransform f) m = m.applyTransform f^[n]
  | 0 => by rw [Mesh.applyTransform_eq]; simp [loopN_zero]
  | n + 1 => by
    rw [loopN_succ, apply_many f m n, Function.iterate_succ', ← CAD.mesh_transform_comp]

/-- **C123** drift of a mesh that is turned `n` times by a fixed angle: the triangles stay the same, and every vertex is where one turn by `n` times the
angle takes it, up to the drift -/
theorem mesh_rotation_drift (L : LibTrig (2 ^ (-53 : ℤ)) C S) {axis k : P3 ℝ} (hk : NearUnit (2 ^ (-53 : ℤ)) axis k) {angle : ℝ} (ha : |angle| ≤ 50000)
    (m : Mesh ℝ) {n : ℕ} (hn : n * (0.000000000000027 + |angle| * 0.0000000000000012) ≤ 1 / 2) :
    ∃ r, loopN n (fun _ m => m.applyTransform (rotated C S angle axis)) m = some r ∧ r.nbVertices = m.nbVertices ∧ r.nbTriangles = m.nbTriangles ∧
      (∀ i, r.getTriangleVertices i = m.getTriangleVertices i) ∧
      ∀ i p, m.getVertex i = some p → p.norm ≤ 2 ^ (999 : ℤ) → ∃ q, r.getVertex i = some q ∧
        (q - turn (n * (angle * π / 180)) k p).norm ≤ 2 * (n * (0.000000000000027 + |angle| * 0.0000000000000012)) * (p.norm + 2 ^ (-1000 : ℤ)) := by
  rw [apply_many]
  obtain ⟨r, h1, -, h2⟩ := CAD.mesh_transform_spec m _ (Mesh.answers_view m) (rotated C S angle axis)^[n]
  refine ⟨r, h1, ?_, ?_, ?_, ?_⟩
  · rw [Mesh.applyTransform_eq, Option.some.injEq] at h1
    rw [← h1]
    simp [Mesh.nbVertices, KernLT.nbVertices]
  · rw [Mesh.applyTransform_eq, Option.some.injEq] at h1
    rw [← h1]; rfl
  · rw [Mesh.applyTransform_eq, Option.some.injEq] at h1
    rw [← h1]; exact fun i => rfl
  · intro i p hi hp
    exact ⟨(rotated C S angle axis)^[n] p, by rw [h2, hi]; rfl, (rotation_drift L hk ha hp).1 hn⟩

/-! ### Translation and scaling -/

theorem round_point (q : P3 ℝ) (hx : |q.x| ≤ 2 ^ (1023 : ℤ)) (hy : |q.y| ≤ 2 ^ (1023 : ℤ)) (hz : |q.z| ≤ 2 ^ (1023 : ℤ)) :
    ((⟨double q.x, double q.y, double q.z⟩ : P3 ℝ) - q).norm ≤ 2 ^ (-53 : ℤ) * q.norm + 2 ^ (-1074 : ℤ) := by
  have ex := Rounded.double_rounds.err _ hx
  have ey := Rounded.double_rounds.err _ hy
  have ez := Rounded.double_rounds.err _ hz
  have e2 : (2 : ℝ) ^ (-1074 : ℤ) = 2 * 2 ^ (-1075 : ℤ) := by
    rw [show (-1074 : ℤ) = 1 + -1075 by norm_num, zpow_add₀ (by norm_num)]; norm_num
  have hη : (0 : ℝ) < 2 ^ (-1075 : ℤ) := by positivity
  have hu : (0 : ℝ) < 2 ^ (-53 : ℤ) := by positivity
  rw [e2]
  clear e2 hx hy hz
  generalize (2 : ℝ) ^ (-1075 : ℤ) = η at *
  generalize (2 : ℝ) ^ (-53 : ℤ) = u at *
  generalize double q.x = x at *
  generalize double q.y = y at *
  generalize double q.z = z at *
  set a : P3 ℝ := ⟨u * |q.x|, u * |q.y|, u * |q.z|⟩ with ha
  set b : P3 ℝ := ⟨η, η, η⟩ with hb
  have na : a.norm = u * q.norm := by
    rw [P3.norm_eq, P3.norm_eq]
    conv_rhs => rw [← sqrt_sq hu.le, ← sqrt_mul (by positivity)]
    congr 1
    simp only [P3.normSq, ha]
    have := abs_mul_abs_self q.x
    have := abs_mul_abs_self q.y
    have := abs_mul_abs_self q.z
    linear_combination u * u * ‹|q.x| * |q.x| = q.x * q.x› + u * u * ‹|q.y| * |q.y| = q.y * q.y› + u * u * ‹|q.z| * |q.z| = q.z * q.z›
  have nb : b.norm ≤ 2 * η := by
    refine (norm_of_coords (d := η) ?_ ?_ ?_).trans (by linarith) <;> simp only [hb] <;> rw [abs_of_pos hη]
  have nab := Rounded.norm_add_le a b
  have : ((⟨x, y, z⟩ : P3 ℝ) - q).norm ≤ (a + b).norm := by
    rw [P3.norm_eq, P3.norm_eq]
    refine sqrt_le_sqrt ?_
    simp only [P3.normSq, P3.sub_x, P3.sub_y, P3.sub_z, P3.add_x, P3.add_y, P3.add_z, ha, hb]
    have sq : ∀ {a b : ℝ}, |a| ≤ b → a * a ≤ b * b := fun {a b} h => by
      rw [← abs_mul_abs_self a]; exact mul_self_le_mul_self (abs_nonneg _) h
    exact add_le_add (add_le_add (sq ex) (sq ey)) (sq ez)
  linarith

/-- **C123** translation and scaling in double: every coordinate is rounded once -/
theorem translation_scale_double {t p f : P3 ℝ} (h1 : |p.x + t.x| ≤ 2 ^ (1023 : ℤ)) (h2 : |p.y + t.y| ≤ 2 ^ (1023 : ℤ)) (h3 : |p.z + t.z| ≤ 2 ^ (1023 : ℤ))
    (k1 : |p.x * f.x| ≤ 2 ^ (1023 : ℤ)) (k2 : |p.y * f.y| ≤ 2 ^ (1023 : ℤ)) (k3 : |p.z * f.z| ≤ 2 ^ (1023 : ℤ)) :
    (translationR double t p - (p + t)).norm ≤ 2 ^ (-53 : ℤ) * (p + t).norm + 2 ^ (-1074 : ℤ) ∧
    (scaleR double f.x f.y f.z p - ⟨p.x * f.x, p.y * f.y, p.z * f.z⟩).norm ≤ 2 ^ (-53 : ℤ) * (⟨p.x * f.x, p.y * f.y, p.z * f.z⟩ : P3 ℝ).norm + 2 ^ (-1074 : ℤ) := by
  have a := round_point (p + t) h1 h2 h3
  have b := round_point ⟨p.x * f.x, p.y * f.y, p.z * f.z⟩ k1 k2 k3
  simp only [translationR, Rounded.add, scaleR]
  simp only [P3.add_x, P3.add_y, P3.add_z] at a
  exact ⟨a, b⟩

/-! ### Concrete cases -/

/-- a library that rounds the exact cosine and sine to the nearest double meets the assumption -/
theorem lib_trig : LibTrig (2 ^ (-53 : ℤ)) (fun x => double (cos x)) (fun x => double (sin x)) := by
  have key : ∀ y : ℝ, |y| ≤ 1 → |double y - y| ≤ 2 * 2 ^ (-53 : ℤ) := by
    intro y hy
    have h := double_at_one.err y (by linarith)
    have : (2 : ℝ) ^ (-53 : ℤ) * (|y| + 1 / 4) ≤ 2 ^ (-53 : ℤ) * 2 := mul_le_mul_of_nonneg_left (by linarith) (by positivity)
    exact h.trans (this.trans (by rw [mul_comm]))
  exact ⟨fun x => key _ (abs_cos_le_one x), fun x => key _ (abs_sin_le_one x)⟩

/-- the z axis is a unit vector -/
theorem axis_z : NearUnit (2 ^ (-53 : ℤ)) ⟨0, 0, 1⟩ ⟨0, 0, 1⟩ := ⟨unit_z, by simp, by simp, by simp⟩

/-- an axis that is not exactly a unit vector -/
example : NearUnit (2 ^ (-53 : ℤ)) ⟨double 0.6, double 0.8, 0⟩ ⟨0.6, 0.8, 0⟩ := by
  have key : ∀ y : ℝ, |y| ≤ 1 → |double y - y| ≤ 4 * 2 ^ (-53 : ℤ) := by
    intro y hy
    have h := double_at_one.err y (by linarith)
    have : (2 : ℝ) ^ (-53 : ℤ) * (|y| + 1 / 4) ≤ 2 ^ (-53 : ℤ) * 4 := mul_le_mul_of_nonneg_left (by linarith) (by positivity)
    exact h.trans (this.trans (by rw [mul_comm]))
  exact ⟨by norm_num [P3.normSq], key _ (by norm_num [abs_of_nonneg]), key _ (by norm_num [abs_of_nonneg]), by simp⟩

/-- 36 turns by 10 degrees bring every point back -/
example (p : P3 ℝ) (hp : p.norm ≤ 2 ^ (999 : ℤ)) :
    ((rotated (fun x => double (cos x)) (fun x => double (sin x)) 10 ⟨0, 0, 1⟩)^[36] p - p).norm ≤ 0.000000000003 * (p.norm + 2 ^ (-1000 : ℤ)) := by
  have h := (rotation_drift lib_trig axis_z (angle := 10) (by rw [abs_of_nonneg] <;> norm_num) hp (n := 36)).1 (by rw [abs_of_nonneg] <;> norm_num)
  have e : turn (((36 : ℕ) : ℝ) * (10 * π / 180)) ⟨0, 0, 1⟩ p = p := by
    rw [show ((36 : ℕ) : ℝ) * (10 * π / 180) = 2 * π by push_cast; ring]
    unfold turn
    rw [cos_two_pi, sin_two_pi]
    ext <;> simp
  rw [e] at h
  refine h.trans (mul_le_mul_of_nonneg_right ?_ ?_)
  · rw [abs_of_nonneg] <;> norm_num
  · have := P3.norm_nonneg p; positivity

end Transform
end CAD
