import Verif.Props.RendererView
import Verif.Props.RendererCover

/-! The renderer: where `set_camera` puts the eye and what it sees in the middle (C109). -/

namespace CAD.Render
open Transform

/-- an angle in degrees, with the constant of the code -/
noncomputable abbrev cosDeg (a : ℝ) : ℝ := Real.cos (a * (2 * 3.14159265359 / 360))
noncomputable abbrev sinDeg (a : ℝ) : ℝ := Real.sin (a * (2 * 3.14159265359 / 360))

/-- **C109**: after `set_camera` the camera looks in the direction `d` given by yaw and pitch;
the eye is `ahead` behind the origin `o` of the camera; `o` itself is seen in the middle pixel.
There are two unit vectors `R` and `D` that span the screen such that a point `p` off the plane
of the eye is seen `zoom * (R-distance) / depth` columns right of the middle and
`zoom * (D-distance) / depth` rows below, rounded, with the depth `1 / depth`. -/
theorem camera_aims (c : Camera ℝ) {W H : Int} (hW : 0 ≤ W ∧ W ≤ 2147483647) (hH : 0 ≤ H ∧ H ≤ 2147483647)
    (o : P3 ℝ) (ahead yaw pitch roll zoom : ℝ) :
    let cam := c.setCamera W H o.x o.y o.z ahead yaw pitch roll zoom
    let d : P3 ℝ := ⟨-(sinDeg yaw * cosDeg pitch), sinDeg pitch, cosDeg yaw * cosDeg pitch⟩
    let e : P3 ℝ := o - ahead • d
    d.normSq = 1 ∧
    (ahead ≠ 0 → cam.project o = some ⟨W / 2, H / 2, 1 / ahead⟩) ∧
    ∃ R D : P3 ℝ, R.normSq = 1 ∧ D.normSq = 1 ∧ R.dot D = 0 ∧ R.cross D = -d ∧
      ∀ p, let z := (p - e).dot d
        let u := (p - e).dot R * zoom / z + ((W / 2 : Int) : ℝ)
        let v := (p - e).dot D * zoom / z + ((H / 2 : Int) : ℝ)
        (z = 0 → cam.project p = none) ∧
        (z ≠ 0 → 0 ≤ u ∧ u ≤ 2147483646 → 0 ≤ v ∧ v ≤ 2147483646 →
          cam.project p = some ⟨⌊u + 1 / 2⌋, ⌊v + 1 / 2⌋, 1 / z⟩) := by
  intro cam d e
  have hw2 : Int.tdiv W 2 = W / 2 := Int.tdiv_eq_ediv_of_nonneg hW.1
  have hh2 : Int.tdiv H 2 = H / 2 := Int.tdiv_eq_ediv_of_nonneg hH.1
  have cx : cam.cx = W / 2 := hw2
  have cy : cam.cy = H / 2 := hh2
  have hz : cam.zoom = zoom := rfl
  have k1 := Real.sin_sq_add_cos_sq (yaw * (2 * 3.14159265359 / 360))
  have k2 := Real.sin_sq_add_cos_sq (pitch * (2 * 3.14159265359 / 360))
  have k3 := Real.sin_sq_add_cos_sq (roll * (2 * 3.14159265359 / 360))
  have hloc : ∀ p, cam.localRef p = (eulerCS (cosDeg yaw) (sinDeg yaw) (cosDeg pitch) (sinDeg pitch) (cosDeg roll) (sinDeg roll) ⟨p.x - o.x, p.y - o.y, p.z - o.z⟩ + ⟨0, 0, ahead⟩) := by
    intro p
    simp only [cam, Camera.localRef, Camera.setCamera, Camera.setScreen, Camera.setAngles, Camera.setOrigin, euler, degToRad, cosDeg, sinDeg]
    ext <;> simp [eulerCS]
  have he : e = o - ahead • d := rfl
  have hd : d = ⟨-(sinDeg yaw * cosDeg pitch), sinDeg pitch, cosDeg yaw * cosDeg pitch⟩ := rfl
  clear_value cam e d
  simp only [cosDeg, sinDeg] at hd hloc
  generalize Real.cos (yaw * (2 * 3.14159265359 / 360)) = yc at *
  generalize Real.sin (yaw * (2 * 3.14159265359 / 360)) = ys at *
  generalize Real.cos (pitch * (2 * 3.14159265359 / 360)) = pc at *
  generalize Real.sin (pitch * (2 * 3.14159265359 / 360)) = ps at *
  generalize Real.cos (roll * (2 * 3.14159265359 / 360)) = rc at *
  generalize Real.sin (roll * (2 * 3.14159265359 / 360)) = rs at *
  have hd1 : d.normSq = 1 := by
    simp only [hd, P3.normSq, P3.dot]
    linear_combination (pc ^ 2) * k1 + k2
  have key : ∀ p : P3 ℝ, cam.localRef p = ⟨(p - e).dot ⟨yc * rc - ys * ps * rs, -(pc * rs), ys * rc + yc * ps * rs⟩,
      (p - e).dot ⟨-(ys * ps * rc) - yc * rs, -(pc * rc), yc * ps * rc - ys * rs⟩, (p - e).dot d⟩ := by
    intro p
    rw [hloc]
    ext <;> simp only [eulerCS, he, hd, P3.dot, P3.sub_x, P3.sub_y, P3.sub_z, P3.add_x, P3.add_y, P3.add_z, P3.smul_x, P3.smul_y, P3.smul_z]
    · linear_combination (-ahead * pc * ps * rs) * k1
    · linear_combination (-ahead * pc * ps * rc) * k1
    · linear_combination (-ahead * pc ^ 2) * k1 - ahead * k2
  have htr : ∀ s : ℝ, 0 ≤ s → s ≤ 2147483646 → toInt (s + 1 / 2) = some ⌊s + 1 / 2⌋ := by
    intro s h0 h1
    have ht : trunc (s + 1 / 2) = ⌊s + 1 / 2⌋ := by unfold trunc; rw [if_pos (by linarith)]
    have l1 : (0 : Int) ≤ ⌊s + 1 / 2⌋ := Int.floor_nonneg.2 (by linarith)
    have l2 : ⌊s + 1 / 2⌋ ≤ (2147483646 : Int) := by
      rw [← Int.lt_add_one_iff, Int.floor_lt]
      push_cast
      linarith
    rw [toInt_some (by rw [ht]; omega) (by rw [ht]; omega), ht]
  have hproj : ∀ p, (cam.localRef p).z ≠ 0 →
      0 ≤ (cam.localRef p).x * zoom / (cam.localRef p).z + ((W / 2 : Int) : ℝ) ∧ (cam.localRef p).x * zoom / (cam.localRef p).z + ((W / 2 : Int) : ℝ) ≤ 2147483646 →
      0 ≤ (cam.localRef p).y * zoom / (cam.localRef p).z + ((H / 2 : Int) : ℝ) ∧ (cam.localRef p).y * zoom / (cam.localRef p).z + ((H / 2 : Int) : ℝ) ≤ 2147483646 →
      cam.project p = some ⟨⌊(cam.localRef p).x * zoom / (cam.localRef p).z + ((W / 2 : Int) : ℝ) + 1 / 2⌋,
        ⌊(cam.localRef p).y * zoom / (cam.localRef p).z + ((H / 2 : Int) : ℝ) + 1 / 2⌋, 1 / (cam.localRef p).z⟩ := by
    intro p h0 h1 h2
    unfold Camera.project
    simp only [bind]
    rw [assert_true h0, hz, cx, cy, htr _ h1.1 h1.2, htr _ h2.1 h2.2]
    rfl
  refine ⟨hd1, ?_, ⟨yc * rc - ys * ps * rs, -(pc * rs), ys * rc + yc * ps * rs⟩, ⟨-(ys * ps * rc) - yc * rs, -(pc * rc), yc * ps * rc - ys * rs⟩, ?_, ?_, ?_, ?_, ?_⟩
  · intro ha
    have ho : cam.localRef o = ⟨0, 0, ahead⟩ := by
      rw [hloc]; ext <;> simp [eulerCS]
    have b1 : (0 : ℝ) ≤ ((W / 2 : Int) : ℝ) ∧ ((W / 2 : Int) : ℝ) ≤ 2147483646 := by
      constructor
      · exact_mod_cast (by omega : (0 : Int) ≤ W / 2)
      · exact_mod_cast (by omega : W / 2 ≤ (2147483646 : Int))
    have b2 : (0 : ℝ) ≤ ((H / 2 : Int) : ℝ) ∧ ((H / 2 : Int) : ℝ) ≤ 2147483646 := by
      constructor
      · exact_mod_cast (by omega : (0 : Int) ≤ H / 2)
      · exact_mod_cast (by omega : H / 2 ≤ (2147483646 : Int))
    have fl : ∀ n : Int, ⌊(n : ℝ) + 1 / 2⌋ = n := by
      intro n
      rw [Int.floor_intCast_add, show ⌊(1 / 2 : ℝ)⌋ = 0 by norm_num]
      simp
    have := hproj o (by rw [ho]; exact ha) (by rw [ho]; simpa using b1) (by rw [ho]; simpa using b2)
    rw [this, ho]
    simp only [zero_mul, zero_div, zero_add]
    rw [fl, fl]
  · simp only [P3.normSq, P3.dot]
    linear_combination (rc ^ 2 + ps ^ 2 * rs ^ 2) * k1 + rs ^ 2 * k2 + k3
  · simp only [P3.normSq, P3.dot]
    linear_combination (rs ^ 2 + ps ^ 2 * rc ^ 2) * k1 + rc ^ 2 * k2 + k3
  · simp only [P3.dot]
    linear_combination (ps ^ 2 * rs * rc - rs * rc) * k1 + rs * rc * k2
  · ext <;> simp only [hd, P3.cross_x, P3.cross_y, P3.cross_z, P3.neg_x, P3.neg_y, P3.neg_z]
    · linear_combination (ys * pc) * k3
    · linear_combination (-ps * k3 - ps * (rs ^ 2 + rc ^ 2) * k1)
    · linear_combination (-yc * pc) * k3
  · intro p z u v
    have hk := key p
    constructor
    · intro h
      exact project_eye_plane (by rw [hk]; exact h)
    · intro h1 h2 h3
      have := hproj p (by rw [hk]; exact h1) (by rw [hk]; exact h2) (by rw [hk]; exact h3)
      rw [this, hk]

/-- a picture of 640 by 480 pixels, the eye ten units from the origin: the origin is in the
middle -/
example (c : Camera ℝ) : (c.setCamera 640 480 0 0 0 10 30 20 5 100).project ⟨0, 0, 0⟩ = some ⟨320, 240, 1 / 10⟩ :=
  (camera_aims c (by norm_num) (by norm_num) ⟨0, 0, 0⟩ 10 30 20 5 100).2.1 (by norm_num)

end CAD.Render
