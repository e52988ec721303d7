import Verif.Props.RendererRounded
import Verif.Props.TransformRounded

/-! C137: where the camera sees a point, in double. -/

namespace CAD.Render
open Transform Real

/-- the point as the camera sees it: the column and row directions and the depth, with `o` the
origin of the camera and the angles in degrees (specification) -/
noncomputable def seen (o : P3 ℝ) (ahead yaw pitch roll : ℝ) (p : P3 ℝ) : P3 ℝ :=
  eulerTurn (yaw * π / 180) (pitch * π / 180) (roll * π / 180) (p - o) + ⟨0, 0, ahead⟩

/-- the size of the numbers that are computed with (specification) -/
noncomputable def reach (o : P3 ℝ) (ahead : ℝ) (p : P3 ℝ) : ℝ := (p - o).norm + |ahead|

/-- the error of a screen coordinate, in pixels (specification) -/
noncomputable def pixelError (R z zoom : ℝ) (centre : Int) : ℝ :=
  0.00000000001 * |zoom| * (R / |z|) ^ 2 + 0.000000000000001 * (|(centre : ℝ)| + 1)

/-- the camera in double after `set_origin`, `set_angles` and `set_screen`, RendererCamera.cpp 16-31; `C` and `S` are the library functions `cos` and `sin`;
`cx` and `cy` are the halves of width and height -/
noncomputable def cameraR (C S : ℝ → ℝ) (o : P3 ℝ) (ahead yaw pitch roll zoom : ℝ) (cx cy : Int) : Camera ℝ :=
  ⟨o.x, o.y, o.z, ahead, zoom, cx, cy, eulerR double C S yaw pitch roll⟩

theorem eulerTurn_sub (a b c : ℝ) (p q : P3 ℝ) : eulerTurn a b c (p - q) = eulerTurn a b c p - eulerTurn a b c q := by
  simp only [← eulerTurn_eq]
  ext <;> simp [eulerCS] <;> ring

/-- the rotated point in double -/
theorem rotated_near {C S : ℝ → ℝ} (L : LibTrig (2 ^ (-53 : ℤ)) C S) {yaw pitch roll : ℝ} (hy : |yaw| ≤ 360) (hp : |pitch| ≤ 360) (hr : |roll| ≤ 360)
    {d : P3 ℝ} {R : ℝ} (hd : d.norm ≤ R) (R1 : 2 ^ (-200 : ℤ) ≤ R) (R2 : R ≤ 2 ^ (200 : ℤ)) :
    (eulerR double C S yaw pitch roll ⟨double d.x, double d.y, double d.z⟩ - eulerTurn (yaw * π / 180) (pitch * π / 180) (roll * π / 180) d).norm ≤
      0.0000000000015 * R := by
  obtain ⟨cx, cy, cz⟩ := coord_norm d
  have up : (2 : ℝ) ^ (200 : ℤ) ≤ 2 ^ (1000 : ℤ) := zpow_le_zpow_right₀ one_le_two (by norm_num)
  have up' : (2 : ℝ) ^ (1000 : ℤ) ≤ 2 ^ (1023 : ℤ) := zpow_le_zpow_right₀ one_le_two (by norm_num)
  have dB := hd.trans (R2.trans (up.trans up'))
  have a := round_point d (cx.trans dB) (cy.trans dB) (cz.trans dB)
  have R0 : 0 < R := lt_of_lt_of_le (by positivity) R1
  have tiny : (2 : ℝ) ^ (-1000 : ℤ) ≤ 0.0000000000000001 * R := by
    have : (2 : ℝ) ^ (-1000 : ℤ) = 2 ^ (-800 : ℤ) * 2 ^ (-200 : ℤ) := by rw [← zpow_add₀ two_ne_zero]; norm_num
    rw [this]
    refine mul_le_mul ?_ R1 (by positivity) (by norm_num)
    have : (2 : ℝ) ^ (-800 : ℤ) ≤ 2 ^ (-60 : ℤ) := zpow_le_zpow_right₀ one_le_two (by norm_num)
    refine this.trans ?_
    norm_num
  have tiny' : (2 : ℝ) ^ (-1074 : ℤ) ≤ 2 ^ (-1000 : ℤ) := zpow_le_zpow_right₀ one_le_two (by norm_num)
  have hu : (2 : ℝ) ^ (-53 : ℤ) ≤ 0.00000000000000012 := by norm_num
  have a' : ((⟨double d.x, double d.y, double d.z⟩ : P3 ℝ) - d).norm ≤ 0.0000000000000003 * R := by
    refine a.trans ?_
    have := mul_le_mul hu hd (P3.norm_nonneg d) (by norm_num)
    generalize (2 : ℝ) ^ (-53 : ℤ) * d.norm = w at *
    generalize (2 : ℝ) ^ (-1074 : ℤ) = w1 at *
    generalize (2 : ℝ) ^ (-1000 : ℤ) = w2 at *
    linarith
  clear a
  generalize (⟨double d.x, double d.y, double d.z⟩ : P3 ℝ) = d' at *
  have n' : d'.norm ≤ 1.0001 * R := by
    have := Rounded.norm_add_le d (d' - d)
    rw [show d + (d' - d) = d' by ext <;> simp] at this
    linarith
  have one : (2 : ℝ) ^ (1001 : ℤ) = 2 * 2 ^ (1000 : ℤ) := by rw [show (1001 : ℤ) = 1 + 1000 by norm_num, zpow_add₀ two_ne_zero]; norm_num
  have e := euler_double L (hy.trans (by norm_num)) (hp.trans (by norm_num)) (hr.trans (by norm_num)) (p := d') (by
    rw [one]
    generalize (2 : ℝ) ^ (-1000 : ℤ) = w at *
    generalize (2 : ℝ) ^ (1000 : ℤ) = w1 at *
    generalize (2 : ℝ) ^ (200 : ℤ) = w2 at *
    linarith)
  have t := eulerTurn_norm (yaw * π / 180) (pitch * π / 180) (roll * π / 180) (d' - d)
  rw [eulerTurn_sub] at t
  have f : (0.00000000000001 + (|yaw| + |pitch| + |roll|) * 0.0000000000000012) * (d'.norm + 2 ^ (-1000 : ℤ)) ≤ 0.00000000000131 * (1.0002 * R) := by
    refine mul_le_mul ?_ ?_ (add_nonneg (P3.norm_nonneg _) (by positivity)) (by norm_num)
    · norm_num at *; linarith
    · generalize (2 : ℝ) ^ (-1000 : ℤ) = w at *
      linarith
  have tr := Rounded.norm_add_le (eulerR double C S yaw pitch roll d' - eulerTurn (yaw * π / 180) (pitch * π / 180) (roll * π / 180) d')
    (eulerTurn (yaw * π / 180) (pitch * π / 180) (roll * π / 180) d' - eulerTurn (yaw * π / 180) (pitch * π / 180) (roll * π / 180) d)
  rw [t] at tr
  generalize eulerR double C S yaw pitch roll d' = x at *
  generalize eulerTurn (yaw * π / 180) (pitch * π / 180) (roll * π / 180) d' = y at *
  generalize eulerTurn (yaw * π / 180) (pitch * π / 180) (roll * π / 180) d = w at *
  rw [show (x - y) + (y - w) = x - w by ext <;> simp] at tr
  refine tr.trans ((add_le_add (e.trans f) a').trans ?_)
  linarith

/-- one screen coordinate: the quotient by the depth, the middle of the screen and the half -/
theorem coord_near {x' x z' z R zoom : ℝ} {k : Int} (hx : |x' - x| ≤ 0.0000000000015 * R) (hx0 : |x| ≤ R)
    (hz : |z' - z| ≤ 0.0000000000016 * R) (hz0 : |z| ≤ R) (zp : 0 < |z|) (hR : R ≤ 100000000000 * |z|) (R1 : 2 ^ (-200 : ℤ) ≤ R) (R2 : R ≤ 2 ^ (200 : ℤ))
    (Z1 : 2 ^ (-200 : ℤ) ≤ |zoom|) (Z2 : |zoom| ≤ 2 ^ (200 : ℤ)) (hk : |(k : ℝ)| ≤ 2147483648) :
    |double (double (double (double (x' * zoom) / z') + k) + 1 / 2) - (x * zoom / z + k + 1 / 2)| ≤ pixelError R z zoom k := by
  have fl : ∀ y : ℝ, |y| ≤ 2 ^ (900 : ℤ) → |double y - y| ≤ 0.00000000000000012 * |y| + 2 ^ (-1075 : ℤ) := by
    intro y hy
    have h2 : (2 : ℝ) ^ (900 : ℤ) ≤ 2 ^ (1023 : ℤ) := zpow_le_zpow_right₀ one_le_two (by norm_num)
    have := Rounded.double_rounds.err y (hy.trans h2)
    have hu : (2 : ℝ) ^ (-53 : ℤ) ≤ 0.00000000000000012 := by norm_num
    have := mul_le_mul_of_nonneg_right hu (abs_nonneg y)
    generalize (2 : ℝ) ^ (-53 : ℤ) * |y| = w at *
    generalize (2 : ℝ) ^ (-1075 : ℤ) = w1 at *
    linarith
  have R0 : 0 < R := lt_of_lt_of_le (by positivity) R1
  have Z0 : 0 < |zoom| := lt_of_lt_of_le (by positivity) Z1
  have RZ1 : (2 : ℝ) ^ (-400 : ℤ) ≤ R * |zoom| := by
    have := mul_le_mul R1 Z1 (by positivity) R0.le
    rwa [← zpow_add₀ two_ne_zero, show (-200 : ℤ) + -200 = -400 by norm_num] at this
  have RZ2 : R * |zoom| ≤ 2 ^ (400 : ℤ) := by
    have := mul_le_mul R2 Z2 Z0.le (by positivity)
    rwa [← zpow_add₀ two_ne_zero, show (200 : ℤ) + 200 = 400 by norm_num] at this
  have ZB : |zoom| ≤ 2 ^ (400 : ℤ) := Z2.trans (zpow_le_zpow_right₀ one_le_two (by norm_num))
  have big1 : (2 : ℝ) ^ (500 : ℤ) ≤ 2 ^ (900 : ℤ) := zpow_le_zpow_right₀ one_le_two (by norm_num)
  have big2 : 1000000000000000000000000 * (2 : ℝ) ^ (400 : ℤ) ≤ 2 ^ (500 : ℤ) := by
    rw [show (500 : ℤ) = 100 + 400 by norm_num, zpow_add₀ two_ne_zero]
    exact mul_le_mul_of_nonneg_right (by norm_num) (by positivity)
  have one1 : (1 : ℝ) ≤ 2 ^ (400 : ℤ) := one_le_zpow₀ one_le_two (by norm_num)
  have η1 : (2 : ℝ) ^ (-1075 : ℤ) ≤ 0.0000000000000000001 * 2 ^ (-400 : ℤ) := by
    rw [show (-1075 : ℤ) = -675 + -400 by norm_num, zpow_add₀ two_ne_zero]
    refine mul_le_mul_of_nonneg_right ?_ (by positivity)
    exact (zpow_le_zpow_right₀ one_le_two (by norm_num : (-675 : ℤ) ≤ -70)).trans (by norm_num)
  have η0 : (0 : ℝ) < 2 ^ (-1075 : ℤ) := by positivity
  have one2 : (2 : ℝ) ^ (-400 : ℤ) ≤ 1 := zpow_le_one_of_nonpos₀ one_le_two (by norm_num)
  generalize (2 : ℝ) ^ (-1075 : ℤ) = η at *
  generalize (2 : ℝ) ^ (900 : ℤ) = B at *
  generalize (2 : ℝ) ^ (500 : ℤ) = B5 at *
  generalize (2 : ℝ) ^ (400 : ℤ) = B4 at *
  generalize (2 : ℝ) ^ (-400 : ℤ) = b4 at *
  clear R1 R2 Z1 Z2
  -- the product
  have p1 : |x' * zoom - x * zoom| ≤ 0.0000000000015 * (R * |zoom|) := by
    rw [← sub_mul, abs_mul]
    have := mul_le_mul_of_nonneg_right hx Z0.le
    linarith
  have p0 : |x * zoom| ≤ R * |zoom| := by rw [abs_mul]; exact mul_le_mul_of_nonneg_right hx0 Z0.le
  have p2 : |x' * zoom| ≤ 1.001 * (R * |zoom|) := by
    have := abs_add_le (x' * zoom - x * zoom) (x * zoom)
    rw [sub_add_cancel] at this
    have : 0 ≤ R * |zoom| := by positivity
    linarith
  set P := R * |zoom| with hP
  have P0 : 0 < P := by positivity
  have p3 := fl (x' * zoom) (by linarith)
  have p4 : |double (x' * zoom) - x * zoom| ≤ 0.0000000000016 * P := by
    have := abs_add_le (double (x' * zoom) - x' * zoom) (x' * zoom - x * zoom)
    rw [sub_add_sub_cancel] at this
    linarith
  generalize double (x' * zoom) = X' at *
  generalize x * zoom = X at *
  clear p1 p2 p3
  -- the quotient
  have z2 : |z| ≤ 1.2 * |z'| := by
    have := abs_add_le z' (z - z')
    rw [add_sub_cancel, abs_sub_comm z] at this
    linarith
  have z'0 : 0 < |z'| := by linarith
  have zn : z ≠ 0 := abs_pos.1 zp
  have z'n : z' ≠ 0 := abs_pos.1 z'0
  have r1 : 1 ≤ R / |z| := by rw [le_div_iff₀ zp]; linarith
  set Q := |zoom| * (R / |z|) ^ 2 with hQ
  have q1 : P / |z| ≤ Q := by
    rw [hP, hQ, mul_comm R, mul_div_assoc]
    refine mul_le_mul_of_nonneg_left ?_ Z0.le
    nlinarith
  have q2 : P * R / (|z| * |z|) = Q := by rw [hP, hQ]; field_simp
  have Q0 : 0 < Q := by positivity
  have i1 : 1 / |z'| ≤ 1.2 / |z| := by
    rw [div_le_div_iff₀ z'0 zp]
    linarith
  have d1 : |(X' - X) / z'| ≤ 0.000000000002 * Q := by
    rw [abs_div]
    calc |X' - X| / |z'| = |X' - X| * (1 / |z'|) := by ring
      _ ≤ (0.0000000000016 * P) * (1.2 / |z|) := mul_le_mul p4 i1 (by positivity) (by positivity)
      _ = 0.00000000000192 * (P / |z|) := by ring
      _ ≤ _ := by linarith
  have d2 : |X * (z - z') / (z * z')| ≤ 0.000000000002 * Q := by
    rw [abs_div, abs_mul, abs_mul, abs_sub_comm]
    calc |X| * |z' - z| / (|z| * |z'|) = |X| * |z' - z| / |z| * (1 / |z'|) := by field_simp
      _ ≤ (P * (0.0000000000016 * R)) / |z| * (1.2 / |z|) := by gcongr
      _ = 0.00000000000192 * (P * R / (|z| * |z|)) := by field_simp; ring
      _ ≤ _ := by rw [q2]; linarith
  have d3 : |X' / z' - X / z| ≤ 0.000000000004 * Q := by
    have e : X' / z' - X / z = (X' - X) / z' + X * (z - z') / (z * z') := by field_simp; ring
    rw [e]
    exact (abs_add_le _ _).trans (by linarith)
  have d0 : |X / z| ≤ Q := by
    rw [abs_div]
    exact (div_le_div_of_nonneg_right p0 zp.le).trans q1
  have QB : Q ≤ 10000000000000000000000 * B4 := by
    have r2 : R / |z| ≤ 100000000000 := by rw [div_le_iff₀ zp]; linarith
    have r3 : (R / |z|) ^ 2 ≤ 100000000000 ^ 2 := pow_le_pow_left₀ (by linarith) r2 2
    have := mul_le_mul ZB r3 (by positivity) (by linarith)
    rw [hQ]
    linarith
  have d4 : |X' / z'| ≤ 1.001 * Q := by
    have := abs_add_le (X' / z' - X / z) (X / z)
    rw [sub_add_cancel] at this
    linarith
  have f1 := fl (X' / z') (by linarith)
  rw [show pixelError R z zoom k = 0.00000000001 * Q + 0.000000000000001 * (|(k : ℝ)| + 1) by rw [hQ]; unfold pixelError; ring]
  generalize X' / z' = y0 at *
  generalize X / z = y at *
  generalize double y0 = y1 at *
  generalize (k : ℝ) = c at *
  clear_value Q P
  have k0 := abs_nonneg c
  have g1 : |y1 - y| ≤ 0.0000000000042 * Q + η := by
    have := abs_add_le (y1 - y0) (y0 - y)
    rw [sub_add_sub_cancel] at this
    linarith
  have g2 : |y1| ≤ 1.002 * Q + η := by
    have := abs_add_le (y1 - y) y
    rw [sub_add_cancel] at this
    linarith
  have g3 := abs_add_le y1 c
  have f2 := fl (y1 + c) (by linarith)
  generalize double (y1 + c) = y2 at *
  have g4 : |y2 - (y1 + c)| ≤ 0.00000000000000013 * (Q + |c|) + 2 * η := by linarith
  have g5 : |y2| ≤ 1.01 * (Q + |c|) + 4 * η := by
    have := abs_add_le (y2 - (y1 + c)) (y1 + c)
    rw [sub_add_cancel] at this
    linarith
  have g6 := abs_add_le y2 (1 / 2)
  rw [abs_of_pos (show (0 : ℝ) < 1 / 2 by norm_num)] at g6
  have f3 := fl (y2 + 1 / 2) (by linarith)
  have e : double (y2 + 1 / 2) - (y + c + 1 / 2) = (double (y2 + 1 / 2) - (y2 + 1 / 2)) + (y2 - (y1 + c)) + (y1 - y) := by ring
  rw [e]
  refine (abs_add_le _ _).trans ((add_le_add_left (abs_add_le _ _) _).trans ?_)
  linarith

/-- what the theorems below ask of a point and a camera: the numbers are not extreme and the
point is not too near to the plane of the eye (specification) -/
structure Before (o : P3 ℝ) (ahead yaw pitch roll zoom : ℝ) (p : P3 ℝ) : Prop where
  yaw360 : |yaw| ≤ 360
  pitch360 : |pitch| ≤ 360
  roll360 : |roll| ≤ 360
  low : 2 ^ (-200 : ℤ) ≤ reach o ahead p
  high : reach o ahead p ≤ 2 ^ (200 : ℤ)
  zlow : 2 ^ (-200 : ℤ) ≤ |zoom|
  zhigh : |zoom| ≤ 2 ^ (200 : ℤ)
  depth : reach o ahead p ≤ 100000000000 * |(seen o ahead yaw pitch roll p).z|

theorem trunc_close {s s' e : ℝ} (h : |s' - s| ≤ e) :
    (e ≤ s → |((trunc s' : Int) : ℝ) + 1 / 2 - s| ≤ 1 / 2 + e) ∧ (∀ k : Int, 0 ≤ k → k + e ≤ s → s + e < k + 1 → trunc s' = k) ∧
    |((trunc s' : Int) : ℝ) - s| ≤ 1 + e := by
  rw [abs_le] at h
  have f1 := Int.floor_le s'
  have f2 := Int.lt_floor_add_one s'
  have c1 := Int.le_ceil s'
  have c2 := Int.ceil_lt_add_one s'
  refine ⟨fun hs => ?_, fun k hk h1 h2 => ?_, ?_⟩
  · unfold trunc
    rw [if_pos (by linarith), abs_le]
    constructor <;> linarith
  · have : (0 : ℝ) ≤ k := by exact_mod_cast hk
    unfold trunc
    rw [if_pos (by linarith), Int.floor_eq_iff]
    constructor <;> linarith
  · unfold trunc
    split <;> rw [abs_le] <;> constructor <;> linarith

/-- **C137** where the camera sees a point, in double: the projection is defined; the pixel is the nearest one up to `pixelError`, so it is the exact one
unless the point is seen at the border of two pixels; the depth is `1 / z` with a small relative error, and its sign is right -/
theorem project_double {C S : ℝ → ℝ} (L : LibTrig (2 ^ (-53 : ℤ)) C S) {o p : P3 ℝ} {ahead yaw pitch roll zoom : ℝ} {cx cy : Int}
    (B : Before o ahead yaw pitch roll zoom p) (hcx : |(cx : ℝ)| ≤ 2147483648) (hcy : |(cy : ℝ)| ≤ 2147483648) :
    let q := seen o ahead yaw pitch roll p
    let R := reach o ahead p
    let ex := pixelError R q.z zoom cx
    let ey := pixelError R q.z zoom cy
    let u := q.x * zoom / q.z + cx
    let v := q.y * zoom / q.z + cy
    |u| + ex ≤ 2147483646 → |v| + ey ≤ 2147483646 →
    ∃ r, Arith.project Arith.machine (cameraR C S o ahead yaw pitch roll zoom cx cy) p = some r ∧
      (ex - 1 / 2 ≤ u → |(r.x : ℝ) - u| ≤ 1 / 2 + ex) ∧ (ey - 1 / 2 ≤ v → |(r.y : ℝ) - v| ≤ 1 / 2 + ey) ∧
      (∀ k : Int, 0 ≤ k → |u - k| < 1 / 2 - ex → r.x = k) ∧ (∀ k : Int, 0 ≤ k → |v - k| < 1 / 2 - ey → r.y = k) ∧
      |r.w * q.z - 1| ≤ 0.000000000002 * (R / |q.z|) ∧ 0 < r.w * q.z ∧ |(r.x : ℝ) - u| ≤ 3 / 2 + ex ∧ |(r.y : ℝ) - v| ≤ 3 / 2 + ey := by
  intro q R ex ey u v hu hv
  obtain ⟨b1, b2, b3, b4, b5, b6, b7, b8⟩ := B
  change _ ≤ R at b4
  change R ≤ _ at b5
  change R ≤ _ * |q.z| at b8
  have n0 := P3.norm_nonneg (p - o)
  have R0 : 0 < R := lt_of_lt_of_le (by positivity) b4
  have hRe : R = (p - o).norm + |ahead| := rfl
  have zp : 0 < |q.z| := by linarith
  have rn := rotated_near L b1 b2 b3 (d := p - o) (R := R) (by rw [hRe]; linarith [abs_nonneg ahead]) b4 b5
  have tn := eulerTurn_norm (yaw * π / 180) (pitch * π / 180) (roll * π / 180) (p - o)
  have hq : q = eulerTurn (yaw * π / 180) (pitch * π / 180) (roll * π / 180) (p - o) + ⟨0, 0, ahead⟩ := rfl
  obtain ⟨t1, t2, t3⟩ := coord_norm (eulerTurn (yaw * π / 180) (pitch * π / 180) (roll * π / 180) (p - o))
  rw [tn] at t1 t2 t3
  obtain ⟨w1, w2, w3⟩ := coord_norm (eulerR double C S yaw pitch roll ⟨double (p - o).x, double (p - o).y, double (p - o).z⟩ -
    eulerTurn (yaw * π / 180) (pitch * π / 180) (roll * π / 180) (p - o))
  have e0 : Arith.project Arith.machine (cameraR C S o ahead yaw pitch roll zoom cx cy) p =
    (do let q := eulerR double C S yaw pitch roll ⟨double (p - o).x, double (p - o).y, double (p - o).z⟩
        let z := double (q.z + ahead)
        CAD.assert (z ≠ 0)
        let sx ← toInt (double (double (double (double (q.x * zoom) / z) + cx) + 1 / 2))
        let sy ← toInt (double (double (double (double (q.y * zoom) / z) + cy) + 1 / 2))
        return ⟨sx, sy, double (1 / z)⟩) := rfl
  rw [e0]
  clear e0
  generalize eulerR double C S yaw pitch roll ⟨double (p - o).x, double (p - o).y, double (p - o).z⟩ = a at *
  generalize eulerTurn (yaw * π / 180) (pitch * π / 180) (roll * π / 180) (p - o) = t at *
  have qx : q.x = t.x := by rw [hq]; simp
  have qy : q.y = t.y := by rw [hq]; simp
  have qz : q.z = t.z + ahead := by rw [hq]; simp
  have ha := abs_nonneg ahead
  simp only [P3.sub_x, P3.sub_y, P3.sub_z] at w1 w2 w3
  rw [← qx] at w1 t1
  rw [← qy] at w2 t2
  have zR : |q.z| ≤ R := by rw [qz]; exact (abs_add_le _ _).trans (by linarith)
  -- the depth
  have hu53 : (2 : ℝ) ^ (-53 : ℤ) ≤ 0.00000000000000012 := by norm_num
  have fl : ∀ y : ℝ, |y| ≤ 2 ^ (300 : ℤ) → |double y - y| ≤ 0.00000000000000012 * |y| + 2 ^ (-1075 : ℤ) := by
    intro y hy
    have h2 : (2 : ℝ) ^ (300 : ℤ) ≤ 2 ^ (1023 : ℤ) := zpow_le_zpow_right₀ one_le_two (by norm_num)
    have := Rounded.double_rounds.err y (hy.trans h2)
    have := mul_le_mul_of_nonneg_right hu53 (abs_nonneg y)
    generalize (2 : ℝ) ^ (-53 : ℤ) * |y| = w at *
    generalize (2 : ℝ) ^ (-1075 : ℤ) = w1 at *
    linarith
  have B3 : 2 * (2 : ℝ) ^ (200 : ℤ) ≤ 2 ^ (300 : ℤ) := by
    rw [show (300 : ℤ) = 100 + 200 by norm_num, zpow_add₀ two_ne_zero]
    exact mul_le_mul_of_nonneg_right (by norm_num) (by positivity)
  have η1 : (2 : ℝ) ^ (-1075 : ℤ) ≤ 0.0000000000000000001 * 2 ^ (-200 : ℤ) := by
    rw [show (-1075 : ℤ) = -875 + -200 by norm_num, zpow_add₀ two_ne_zero]
    refine mul_le_mul_of_nonneg_right ?_ (by positivity)
    exact (zpow_le_zpow_right₀ one_le_two (by norm_num : (-875 : ℤ) ≤ -70)).trans (by norm_num)
  have az : |(a.z + ahead) - q.z| ≤ 0.0000000000015 * R := by
    rw [qz, add_sub_add_right_eq_sub]; exact w3.trans rn
  have az' : |a.z + ahead| ≤ 1.001 * R := by
    have := abs_add_le ((a.z + ahead) - q.z) q.z
    rw [sub_add_cancel] at this
    linarith
  have zz := fl (a.z + ahead) (by
    generalize (2 : ℝ) ^ (200 : ℤ) = w at *
    generalize (2 : ℝ) ^ (300 : ℤ) = w1 at *
    linarith)
  have zd : |double (a.z + ahead) - q.z| ≤ 0.0000000000016 * R := by
    have := abs_add_le (double (a.z + ahead) - (a.z + ahead)) ((a.z + ahead) - q.z)
    rw [sub_add_sub_cancel] at this
    generalize (2 : ℝ) ^ (-1075 : ℤ) = w at *
    generalize (2 : ℝ) ^ (-200 : ℤ) = w1 at *
    linarith
  have cX := coord_near (k := cx) (w1.trans rn) (t1.trans (by linarith)) zd zR zp b8 b4 b5 b6 b7 hcx
  have cY := coord_near (k := cy) (w2.trans rn) (t2.trans (by linarith)) zd zR zp b8 b4 b5 b6 b7 hcy
  change _ ≤ ex at cX
  change _ ≤ ey at cY
  change |_ - (u + 1 / 2)| ≤ _ at cX
  change |_ - (v + 1 / 2)| ≤ _ at cY
  simp only
  generalize double (a.z + ahead) = z at *
  generalize double (double (double (double (a.x * zoom) / z) + cx) + 1 / 2) = sx at *
  generalize double (double (double (double (a.y * zoom) / z) + cy) + 1 / 2) = sy at *
  have small : ∀ {s s' e : ℝ}, |s' - (s + 1 / 2)| ≤ e → |s| + e ≤ 2147483646 → toInt s' = some (trunc s') := by
    intro s s' e h1 h2
    have t := (trunc_close h1).2.2
    rw [abs_le] at t
    have := le_abs_self s
    have := neg_abs_le s
    have l : ((-2147483648 : Int) : ℝ) < (trunc s' : Int) := by push_cast; linarith
    have l' : ((trunc s' : Int) : ℝ) < (2147483648 : Int) := by push_cast; linarith
    rw [Int.cast_lt] at l l'
    exact toInt_some (by omega) (by omega)
  have z2 : |q.z| ≤ 1.2 * |z| := by
    have := abs_add_le z (q.z - z)
    rw [add_sub_cancel, abs_sub_comm q.z] at this
    linarith
  have z0 : 0 < |z| := by linarith
  have zn : z ≠ 0 := abs_pos.1 z0
  have W : |double (1 / z) * q.z - 1| ≤ 0.000000000002 * (R / |q.z|) := by
    have i0 : |1 / z| = 1 / |z| := by rw [abs_div, abs_one]
    have i1 : |1 / z| * |q.z| ≤ 1.2 := by
      rw [i0, one_div_mul_eq_div, div_le_iff₀ z0]; exact z2
    have i2 : |1 / z| ≤ 2 ^ (300 : ℤ) := by
      rw [i0, div_le_iff₀ z0]
      have e : (2 : ℝ) ^ (300 : ℤ) * 2 ^ (-200 : ℤ) = 2 ^ (100 : ℤ) := by rw [← zpow_add₀ two_ne_zero]; norm_num
      have l : (2 : ℝ) ^ (-200 : ℤ) ≤ 120000000000 * |z| := by
        generalize (2 : ℝ) ^ (-200 : ℤ) = w at *
        linarith
      have := mul_le_mul_of_nonneg_left l (show (0 : ℝ) ≤ 2 ^ (300 : ℤ) by positivity)
      rw [e, mul_left_comm] at this
      generalize (2 : ℝ) ^ (300 : ℤ) * |z| = w at *
      generalize (2 : ℝ) ^ (300 : ℤ) = w1 at *
      norm_num at this
      linarith
    have i3 := mul_le_mul_of_nonneg_right (fl (1 / z) i2) (abs_nonneg q.z)
    rw [← abs_mul] at i3
    have i4 : |1 / z * q.z - 1| ≤ 0.00000000000192 * (R / |q.z|) := by
      rw [show 1 / z * q.z - 1 = -(z - q.z) / z by field_simp; ring, abs_div, abs_neg]
      have : 1 / |z| ≤ 1.2 / |q.z| := by rw [div_le_div_iff₀ z0 zp]; linarith
      calc |z - q.z| / |z| = |z - q.z| * (1 / |z|) := by ring
        _ ≤ (0.0000000000016 * R) * (1.2 / |q.z|) := mul_le_mul zd this (by positivity) (by positivity)
        _ = _ := by ring
    have r1 : 1 ≤ R / |q.z| := by rw [le_div_iff₀ zp]; linarith
    have i5 : (2 : ℝ) ^ (-1075 : ℤ) * |q.z| ≤ 0.0000000000000000001 := by
      refine (mul_le_mul_of_nonneg_left (zR.trans b5) (by positivity)).trans ?_
      rw [← zpow_add₀ two_ne_zero]
      exact (zpow_le_zpow_right₀ one_le_two (by norm_num : (-1075 + 200 : ℤ) ≤ -70)).trans (by norm_num)
    have e : double (1 / z) * q.z - 1 = (double (1 / z) - 1 / z) * q.z + (1 / z * q.z - 1) := by ring
    rw [e]
    refine (abs_add_le _ _).trans ?_
    rw [add_mul, mul_assoc] at i3
    generalize (2 : ℝ) ^ (-1075 : ℤ) * |q.z| = w at *
    linarith
  refine ⟨⟨trunc sx, trunc sy, double (1 / z)⟩, ?_, ?_, ?_, ?_, ?_, ?_, ?_, ?_, ?_⟩
  · rw [assert_true (abs_pos.1 z0), small cX hu, small cY hv]; rfl
  · intro h
    have := (trunc_close cX).1 (by linarith)
    rwa [add_sub_add_right_eq_sub] at this
  · intro h
    have := (trunc_close cY).1 (by linarith)
    rwa [add_sub_add_right_eq_sub] at this
  · intro k hk h
    rw [abs_lt] at h
    exact (trunc_close cX).2.1 k hk (by linarith) (by linarith)
  · intro k hk h
    rw [abs_lt] at h
    exact (trunc_close cY).2.1 k hk (by linarith) (by linarith)
  · exact W
  · have r2 : R / |q.z| ≤ 100000000000 := by rw [div_le_iff₀ zp]; linarith
    have := (abs_le.1 W).1
    show 0 < double (1 / z) * q.z
    linarith
  · have := (trunc_close cX).2.2
    rw [abs_le] at this ⊢
    constructor <;> simp only <;> linarith
  · have := (trunc_close cY).2.2
    rw [abs_le] at this ⊢
    constructor <;> simp only <;> linarith

theorem rotated_origin (C S : ℝ → ℝ) (yaw pitch roll : ℝ) : eulerR double C S yaw pitch roll ⟨0, 0, 0⟩ = ⟨0, 0, 0⟩ := by
  have d0 : double 0 = 0 := ieee_zero
  simp [eulerR, eulerCSR, d0]

/-- **C137** the origin of the camera is seen exactly in the middle pixel, in double too, whatever the angles and the library functions are -/
theorem project_origin_double (C S : ℝ → ℝ) (o : P3 ℝ) {ahead : ℝ} (ha : double ahead = ahead) (h0 : ahead ≠ 0) (yaw pitch roll zoom : ℝ) {cx cy : Int}
    (hcx : 0 ≤ cx ∧ cx ≤ 2147483647) (hcy : 0 ≤ cy ∧ cy ≤ 2147483647) :
    Arith.project Arith.machine (cameraR C S o ahead yaw pitch roll zoom cx cy) o = some ⟨cx, cy, double (1 / ahead)⟩ := by
  have d0 : double 0 = 0 := ieee_zero
  have mid : ∀ k : Int, 0 ≤ k ∧ k ≤ 2147483647 → toInt (double (double (0 + k) + 1 / 2)) = some k := by
    intro k hk
    have i : double (k : ℝ) = k := ieee_int (p := 53) (emin := -1074) (by norm_num) (by rw [abs_lt]; constructor <;> norm_num <;> omega)
    have k0 : (0 : ℝ) ≤ k := by exact_mod_cast hk.1
    have k1 : (k : ℝ) ≤ 2147483647 := by exact_mod_cast hk.2
    have big : (2147483648 : ℝ) ≤ 2 ^ (1023 : ℤ) :=
      le_trans (by norm_num : (2147483648 : ℝ) ≤ 2 ^ (31 : ℤ)) (zpow_le_zpow_right₀ one_le_two (by norm_num))
    have e := Rounded.double_rounds.err ((k : ℝ) + 1 / 2) (by
      rw [abs_of_pos (by linarith)]; exact le_trans (by linarith) big)
    rw [abs_of_pos (show (0 : ℝ) < k + 1 / 2 by linarith)] at e
    have u : (2 : ℝ) ^ (-53 : ℤ) * ((k : ℝ) + 1 / 2) ≤ 2 ^ (-53 : ℤ) * 2147483648 := mul_le_mul_of_nonneg_left (by linarith) (by positivity)
    have u' : (2 : ℝ) ^ (-53 : ℤ) * 2147483648 ≤ 1 / 8 := by norm_num
    have η : (2 : ℝ) ^ (-1075 : ℤ) ≤ 1 / 8 := (zpow_le_zpow_right₀ one_le_two (by norm_num : (-1075 : ℤ) ≤ -3)).trans (by norm_num)
    have t := (trunc_close (e.trans ((add_le_add (u.trans u') η).trans (by norm_num : (1 / 8 + 1 / 8 : ℝ) ≤ 1 / 4)))).2.1 k hk.1 (by linarith) (by linarith)
    rw [zero_add, i, toInt_some (by omega) (by omega), t]
  unfold Arith.project cameraR
  simp only [sub_self, Arith.machine, d0, rotated_origin, zero_add, ha]
  rw [assert_true h0, zero_mul, d0, zero_div, d0, mid cx hcx, mid cy hcy]
  rfl

/-- the points around the origin of the camera are well before the eye -/
theorem before_around {o p : P3 ℝ} {ahead yaw pitch roll zoom : ℝ} (hp : (p - o).norm ≤ ahead / 2) (a1 : 2 ^ (-200 : ℤ) ≤ ahead) (a2 : ahead ≤ 2 ^ (199 : ℤ))
    (hy : |yaw| ≤ 360) (hpi : |pitch| ≤ 360) (hr : |roll| ≤ 360) (z1 : 1 ≤ zoom) (z2 : zoom ≤ 1000000) :
    Before o ahead yaw pitch roll zoom p ∧ 0 < (seen o ahead yaw pitch roll p).z ∧ reach o ahead p ≤ 3 * |(seen o ahead yaw pitch roll p).z| := by
  have a0 : 0 < ahead := lt_of_lt_of_le (by positivity) a1
  have n0 := P3.norm_nonneg (p - o)
  obtain ⟨-, -, t3⟩ := coord_norm (eulerTurn (yaw * π / 180) (pitch * π / 180) (roll * π / 180) (p - o))
  rw [eulerTurn_norm] at t3
  have hz : (seen o ahead yaw pitch roll p).z = (eulerTurn (yaw * π / 180) (pitch * π / 180) (roll * π / 180) (p - o)).z + ahead := by
    unfold seen; simp
  rw [abs_le] at t3
  have zl : ahead / 2 ≤ (seen o ahead yaw pitch roll p).z := by rw [hz]; linarith
  have hR : reach o ahead p = (p - o).norm + ahead := by unfold reach; rw [abs_of_pos a0]
  have e : (2 : ℝ) ^ (200 : ℤ) = 2 * 2 ^ (199 : ℤ) := by rw [show (200 : ℤ) = 1 + 199 by norm_num, zpow_add₀ two_ne_zero]; norm_num
  have zpos : 0 < (seen o ahead yaw pitch roll p).z := by linarith
  have l3 : reach o ahead p ≤ 3 * |(seen o ahead yaw pitch roll p).z| := by rw [hR, abs_of_pos zpos]; linarith
  refine ⟨⟨hy, hpi, hr, ?_, ?_, ?_, ?_, ?_⟩, zpos, l3⟩
  · rw [hR]; linarith
  · rw [hR, e]
    generalize (2 : ℝ) ^ (199 : ℤ) = w at *
    linarith
  · rw [abs_of_pos (by linarith)]
    exact (zpow_le_one_of_nonpos₀ one_le_two (by norm_num)).trans z1
  · rw [abs_of_pos (by linarith)]
    refine (z2.trans (by norm_num : (1000000 : ℝ) ≤ 2 ^ (20 : ℤ))).trans (zpow_le_zpow_right₀ one_le_two (by norm_num))
  · rw [abs_of_pos zpos] at l3 ⊢; linarith

/-- **C137** for the points of a body around the origin of the camera: at a zoom of up to a million the error is less than a thousandth of a pixel, and all
points have positive depth -/
theorem project_around {C S : ℝ → ℝ} (L : LibTrig (2 ^ (-53 : ℤ)) C S) {o p : P3 ℝ} {ahead yaw pitch roll zoom : ℝ} {cx cy : Int}
    (hp : (p - o).norm ≤ ahead / 2) (a1 : 2 ^ (-200 : ℤ) ≤ ahead) (a2 : ahead ≤ 2 ^ (199 : ℤ))
    (hy : |yaw| ≤ 360) (hpi : |pitch| ≤ 360) (hr : |roll| ≤ 360) (z1 : 1 ≤ zoom) (z2 : zoom ≤ 1000000)
    (hcx : 0 ≤ cx ∧ cx ≤ 65536) (hcy : 0 ≤ cy ∧ cy ≤ 65536) :
    let q := seen o ahead yaw pitch roll p
    let u := q.x * zoom / q.z + cx
    let v := q.y * zoom / q.z + cy
    ∃ r, Arith.project Arith.machine (cameraR C S o ahead yaw pitch roll zoom cx cy) p = some r ∧
      (∀ k : Int, 0 ≤ k → |u - k| ≤ 0.499 → r.x = k) ∧ (∀ k : Int, 0 ≤ k → |v - k| ≤ 0.499 → r.y = k) ∧
      |r.w - 1 / q.z| ≤ 0.000000000006 / q.z ∧ 0 < r.w ∧ r.Small := by
  intro q u v
  obtain ⟨B, zpos, l3⟩ := before_around hp a1 a2 hy hpi hr z1 z2
  change 0 < q.z at zpos
  change _ ≤ 3 * |q.z| at l3
  have r0 : 0 ≤ reach o ahead p := add_nonneg (P3.norm_nonneg _) (abs_nonneg _)
  have r3 : reach o ahead p / |q.z| ≤ 3 := by rw [div_le_iff₀ (abs_pos.2 zpos.ne')]; exact l3
  have r4 : (reach o ahead p / |q.z|) ^ 2 ≤ 9 := by
    have := pow_le_pow_left₀ (div_nonneg r0 (abs_nonneg _)) r3 2
    linarith
  have zz : |zoom| = zoom := abs_of_pos (by linarith)
  have pe : ∀ k : Int, 0 ≤ k ∧ k ≤ 65536 → pixelError (reach o ahead p) q.z zoom k ≤ 0.0009 := by
    intro k hk
    have k0 : (0 : ℝ) ≤ k := by exact_mod_cast hk.1
    have k1 : (k : ℝ) ≤ 65536 := by exact_mod_cast hk.2
    unfold pixelError
    rw [zz, abs_of_nonneg k0, mul_assoc]
    have := mul_le_mul z2 r4 (by positivity) (by norm_num)
    linarith
  have cb : ∀ k : Int, 0 ≤ k ∧ k ≤ 65536 → |(k : ℝ)| ≤ 65536 := by
    intro k hk
    rw [abs_of_nonneg (by exact_mod_cast hk.1)]
    exact_mod_cast hk.2
  have n : (seen o ahead yaw pitch roll p).norm ≤ reach o ahead p := by
    unfold seen reach
    refine (Rounded.norm_add_le _ _).trans ?_
    rw [eulerTurn_norm]
    refine add_le_add_right (le_of_eq ?_) _
    rw [P3.norm_eq, P3.normSq]
    simp only [mul_zero, zero_add, sqrt_mul_self_eq_abs]
  obtain ⟨nx, ny, -⟩ := coord_norm (seen o ahead yaw pitch roll p)
  have co : ∀ (x : ℝ) (k : Int), |x| ≤ reach o ahead p → 0 ≤ k ∧ k ≤ 65536 → |x * zoom / q.z + k| + pixelError (reach o ahead p) q.z zoom k ≤ 3100000 := by
    intro x k hx hk
    have h1 : |x * zoom / q.z| ≤ 3000000 := by
      rw [abs_div, abs_mul, zz, div_le_iff₀ (abs_pos.2 zpos.ne')]
      have := mul_le_mul hx z2 (by linarith) r0
      linarith
    have := abs_add_le (x * zoom / q.z) (k : ℝ)
    linarith [pe k hk, cb k hk]
  have cx1 := co _ _ (nx.trans n) hcx
  have cy1 := co _ _ (ny.trans n) hcy
  obtain ⟨r, g1, -, -, g2, g3, g4, g5, g6, g7⟩ := project_double L (cx := cx) (cy := cy) B ((cb cx hcx).trans (by norm_num)) ((cb cy hcy).trans (by norm_num))
    (cx1.trans (by norm_num)) (cy1.trans (by norm_num))
  change |(r.x : ℝ) - u| ≤ 3 / 2 + pixelError (reach o ahead p) q.z zoom cx at g6
  change |(r.y : ℝ) - v| ≤ 3 / 2 + pixelError (reach o ahead p) q.z zoom cy at g7
  change |u| + pixelError (reach o ahead p) q.z zoom cx ≤ _ at cx1
  change |v| + pixelError (reach o ahead p) q.z zoom cy ≤ _ at cy1
  have sm : ∀ {i : Int} {s e : ℝ}, |(i : ℝ) - s| ≤ 3 / 2 + e → |s| + e ≤ 3100000 → -big ≤ i ∧ i ≤ big := by
    intro i s e h1 h2
    rw [big_eq]
    have a1 := neg_abs_le s
    have a2 := le_abs_self s
    rw [abs_le] at h1
    have l1 : ((-4000000 : Int) : ℝ) ≤ i := by push_cast; linarith
    have l2 : (i : ℝ) ≤ ((4000000 : Int) : ℝ) := by push_cast; linarith
    rw [Int.cast_le] at l1 l2
    omega
  change |r.w * q.z - 1| ≤ 0.000000000002 * (reach o ahead p / |q.z|) at g4
  change 0 < r.w * q.z at g5
  refine ⟨r, g1, fun k hk h => g2 k hk (lt_of_le_of_lt h ?_), fun k hk h => g3 k hk (lt_of_le_of_lt h ?_), ?_, pos_of_mul_pos_left g5 zpos.le, ⟨(sm g6 cx1).1, (sm g6 cx1).2, (sm g7 cy1).1, (sm g7 cy1).2⟩⟩
  · have := pe cx hcx
    show _ < 1 / 2 - pixelError (reach o ahead p) q.z zoom cx
    linarith
  · have := pe cy hcy
    show _ < 1 / 2 - pixelError (reach o ahead p) q.z zoom cy
    linarith
  · rw [le_div_iff₀ zpos, ← abs_of_pos zpos, ← abs_mul, abs_of_pos zpos, sub_mul, one_div_mul_cancel zpos.ne']
    linarith

/-- library functions without error -/
theorem exact_trig : LibTrig (2 ^ (-53 : ℤ)) cos sin := ⟨fun x => by simp, fun x => by simp⟩

/-- the hypotheses for a point of a body ten units before the eye, a picture of 640 by 480 pixels and a turned camera -/
example : ∃ r, Arith.project Arith.machine (cameraR cos sin ⟨1, 2, 3⟩ 10 30 (-20) 10 500 320 240) ⟨2, 3, 3⟩ = some r ∧ 0 < r.w := by
  obtain ⟨r, h, -, -, -, h', -⟩ := project_around exact_trig (o := ⟨1, 2, 3⟩) (p := ⟨2, 3, 3⟩) (ahead := 10) (yaw := 30) (pitch := -20) (roll := 10) (zoom := 500)
    (cx := 320) (cy := 240) (by
      refine (norm_of_coords (d := 1) ?_ ?_ ?_).trans ?_ <;> norm_num)
    ((zpow_le_one_of_nonpos₀ one_le_two (by norm_num)).trans (by norm_num))
    ((by norm_num : (10 : ℝ) ≤ 2 ^ (4 : ℤ)).trans (zpow_le_zpow_right₀ one_le_two (by norm_num)))
    (by norm_num) (by norm_num) (by norm_num) (by norm_num) (by norm_num) (by decide) (by decide)
  exact ⟨r, h, h'⟩

/-- a camera that is not turned sees the point one unit right of its origin 50 columns right of the middle, in double as well -/
example : ∃ r, Arith.project Arith.machine (cameraR cos sin ⟨0, 0, 0⟩ 10 0 0 0 500 320 240) ⟨1, 0, 0⟩ = some r ∧ r.x = 370 ∧ r.y = 240 := by
  have hs : seen ⟨0, 0, 0⟩ 10 0 0 0 ⟨1, 0, 0⟩ = ⟨1, 0, 10⟩ := by
    unfold seen
    rw [← eulerTurn_eq]
    ext <;> simp [eulerCS]
  obtain ⟨r, h, hx, hy, -⟩ := project_around exact_trig (o := ⟨0, 0, 0⟩) (p := ⟨1, 0, 0⟩) (ahead := 10) (yaw := 0) (pitch := 0) (roll := 0) (zoom := 500)
    (cx := 320) (cy := 240) (by
      refine (norm_of_coords (d := 1) ?_ ?_ ?_).trans ?_ <;> norm_num)
    ((zpow_le_one_of_nonpos₀ one_le_two (by norm_num)).trans (by norm_num))
    ((by norm_num : (10 : ℝ) ≤ 2 ^ (4 : ℤ)).trans (zpow_le_zpow_right₀ one_le_two (by norm_num)))
    (by norm_num) (by norm_num) (by norm_num) (by norm_num) (by norm_num) (by decide) (by decide)
  rw [hs] at hx hy
  exact ⟨r, h, hx 370 (by decide) (by norm_num), hy 240 (by decide) (by norm_num)⟩

end CAD.Render
