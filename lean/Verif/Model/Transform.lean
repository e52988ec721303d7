import Verif.Model.Geometry
import Mathlib.Analysis.SpecialFunctions.Trigonometric.Basic

/-!
Model of `/repo/src/Transform.h` and `/repo/src/Transform.cpp`.  A `Transform`
is an abstract class with one virtual method `apply(Point3&)`; it is a function
`P3 K → P3 K` here.
-/

namespace CAD
namespace Transform
variable {K : Type*} [Field K]

/-- `Transform::apply_all` 10-14 -/
def applyAll (f : P3 K → P3 K) (vp : List (P3 K)) : List (P3 K) := vp.map f

/-- `Translation::apply` 20-23 -/
def translation (t : P3 K) (p : P3 K) : P3 K := p + t

/-- `Scale::apply` 31-36 -/
def scale (sx sy sz : K) (p : P3 K) : P3 K := ⟨p.x * sx, p.y * sy, p.z * sz⟩

/-- `RotationEulerAngles::apply` 57-75 with the six cached cosines and sines as
parameters (yaw, pitch, roll). -/
def eulerCS (yc ys pc ps rc rs : K) (p : P3 K) : P3 K :=
  -- yaw 62-64
  let x1 := p.x * yc + p.z * ys
  let z1 := p.z * yc - p.x * ys
  -- pitch 67-69
  let y1 := z1 * ps - p.y * pc
  let z2 := z1 * pc + p.y * ps
  -- roll 72-74
  let x2 := x1 * rc + y1 * rs
  let y2 := y1 * rc - x1 * rs
  ⟨x2, y2, z2⟩

/-- `dDegToRad`, lines 44, 94, 166: the decimal constant of the source, not π. -/
noncomputable def degToRad : ℝ := 2 * 3.14159265359 / 360

/-- `RotationEulerAngles::set_angles` 42-56 then `apply`. -/
noncomputable def euler (yaw pitch roll : ℝ) (p : P3 ℝ) : P3 ℝ :=
  eulerCS (Real.cos (yaw * degToRad)) (Real.sin (yaw * degToRad))
    (Real.cos (pitch * degToRad)) (Real.sin (pitch * degToRad))
    (Real.cos (roll * degToRad)) (Real.sin (roll * degToRad)) p

/-- `double _q[4]` of `RotationQuaternion` -/
@[ext] structure Quat (K : Type*) where
  q0 : K
  q1 : K
  q2 : K
  q3 : K

/-- `RotationQuaternion::RotationQuaternion()` 77-83 -/
def Quat.one : Quat K := ⟨1, 0, 0, 0⟩

/-- `RotationQuaternion::apply` 104-130 -/
def Quat.apply (q : Quat K) (p : P3 K) : P3 K :=
  let a := q.q0
  let b := q.q1
  let c := q.q2
  let d := q.q3
  let t2 := a * b
  let t3 := a * c
  let t4 := a * d
  let t5 := -b * b
  let t6 := b * c
  let t7 := b * d
  let t8 := -c * c
  let t9 := c * d
  let t10 := -d * d
  ⟨2 * ((t8 + t10) * p.x + (t6 - t4) * p.y + (t3 + t7) * p.z) + p.x,
   2 * ((t4 + t6) * p.x + (t5 + t10) * p.y + (t9 - t2) * p.z) + p.y,
   2 * ((t7 - t3) * p.x + (t2 + t9) * p.y + (t5 + t8) * p.z) + p.z⟩

/-- `RotationQuaternion::from_angle_axis` 92-102 with `c`, `s` the half-angle
cosine and sine. -/
def Quat.ofCS (c s : K) (axis : P3 K) : Quat K := ⟨c, axis.x * s, axis.y * s, axis.z * s⟩

/-- `RotationQuaternion::from_angle_axis` 92-102 -/
noncomputable def Quat.ofAngleAxis (angle : ℝ) (axis : P3 ℝ) : Quat ℝ :=
  Quat.ofCS (Real.cos (angle * degToRad * 0.5)) (Real.sin (angle * degToRad * 0.5)) axis

/-- `double _m[9]` of `RotationMatrix` -/
@[ext] structure Mat (K : Type*) where
  m0 : K
  m1 : K
  m2 : K
  m3 : K
  m4 : K
  m5 : K
  m6 : K
  m7 : K
  m8 : K

/-- `RotationMatrix::RotationMatrix()` 132-143 -/
def Mat.one : Mat K := ⟨1, 0, 0, 0, 1, 0, 0, 0, 1⟩

/-- `RotationMatrix::apply` 191-201 -/
def Mat.apply (m : Mat K) (p : P3 K) : P3 K :=
  ⟨p.x * m.m0 + p.y * m.m1 + p.z * m.m2,
   p.x * m.m3 + p.y * m.m4 + p.z * m.m5,
   p.x * m.m6 + p.y * m.m7 + p.z * m.m8⟩

/-- `RotationMatrix::from_angle_axis` 158-190 with `t1`, `t8` the cosine and sine. -/
def Mat.ofCS (t1 t8 : K) (axis : P3 K) : Mat K :=
  let v1 := axis.x
  let v2 := axis.y
  let v3 := axis.z
  let t2 := 1 - t1
  let t3 := v1 * v1
  let t6 := t2 * v1
  let t7 := t6 * v2
  let t9 := t8 * v3
  let t11 := t6 * v3
  let t12 := t8 * v2
  let t15 := v2 * v2
  let t19 := t2 * v2 * v3
  let t20 := t8 * v1
  let t24 := v3 * v3
  ⟨t1 + t2 * t3, t7 - t9, t11 + t12,
   t7 + t9, t1 + t2 * t15, t19 - t20,
   t11 - t12, t19 + t20, t1 + t2 * t24⟩

/-- `RotationMatrix::from_angle_axis` 158-190 (also `RotationAngleAxis` 203-221,
which delegates to a `RotationMatrix`). -/
noncomputable def Mat.ofAngleAxis (angle : ℝ) (axis : P3 ℝ) : Mat ℝ :=
  Mat.ofCS (Real.cos (angle * degToRad)) (Real.sin (angle * degToRad)) axis

end Transform
end CAD
