import Verif.Model.Transform
import Verif.Model.Rounded

/-!
Model of `/repo/src/Transform.cpp` with every arithmetic operation rounded by `fl`.  The library
functions `cos` and `sin` are parameters `C` and `S`.
-/

namespace CAD
namespace Transform
variable (fl C S : ℝ → ℝ)

/-- `Translation::apply` 20-23 (`Point3::operator+=`, Geometry.cpp 53-60) -/
def translationR (t p : P3 ℝ) : P3 ℝ := Rounded.add fl p t

/-- `Scale::apply` 31-36 -/
def scaleR (sx sy sz : ℝ) (p : P3 ℝ) : P3 ℝ := ⟨fl (p.x * sx), fl (p.y * sy), fl (p.z * sz)⟩

/-- `dDegToRad`, lines 44, 94, 166 -/
noncomputable def degToRadR : ℝ := fl (fl (2 * fl 3.14159265359) / 360)

/-- `RotationEulerAngles::apply` 57-75 -/
def eulerCSR (yc ys pc ps rc rs : ℝ) (p : P3 ℝ) : P3 ℝ :=
  let x1 := fl (fl (p.x * yc) + fl (p.z * ys))
  let z1 := fl (fl (p.z * yc) - fl (p.x * ys))
  let y1 := fl (fl (z1 * ps) - fl (p.y * pc))
  let z2 := fl (fl (z1 * pc) + fl (p.y * ps))
  let x2 := fl (fl (x1 * rc) + fl (y1 * rs))
  let y2 := fl (fl (y1 * rc) - fl (x1 * rs))
  ⟨x2, y2, z2⟩

/-- `RotationEulerAngles::set_angles` 42-56 then `apply` -/
noncomputable def eulerR (yaw pitch roll : ℝ) (p : P3 ℝ) : P3 ℝ :=
  let d := degToRadR fl
  eulerCSR fl (C (fl (yaw * d))) (S (fl (yaw * d))) (C (fl (pitch * d))) (S (fl (pitch * d)))
    (C (fl (roll * d))) (S (fl (roll * d))) p

/-- `RotationQuaternion::from_angle_axis` 92-102 -/
noncomputable def Quat.ofAngleAxisR (angle : ℝ) (axis : P3 ℝ) : Quat ℝ :=
  let s := S (fl (fl (angle * degToRadR fl) * 0.5))
  let c := C (fl (fl (angle * degToRadR fl) * 0.5))
  ⟨c, fl (axis.x * s), fl (axis.y * s), fl (axis.z * s)⟩

/-- `RotationQuaternion::apply` 104-130 -/
def Quat.applyR (q : Quat ℝ) (p : P3 ℝ) : P3 ℝ :=
  let a := q.q0
  let b := q.q1
  let c := q.q2
  let d := q.q3
  let t2 := fl (a * b)
  let t3 := fl (a * c)
  let t4 := fl (a * d)
  let t5 := fl (-b * b)
  let t6 := fl (b * c)
  let t7 := fl (b * d)
  let t8 := fl (-c * c)
  let t9 := fl (c * d)
  let t10 := fl (-d * d)
  let dot := fun x y z => fl (fl (fl (fl x * p.x) + fl (fl y * p.y)) + fl (fl z * p.z))
  ⟨fl (fl (2 * dot (t8 + t10) (t6 - t4) (t3 + t7)) + p.x),
   fl (fl (2 * dot (t4 + t6) (t5 + t10) (t9 - t2)) + p.y),
   fl (fl (2 * dot (t7 - t3) (t2 + t9) (t5 + t8)) + p.z)⟩

/-- `RotationMatrix::from_angle_axis` 158-190 after the cosine and the sine -/
def Mat.ofCSR (t1 t8 : ℝ) (axis : P3 ℝ) : Mat ℝ :=
  let v1 := axis.x
  let v2 := axis.y
  let v3 := axis.z
  let t2 := fl (1 - t1)
  let t3 := fl (v1 * v1)
  let t6 := fl (t2 * v1)
  let t7 := fl (t6 * v2)
  let t9 := fl (t8 * v3)
  let t11 := fl (t6 * v3)
  let t12 := fl (t8 * v2)
  let t15 := fl (v2 * v2)
  let t19 := fl (fl (t2 * v2) * v3)
  let t20 := fl (t8 * v1)
  let t24 := fl (v3 * v3)
  ⟨fl (t1 + fl (t2 * t3)), fl (t7 - t9), fl (t11 + t12),
   fl (t7 + t9), fl (t1 + fl (t2 * t15)), fl (t19 - t20),
   fl (t11 - t12), fl (t19 + t20), fl (t1 + fl (t2 * t24))⟩

/-- `RotationMatrix::from_angle_axis` 158-190 (also `RotationAngleAxis` 203-221) -/
noncomputable def Mat.ofAngleAxisR (angle : ℝ) (axis : P3 ℝ) : Mat ℝ :=
  Mat.ofCSR fl (C (fl (angle * degToRadR fl))) (S (fl (angle * degToRadR fl))) axis

/-- `RotationMatrix::apply` 191-201 -/
def Mat.applyR (m : Mat ℝ) (p : P3 ℝ) : P3 ℝ :=
  let dot := fun x y z => fl (fl (fl (p.x * x) + fl (p.y * y)) + fl (p.z * z))
  ⟨dot m.m0 m.m1 m.m2, dot m.m3 m.m4 m.m5, dot m.m6 m.m7 m.m8⟩

end Transform
end CAD
