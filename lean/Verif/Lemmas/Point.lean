import Verif.Model.Geometry
import Mathlib.Algebra.Module.Defs
import Mathlib.Tactic.Ring
import Mathlib.Tactic.Linarith
import Mathlib.Tactic.FieldSimp
import Mathlib.Tactic.LinearCombination

/-! Algebraic structure of points and component lemmas. -/

namespace CAD
namespace P3
variable {K : Type*} [Field K]

@[simp] theorem zero_x : (0 : P3 K).x = 0 := rfl
@[simp] theorem zero_y : (0 : P3 K).y = 0 := rfl
@[simp] theorem zero_z : (0 : P3 K).z = 0 := rfl
@[simp] theorem add_x (p q : P3 K) : (p + q).x = p.x + q.x := rfl
@[simp] theorem add_y (p q : P3 K) : (p + q).y = p.y + q.y := rfl
@[simp] theorem add_z (p q : P3 K) : (p + q).z = p.z + q.z := rfl
@[simp] theorem sub_x (p q : P3 K) : (p - q).x = p.x - q.x := rfl
@[simp] theorem sub_y (p q : P3 K) : (p - q).y = p.y - q.y := rfl
@[simp] theorem sub_z (p q : P3 K) : (p - q).z = p.z - q.z := rfl
@[simp] theorem neg_x (p : P3 K) : (-p).x = -p.x := rfl
@[simp] theorem neg_y (p : P3 K) : (-p).y = -p.y := rfl
@[simp] theorem neg_z (p : P3 K) : (-p).z = -p.z := rfl
@[simp] theorem smul_x (d : K) (p : P3 K) : (d • p).x = d * p.x := rfl
@[simp] theorem smul_y (d : K) (p : P3 K) : (d • p).y = d * p.y := rfl
@[simp] theorem smul_z (d : K) (p : P3 K) : (d • p).z = d * p.z := rfl
@[simp] theorem div_x (p : P3 K) (d : K) : (p.div d).x = p.x / d := rfl
@[simp] theorem div_y (p : P3 K) (d : K) : (p.div d).y = p.y / d := rfl
@[simp] theorem div_z (p : P3 K) (d : K) : (p.div d).z = p.z / d := rfl
@[simp] theorem cross_x (p q : P3 K) : (p.cross q).x = p.y * q.z - p.z * q.y := rfl
@[simp] theorem cross_y (p q : P3 K) : (p.cross q).y = p.z * q.x - p.x * q.z := rfl
@[simp] theorem cross_z (p q : P3 K) : (p.cross q).z = p.x * q.y - p.y * q.x := rfl

instance : AddCommGroup (P3 K) where
  add_assoc a b c := by ext <;> simp [add_assoc]
  zero_add a := by ext <;> simp
  add_zero a := by ext <;> simp
  add_comm a b := by ext <;> simp [add_comm]
  neg_add_cancel a := by ext <;> simp
  sub_eq_add_neg a b := by ext <;> simp [sub_eq_add_neg]
  nsmul := nsmulRec
  zsmul := zsmulRec

instance : Module K (P3 K) where
  one_smul a := by ext <;> simp
  mul_smul a b p := by ext <;> simp [mul_assoc]
  smul_zero a := by ext <;> simp
  smul_add a p q := by ext <;> simp [mul_add]
  add_smul a b p := by ext <;> simp [add_mul]
  zero_smul p := by ext <;> simp

theorem normSq_eq_dot (p : P3 K) : p.normSq = p.dot p := rfl

theorem distSq_eq (p q : P3 K) : p.distSq q = (p - q).normSq := rfl

section ordered
variable [LinearOrder K] [IsStrictOrderedRing K]

theorem normSq_nonneg (p : P3 K) : 0 ≤ p.normSq := by
  unfold normSq; nlinarith [mul_self_nonneg p.x, mul_self_nonneg p.y, mul_self_nonneg p.z]

theorem normSq_eq_zero {p : P3 K} : p.normSq = 0 ↔ p = 0 := by
  constructor
  · intro h
    unfold normSq at h
    have hx := mul_self_nonneg p.x
    have hy := mul_self_nonneg p.y
    have hz := mul_self_nonneg p.z
    have h1 : p.x * p.x = 0 := by linarith
    have h2 : p.y * p.y = 0 := by linarith
    have h3 : p.z * p.z = 0 := by linarith
    ext
    · simpa using mul_self_eq_zero.1 h1
    · simpa using mul_self_eq_zero.1 h2
    · simpa using mul_self_eq_zero.1 h3
  · rintro rfl; simp [normSq]

theorem distSq_nonneg (p q : P3 K) : 0 ≤ p.distSq q := normSq_nonneg (p - q)

theorem distSq_eq_zero {p q : P3 K} : p.distSq q = 0 ↔ p = q := by
  rw [distSq_eq, normSq_eq_zero, sub_eq_zero]

omit [LinearOrder K] [IsStrictOrderedRing K] in
theorem distSq_comm (p q : P3 K) : p.distSq q = q.distSq p := by
  unfold distSq; ring

omit [LinearOrder K] [IsStrictOrderedRing K] in
theorem distSq_self (p : P3 K) : p.distSq p = 0 := by unfold distSq; ring

end ordered

theorem norm_eq (p : P3 ℝ) : p.norm = Real.sqrt p.normSq := rfl

theorem norm_sq (p : P3 ℝ) : p.norm * p.norm = p.normSq := by
  rw [norm_eq]; exact Real.mul_self_sqrt (normSq_nonneg p)

theorem norm_nonneg (p : P3 ℝ) : 0 ≤ p.norm := Real.sqrt_nonneg _

theorem norm_eq_zero {p : P3 ℝ} : p.norm = 0 ↔ p = 0 := by
  rw [norm_eq, Real.sqrt_eq_zero (normSq_nonneg p), normSq_eq_zero]

theorem norm_pos {p : P3 ℝ} (h : p ≠ 0) : 0 < p.norm :=
  lt_of_le_of_ne (norm_nonneg p) (fun e => h (norm_eq_zero.1 e.symm))

theorem norm_smul (d : ℝ) (p : P3 ℝ) : (d • p).norm = |d| * p.norm := by
  rw [norm_eq, norm_eq]
  have : (d • p).normSq = d ^ 2 * p.normSq := by simp [normSq]; ring
  rw [this, Real.sqrt_mul (sq_nonneg d), Real.sqrt_sq_eq_abs]

theorem normalized_of_ne {p : P3 ℝ} (h : p ≠ 0) :
    p.normalized = some ((1 / p.norm) • p) := by
  unfold normalized
  rw [if_neg]
  exact fun e => h (norm_eq_zero.1 e)

theorem normalized_zero : (0 : P3 ℝ).normalized = none := by
  unfold normalized
  rw [if_pos]
  exact norm_eq_zero.2 rfl

end P3
end CAD
