import Verif.Model.PointOps
import Verif.Props.Vector
import Verif.Spec.Geometry

/-! C105: in-place operations; C107: two planes. -/

set_option linter.unusedSimpArgs false

namespace CAD
namespace Store
variable {K : Type*}

theorem update_update_eq (s : Store K) (a : Nat) (p q : P3 K) :
    Function.update (Function.update s a p) a q = Function.update s a q := Function.update_idem ..

variable [Field K]

/-- C105.  `p += q` stores the sum in `p` and leaves every other object alone, also when both are
the same object. -/
theorem add_assign (s : Store K) (a b : Nat) : s.addAssign a b = Function.update s a (s a + s b) := by
  unfold addAssign setX setY setZ
  simp only [Function.update_self, Function.update_idem]
  congr 1
  by_cases h : b = a
  · subst h
    simp only [Function.update_self]
    rfl
  · simp only [Function.update_of_ne h]
    rfl

/-- C105.  `p -= q` likewise. -/
theorem sub_assign (s : Store K) (a b : Nat) : s.subAssign a b = Function.update s a (s a - s b) := by
  unfold subAssign setX setY setZ
  simp only [Function.update_self, Function.update_idem]
  congr 1
  by_cases h : b = a
  · subst h
    simp only [Function.update_self]
    rfl
  · simp only [Function.update_of_ne h]
    rfl

/-- C105.  `p *= d` -/
theorem mul_assign (s : Store K) (a : Nat) (d : K) : s.mulAssign a d = Function.update s a (d • s a) := by
  unfold mulAssign setX setY setZ
  simp only [Function.update_self, Function.update_idem]
  congr 1
  ext <;> simp [mul_comm]

/-- C105.  `p /= d` for `d ≠ 0` -/
theorem div_assign [DecidableEq K] (s : Store K) (a : Nat) (d : K) (hd : d ≠ 0) :
    s.divAssign a d = some (Function.update s a (d⁻¹ • s a)) := by
  unfold divAssign setX setY setZ
  rw [if_neg hd]
  simp only [Function.update_self, Function.update_idem]
  congr 2
  ext <;> simp [div_eq_inv_mul]

/-- C105.  Adding and taking away again restores the object, unless the two are the same object,
which ends at the origin; multiplying and dividing by the same number restores it. -/
theorem assign_inverse [DecidableEq K] (s : Store K) (a b : Nat) (d : K) (hd : d ≠ 0) :
    (a ≠ b → (s.addAssign a b).subAssign a b = s) ∧ (s.subAssign a a) a = 0 ∧ ((s.addAssign a a).subAssign a a) a = 0 ∧
    (s.mulAssign a d).divAssign a d = some s := by
  refine ⟨fun h => ?_, ?_, ?_, ?_⟩
  · rw [add_assign, sub_assign, Function.update_self, Function.update_of_ne h.symm, Function.update_idem]
    have : s a + s b - s b = s a := by abel
    rw [this, Function.update_eq_self]
  · rw [sub_assign, Function.update_self, sub_self]
  · rw [add_assign, sub_assign, Function.update_self, Function.update_self, sub_self]
  · rw [mul_assign, div_assign _ _ _ hd, Function.update_self, Function.update_idem]
    have : d⁻¹ • (d • s a) = s a := by ext <;> simp [hd]
    rw [this, Function.update_eq_self]

/-- C105.  `normalize` replaces the object by what `normalized` returns, and nothing else; it is
undefined for the same vectors. -/
theorem normalize_spec (s : Store ℝ) (a : Nat) : s.normalize a = (s a).normalized.map (Function.update s a) := by
  unfold normalize P3.normalized
  split
  · rfl
  · rw [mul_assign]; rfl

/-- two objects, the second added twice to the first and the first to itself -/
example : let s : Store ℚ := fun i => if i = 0 then ⟨1, 2, 3⟩ else ⟨10, 0, 0⟩
    (((s.addAssign 0 1).addAssign 0 1).addAssign 0 0) 0 = ⟨42, 4, 6⟩ := by decide +kernel

end Store

namespace GeometryUtil

/-- C105.  `compute_random_axis` gives a unit vector and touches nothing else, whatever numbers the
library draws, unless it draws three zeros; the vector depends on the seed only, not on the earlier
content of the point, so equal seeds give equal axes, and it has the direction of the three drawn
numbers. -/
theorem random_axis {σ : Type} (g : Random σ) (seed : Int) :
    (∃ u : P3 ℝ, u.norm = 1 ∧
      (∃ k > 0, (g.draw (g.seed seed)).1 = k * u.x ∧ (g.draw (g.draw (g.seed seed)).2).1 = k * u.y ∧
        (g.draw (g.draw (g.draw (g.seed seed)).2).2).1 = k * u.z) ∧ ∀ (s : Store ℝ) (a : Nat), computeRandomAxis g s a seed = some (Function.update s a u)) ∨
    ((g.draw (g.seed seed)).1 = 0 ∧ (g.draw (g.draw (g.seed seed)).2).1 = 0 ∧ (g.draw (g.draw (g.draw (g.seed seed)).2).2).1 = 0 ∧
      ∀ (s : Store ℝ) (a : Nat), computeRandomAxis g s a seed = none) := by
  set v : P3 ℝ := ⟨(g.draw (g.seed seed)).1, (g.draw (g.draw (g.seed seed)).2).1, (g.draw (g.draw (g.draw (g.seed seed)).2).2).1⟩ with hv
  have key : ∀ (s : Store ℝ) (a : Nat), computeRandomAxis g s a seed = v.normalized.map (Function.update s a) := by
    intro s a
    unfold computeRandomAxis
    rw [Store.normalize_spec]
    unfold Store.setX Store.setY Store.setZ
    simp only [Function.update_self, Function.update_idem]
    congr 1
    funext p
    exact Function.update_idem ..
  by_cases h0 : v = 0
  · right
    refine ⟨congrArg P3.x h0, congrArg P3.y h0, congrArg P3.z h0, fun s a => ?_⟩
    rw [key, h0, P3.normalized_zero]; rfl
  · left
    refine ⟨(1 / v.norm) • v, ?_, ⟨v.norm, P3.norm_pos h0, ?_, ?_, ?_⟩, fun s a => ?_⟩
    rotate_left
    · have := P3.norm_pos h0
      simp only [P3.smul_x]; field_simp; rfl
    · have := P3.norm_pos h0
      simp only [P3.smul_y]; field_simp; rfl
    · have := P3.norm_pos h0
      simp only [P3.smul_z]; field_simp; rfl
    rotate_right
    · have := P3.norm_pos h0
      rw [P3.norm_smul, abs_of_pos (by positivity)]; field_simp
    · rw [key, P3.normalized_of_ne h0]; rfl

end GeometryUtil

namespace Color

/-- C105.  A colour constant keeps three components below 256 apart: the low byte is the third, the
next the second, the next the first. -/
theorem pixel_components (r g b : Nat) (hr : r < 256) (hg : g < 256) (hb : b < 256) :
    pixelRgb r g b % 256 = b ∧ pixelRgb r g b / 256 % 256 = g ∧ pixelRgb r g b / 65536 = r ∧ pixelRgb r g b < 2 ^ 24 := by
  unfold pixelRgb
  omega

/-- C105.  Colours are stored blue first: `RED` has its value in the lowest byte.  `NOCOLOR` is no
colour made by the macro. -/
theorem color_constants : red = 255 ∧ green = 255 * 256 ∧ blue = 255 * 65536 ∧ white = 2 ^ 24 - 1 ∧ black = 0 ∧
    (∀ c ∈ [grey, darkGrey], ∃ v, 0 < v ∧ v < 256 ∧ c = pixelRgb v v v) ∧ darkGrey < grey ∧
    (∃ v w, v < w ∧ w < 256 ∧ darkGreen = pixelRgb v w v) ∧
    (∀ r g b, r < 256 → g < 256 → b < 256 → pixelRgb r g b ≠ noColor) := by
  refine ⟨rfl, rfl, rfl, rfl, rfl, ?_, by decide, ⟨0x20, 0x80, by decide, by decide, rfl⟩, fun r g b hr hg hb h => ?_⟩
  · intro c hc
    simp only [List.mem_cons, List.not_mem_nil, or_false] at hc
    rcases hc with rfl | rfl
    · exact ⟨0x80, by decide, by decide, rfl⟩
    · exact ⟨0x20, by decide, by decide, rfl⟩
  have := (pixel_components r g b hr hg hb).2.2.2
  rw [h] at this
  exact absurd this (by decide)

end Color

/-- C105.  The two setters of a line set their own point and leave the other one alone, in any order. -/
theorem line_setters {K : Type*} (l : Line3 K) (p q : P3 K) :
    (l.setP1 p).p1 = p ∧ (l.setP1 p).p2 = l.p2 ∧ (l.setP2 q).p1 = l.p1 ∧ (l.setP2 q).p2 = q ∧
    (l.setP1 p).setP2 q = (l.setP2 q).setP1 p ∧ (l.setP1 p).setP2 q = ⟨p, q⟩ := ⟨rfl, rfl, rfl, rfl, rfl, rfl⟩

section planes
variable {K : Type*} [Field K] [LinearOrder K] [IsStrictOrderedRing K]

/-- C107.  When the test of two planes answers true: exactly when the cross product of the normals
has length at least `1e-8`. -/
theorem plane_plane_iff (p q : Plane3 K) :
    p.intersectPlane q = true ↔ (1 / 10 ^ 8) ^ 2 ≤ (p.normal.cross q.normal).normSq := by
  unfold Plane3.intersectPlane
  have e : (1 / 100000000 : K) * (1 / 100000000) = (1 / 10 ^ 8) ^ 2 := by norm_num
  simp only [e]
  split
  · rename_i h
    simp only [Bool.false_eq_true, false_iff, not_le]
    exact h
  · rename_i h
    simpa using h

/-- C107 (partial).  If the test answers true the planes really meet, exactly in the points of a
line along the cross product of the normals.  Missing: the function hands out that line (it does
not, `plane_plane_no_line`), and it answers true for all planes that meet in a line (it does not,
`plane_plane_misses`). -/
theorem plane_plane_partial (p q : Plane3 K) (h : p.intersectPlane q = true) :
    ∃ r : P3 K, ∀ x : P3 K, OnPlane p x ∧ OnPlane q x ↔ ∃ t : K, x = r + t • p.normal.cross q.normal := by
  rw [plane_plane_iff] at h
  obtain ⟨a, b, c, d⟩ := p
  obtain ⟨a', b', c', d'⟩ := q
  simp only [Plane3.normal] at h ⊢
  have hD : (P3.cross (⟨a, b, c⟩ : P3 K) ⟨a', b', c'⟩).normSq ≠ 0 := by
    have : (0 : K) < (1 / 10 ^ 8) ^ 2 := by positivity
    exact (this.trans_le h).ne'
  set u := b * c' - c * b' with hu
  set v := c * a' - a * c' with hv
  set w := a * b' - b * a' with hw
  have hN : u * u + v * v + w * w ≠ 0 := hD
  -- the point nearest to the origin
  refine ⟨⟨((d' * b - d * b') * w - (d' * c - d * c') * v) / (u * u + v * v + w * w),
    ((d' * c - d * c') * u - (d' * a - d * a') * w) / (u * u + v * v + w * w),
    ((d' * a - d * a') * v - (d' * b - d * b') * u) / (u * u + v * v + w * w)⟩, fun x => ?_⟩
  obtain ⟨x, y, z⟩ := x
  have hc : P3.cross (⟨a, b, c⟩ : P3 K) ⟨a', b', c'⟩ = ⟨u, v, w⟩ := rfl
  rw [hc]
  unfold OnPlane
  simp only
  constructor
  · rintro ⟨h1, h2⟩
    refine ⟨(x * u + y * v + z * w) / (u * u + v * v + w * w), ?_⟩
    ext
    · simp only [P3.add_x, P3.smul_x]
      rw [div_mul_eq_mul_div, ← add_div, eq_div_iff hN]
      simp only [hu, hv, hw]
      linear_combination (b' * (a * b' - b * a') - c' * (c * a' - a * c')) * h1 - (b * (a * b' - b * a') - c * (c * a' - a * c')) * h2
    · simp only [P3.add_y, P3.smul_y]
      rw [div_mul_eq_mul_div, ← add_div, eq_div_iff hN]
      simp only [hu, hv, hw]
      linear_combination (c' * (b * c' - c * b') - a' * (a * b' - b * a')) * h1 - (c * (b * c' - c * b') - a * (a * b' - b * a')) * h2
    · simp only [P3.add_z, P3.smul_z]
      rw [div_mul_eq_mul_div, ← add_div, eq_div_iff hN]
      simp only [hu, hv, hw]
      linear_combination (a' * (c * a' - a * c') - b' * (b * c' - c * b')) * h1 - (a * (c * a' - a * c') - b * (b * c' - c * b')) * h2
  · rintro ⟨t, ht⟩
    have e1 := congrArg P3.x ht
    have e2 := congrArg P3.y ht
    have e3 := congrArg P3.z ht
    simp only [P3.add_x, P3.smul_x, P3.add_y, P3.smul_y, P3.add_z, P3.smul_z] at e1 e2 e3
    have f1 := div_mul_cancel₀ ((d' * b - d * b') * w - (d' * c - d * c') * v) hN
    have f2 := div_mul_cancel₀ ((d' * c - d * c') * u - (d' * a - d * a') * w) hN
    have f3 := div_mul_cancel₀ ((d' * a - d * a') * v - (d' * b - d * b') * u) hN
    clear ht
    generalize ((d' * b - d * b') * w - (d' * c - d * c') * v) / (u * u + v * v + w * w) = r1 at *
    generalize ((d' * c - d * c') * u - (d' * a - d * a') * w) / (u * u + v * v + w * w) = r2 at *
    generalize ((d' * a - d * a') * v - (d' * b - d * b') * u) / (u * u + v * v + w * w) = r3 at *
    constructor
    · apply mul_left_cancel₀ hN
      rw [e1, e2, e3]
      simp only [hu, hv, hw] at *
      linear_combination a * f1 + b * f2 + c * f3
    · apply mul_left_cancel₀ hN
      rw [e1, e2, e3]
      simp only [hu, hv, hw] at *
      linear_combination a' * f1 + b' * f2 + c' * f3

/-- C107, negation: the function leaves the line as it was.  For two planes that meet in the z axis
it answers true and the caller is left with both points of the line at `(1, 0, 0)`, off one plane. -/
theorem plane_plane_no_line (p q : Plane3 K) (l : Line3 K) : (p.intersectPlaneLine q l).2 = l ∧
    ∃ (p q : Plane3 ℚ) (l : Line3 ℚ), (p.intersectPlaneLine q l).1 = true ∧ ¬ OnPlane p (p.intersectPlaneLine q l).2.p1 := by
  refine ⟨rfl, ⟨1, 0, 0, 0⟩, ⟨0, 1, 0, 0⟩, ⟨⟨1, 0, 0⟩, ⟨1, 0, 0⟩⟩, by decide +kernel, ?_⟩
  unfold OnPlane Plane3.intersectPlaneLine
  norm_num

/-- C107, negation: two planes that meet in a line at a small angle are reported as parallel. -/
theorem plane_plane_misses : ∃ p q : Plane3 ℚ, p.intersectPlane q = false ∧
    ∃ r : P3 ℚ, ∀ x : P3 ℚ, OnPlane p x ∧ OnPlane q x ↔ ∃ t : ℚ, x = r + t • ⟨0, 1, 0⟩ := by
  refine ⟨⟨0, 0, 1, 0⟩, ⟨1 / 10 ^ 9, 0, 1, 0⟩, by decide +kernel, ⟨0, 0, 0⟩, ?_⟩
  rintro ⟨x, y, z⟩
  unfold OnPlane
  simp only [P3.ext_iff, P3.add_x, P3.smul_x, P3.add_y, P3.smul_y, P3.add_z, P3.smul_z]
  constructor
  · rintro ⟨h1, h2⟩
    exact ⟨y, by linarith, by ring, by linarith⟩
  · rintro ⟨t, h1, h2, h3⟩
    constructor <;> linarith

/-- C107, same plane: a plane is parallel to itself, and to its opposite -/
theorem plane_plane_self (p : Plane3 K) : p.intersectPlane p = false ∧ p.intersectPlane ⟨-p.a, -p.b, -p.c, -p.d⟩ = false := by
  have e1 : (p.normal.cross p.normal).normSq = 0 := by simp [P3.normSq, P3.cross, Plane3.normal]; ring
  have e2 : (p.normal.cross (Plane3.normal ⟨-p.a, -p.b, -p.c, -p.d⟩)).normSq = 0 := by simp [P3.normSq, P3.cross, Plane3.normal]; ring
  constructor
  · rw [← Bool.not_eq_true, plane_plane_iff, e1]; norm_num
  · rw [← Bool.not_eq_true, plane_plane_iff, e2]; norm_num

end planes
end CAD
