import Verif.Props.Convex
import Verif.Lemmas.Icosa
import Mathlib.Analysis.SpecialFunctions.Complex.Arg
import Mathlib.Analysis.SpecialFunctions.Trigonometric.Inverse

/-! C121 for the round solids; C122: distance between the round meshes and the true surfaces. -/

set_option linter.unusedSimpArgs false

namespace CAD
namespace Factory
open Mesh MeshUtil Real

/-! ### angles -/

/-- longitude of a column -/
noncomputable def lon {L : Nat} (a : ZMod L) : ℝ := (a.val : ℝ) / L * 2 * π

theorem cos_odd {L : Nat} (hL : 1 ≤ L) {x : ℤ} (h1 : 1 ≤ |x|) (h2 : |x| ≤ 2 * L - 1) : cos (x * (π / L)) ≤ cos (π / L) := by
  have L0 : (0 : ℝ) < L := by exact_mod_cast hL
  have hpi := pi_pos
  have e : cos (x * (π / L)) = cos (|(x : ℝ)| * (π / L)) := by
    rw [← cos_abs, abs_mul, abs_of_pos (show 0 < π / L by positivity)]
  rw [e]
  have c : |(x : ℝ)| = ((|x| : ℤ) : ℝ) := by push_cast; rfl
  rw [c]
  generalize |x| = y at *
  have y1 : (1 : ℝ) ≤ y := by exact_mod_cast h1
  have y2 : (y : ℝ) ≤ 2 * L - 1 := by exact_mod_cast h2
  have dp : 0 < π / L := by positivity
  have dL : π / L * L = π := by field_simp
  rcases le_total (y : ℝ) L with h | h
  · refine cos_le_cos_of_nonneg_of_le_pi dp.le ?_ ?_
    · nlinarith
    · nlinarith
  · rw [← cos_two_pi_sub]
    refine cos_le_cos_of_nonneg_of_le_pi dp.le ?_ ?_
    · nlinarith
    · nlinarith

/-- no column is nearer to the middle of a step than its two ends -/
theorem cos_lon_le {L : Nat} (hL : 2 ≤ L) (a b : ZMod L) : cos (lon b - (lon a + π / L)) ≤ cos (π / L) := by
  have : NeZero L := ⟨by omega⟩
  have L0 : (L : ℝ) ≠ 0 := by positivity
  have ha := ZMod.val_lt a
  have hb := ZMod.val_lt b
  have e : lon b - (lon a + π / L) = ((2 * ((b.val : ℤ) - a.val) - 1 : ℤ) : ℝ) * (π / L) := by
    unfold lon; push_cast; field_simp; ring
  rw [e]
  refine cos_odd (by omega) ?_ ?_
  · rw [Int.abs_eq_natAbs]; omega
  · rw [Int.abs_eq_natAbs]; omega

theorem cos_lon_eq {L : Nat} (hL : 2 ≤ L) (a : ZMod L) {b : ZMod L} (h : b = a ∨ b = a + 1) : cos (lon b - (lon a + π / L)) = cos (π / L) := by
  have : NeZero L := ⟨by omega⟩
  have L0 : (L : ℝ) ≠ 0 := by positivity
  rcases h with rfl | rfl
  · rw [← cos_neg]; congr 1; ring
  · rcases next_angle hL a with h | h
    · rw [lon, h]; congr 1; unfold lon; field_simp; ring
    · rw [lon, h, show (a.val : ℝ) / L * 2 * π + 2 * π / L - 2 * π - (lon a + π / L) = π / L - 2 * π by unfold lon; field_simp; ring, cos_sub_two_pi]

/-- every angle is in some step -/
theorem exists_lon {L : Nat} (hL : 1 ≤ L) (u : ℝ) : ∃ a : ZMod L, ∃ x, 0 ≤ x ∧ x ≤ 2 * π / L ∧ cos u = cos (lon a + x) ∧ sin u = sin (lon a + x) := by
  have : NeZero L := ⟨by omega⟩
  have L0 : (0 : ℝ) < L := by exact_mod_cast hL
  have hpi := pi_pos
  set w := u / (2 * π) * L with hw
  set i := ⌊w⌋ with hi
  have f1 := Int.floor_le w
  have f2 := Int.lt_floor_add_one w
  rw [← hi] at f1 f2
  have hv : (((i : ZMod L).val : ℤ) : ℝ) = ((i % L : ℤ) : ℝ) := by rw [ZMod.val_intCast]
  have hd : ((i % L : ℤ) : ℝ) = i - L * ((i / L : ℤ) : ℝ) := by
    have := Int.emod_add_mul_ediv i L
    have h2 : ((i % L + L * (i / L) : ℤ) : ℝ) = i := by rw [this]
    push_cast at h2
    push_cast
    linarith
  have ang : lon (i : ZMod L) + (w - i) * (2 * π / L) = u - ((i / L : ℤ) : ℝ) * (2 * π) := by
    have e : ((i : ZMod L).val : ℝ) = i - L * ((i / L : ℤ) : ℝ) := by
      rw [← hd, ← hv]; push_cast; rfl
    unfold lon
    rw [e, hw]
    field_simp
    ring
  refine ⟨(i : ZMod L), (w - i) * (2 * π / L), ?_, ?_, ?_, ?_⟩
  · have : 0 ≤ w - i := by linarith
    positivity
  · have : w - i ≤ 1 := by linarith
    calc (w - i) * (2 * π / L) ≤ 1 * (2 * π / L) := mul_le_mul_of_nonneg_right this (by positivity)
      _ = 2 * π / L := one_mul _
  · rw [ang, cos_sub_int_mul_two_pi]
  · rw [ang, sin_sub_int_mul_two_pi]

/-- every point of the plane has polar coordinates -/
theorem exists_polar (x y : ℝ) : ∃ u, x = √(x ^ 2 + y ^ 2) * cos u ∧ y = √(x ^ 2 + y ^ 2) * sin u := by
  refine ⟨Complex.arg ⟨x, y⟩, ?_, ?_⟩
  · have h := Complex.norm_mul_cos_arg ⟨x, y⟩
    rw [Complex.norm_def, Complex.normSq_mk, ← sq, ← sq] at h
    exact h.symm
  · have h := Complex.norm_mul_sin_arg ⟨x, y⟩
    rw [Complex.norm_def, Complex.normSq_mk, ← sq, ← sq] at h
    exact h.symm

/-- the ray in direction `θ + x` meets the chord of the arc from `θ` to `θ + d` -/
theorem exists_chord {θ d x : ℝ} (d0 : 0 < d) (d1 : d < π) (x0 : 0 ≤ x) (x1 : x ≤ d) :
    ∃ s m, 0 ≤ s ∧ s ≤ 1 ∧ cos (d / 2) ≤ m ∧ m ≤ 1 ∧ (1 - s) * cos θ + s * cos (θ + d) = m * cos (θ + x) ∧
      (1 - s) * sin θ + s * sin (θ + d) = m * sin (θ + x) := by
  have hd : 0 < sin d := sin_pos_of_pos_of_lt_pi d0 d1
  have sx : 0 ≤ sin x := sin_nonneg_of_nonneg_of_le_pi x0 (by linarith)
  have sy : 0 ≤ sin (d - x) := sin_nonneg_of_nonneg_of_le_pi (by linarith) (by linarith)
  have h2 : 0 < cos (d / 2) := cos_pos_of_mem_Ioo ⟨by linarith, by linarith⟩
  have h3 : cos (d / 2) ≤ cos (x - d / 2) := by
    rw [← cos_abs (x - d / 2)]
    refine cos_le_cos_of_nonneg_of_le_pi (abs_nonneg _) (by linarith) ?_
    rw [abs_le]; constructor <;> linarith
  have h3' : 0 < cos (x - d / 2) := by linarith
  have h4 : cos (x - d / 2) ≤ 1 := cos_le_one _
  have hs : sin (d / 2) ≠ 0 := (sin_pos_of_pos_of_lt_pi (by linarith) (by linarith)).ne'
  have e1 : sin d = 2 * sin (d / 2) * cos (d / 2) := by rw [← sin_two_mul]; congr 1; ring
  have e2 : sin x + sin (d - x) = 2 * sin (d / 2) * cos (x - d / 2) := by
    have a1 : ∀ p y, sin (p + y) + sin (p - y) = 2 * sin p * cos y := by
      intro p y; rw [sin_add, sin_sub]; ring
    have := a1 (d / 2) (x - d / 2)
    rwa [show d / 2 + (x - d / 2) = x by ring, show d / 2 - (x - d / 2) = d - x by ring] at this
  have hden : 0 < sin x + sin (d - x) := by
    rw [e2]
    have : 0 < sin (d / 2) := sin_pos_of_pos_of_lt_pi (by linarith) (by linarith)
    positivity
  refine ⟨sin x / (sin x + sin (d - x)), cos (d / 2) / cos (x - d / 2), by positivity, ?_, ?_, ?_, ?_, ?_⟩
  · rw [div_le_one hden]; linarith
  · rw [le_div_iff₀ h3']; nlinarith
  · rw [div_le_one h3']; exact h3
  all_goals
    have em : cos (d / 2) / cos (x - d / 2) = sin d / (sin x + sin (d - x)) := by
      rw [e1, e2]; field_simp
    have e0 : 1 - sin x / (sin x + sin (d - x)) = sin (d - x) / (sin x + sin (d - x)) := by
      rw [eq_div_iff hden.ne', sub_mul, div_mul_cancel₀ _ hden.ne']; ring
    rw [em, e0, div_mul_eq_mul_div, div_mul_eq_mul_div, div_mul_eq_mul_div, ← add_div]
    congr 1
  · rw [sin_sub, cos_add, cos_add]; ring
  · rw [sin_sub, sin_add, sin_add]; ring

/-! ### planar quads -/

/-- a convex combination of the corners of a trapezoid lies in one of the two triangles `add_quad` cuts it into -/
theorem quad_cover {A B C D : P3 ℝ} {α β : ℝ} (hα : 0 ≤ α) (hβ : 0 ≤ β) (hs : 0 < α + β) (e : α • B + β • D = β • A + α • C)
    {a b c d : ℝ} (ha : 0 ≤ a) (hb : 0 ≤ b) (hc : 0 ≤ c) (hd : 0 ≤ d) (h1 : a + b + c + d = 1) :
    InTriangle ⟨A, B, C⟩ (a • A + b • B + c • C + d • D) ∨ InTriangle ⟨C, D, A⟩ (a • A + b • B + c • C + d • D) := by
  have ex := congrArg P3.x e
  have ey := congrArg P3.y e
  have ez := congrArg P3.z e
  simp only [P3.add_x, P3.add_y, P3.add_z, P3.smul_x, P3.smul_y, P3.smul_z] at ex ey ez
  by_cases h : 0 < α ∧ b * β ≤ d * α
  · obtain ⟨h0, h⟩ := h
    right
    refine ⟨c + b, d - b / α * β, a + b / α * β, by positivity, ?_, by positivity, ?_, ?_⟩
    · rw [sub_nonneg, div_mul_eq_mul_div, div_le_iff₀ h0]; exact h
    · linarith
    · ext <;> simp only [P3.add_x, P3.add_y, P3.add_z, P3.smul_x, P3.smul_y, P3.smul_z] <;> field_simp
      · linear_combination b * ex
      · linear_combination b * ey
      · linear_combination b * ez
  · have h0 : 0 < β ∧ d * α ≤ b * β := by
      rw [not_and_or] at h
      rcases h with h | h
      · have : α = 0 := le_antisymm (not_lt.1 h) hα
        refine ⟨by linarith, ?_⟩
        rw [this]; nlinarith [mul_nonneg hb hβ]
      · push Not at h
        refine ⟨?_, h.le⟩
        rcases hβ.lt_or_eq with h' | h'
        · exact h'
        · rw [← h', mul_zero] at h; nlinarith [mul_nonneg hd hα]
    obtain ⟨h0, h⟩ := h0
    left
    refine ⟨a + d, b - d / β * α, c + d / β * α, by positivity, ?_, by positivity, ?_, ?_⟩
    · rw [sub_nonneg, div_mul_eq_mul_div, div_le_iff₀ h0]; exact h
    · linarith
    · ext <;> simp only [P3.add_x, P3.add_y, P3.add_z, P3.smul_x, P3.smul_y, P3.smul_z] <;> field_simp
      · linear_combination d * ex
      · linear_combination d * ey
      · linear_combination d * ez

theorem norm_le_iff {p : P3 ℝ} {e : ℝ} (he : 0 ≤ e) : p.norm ≤ e ↔ p.normSq ≤ e ^ 2 := by
  rw [P3.norm_eq, sqrt_le_left he]

/-- linear functions on a triangle -/
theorem InTriangle.lin {t : Tri3 ℝ} {q n : P3 ℝ} {d : ℝ} (h : InTriangle t q) (hs : Supports n d t) : n.dot q = d := by
  obtain ⟨a, b, c, -, -, -, e, rfl⟩ := h
  obtain ⟨h1, h2, h3⟩ := hs
  simp only [P3.dot, P3.add_x, P3.add_y, P3.add_z, P3.smul_x, P3.smul_y, P3.smul_z] at *
  linear_combination a * h1 + b * h2 + c * h3 + d * e

/-- a ball contains the triangle when it contains the corners -/
theorem InTriangle.ball {t : Tri3 ℝ} {q : P3 ℝ} {d : ℝ} (h : InTriangle t q) (h1 : t.p1.normSq ≤ d) (h2 : t.p2.normSq ≤ d)
    (h3 : t.p3.normSq ≤ d) : q.normSq ≤ d := by
  obtain ⟨a, b, c, ha, hb, hc, e, rfl⟩ := h
  have key : (a • t.p1 + b • t.p2 + c • t.p3).normSq = (a + b + c) * (a * t.p1.normSq + b * t.p2.normSq + c * t.p3.normSq) -
      (a * b * (t.p1 - t.p2).normSq + a * c * (t.p1 - t.p3).normSq + b * c * (t.p2 - t.p3).normSq) := by
    simp only [P3.normSq, P3.add_x, P3.add_y, P3.add_z, P3.smul_x, P3.smul_y, P3.smul_z, P3.sub_x, P3.sub_y, P3.sub_z]; ring
  rw [key, e]
  have n1 := mul_nonneg (mul_nonneg ha hb) (P3.normSq_nonneg (t.p1 - t.p2))
  have n2 := mul_nonneg (mul_nonneg ha hc) (P3.normSq_nonneg (t.p1 - t.p3))
  have n3 := mul_nonneg (mul_nonneg hb hc) (P3.normSq_nonneg (t.p2 - t.p3))
  have hd : a * d + b * d + c * d = d := by rw [← add_mul, ← add_mul, e, one_mul]
  linarith [mul_le_mul_of_nonneg_left h1 ha, mul_le_mul_of_nonneg_left h2 hb, mul_le_mul_of_nonneg_left h3 hc]

/-! ### the UV sphere -/

/-- polar angle of a row, counted from the north pole -/
noncomputable def lat (M : Nat) (k : Int) : ℝ := (k : ℝ) / (M + 1 : Nat) * π

theorem sphereVertex_form {r : ℝ} {L M : Nat} {v : Ball L} (h : BallIn M v) :
    ∃ (b : ZMod L) (j : Int), 0 ≤ j ∧ j ≤ M + 1 ∧ sphereVertex r L M v = spherePoint r (lon b) (lat M j) := by
  have M0 : ((M + 1 : Nat) : ℝ) ≠ 0 := by positivity
  match v with
  | .north => exact ⟨0, 0, le_rfl, by positivity, by simp [sphereVertex, spherePoint, lat]⟩
  | .south =>
    refine ⟨0, M + 1, by positivity, le_rfl, ?_⟩
    have : lat M (M + 1) = π := by
      unfold lat; push_cast; push_cast at M0; field_simp
    simp [sphereVertex, spherePoint, this]
  | .at a l =>
    obtain ⟨h0, h1⟩ := h
    exact ⟨a, l + 1, by omega, by omega, by simp [sphereVertex, lat, lon]⟩

/-- the corners of a cell -/
theorem sphereCell_form {r : ℝ} {L M : Nat} (hM : 1 ≤ M) {a : ZMod L} {k : Int} (h0 : 0 ≤ k) (h1 : k ≤ M) {t : Ball L × Ball L × Ball L}
    (ht : t ∈ ballCell (M : Int) (a, k)) : ∀ v, (v = t.1 ∨ v = t.2.1 ∨ v = t.2.2) →
    ∃ b j, (b = a ∨ b = a + 1) ∧ (j = k ∨ j = k + 1) ∧ sphereVertex r L M v = spherePoint r (lon b) (lat M j) := by
  have M0 : ((M + 1 : Nat) : ℝ) ≠ 0 := by positivity
  have hnorth : ∀ b : ZMod L, sphereVertex r L M .north = spherePoint r (lon b) (lat M 0) := by
    intro b; simp [sphereVertex, spherePoint, lat]
  have hsouth : ∀ b : ZMod L, sphereVertex r L M .south = spherePoint r (lon b) (lat M (M + 1)) := by
    intro b
    have : lat M (M + 1) = π := by
      unfold lat; push_cast; push_cast at M0; field_simp
    simp [sphereVertex, spherePoint, this]
  have hat : ∀ (b : ZMod L) (l j : Int), j = l + 1 → sphereVertex r L M (.at b l) = spherePoint r (lon b) (lat M j) := by
    rintro b l j rfl
    simp [sphereVertex, lat, lon]
  unfold ballCell at ht
  split_ifs at ht with c1 c2
  · simp only at c1
    subst c1
    rw [List.mem_singleton] at ht
    subst ht
    rintro v (rfl | rfl | rfl)
    · exact ⟨a, 0, .inl rfl, .inl rfl, hnorth a⟩
    · exact ⟨a, 1, .inl rfl, .inr rfl, hat _ _ _ rfl⟩
    · exact ⟨a + 1, 1, .inr rfl, .inr rfl, hat _ _ _ rfl⟩
  · simp only [quadT, List.mem_cons, List.not_mem_nil, or_false] at ht
    rcases ht with rfl | rfl <;> rintro v (rfl | rfl | rfl)
    · exact ⟨a, k, .inl rfl, .inl rfl, hat _ _ _ (by omega)⟩
    · exact ⟨a, k + 1, .inl rfl, .inr rfl, hat _ _ _ (by omega)⟩
    · exact ⟨a + 1, k + 1, .inr rfl, .inr rfl, hat _ _ _ (by omega)⟩
    · exact ⟨a + 1, k + 1, .inr rfl, .inr rfl, hat _ _ _ (by omega)⟩
    · exact ⟨a + 1, k, .inr rfl, .inl rfl, hat _ _ _ (by omega)⟩
    · exact ⟨a, k, .inl rfl, .inl rfl, hat _ _ _ (by omega)⟩
  · simp only at c1 c2
    have hk : k = M := by omega
    subst hk
    rw [List.mem_singleton] at ht
    subst ht
    rintro v (rfl | rfl | rfl)
    · exact ⟨a, M, .inl rfl, .inl rfl, hat _ _ _ (by omega)⟩
    · exact ⟨a, M + 1, .inl rfl, .inr rfl, hsouth a⟩
    · exact ⟨a + 1, M, .inr rfl, .inl rfl, hat _ _ _ (by omega)⟩

/-- normal of the plane of a cell -/
noncomputable def cellNormal {L : Nat} (M : Nat) (a : ZMod L) (k : Int) : P3 ℝ :=
  let φ := lat M k + π / (M + 1 : Nat) / 2
  ⟨sin φ * cos (lon a + π / L) / cos (π / L), sin φ * sin (lon a + π / L) / cos (π / L), cos φ⟩

theorem cellNormal_dot {r : ℝ} {L M : Nat} (a : ZMod L) (k : Int) (u v : ℝ) :
    (cellNormal M a k).dot (spherePoint r u v) = r * (sin v * sin (lat M k + π / (M + 1 : Nat) / 2) * (cos (u - (lon a + π / L)) / cos (π / L)) +
      cos v * cos (lat M k + π / (M + 1 : Nat) / 2)) := by
  simp only [cellNormal, spherePoint, P3.dot]
  rw [cos_sub]
  ring

theorem cos_step_pos {L : Nat} (hL : 3 ≤ L) : 0 < cos (π / L) := by
  have hpi := pi_pos
  have hL' : (3 : ℝ) ≤ L := by exact_mod_cast hL
  refine cos_pos_of_mem_Ioo ⟨by have : 0 < π / L := by positivity
                                linarith, ?_⟩
  rw [div_lt_div_iff₀ (by linarith) (by norm_num)]
  nlinarith

theorem lat_succ (M : Nat) (k : Int) : lat M (k + 1) = lat M k + π / (M + 1 : Nat) := by
  unfold lat; push_cast; ring

theorem cell_on {r : ℝ} {L M : Nat} (hL : 3 ≤ L) (a : ZMod L) (k : Int) {b : ZMod L} {j : Int} (hb : b = a ∨ b = a + 1) (hj : j = k ∨ j = k + 1) :
    (cellNormal M a k).dot (spherePoint r (lon b) (lat M j)) = r * cos (π / (M + 1 : Nat) / 2) := by
  rw [cellNormal_dot, cos_lon_eq (by omega) a hb, div_self (cos_step_pos hL).ne', mul_one]
  congr 1
  have : sin (lat M j) * sin (lat M k + π / (M + 1 : Nat) / 2) + cos (lat M j) * cos (lat M k + π / (M + 1 : Nat) / 2) =
      cos (lat M j - (lat M k + π / (M + 1 : Nat) / 2)) := by rw [cos_sub]; ring
  rw [this]
  rcases hj with rfl | rfl
  · rw [← cos_neg]; congr 1; ring
  · rw [lat_succ]; congr 1; ring

theorem sin_lat_nonneg {M : Nat} {x : ℝ} (h0 : 0 ≤ x) (h1 : x ≤ (M + 1 : Nat)) : 0 ≤ sin (x / (M + 1 : Nat) * π) := by
  have M0 : (0 : ℝ) < ((M + 1 : Nat) : ℝ) := by positivity
  have hpi := pi_pos
  refine sin_nonneg_of_nonneg_of_le_pi (by positivity) ?_
  have : x / (M + 1 : Nat) ≤ 1 := (div_le_one M0).2 h1
  nlinarith

theorem cell_below {r : ℝ} (hr : 0 ≤ r) {L M : Nat} (hL : 3 ≤ L) (a b : ZMod L) {k j : Int} (k0 : 0 ≤ k) (k1 : k ≤ M) (j0 : 0 ≤ j) (j1 : j ≤ M + 1) :
    (cellNormal M a k).dot (spherePoint r (lon b) (lat M j)) ≤ r * cos (π / (M + 1 : Nat) / 2) := by
  have M0 : (0 : ℝ) < ((M + 1 : Nat) : ℝ) := by positivity
  have hpi := pi_pos
  rw [cellNormal_dot]
  refine mul_le_mul_of_nonneg_left ?_ hr
  have c0 := cos_step_pos hL
  have k0' : (0 : ℝ) ≤ k := by exact_mod_cast k0
  have k1' : (k : ℝ) ≤ M := by exact_mod_cast k1
  have j0' : (0 : ℝ) ≤ j := by exact_mod_cast j0
  have j1' : (j : ℝ) ≤ M + 1 := by exact_mod_cast j1
  have em : lat M k + π / (M + 1 : Nat) / 2 = (k + 1 / 2) / (M + 1 : Nat) * π := by unfold lat; field_simp
  have s1 : 0 ≤ sin (lat M j) := sin_lat_nonneg j0' (by push_cast; exact j1')
  have s2 : 0 ≤ sin (lat M k + π / (M + 1 : Nat) / 2) := by
    rw [em]; exact sin_lat_nonneg (by linarith) (by push_cast; linarith)
  have q : cos (lon b - (lon a + π / L)) / cos (π / L) ≤ 1 := (div_le_one c0).2 (cos_lon_le (by omega) a b)
  have step : sin (lat M j) * sin (lat M k + π / (M + 1 : Nat) / 2) * (cos (lon b - (lon a + π / L)) / cos (π / L)) +
      cos (lat M j) * cos (lat M k + π / (M + 1 : Nat) / 2) ≤ cos (lat M j - (lat M k + π / (M + 1 : Nat) / 2)) := by
    rw [cos_sub (lat M j)]
    linarith [mul_le_mul_of_nonneg_left q (mul_nonneg s1 s2)]
  refine step.trans ?_
  have e : lat M j - (lat M k + π / (M + 1 : Nat) / 2) = ((2 * (j - k) - 1 : ℤ) : ℝ) * (π / (M + 1 : Nat) / 2) := by
    unfold lat; push_cast; ring
  have e2 : π / (M + 1 : Nat) / 2 = π / (2 * (M + 1) : Nat) := by push_cast; field_simp
  rw [e, e2]
  refine cos_odd (by omega) ?_ ?_
  · rw [Int.abs_eq_natAbs]; omega
  · rw [abs_le]; constructor <;> push_cast <;> omega

theorem sphere_triangles (r : ℝ) {n : Nat} (m : Mesh ℝ) {x : Mesh ℝ} (hx : createSphereUv r n m = some x) :
    x.triangles = (ballTris (2 + 4 * n) (1 + 2 * n)).map fun t => ⟨sphereVertex r (2 + 4 * n) (1 + 2 * n) t.1,
      sphereVertex r (2 + 4 * n) (1 + 2 * n) t.2.1, sphereVertex r (2 + 4 * n) (1 + 2 * n) t.2.2⟩ := by
  have : NeZero (2 + 4 * n) := ⟨by omega⟩
  rw [createSphereUv_eq] at hx
  obtain rfl := Option.some.inj hx
  rw [ballFaces, build_triangles_named _ _ _ _ (sphereVertex r (2 + 4 * n) (1 + 2 * n))]
  intro t ht
  obtain ⟨h1, h2, h3⟩ := ballTris_in (show 1 ≤ 1 + 2 * n by omega) t ht
  exact ⟨ballPoints_get _ h1, ballPoints_get _ h2, ballPoints_get _ h3⟩

/-- the plane of a triangle of the sphere -/
theorem sphere_plane {r : ℝ} {L M : Nat} (hL : 3 ≤ L) (hM : 1 ≤ M) {a : ZMod L} {k : Int} (h0 : 0 ≤ k) (h1 : k ≤ M) {t : Ball L × Ball L × Ball L}
    (ht : t ∈ ballCell (M : Int) (a, k)) : Supports (cellNormal M a k) (r * cos (π / (M + 1 : Nat) / 2))
      ⟨sphereVertex r L M t.1, sphereVertex r L M t.2.1, sphereVertex r L M t.2.2⟩ := by
  have key := sphereCell_form (r := r) hM h0 h1 ht
  refine ⟨?_, ?_, ?_⟩
  · obtain ⟨b, j, hb, hj, e⟩ := key t.1 (.inl rfl)
    simp only [e]; exact cell_on hL a k hb hj
  · obtain ⟨b, j, hb, hj, e⟩ := key t.2.1 (.inr (.inl rfl))
    simp only [e]; exact cell_on hL a k hb hj
  · obtain ⟨b, j, hb, hj, e⟩ := key t.2.2 (.inr (.inr rfl))
    simp only [e]; exact cell_on hL a k hb hj

theorem cos_lat_step_pos {M : Nat} (hM : 1 ≤ M) : 0 < cos (π / (M + 1 : Nat) / 2) := by
  have e2 : π / (M + 1 : Nat) / 2 = π / (2 * (M + 1) : Nat) := by push_cast; field_simp
  rw [e2]; exact cos_step_pos (by omega)

/-- **C121** UV sphere -/
theorem sphere_uv_convex {r : ℝ} (hr : 0 < r) {n : Int} (hn : 1 ≤ n) (m : Mesh ℝ) :
    ∃ x, createSphereUv r n m = some x ∧ ConvexOutward x.triangles ∧ AroundOrigin x.triangles := by
  obtain ⟨x, hx, -, -, -, -, -, ho⟩ := sphere_uv_spec r n hn m
  refine ⟨x, hx, convex_of_planes (ho hr) ?_, ho hr⟩
  lift n to Nat using (by omega)
  have hn' : 1 ≤ n := by omega
  have : NeZero (2 + 4 * n) := ⟨by omega⟩
  rw [sphere_triangles r m hx]
  intro t0 ht0
  obtain ⟨t, ht1, rfl⟩ := List.mem_map.1 ht0
  obtain ⟨⟨a, k⟩, hc, ht⟩ := List.mem_flatMap.1 ht1
  obtain ⟨h0, h1⟩ := (ballCells_mem _ _ a k).1 hc
  refine ⟨_, _, mul_pos hr (cos_lat_step_pos (by omega)), sphere_plane (by omega) (by omega) h0 h1 ht, ?_⟩
  intro t1 ht1
  obtain ⟨t', ht', rfl⟩ := List.mem_map.1 ht1
  obtain ⟨i1, i2, i3⟩ := ballTris_in (by omega) t' ht'
  obtain ⟨b1, j1, p1, q1, e1⟩ := sphereVertex_form (r := r) i1
  obtain ⟨b2, j2, p2, q2, e2⟩ := sphereVertex_form (r := r) i2
  obtain ⟨b3, j3, p3, q3, e3⟩ := sphereVertex_form (r := r) i3
  simp only [e1, e2, e3]
  exact ⟨cell_below hr.le (by omega) a b1 h0 h1 p1 q1, cell_below hr.le (by omega) a b2 h0 h1 p2 q2, cell_below hr.le (by omega) a b3 h0 h1 p3 q3⟩

/-! ### accuracy of the UV sphere -/

/-- every polar angle is in some row -/
theorem exists_lat (M : Nat) {v : ℝ} (v0 : 0 ≤ v) (v1 : v ≤ π) : ∃ k : Int, ∃ y, 0 ≤ k ∧ k ≤ M ∧ 0 ≤ y ∧ y ≤ π / (M + 1 : Nat) ∧ v = lat M k + y := by
  have M0 : (0 : ℝ) < ((M + 1 : Nat) : ℝ) := by positivity
  have hpi := pi_pos
  rcases v1.lt_or_eq with h | h
  · set w := v / π * (M + 1 : Nat) with hw
    have f1 := Int.floor_le w
    have f2 := Int.lt_floor_add_one w
    have w0 : 0 ≤ w := by positivity
    have w1 : w < (M + 1 : Nat) := by
      have : v / π < 1 := (div_lt_one hpi).2 h
      rw [hw]; nlinarith
    have e : v - lat M ⌊w⌋ = (w - ⌊w⌋) * (π / (M + 1 : Nat)) := by
      unfold lat; rw [hw]; field_simp
    have dp : 0 < π / ((M + 1 : Nat) : ℝ) := by positivity
    refine ⟨⌊w⌋, v - lat M ⌊w⌋, Int.floor_nonneg.2 w0, ?_, ?_, ?_, by ring⟩
    · have : ⌊w⌋ < ((M + 1 : Nat) : Int) := Int.floor_lt.2 (by exact_mod_cast w1)
      omega
    · rw [e]; exact mul_nonneg (by linarith) dp.le
    · rw [e]; nlinarith
  · refine ⟨M, π / (M + 1 : Nat), by omega, le_rfl, by positivity, le_rfl, ?_⟩
    rw [h]; unfold lat; push_cast; field_simp

/-- the points of the sphere -/
theorem exists_spherical {r : ℝ} (hr : 0 < r) {p : P3 ℝ} (hp : p.norm = r) : ∃ u v, 0 ≤ v ∧ v ≤ π ∧ p = spherePoint r u v := by
  have h2 : p.x * p.x + p.y * p.y + p.z * p.z = r ^ 2 := by
    have := P3.norm_sq p
    rw [hp, P3.normSq] at this
    linarith
  have hz : (p.z / r) ^ 2 ≤ 1 := by
    rw [div_pow, div_le_one (by positivity)]; nlinarith [mul_self_nonneg p.x, mul_self_nonneg p.y]
  obtain ⟨z1, z2⟩ := abs_le.1 ((sq_le_one_iff_abs_le_one _).1 hz)
  obtain ⟨u, hx, hy⟩ := exists_polar p.x p.y
  have hs : √(p.x ^ 2 + p.y ^ 2) = r * sin (arccos (p.z / r)) := by
    have e : p.x ^ 2 + p.y ^ 2 = r ^ 2 * (1 - (p.z / r) ^ 2) := by field_simp; linarith
    rw [sin_arccos, e, sqrt_mul (by positivity), sqrt_sq hr.le]
  refine ⟨u, arccos (p.z / r), arccos_nonneg _, arccos_le_pi _, ?_⟩
  ext
  · simp only [spherePoint]; rw [← hs]; exact hx
  · simp only [spherePoint]; rw [← hs]; exact hy
  · simp only [spherePoint]; rw [cos_arccos z1 z2]; field_simp

/-- the triangles of a cell cover the convex combinations of its corners -/
theorem sphere_cell_cover (r : ℝ) {L M : Nat} (a : ZMod L) {k : Int} (h0 : 0 ≤ k) (h1 : k ≤ M) {w1 w2 w3 w4 : ℝ} (p1 : 0 ≤ w1) (p2 : 0 ≤ w2) (p3 : 0 ≤ w3)
    (p4 : 0 ≤ w4) (hw : w1 + w2 + w3 + w4 = 1) :
    ∃ t ∈ ballCell (M : Int) (a, k), InTriangle ⟨sphereVertex r L M t.1, sphereVertex r L M t.2.1, sphereVertex r L M t.2.2⟩
      (w1 • spherePoint r (lon a) (lat M k) + w2 • spherePoint r (lon a) (lat M (k + 1)) + w3 • spherePoint r (lon (a + 1)) (lat M (k + 1)) +
        w4 • spherePoint r (lon (a + 1)) (lat M k)) := by
  have M0 : (0 : ℝ) < ((M + 1 : Nat) : ℝ) := by positivity
  have hpi := pi_pos
  have hat : ∀ (b : ZMod L) (l j : Int), j = l + 1 → sphereVertex r L M (.at b l) = spherePoint r (lon b) (lat M j) := by
    rintro b l j rfl
    simp [sphereVertex, lat, lon]
  have hnorth : ∀ b : ZMod L, spherePoint r (lon b) (lat M 0) = sphereVertex r L M .north := by
    intro b; simp [sphereVertex, spherePoint, lat]
  have hsouth : ∀ b : ZMod L, spherePoint r (lon b) (lat M (M + 1)) = sphereVertex r L M .south := by
    intro b
    have : lat M (M + 1) = π := by
      unfold lat; push_cast; push_cast at M0; field_simp
    simp [sphereVertex, spherePoint, this]
  unfold ballCell
  split_ifs with c1 c2
  · simp only at c1
    subst c1
    refine ⟨_, List.mem_singleton.2 rfl, w1 + w4, w2, w3, by positivity, p2, p3, by linarith, ?_⟩
    simp only [hat _ 0 (0 + 1) rfl, hnorth]
    rw [add_smul]
    abel
  · simp only at c1 c2
    have k0 : (0 : ℝ) < k := by exact_mod_cast (show 0 < k by omega)
    have k1 : (k : ℝ) < M := by exact_mod_cast c2
    have s1 : 0 < sin (lat M k) := by
      refine sin_pos_of_pos_of_lt_pi (by unfold lat; positivity) ?_
      have : (k : ℝ) / (M + 1 : Nat) < 1 := (div_lt_one M0).2 (by push_cast; linarith)
      unfold lat; nlinarith
    have s2 : 0 < sin (lat M (k + 1)) := by
      refine sin_pos_of_pos_of_lt_pi (by unfold lat; push_cast; positivity) ?_
      have : (((k + 1 : Int)) : ℝ) / (M + 1 : Nat) < 1 := (div_lt_one M0).2 (by push_cast; linarith)
      unfold lat; nlinarith
    have q := quad_cover (A := spherePoint r (lon a) (lat M k)) (B := spherePoint r (lon a) (lat M (k + 1)))
      (C := spherePoint r (lon (a + 1)) (lat M (k + 1))) (D := spherePoint r (lon (a + 1)) (lat M k)) s1.le s2.le (by positivity)
      (by ext <;> simp only [spherePoint, P3.add_x, P3.add_y, P3.add_z, P3.smul_x, P3.smul_y, P3.smul_z] <;> ring) p1 p2 p3 p4 hw
    rcases q with q | q
    · refine ⟨(.at a (k - 1), .at a k, .at (a + 1) k), by simp [quadT], ?_⟩
      simp only [hat a (k - 1) k (by ring), hat a k (k + 1) rfl, hat (a + 1) k (k + 1) rfl]
      exact q
    · refine ⟨(.at (a + 1) k, .at (a + 1) (k - 1), .at a (k - 1)), by simp [quadT], ?_⟩
      simp only [hat a (k - 1) k (by ring), hat (a + 1) (k - 1) k (by ring), hat (a + 1) k (k + 1) rfl]
      exact q
  · simp only at c1 c2
    have hk : k = M := by omega
    subst hk
    refine ⟨_, List.mem_singleton.2 rfl, w1, w2 + w3, w4, p1, by positivity, p4, by linarith, ?_⟩
    simp only [hat _ ((M : Int) - 1) M (by ring), hsouth]
    rw [add_smul]
    abel

theorem one_sub_cos_le (x : ℝ) : 1 - cos x ≤ x ^ 2 / 2 := by
  have := one_sub_sq_div_two_le_cos (x := x)
  linarith

/-- **C122** UV sphere.  The mesh and the sphere are within `ε = r (1 - cos (π/(4n+2)) cos (π/(4n+4)))` of each other: no
point of a triangle is outside of the sphere or deeper than `ε` below it, and every point of the sphere has a point of
the mesh within `ε`.  The error decreases with the square of the number of segments. -/
theorem sphere_uv_accuracy {r : ℝ} (hr : 0 < r) {n : Int} (hn : 1 ≤ n) (m : Mesh ℝ) :
    let ε := r * (1 - cos (π / (4 * n + 2)) * cos (π / (4 * n + 4)))
    ε ≤ r * π ^ 2 / (16 * n ^ 2) ∧ ∃ x, createSphereUv r n m = some x ∧
      (∀ t ∈ x.triangles, ∀ q, InTriangle t q → r - ε ≤ q.norm ∧ q.norm ≤ r) ∧
      (∀ p : P3 ℝ, p.norm = r → ∃ t ∈ x.triangles, ∃ q, InTriangle t q ∧ (p - q).norm ≤ ε) := by
  intro ε
  have hpi := pi_pos
  have hn1 : (1 : ℝ) ≤ n := by exact_mod_cast hn
  constructor
  · have e1 := one_sub_cos_le (π / (4 * n + 2))
    have e2 := one_sub_cos_le (π / (4 * n + 4))
    have l1 := cos_le_one (π / (4 * n + 2 : ℝ))
    have l2 := cos_le_one (π / (4 * n + 4 : ℝ))
    have b1 : (π / (4 * n + 2)) ^ 2 ≤ π ^ 2 / (16 * n ^ 2) := by
      rw [div_pow]
      exact div_le_div_of_nonneg_left (by positivity) (by positivity) (by nlinarith)
    have b2 : (π / (4 * n + 4)) ^ 2 ≤ π ^ 2 / (16 * n ^ 2) := by
      rw [div_pow]
      exact div_le_div_of_nonneg_left (by positivity) (by positivity) (by nlinarith)
    have : 1 - cos (π / (4 * n + 2)) * cos (π / (4 * n + 4)) ≤ π ^ 2 / (16 * n ^ 2) := by
      nlinarith
    calc ε ≤ r * (π ^ 2 / (16 * n ^ 2)) := mul_le_mul_of_nonneg_left this hr.le
      _ = _ := by ring
  obtain ⟨x, hx, -⟩ := sphere_uv_spec r n hn m
  refine ⟨x, hx, ?_⟩
  lift n to Nat using (by omega)
  have hn' : 1 ≤ n := by omega
  rw [sphere_triangles r m hx]
  have eL : cos (π / (4 * ((n : Int) : ℝ) + 2)) = cos (π / (2 + 4 * n : Nat)) := by congr 2; push_cast; ring
  have eM : cos (π / (4 * ((n : Int) : ℝ) + 4)) = cos (π / (1 + 2 * n + 1 : Nat) / 2) := by
    congr 1; push_cast; field_simp; ring
  simp only [ε, eL, eM]
  clear ε
  clear eL eM hx
  generalize hL : 2 + 4 * n = L
  generalize hM : 1 + 2 * n = M
  have : NeZero L := ⟨by omega⟩
  have cL := cos_step_pos (show 3 ≤ L by omega)
  have cM := cos_lat_step_pos (show 1 ≤ M by omega)
  have cL1 := cos_le_one (π / (L : ℝ))
  have cM1 := cos_le_one (π / ((M + 1 : Nat) : ℝ) / 2)
  have hcc : cos (π / (L : ℝ)) * cos (π / ((M + 1 : Nat) : ℝ) / 2) ≤ 1 := by nlinarith
  constructor
  · intro t0 ht0 q hq
    obtain ⟨t, ht1, rfl⟩ := List.mem_map.1 ht0
    obtain ⟨⟨a, k⟩, hc, ht⟩ := List.mem_flatMap.1 ht1
    obtain ⟨h0, h1⟩ := (ballCells_mem _ _ a k).1 hc
    have hp := InTriangle.lin hq (sphere_plane (by omega) (by omega) h0 h1 ht)
    have form := sphereCell_form (r := r) (show 1 ≤ M by omega) h0 h1 ht
    have sq : ∀ u v, (spherePoint r u v).normSq ≤ r ^ 2 := by
      intro u v
      simp only [spherePoint, P3.normSq]
      have := sin_sq_add_cos_sq u
      have := sin_sq_add_cos_sq v
      exact le_of_eq (by linear_combination r ^ 2 * sin v ^ 2 * sin_sq_add_cos_sq u + r ^ 2 * sin_sq_add_cos_sq v)
    have hball : q.normSq ≤ r ^ 2 := by
      obtain ⟨b1, j1, -, -, e1⟩ := form t.1 (.inl rfl)
      obtain ⟨b2, j2, -, -, e2⟩ := form t.2.1 (.inr (.inl rfl))
      obtain ⟨b3, j3, -, -, e3⟩ := form t.2.2 (.inr (.inr rfl))
      refine InTriangle.ball hq ?_ ?_ ?_
      · simp only [e1]; exact sq _ _
      · simp only [e2]; exact sq _ _
      · simp only [e3]; exact sq _ _
    refine ⟨?_, (norm_le_iff hr.le).2 hball⟩
    -- the normal is not longer than `1 / cos (π / L)`
    have hN : (cellNormal M a k).normSq * cos (π / (L : ℝ)) ^ 2 ≤ 1 := by
      simp only [cellNormal, P3.normSq]
      generalize lat M k + π / ((M + 1 : Nat) : ℝ) / 2 = φ
      generalize lon a + π / (L : ℝ) = θ
      have e : (sin φ * cos θ / cos (π / (L : ℝ)) * (sin φ * cos θ / cos (π / (L : ℝ))) +
          sin φ * sin θ / cos (π / (L : ℝ)) * (sin φ * sin θ / cos (π / (L : ℝ))) + cos φ * cos φ) * cos (π / (L : ℝ)) ^ 2 =
          sin φ ^ 2 * (sin θ ^ 2 + cos θ ^ 2) + cos φ ^ 2 * cos (π / (L : ℝ)) ^ 2 := by
        field_simp
        ring
      rw [e, sin_sq_add_cos_sq]
      have := sin_sq_add_cos_sq φ
      have c2 : cos (π / (L : ℝ)) ^ 2 ≤ 1 := pow_le_one₀ cL.le cL1
      linarith [mul_le_mul_of_nonneg_left c2 (sq_nonneg (cos φ))]
    have hd := Icosa.dot_le (cellNormal M a k) q
    rw [hp] at hd
    have hN' : (cellNormal M a k).norm * cos (π / (L : ℝ)) ≤ 1 := by
      have h1 := P3.norm_sq (cellNormal M a k)
      have h2 := P3.norm_nonneg (cellNormal M a k)
      by_contra hcon
      push Not at hcon
      nlinarith
    have hq0 := P3.norm_nonneg q
    nlinarith [mul_le_mul_of_nonneg_right hd cL.le, mul_le_mul_of_nonneg_right hN' hq0]
  · intro p hp
    obtain ⟨u, v, v0, v1, rfl⟩ := exists_spherical hr hp
    obtain ⟨k, y, k0, k1, y0, y1, rfl⟩ := exists_lat M v0 v1
    obtain ⟨a, x, x0, x1, eu1, eu2⟩ := exists_lon (show 1 ≤ L by omega) u
    have L0 : (3 : ℝ) ≤ L := by exact_mod_cast (show 3 ≤ L by omega)
    have M0 : (2 : ℝ) ≤ ((M + 1 : Nat) : ℝ) := by exact_mod_cast (show 2 ≤ M + 1 by omega)
    obtain ⟨s, g, s0, s1, g0, g1, gc, gs⟩ := exists_chord (θ := lon a) (d := 2 * π / L) (x := x) (by positivity)
      (by rw [div_lt_iff₀ (by linarith)]; nlinarith) x0 x1
    obtain ⟨t, g', t0, t1, g0', g1', gc', gs'⟩ := exists_chord (θ := lat M k) (d := π / (M + 1 : Nat)) (x := y) (by positivity)
      (by rw [div_lt_iff₀ (by linarith)]; nlinarith) y0 y1
    rw [show 2 * π / (L : ℝ) / 2 = π / L by ring] at g0
    obtain ⟨ns, nc⟩ := sin_cos_next (show 2 ≤ L by omega) a
    rw [← lat_succ] at gc' gs'
    obtain ⟨T, hT, hin⟩ := sphere_cell_cover r a k0 k1 (w1 := (1 - s) * (1 - t)) (w2 := (1 - s) * t) (w3 := s * t) (w4 := s * (1 - t))
      (mul_nonneg (by linarith) (by linarith)) (mul_nonneg (by linarith) t0) (mul_nonneg s0 t0) (mul_nonneg s0 (by linarith)) (by ring)
    refine ⟨_, List.mem_map.2 ⟨T, List.mem_flatMap.2 ⟨(a, k), (ballCells_mem _ _ a k).2 ⟨k0, k1⟩, hT⟩, rfl⟩, _, hin, ?_⟩
    have hc1 : cos (lon (a + 1)) = cos (lon a + 2 * π / L) := nc
    have hs1 : sin (lon (a + 1)) = sin (lon a + 2 * π / L) := ns
    have gg : cos (π / (L : ℝ)) * cos (π / ((M + 1 : Nat) : ℝ) / 2) ≤ g * g' := mul_le_mul g0 g0' cM.le (cL.le.trans g0)
    rw [norm_le_iff (mul_nonneg hr.le (by linarith))]
    have hpt : ((1 - s) * (1 - t)) • spherePoint r (lon a) (lat M k) + ((1 - s) * t) • spherePoint r (lon a) (lat M (k + 1)) +
        (s * t) • spherePoint r (lon (a + 1)) (lat M (k + 1)) + (s * (1 - t)) • spherePoint r (lon (a + 1)) (lat M k) =
        ⟨r * (g' * sin (lat M k + y)) * (g * cos u), r * (g' * sin (lat M k + y)) * (g * sin u), r * (g' * cos (lat M k + y))⟩ := by
      rw [eu1, eu2, ← gc, ← gs, ← gc', ← gs']
      ext <;> simp only [spherePoint, P3.add_x, P3.add_y, P3.add_z, P3.smul_x, P3.smul_y, P3.smul_z, hc1, hs1] <;> ring
    rw [hpt]
    simp only [spherePoint, P3.normSq, P3.sub_x, P3.sub_y, P3.sub_z]
    generalize lat M k + y = φ
    have hφ := sin_sq_add_cos_sq φ
    have hu := sin_sq_add_cos_sq u
    have e : (r * sin φ * cos u - r * (g' * sin φ) * (g * cos u)) * (r * sin φ * cos u - r * (g' * sin φ) * (g * cos u)) +
        (r * sin φ * sin u - r * (g' * sin φ) * (g * sin u)) * (r * sin φ * sin u - r * (g' * sin φ) * (g * sin u)) +
        (r * cos φ - r * (g' * cos φ)) * (r * cos φ - r * (g' * cos φ)) =
        r ^ 2 * ((1 - g * g') ^ 2 * sin φ ^ 2 + (1 - g') ^ 2 * cos φ ^ 2) := by
      linear_combination r ^ 2 * sin φ ^ 2 * (1 - g * g') ^ 2 * hu
    rw [e, mul_pow]
    refine mul_le_mul_of_nonneg_left ?_ (by positivity)
    have g0p : 0 < g := lt_of_lt_of_le cL g0
    have g0p' : 0 < g' := lt_of_lt_of_le cM g0'
    have gg1 : g * g' ≤ g' := mul_le_of_le_one_left g0p'.le g1
    generalize cos (π / (L : ℝ)) * cos (π / ((M + 1 : Nat) : ℝ) / 2) = cc at *
    clear * - gg gg1 g1' hφ
    have i1 : (1 - g * g') ^ 2 ≤ (1 - cc) ^ 2 := pow_le_pow_left₀ (by linarith) (by linarith) 2
    have i2 : (1 - g') ^ 2 ≤ (1 - cc) ^ 2 := pow_le_pow_left₀ (by linarith) (by linarith) 2
    calc (1 - g * g') ^ 2 * sin φ ^ 2 + (1 - g') ^ 2 * cos φ ^ 2 ≤ (1 - cc) ^ 2 * sin φ ^ 2 + (1 - cc) ^ 2 * cos φ ^ 2 :=
          add_le_add (mul_le_mul_of_nonneg_right i1 (sq_nonneg _)) (mul_le_mul_of_nonneg_right i2 (sq_nonneg _))
      _ = (1 - cc) ^ 2 := by rw [← mul_add, hφ, mul_one]

/-- a ball of radius 2 drawn with `n = 10`: no point of the mesh is more than 0.0125 from the ball
and no point of the ball is more than 0.0125 from the mesh -/
example : ∃ x, createSphereUv (2 : ℝ) 10 Mesh.new = some x ∧
    (∀ t ∈ x.triangles, ∀ q, InTriangle t q → 2 - 1 / 80 ≤ q.norm ∧ q.norm ≤ 2) ∧
    (∀ p : P3 ℝ, p.norm = 2 → ∃ t ∈ x.triangles, ∃ q, InTriangle t q ∧ (p - q).norm ≤ 1 / 80) := by
  obtain ⟨he, x, hx, h1, h2⟩ := sphere_uv_accuracy (r := 2) (by norm_num) (n := 10) (by norm_num) Mesh.new
  have hp : π ^ 2 ≤ 10 := by have := pi_lt_d2; have := pi_pos; nlinarith
  have hb : 2 * (1 - cos (π / (4 * ((10 : Int) : ℝ) + 2)) * cos (π / (4 * ((10 : Int) : ℝ) + 4))) ≤ 1 / 80 := by
    refine he.trans ?_
    push_cast
    linarith
  refine ⟨x, hx, fun t ht q hq => ?_, fun p hp => ?_⟩
  · obtain ⟨a, b⟩ := h1 t ht q hq
    exact ⟨by linarith, b⟩
  · obtain ⟨t, ht, q, hq, h⟩ := h2 p hp
    exact ⟨t, ht, q, hq, h.trans hb⟩

end Factory
end CAD
