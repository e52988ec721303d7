import Verif.Props.Surfaces
import Mathlib.Analysis.SpecialFunctions.Trigonometric.Bounds
import Mathlib.Analysis.SpecialFunctions.Trigonometric.Deriv

/-! Volumes and areas of the round meshes and their limits (C103). -/

set_option linter.unusedSimpArgs false

namespace CAD
namespace Factory
open Mesh MeshUtil Real Filter Topology

/-! ### Trigonometry -/

theorem sin_cos_next {L : Nat} (hL : 2 ≤ L) (a : ZMod L) :
    sin (((a + 1).val : ℝ) / L * 2 * π) = sin ((a.val : ℝ) / L * 2 * π + 2 * π / L) ∧
    cos (((a + 1).val : ℝ) / L * 2 * π) = cos ((a.val : ℝ) / L * 2 * π + 2 * π / L) := by
  rcases next_angle hL a with h | h
  · rw [h]; exact ⟨rfl, rfl⟩
  · rw [h, sin_sub_two_pi, cos_sub_two_pi]; exact ⟨rfl, rfl⟩

/-- regular polygons approach the circle -/
theorem ngon_limit (c : ℝ) (f : Nat → ℝ) (hf : Tendsto f atTop atTop) : Tendsto (fun n => f n * sin (c / f n)) atTop (𝓝 c) := by
  have h1 : Tendsto (fun x : ℝ => x * sin (c / x)) atTop (𝓝 c) := by
    have hd : HasDerivAt (fun y : ℝ => sin (c * y)) c 0 := by
      have := ((hasDerivAt_id (0 : ℝ)).const_mul c).sin
      simpa using this
    have := (hasDerivAt_iff_tendsto_slope_zero.1 hd)
    have h2 : Tendsto (fun x : ℝ => x⁻¹) atTop (𝓝[≠] 0) := tendsto_inv_atTop_nhdsGT_zero.mono_right (nhdsWithin_mono _ fun x hx => ne_of_gt hx)
    refine (this.comp h2).congr fun x => ?_
    simp [div_eq_mul_inv]
  exact h1.comp hf

theorem ngon_lt {c x : ℝ} (hc : 0 < c) (hx : 0 < x) : x * sin (c / x) < c := by
  have := sin_lt (show 0 < c / x by positivity)
  calc x * sin (c / x) < x * (c / x) := mul_lt_mul_of_pos_left this hx
    _ = c := by field_simp

theorem linear_atTop (a b : ℝ) (ha : 0 < a) : Tendsto (fun n : Nat => b + a * (n : ℝ)) atTop atTop :=
  tendsto_atTop_add_const_left _ _ (tendsto_natCast_atTop_atTop.const_mul_atTop ha)

/-! ### Sums over loops -/

theorem sum_flatMap_tele {β : Type} (n : Nat) (f : Nat → List β) (g : β → ℝ) (c : ℝ) (F : Nat → ℝ)
    (h : ∀ i < n, ((f i).map g).sum = c + (F (i + 1) - F i)) : (((List.range n).flatMap f).map g).sum = n * c + (F n - F 0) := by
  induction n with
  | zero => simp
  | succ n ih =>
    rw [List.range_succ, List.flatMap_append, List.map_append, List.sum_append, ih (fun i hi => h i (by omega))]
    simp only [List.flatMap_cons, List.flatMap_nil, List.append_nil, h n (by omega)]
    push_cast
    ring

/-! ### The torus -/

/-- position of a torus vertex -/
noncomputable def torusVertex (R r : ℝ) (L N : Nat) (c : ZMod L × ZMod N) : P3 ℝ :=
  torusPoint R r ((c.1.val : ℝ) / L * 2 * π) ((c.2.val : ℝ) / N * 2 * π)

theorem torus_triangles (R r : ℝ) (L N : Nat) [NeZero L] [NeZero N] (m : Mesh ℝ) :
    (m.build ((List.range L).flatMap fun (i : Nat) => (List.range N).map fun (j : Nat) => torusPoint R r ((i : ℝ) / L * 2 * π) ((j : ℝ) / N * 2 * π))
      (torusFaces L N)).triangles = ((torusCells L N).flatMap (torusCell (1, 0) (0, 1))).map fun t =>
        ⟨torusVertex R r L N t.1, torusVertex R r L N t.2.1, torusVertex R r L N t.2.2⟩ := by
  have key : ∀ c : ZMod L × ZMod N, getI ((List.range L).flatMap fun (i : Nat) => (List.range N).map fun (j : Nat) =>
      torusPoint R r ((i : ℝ) / L * 2 * π) ((j : ℝ) / N * 2 * π)) (torusId c) = some (torusVertex R r L N c) := by
    intro c
    have e : torusId c = ((c.2.val + N * c.1.val : Nat) : Int) := by unfold torusId; push_cast; ring
    rw [e, getI_natCast]
    exact range_grid_getElem? N L _ c.2.val c.1.val (ZMod.val_lt _) (ZMod.val_lt _)
  exact build_triangles_named _ _ _ _ _ fun t _ => ⟨key _, key _, key _⟩

theorem torus_cell_value (R r : ℝ) {L N : Nat} (hL : 2 ≤ L) (hN : 2 ≤ N) (a : ZMod L) {j : Nat} (hj : j < N) :
    (((torusCell ((1, 0) : ZMod L × ZMod N) (0, 1) (a, (j : ZMod N))).map fun t =>
      ((⟨torusVertex R r L N t.1, torusVertex R r L N t.2.1, torusVertex R r L N t.2.2⟩ : Tri3 ℝ))).map fun t => t.p1.dot t.orthogonal).sum =
    sin (2 * π / L) * (3 * R * r ^ 2 * sin (2 * π / N)) + (sin (2 * π / L) * (2 * R ^ 2 * r * sin (((j + 1 : Nat) : ℝ) / N * 2 * π) +
        R * r ^ 2 * (sin (((j + 1 : Nat) : ℝ) / N * 2 * π) * cos (((j + 1 : Nat) : ℝ) / N * 2 * π)) + r ^ 3 * (1 + cos (2 * π / N)) * sin (((j + 1 : Nat) : ℝ) / N * 2 * π)) -
      sin (2 * π / L) * (2 * R ^ 2 * r * sin ((j : ℝ) / N * 2 * π) +
        R * r ^ 2 * (sin ((j : ℝ) / N * 2 * π) * cos ((j : ℝ) / N * 2 * π)) + r ^ 3 * (1 + cos (2 * π / N)) * sin ((j : ℝ) / N * 2 * π))) := by
  have : NeZero N := ⟨by omega⟩
  have hN0 : (N : ℝ) ≠ 0 := by positivity
  have he := sin_next hL a
  simp only at he
  obtain ⟨n1, n2⟩ := sin_cos_next hN (j : ZMod N)
  rw [zmod_natCast_val hj] at n1 n2
  have e : ((j + 1 : Nat) : ℝ) / N * 2 * π = (j : ℝ) / N * 2 * π + 2 * π / N := by push_cast; field_simp
  rw [e]
  simp only [torusCell, quadT, List.map_cons, List.map_nil, List.sum_cons, List.sum_nil, torusVertex, torusPoint, Prod.mk_add_mk, add_zero, zero_add,
    Tri3.orthogonal, P3.dot, P3.cross, P3.sub_x, P3.sub_y, P3.sub_z, n1, n2, zmod_natCast_val hj]
  rw [← he]
  generalize ((a.val : ℝ) / L * 2 * π) = u
  generalize (((a + 1).val : ℝ) / L * 2 * π) = u'
  generalize ((j : ℝ) / N * 2 * π) = v
  generalize (2 * π / N) = h
  have e1 : sin (v + h) * cos v - sin v * cos (v + h) = sin h := by
    rw [mul_comm (sin v), ← sin_sub]; congr 1; ring
  have e2 : (cos v + cos (v + h)) * sin h = (1 + cos h) * (sin (v + h) - sin v) := by
    rw [sin_add, cos_add]
    linear_combination (-sin v) * sin_sq_add_cos_sq h
  generalize sin (v + h) = s' at *
  generalize cos (v + h) = c' at *
  linear_combination (sin u' * cos u - cos u' * sin u) * ((3 * R * r ^ 2 + r ^ 3 * (cos v + c')) * e1 + r ^ 3 * e2)

/-- C103.  The volume of the torus mesh: that of a torus with the circles replaced by regular
polygons. -/
theorem torus_volume (R r : ℝ) (n : Nat) (hn : 1 ≤ n) (m : Mesh ℝ) :
    ∃ x, createTorus R r n m = some x ∧
      Measure.volume x = some (((2 + 4 * n : ℝ) * sin (2 * π / (2 + 4 * n))) * ((6 + 2 * n : ℝ) * sin (2 * π / (6 + 2 * n))) / 2 * R * r ^ 2) := by
  obtain ⟨x, hx, hp, -⟩ := torus_spec R r n (by exact_mod_cast hn) m
  refine ⟨x, hx, volume_of hp.ok _ ?_ (by norm_num)⟩
  rw [createTorus_eq] at hx
  obtain rfl := Option.some.inj hx
  have : NeZero (2 + 4 * n) := ⟨by omega⟩
  have : NeZero (6 + 2 * n) := ⟨by omega⟩
  have hL' : ((2 + 4 * n : Nat) : ℝ) = 2 + 4 * n := by push_cast; ring
  have hN' : ((6 + 2 * n : Nat) : ℝ) = 6 + 2 * n := by push_cast; ring
  rw [torus_triangles, ← hL', ← hN']
  have hL : 2 ≤ 2 + 4 * n := by omega
  have hN : 2 ≤ 6 + 2 * n := by omega
  clear hp
  generalize 2 + 4 * n = L at *
  generalize 6 + 2 * n = N at *
  rw [List.map_map]
  have e0 : (torusCells L N).flatMap (torusCell (1, 0) (0, 1)) = (List.range L).flatMap fun (i : Nat) =>
      (List.range N).flatMap fun (j : Nat) => torusCell (1, 0) (0, 1) ((i : ZMod L), (j : ZMod N)) := by
    unfold torusCells
    simp only [List.flatMap_assoc, List.flatMap_map]
  have hN0 : (N : ℝ) ≠ 0 := by positivity
  rw [e0, sum_flatMap_const L _ _ (N * (sin (2 * π / L) * (3 * R * r ^ 2 * sin (2 * π / N))))]
  · ring
  · intro i _
    rw [sum_flatMap_tele N _ _ (sin (2 * π / L) * (3 * R * r ^ 2 * sin (2 * π / N))) (fun j => sin (2 * π / L) * (2 * R ^ 2 * r * sin ((j : ℝ) / N * 2 * π) +
        R * r ^ 2 * (sin ((j : ℝ) / N * 2 * π) * cos ((j : ℝ) / N * 2 * π)) + r ^ 3 * (1 + cos (2 * π / N)) * sin ((j : ℝ) / N * 2 * π)))]
    · have : (N : ℝ) / N * 2 * π = 2 * π := by field_simp
      simp [this]
    · intro j hj
      rw [← List.map_map, torus_cell_value R r hL hN _ hj]

/-- C103.  With more segments the volume of the torus mesh tends to `2π²Rr²` from below. -/
theorem torus_volume_limit (R r : ℝ) (m : Mesh ℝ) : ∃ V : Nat → ℝ, Tendsto V atTop (𝓝 (2 * π ^ 2 * R * r ^ 2)) ∧
    ∀ n : Nat, 1 ≤ n → (∃ x, createTorus R r n m = some x ∧ Measure.volume x = some (V n)) ∧ (0 < R → r ≠ 0 → 0 < V n ∧ V n < 2 * π ^ 2 * R * r ^ 2) := by
  refine ⟨fun n => ((2 + 4 * n : ℝ) * sin (2 * π / (2 + 4 * n))) * ((6 + 2 * n : ℝ) * sin (2 * π / (6 + 2 * n))) / 2 * R * r ^ 2, ?_, fun n hn => ⟨torus_volume R r n hn m, fun hR hr => ?_⟩⟩
  · have h1 := ngon_limit (2 * π) _ (linear_atTop 4 2 (by norm_num))
    have h2 := ngon_limit (2 * π) _ (linear_atTop 2 6 (by norm_num))
    have := (((h1.mul h2).div_const 2).mul_const R).mul_const (r ^ 2)
    convert this using 2
    ring
  · have hn' : (1 : ℝ) ≤ n := by exact_mod_cast hn
    have hr2 : 0 < r ^ 2 := by positivity
    have hpi := pi_pos
    have p1 : 0 < (2 + 4 * n : ℝ) * sin (2 * π / (2 + 4 * n)) := mul_pos (by linarith) (sin_pos_of_pos_of_lt_pi (by positivity) (by rw [div_lt_iff₀ (by linarith)]; nlinarith))
    have p2 : 0 < (6 + 2 * n : ℝ) * sin (2 * π / (6 + 2 * n)) := mul_pos (by linarith) (sin_pos_of_pos_of_lt_pi (by positivity) (by rw [div_lt_iff₀ (by linarith)]; nlinarith))
    have q1 : (2 + 4 * n : ℝ) * sin (2 * π / (2 + 4 * n)) < 2 * π := ngon_lt (by positivity) (by linarith)
    have q2 : (6 + 2 * n : ℝ) * sin (2 * π / (6 + 2 * n)) < 2 * π := ngon_lt (by positivity) (by linarith)
    refine ⟨by positivity, ?_⟩
    have q : ((2 + 4 * n : ℝ) * sin (2 * π / (2 + 4 * n))) * ((6 + 2 * n : ℝ) * sin (2 * π / (6 + 2 * n))) < 2 * π * (2 * π) := mul_lt_mul'' q1 q2 p1.le p2.le
    have := mul_lt_mul_of_pos_right q (show 0 < R * r ^ 2 by positivity)
    simp only
    linarith

/-! ### The sphere -/

theorem sphere_cell_value (r : ℝ) {L M : Nat} (hL : 2 ≤ L) (hM : 1 ≤ M) (a : ZMod L) {k : Nat} (hk : k < M + 1) :
    (((ballCell (M : Int) (a, (k : Int))).map fun t =>
      ((⟨sphereVertex r L M t.1, sphereVertex r L M t.2.1, sphereVertex r L M t.2.2⟩ : Tri3 ℝ))).map fun t => t.p1.dot t.orthogonal).sum =
    0 + (-(sin (2 * π / L) * r ^ 3 * (1 + cos (π / (M + 1))) * cos (((k + 1 : Nat) : ℝ) / (M + 1) * π)) -
      -(sin (2 * π / L) * r ^ 3 * (1 + cos (π / (M + 1))) * cos ((k : ℝ) / (M + 1) * π))) := by
  have he := sin_next hL a
  simp only at he
  have hM0 : ((M : ℝ) + 1) ≠ 0 := by positivity
  have e : ((k + 1 : Nat) : ℝ) / (M + 1) * π = (k : ℝ) / (M + 1) * π + π / (M + 1) := by push_cast; field_simp
  -- value of a ring between the angles `v` and `v + h`
  have ring : ∀ v h : ℝ, (sin v + sin (v + h)) * (cos v * sin (v + h) - cos (v + h) * sin v) = (1 + cos h) * (cos v - cos (v + h)) := by
    intro v h
    have e1 : cos v * sin (v + h) - cos (v + h) * sin v = sin h := by
      rw [mul_comm, ← sin_sub]; congr 1; ring
    rw [e1, sin_add, cos_add]
    linear_combination (cos v) * sin_sq_add_cos_sq h
  have hr := ring ((k : ℝ) / (M + 1) * π) (π / (M + 1))
  rw [← e] at hr
  rw [← he]
  unfold ballCell
  split_ifs with c1 c2
  · obtain rfl : k = 0 := by simpa using c1
    simp only [List.map_cons, List.map_nil, List.sum_cons, List.sum_nil, sphereVertex, spherePoint, Tri3.orthogonal, P3.dot, P3.cross, P3.sub_x, P3.sub_y, P3.sub_z]
    have e3 : (((0 : Int) : ℝ) + 1) / (M + 1 : Nat) * π = ((0 + 1 : Nat) : ℝ) / (M + 1) * π := by push_cast; ring
    rw [e3]
    simp only [Nat.cast_zero, zero_div, zero_mul, sin_zero, cos_zero, zero_add, mul_zero, sub_zero, one_mul] at hr ⊢
    linear_combination (sin (((a + 1).val : ℝ) / L * 2 * π) * cos ((a.val : ℝ) / L * 2 * π) - cos (((a + 1).val : ℝ) / L * 2 * π) * sin ((a.val : ℝ) / L * 2 * π)) * r ^ 3 * hr
  · have e1 : (((k : Int) - 1 : Int) : ℝ) + 1 = k := by push_cast; ring
    have e2 : ((k : Int) : ℝ) + 1 = ((k + 1 : Nat) : ℝ) := by push_cast; ring
    have e4 : ((M + 1 : Nat) : ℝ) = (M : ℝ) + 1 := by push_cast; ring
    simp only [quadT, List.map_cons, List.map_nil, List.sum_cons, List.sum_nil, sphereVertex, spherePoint, Tri3.orthogonal, P3.dot, P3.cross, P3.sub_x, P3.sub_y, P3.sub_z, e1, e2, e4]
    linear_combination (sin (((a + 1).val : ℝ) / L * 2 * π) * cos ((a.val : ℝ) / L * 2 * π) - cos (((a + 1).val : ℝ) / L * 2 * π) * sin ((a.val : ℝ) / L * 2 * π)) * r ^ 3 * hr
  · obtain rfl : k = M := by simp only at c1 c2; omega
    have e1 : (((k : Int) - 1 : Int) : ℝ) + 1 = k := by push_cast; ring
    have e4 : ((k + 1 : Nat) : ℝ) = (k : ℝ) + 1 := by push_cast; ring
    have e5 : ((k : ℝ) + 1) / (k + 1) * π = π := by field_simp
    simp only [quadT, List.map_cons, List.map_nil, List.sum_cons, List.sum_nil, sphereVertex, spherePoint, Tri3.orthogonal, P3.dot, P3.cross, P3.sub_x, P3.sub_y, P3.sub_z, e1, e4, e5, sin_pi, cos_pi] at hr ⊢
    linear_combination (sin (((a + 1).val : ℝ) / L * 2 * π) * cos ((a.val : ℝ) / L * 2 * π) - cos (((a + 1).val : ℝ) / L * 2 * π) * sin ((a.val : ℝ) / L * 2 * π)) * r ^ 3 * hr

/-- C103.  The volume of the UV sphere mesh. -/
theorem sphere_uv_volume (r : ℝ) (n : Nat) (hn : 1 ≤ n) (m : Mesh ℝ) :
    ∃ x, createSphereUv r n m = some x ∧
      Measure.volume x = some (((2 + 4 * n : ℝ) * sin (2 * π / (2 + 4 * n))) * (1 + cos (π / (2 + 2 * n))) / 3 * r ^ 3) := by
  obtain ⟨x, hx, hp, -⟩ := sphere_uv_spec r n (by exact_mod_cast hn) m
  refine ⟨x, hx, volume_of hp.ok _ ?_ (by norm_num)⟩
  rw [createSphereUv_eq] at hx
  obtain rfl := Option.some.inj hx
  have : NeZero (2 + 4 * n) := ⟨by omega⟩
  have hL' : ((2 + 4 * n : Nat) : ℝ) = 2 + 4 * n := by push_cast; ring
  have hM' : (((1 + 2 * n : Nat) : ℝ) + 1) = 2 + 2 * n := by push_cast; ring
  rw [← hL', ← hM']
  have hL : 2 ≤ 2 + 4 * n := by omega
  have hM : 1 ≤ 1 + 2 * n := by omega
  clear hp
  generalize 2 + 4 * n = L at *
  generalize 1 + 2 * n = M at *
  rw [ballFaces, build_triangles_named _ _ _ _ (sphereVertex r L M)]
  swap
  · intro t ht
    obtain ⟨h1, h2, h3⟩ := ballTris_in hM t ht
    exact ⟨ballPoints_get _ h1, ballPoints_get _ h2, ballPoints_get _ h3⟩
  have e0 : ballTris L M = (List.range L).flatMap fun (i : Nat) => (List.range (M + 1)).flatMap fun (k : Nat) => ballCell (M : Int) ((i : ZMod L), (k : Int)) := by
    unfold ballTris ballCells
    simp only [List.flatMap_assoc, List.flatMap_map]
  have hM0 : ((M : ℝ) + 1) ≠ 0 := by positivity
  rw [List.map_map, e0, sum_flatMap_const L _ _ (2 * (sin (2 * π / L) * r ^ 3 * (1 + cos (π / (M + 1)))))]
  · ring
  · intro i _
    rw [sum_flatMap_tele (M + 1) _ _ 0 (fun k => -(sin (2 * π / L) * r ^ 3 * (1 + cos (π / (M + 1))) * cos ((k : ℝ) / (M + 1) * π)))]
    · have : ((M + 1 : Nat) : ℝ) / (M + 1) * π = π := by push_cast; field_simp
      simp only [this, cos_pi, Nat.cast_zero, zero_div, zero_mul, cos_zero]
      ring
    · intro k hk
      rw [← List.map_map, sphere_cell_value r hL hM _ hk]

/-- C103.  With more segments the volume of the UV sphere mesh tends to `4/3·πr³` from below. -/
theorem sphere_uv_volume_limit (r : ℝ) (m : Mesh ℝ) : ∃ V : Nat → ℝ, Tendsto V atTop (𝓝 (4 / 3 * π * r ^ 3)) ∧
    ∀ n : Nat, 1 ≤ n → (∃ x, createSphereUv r n m = some x ∧ Measure.volume x = some (V n)) ∧ (0 < r → 0 < V n ∧ V n < 4 / 3 * π * r ^ 3) := by
  refine ⟨fun n => ((2 + 4 * n : ℝ) * sin (2 * π / (2 + 4 * n))) * (1 + cos (π / (2 + 2 * n))) / 3 * r ^ 3, ?_, fun n hn => ⟨sphere_uv_volume r n hn m, fun hr => ?_⟩⟩
  · have h1 := ngon_limit (2 * π) _ (linear_atTop 4 2 (by norm_num))
    have h2 : Tendsto (fun n : Nat => 1 + cos (π / (2 + 2 * (n : ℝ)))) atTop (𝓝 (1 + cos 0)) :=
      ((continuous_cos.tendsto 0).comp ((linear_atTop 2 2 (by norm_num)).const_div_atTop π)).const_add 1
    rw [cos_zero] at h2
    have := ((h1.mul h2).div_const 3).mul_const (r ^ 3)
    convert this using 2
    ring
  · have hn' : (1 : ℝ) ≤ n := by exact_mod_cast hn
    have hpi := pi_pos
    have p1 : 0 < (2 + 4 * n : ℝ) * sin (2 * π / (2 + 4 * n)) := mul_pos (by linarith) (sin_pos_of_pos_of_lt_pi (by positivity) (by rw [div_lt_iff₀ (by linarith)]; nlinarith))
    have q1 : (2 + 4 * n : ℝ) * sin (2 * π / (2 + 4 * n)) < 2 * π := ngon_lt (by positivity) (by linarith)
    have a0 : 0 < π / (2 + 2 * (n : ℝ)) := by positivity
    have p2 : 0 < cos (π / (2 + 2 * (n : ℝ))) := cos_pos_of_mem_Ioo ⟨by linarith, by rw [div_lt_div_iff₀ (by linarith) (by norm_num)]; nlinarith⟩
    have q2 : cos (π / (2 + 2 * n)) ≤ 1 := cos_le_one _
    have hr3 : 0 < r ^ 3 := by positivity
    refine ⟨by positivity, ?_⟩
    have q : ((2 + 4 * n : ℝ) * sin (2 * π / (2 + 4 * n))) * (1 + cos (π / (2 + 2 * n))) < 2 * π * 2 :=
      mul_lt_mul q1 (by linarith) (by linarith) (by positivity)
    have := mul_lt_mul_of_pos_right q hr3
    simp only
    linarith

/-! ### The cylinder -/

/-- C103.  With more segments the volume of the cylinder mesh tends to `πr²h` from below. -/
theorem cylinder_volume_limit (h r : ℝ) (m : Mesh ℝ) : ∃ V : Nat → ℝ, Tendsto V atTop (𝓝 (π * r ^ 2 * h)) ∧
    ∀ n : Nat, 1 ≤ n → (∃ x, createCylinder h r n m = some x ∧ Measure.volume x = some (V n)) ∧ (0 < h → r ≠ 0 → 0 < V n ∧ V n < π * r ^ 2 * h) := by
  refine ⟨fun n => h * ((2 + 4 * n : ℝ) / 2 * r ^ 2 * sin (2 * π / (2 + 4 * n))), ?_, fun n hn => ⟨?_, fun hh hr => ?_⟩⟩
  · have h1 := ngon_limit (2 * π) _ (linear_atTop 4 2 (by norm_num))
    have := (h1.mul_const (r ^ 2 / 2)).const_mul h
    refine (this.congr fun n => ?_).trans (le_of_eq ?_)
    · ring
    · congr 1; ring
  · obtain ⟨x, hx, -, -, -, -, -, -, -, hv, -⟩ := cylinder_spec_partial h r n (by exact_mod_cast hn) m
    refine ⟨x, hx, ?_⟩
    rw [hv]
    push_cast
    rfl
  · have hn' : (1 : ℝ) ≤ n := by exact_mod_cast hn
    have hpi := pi_pos
    have p1 : 0 < (2 + 4 * n : ℝ) * sin (2 * π / (2 + 4 * n)) := mul_pos (by linarith) (sin_pos_of_pos_of_lt_pi (by positivity) (by rw [div_lt_iff₀ (by linarith)]; nlinarith))
    have q1 : (2 + 4 * n : ℝ) * sin (2 * π / (2 + 4 * n)) < 2 * π := ngon_lt (by positivity) (by linarith)
    have hr2 : 0 < r ^ 2 * h := by positivity
    have a1 := mul_pos p1 hr2
    have a2 := mul_lt_mul_of_pos_right q1 hr2
    simp only
    constructor <;> linarith

/-! ### Areas -/

theorem surface_of {r : Mesh ℝ} (h : r.OK) (v : ℝ) (hv : (r.triangles.map Tri3.surface).sum = v) : Measure.surface r = some v := by
  rw [surface_eq h]
  unfold total
  rw [← triangles_eq, hv]

theorem sum_flatMap_eq {β : Type} (n : Nat) (f : Nat → List β) (g : β → ℝ) :
    (((List.range n).flatMap f).map g).sum = ∑ i ∈ Finset.range n, ((f i).map g).sum := by
  induction n with
  | zero => simp
  | succ n ih =>
    rw [List.range_succ, List.flatMap_append, List.map_append, List.sum_append, ih, Finset.sum_range_succ]
    simp

/-- area of a triangle with a side `2·ρ·S` along a parallel and the given displacement
along the meridian -/
theorem surf_exact {t : Tri3 ℝ} {ρ S C dρ dz : ℝ} (hρ : 0 ≤ ρ) (hS : 0 ≤ S)
    (h : t.orthogonal.normSq = 4 * ρ ^ 2 * S ^ 2 * (dρ ^ 2 * C ^ 2 + dz ^ 2)) : t.surface = ρ * S * √(dρ ^ 2 * C ^ 2 + dz ^ 2) := by
  have : t.orthogonal.norm = 2 * (ρ * S) * √(dρ ^ 2 * C ^ 2 + dz ^ 2) := by
    have e : t.orthogonal.norm = √(t.orthogonal.normSq) := rfl
    rw [e, h, show 4 * ρ ^ 2 * S ^ 2 * (dρ ^ 2 * C ^ 2 + dz ^ 2) = (2 * (ρ * S)) ^ 2 * (dρ ^ 2 * C ^ 2 + dz ^ 2) by ring, sqrt_mul (by positivity), sqrt_sq (by positivity)]
  rw [Tri3.surface, this]; ring

theorem surf_bounds {t : Tri3 ℝ} {ρ S C dρ dz ch : ℝ} (hρ : 0 ≤ ρ) (hS : 0 ≤ S) (hC : 0 ≤ C) (hC1 : C ≤ 1) (hch : 0 ≤ ch) (hd : dρ ^ 2 + dz ^ 2 = ch ^ 2)
    (h : t.orthogonal.normSq = 4 * ρ ^ 2 * S ^ 2 * (dρ ^ 2 * C ^ 2 + dz ^ 2)) : ρ * S * (C * ch) ≤ t.surface ∧ t.surface ≤ ρ * S * ch := by
  rw [surf_exact hρ hS h]
  have hC2 : C ^ 2 ≤ 1 := by nlinarith
  constructor
  · refine mul_le_mul_of_nonneg_left ?_ (by positivity)
    refine le_sqrt_of_sq_le ?_
    rw [mul_pow, ← hd]
    nlinarith [sq_nonneg dz]
  · refine mul_le_mul_of_nonneg_left ?_ (by positivity)
    rw [show ch = √(ch ^ 2) by rw [sqrt_sq hch]]
    refine sqrt_le_sqrt ?_
    rw [← hd]
    nlinarith [sq_nonneg dρ]

/-- the angle between neighbouring columns -/
theorem half_step {L : Nat} (hL : 2 ≤ L) (a : ZMod L) :
    let u := (a.val : ℝ) / L * 2 * π
    let u' := ((a + 1).val : ℝ) / L * 2 * π
    cos u' * cos u + sin u' * sin u = 1 - 2 * sin (π / L) ^ 2 ∧ cos (π / L) ^ 2 = 1 - sin (π / L) ^ 2 := by
  intro u u'
  have e : cos (2 * π / L) = 1 - 2 * sin (π / L) ^ 2 := by
    rw [show 2 * π / L = 2 * (π / L) by ring, cos_two_mul, cos_sq']
    ring
  refine ⟨?_, cos_sq' _⟩
  rw [← e, ← cos_sub]
  obtain ⟨h1, h2⟩ := sin_cos_next hL a
  rw [cos_sub, h1, h2, cos_add, sin_add]
  linear_combination cos (2 * π / L) * sin_sq_add_cos_sq ((a.val : ℝ) / L * 2 * π)

theorem step_nonneg {L : Nat} (hL : 2 ≤ L) : 0 ≤ sin (π / L) ∧ 0 ≤ cos (π / L) := by
  have hL2 : (2 : ℝ) ≤ L := by exact_mod_cast hL
  have hpi := pi_pos
  have h0 : 0 ≤ π / L := by positivity
  have h1 : π / L ≤ π / 2 := by rw [div_le_div_iff₀ (by linarith) (by norm_num)]; nlinarith
  exact ⟨sin_nonneg_of_nonneg_of_le_pi h0 (by linarith), cos_nonneg_of_mem_Icc ⟨by linarith, h1⟩⟩

theorem sq_of_step {ρ z ρ' z' cu su cu' su' S C : ℝ} (hu : su ^ 2 + cu ^ 2 = 1) (hu' : su' ^ 2 + cu' ^ 2 = 1) (hd : cu' * cu + su' * su = 1 - 2 * S ^ 2) (hC : C ^ 2 = 1 - S ^ 2) :
    (Tri3.orthogonal ⟨⟨ρ * cu, ρ * su, z⟩, ⟨ρ' * cu, ρ' * su, z'⟩, ⟨ρ' * cu', ρ' * su', z'⟩⟩).normSq = 4 * ρ' ^ 2 * S ^ 2 * ((ρ - ρ') ^ 2 * C ^ 2 + (z - z') ^ 2) := by
  have e : (Tri3.orthogonal ⟨⟨ρ * cu, ρ * su, z⟩, ⟨ρ' * cu, ρ' * su, z'⟩, ⟨ρ' * cu', ρ' * su', z'⟩⟩).normSq =
      ((ρ - ρ') ^ 2 * (su ^ 2 + cu ^ 2) + (z - z') ^ 2) * (ρ' ^ 2 * ((su ^ 2 + cu ^ 2) + (su' ^ 2 + cu' ^ 2) - 2 * (cu' * cu + su' * su))) -
      ((ρ - ρ') * ρ' * ((su ^ 2 + cu ^ 2) - (cu' * cu + su' * su))) ^ 2 := by
    simp only [Tri3.orthogonal, P3.normSq, P3.cross, P3.sub_x, P3.sub_y, P3.sub_z]
    ring
  rw [e, hu, hu', hd, hC]
  ring

theorem orth_rotate (a b c : P3 ℝ) : (Tri3.orthogonal ⟨a, b, c⟩).normSq = (Tri3.orthogonal ⟨b, c, a⟩).normSq := by
  simp only [Tri3.orthogonal, P3.normSq, P3.cross, P3.sub_x, P3.sub_y, P3.sub_z]
  ring

theorem surface_rotate (a b c : P3 ℝ) : Tri3.surface ⟨a, b, c⟩ = Tri3.surface ⟨b, c, a⟩ := by
  have h : ∀ p : P3 ℝ, p.norm = √(p.normSq) := fun _ => rfl
  rw [Tri3.surface, Tri3.surface, h, h, orth_rotate]

/-- the triangle between two points on a meridian and one on the next meridian -/
theorem step_surface {ρ z ρ' z' cu su cu' su' S C ch : ℝ} (hu : su ^ 2 + cu ^ 2 = 1) (hu' : su' ^ 2 + cu' ^ 2 = 1) (hd : cu' * cu + su' * su = 1 - 2 * S ^ 2) (hC : C ^ 2 = 1 - S ^ 2)
    (hS : 0 ≤ S) (hC0 : 0 ≤ C) (hρ' : 0 ≤ ρ') (hch : 0 ≤ ch) (hc : (ρ - ρ') ^ 2 + (z - z') ^ 2 = ch ^ 2) :
    ρ' * S * (C * ch) ≤ Tri3.surface ⟨⟨ρ * cu, ρ * su, z⟩, ⟨ρ' * cu, ρ' * su, z'⟩, ⟨ρ' * cu', ρ' * su', z'⟩⟩ ∧
    Tri3.surface ⟨⟨ρ * cu, ρ * su, z⟩, ⟨ρ' * cu, ρ' * su, z'⟩, ⟨ρ' * cu', ρ' * su', z'⟩⟩ ≤ ρ' * S * ch :=
  surf_bounds hρ' hS hC0 (by nlinarith [sq_nonneg S]) hch hc (sq_of_step hu hu' hd hC)

theorem torus_cell_surface {R r : ℝ} (hr : 0 ≤ r) (hR : r ≤ R) {L N : Nat} (hL : 2 ≤ L) (hN : 2 ≤ N) (a : ZMod L) {j : Nat} (hj : j < N) :
    let A := (((torusCell ((1, 0) : ZMod L × ZMod N) (0, 1) (a, (j : ZMod N))).map fun t =>
      ((⟨torusVertex R r L N t.1, torusVertex R r L N t.2.1, torusVertex R r L N t.2.2⟩ : Tri3 ℝ))).map Tri3.surface).sum
    let Q := ((R + r * cos ((j : ℝ) / N * 2 * π)) + (R + r * cos (((j + 1 : Nat) : ℝ) / N * 2 * π))) * sin (π / L) * (2 * r * sin (π / N))
    cos (π / L) * Q ≤ A ∧ A ≤ Q := by
  intro A Q
  have : NeZero N := ⟨by omega⟩
  have hN0 : (N : ℝ) ≠ 0 := by positivity
  have hL2 : (2 : ℝ) ≤ L := by exact_mod_cast hL
  have hN2 : (2 : ℝ) ≤ N := by exact_mod_cast hN
  have hpi := pi_pos
  obtain ⟨hd, hC⟩ := half_step hL a
  obtain ⟨n1, n2⟩ := sin_cos_next hN (j : ZMod N)
  rw [zmod_natCast_val hj] at n1 n2
  have e : ((j + 1 : Nat) : ℝ) / N * 2 * π = (j : ℝ) / N * 2 * π + 2 * π / N := by push_cast; field_simp
  obtain ⟨hS, hC0⟩ := step_nonneg hL
  obtain ⟨hSN, -⟩ := step_nonneg hN
  have hch : 0 ≤ 2 * r * sin (π / N) := by positivity
  have hA : A = Tri3.surface ⟨torusVertex R r L N (a + 1, (j : ZMod N)), torusVertex R r L N (a + 1, (j : ZMod N) + 1), torusVertex R r L N (a, (j : ZMod N) + 1)⟩ +
      Tri3.surface ⟨torusVertex R r L N (a, (j : ZMod N) + 1), torusVertex R r L N (a, (j : ZMod N)), torusVertex R r L N (a + 1, (j : ZMod N))⟩ := by
    simp [A, torusCell, quadT]
  have hp : ∀ v, 0 ≤ R + r * cos v := fun v => by nlinarith [neg_one_le_cos v]
  rw [hA]
  simp only [torusVertex, torusPoint, n1, n2, zmod_natCast_val hj, Q, e]
  generalize ((j : ℝ) / N * 2 * π) = v
  have hch' : ∀ v, (r * cos v - r * cos (v + 2 * π / N)) ^ 2 + (r * sin v - r * sin (v + 2 * π / N)) ^ 2 = (2 * r * sin (π / N)) ^ 2 := by
    intro v
    have h1 : cos (2 * π / N) = 1 - 2 * sin (π / N) ^ 2 := by
      rw [show 2 * π / N = 2 * (π / N) by ring, cos_two_mul, cos_sq']
      ring
    have h2 : cos v * cos (v + 2 * π / N) + sin v * sin (v + 2 * π / N) = cos (2 * π / N) := by
      rw [← cos_sub, ← cos_neg]; congr 1; ring
    rw [h1] at h2
    linear_combination r ^ 2 * (sin_sq_add_cos_sq v + sin_sq_add_cos_sq (v + 2 * π / N) - 2 * h2)
  have s1 := sin_sq_add_cos_sq ((a.val : ℝ) / L * 2 * π)
  have s2 := sin_sq_add_cos_sq (((a + 1).val : ℝ) / L * 2 * π)
  have hd' : cos ((a.val : ℝ) / L * 2 * π) * cos (((a + 1).val : ℝ) / L * 2 * π) + sin ((a.val : ℝ) / L * 2 * π) * sin (((a + 1).val : ℝ) / L * 2 * π) = 1 - 2 * sin (π / L) ^ 2 := by
    rw [← hd]; ring
  have b1 := step_surface (ρ := R + r * cos v) (z := r * sin v) (ρ' := R + r * cos (v + 2 * π / N)) (z' := r * sin (v + 2 * π / N)) s2 s1 hd' hC hS hC0 (hp _) hch
    (by rw [← hch' v]; ring)
  have b2 := step_surface (ρ := R + r * cos (v + 2 * π / N)) (z := r * sin (v + 2 * π / N)) (ρ' := R + r * cos v) (z' := r * sin v) s1 s2 hd hC hS hC0 (hp _) hch
    (by rw [← hch' v]; ring)
  constructor
  · refine le_trans (le_of_eq ?_) (add_le_add b1.1 b2.1)
    ring
  · refine le_trans (add_le_add b1.2 b2.2) (le_of_eq ?_)
    ring

/-- C103: bounds for the area of the torus mesh -/
theorem torus_surface_bounds {R r : ℝ} (hr : 0 ≤ r) (hR : r ≤ R) (n : Nat) (hn : 1 ≤ n) (m : Mesh ℝ) :
    ∃ x A, createTorus R r n m = some x ∧ Measure.surface x = some A ∧
      cos (π / (2 + 4 * n)) * (((2 + 4 * n : ℝ) * sin (π / (2 + 4 * n))) * ((6 + 2 * n : ℝ) * sin (π / (6 + 2 * n))) * (4 * R * r)) ≤ A ∧
      A ≤ ((2 + 4 * n : ℝ) * sin (π / (2 + 4 * n))) * ((6 + 2 * n : ℝ) * sin (π / (6 + 2 * n))) * (4 * R * r) := by
  obtain ⟨x, hx, hp, -⟩ := torus_spec R r n (by exact_mod_cast hn) m
  refine ⟨x, _, hx, surface_of hp.ok _ rfl, ?_⟩
  rw [createTorus_eq] at hx
  obtain rfl := Option.some.inj hx
  have : NeZero (2 + 4 * n) := ⟨by omega⟩
  have : NeZero (6 + 2 * n) := ⟨by omega⟩
  have hL' : ((2 + 4 * n : Nat) : ℝ) = 2 + 4 * n := by push_cast; ring
  have hN' : ((6 + 2 * n : Nat) : ℝ) = 6 + 2 * n := by push_cast; ring
  rw [torus_triangles, ← hL', ← hN']
  have hL : 2 ≤ 2 + 4 * n := by omega
  have hN : 2 ≤ 6 + 2 * n := by omega
  clear hp
  generalize 2 + 4 * n = L at *
  generalize 6 + 2 * n = N at *
  rw [List.map_map]
  have e0 : (torusCells L N).flatMap (torusCell (1, 0) (0, 1)) = (List.range L).flatMap fun (i : Nat) =>
      (List.range N).flatMap fun (j : Nat) => torusCell (1, 0) (0, 1) ((i : ZMod L), (j : ZMod N)) := by
    unfold torusCells
    simp only [List.flatMap_assoc, List.flatMap_map]
  have hN0 : (N : ℝ) ≠ 0 := by positivity
  -- the sum of the upper bounds
  have hQ : ∑ j ∈ Finset.range N, ((R + r * cos ((j : ℝ) / N * 2 * π)) + (R + r * cos (((j + 1 : Nat) : ℝ) / N * 2 * π))) * sin (π / L) * (2 * r * sin (π / N)) =
      N * sin (π / N) * sin (π / L) * (4 * R * r) := by
    have h1 : ∀ j ∈ Finset.range N, ((R + r * cos ((j : ℝ) / N * 2 * π)) + (R + r * cos (((j + 1 : Nat) : ℝ) / N * 2 * π))) * sin (π / L) * (2 * r * sin (π / N)) =
        sin (π / N) * sin (π / L) * (4 * R * r) + (2 * r ^ 2 * sin (π / L) * cos (π / N) * sin (((j + 1 : Nat) : ℝ) / N * 2 * π) - 2 * r ^ 2 * sin (π / L) * cos (π / N) * sin ((j : ℝ) / N * 2 * π)) := by
      intro j _
      have e : ((j + 1 : Nat) : ℝ) / N * 2 * π = (j : ℝ) / N * 2 * π + 2 * (π / N) := by push_cast; field_simp
      rw [e, cos_add, sin_add, cos_two_mul, sin_two_mul]
      generalize ((j : ℝ) / N * 2 * π) = v
      linear_combination (-4 * r ^ 2 * sin (π / L) * sin v * cos (π / N)) * sin_sq_add_cos_sq (π / N)
    rw [Finset.sum_congr rfl h1, Finset.sum_add_distrib, Finset.sum_range_sub (fun j : Nat => 2 * r ^ 2 * sin (π / L) * cos (π / N) * sin ((j : ℝ) / N * 2 * π))]
    have : (N : ℝ) / N * 2 * π = 2 * π := by field_simp
    simp [this]
    ring
  rw [e0, sum_flatMap_eq]
  have hrow : ∀ i ∈ Finset.range L, cos (π / L) * (N * sin (π / N) * sin (π / L) * (4 * R * r)) ≤
      (((List.range N).flatMap fun (j : Nat) => torusCell (1, 0) (0, 1) ((i : ZMod L), (j : ZMod N))).map (Tri3.surface ∘ fun t => ⟨torusVertex R r L N t.1, torusVertex R r L N t.2.1, torusVertex R r L N t.2.2⟩)).sum ∧
      (((List.range N).flatMap fun (j : Nat) => torusCell (1, 0) (0, 1) ((i : ZMod L), (j : ZMod N))).map (Tri3.surface ∘ fun t => ⟨torusVertex R r L N t.1, torusVertex R r L N t.2.1, torusVertex R r L N t.2.2⟩)).sum ≤
      N * sin (π / N) * sin (π / L) * (4 * R * r) := by
    intro i _
    rw [sum_flatMap_eq, ← hQ, Finset.mul_sum]
    constructor
    · refine Finset.sum_le_sum fun j hj => ?_
      rw [← List.map_map]
      exact (torus_cell_surface hr hR hL hN (i : ZMod L) (Finset.mem_range.1 hj)).1
    · refine Finset.sum_le_sum fun j hj => ?_
      rw [← List.map_map]
      exact (torus_cell_surface hr hR hL hN (i : ZMod L) (Finset.mem_range.1 hj)).2
  constructor
  · refine le_trans (le_of_eq ?_) (Finset.sum_le_sum fun i hi => (hrow i hi).1)
    rw [Finset.sum_const, Finset.card_range, nsmul_eq_mul]; ring
  · refine le_trans (Finset.sum_le_sum fun i hi => (hrow i hi).2) (le_of_eq ?_)
    rw [Finset.sum_const, Finset.card_range, nsmul_eq_mul]; ring

/-- C103.  With more segments the area of the torus mesh tends to `4π²Rr` and stays below. -/
theorem torus_surface_limit {R r : ℝ} (hr : 0 < r) (hR : r ≤ R) (m : Mesh ℝ) : ∃ A : Nat → ℝ, Tendsto A atTop (𝓝 (4 * π ^ 2 * R * r)) ∧
    ∀ n : Nat, 1 ≤ n → (∃ x, createTorus R r n m = some x ∧ Measure.surface x = some (A n)) ∧ A n < 4 * π ^ 2 * R * r := by
  have key : ∀ n : Nat, ∃ a : ℝ, 1 ≤ n → (∃ x, createTorus R r n m = some x ∧ Measure.surface x = some a) ∧
      cos (π / (2 + 4 * n)) * (((2 + 4 * n : ℝ) * sin (π / (2 + 4 * n))) * ((6 + 2 * n : ℝ) * sin (π / (6 + 2 * n))) * (4 * R * r)) ≤ a ∧
      a ≤ ((2 + 4 * n : ℝ) * sin (π / (2 + 4 * n))) * ((6 + 2 * n : ℝ) * sin (π / (6 + 2 * n))) * (4 * R * r) := by
    intro n
    by_cases hn : 1 ≤ n
    · obtain ⟨x, A, h1, h2, h3, h4⟩ := torus_surface_bounds hr.le hR n hn m
      exact ⟨A, fun _ => ⟨⟨x, h1, h2⟩, h3, h4⟩⟩
    · exact ⟨0, fun h => absurd h hn⟩
  choose A hA using key
  have h1 := ngon_limit π _ (linear_atTop 4 2 (by norm_num))
  have h2 := ngon_limit π _ (linear_atTop 2 6 (by norm_num))
  have hu := (h1.mul h2).mul_const (4 * R * r)
  have hc : Tendsto (fun n : Nat => cos (π / (2 + 4 * (n : ℝ)))) atTop (𝓝 (cos 0)) :=
    (continuous_cos.tendsto 0).comp ((linear_atTop 4 2 (by norm_num)).const_div_atTop π)
  rw [cos_zero] at hc
  have hl := hc.mul hu
  have e : π * π * (4 * R * r) = 4 * π ^ 2 * R * r := by ring
  rw [one_mul, e] at hl
  rw [e] at hu
  refine ⟨A, tendsto_of_tendsto_of_tendsto_of_le_of_le' hl hu ?_ ?_, fun n hn => ⟨(hA n hn).1, (hA n hn).2.2.trans_lt ?_⟩⟩
  · filter_upwards [eventually_ge_atTop 1] with n hn using (hA n hn).2.1
  · filter_upwards [eventually_ge_atTop 1] with n hn using (hA n hn).2.2
  · have hpi := pi_pos
    have hn' : (1 : ℝ) ≤ n := by exact_mod_cast hn
    have q1 : (2 + 4 * n : ℝ) * sin (π / (2 + 4 * n)) < π := ngon_lt pi_pos (by linarith)
    have q2 : (6 + 2 * n : ℝ) * sin (π / (6 + 2 * n)) < π := ngon_lt pi_pos (by linarith)
    have p1 : 0 ≤ (2 + 4 * n : ℝ) * sin (π / (2 + 4 * n)) := mul_nonneg (by linarith) (sin_nonneg_of_nonneg_of_le_pi (by positivity) (by rw [div_le_iff₀ (by linarith)]; nlinarith))
    have p2 : 0 ≤ (6 + 2 * n : ℝ) * sin (π / (6 + 2 * n)) := mul_nonneg (by linarith) (sin_nonneg_of_nonneg_of_le_pi (by positivity) (by rw [div_le_iff₀ (by linarith)]; nlinarith))
    have hRr : 0 < 4 * R * r := by have : 0 < R := hr.trans_le hR
                                   positivity
    have := mul_lt_mul_of_pos_right (mul_lt_mul'' q1 q2 p1 p2) hRr
    rw [e] at this
    exact this

theorem sphere_cell_surface {r : ℝ} (hr : 0 ≤ r) {L M : Nat} (hL : 2 ≤ L) (hM : 1 ≤ M) (a : ZMod L) {k : Nat} (hk : k < M + 1) :
    let A := (((ballCell (M : Int) (a, (k : Int))).map fun t =>
      ((⟨sphereVertex r L M t.1, sphereVertex r L M t.2.1, sphereVertex r L M t.2.2⟩ : Tri3 ℝ))).map Tri3.surface).sum
    let Q := sin (π / L) * (2 * r ^ 2 * cos (π / (2 * (M + 1)))) * (cos ((k : ℝ) / (M + 1) * π) - cos (((k + 1 : Nat) : ℝ) / (M + 1) * π))
    cos (π / L) * Q ≤ A ∧ A ≤ Q := by
  intro A Q
  obtain ⟨hd, hC⟩ := half_step hL a
  obtain ⟨hS, hC0⟩ := step_nonneg hL
  have hM0 : ((M : ℝ) + 1) ≠ 0 := by positivity
  have hpi := pi_pos
  have hx : 0 ≤ sin (π / (2 * ((M : ℝ) + 1))) := sin_nonneg_of_nonneg_of_le_pi (by positivity) (by
    rw [div_le_iff₀ (by positivity)]
    have : (0 : ℝ) ≤ M := by positivity
    nlinarith)
  have hch : 0 ≤ 2 * r * sin (π / (2 * ((M : ℝ) + 1))) := by positivity
  have e : ((k + 1 : Nat) : ℝ) / (M + 1) * π = (k : ℝ) / (M + 1) * π + 2 * (π / (2 * (M + 1))) := by push_cast; field_simp
  have s1 := sin_sq_add_cos_sq ((a.val : ℝ) / L * 2 * π)
  have s2 := sin_sq_add_cos_sq (((a + 1).val : ℝ) / L * 2 * π)
  have hd' : cos ((a.val : ℝ) / L * 2 * π) * cos (((a + 1).val : ℝ) / L * 2 * π) + sin ((a.val : ℝ) / L * 2 * π) * sin (((a + 1).val : ℝ) / L * 2 * π) = 1 - 2 * sin (π / L) ^ 2 := by
    rw [← hd]; ring
  have hsin : ∀ j : Nat, j ≤ M + 1 → 0 ≤ r * sin ((j : ℝ) / (M + 1) * π) := by
    intro j hj
    have hj' : (j : ℝ) ≤ M + 1 := by exact_mod_cast hj
    refine mul_nonneg hr (sin_nonneg_of_nonneg_of_le_pi (by positivity) ?_)
    have : (j : ℝ) / (M + 1) ≤ 1 := by rw [div_le_one (by positivity)]; exact hj'
    nlinarith
  have p0 := hsin k (by omega)
  have p1 := hsin (k + 1) (by omega)
  -- the chord of a ring and its width
  have hc : (r * sin ((k : ℝ) / (M + 1) * π) - r * sin (((k + 1 : Nat) : ℝ) / (M + 1) * π)) ^ 2 + (r * cos ((k : ℝ) / (M + 1) * π) - r * cos (((k + 1 : Nat) : ℝ) / (M + 1) * π)) ^ 2 =
      (2 * r * sin (π / (2 * ((M : ℝ) + 1)))) ^ 2 := by
    have h2 : cos ((k : ℝ) / (M + 1) * π) * cos (((k + 1 : Nat) : ℝ) / (M + 1) * π) + sin ((k : ℝ) / (M + 1) * π) * sin (((k + 1 : Nat) : ℝ) / (M + 1) * π) = 1 - 2 * sin (π / (2 * ((M : ℝ) + 1))) ^ 2 := by
      rw [← cos_sub, ← cos_neg, e, neg_sub, add_sub_cancel_left, cos_two_mul, cos_sq']; ring
    linear_combination r ^ 2 * (sin_sq_add_cos_sq ((k : ℝ) / (M + 1) * π) + sin_sq_add_cos_sq (((k + 1 : Nat) : ℝ) / (M + 1) * π) - 2 * h2)
  have hc' : (r * sin (((k + 1 : Nat) : ℝ) / (M + 1) * π) - r * sin ((k : ℝ) / (M + 1) * π)) ^ 2 + (r * cos (((k + 1 : Nat) : ℝ) / (M + 1) * π) - r * cos ((k : ℝ) / (M + 1) * π)) ^ 2 =
      (2 * r * sin (π / (2 * ((M : ℝ) + 1)))) ^ 2 := by rw [← hc]; ring
  have hw : Q = (r * sin ((k : ℝ) / (M + 1) * π) + r * sin (((k + 1 : Nat) : ℝ) / (M + 1) * π)) * sin (π / L) * (2 * r * sin (π / (2 * ((M : ℝ) + 1)))) := by
    simp only [Q]
    rw [e, cos_add, sin_add, cos_two_mul, sin_two_mul]
    generalize (k : ℝ) / (M + 1) * π = v
    generalize π / (2 * ((M : ℝ) + 1)) = x
    linear_combination (-4 * sin (π / L) * r ^ 2 * cos v * cos x) * sin_sq_add_cos_sq x
  have b1 := step_surface (ρ := r * sin ((k : ℝ) / (M + 1) * π)) (z := r * cos ((k : ℝ) / (M + 1) * π)) (ρ' := r * sin (((k + 1 : Nat) : ℝ) / (M + 1) * π)) (z' := r * cos (((k + 1 : Nat) : ℝ) / (M + 1) * π))
    s1 s2 hd hC hS hC0 p1 hch hc
  have b2 := step_surface (ρ := r * sin (((k + 1 : Nat) : ℝ) / (M + 1) * π)) (z := r * cos (((k + 1 : Nat) : ℝ) / (M + 1) * π)) (ρ' := r * sin ((k : ℝ) / (M + 1) * π)) (z' := r * cos ((k : ℝ) / (M + 1) * π))
    s2 s1 hd' hC hS hC0 p0 hch hc'
  rw [hw]
  simp only [A]
  unfold ballCell
  split_ifs with c1 c2
  · obtain rfl : k = 0 := by simpa using c1
    have e3 : (((0 : Int) : ℝ) + 1) / (M + 1 : Nat) * π = ((0 + 1 : Nat) : ℝ) / (M + 1) * π := by push_cast; ring
    simp only [List.map_cons, List.map_nil, List.sum_cons, List.sum_nil, sphereVertex, spherePoint, e3, add_zero]
    simp only [Nat.cast_zero, zero_div, zero_mul, sin_zero, cos_zero, mul_zero, mul_one] at b1 ⊢
    exact ⟨le_trans (le_of_eq (by ring)) b1.1, b1.2.trans (le_of_eq (by ring))⟩
  · have e1 : (((k : Int) - 1 : Int) : ℝ) + 1 = k := by push_cast; ring
    have e2 : ((k : Int) : ℝ) + 1 = ((k + 1 : Nat) : ℝ) := by push_cast; ring
    have e4 : ((M + 1 : Nat) : ℝ) = (M : ℝ) + 1 := by push_cast; ring
    simp only [quadT, List.map_cons, List.map_nil, List.sum_cons, List.sum_nil, sphereVertex, spherePoint, e1, e2, e4, add_zero]
    exact ⟨le_trans (le_of_eq (by ring)) (add_le_add b1.1 b2.1), (add_le_add b1.2 b2.2).trans (le_of_eq (by ring))⟩
  · obtain rfl : k = M := by simp only at c1 c2; omega
    have e1 : (((k : Int) - 1 : Int) : ℝ) + 1 = k := by push_cast; ring
    have e4 : ((k + 1 : Nat) : ℝ) = (k : ℝ) + 1 := by push_cast; ring
    have e5 : ((k : ℝ) + 1) / (k + 1) * π = π := by field_simp
    simp only [List.map_cons, List.map_nil, List.sum_cons, List.sum_nil, sphereVertex, spherePoint, e1, e4, e5, add_zero, sin_pi, cos_pi, mul_zero, zero_mul, mul_neg, mul_one] at b2 ⊢
    rw [surface_rotate]
    exact ⟨le_trans (le_of_eq (by ring)) b2.1, b2.2.trans (le_of_eq (by ring))⟩

/-- C103: bounds for the area of the UV sphere mesh -/
theorem sphere_uv_surface_bounds {r : ℝ} (hr : 0 ≤ r) (n : Nat) (hn : 1 ≤ n) (m : Mesh ℝ) :
    ∃ x A, createSphereUv r n m = some x ∧ Measure.surface x = some A ∧
      cos (π / (2 + 4 * n)) * (((2 + 4 * n : ℝ) * sin (π / (2 + 4 * n))) * cos (π / (4 + 4 * n)) * (4 * r ^ 2)) ≤ A ∧
      A ≤ ((2 + 4 * n : ℝ) * sin (π / (2 + 4 * n))) * cos (π / (4 + 4 * n)) * (4 * r ^ 2) := by
  obtain ⟨x, hx, hp, -⟩ := sphere_uv_spec r n (by exact_mod_cast hn) m
  refine ⟨x, _, hx, surface_of hp.ok _ rfl, ?_⟩
  rw [createSphereUv_eq] at hx
  obtain rfl := Option.some.inj hx
  have : NeZero (2 + 4 * n) := ⟨by omega⟩
  have hL' : ((2 + 4 * n : Nat) : ℝ) = 2 + 4 * n := by push_cast; ring
  have hM' : (2 * (((1 + 2 * n : Nat) : ℝ) + 1)) = 4 + 4 * n := by push_cast; ring
  rw [← hL', ← hM']
  have hL : 2 ≤ 2 + 4 * n := by omega
  have hM : 1 ≤ 1 + 2 * n := by omega
  clear hp
  generalize 2 + 4 * n = L at *
  generalize 1 + 2 * n = M at *
  rw [ballFaces, build_triangles_named _ _ _ _ (sphereVertex r L M)]
  swap
  · intro t ht
    obtain ⟨h1, h2, h3⟩ := ballTris_in hM t ht
    exact ⟨ballPoints_get _ h1, ballPoints_get _ h2, ballPoints_get _ h3⟩
  have e0 : ballTris L M = (List.range L).flatMap fun (i : Nat) => (List.range (M + 1)).flatMap fun (k : Nat) => ballCell (M : Int) ((i : ZMod L), (k : Int)) := by
    unfold ballTris ballCells
    simp only [List.flatMap_assoc, List.flatMap_map]
  have hM0 : ((M : ℝ) + 1) ≠ 0 := by positivity
  have hQ : ∑ k ∈ Finset.range (M + 1), sin (π / L) * (2 * r ^ 2 * cos (π / (2 * ((M : ℝ) + 1)))) * (cos ((k : ℝ) / (M + 1) * π) - cos (((k + 1 : Nat) : ℝ) / (M + 1) * π)) =
      sin (π / L) * cos (π / (2 * ((M : ℝ) + 1))) * (4 * r ^ 2) := by
    rw [← Finset.mul_sum, Finset.sum_range_sub' (fun k : Nat => cos ((k : ℝ) / (M + 1) * π))]
    have : ((M + 1 : Nat) : ℝ) / (M + 1) * π = π := by push_cast; field_simp
    simp only [this, cos_pi, Nat.cast_zero, zero_div, zero_mul, cos_zero]
    ring
  rw [List.map_map, e0, sum_flatMap_eq]
  have hrow : ∀ i ∈ Finset.range L, cos (π / L) * (sin (π / L) * cos (π / (2 * ((M : ℝ) + 1))) * (4 * r ^ 2)) ≤
      (((List.range (M + 1)).flatMap fun (k : Nat) => ballCell (M : Int) ((i : ZMod L), (k : Int))).map (Tri3.surface ∘ fun t => ⟨sphereVertex r L M t.1, sphereVertex r L M t.2.1, sphereVertex r L M t.2.2⟩)).sum ∧
      (((List.range (M + 1)).flatMap fun (k : Nat) => ballCell (M : Int) ((i : ZMod L), (k : Int))).map (Tri3.surface ∘ fun t => ⟨sphereVertex r L M t.1, sphereVertex r L M t.2.1, sphereVertex r L M t.2.2⟩)).sum ≤
      sin (π / L) * cos (π / (2 * ((M : ℝ) + 1))) * (4 * r ^ 2) := by
    intro i _
    rw [sum_flatMap_eq, ← hQ, Finset.mul_sum]
    constructor
    · refine Finset.sum_le_sum fun j hj => ?_
      rw [← List.map_map]
      exact (sphere_cell_surface hr hL hM (i : ZMod L) (Finset.mem_range.1 hj)).1
    · refine Finset.sum_le_sum fun j hj => ?_
      rw [← List.map_map]
      exact (sphere_cell_surface hr hL hM (i : ZMod L) (Finset.mem_range.1 hj)).2
  constructor
  · refine le_trans (le_of_eq ?_) (Finset.sum_le_sum fun i hi => (hrow i hi).1)
    rw [Finset.sum_const, Finset.card_range, nsmul_eq_mul]; ring
  · refine le_trans (Finset.sum_le_sum fun i hi => (hrow i hi).2) (le_of_eq ?_)
    rw [Finset.sum_const, Finset.card_range, nsmul_eq_mul]; ring

/-- C103.  With more segments the area of the UV sphere mesh tends to `4πr²` and stays below. -/
theorem sphere_uv_surface_limit {r : ℝ} (hr : 0 < r) (m : Mesh ℝ) : ∃ A : Nat → ℝ, Tendsto A atTop (𝓝 (4 * π * r ^ 2)) ∧
    ∀ n : Nat, 1 ≤ n → (∃ x, createSphereUv r n m = some x ∧ Measure.surface x = some (A n)) ∧ A n < 4 * π * r ^ 2 := by
  have key : ∀ n : Nat, ∃ a : ℝ, 1 ≤ n → (∃ x, createSphereUv r n m = some x ∧ Measure.surface x = some a) ∧
      cos (π / (2 + 4 * n)) * (((2 + 4 * n : ℝ) * sin (π / (2 + 4 * n))) * cos (π / (4 + 4 * n)) * (4 * r ^ 2)) ≤ a ∧
      a ≤ ((2 + 4 * n : ℝ) * sin (π / (2 + 4 * n))) * cos (π / (4 + 4 * n)) * (4 * r ^ 2) := by
    intro n
    by_cases hn : 1 ≤ n
    · obtain ⟨x, A, h1, h2, h3, h4⟩ := sphere_uv_surface_bounds hr.le n hn m
      exact ⟨A, fun _ => ⟨⟨x, h1, h2⟩, h3, h4⟩⟩
    · exact ⟨0, fun h => absurd h hn⟩
  choose A hA using key
  have h1 := ngon_limit π _ (linear_atTop 4 2 (by norm_num))
  have hc : ∀ b : ℝ, Tendsto (fun n : Nat => cos (π / (b + 4 * (n : ℝ)))) atTop (𝓝 1) := fun b => by
    have := (continuous_cos.tendsto 0).comp ((linear_atTop 4 b (by norm_num)).const_div_atTop π)
    rwa [cos_zero] at this
  have hu := (h1.mul (hc 4)).mul_const (4 * r ^ 2)
  have hl := (hc 2).mul hu
  have e : π * 1 * (4 * r ^ 2) = 4 * π * r ^ 2 := by ring
  rw [one_mul, e] at hl
  rw [e] at hu
  refine ⟨A, tendsto_of_tendsto_of_tendsto_of_le_of_le' hl hu ?_ ?_, fun n hn => ⟨(hA n hn).1, (hA n hn).2.2.trans_lt ?_⟩⟩
  · filter_upwards [eventually_ge_atTop 1] with n hn using (hA n hn).2.1
  · filter_upwards [eventually_ge_atTop 1] with n hn using (hA n hn).2.2
  · have hpi := pi_pos
    have hn' : (1 : ℝ) ≤ n := by exact_mod_cast hn
    have q1 : (2 + 4 * n : ℝ) * sin (π / (2 + 4 * n)) < π := ngon_lt pi_pos (by linarith)
    have p1 : 0 ≤ (2 + 4 * n : ℝ) * sin (π / (2 + 4 * n)) := mul_nonneg (by linarith) (sin_nonneg_of_nonneg_of_le_pi (by positivity) (by rw [div_le_iff₀ (by linarith)]; nlinarith))
    have : (2 + 4 * n : ℝ) * sin (π / (2 + 4 * n)) * cos (π / (4 + 4 * n)) < π :=
      (mul_le_of_le_one_right p1 (cos_le_one _)).trans_lt q1
    have := mul_lt_mul_of_pos_right this (show 0 < 4 * r ^ 2 by positivity)
    rw [mul_one] at e
    rw [e] at this
    exact this

/-- C103.  The area of the cylinder mesh. -/
theorem cylinder_surface {h r : ℝ} (hh : 0 ≤ h) (hr : 0 ≤ r) (n : Nat) (m : Mesh ℝ) :
    ∃ x, createCylinder h r n m = some x ∧
      Measure.surface x = some (2 * ((2 + 4 * n : ℝ) * sin (π / (2 + 4 * n))) * r * h + (2 + 4 * n : ℝ) * sin (2 * π / (2 + 4 * n)) * r ^ 2) := by
  refine ⟨_, createCylinder_eq h r n m, ?_⟩
  have hL' : ((2 + 4 * n : Nat) : ℝ) = 2 + 4 * n := by push_cast; ring
  rw [← hL']
  have hL : 2 ≤ 2 + 4 * n := by omega
  generalize 2 + 4 * n = L at *
  have : NeZero L := ⟨by omega⟩
  have hok : (m.build (ballPoints L 2 (cylVertex h r L)) (cylFaces L)).OK := by
    refine build_ok m ?_
    rw [ballPoints_length]; exact cylFaces_in (by omega)
  obtain ⟨d1, d2, e1, e2, hp⟩ := cyl_triangles h r (show 1 ≤ L by omega) m
  have hd1 : d1.surface = 0 := by
    have : d1.orthogonal.norm = 0 := by
      simp [Tri3.orthogonal, P3.norm, P3.cross, e1]
    rw [Tri3.surface, this, zero_mul]
  have hd2 : d2.surface = 0 := by
    have : d2.orthogonal.norm = 0 := by
      simp [Tri3.orthogonal, P3.norm, P3.cross, e2]
    rw [Tri3.surface, this, zero_mul]
  obtain ⟨hS, hC0⟩ := step_nonneg hL
  have hsin : sin (2 * π / L) = 2 * sin (π / L) * cos (π / L) := by rw [← sin_two_mul]; congr 1; ring
  have side : ∀ a : ZMod L, ∀ t ∈ cylSide a, Tri3.surface ⟨cylVertex h r L t.1, cylVertex h r L t.2.1, cylVertex h r L t.2.2⟩ = r * sin (π / L) * h := by
    intro a t ht
    obtain ⟨hd, hC⟩ := half_step hL a
    have s1 := sin_sq_add_cos_sq ((a.val : ℝ) / L * 2 * π)
    have s2 := sin_sq_add_cos_sq (((a + 1).val : ℝ) / L * 2 * π)
    have hd' : cos ((a.val : ℝ) / L * 2 * π) * cos (((a + 1).val : ℝ) / L * 2 * π) + sin ((a.val : ℝ) / L * 2 * π) * sin (((a + 1).val : ℝ) / L * 2 * π) = 1 - 2 * sin (π / L) ^ 2 := by
      rw [← hd]; ring
    simp only [cylSide, quadT, List.mem_cons, List.not_mem_nil, or_false] at ht
    have hs : √((r - r) ^ 2 * cos (π / L) ^ 2 + (h / 2 - -(h / 2)) ^ 2) = h := by
      rw [show (r - r) ^ 2 * cos (π / L) ^ 2 + (h / 2 - -(h / 2)) ^ 2 = h ^ 2 by ring, sqrt_sq hh]
    have hs' : √((r - r) ^ 2 * cos (π / L) ^ 2 + (-(h / 2) - h / 2) ^ 2) = h := by
      rw [show (r - r) ^ 2 * cos (π / L) ^ 2 + (-(h / 2) - h / 2) ^ 2 = h ^ 2 by ring, sqrt_sq hh]
    rcases ht with rfl | rfl <;> simp only [cylVertex, one_ne_zero, if_true, if_false, mul_comm _ r]
    · rw [surf_exact hr hS (sq_of_step s1 s2 hd hC), hs]
    · rw [surf_exact hr hS (sq_of_step s2 s1 hd' hC), hs']
  have cap : ∀ a : ZMod L, Tri3.surface ⟨cylVertex h r L (cylTop a).1, cylVertex h r L (cylTop a).2.1, cylVertex h r L (cylTop a).2.2⟩ = r * sin (π / L) * (r * cos (π / L)) ∧
      Tri3.surface ⟨cylVertex h r L (cylBottom a).1, cylVertex h r L (cylBottom a).2.1, cylVertex h r L (cylBottom a).2.2⟩ = r * sin (π / L) * (r * cos (π / L)) := by
    intro a
    obtain ⟨hd, hC⟩ := half_step hL a
    have s1 := sin_sq_add_cos_sq ((a.val : ℝ) / L * 2 * π)
    have s2 := sin_sq_add_cos_sq (((a + 1).val : ℝ) / L * 2 * π)
    have hd' : cos ((a.val : ℝ) / L * 2 * π) * cos (((a + 1).val : ℝ) / L * 2 * π) + sin ((a.val : ℝ) / L * 2 * π) * sin (((a + 1).val : ℝ) / L * 2 * π) = 1 - 2 * sin (π / L) ^ 2 := by
      rw [← hd]; ring
    have hs : ∀ z : ℝ, √((0 - r) ^ 2 * cos (π / L) ^ 2 + (z - z) ^ 2) = r * cos (π / L) := fun z => by
      rw [show (0 - r) ^ 2 * cos (π / L) ^ 2 + (z - z) ^ 2 = (r * cos (π / L)) ^ 2 by ring, sqrt_sq (by positivity)]
    have k1 := surf_exact hr hS (sq_of_step (ρ := 0) (z := h / 2) (ρ' := r) (z' := h / 2) s1 s2 hd hC)
    have k2 := surf_exact hr hS (sq_of_step (ρ := 0) (z := -(h / 2)) (ρ' := r) (z' := -(h / 2)) s2 s1 hd' hC)
    rw [hs] at k1 k2
    simp only [zero_mul] at k1 k2
    simp only [cylTop, cylBottom, cylVertex, one_ne_zero, if_true, if_false, mul_comm _ r]
    exact ⟨k1, k2⟩
  refine surface_of hok _ ?_
  rw [(hp.map _).sum_eq]
  simp only [List.map_cons, List.sum_cons, hd1, hd2, zero_add, List.map_map]
  unfold cylTris
  simp only [List.map_append, List.sum_append]
  rw [sum_flatMap_const L _ _ (2 * (r * sin (π / L) * h))]
  · rw [List.map_eq_flatMap (l := List.range L), List.map_eq_flatMap (l := List.range L),
      sum_flatMap_const L _ _ (r * sin (π / L) * (r * cos (π / L))),
      sum_flatMap_const L _ _ (r * sin (π / L) * (r * cos (π / L)))]
    · rw [hsin]; ring
    · intro i _
      simp only [List.map_cons, List.map_nil, List.sum_cons, List.sum_nil, add_zero, Function.comp]
      exact (cap i).2
    · intro i _
      simp only [List.map_cons, List.map_nil, List.sum_cons, List.sum_nil, add_zero, Function.comp]
      exact (cap i).1
  · intro i _
    have w := side (i : ZMod L)
    simp only [cylSide, quadT, List.mem_cons, List.not_mem_nil, or_false, forall_eq_or_imp, forall_eq] at w
    simp only [cylSide, quadT, List.map_cons, List.map_nil, List.sum_cons, List.sum_nil, add_zero, Function.comp]
    rw [w.1, w.2]; ring

/-- C103.  With more segments the area of the cylinder mesh tends to `2πrh + 2πr²` and stays
below. -/
theorem cylinder_surface_limit {h r : ℝ} (hh : 0 ≤ h) (hr : 0 < r) (m : Mesh ℝ) : ∃ A : Nat → ℝ, Tendsto A atTop (𝓝 (2 * π * r * h + 2 * π * r ^ 2)) ∧
    ∀ n : Nat, (∃ x, createCylinder h r n m = some x ∧ Measure.surface x = some (A n)) ∧ A n < 2 * π * r * h + 2 * π * r ^ 2 := by
  refine ⟨_, ?_, fun n => ⟨cylinder_surface hh hr.le n m, ?_⟩⟩
  · have h1 := ngon_limit π _ (linear_atTop 4 2 (by norm_num))
    have h2 := ngon_limit (2 * π) _ (linear_atTop 4 2 (by norm_num))
    exact (((h1.const_mul 2).mul_const r).mul_const h).add (h2.mul_const (r ^ 2))
  · have hpi := pi_pos
    have hn' : (0 : ℝ) ≤ n := by positivity
    have q1 : (2 + 4 * n : ℝ) * sin (π / (2 + 4 * n)) < π := ngon_lt pi_pos (by linarith)
    have q2 : (2 + 4 * n : ℝ) * sin (2 * π / (2 + 4 * n)) < 2 * π := ngon_lt (by positivity) (by linarith)
    have a1 := mul_lt_mul_of_pos_right q2 (show 0 < r ^ 2 by positivity)
    have a2 := mul_le_mul_of_nonneg_right q1.le (show 0 ≤ 2 * (r * h) by positivity)
    linarith

/-- The unit sphere of the coarsest subdivision (6 columns, 4 rings) has volume `√3·(1 + √2/2)`,
about 2.96 instead of 4.19. -/
example (m : Mesh ℝ) : ∃ x, createSphereUv 1 ((1 : Nat) : Int) m = some x ∧ Measure.volume x = some (√3 * (1 + √2 / 2)) := by
  obtain ⟨x, h1, h2⟩ := sphere_uv_volume 1 1 le_rfl m
  have e1 : 2 * π / (2 + 4 * ((1 : Nat) : ℝ)) = π / 3 := by push_cast; ring
  have e2 : π / (2 + 2 * ((1 : Nat) : ℝ)) = π / 4 := by push_cast; ring
  have e3 : ((2 + 4 * ((1 : Nat) : ℝ)) * (√3 / 2)) * (1 + √2 / 2) / 3 * (1 : ℝ) ^ 3 = √3 * (1 + √2 / 2) := by push_cast; ring
  rw [e1, e2, sin_pi_div_three, cos_pi_div_four, e3] at h2
  exact ⟨x, h1, h2⟩

/-- A torus with radii 2 and 1 meets the hypotheses of `torus_surface_limit`. -/
example (m : Mesh ℝ) : ∃ A : Nat → ℝ, Tendsto A atTop (𝓝 (4 * π ^ 2 * 2 * 1)) ∧ ∀ n : Nat, 1 ≤ n → A n < 4 * π ^ 2 * 2 * 1 := by
  obtain ⟨A, h1, h2⟩ := torus_surface_limit (R := 2) (r := 1) (by norm_num) (by norm_num) m
  exact ⟨A, h1, fun n hn => (h2 n hn).2⟩

end Factory
end CAD
