import Verif.Props.NurbsRevolve
import Verif.Props.NurbsShapes
import Verif.Props.NurbsMesh
import Verif.Props.NurbsBuild
import Verif.Props.NurbsSolids
import Verif.Props.NurbsInsert
import Verif.Props.NurbsElevate
import Verif.Props.NurbsContinuous
import Verif.Props.NurbsHeights
import Verif.Props.NurbsWatertight
import Verif.Props.NurbsLocal

/-! Concrete cases for the theorems about NURBS curves, surfaces and solids. -/

namespace CAD.Examples
open Nurbs

theorem quarter_weights : ∀ w ∈ quarter.weights, 0 < w := by decide +kernel
theorem patch_weights : ∀ w ∈ patch.weights, 0 < w := by decide +kernel
theorem bend_weights : ∀ w ∈ bend.weights, 0 < w := by decide +kernel
theorem sqrt_two : Real.sqrt 2 * Real.sqrt 2 = 2 := Real.mul_self_sqrt (by norm_num)
theorem sqrt_two_pos : 0 < Real.sqrt 2 := Real.sqrt_pos.2 (by norm_num)

/-- `scaleKnots_eq`, `scaleKnots_clamped`: knots from 2 to 6 -/
example : scaleKnots ([2, 2, 2, 3, 6, 6, 6] : List ℚ) = some [0, 0, 0, 1 / 4, 1, 1, 1] := by decide +kernel

/-- `setUniform_clamped`: degree 2, four points -/
example : (({ quarter with nbPoints := 4 } : Curve ℚ).setUniform).map (·.knots) = some [0, 0, 0, 1 / 2, 1, 1, 1] := by decide +kernel

/-- `evaluate_at_full_knot`: the knot 1/3 of `bend` is reached at the second control point -/
example : kn bend.knots 2 = 1 / 3 ∧ bend.at (1 / 3) = bend.points[1]? := by decide +kernel

/-- `evaluate_history_free`, `evaluate_keeps`: evaluating elsewhere first changes the work arrays, not the answer -/
example : ((quarter.evaluate (1 / 3)).map fun r => (decide (r.1.tempPoints = quarter.tempPoints), r.1.at (1 / 2))) =
    some (false, some ⟨3 / 5, 4 / 5, 0⟩) := by decide +kernel

/-- `evaluate_hull` -/
example : ∃ (k : Nat) (lam : Nat → ℚ), InSpan quarter.knots (1 / 2) k ∧ (∀ i, 0 ≤ lam i) ∧ ∑ i ∈ Finset.range 3, lam i = 1 ∧
    some ⟨3 / 5, 4 / 5, 0⟩ = some (∑ i ∈ Finset.range 3, lam i • quarter.points.getD i ⟨0, 0, 0⟩) := by
  obtain ⟨k, lam, a, b, _, d, e⟩ := evaluate_hull quarter_valid quarter_weights (u := 1 / 2) (by norm_num) (by norm_num)
  exact ⟨k, lam, a, b, d, by rw [← e]; decide +kernel⟩

/-- `evaluate_weight_scale` -/
example : quarter.weights.map ((-3) * ·) = [-3, -3, -6] ∧ (quarter.setWeights [-3, -3, -6]).at (1 / 2) = some ⟨3 / 5, 4 / 5, 0⟩ := by
  decide +kernel

/-- `insert_knots_spec`: three knots, one of them twice -/
example : (([1 / 2, 1 / 4, 1 / 2] : List ℚ).foldlM (fun (c : Curve ℚ) u => c.insertKnot u) quarter).map (fun c => (c.knots, c.points.length, c.at (1 / 3))) =
    some ([0, 0, 0, 1 / 4, 1 / 2, 1 / 2, 1, 1, 1], 6, quarter.at (1 / 3)) := by decide +kernel

/-- `degree_elevation_1` -/
example : (bend.degreeElevation).map (fun r => (r.1.degree, r.1.points.length, r.1.at (1 / 2), r.2)) =
    some (2, 7, some ⟨1, 1 / 3, 0⟩, true) := by decide +kernel

/-- `degree_elevation_3` -/
example : ((quarter.degreeElevation).bind fun r => r.1.degreeElevation).map (·.2) = some false := by decide +kernel

/-- `evaluate_continuous` -/
example : ∃ x y z : ℝ → ℝ, ContinuousOn x (Set.Icc 0 1) ∧ ContinuousOn y (Set.Icc 0 1) ∧ ContinuousOn z (Set.Icc 0 1) ∧
    ∀ u ∈ Set.Icc (0 : ℝ) 1, corner.at u = some ⟨x u, y u, z u⟩ := by
  refine evaluate_continuous corner_valid (by simp [corner]) fun x h0 h1 => ?_
  simp only [corner, List.count_cons, List.count_nil]
  have := h0.ne
  have := h1.ne'
  split_ifs <;> simp_all

/-- `surface_weight_scale` -/
example : (patch.setWeights (patch.weights.map (5 * ·))).at (1 / 2) (1 / 3) = some ⟨10 / 9, 4 / 9, 8 / 9⟩ := by decide +kernel

/-- `surface_evaluate_history_free`, `surface_evaluate_keeps` -/
example : ((patch.evaluate (1 / 5) (1 / 7)).map fun r => r.1.at (1 / 2) (1 / 3)) = some (some ⟨10 / 9, 4 / 9, 8 / 9⟩) := by decide +kernel

/-- `from_create_u`, `from_create_v`, `create_from_u`, `create_from_v`: through the curves and back -/
example : ((patch.createUCurves).bind fun l => (patch.fromUCurves l).map fun s => (l.length, s.points, s.weights)) =
    some (2, patch.points, patch.weights) ∧
    ((patch.createVCurves).bind fun l => (patch.fromVCurves l).map fun s => (l.length, s.points, s.weights)) =
    some (3, patch.points, patch.weights) := by decide +kernel

/-- `surface_evaluate_rows`: the point at (1/2, 1/3) from the two rows of `patch` -/
example : (patch.uCurve 0).bind (·.at (1 / 2)) = some ⟨6 / 5, 0, 2 / 5⟩ ∧ (patch.uCurve 1).bind (·.at (1 / 2)) = some ⟨1, 1, 3 / 2⟩ := by
  decide +kernel

/-- `surface_degree_elevation_3` -/
example : (({ patch with degreeU := 3 } : Surface ℚ).degreeElevationU).map (·.2) = some false := by decide +kernel

/-- `ruled_spec`, `ruled_segment`: between `quarter` and a copy 2 above with other weights -/
example : let c2 : Curve ℚ := { quarter with points := [⟨1, 0, 2⟩, ⟨1, 1, 2⟩, ⟨0, 1, 2⟩], weights := [2, 2, 4] }
    ((createRuled (1 / 1000) quarter c2 Surface.new).map fun s => (s.at (1 / 2) 0, s.at (1 / 2) 1, s.at (1 / 2) (1 / 2))) =
    some (some ⟨3 / 5, 4 / 5, 0⟩, some ⟨3 / 5, 4 / 5, 2⟩, some ⟨3 / 5, 4 / 5, 4 / 3⟩) := by decide +kernel

/-- `extrude_ruled_independent_partial`: the output object held another surface before -/
example : ((extrude (1 / 1000) quarter (⟨0, 0, 4⟩ : P3 ℚ) patch).bind fun S => S.at (1 / 2) (1 / 2)) = some ⟨3 / 5, 4 / 5, 2⟩ := by
  decide +kernel

/-- `set_equals_weights_keeps`, `set_equals_weights_fresh` -/
example : (patch.setEqualsWeights.map (·.weights)) = some [1, 1, 2, 1, 3, 1] ∧
    ((patch.setWeights []).setEqualsWeights.map (·.weights)) = some [1, 1, 1, 1, 1, 1] := by decide +kernel

/-- a segment in the plane y = 0, to revolve -/
noncomputable def meridian : Curve ℝ := ⟨1, [0, 0, 1, 1], [1, 1], [⟨3, 0, 0⟩, ⟨1, 0, 4⟩], 2, [⟨0, 0, 0⟩, ⟨0, 0, 0⟩], [0, 0]⟩

theorem meridian_valid : meridian.Valid 1 2 :=
  ⟨rfl, rfl, rfl, rfl, ⟨rfl, by simp [meridian], by
    intro i hi
    obtain rfl | rfl : i = 0 ∨ i = 1 := by omega
    all_goals simp [meridian], by
    intro i h1 h2
    obtain rfl | rfl : i = 2 ∨ i = 3 := by omega
    all_goals simp [meridian]⟩, by simp [meridian], by simp [meridian]⟩

/-- `revolve_spec`, `revolve_covers`: a truncated cone; the foot (3, 0, 0) is turned to (0, -3, 0) -/
example : ∃ S, revolve (1 / 1000) (Real.sqrt 2) meridian Surface.new = some S ∧ S.at (1 / 4) 0 = some ⟨0, -3, 0⟩ := by
  obtain ⟨S, e, _, _, _, _, _, _, h, _⟩ := revolve_spec meridian_valid (1 / 1000) sqrt_two sqrt_two_pos Surface.new
  refine ⟨S, e, ?_⟩
  rw [h 0, evaluate_zero meridian_valid (by simp [meridian, kn]) (by simp [meridian])]
  simp [meridian, turn]

/-- `revolve_independent` -/
example : ∃ s s', revolve (1 / 1000) (Real.sqrt 2) meridian Surface.new = some s ∧
    revolve (1 / 1000) (Real.sqrt 2) meridian s = some s' ∧ s.SameShape s' := by
  obtain ⟨s, _, e, _, _⟩ := revolve_independent meridian_valid (1 / 1000) (Real.sqrt 2) Surface.new Surface.new
  obtain ⟨t, s', e', e'', h⟩ := revolve_independent meridian_valid (1 / 1000) (Real.sqrt 2) Surface.new s
  rw [e] at e'
  obtain rfl := Option.some.inj e'
  exact ⟨s, s', e, e'', h⟩

/-- `circle_exact`, `circle_covers`: (3, 4, 0) is on the circle of radius 5, (4, 4, 0) is not -/
example : ∃ C, createCircle (Real.sqrt 2) 5 Curve.new = some C ∧ (∃ u, 0 ≤ u ∧ u ≤ 1 ∧ C.at u = some ⟨3, 4, 0⟩) ∧
    ¬ ∃ u, 0 ≤ u ∧ u ≤ 1 ∧ C.at u = some ⟨4, 4, 0⟩ := by
  obtain ⟨C, e, h⟩ := circle_covers 5 Curve.new
  exact ⟨C, e, (h _).2 (by norm_num), fun hn => absurd ((h _).1 hn) (by norm_num)⟩

/-- `disk_exact` -/
example : ∃ S, createDisk (1 / 1000) (Real.sqrt 2) 5 Surface.new = some S ∧ S.Hits ⟨3, 3, 0⟩ ∧ ¬ S.Hits ⟨4, 4, 0⟩ := by
  obtain ⟨S, e, _, h⟩ := disk_exact (1 / 1000) 5 Surface.new
  exact ⟨S, e, (h _).2 (by norm_num), fun hn => absurd ((h _).1 hn) (by norm_num)⟩

/-- `torus_equation`, `torus_exact`: the outermost point, the topmost one and the centre -/
example : ∃ S, createTorus (1 / 1000) (Real.sqrt 2) 3 1 Surface.new = some S ∧ S.Hits ⟨4, 0, 0⟩ ∧ S.Hits ⟨0, 3, 1⟩ ∧ ¬ S.Hits ⟨0, 0, 0⟩ := by
  obtain ⟨S, e, h⟩ := torus_exact (1 / 1000) 3 1 (by norm_num) Surface.new
  exact ⟨S, e, (h _).2 (by norm_num), (h _).2 (by norm_num), fun hn => absurd ((h _).1 hn) (by norm_num)⟩

/-- `cylinder_exact` -/
example : ∃ S1 S2 S3, createCylinder (1 / 1000) (Real.sqrt 2) 5 2 = some [S1, S2, S3] ∧ S1.Hits ⟨3, 3, -1⟩ ∧ S2.Hits ⟨3, 4, 0⟩ ∧
    S3.Hits ⟨0, 0, 1⟩ ∧ ¬ S2.Hits ⟨0, 0, 0⟩ := by
  obtain ⟨S1, S2, S3, e, h1, h2, h3⟩ := cylinder_exact (1 / 1000) 5 2 (by norm_num)
  exact ⟨S1, S2, S3, e, (h1 _).2 (by norm_num), (h2 _).2 (by norm_num), (h3 _).2 (by norm_num), fun hn => absurd ((h2 _).1 hn) (by norm_num)⟩

/-- `triangle_exact` -/
example : ((createTriangle (1 / 1000) (⟨0, 0, 0⟩ : P3 ℚ) ⟨4, 0, 0⟩ ⟨0, 0, 8⟩ Surface.new).bind fun S => S.at (1 / 2) (1 / 4)) =
    some ⟨3 / 2, 0, 2⟩ := by decide +kernel

/-- `box_exact`: a point of the top face, and the centre -/
example : ∃ B, createBox (1 / 1000 : ℚ) 2 4 6 = some B ∧ (∃ S ∈ B, S.Hits ⟨1 / 2, 1, 3⟩) ∧ ¬ ∃ S ∈ B, S.Hits ⟨0, 0, 0⟩ := by
  obtain ⟨B, e, _, h⟩ := box_exact (1 / 1000 : ℚ) (x := 2) (y := 4) (z := 6) (by norm_num) (by norm_num) (by norm_num)
  refine ⟨B, e, (h _).2 (by norm_num), fun hn => ?_⟩
  have := ((h _).1 hn).2
  norm_num at this

/-- `to_mesh_spec`, `to_mesh_boundary`, `to_mesh_triangles`: 2 segments per control point on `patch` -/
example : ((toMesh patch Mesh.new 2 true).map fun r => (r.2.nbVertices, r.2.nbTriangles, r.2.getVertex 0, r.2.getVertex 34)) =
    some (35, 48, some ⟨0, 0, 0⟩, some ⟨2, 1, 0⟩) := by decide +kernel

/-- `to_mesh_closed`: `patch` with both flags set -/
example : ∃ s' m', toMesh ({ patch with closedU := true, closedV := true } : Surface ℚ) Mesh.new (2 : Nat) true = some (s', m') ∧
    ClosedIds m'.cornerList :=
  to_mesh_closed (s := { patch with closedU := true, closedV := true }) (p := 2) (q := 1) (nu := 3) (nv := 2)
    ⟨rfl, rfl, rfl, rfl, rfl, rfl, patch_valid.knotsU, patch_valid.knotsV, by decide, by decide, by decide, by decide⟩
    patch_weights (by norm_num) Mesh.new (by norm_num) (by norm_num) rfl rfl

/-- `torus_mesh_closed`, `torus_mesh_watertight`, `sphere_mesh_watertight` -/
example : (∃ B m', createTorusSolid (1 / 1000) (Real.sqrt 2) 3 1 = some B ∧ toMeshSolid B Mesh.new (2 : Nat) = some m' ∧ m'.OK ∧
      ClosedSoup m'.triangles ∧ m'.triangles.length = 648) ∧
    ∃ B m', createSphereSolid (1 / 1000) (Real.sqrt 2) 3 = some B ∧ toMeshSolid B Mesh.new (2 : Nat) = some m' ∧ m'.OK ∧
      ClosedSoup m'.triangles ∧ m'.triangles.length = 360 :=
  ⟨torus_mesh_watertight (by norm_num) sqrt_two sqrt_two_pos 3 1 (by norm_num) Mesh.new,
    sphere_mesh_watertight _ sqrt_two sqrt_two_pos 3 (by norm_num) Mesh.new⟩

/-- `to_mesh_solid`, `controlpoints_mesh` (2 quads) -/
example : ((toMeshSolid [patch, patch] Mesh.new 1).map (·.nbTriangles)) = some 24 := by decide +kernel

/-- `to_mesh_nonpos` -/
example : toMesh patch Mesh.new (-1) true = some (patch, Mesh.new.clear) := to_mesh_nonpos patch Mesh.new true (by norm_num) (by decide) (by decide)

/-- `box_mesh_surface` -/
example : ∃ B m', createBox (1 / 1000 : ℝ) 1 2 3 = some B ∧ toMeshSolid B Mesh.new (2 : Nat) = some m' ∧ Measure.surface m' = some 22 := by
  obtain ⟨B, m', a, b, c⟩ := box_mesh_surface (x := 1) (y := 2) (z := 3) (tol := 1 / 1000) (by norm_num) (by norm_num) (by norm_num) (by norm_num) (k := 2) (by norm_num) Mesh.new
  exact ⟨B, m', a, b, by rw [c]; norm_num⟩

/-- `create_from_z_points`, `create_from_z_square_partial` -/
example : ((createFromZ ([1, 2, 3, 4, 5, 6, 7, 8, 9] : List ℚ) 3 3 2 Surface.new).map fun S => (S.points[5]?, S.pt 3 2 1, S.at 0 0)) =
    some (some ⟨1, 2, 6⟩, ⟨1, 2, 6⟩, some ⟨0, 0, 1⟩) := by decide +kernel

/-- `create_from_mesh_stored`, `create_from_mesh_partial`, `from_mesh_to_mesh`: two triangles back to back -/
example : ((pillow 1).bind fun m => (createFromMesh (1 / 1000000) m).bind fun B => (toMeshSolid B Mesh.new 1).map fun m' =>
    (B.length, m'.nbTriangles)) = some (2, 16) := by decide +kernel

/-- `solid_transform`: `patch` moved -/
example : (Solid.applyTransform [patch] (fun P => P + ⟨0, 0, 7⟩)).map (fun S => S.at (1 / 2) (1 / 3)) = [some ⟨10 / 9, 4 / 9, 8 / 9 + 7⟩] := by
  decide +kernel

/-- `move_point_right`: left of its support, moving the last point of `bend` changes nothing; `surfaces_join` etc. are in NurbsLocal -/
example : ({ bend with points := bend.points.set 0 ⟨9, 9, 9⟩ } : Curve ℚ).at (1 / 2) = bend.at (1 / 2) ∧
    ({ bend with points := bend.points.set 0 ⟨9, 9, 9⟩ } : Curve ℚ).at (1 / 6) ≠ bend.at (1 / 6) := by decide +kernel

end CAD.Examples
