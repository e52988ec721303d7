import Verif.Props.Vector
import Verif.Props.Plane
import Verif.Props.Segment
import Verif.Props.TriTri
import Verif.Props.Transform
import Verif.Props.PointOps
import Verif.Props.BoundingBox
import Verif.Props.BezierMesh

/-! Concrete cases for the theorems about points, planes, segments, triangles, transforms and
Bézier triangles. -/

namespace CAD.Examples
open Transform GeometryUtil

/-- `cross_orthogonal`, `cross_norm_square`, `cross_bilinear` -/
example : ((⟨1, 2, 3⟩ : P3 ℚ).cross ⟨4, 5, 6⟩) = ⟨-3, 6, -3⟩ ∧ ((⟨1, 2, 3⟩ : P3 ℚ).cross ⟨4, 5, 6⟩).normSq = 14 * 77 - 32 * 32 := by decide +kernel

/-- `normalized_spec`: a vector of length 13 -/
example : ∃ n, (⟨3, 4, 12⟩ : P3 ℝ).normalized = some n ∧ n.norm = 1 := by
  cases h : (⟨3, 4, 12⟩ : P3 ℝ).normalized with
  | none =>
    have := congrArg P3.x ((normalized_spec _).1.1 h)
    norm_num at this
  | some n => exact ⟨n, rfl, ((normalized_spec _).2 n h).1⟩

/-- `distance_square_spec`, `norm_triangle_ineq` -/
example : (⟨1, 2, 3⟩ : P3 ℚ).distSq ⟨2, 4, 5⟩ = 9 := by decide +kernel

/-- a triangle with three different corners on a line, and one that is not degenerate -/
theorem collinear : Collinear3 (⟨0, 0, 0⟩ : P3 ℝ) ⟨1, 2, 3⟩ ⟨2, 4, 6⟩ :=
  ⟨⟨0, 0, 0⟩, ⟨1, 2, 3⟩, 0, 1, 2, by simp [P3.ext_iff], by simp [P3.ext_iff], by simp [P3.ext_iff]; norm_num⟩

/-- `triangle_surface_zero_iff`, `triangle_normal_spec`, `plane_defined_iff`: the degenerate case -/
example : (⟨⟨0, 0, 0⟩, ⟨1, 2, 3⟩, ⟨2, 4, 6⟩⟩ : Tri3 ℝ).surface = 0 ∧ (⟨⟨0, 0, 0⟩, ⟨1, 2, 3⟩, ⟨2, 4, 6⟩⟩ : Tri3 ℝ).normal = none ∧
    Plane3.computeUsing (⟨0, 0, 0⟩ : P3 ℝ) ⟨1, 2, 3⟩ ⟨2, 4, 6⟩ = none :=
  ⟨(triangle_surface_zero_iff _).2 collinear, (triangle_normal_spec _).1.2 collinear, (plane_defined_iff _ _ _).2 collinear⟩

/-- `plane_projection`, `plane_projection_idem`: the plane 3x/5 + 4y/5 = 2 -/
example : OnPlane (⟨3 / 5, 4 / 5, 0, -2⟩ : Plane3 ℝ) ((⟨3 / 5, 4 / 5, 0, -2⟩ : Plane3 ℝ).projectPoint ⟨10, 0, 7⟩) := by
  refine (plane_projection _ ?_ _).1
  have : (⟨3 / 5, 4 / 5, 0⟩ : P3 ℝ).norm = 1 := by
    simp only [P3.norm, P3.normSq]
    norm_num
  exact this

/-- `plane_segment_iff`, `plane_segment_point`: a segment that crosses the plane at a third of its length -/
example : (⟨0, 0, 1, -1⟩ : Plane3 ℚ).intersectSeg ⟨⟨0, 0, 0⟩, ⟨3, 6, 3⟩⟩ = some ⟨1, 2, 1⟩ ∧
    (⟨0, 0, 1, -1⟩ : Plane3 ℚ).distanceTo ⟨0, 0, 0⟩ * (⟨0, 0, 1, -1⟩ : Plane3 ℚ).distanceTo ⟨3, 6, 3⟩ < 0 := by decide +kernel

/-- `plane_plane_iff`, `plane_plane_symm`, `plane_plane_partial`: two planes that meet in the line x = 1, z = 2 -/
example : (⟨1, 0, 0, -1⟩ : Plane3 ℚ).intersectPlane ⟨0, 0, 1, -2⟩ = true := by decide +kernel

/-- `segment_intersect_sound_partial`, `segment_intersect_complete`, `segment_intersect_iff` -/
example : (⟨⟨0, 0, 0⟩, ⟨2, 0, 0⟩⟩ : Seg3 ℚ).intersect ⟨⟨1, -1, 0⟩, ⟨1, 3, 0⟩⟩ = some ⟨1, 0, 0⟩ := by decide +kernel

theorem corner_nondegenerate : ¬ Collinear3 (⟨0, 0, 0⟩ : P3 ℝ) ⟨1, 0, 0⟩ ⟨0, 1, 0⟩ := by
  rintro ⟨o, d, a, b, c, h1, h2, h3⟩
  simp [P3.ext_iff] at h1 h2 h3
  have e1 : (b - a) * d.x = 1 := by linarith [h1.1, h2.1]
  have e2 : (b - a) * d.y = 0 := by linarith [h1.2.1, h2.2.1]
  have e3 : (c - a) * d.y = 1 := by linarith [h1.2.1, h3.2.1]
  rcases mul_eq_zero.1 e2 with h | h
  · rw [h] at e1; norm_num at e1
  · rw [h] at e3; norm_num at e3

/-- `contains_complete`, `contains_iff_partial`, `contains_iff_off_line`: a point on a side -/
example : (⟨⟨0, 0, 0⟩, ⟨1, 0, 0⟩, ⟨0, 1, 0⟩⟩ : Tri3 ℝ).contains ⟨1 / 3, 0, 0⟩ = true :=
  contains_complete _ _ ⟨2 / 3, 1 / 3, 0, by norm_num, by norm_num, le_rfl, by norm_num, by simp [P3.ext_iff]⟩

/-- `contains_false_positive` -/
example : ∃ q, InPlaneOf (⟨⟨0, 0, 0⟩, ⟨1, 0, 0⟩, ⟨0, 1, 0⟩⟩ : Tri3 ℝ) q ∧ (⟨⟨0, 0, 0⟩, ⟨1, 0, 0⟩, ⟨0, 1, 0⟩⟩ : Tri3 ℝ).contains q = true ∧
    ¬ InTriangle (⟨⟨0, 0, 0⟩, ⟨1, 0, 0⟩, ⟨0, 1, 0⟩⟩ : Tri3 ℝ) q := contains_false_positive _ corner_nondegenerate

/-- `tri_segment_complete`, `tri_segment_sound_partial`: a needle through the triangle -/
theorem needle : (⟨⟨0, 0, 0⟩, ⟨1, 0, 0⟩, ⟨0, 1, 0⟩⟩ : Tri3 ℝ).intersectSeg ⟨⟨1 / 4, 1 / 4, -1⟩, ⟨1 / 4, 1 / 4, 3⟩⟩ = some (some ⟨1 / 4, 1 / 4, 0⟩) := by
  refine tri_segment_complete _ _ _ corner_nondegenerate ?_ ⟨1 / 4, by norm_num, by norm_num, ?_⟩ ⟨1 / 2, 1 / 4, 1 / 4, ?_⟩
  · norm_num [Tri3.orthogonal, P3.cross, P3.dot]
  · norm_num [P3.ext_iff]
  · norm_num [P3.ext_iff]

/-- `tri_segment_not_crossing`: a segment on one side -/
example : (⟨⟨0, 0, 0⟩, ⟨1, 0, 0⟩, ⟨0, 1, 0⟩⟩ : Tri3 ℝ).intersectSeg ⟨⟨1 / 4, 1 / 4, 1⟩, ⟨1 / 4, 1 / 4, 3⟩⟩ = some none :=
  tri_segment_not_crossing _ _ corner_nondegenerate (by norm_num [Tri3.orthogonal, P3.cross, P3.dot])

/-- `rotation_matrix_spec`, `quaternion_eq_matrix`: half a radian about an axis of length 1 -/
example : ProperRotation (Mat.ofAngleAxis (1 / 2) (⟨2 / 3, 2 / 3, 1 / 3⟩ : P3 ℝ)).apply ∧
    ∀ p, (Quat.ofAngleAxis (1 / 2) (⟨2 / 3, 2 / 3, 1 / 3⟩ : P3 ℝ)).apply p = (Mat.ofAngleAxis (1 / 2) ⟨2 / 3, 2 / 3, 1 / 3⟩).apply p := by
  have h : (⟨2 / 3, 2 / 3, 1 / 3⟩ : P3 ℝ).normSq = 1 := by norm_num [P3.normSq]
  exact ⟨(rotation_matrix_spec _ 0 _ h 0).1, fun p => quaternion_eq_matrix _ _ h p⟩

/-- `quaternion_proper` -/
example : ProperRotation (⟨1 / 2, 1 / 2, 1 / 2, 1 / 2⟩ : Quat ℚ).apply := quaternion_proper _ (by norm_num)

/-- `matrix_proper`: x → y → z → x -/
example : ProperRotation (⟨0, 0, 1, 1, 0, 0, 0, 1, 0⟩ : Mat ℚ).apply := by
  refine matrix_proper _ ?_ ?_ ?_ ?_ ?_ ?_ <;> norm_num

/-- `matrix_rodrigues` -/
example : (Mat.ofCS (3 / 5) (4 / 5) (⟨0, 0, 1⟩ : P3 ℚ)).apply ⟨5, 0, 2⟩ = ⟨3, 4, 2⟩ := by decide +kernel

/-- `euler_isometry_partial`, `euler_reverses_orientation` -/
example : (euler 1 2 3 (⟨1, 0, 0⟩ : P3 ℝ)).distSq (euler 1 2 3 ⟨0, 1, 0⟩) = 2 := by
  rw [(euler_isometry_partial 1 2 3 _ _).2.1]
  norm_num [P3.distSq]

/-- `random_axis`: a generator that always draws 3 -/
example : ∃ u : P3 ℝ, u.norm = 1 ∧ ∀ (s : Store ℝ) (a : Nat),
    computeRandomAxis ⟨fun _ => (), fun _ => (3, ())⟩ s a 5 = some (Function.update s a u) := by
  rcases random_axis (σ := Unit) ⟨fun _ => (), fun _ => (3, ())⟩ 5 with ⟨u, h, -, h'⟩ | ⟨h, -⟩
  · exact ⟨u, h, h'⟩
  · norm_num at h

/-- `div_assign`, `assign_inverse` -/
example : (Store.divAssign (fun _ => (⟨2, 4, 6⟩ : P3 ℚ)) 1 2).map (fun s => (s 0, s 1)) = some (⟨2, 4, 6⟩, ⟨1, 2, 3⟩) := by decide +kernel

/-- `pixel_components` -/
example : Color.pixelRgb 1 2 3 = 0x010203 := by decide

/-- `bbox_contains_all`, `bbox_faces_touch`, `bbox_least`, `bbox_overlap_exact` -/
example : InBox (boxOf [⟨1, 5, 0⟩, ⟨3, 2, -1⟩] : BBox ℚ) ⟨3, 2, -1⟩ ∧ ∀ q, InBox (boxOf [⟨1, 5, 0⟩, ⟨3, 2, -1⟩] : BBox ℚ) q → InBox (⟨true, ⟨0, 0, -9⟩, ⟨9, 9, 9⟩⟩ : BBox ℚ) q := by
  refine ⟨bbox_contains_all _ _ (by simp), bbox_least _ (by simp) _ ?_⟩
  intro p hp
  simp only [List.mem_cons, List.not_mem_nil, or_false] at hp
  rcases hp with rfl | rfl <;> norm_num [InBox]

/-- `bernstein_nonneg` -/
example : 0 ≤ Bezier.b13 (1 / 3 : ℚ) := by
  obtain ⟨-, -, -, -, -, -, h, -⟩ := bernstein_nonneg (1 / 3 : ℚ) (by norm_num) (by norm_num)
  exact h

end CAD.Examples
