import Verif.Props.Checks
import Verif.Props.Weld
import Verif.Props.SmoothSolids
import Verif.Props.Volumes
import Verif.Props.Kernels
import Verif.Props.MergeStable
import Verif.Props.GeodesicClosed

/-! Concrete cases for the theorems about meshes: each `example` names the theorem whose
hypotheses it meets. -/

namespace CAD.Examples
open Mesh Factory MeshUtil Tessellate

/-- a square in the plane z = 0 cut in two triangles, and the point above its centre -/
noncomputable def square : Mesh ℝ := Mesh.new.build [⟨0, 0, 0⟩, ⟨2, 0, 0⟩, ⟨2, 2, 0⟩, ⟨0, 2, 0⟩, ⟨1, 1, 0⟩, ⟨1, 1, 3⟩] [(0, 1, 2), (2, 3, 0)]

theorem square_ok : square.OK := build_ok _ (by decide)
theorem square_linked : square.isTriangleUnlinked 0 = some false := rfl
theorem square_tri : square.getTriangle 0 = some ⟨⟨0, 0, 0⟩, ⟨2, 0, 0⟩, ⟨2, 2, 0⟩⟩ := rfl
theorem square_vertex : square.getVertex 4 = some ⟨1, 1, 0⟩ := rfl

/-- a box of 2 × 3 × 4 -/
theorem box234 : ∃ r : Mesh ℝ, createBox 2 3 4 Mesh.new = some r ∧ r.OK ∧ ClosedSoup r.triangles ∧
    Measure.volume r = some 24 ∧ ∃ S, Measure.surface r = some S := by
  obtain ⟨r, h, p, -, -, v⟩ := box_spec (2 : ℝ) 3 4 Mesh.new
  exact ⟨r, h, p.ok, closedSoup_of_ids p.ok p.closed, by rw [v]; norm_num, _, surface_is_sum r p.ok⟩

/-! ### histories -/

/-- `mesh_history_refines`: a history with an unlink, where neither side is undefined -/
example : ∃ m a ids, Mesh.run sampleOps = some (m, ids) ∧ AMesh.run sampleOps = some (a, ids) ∧ Answers m a := by
  rcases mesh_history_refines sampleOps with ⟨h, -⟩ | h
  · exact absurd h (by decide +kernel)
  · exact h

/-- `mesh_history_refines`: a history that breaks a precondition on both sides -/
example : Mesh.run ([.addVertex ⟨0, 0, 0⟩, .addTriangle 0 0 1] : List (MOp ℚ)) = none ∧
    AMesh.run ([.addVertex ⟨0, 0, 0⟩, .addTriangle 0 0 1] : List (MOp ℚ)) = none := by decide +kernel

/-- `mesh_indices_valid`, `mesh_triangle_calls_defined` -/
example : ∃ m ids, Mesh.run tetraOps = some (m, ids) ∧ (m.flipTriangle 2).isSome ∧ ∃ a b c, m.getTriangleVertices 2 = some (a, b, c) ∧
    a < m.nbVertices := by
  obtain ⟨⟨m, ids⟩, h⟩ := Option.isSome_iff_exists.1 (by decide +kernel : (Mesh.run tetraOps).isSome)
  have hn : (Mesh.run tetraOps).map (fun r => r.1.nbTriangles) = some 4 := by decide +kernel
  rw [h] at hn
  have hi : (0 : Int) ≤ 2 ∧ 2 < m.nbTriangles := by
    have : m.nbTriangles = 4 := Option.some.inj hn
    omega
  obtain ⟨a, b, c, -, -, -, e, ha, -⟩ := mesh_indices_valid tetraOps m ids h 2 hi
  exact ⟨m, ids, h, (mesh_triangle_calls_defined tetraOps m ids h 2 hi).2.1, a, b, c, e, ha.2⟩

/-- `mesh_ids_stable`, `mesh_ids_distinct`: calls after which the ids of the tetrahedron are still valid -/
example : ∀ op ∈ ([.addVertex ⟨5, 5, 5⟩, .unlinkTriangle 1, .flipTriangle 0, .addTriangle 0 1 4] : List (MOp ℚ)), ¬ op.Resets ∧ ¬ op.Moves := by
  intro op h
  simp only [List.mem_cons, List.not_mem_nil, or_false] at h
  rcases h with rfl | rfl | rfl | rfl <;> exact ⟨id, id⟩

example : ((Mesh.run tetraOps).bind fun r => (r.1.runFrom [.addVertex ⟨5, 5, 5⟩, .unlinkTriangle 1, .flipTriangle 0, .addTriangle 0 1 4]).map fun r' =>
    (r'.1.nbVertices, r'.1.nbTriangles, r'.2)) = some (5, 6, [4, 0, 0, 5]) := by decide +kernel

/-- `mesh_new_triangle_fresh` -/
example : ((Mesh.run tetraOps).bind fun r => (r.1.addTriangle 1 2 3).map fun x => x.2) = some 4 := by decide +kernel

/-- `mesh_copy_spec_partial`: the copy of a mesh with an unlinked triangle has one triangle less -/
example : ((Mesh.run (tetraOps ++ [.unlinkTriangle 1])).bind fun r => (Mesh.copyConstruct 77 r.1).map fun c =>
    (r.1.nbTriangles, c.nbTriangles, c.nbVertices)) = some (4, 3, 4) := by decide +kernel

/-- `mesh_append_spec_partial`: a tetrahedron appended to a tetrahedron -/
example : ((Mesh.run tetraOps).bind fun r => (r.1.addMesh r.1).map fun c =>
    (c.nbTriangles, c.nbVertices, c.getTriangleVertices 5)) = some (8, 8, some (4, 5, 7)) := by decide +kernel

/-- `mesh_self_append_diverges` -/
example (fuel : Nat) : ∃ i s, addMeshSelf fuel square = .running i s := mesh_self_append_diverges square (by decide) fuel

/-- `mesh_transform_comp` -/
example : ((square.applyTransform (Transform.translation ⟨1, 0, 0⟩)).bind fun m => m.applyTransform (Transform.scale 2 2 2)) =
    square.applyTransform (Transform.scale 2 2 2 ∘ Transform.translation ⟨1, 0, 0⟩) := mesh_transform_comp _ _ _

/-- `kernels_agree`, `half_edge_stores_nothing`: one history on the three kernels -/
example : ((vtLT ℚ).run [.addVertex ⟨0, 0, 0⟩, .addVertex ⟨1, 0, 0⟩, .addVertex ⟨0, 1, 0⟩, .addTriangle 0 1 2]).map (·.2) = some [0, 1, 2, 0] ∧
    ((vtTIN ℚ).run [.addVertex ⟨0, 0, 0⟩, .addVertex ⟨1, 0, 0⟩, .addVertex ⟨0, 1, 0⟩, .addTriangle 0 1 2]).map (·.2) = some [0, 1, 2, 0] ∧
    ((vtHE ℚ).run [.addVertex ⟨0, 0, 0⟩, .addVertex ⟨1, 0, 0⟩, .addVertex ⟨0, 1, 0⟩, .addTriangle 0 1 2]).isSome := by decide +kernel

/-! ### polygons, splitting and flipping -/

/-- `add_quad_triangles`, `quad_covers`: a square beside the first one -/
example : ∃ m', square.addQuad 0 1 2 5 = some m' ∧ m'.OK ∧
    m'.triangles = square.triangles ++ [⟨⟨0, 0, 0⟩, ⟨2, 0, 0⟩, ⟨2, 2, 0⟩⟩, ⟨⟨2, 2, 0⟩, ⟨1, 1, 3⟩, ⟨0, 0, 0⟩⟩] :=
  add_quad_triangles square square_ok 0 1 2 5 _ _ _ _ rfl rfl rfl rfl

/-- `add_pentagon_triangles` -/
example : ∃ m', square.addPentagon 0 1 2 5 3 = some m' ∧ m'.OK ∧ m'.triangles = square.triangles ++
    [⟨⟨0, 0, 0⟩, ⟨2, 0, 0⟩, ⟨2, 2, 0⟩⟩, ⟨⟨2, 2, 0⟩, ⟨1, 1, 3⟩, ⟨0, 2, 0⟩⟩, ⟨⟨0, 0, 0⟩, ⟨2, 2, 0⟩, ⟨0, 2, 0⟩⟩] :=
  add_pentagon_triangles square square_ok 0 1 2 5 3 _ _ _ _ _ rfl rfl rfl rfl rfl

/-- `quad_covers`, `pentagon_covers`: the hypotheses of the last part hold for points of one plane -/
example : InPlaneOf (K := ℚ) ⟨⟨0, 0, 0⟩, ⟨2, 0, 0⟩, ⟨2, 2, 0⟩⟩ ⟨0, 2, 0⟩ ∧ InPlaneOf (K := ℚ) ⟨⟨0, 0, 0⟩, ⟨2, 0, 0⟩, ⟨2, 2, 0⟩⟩ ⟨1, 1 / 2, 0⟩ := by
  constructor
  · exact ⟨1, -1, 1, by norm_num, by decide +kernel⟩
  · exact ⟨1 / 2, 1 / 4, 1 / 4, by norm_num, by decide +kernel⟩

/-- `add_quad_points_optimal` -/
example : ∃ m' t u, square.addQuadPts ⟨0, 0, 0⟩ ⟨1, 0, 0⟩ ⟨1, 1, 1⟩ ⟨0, 1, 0⟩ true = some m' ∧ m'.OK ∧ m'.triangles = square.triangles ++ [t, u] := by
  obtain ⟨m', t, u, h1, h2, h3, -⟩ := add_quad_points_optimal square square_ok ⟨0, 0, 0⟩ ⟨1, 0, 0⟩ ⟨1, 1, 1⟩ ⟨0, 1, 0⟩ true
  exact ⟨m', t, u, h1, h2, h3⟩

/-- the midpoint of the diagonal lies in the first triangle of the square -/
theorem centre_in : InTriangle (⟨⟨0, 0, 0⟩, ⟨2, 0, 0⟩, ⟨2, 2, 0⟩⟩ : Tri3 ℝ) ⟨1, 1, 0⟩ :=
  ⟨1 / 2, 0, 1 / 2, by norm_num, le_rfl, by norm_num, by norm_num, by simp [P3.ext_iff]⟩

/-- `split_vertex_triangles`, `split_vertex_surface`: the first half of the square split at the centre -/
example : ∃ m', square.splitTriangleWithVertex 0 4 = some m' ∧ m'.OK ∧ Measure.surface m' = Measure.surface square := by
  obtain ⟨m', rest, h, ok, -⟩ := split_vertex_triangles square square_ok 0 4 _ _ _ _ square_linked square_tri square_vertex
  exact ⟨m', h, ok, split_vertex_surface square m' square_ok 0 4 _ _ square_linked square_tri square_vertex h centre_in⟩

/-- `split_point_triangles` with a point off the plane -/
example : ∃ m' rest, square.splitTriangleWithPoint 0 ⟨1, 1 / 2, 7⟩ = some m' ∧ m'.OK ∧ m'.nbVertices = square.nbVertices + 1 ∧
    square.triangles.Perm (⟨⟨0, 0, 0⟩, ⟨2, 0, 0⟩, ⟨2, 2, 0⟩⟩ :: rest) ∧ m'.triangles.Perm
      ([⟨⟨0, 0, 0⟩, ⟨2, 0, 0⟩, ⟨1, 1 / 2, 7⟩⟩, ⟨⟨2, 0, 0⟩, ⟨2, 2, 0⟩, ⟨1, 1 / 2, 7⟩⟩, ⟨⟨2, 2, 0⟩, ⟨0, 0, 0⟩, ⟨1, 1 / 2, 7⟩⟩] ++ rest) :=
  split_point_triangles square square_ok 0 _ _ _ ⟨1, 1 / 2, 7⟩ square_linked square_tri

/-- `split_vertex_volume` -/
example : ∃ m', square.splitTriangleWithVertex 0 4 = some m' ∧ Measure.volume m' = Measure.volume square := by
  obtain ⟨m', rest, h, -⟩ := split_vertex_triangles square square_ok 0 4 _ _ _ _ square_linked square_tri square_vertex
  obtain ⟨a, b, c, -, -, -, e⟩ := centre_in
  exact ⟨m', h, split_vertex_volume square m' square_ok 0 4 _ _ square_linked square_tri square_vertex h ⟨a, b, c, e⟩⟩

/-- `split_edge_area_partial`, `split_edge_changes_area`: the diagonal of the square split at the centre -/
example : ∃ m', square.splitEdgeWithVertex 0 1 2 0 4 = some m' ∧ (m'.triangles.map Tri3.vecArea).sum ≠ (square.triangles.map Tri3.vecArea).sum := by
  have h : ∃ m', square.splitEdgeWithVertex 0 1 2 0 4 = some m' := ⟨_, rfl⟩
  obtain ⟨m', h⟩ := h
  refine ⟨m', h, split_edge_changes_area square m' square_ok 0 1 2 0 1 3 4 (0, 1, 2) (2, 3, 0) ⟨2, 2, 0⟩ ⟨0, 0, 0⟩ ⟨2, 0, 0⟩ ⟨0, 2, 0⟩ (1 / 2)
    (by decide) rfl rfl (by decide) (by decide) (by decide) rfl rfl (by decide) (by decide) rfl rfl rfl rfl ?_ h (by norm_num) ?_ ?_⟩
  · rw [square_vertex]
    simp [P3.ext_iff]
    norm_num
  · intro hc
    have := congrArg P3.z hc
    simp [Tri3.vecArea, P3.cross] at this
  · simp [Tri3.vecArea, P3.cross, P3.dot]

/-- the square with the diagonal first in both triangles -/
noncomputable def square' : Mesh ℝ := Mesh.new.build [⟨0, 0, 0⟩, ⟨2, 0, 0⟩, ⟨2, 2, 0⟩, ⟨0, 2, 0⟩, ⟨1, 1, 0⟩] [(2, 0, 1), (0, 2, 3)]

/-- `split_edge_undefined` -/
example : square'.splitEdgeWithVertex 1 0 0 2 4 = none :=
  split_edge_undefined square' (build_ok _ (by decide)) 1 0 0 2 1 4 (by decide) (by decide) (by decide)

/-- `flip_triangles`, `flip_measures` -/
example : ∃ m', square.flipTriangle 0 = some m' ∧ m'.OK ∧ Measure.surface m' = Measure.surface square ∧
    m'.getTriangle 2 = some ⟨⟨0, 0, 0⟩, ⟨2, 2, 0⟩, ⟨2, 0, 0⟩⟩ := by
  obtain ⟨m', rest, h, ok, -, -, -, -, ht, -⟩ := flip_triangles square square_ok 0 _ _ _ square_linked square_tri
  obtain ⟨V, -, -, hS, -⟩ := flip_measures square m' square_ok 0 _ square_linked square_tri h
  exact ⟨m', h, ok, hS, ht⟩

/-! ### measures -/

theorem square_volume : Measure.volume square = some 0 := by
  rw [measures_are_sums square square_ok]
  simp [show square.triangles = [⟨⟨0, 0, 0⟩, ⟨2, 0, 0⟩, ⟨2, 2, 0⟩⟩, ⟨⟨2, 2, 0⟩, ⟨0, 2, 0⟩, ⟨0, 0, 0⟩⟩] from rfl, det3]

/-- `surface_is_sum`: the square has area 4 -/
theorem square_surface : Measure.surface square = some 4 := by
  rw [surface_is_sum square square_ok]
  have : (16 : ℝ) = 4 ^ 2 := by norm_num
  simp [show square.triangles = [⟨⟨0, 0, 0⟩, ⟨2, 0, 0⟩, ⟨2, 2, 0⟩⟩, ⟨⟨2, 2, 0⟩, ⟨0, 2, 0⟩, ⟨0, 0, 0⟩⟩] from rfl, Tri3.surface, P3.norm, Tri3.orthogonal, P3.cross]
  norm_num [this]

/-- `measures_are_sums`, `unlink_measures`: half of the square unlinked -/
example : ∃ m', square.unlinkTriangle 0 = some m' ∧ Measure.surface m' = some (4 - (⟨⟨0, 0, 0⟩, ⟨2, 0, 0⟩, ⟨2, 2, 0⟩⟩ : Tri3 ℝ).surface) := by
  have h : ∃ m', square.unlinkTriangle 0 = some m' := ⟨_, rfl⟩
  obtain ⟨m', h⟩ := h
  exact ⟨m', h, ((unlink_measures square m' square_ok 0 _ square_tri h 0 4 square_volume square_surface).1 square_linked).2⟩

/-- `add_triangle_measures`: a triangle up to the point above the centre -/
example : ∃ m' id, square.addTriangle 1 2 5 = some (m', id) ∧ Measure.volume m' = some (0 + det3 ⟨2, 0, 0⟩ ⟨2, 2, 0⟩ ⟨1, 1, 3⟩ / 6) := by
  have h : ∃ m' id, square.addTriangle 1 2 5 = some (m', id) := ⟨_, _, rfl⟩
  obtain ⟨m', id, h⟩ := h
  exact ⟨m', id, h, (add_triangle_measures square m' square_ok 1 2 5 id _ _ _ rfl rfl rfl h 0 4 square_volume square_surface).2.1⟩

/-- `copy_measures` -/
example : ∃ m', Mesh.new.assign square = some m' ∧ Measure.surface m' = some 4 := by
  have h : ∃ m', (Mesh.new : Mesh ℝ).assign square = some m' := ⟨_, rfl⟩
  obtain ⟨m', h⟩ := h
  exact ⟨m', h, by rw [(copy_measures Mesh.new square m' new_ok square_ok h).2.2, square_surface]⟩

/-- `append_measures` -/
example : ∃ m', square.addMesh square' = some m' ∧ ∀ W, Measure.surface square' = some W → Measure.surface m' = some (4 + W) := by
  have h : ∃ m', square.addMesh square' = some m' := ⟨_, rfl⟩
  obtain ⟨m', h⟩ := h
  exact ⟨m', h, fun W hW => (append_measures square square' m' square_ok (build_ok _ (by decide)) h).2.2 4 W square_surface hW⟩

theorem moved (r : Mesh ℝ) (f : P3 ℝ → P3 ℝ) : ∃ r', r.applyTransform f = some r' := by
  obtain ⟨r', h, -⟩ := mesh_transform_spec r _ (answers_view r) f
  exact ⟨r', h⟩

/-- `volume_translation`, `transform_triangles`: the box moved -/
example : ∃ r r', createBox (2 : ℝ) 3 4 Mesh.new = some r ∧ r.applyTransform (Transform.translation ⟨1, 2, 3⟩) = some r' ∧
    Measure.volume r' = some 24 ∧ ClosedSoup r'.triangles := by
  obtain ⟨r, h, ok, c, v, -⟩ := box234
  obtain ⟨r', h'⟩ := moved r (Transform.translation ⟨1, 2, 3⟩)
  exact ⟨r, r', h, h', by rw [volume_translation r r' ok c _ h', v], (transform_triangles r r' _ h').2 c⟩

/-- `volume_scale`: the box stretched and mirrored -/
example : ∃ r r', createBox (2 : ℝ) 3 4 Mesh.new = some r ∧ r.applyTransform (Transform.scale 2 (-1) 5) = some r' ∧ Measure.volume r' = some (-240) := by
  obtain ⟨r, h, ok, c, v, -⟩ := box234
  obtain ⟨r', h'⟩ := moved r (Transform.scale 2 (-1) 5)
  exact ⟨r, r', h, h', by rw [volume_scale r r' ok _ _ _ h' 24 v]; norm_num⟩

/-- `volume_affine`: a shear -/
example : ∃ r r', createBox (2 : ℝ) 3 4 Mesh.new = some r ∧ r.applyTransform (affine ⟨1, 3, 0⟩ ⟨0, 1, 0⟩ ⟨0, 0, 1⟩ ⟨5, 0, 0⟩) = some r' ∧
    Measure.volume r' = some 24 := by
  obtain ⟨r, h, ok, c, v, -⟩ := box234
  obtain ⟨r', h'⟩ := moved r (affine ⟨1, 3, 0⟩ ⟨0, 1, 0⟩ ⟨0, 0, 1⟩ ⟨5, 0, 0⟩)
  exact ⟨r, r', h, h', by rw [volume_affine r r' ok c _ _ _ _ h' 24 v]; norm_num [det3]⟩

/-- `volume_isometry`: a turn by the angle with cosine 3/5, and a mirror -/
example : ∃ r r' r'', createBox (2 : ℝ) 3 4 Mesh.new = some r ∧
    r.applyTransform (affine ⟨3 / 5, -4 / 5, 0⟩ ⟨4 / 5, 3 / 5, 0⟩ ⟨0, 0, 1⟩ ⟨5, 0, 0⟩) = some r' ∧ Measure.volume r' = some 24 ∧
    r.applyTransform (affine ⟨1, 0, 0⟩ ⟨0, 1, 0⟩ ⟨0, 0, -1⟩ ⟨0, 0, 9⟩) = some r'' ∧ Measure.volume r'' = some (-24) := by
  obtain ⟨r, h, ok, c, v, -⟩ := box234
  obtain ⟨r', h'⟩ := moved r (affine ⟨3 / 5, -4 / 5, 0⟩ ⟨4 / 5, 3 / 5, 0⟩ ⟨0, 0, 1⟩ ⟨5, 0, 0⟩)
  obtain ⟨r'', h''⟩ := moved r (affine ⟨1, 0, 0⟩ ⟨0, 1, 0⟩ ⟨0, 0, -1⟩ ⟨0, 0, 9⟩)
  refine ⟨r, r', r'', h, h', ?_, h'', ?_⟩
  · refine (volume_isometry r r' ok c _ _ _ _ ?_ ?_ ?_ ?_ ?_ ?_ h' 24 v).1 ?_ <;> norm_num [P3.dot, det3]
  · refine (volume_isometry r r'' ok c _ _ _ _ ?_ ?_ ?_ ?_ ?_ ?_ h'' 24 v).2 ?_ <;> norm_num [P3.dot, det3]

/-- `surface_rigid`, `surface_similar`: the square three times as large -/
example : ∃ r', square.applyTransform (Transform.scale 3 3 3) = some r' ∧ Measure.surface r' = some (3 ^ 2 * 4) := by
  obtain ⟨r', h'⟩ := moved square (Transform.scale 3 3 3)
  exact ⟨r', h', (surface_rigid square r' square_ok 4 square_surface).2.1 3 h'⟩

example (p q : P3 ℝ) : (Transform.scale 3 3 3 p).distSq (Transform.scale 3 3 3 q) = (-3) ^ 2 * p.distSq q := by
  simp [Transform.scale, P3.distSq, P3.normSq]
  ring

/-- `surface_nonneg_zero`, `no_degenerated_exact`: the square is not degenerate -/
example : ¬ ∀ t ∈ square.triangles, Collinear3 t.p1 t.p2 t.p3 := by
  intro h
  exact absurd ((surface_nonneg_zero square square_ok 4 square_surface).2.2 h) (by norm_num)

/-- `is_closed_iff_empty`, `is_closed_partial`: an open mesh -/
example : ∃ b, Measure.isClosed square = some b ∧ (b = true ↔ square.triangles = []) := is_closed_iff_empty square square_ok

/-- `is_clean_never` -/
example : Measure.isClean square = some false := is_clean_never square square_ok (by simp [show square.triangles = _ :: _ from rfl])

/-- `oriented_outside_iff`, `oriented_outside_moved`: the box mirrored -/
example : ∃ r r', createBox (2 : ℝ) 3 4 Mesh.new = some r ∧ r.applyTransform (affine ⟨1, 0, 0⟩ ⟨0, 1, 0⟩ ⟨0, 0, -1⟩ ⟨0, 0, 9⟩) = some r' ∧
    Measure.isOrientedOutside r' = (Measure.isOrientedOutside r).map (! ·) := by
  obtain ⟨r, h, ok, c, v, -⟩ := box234
  obtain ⟨r', h'⟩ := moved r (affine ⟨1, 0, 0⟩ ⟨0, 1, 0⟩ ⟨0, 0, -1⟩ ⟨0, 0, 9⟩)
  exact ⟨r, r', h, h', (oriented_outside_moved r r' ok c _ _ _ _ h').2 (by norm_num [det3]) (by rw [v]; norm_num)⟩

/-! ### tessellation and merging -/

/-- `tessellate_volume`, `tessellate_surface`, `tessellate_closed`, `tessellate_same_shape`, `tessellate_vertices`:
the box with every edge cut in three -/
example : ∃ b r, createBox (2 : ℝ) 3 4 Mesh.new = some b ∧ compute b 3 Mesh.new = some r ∧ Measure.volume r = some 24 ∧
    Measure.surface r = Measure.surface b ∧ ClosedSoup r.triangles ∧
    (∀ q, (∃ t ∈ r.triangles, InTriangle t q) ↔ ∃ t ∈ b.triangles, InTriangle t q) ∧
    ∀ i p, r.getVertex i = some p → ∃ t ∈ b.triangles, InTriangle t p := by
  obtain ⟨b, h, ok, c, v, -⟩ := box234
  obtain ⟨r, hr, -, hv⟩ := tessellate_volume b Mesh.new ok 3 (by norm_num)
  obtain ⟨r', hr', -, hs⟩ := tessellate_surface b Mesh.new ok 3 (by norm_num)
  rw [hr] at hr'
  obtain rfl := Option.some.inj hr'
  exact ⟨b, r, h, hr, by rw [hv, v], hs, tessellate_closed b _ r ok 3 hr c, (tessellate_same_shape b _ r ok 3 (by norm_num) hr).1,
    tessellate_vertices b _ r ok 3 hr⟩

/-- `tessellate_counts` -/
example : ∃ b r, createBox (2 : ℝ) 3 4 Mesh.new = some b ∧ compute b 3 Mesh.new = some r ∧ r.nbTriangles = 12 * 9 ∧ r.nbVertices = 12 * 27 := by
  obtain ⟨b, h, p, -⟩ := box_spec (2 : ℝ) 3 4 Mesh.new
  obtain ⟨r, hr, ht, hv, -⟩ := tessellate_counts b Mesh.new p.ok 3
  have hl : b.triangles.length = 12 := by
    obtain ⟨b', h', -, e⟩ := box_tris (2 : ℝ) 3 4 Mesh.new
    rw [h] at h'
    obtain rfl := Option.some.inj h'
    rw [e]
    rfl
  rw [hl] at ht
  norm_num at ht
  exact ⟨b, r, h, hr, by rw [ht]; norm_num, by rw [hv, ht]; norm_num⟩

/-- two triangles of the plane with a side in common, as separate points -/
noncomputable def soup : Mesh ℝ := Mesh.new.build [⟨0, 0, 0⟩, ⟨2, 0, 0⟩, ⟨2, 2, 0⟩, ⟨2, 2, 0⟩, ⟨0, 2, 0⟩, ⟨0, 0, 0⟩] [(0, 1, 2), (3, 4, 5)]

theorem soup_ok : soup.OK := build_ok _ (by decide)

/-- `merge_respects_tolerance`, `merge_keeps_triangles`, `merge_idempotent`, `merge_zero` -/
example : ∃ r, mergeVertices soup (1 / 2) = some r ∧ r.OK ∧ r.nbTriangles = 2 ∧ mergeVertices r (1 / 2) = some r ∧
    ∀ i j p q, i ≠ j → r.getVertex i = some p → r.getVertex j = some q → 1 / 2 * (1 / 2) ≤ p.distSq q := by
  obtain ⟨r, h, ok, n, -⟩ := merge_keeps_triangles soup soup_ok (1 / 2)
  obtain ⟨r', h', a, -⟩ := merge_respects_tolerance 0 soup soup_ok (1 / 2)
  rw [show mergeVerticesJunk 0 soup (1 / 2) = some r from h] at h'
  obtain rfl := Option.some.inj h'
  exact ⟨r, h, ok, n, merge_idempotent soup r soup_ok _ h, a⟩

/-- `merge_far`: vertices of the square are at least 1 apart -/
theorem square_far : ∀ i j p q, i ≠ j → square'.getVertex i = some p → square'.getVertex j = some q → (1 : ℝ) * 1 ≤ p.distSq q := by
  intro i j p q hij hp hq
  unfold square' at hp hq
  rw [build_getVertex] at hp hq
  obtain ⟨a, ha, hp⟩ := getI_eq_some_iff.1 hp
  obtain ⟨b, hb, hq⟩ := getI_eq_some_iff.1 hq
  have la : a < 5 := by simpa using (List.getElem?_eq_some_iff.1 hp).1
  have lb : b < 5 := by simpa using (List.getElem?_eq_some_iff.1 hq).1
  have hab : a ≠ b := by rintro rfl; omega
  clear hij ha hb
  interval_cases a <;> interval_cases b <;> simp at hab hp hq <;> subst hp hq <;> norm_num [P3.distSq]

example : mergeVertices square' 1 = some ((square'.clear.pushPts square'.kern.verts).pushTris square'.view.linkedCorners) :=
  merge_far square' (build_ok _ (by decide)) 1 square_far

/-- `merge_closed_partial`: near is transitive when all distances are at least the tolerance or zero -/
example : ∃ r, mergeVertices square' 1 = some r ∧ ∃ F : P3 ℝ → P3 ℝ, r.triangles = square'.triangles.map (Tri3.map F) := by
  obtain ⟨r, h, hF, -⟩ := merge_closed_partial square' (build_ok _ (by decide)) 1 (by
    intro i j k p q s hp hq hs h1 h2
    have e : i = j := by
      by_contra hij
      exact absurd (square_far i j p q hij hp hq) (not_le.2 h1)
    subst e
    rw [hp] at hq
    obtain rfl := Option.some.inj hq
    exact h2)
  exact ⟨r, h, hF⟩

/-- `remove_empty_exact`: the square has no edge shorter than 1 -/
example : ∃ r, removeEmptyTriangles square 1 = some r ∧ r.OK ∧ removeEmptyTriangles r 1 = some r := by
  obtain ⟨r, h, ok, -, -, -, -, -, -, e⟩ := remove_empty_exact square square_ok 1
  exact ⟨r, h, ok, e⟩

/-- `merge_welds`, `closedIds_iff_points`: the two triangles are put together -/
example : ∃ r, mergeVertices soup 1 = some r ∧ r.OK ∧ r.triangles = soup.triangles ∧ DistinctPositions r := by
  have hs : Separated soup 1 := by
    intro i j p q hp hq hne
    unfold soup at hp hq
    rw [build_getVertex] at hp hq
    obtain ⟨a, -, hp⟩ := getI_eq_some_iff.1 hp
    obtain ⟨b, -, hq⟩ := getI_eq_some_iff.1 hq
    have la : a < 6 := by simpa using (List.getElem?_eq_some_iff.1 hp).1
    have lb : b < 6 := by simpa using (List.getElem?_eq_some_iff.1 hq).1
    interval_cases a <;> interval_cases b <;> simp at hp hq <;> subst hp hq <;> first | exact absurd rfl hne | norm_num [P3.distSq]
  obtain ⟨r, h, ok, e, d, -⟩ := merge_welds soup soup_ok 1 (by norm_num) hs
  exact ⟨r, h, ok, e, d⟩

/-! ### shapes -/

/-- `create_from_grid_spec` -/
example : ∃ r, createFromGrid [(⟨0, 0, 5⟩ : P3 ℚ), ⟨1, 0, 6⟩, ⟨0, 1, 7⟩, ⟨1, 1, 8⟩, ⟨0, 2, 9⟩, ⟨1, 2, 0⟩] 2 3 Mesh.new = some r ∧ GridTopology 2 3 r := by
  obtain ⟨r, h, g, -⟩ := (create_from_grid_spec [(⟨0, 0, 5⟩ : P3 ℚ), ⟨1, 0, 6⟩, ⟨0, 1, 7⟩, ⟨1, 1, 8⟩, ⟨0, 2, 9⟩, ⟨1, 2, 0⟩] 2 3 (by norm_num) (by norm_num) Mesh.new).1 rfl
  exact ⟨r, h, g⟩

/-- `create_from_z_spec` -/
example : ∃ r, createFromZ [1, 2, 3, 4, 5, (6 : ℚ)] 3 2 Mesh.new = some r ∧ GridTopology 3 2 r ∧ r.getVertex (2 + 3 * 1) = some ⟨2, 1, 6⟩ := by
  obtain ⟨r, h, g, v, -⟩ := (create_from_z_spec [1, 2, 3, 4, 5, (6 : ℚ)] 3 2 (by norm_num) (by norm_num) Mesh.new).1 rfl
  exact ⟨r, h, g, by rw [v 2 1 (by norm_num) (by norm_num) (by norm_num) (by norm_num)]; rfl⟩

/-- `tetrahedron_spec`, `octahedron_spec` -/
example : ∃ r, createTetrahedron (3 : ℚ) Mesh.new = some r ∧ Polyhedron 4 6 4 r ∧ Measure.volume r = some 72 := by
  obtain ⟨r, h, p, -, -, -, v⟩ := tetrahedron_spec (3 : ℚ) Mesh.new
  exact ⟨r, h, p, by rw [v]; norm_num⟩

example : (createOctahedron (3 : ℚ) Mesh.new).bind Measure.volume = some 36 := by decide +kernel

/-- `icosahedron_spec`, `dodecahedron_spec` -/
example : ∃ r, createIcosahedron 2 Mesh.new = some r ∧ Polyhedron 12 30 20 r := by
  obtain ⟨r, h, p, -⟩ := icosahedron_spec 2 Mesh.new
  exact ⟨r, h, p⟩

example : ∃ r, createDodecahedron 2 Mesh.new = some r ∧ Polyhedron 20 54 36 r := by
  obtain ⟨r, h, p, -⟩ := dodecahedron_spec 2 Mesh.new
  exact ⟨r, h, p⟩

/-- `torus_spec`, `sphere_uv_spec`, `cylinder_spec_partial`, `cylinder_degenerate` -/
example : (∃ x, createTorus 5 2 3 Mesh.new = some x) ∧ (∃ x, createSphereUv 5 3 Mesh.new = some x) ∧
    ∃ x, createCylinder 7 2 3 Mesh.new = some x ∧ Measure.hasNoDegeneratedTriangles x = some false := by
  obtain ⟨x, hx, -⟩ := torus_spec 5 2 3 (by norm_num) Mesh.new
  obtain ⟨y, hy, -⟩ := sphere_uv_spec 5 3 (by norm_num) Mesh.new
  exact ⟨⟨x, hx⟩, ⟨y, hy⟩, cylinder_degenerate 7 2 3 (by norm_num) Mesh.new⟩

/-- `geodesic_spec`, `geodesic_watertight` -/
example : ∃ x, createSphereGeodesic 10 4 Mesh.new = some x ∧ x.OK ∧ x.nbTriangles = 20 * 4 ^ 2 ∧ ∀ i p, x.getVertex i = some p → p.normSq = 10 ^ 2 := by
  obtain ⟨x, h, ok, n, -, v, -⟩ := geodesic_spec 10 4 (by norm_num) Mesh.new
  exact ⟨x, h, ok, n, v⟩

/-- `torus_surface_bounds`, `sphere_uv_surface_bounds`, `cylinder_surface`: the hypotheses on the radii -/
example : ∃ x, createCylinder 7 2 (0 : Nat) Mesh.new = some x ∧ ∃ A, Measure.surface x = some A := by
  obtain ⟨x, h, a⟩ := cylinder_surface (h := 7) (r := 2) (by norm_num) (by norm_num) 0 Mesh.new
  exact ⟨x, h, _, a⟩

end CAD.Examples
