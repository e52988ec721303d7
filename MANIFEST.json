{
 "claims": [
  {
   "property": "C01",
   "status": "proved",
   "theorems": [
    "CAD.mesh_history_refines",
    "CAD.add_triangle_ignores_junk"
   ],
   "note": "All histories, all arguments including invalid ids (undefined on both sides); split_triangle is not among the calls."
  },
  {
   "property": "C02",
   "status": "proved",
   "theorems": [
    "CAD.mesh_indices_valid",
    "CAD.mesh_triangle_calls_defined"
   ],
   "note": ""
  },
  {
   "property": "C03",
   "status": "proved",
   "theorems": [
    "CAD.mesh_ids_stable",
    "CAD.mesh_new_vertex_fresh",
    "CAD.mesh_new_triangle_fresh",
    "CAD.mesh_ids_distinct"
   ],
   "note": ""
  },
  {
   "property": "C04",
   "status": "proved",
   "theorems": [
    "CAD.kernels_agree",
    "CAD.half_edge_stores_nothing",
    "CAD.half_edge_differs",
    "CAD.half_edge_vertices",
    "CAD.tin_near_unset"
   ],
   "note": ""
  },
  {
   "property": "C05",
   "status": "partial",
   "theorems": [
    "CAD.mesh_copy_spec_partial",
    "CAD.mesh_self_assign_empties"
   ],
   "note": "Copying proved in full; the self-assignment clause is false of the code (it empties the mesh), negation proved."
  },
  {
   "property": "C06",
   "status": "partial",
   "theorems": [
    "CAD.mesh_append_spec_partial",
    "CAD.append_measures",
    "CAD.mesh_self_append_diverges"
   ],
   "note": "Appending proved; the self-append clause is false of the code (it never returns), proved for every fuel."
  },
  {
   "property": "C07",
   "status": "proved",
   "theorems": [
    "CAD.mesh_transform_spec",
    "CAD.mesh_transform_comp"
   ],
   "note": ""
  },
  {
   "property": "C08",
   "status": "proved",
   "theorems": [
    "CAD.add_quad_triangles",
    "CAD.add_pentagon_triangles",
    "CAD.quad_covers",
    "CAD.pentagon_covers",
    "CAD.add_quad_points_optimal"
   ],
   "note": ""
  },
  {
   "property": "C09",
   "status": "proved",
   "theorems": [
    "CAD.split_vertex_triangles",
    "CAD.split_point_triangles",
    "CAD.split_parts_cover",
    "CAD.split_vertex_volume",
    "CAD.split_vertex_surface"
   ],
   "note": "For a linked triangle of a consistent mesh (every reachable mesh is)."
  },
  {
   "property": "C10",
   "status": "partial",
   "theorems": [
    "CAD.split_edge_area_partial",
    "CAD.split_edge_changes_area",
    "CAD.split_edge_undefined"
   ],
   "note": "False of the code (broken rotate macro, reversed second triangle): the exact area change is proved for all nine positions, with the negation; only the first triangle in its first position is replaced correctly."
  },
  {
   "property": "C11",
   "status": "proved",
   "theorems": [
    "CAD.flip_triangles",
    "CAD.flip_measures"
   ],
   "note": ""
  },
  {
   "property": "C12",
   "status": "proved",
   "theorems": [
    "CAD.volume_affine",
    "CAD.volume_translation",
    "CAD.volume_scale",
    "CAD.volume_isometry",
    "CAD.closed_vecArea",
    "CAD.transform_triangles"
   ],
   "note": ""
  },
  {
   "property": "C13",
   "status": "proved",
   "theorems": [
    "CAD.measures_are_sums",
    "CAD.surface_is_sum",
    "CAD.unlink_measures",
    "CAD.add_triangle_measures",
    "CAD.copy_measures",
    "CAD.append_measures"
   ],
   "note": ""
  },
  {
   "property": "C14",
   "status": "proved",
   "theorems": [
    "CAD.surface_similar",
    "CAD.surface_rigid",
    "CAD.surface_nonneg_zero"
   ],
   "note": ""
  },
  {
   "property": "C15",
   "status": "partial",
   "theorems": [
    "CAD.is_closed_iff_empty",
    "CAD.is_closed_partial",
    "CAD.is_closed_wrong",
    "CAD.is_clean_never",
    "CAD.KernLT.unlink_links"
   ],
   "note": "False of the code: neighbour links are never set, so is_closed is true exactly on meshes without linked triangles; negation proved."
  },
  {
   "property": "C16",
   "status": "proved",
   "theorems": [
    "CAD.no_degenerated_exact"
   ],
   "note": ""
  },
  {
   "property": "C17",
   "status": "proved",
   "theorems": [
    "CAD.Tessellate.tessellate_volume",
    "CAD.Tessellate.tessellate_surface",
    "CAD.Tessellate.tessellate_closed",
    "CAD.Tessellate.tessellate_same_shape",
    "CAD.Tessellate.tessellate_vertices"
   ],
   "note": ""
  },
  {
   "property": "C18",
   "status": "proved",
   "theorems": [
    "CAD.Tessellate.tessellate_counts",
    "CAD.Tessellate.tessellate_self_empties"
   ],
   "note": "Output equal to input is a separate call: it empties the mesh, proved."
  },
  {
   "property": "C19",
   "status": "proved",
   "theorems": [
    "CAD.MeshUtil.merge_respects_tolerance"
   ],
   "note": ""
  },
  {
   "property": "C20",
   "status": "proved",
   "theorems": [
    "CAD.MeshUtil.merge_keeps_triangles",
    "CAD.MeshUtil.merge_idempotent",
    "CAD.MeshUtil.merge_zero",
    "CAD.MeshUtil.merge_far"
   ],
   "note": ""
  },
  {
   "property": "C21",
   "status": "proved",
   "theorems": [
    "CAD.MeshUtil.remove_empty_exact"
   ],
   "note": ""
  },
  {
   "property": "C22",
   "status": "proved",
   "theorems": [
    "CAD.MeshUtil.create_from_grid_spec",
    "CAD.MeshUtil.create_from_z_spec"
   ],
   "note": ""
  },
  {
   "property": "C23",
   "status": "proved",
   "theorems": [
    "CAD.Factory.tetrahedron_spec",
    "CAD.Factory.box_spec",
    "CAD.Factory.octahedron_spec",
    "CAD.Factory.icosahedron_spec",
    "CAD.Factory.dodecahedron_spec"
   ],
   "note": "Square roots over the reals."
  },
  {
   "property": "C24",
   "status": "partial",
   "theorems": [
    "CAD.Factory.cylinder_spec_partial",
    "CAD.Factory.cylinder_degenerate"
   ],
   "note": "False of the code: each cap loop runs one step too far and adds a degenerate triangle, for every n; proved. Everything else (closed surface apart from these two, positions, volume, orientation, valid ids) is proved."
  },
  {
   "property": "C25",
   "status": "proved",
   "theorems": [
    "CAD.Factory.sphere_uv_spec",
    "CAD.Factory.sphere_uv_zero_not_manifold"
   ],
   "note": "n = 0 is shown to repeat a directed edge."
  },
  {
   "property": "C26",
   "status": "proved",
   "theorems": [
    "CAD.Factory.torus_spec",
    "CAD.Factory.torus_zero_not_manifold"
   ],
   "note": "n = 0 is shown to repeat a directed edge."
  },
  {
   "property": "C27",
   "status": "proved",
   "theorems": [
    "CAD.Factory.geodesic_spec",
    "CAD.Factory.geodesic_empty"
   ],
   "note": ""
  },
  {
   "property": "C28",
   "status": "proved",
   "theorems": [
    "CAD.bbox_contains_all",
    "CAD.bbox_faces_touch",
    "CAD.bbox_least",
    "CAD.bbox_order_independent"
   ],
   "note": ""
  },
  {
   "property": "C29",
   "status": "proved",
   "theorems": [
    "CAD.bbox_overlap_exact",
    "CAD.bbox_overlap_symm",
    "CAD.bbox_tri_disjoint",
    "CAD.bbox_uninitialised_overlaps_origin"
   ],
   "note": "Exact for boxes that received at least one point; an uninitialised box is shown to act like the origin."
  },
  {
   "property": "C30",
   "status": "proved",
   "theorems": [
    "CAD.plane_defined_iff",
    "CAD.plane_through_points",
    "CAD.plane_projection",
    "CAD.plane_projection_idem"
   ],
   "note": ""
  },
  {
   "property": "C31",
   "status": "proved",
   "theorems": [
    "CAD.plane_segment_iff",
    "CAD.plane_segment_point",
    "CAD.plane_plane_symm"
   ],
   "note": ""
  },
  {
   "property": "C32",
   "status": "partial",
   "theorems": [
    "CAD.contains_complete",
    "CAD.contains_iff_partial",
    "CAD.contains_iff_off_line",
    "CAD.contains_false_positive"
   ],
   "note": "False of the code on the line through corners 2 and 3 (third sign test missing): counterexample for every proper triangle; exact everywhere else."
  },
  {
   "property": "C33",
   "status": "partial",
   "theorems": [
    "CAD.tri_segment_sound_partial",
    "CAD.tri_segment_complete",
    "CAD.tri_segment_not_crossing",
    "CAD.tri_segment_false_positive"
   ],
   "note": "Completeness proved; soundness fails exactly through the gap of contains, counterexample proved."
  },
  {
   "property": "C34",
   "status": "partial",
   "theorems": [
    "CAD.tri_tri_symm",
    "CAD.tri_tri_sound_partial",
    "CAD.tri_tri_reject_sound",
    "CAD.tri_tri_complete_general",
    "CAD.tri_tri_false_positive"
   ],
   "note": "Symmetry, rejection soundness and completeness in general position proved; soundness is false of the code (counterexample)."
  },
  {
   "property": "C35",
   "status": "partial",
   "theorems": [
    "CAD.segment_intersect_iff",
    "CAD.segment_intersect_sound_partial",
    "CAD.segment_intersect_complete",
    "CAD.segment_intersect_false_positive",
    "CAD.segment_intersect_not_symmetric"
   ],
   "note": "The code never checks the second parameter nor coplanarity; exact condition for the answer, counterexamples, completeness and common-perpendicular characterisation proved."
  },
  {
   "property": "C36",
   "status": "proved",
   "theorems": [
    "CAD.cross_orthogonal",
    "CAD.cross_norm_square",
    "CAD.cross_bilinear",
    "CAD.normalized_spec",
    "CAD.distance_square_spec",
    "CAD.norm_triangle_ineq",
    "CAD.triangle_surface_symm",
    "CAD.triangle_surface_zero_iff",
    "CAD.triangle_normal_spec",
    "CAD.segment_norm_spec"
   ],
   "note": ""
  },
  {
   "property": "C37",
   "status": "proved",
   "theorems": [
    "CAD.translation_laws",
    "CAD.translation_rigid",
    "CAD.scale_laws",
    "CAD.apply_all_get"
   ],
   "note": "Exact arithmetic over any ordered field."
  },
  {
   "property": "C38",
   "status": "proved",
   "theorems": [
    "CAD.rotation_matrix_spec",
    "CAD.matrix_rodrigues",
    "CAD.quaternion_eq_matrix",
    "CAD.quaternion_proper",
    "CAD.matrix_proper",
    "CAD.quaternion_default",
    "CAD.matrix_default",
    "CAD.rotation_360_not_identity"
   ],
   "note": "Over the reals, for a unit axis."
  },
  {
   "property": "C39",
   "status": "partial",
   "theorems": [
    "CAD.euler_isometry_partial",
    "CAD.euler_reverses_orientation"
   ],
   "note": "Isometry proved; the orientation half of the property is false of the code (reflection) and its negation is proved."
  },
  {
   "property": "C40",
   "status": "proved",
   "theorems": [
    "CAD.bernstein_sum",
    "CAD.bernstein_textbook",
    "CAD.bernstein_symm",
    "CAD.bernstein_nonneg"
   ],
   "note": "Over any ordered field."
  },
  {
   "property": "C41",
   "status": "proved",
   "theorems": [
    "CAD.QuadBez.eval_default",
    "CAD.QuadBez.eval_corners",
    "CAD.QuadBez.eval_flat",
    "CAD.QuadBez.eval_affine",
    "CAD.QuadBez.eval_side",
    "CAD.QuadBez.eval_hull",
    "CAD.QuadBez.eval_rational",
    "CAD.QuadBez.setters_keep"
   ],
   "note": "Corners need non-zero corner weights; the hull statement needs positive weights. The sentinel v = -1 is part of the model."
  },
  {
   "property": "C42",
   "status": "partial",
   "theorems": [
    "CAD.QuadBez.add_to_mesh_partial",
    "CAD.QuadBez.add_to_mesh_incomplete",
    "CAD.QuadBez.add_to_mesh_flat"
   ],
   "note": "Completeness is false for n >= 2: only n^2-4n+6 triangles are added, all with reversed orientation. Proved: vertices, validity, every triangle is one grid cell."
  },
  {
   "property": "C43",
   "status": "proved",
   "theorems": [
    "CAD.Nurbs.find_knot_span_spec",
    "CAD.Nurbs.find_knot_span_unique",
    "CAD.Nurbs.setUniform_clamped",
    "CAD.Nurbs.scaleKnots_eq",
    "CAD.Nurbs.scaleKnots_clamped",
    "CAD.Nurbs.find_knot_span_unclamped_fails"
   ],
   "note": "for every sorted knot vector clamped for degree p (p = 0: every sorted vector from 0 to 1), any multiplicities; the bounds degree <= k < n need clamped knots, the negation for unclamped knots is proved with a witness"
  },
  {
   "property": "C44",
   "status": "proved",
   "theorems": [
    "CAD.Nurbs.evaluate_spec",
    "CAD.Nurbs.denom_pos",
    "CAD.Nurbs.evaluate_defined",
    "CAD.Nurbs.evaluate_history_free",
    "CAD.Nurbs.evaluate_keeps",
    "CAD.Nurbs.evaluate_zero_denom"
   ],
   "note": "exact arithmetic; closed form is the rational B-spline; mutable scratch vectors are part of the state"
  },
  {
   "property": "C45",
   "status": "proved",
   "theorems": [
    "CAD.Nurbs.evaluate_zero",
    "CAD.Nurbs.evaluate_one",
    "CAD.Nurbs.evaluate_at_full_knot",
    "CAD.Nurbs.setUniform_clamped",
    "CAD.Nurbs.evaluate_zero_extra_knot"
   ],
   "note": "for exactly clamped knots; with more than degree+1 zeros the statement is false (witness)"
  },
  {
   "property": "C46",
   "status": "proved",
   "theorems": [
    "CAD.Nurbs.evaluate_affine",
    "CAD.Nurbs.surface_evaluate_affine"
   ],
   "note": "curves and surfaces, every affine map, including equality of the failures"
  },
  {
   "property": "C47",
   "status": "proved",
   "theorems": [
    "CAD.Nurbs.evaluate_hull",
    "CAD.Nurbs.evaluate_weight_scale",
    "CAD.Nurbs.surface_evaluate_hull",
    "CAD.Nurbs.surface_weight_scale"
   ],
   "note": ""
  },
  {
   "property": "C48",
   "status": "proved",
   "theorems": [
    "CAD.Nurbs.insert_knot_spec",
    "CAD.Nurbs.insert_knots_spec",
    "CAD.Nurbs.insertKnot_eq",
    "CAD.Nurbs.insert_knot_outside",
    "CAD.Nurbs.surface_insert_knot_u",
    "CAD.Nurbs.surface_insert_knot_v"
   ],
   "note": "positive weights, any knot in [0,1], any degree and multiplicity, curves and surfaces; insertion outside [0,1] moves the curve (witness)"
  },
  {
   "property": "C49",
   "status": "partial",
   "theorems": [
    "CAD.Nurbs.degree_elevation_1",
    "CAD.Nurbs.degree_elevation_2",
    "CAD.Nurbs.degree_elevation_3",
    "CAD.Nurbs.degree_elevation_0_loses",
    "CAD.Nurbs.degree_elevation_1_double",
    "CAD.Nurbs.degree_elevation_2_triple",
    "CAD.Nurbs.surface_degree_elevation_u",
    "CAD.Nurbs.surface_degree_elevation_v",
    "CAD.Nurbs.surface_degree_elevation_3"
   ],
   "note": "proved for degree 1 with different interior knots and degree 2 with at most double interior knots, and for degree >= 3, for curves and surfaces; false for degree 0 and for higher interior multiplicities (witnesses)"
  },
  {
   "property": "C50",
   "status": "proved",
   "theorems": [
    "CAD.Nurbs.surface_evaluate_spec",
    "CAD.Nurbs.surface_denom_pos",
    "CAD.Nurbs.surface_evaluate_defined",
    "CAD.Nurbs.surface_evaluate_history_free",
    "CAD.Nurbs.surface_evaluate_keeps",
    "CAD.Nurbs.surface_evaluate_rows",
    "CAD.Nurbs.surface_evaluate_columns",
    "CAD.Nurbs.from_create_u",
    "CAD.Nurbs.from_create_v",
    "CAD.Nurbs.create_from_u",
    "CAD.Nurbs.create_from_v"
   ],
   "note": ""
  },
  {
   "property": "C51",
   "status": "proved",
   "theorems": [
    "CAD.Nurbs.extrude_spec"
   ],
   "note": "point of the extrusion = point of the curve + v * direction, for every parameter and every previous content of the target"
  },
  {
   "property": "C52",
   "status": "proved",
   "theorems": [
    "CAD.Nurbs.ruled_spec",
    "CAD.Nurbs.ruled_segment",
    "CAD.Nurbs.ruled_needs_equal_knots"
   ],
   "note": "homogeneous interpolation between the curves when they have the same knots; the negation shows the second curve's knots are ignored"
  },
  {
   "property": "C53",
   "status": "partial",
   "theorems": [
    "CAD.Nurbs.extrude_ruled_independent_partial",
    "CAD.Nurbs.extrude_keeps_closed_flag",
    "CAD.Nurbs.set_equals_weights_keeps",
    "CAD.Nurbs.set_equals_weights_fresh",
    "CAD.Nurbs.revolve_independent"
   ],
   "note": "the result does not depend on the previous content of the target except for the closed flag in v, which extrude and create_ruled leave as they found it (negation proved)"
  },
  {
   "property": "C54",
   "status": "proved",
   "theorems": [
    "CAD.Nurbs.revolve_spec",
    "CAD.Nurbs.revolve_covers"
   ],
   "note": "every point is the profile point turned about the z axis; over the reals all turns occur"
  },
  {
   "property": "C55",
   "status": "proved",
   "theorems": [
    "CAD.Nurbs.circle_exact",
    "CAD.Nurbs.circle_covers",
    "CAD.Nurbs.disk_exact",
    "CAD.Nurbs.sphere_equation",
    "CAD.Nurbs.sphere_exact",
    "CAD.Nurbs.torus_equation",
    "CAD.Nurbs.torus_exact",
    "CAD.Nurbs.cylinder_exact"
   ],
   "note": "equations for all parameters over any ordered field with a root of two, exact images over the reals"
  },
  {
   "property": "C56",
   "status": "proved",
   "theorems": [
    "CAD.Nurbs.to_mesh_spec",
    "CAD.Nurbs.to_mesh_boundary",
    "CAD.Nurbs.to_mesh_closed",
    "CAD.Nurbs.torus_mesh_closed",
    "CAD.Nurbs.to_mesh_triangles",
    "CAD.Nurbs.to_mesh_solid",
    "CAD.Nurbs.to_mesh_nonpos",
    "CAD.Nurbs.to_mesh_no_rows"
   ],
   "note": "vertices are samples, counts, closedness when both directions wrap, boundary otherwise, triangle soup of a surface and of a solid; the guard typo (a surface without rows divides by zero) is proved as to_mesh_no_rows"
  },
  {
   "property": "C57",
   "status": "partial",
   "theorems": [
    "CAD.Nurbs.create_from_z_points",
    "CAD.Nurbs.create_from_z_square_partial",
    "CAD.Nurbs.create_from_z_scrambled",
    "CAD.Nurbs.create_from_z_not_grid",
    "CAD.Nurbs.create_from_z_short"
   ],
   "note": "the grid claim holds for square tables (transposed); for other tables the code writes column by column and reads row by row, the net is scrambled: create_from_z_not_grid is the negation"
  },
  {
   "property": "C58",
   "status": "proved",
   "theorems": [
    "CAD.image_get_defined",
    "CAD.image_set_get",
    "CAD.image_new",
    "CAD.image_offset_overflow"
   ],
   "note": "for images below 2^31 samples; above that the offset overflows int (image_offset_overflow)"
  },
  {
   "property": "C59",
   "status": "proved",
   "theorems": [
    "CAD.bmp32_roundtrip",
    "CAD.bmp32_read",
    "CAD.bmp_no_columns",
    "CAD.bmp_read_other",
    "CAD.bmp_truncated_success"
   ],
   "note": ""
  },
  {
   "property": "C60",
   "status": "partial",
   "theorems": [
    "CAD.bmp24_roundtrip_partial",
    "CAD.bmp8_roundtrip_partial",
    "CAD.bmp24_roundtrip_fails",
    "CAD.bmp8_roundtrip_fails"
   ],
   "note": "24 bit holds for images of at most one row; 8 bit for widths that are not 1 or 3 mod 4; the _fails theorems are the negations"
  },
  {
   "property": "C61",
   "status": "partial",
   "theorems": [
    "CAD.bmp_header",
    "CAD.bmp_header_two_planes"
   ],
   "note": "holds for 1, 3 and 4 planes; other plane counts write a wrong size field (bmp_header_two_planes)"
  },
  {
   "property": "C62",
   "status": "proved",
   "theorems": [
    "CAD.Stl.stl_roundtrip",
    "CAD.Stl.stl_roundtrip_exact",
    "CAD.Stl.stl_resave",
    "CAD.Stl.stl_length",
    "CAD.Stl.stl_float",
    "CAD.F32.f32_near",
    "CAD.F32.f32_exact"
   ],
   "note": "for meshes of less than 2^31/3 linked triangles (int ids of the loaded mesh); float conversion as IEEE binary32 in stl_float, any conversion in stl_roundtrip"
  },
  {
   "property": "C63",
   "status": "partial",
   "theorems": [
    "CAD.Stl.stl_load_any_partial",
    "CAD.Stl.stl_load_overflow",
    "CAD.Stl.stl_load_missing"
   ],
   "note": "holds unless the declared count is above 2^31/3; then the vertex count overflows int (stl_load_overflow is the negation)"
  },
  {
   "property": "C64",
   "status": "partial",
   "theorems": [
    "CAD.Obj.obj_text_roundtrip_partial",
    "CAD.Obj.obj_text_exact",
    "CAD.Obj.obj_six_digits",
    "CAD.Obj.obj_roundtrip",
    "CAD.Obj.codecG_reads",
    "CAD.Obj.roundG_near",
    "CAD.Obj.roundG_exact",
    "CAD.Obj.obj_load_slashes",
    "CAD.Obj.obj_load_missing"
   ],
   "note": "The ids and the linked triangles come back exactly; coordinates come back exactly when they have at most six decimal digits and otherwise within 5 millionths (negation obj_six_digits: 1234567 comes back as 1234570). obj_roundtrip holds for any text form that reads back; codecG is the %g form the program uses, read without the final rounding to double."
  },
  {
   "property": "C65",
   "status": "partial",
   "theorems": [
    "CAD.Obj.obj_meshes_partial",
    "CAD.Obj.obj_reuse_fails",
    "CAD.Obj.obj_polyline_zero_based",
    "CAD.Obj.obj_polyline_swallows"
   ],
   "note": "Proved for any number of meshes written to one file by a new writer. Fails for polylines (indices start at 0, last line unterminated) and for reuse of a writer (count not reset): negations with witnesses."
  },
  {
   "property": "C66",
   "status": "proved",
   "theorems": [
    "CAD.Step.step_ids",
    "CAD.Step.step_defined",
    "CAD.Step.step_missing_points"
   ],
   "note": "Files are token lists with a text rendering. Ids are unique for every session; references resolve when no surface has a net larger than its point table (needed: step_missing_points)."
  },
  {
   "property": "C67",
   "status": "partial",
   "theorems": [
    "CAD.Step.step_knots_partial",
    "CAD.Step.step_double_knots",
    "CAD.Step.step_unclamped"
   ],
   "note": "Counts and sums hold for every surface that can be written, and for clamped knots the lists stand for exactly the knot vector. The listed knots are distinct only when interior knots are simple: negation step_double_knots."
  },
  {
   "property": "C68",
   "status": "partial",
   "theorems": [
    "CAD.Render.render_safe_partial",
    "CAD.Render.new_ok",
    "CAD.Render.project_overflow",
    "CAD.Render.project_eye_plane",
    "CAD.Render.no_columns_asserts",
    "CAD.Render.no_rows_asserts"
   ],
   "note": "every sequence of drawings is defined and stays in the buffers for projections within 2^29, points off the plane of the eye, screens with at least one pixel and defined colours; outside of these the code is undefined or asserts (negations given)"
  },
  {
   "property": "C69",
   "status": "partial",
   "theorems": [
    "CAD.Render.puts_nearest",
    "CAD.Render.puts_order",
    "CAD.Render.triangle_frags",
    "CAD.Render.mesh_frags",
    "CAD.Render.mesh_nearer",
    "CAD.Render.mesh_order",
    "CAD.Render.mesh_order_ambient",
    "CAD.Render.pixel_put_partial",
    "CAD.Render.pixel_order_fails",
    "CAD.Render.pixel_order_fails_float",
    "CAD.Render.line_overwrites_nearer",
    "CAD.Render.ties_keep_first"
   ],
   "note": "proved for triangles and meshes without edges, and for draw_pixel when the depth is a float; false for draw_pixel in general (pixel_order_fails_float) and for draw_line (line_overwrites_nearer)"
  },
  {
   "property": "C70",
   "status": "partial",
   "theorems": [
    "CAD.Render.hline_depth_partial",
    "CAD.Render.hline_between",
    "CAD.Render.trapeze_depth_partial",
    "CAD.Render.hline_left_fails"
   ],
   "note": "right, top and bottom borders keep depths; at the left border the weights are exchanged (hline_left_fails), depths then stay between those of the ends"
  },
  {
   "property": "C71",
   "status": "proved",
   "theorems": [
    "CAD.Render.shade_spec",
    "CAD.Render.shade_ambient",
    "CAD.Render.shade_degenerate",
    "CAD.Render.shade_negative",
    "CAD.Render.white_light",
    "CAD.Render.shade_lamps"
   ],
   "note": ""
  },
  {
   "property": "C72",
   "status": "partial",
   "theorems": [
    "CAD.Boolean.boolean_covers_partial",
    "CAD.Boolean.boolean_copies_partial",
    "CAD.Boolean.split_meshes_raw",
    "CAD.splitTriangle_cases",
    "CAD.splitTriangle_noSplit",
    "CAD.Boolean.boolean_disjoint_asserts",
    "CAD.Boolean.boolean_doubles",
    "CAD.Boolean.boolean_grows",
    "CAD.Boolean.boolean_unlinked_asserts",
    "CAD.Boolean.boolean_crossing_unsplit"
   ],
   "note": "never loses surface, and copies when no corner of a triangle is in the plane of another; false: asserts on some disjoint triangles, duplicates surface on a second split, grows through the gap of contains, wrong ids with unlinked triangles, crossing triangles in general position are not split"
  },
  {
   "property": "C73",
   "status": "partial",
   "theorems": [
    "CAD.Face.copy_spec",
    "CAD.Face.ofMesh_spec",
    "CAD.Face.assign_keeps",
    "CAD.Face.assign_copies_iff",
    "CAD.Solid.copy_partial",
    "CAD.Solid.assign_keeps",
    "CAD.Solid.assign_copies_iff",
    "CAD.Solid.addFace_spec",
    "CAD.Solid.addFace_set"
   ],
   "note": "false: assignment leaves the target unchanged for every pair of objects, copies of a solid have no faces; copy construction of a face is proved"
  },
  {
   "property": "C74",
   "status": "partial",
   "theorems": [
    "CAD.MeshUtil.merge_closed_partial",
    "CAD.MeshUtil.merge_can_tear"
   ],
   "note": "False of the code in general: an alias is overwritten by the last near vertex, so coincident vertices can be sent to different places (counterexample proved). Proved when nearness is transitive among the vertices."
  },
  {
   "property": "C75",
   "status": "partial",
   "theorems": [
    "CAD.SmoothMesh.append_spec",
    "CAD.SmoothMesh.assign_spec",
    "CAD.SmoothMesh.transform_spec",
    "CAD.SmoothMesh.transform_commutes",
    "CAD.SmoothMesh.assign_self_empties",
    "CAD.SmoothMesh.append_self_diverges"
   ],
   "note": "The aliased calls are wrong: self assignment empties the mesh and self append does not terminate."
  },
  {
   "property": "C76",
   "status": "partial",
   "theorems": [
    "CAD.SmoothMesh.sphere_patches",
    "CAD.SmoothMesh.sphere_radius_partial",
    "CAD.SmoothMesh.sphere_orientation"
   ],
   "note": "The points are not on the sphere: 25/27 d^2 <= |p|^2 <= 9/8 d^2, both attained; half of the patches are inside out. Patches do join."
  },
  {
   "property": "C77",
   "status": "proved",
   "theorems": [
    "CAD.CubicBez.normals_tangent",
    "CAD.CubicBez.normals_side",
    "CAD.CubicBez.normals_flat"
   ],
   "note": ""
  },
  {
   "property": "C78",
   "status": "proved",
   "theorems": [
    "CAD.Nurbs.quad_exact",
    "CAD.Nurbs.triangle_exact",
    "CAD.Nurbs.box_exact"
   ],
   "note": ""
  },
  {
   "property": "C79",
   "status": "partial",
   "theorems": [
    "CAD.Nurbs.to_polyline_spec",
    "CAD.Nurbs.to_polyline_empty",
    "CAD.Nurbs.polyline_rounded_partial",
    "CAD.Nurbs.polyline_double_partial",
    "CAD.Nurbs.polyline_misses_end"
   ],
   "note": "True in exact arithmetic. In doubles the loop adds up rounded steps: the last point is missing for many sizes, for example for every curve with two control points (polyline_misses_end). What holds in doubles for up to 2^20 control points: 10n or 10n+1 points, each next to the exact one."
  },
  {
   "property": "C80",
   "status": "partial",
   "theorems": [
    "CAD.Nurbs.create_from_mesh_stored",
    "CAD.Nurbs.create_from_mesh_partial",
    "CAD.Nurbs.create_from_mesh_unlinked",
    "CAD.Nurbs.solid_transform"
   ],
   "note": "holds for meshes without unlinked triangles; unlinked triangles come back as surfaces (create_from_mesh_unlinked is the negation)"
  },
  {
   "property": "C81",
   "status": "proved",
   "theorems": [
    "CAD.Nurbs.controlpoints_mesh"
   ],
   "note": ""
  },
  {
   "property": "C82",
   "status": "proved",
   "theorems": [
    "CAD.convert_to_bw_spec",
    "CAD.convert_to_bw_planes"
   ],
   "note": ""
  },
  {
   "property": "C83",
   "status": "partial",
   "theorems": [
    "CAD.scale_partial",
    "CAD.scale_one",
    "CAD.scale_overflow"
   ],
   "note": "holds while 255*factor+1/2 < 256; no saturation above that (scale_overflow is the negation)"
  },
  {
   "property": "C84",
   "status": "proved",
   "theorems": [
    "CAD.shierpinsky_spec",
    "CAD.shierpinsky_count"
   ],
   "note": ""
  },
  {
   "property": "C85",
   "status": "partial",
   "theorems": [
    "CAD.to_double_square_partial",
    "CAD.to_double_wide",
    "CAD.to_double_tall"
   ],
   "note": "square images only, and column after column; wider images write out of bounds, taller ones are scrambled"
  },
  {
   "property": "C86",
   "status": "proved",
   "theorems": [
    "CAD.Step.step_net"
   ],
   "note": ""
  },
  {
   "property": "C87",
   "status": "partial",
   "theorems": [
    "CAD.Render.project_nearest_partial",
    "CAD.Render.project_left_fails"
   ],
   "note": "nearest pixel right of column -1/2 and below row -1/2; left of that the conversion truncates towards column 0"
  },
  {
   "property": "C88",
   "status": "partial",
   "theorems": [
    "CAD.Render.trapeze_depth_partial",
    "CAD.Render.last_row_kept"
   ],
   "note": "exact set of painted cells of a trapeze; the last row of the screen is never painted by any triangle (last_row_kept, the negation)"
  },
  {
   "property": "C89",
   "status": "partial",
   "theorems": [
    "CAD.Render.behind_kept_partial",
    "CAD.Render.f32_sign",
    "CAD.Render.line_behind_drawn",
    "CAD.Render.mirrored_corner"
   ],
   "note": "meshes completely behind the eye; false for lines and for triangles partly behind"
  },
  {
   "property": "C90",
   "status": "proved",
   "theorems": [
    "CAD.Nurbs.box_mesh_watertight",
    "CAD.Nurbs.box_mesh_surface",
    "CAD.Nurbs.sphere_mesh_watertight",
    "CAD.Nurbs.torus_mesh_watertight",
    "CAD.Nurbs.cylinder_mesh_watertight",
    "CAD.Nurbs.thin_box_open"
   ],
   "note": "exact arithmetic; thin_box_open: below the tolerance the mesh of the box has holes"
  },
  {
   "property": "C91",
   "status": "proved",
   "theorems": [
    "CAD.Nurbs.from_mesh_to_mesh",
    "CAD.Nurbs.from_mesh_to_mesh_surface",
    "CAD.Nurbs.from_small_mesh_open"
   ],
   "note": "from_small_mesh_open: a shorter first side opens the mesh; unlinked triangles come back, see C80"
  },
  {
   "property": "C92",
   "status": "partial",
   "theorems": [
    "CAD.SmoothMesh.flat_solids",
    "CAD.SmoothMesh.flat_solids_golden",
    "CAD.SmoothMesh.flat_mesh_partial",
    "CAD.SmoothMesh.flat_mesh_surface_partial",
    "CAD.SmoothMesh.solids_inside_out"
   ],
   "note": "The faces and flatness hold in full. The meshing part is false of the code: the mesh is turned inside out (volume has the opposite sign for every n), and for n >= 2 only n²-4n+6 of the n² small triangles of each face are made. The exact volume, area, count and position are proved for every n; closedness is proved for n = 1."
  },
  {
   "property": "C93",
   "status": "partial",
   "theorems": [
    "CAD.ImageUtil.mandelbrot_ints",
    "CAD.ImageUtil.mandelbrot_spec",
    "CAD.ImageUtil.escape_outside",
    "CAD.ImageUtil.escape_inside",
    "CAD.ImageUtil.mandelbrot_symmetric",
    "CAD.ImageUtil.tip_lost",
    "CAD.ImageUtil.mandelbrot_overflow"
   ],
   "note": "Proved for up to 255 iterations in exact arithmetic (and, for the stored integer, up to 32640 iterations and any rounding of the float operations). False of the code: the test is strict, so bounded orbits touching the circle of radius two, such as -2, count as escaping; more than 32640 iterations overflow the colour and a negative number iterates until the counter overflows. C114 links float rounding and the exact orbit."
  },
  {
   "property": "C94",
   "status": "proved",
   "theorems": [
    "CAD.bmp_format"
   ],
   "note": ""
  },
  {
   "property": "C95",
   "status": "partial",
   "theorems": [
    "CAD.Obj.obj_load_foreign_partial",
    "CAD.Obj.obj_load_bad_face",
    "CAD.Obj.obj_load_quad",
    "CAD.Obj.obj_load_slashes",
    "CAD.Obj.realTok_decimal"
   ],
   "note": "triangles with plain positive numbers referring back; false for negative numbers, later vertices, slashes and four corners, which OBJ files may have"
  },
  {
   "property": "C96",
   "status": "partial",
   "theorems": [
    "CAD.Obj.obj_text",
    "CAD.Obj.obj_color_opaque"
   ],
   "note": "obj_text is complete for meshes without colour and for 24-bit colours; false for colours with opacity bits"
  },
  {
   "property": "C97",
   "status": "partial",
   "theorems": [
    "CAD.Render.back_hidden",
    "CAD.Render.front_shown",
    "CAD.Render.triangle_cover_partial",
    "CAD.Render.triangle_picture_partial",
    "CAD.Render.facing_partial",
    "CAD.Render.facet_behind_partial",
    "CAD.Render.above_fails",
    "CAD.Render.last_row_fails"
   ],
   "note": "false of the code in full: the last row of a triangle is not painted, corners left of or above the screen misplace pixels; proved for corners not left of or above the screen, up to one column and the last row; the facing test is exact up to rounding of the corners to pixels"
  },
  {
   "property": "C98",
   "status": "proved",
   "theorems": [
    "CAD.Render.line_cells",
    "CAD.Render.polyline_segments"
   ],
   "note": "the second end of a line is not drawn, so a line of one pixel is not drawn at all"
  },
  {
   "property": "C99",
   "status": "partial",
   "theorems": [
    "CAD.Step.step_read_partial",
    "CAD.Step.step_not_conforming",
    "CAD.Step.step_transposed"
   ],
   "note": "degrees, closed flags and knots are right; the lists of points and weights run over v first, so the reader sees the net transposed: proved what a reader sees for square nets with equal knots, and that other nets break the size rules of the standard"
  },
  {
   "property": "C100",
   "status": "proved",
   "theorems": [
    "CAD.Nurbs.move_point",
    "CAD.Nurbs.move_point_right",
    "CAD.Nurbs.surface_move_point"
   ],
   "note": "for curves and surfaces; move_point_right adds the right end of the support"
  },
  {
   "property": "C101",
   "status": "proved",
   "theorems": [
    "CAD.Nurbs.surface_sides",
    "CAD.Nurbs.surfaces_join",
    "CAD.Nurbs.surface_corners",
    "CAD.Nurbs.surfaces_join_weights"
   ],
   "note": "for end knots repeated exactly degree + 1 times (else C45 applies); equal points without equal weights are not enough"
  },
  {
   "property": "C102",
   "status": "proved",
   "theorems": [
    "CAD.Nurbs.evaluate_continuous",
    "CAD.Nurbs.surface_evaluate_continuous",
    "CAD.Nurbs.evaluate_jump"
   ],
   "note": "over the reals; evaluate_jump shows the bound on repeated knots is needed"
  },
  {
   "property": "C103",
   "status": "proved",
   "theorems": [
    "CAD.Factory.torus_volume",
    "CAD.Factory.torus_volume_limit",
    "CAD.Factory.torus_surface_bounds",
    "CAD.Factory.torus_surface_limit",
    "CAD.Factory.sphere_uv_volume",
    "CAD.Factory.sphere_uv_volume_limit",
    "CAD.Factory.sphere_uv_surface_bounds",
    "CAD.Factory.sphere_uv_surface_limit",
    "CAD.Factory.cylinder_volume_limit",
    "CAD.Factory.cylinder_surface",
    "CAD.Factory.cylinder_surface_limit"
   ],
   "note": "Volumes and the cylinder area exactly for every n, areas of sphere and torus between bounds whose ratio tends to 1; areas need a positive radius (torus: r <= R). The volumes of torus and sphere and the areas need n >= 1."
  },
  {
   "property": "C104",
   "status": "proved",
   "theorems": [
    "CAD.MeshUtil.merge_welds",
    "CAD.MeshUtil.stl_weld",
    "CAD.MeshUtil.stl_load_not_welded",
    "CAD.MeshUtil.closedIds_iff_points"
   ],
   "note": "tolerance positive and below the distance of any two different loaded positions (hypothesis Separated)"
  },
  {
   "property": "C105",
   "status": "proved",
   "theorems": [
    "CAD.Store.add_assign",
    "CAD.Store.sub_assign",
    "CAD.Store.mul_assign",
    "CAD.Store.div_assign",
    "CAD.Store.assign_inverse",
    "CAD.Store.normalize_spec",
    "CAD.GeometryUtil.random_axis",
    "CAD.Color.pixel_components",
    "CAD.Color.color_constants",
    "CAD.line_setters"
   ],
   "note": "exact arithmetic; the generator is arbitrary, random_axis says when the three numbers are all zero the result is not a number"
  },
  {
   "property": "C106",
   "status": "partial",
   "theorems": [
    "CAD.oriented_outside_iff",
    "CAD.oriented_outside_moved",
    "CAD.oriented_outside_open",
    "CAD.checks_not_written"
   ],
   "note": "is_oriented_outside is proved; the four has_no_* checks are unwritten and always answer yes, shown on a mesh with all four defects; on open meshes the orientation answer depends on the position"
  },
  {
   "property": "C107",
   "status": "partial",
   "theorems": [
    "CAD.plane_plane_iff",
    "CAD.plane_plane_partial",
    "CAD.plane_plane_no_line",
    "CAD.plane_plane_misses",
    "CAD.plane_plane_self"
   ],
   "note": "true implies the planes meet in a line; planes at an angle below the tolerance are reported parallel, and the line argument is never written"
  },
  {
   "property": "C108",
   "status": "proved",
   "theorems": [
    "CAD.Factory.geodesic_watertight"
   ],
   "note": ""
  },
  {
   "property": "C109",
   "status": "proved",
   "theorems": [
    "CAD.Render.camera_aims"
   ],
   "note": "the picture axes form a left-handed frame with the view direction, part of the statement"
  },
  {
   "property": "C110",
   "status": "partial",
   "theorems": [
    "CAD.Step.step_text_partial",
    "CAD.Step.step_text_decimal",
    "CAD.Step.step_exponent",
    "CAD.Step.showG_form",
    "CAD.Step.step_bad_real",
    "CAD.Step.step_integers",
    "CAD.Step.step_header",
    "CAD.Step.step_reopened"
   ],
   "note": "holds exactly when no written number needs an exponent (the stream writes 6e-17, the standard wants 6.E-17); whole numbers are written as INTEGER instead of REAL, the header lacks FILE_DESCRIPTION and FILE_NAME, and a file left open by a second open has no end"
  },
  {
   "property": "C111",
   "status": "proved",
   "theorems": [
    "CAD.MeshUtil.merge_rounding",
    "CAD.MeshUtil.merge_rounding_gap"
   ],
   "note": "the gap hypothesis is needed, shown by merge_rounding_gap"
  },
  {
   "property": "C112",
   "status": "proved",
   "theorems": [
    "CAD.Rounded.geodesic_rounded",
    "CAD.Rounded.geodesic_double",
    "CAD.Rounded.double_rounds",
    "CAD.Rounded.exact_model",
    "CAD.ieee_representable",
    "CAD.ieee_nearest",
    "CAD.roundEven_tie"
   ],
   "note": "ties-to-even doubles without upper end of range are shown to meet the rounding assumption; with no rounding the model is the exact one"
  },
  {
   "property": "C113",
   "status": "proved",
   "theorems": [
    "CAD.Render.render_rounded",
    "CAD.Render.triangle_rounded",
    "CAD.Render.Arith.OK.render_safe",
    "CAD.Render.Arith.OK.triangle_frags",
    "CAD.Render.Arith.machine_ok",
    "CAD.Render.Arith.exact_model",
    "CAD.Render.Arith.OK.camera_sees",
    "CAD.ieee_representable",
    "CAD.ieee_nearest"
   ],
   "note": "the projection is a parameter whose results must be small; camera_sees gives a condition on the computed offsets; colours are a parameter"
  },
  {
   "property": "C114",
   "status": "proved",
   "theorems": [
    "CAD.ImageUtil.mandelbrot_rounded",
    "CAD.ImageUtil.mandelbrot_float",
    "CAD.ImageUtil.floatOK_single",
    "CAD.ImageUtil.orbit_near"
   ],
   "note": "Proved for every rounding with relative error u on integers and error u(|x|+1) on numbers up to 100, and for the round-to-nearest-even float of IEEE 754. Constants such as -2.1 are rounded to float directly, not through double first."
  },
  {
   "property": "C115",
   "status": "proved",
   "theorems": [
    "CAD.Rounded.volume_rounded",
    "CAD.Rounded.surface_rounded",
    "CAD.Rounded.measures_double",
    "CAD.Rounded.measureOK_double"
   ],
   "note": "Vertex coordinates are taken as they are stored (exact doubles); fused multiply-add and overflow beyond 2^1023 are excluded."
  },
  {
   "property": "C116",
   "status": "proved",
   "theorems": [
    "CAD.Nurbs.curve_rounded",
    "CAD.Nurbs.surface_rounded",
    "CAD.Nurbs.curve_double",
    "CAD.Nurbs.surface_double"
   ],
   "note": "The loops are those of the exact model, instantiated with rounded operations."
  },
  {
   "property": "C117",
   "status": "proved",
   "theorems": [
    "CAD.Nurbs.curve_ends_rounded",
    "CAD.Nurbs.closed_curve_rounded",
    "CAD.Nurbs.curve_ends_double",
    "CAD.Nurbs.surface_sides_rounded",
    "CAD.Nurbs.surfaces_join_rounded",
    "CAD.Nurbs.closed_surface_rounded",
    "CAD.Nurbs.surfaces_join_double",
    "CAD.Nurbs.closed_surface_double",
    "CAD.Nurbs.curve_end_not_exact"
   ],
   "note": "For end weights other than 1 the end is the control point times the weight divided by the weight; curve_end_not_exact shows that this need not be the control point. Signed zeros are not told apart."
  },
  {
   "property": "C118",
   "status": "proved",
   "theorems": [
    "CAD.Nurbs.curve_lipschitz",
    "CAD.Nurbs.surface_lipschitz",
    "CAD.Nurbs.polyline_near",
    "CAD.Nurbs.to_mesh_near",
    "CAD.Nurbs.to_mesh_converges"
   ],
   "note": "A surface flagged as closed must really be closed (ClosedTrue), which holds for the surfaces of the factories."
  },
  {
   "property": "C119",
   "status": "proved",
   "theorems": [
    "CAD.Nurbs.to_mesh_rounded",
    "CAD.Nurbs.to_mesh_double",
    "CAD.Nurbs.to_mesh_solid_rounded"
   ],
   "note": ""
  },
  {
   "property": "C120",
   "status": "proved",
   "theorems": [
    "CAD.Nurbs.solid_weld_rounded",
    "CAD.Nurbs.box_weld_double",
    "CAD.Nurbs.box_cracks_double"
   ],
   "note": "createBox itself in exact arithmetic (halving is exact in double); box_cracks_double: without welding the faces do not join exactly in double"
  },
  {
   "property": "C121",
   "status": "proved",
   "theorems": [
    "CAD.Factory.tetrahedron_convex",
    "CAD.Factory.box_convex",
    "CAD.Factory.octahedron_convex",
    "CAD.Factory.icosahedron_convex",
    "CAD.Factory.dodecahedron_convex",
    "CAD.Factory.sphere_uv_convex",
    "CAD.Factory.cylinder_convex",
    "CAD.Factory.torus_outward"
   ],
   "note": "ConvexOutward: no point of a triangle in front of the plane of another one; exact arithmetic, boxes, tetrahedra and octahedra over every ordered field, the others over the reals"
  },
  {
   "property": "C122",
   "status": "proved",
   "theorems": [
    "CAD.Factory.sphere_uv_accuracy",
    "CAD.Factory.cylinder_accuracy",
    "CAD.Factory.torus_accuracy",
    "CAD.Factory.geodesic_accuracy"
   ],
   "note": "exact real arithmetic with the real sine and cosine; both directions of the Hausdorff distance"
  },
  {
   "property": "C123",
   "status": "proved",
   "theorems": [
    "CAD.Transform.rotation_double",
    "CAD.Transform.rotation_drift",
    "CAD.Transform.rotation_rigid",
    "CAD.Transform.euler_double",
    "CAD.Transform.mesh_rotation_drift",
    "CAD.Transform.translation_scale_double"
   ],
   "note": "Specification: turn (Rodrigues), eulerTurn. Assumes the library cosine and sine are within 2^-52 (LibTrig); lib_trig shows correctly rounded ones are."
  },
  {
   "property": "C124",
   "status": "proved",
   "theorems": [
    "CAD.Factory.sphere_uv_double",
    "CAD.Factory.torus_double",
    "CAD.Factory.cylinder_double",
    "CAD.Factory.platonic_double"
   ],
   "note": "Assumes the library cosine and sine are within 2^-52 (LibTrig)"
  },
  {
   "property": "C125",
   "status": "proved",
   "theorems": [
    "CAD.Factory.sphere_uv_measured",
    "CAD.Factory.torus_measured",
    "CAD.Factory.cylinder_measured",
    "CAD.Factory.platonic_measured"
   ],
   "note": "Assumes LibTrig; sizes at least 1 so that underflow stays below the relative errors"
  },
  {
   "property": "C126",
   "status": "proved",
   "theorems": [
    "CAD.Rounded.distance_double",
    "CAD.Rounded.project_double",
    "CAD.Rounded.cutted_by_double",
    "CAD.Rounded.plane_segment_double",
    "CAD.Rounded.contains_double",
    "CAD.Rounded.tri_segment_double",
    "CAD.Rounded.tri_tri_double"
   ],
   "note": "Specification: height (signed distance), cut (point of the segment in the plane), barycentric coordinates; without the margins the answers can be wrong in exact arithmetic already (C32-C34)"
  },
  {
   "property": "C127",
   "status": "proved",
   "theorems": [
    "CAD.Stl.stl_measured",
    "CAD.Obj.obj_measured",
    "CAD.Obj.codecD_reads"
   ],
   "note": "Meshes over the reals whose coordinates are doubles (IsDouble); float conversion and six digit printing as in C93/C95, reading rounds to the nearest double."
  },
  {
   "property": "C128",
   "status": "proved",
   "theorems": [
    "CAD.Rounded.compare_double",
    "CAD.Rounded.merge_double",
    "CAD.Rounded.weld_double",
    "CAD.MeshUtil.merge_by_spec"
   ],
   "note": "The upper end of the double range is not modelled: squares of distances above 2^1023 overflow to infinity in C++ and are then not below the tolerance, as here."
  },
  {
   "property": "C129",
   "status": "proved",
   "theorems": [
    "CAD.Rounded.tessellate_double",
    "CAD.Rounded.tessellate_measured_double",
    "CAD.Rounded.tessellate_weld_double"
   ],
   "note": "Sizes from 2^-1000 to 2^1001 (measures: 1 to 2^199); n as int."
  },
  {
   "property": "C130",
   "status": "proved",
   "theorems": [
    "CAD.Nurbs.circle_double",
    "CAD.Nurbs.sphere_double",
    "CAD.Nurbs.torus_double",
    "CAD.Nurbs.disk_double",
    "CAD.Nurbs.cylinder_double",
    "CAD.Nurbs.shapes_id",
    "CAD.Nurbs.curve_off",
    "CAD.Nurbs.surface_off"
   ],
   "note": "Doubles between 2^-400 and 2^400; std::sqrt correctly rounded; the flags closed_u/closed_v of the rounded surfaces are not part of the claim."
  },
  {
   "property": "C131",
   "status": "proved",
   "theorems": [
    "CAD.Nurbs.sphere_mesh_double",
    "CAD.Nurbs.torus_mesh_double",
    "CAD.Nurbs.cylinder_mesh_double",
    "CAD.Nurbs.solid_mesh_off"
   ],
   "note": "The volume is compared with that of the exact mesh, not with the formula for the solid."
  },
  {
   "property": "C132",
   "status": "proved",
   "theorems": [
    "CAD.Nurbs.sphere_weld_double",
    "CAD.Nurbs.torus_weld_double",
    "CAD.Nurbs.cylinder_weld_double",
    "CAD.Nurbs.sphere_gap",
    "CAD.Nurbs.torus_gap",
    "CAD.Nurbs.cylinder_gap"
   ],
   "note": "The torus must have minor < major. Triangles at the poles with two equal vertices are kept by merge_vertices and counted."
  },
  {
   "property": "C133",
   "status": "proved",
   "theorems": [
    "CAD.Stl.stl_weld_double",
    "CAD.Obj.obj_weld_double",
    "CAD.Nurbs.sphere_stl_double",
    "CAD.Nurbs.torus_stl_double",
    "CAD.Nurbs.cylinder_stl_double",
    "CAD.Nurbs.toMeshSolid_allDouble"
   ],
   "note": "R at least 2^-120 and at most 2^127 (STL) or 2^150 (OBJ), so that no coordinate underflows or overflows the file format. The torus must have minor < major."
  },
  {
   "property": "C134",
   "status": "proved",
   "theorems": [
    "CAD.Nurbs.sphere_volume",
    "CAD.Nurbs.torus_volume",
    "CAD.Nurbs.cylinder_volume",
    "CAD.Nurbs.sphere_volume_double",
    "CAD.Nurbs.torus_volume_double",
    "CAD.Nurbs.cylinder_volume_double"
   ],
   "note": "Sizes and resolutions are arbitrary within the stated ranges. In double the torus and the cylinder carry the hypothesis that the volume exceeds the bound of the rounding error."
  },
  {
   "property": "C135",
   "status": "proved",
   "theorems": [
    "CAD.Nurbs.sphere_area",
    "CAD.Nurbs.torus_area",
    "CAD.Nurbs.cylinder_area",
    "CAD.Nurbs.sphere_area_double",
    "CAD.Nurbs.torus_area_double",
    "CAD.Nurbs.cylinder_area_double"
   ],
   "note": "Sizes and resolutions are arbitrary within the stated ranges."
  },
  {
   "property": "C136",
   "status": "proved",
   "theorems": [
    "CAD.QuadBez.eval_double",
    "CAD.QuadBez.corner_double",
    "CAD.QuadBez.side_double",
    "CAD.QuadBez.side_crack",
    "CAD.SmoothMesh.mesh_double",
    "CAD.SmoothMesh.sphere_double",
    "CAD.QuadBez.eval2Rounded_id"
   ],
   "note": "side_crack shows that the bound for neighbours cannot be zero. The radii of the smooth sphere are those of C76 (it is not a sphere)."
  },
  {
   "property": "C137",
   "status": "proved",
   "theorems": [
    "CAD.Render.project_double",
    "CAD.Render.project_origin_double",
    "CAD.Render.project_around",
    "CAD.Render.rotated_near",
    "CAD.Render.coord_near"
   ],
   "note": "The truncation towards zero left of the screen (C87) remains: only pixels with nonnegative coordinates are claimed."
  },
  {
   "property": "C138",
   "status": "proved",
   "theorems": [
    "CAD.Render.shade_double",
    "CAD.Render.triangle_color_double",
    "CAD.Render.picture_double",
    "CAD.Render.normalR_unit",
    "CAD.Render.lamps_near",
    "CAD.Render.shadeR_id"
   ],
   "note": "picture_double supplies the assumptions of C113 (projected corners small, colours defined) for scenes around the camera origin."
  },
  {
   "property": "C139",
   "status": "proved",
   "theorems": [
    "CAD.Bezier.bernsteinR_id",
    "CAD.Bezier.bernstein_double",
    "CAD.CubicBez.setNormalsR_id",
    "CAD.CubicBez.set_normals_double",
    "CAD.CubicBez.normals_tangent_double",
    "CAD.CubicBez.normals_side_rounded",
    "CAD.CubicBez.normals_flat_double",
    "CAD.CubicBez.normalized_near_unit"
   ],
   "note": "Every operation rounded to IEEE binary64, in the order of the C++; the roundings are explicit, NaN and infinities excluded by the sizes."
  },
  {
   "property": "C140",
   "status": "partial",
   "theorems": [
    "CAD.ImageUtil.scaleR_id",
    "CAD.ImageUtil.scale_double_partial",
    "CAD.ImageUtil.scale_one_double",
    "CAD.ImageUtil.scale_overflow_double"
   ],
   "note": "Proved for factors with 255 s <= 255.49; the full statement is false of the code: larger factors make the conversion to unsigned char undefined (scale_overflow_double)."
  },
  {
   "property": "C141",
   "status": "proved",
   "theorems": [
    "CAD.ImageUtil.mandelbrot_in_range"
   ],
   "note": "The lists posValues, testValues and stepValues name the numbers the model of C93 rounds (values_rounded)."
  }
 ]
}