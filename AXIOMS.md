# Axioms of the theorems in MANIFEST.json

Output of `#print axioms` for each theorem, grouped by the answer.

## none

* `CAD.Obj.obj_load_missing`
* `CAD.line_setters`

## propext

* `CAD.half_edge_differs`
* `CAD.tin_near_unset`
* `CAD.bbox_overlap_symm`
* `CAD.bmp_truncated_success`
* `CAD.bmp_header_two_planes`
* `CAD.to_double_tall`
* `CAD.Obj.obj_color_opaque`

## propext, Classical.choice, Quot.sound

* `CAD.mesh_history_refines`
* `CAD.mesh_indices_valid`
* `CAD.mesh_triangle_calls_defined`
* `CAD.mesh_ids_stable`
* `CAD.mesh_new_vertex_fresh`
* `CAD.mesh_new_triangle_fresh`
* `CAD.mesh_ids_distinct`
* `CAD.kernels_agree`
* `CAD.mesh_copy_spec_partial`
* `CAD.mesh_self_assign_empties`
* `CAD.mesh_append_spec_partial`
* `CAD.append_measures`
* `CAD.mesh_self_append_diverges`
* `CAD.mesh_transform_spec`
* `CAD.mesh_transform_comp`
* `CAD.add_quad_triangles`
* `CAD.add_pentagon_triangles`
* `CAD.quad_covers`
* `CAD.pentagon_covers`
* `CAD.add_quad_points_optimal`
* `CAD.split_vertex_triangles`
* `CAD.split_point_triangles`
* `CAD.split_parts_cover`
* `CAD.split_vertex_volume`
* `CAD.split_vertex_surface`
* `CAD.split_edge_area_partial`
* `CAD.split_edge_changes_area`
* `CAD.split_edge_undefined`
* `CAD.flip_triangles`
* `CAD.flip_measures`
* `CAD.volume_affine`
* `CAD.volume_translation`
* `CAD.volume_scale`
* `CAD.volume_isometry`
* `CAD.closed_vecArea`
* `CAD.transform_triangles`
* `CAD.measures_are_sums`
* `CAD.surface_is_sum`
* `CAD.unlink_measures`
* `CAD.add_triangle_measures`
* `CAD.copy_measures`
* `CAD.surface_similar`
* `CAD.surface_rigid`
* `CAD.surface_nonneg_zero`
* `CAD.is_closed_iff_empty`
* `CAD.is_closed_partial`
* `CAD.is_closed_wrong`
* `CAD.is_clean_never`
* `CAD.KernLT.unlink_links`
* `CAD.no_degenerated_exact`
* `CAD.Tessellate.tessellate_volume`
* `CAD.Tessellate.tessellate_surface`
* `CAD.Tessellate.tessellate_closed`
* `CAD.Tessellate.tessellate_same_shape`
* `CAD.Tessellate.tessellate_vertices`
* `CAD.Tessellate.tessellate_counts`
* `CAD.Tessellate.tessellate_self_empties`
* `CAD.MeshUtil.merge_respects_tolerance`
* `CAD.MeshUtil.merge_keeps_triangles`
* `CAD.MeshUtil.merge_idempotent`
* `CAD.MeshUtil.merge_zero`
* `CAD.MeshUtil.merge_far`
* `CAD.MeshUtil.remove_empty_exact`
* `CAD.MeshUtil.create_from_grid_spec`
* `CAD.MeshUtil.create_from_z_spec`
* `CAD.Factory.tetrahedron_spec`
* `CAD.Factory.box_spec`
* `CAD.Factory.octahedron_spec`
* `CAD.Factory.icosahedron_spec`
* `CAD.Factory.dodecahedron_spec`
* `CAD.Factory.cylinder_spec_partial`
* `CAD.Factory.cylinder_degenerate`
* `CAD.Factory.sphere_uv_spec`
* `CAD.Factory.sphere_uv_zero_not_manifold`
* `CAD.Factory.torus_spec`
* `CAD.Factory.torus_zero_not_manifold`
* `CAD.Factory.geodesic_spec`
* `CAD.Factory.geodesic_empty`
* `CAD.bbox_tri_disjoint`
* `CAD.bbox_uninitialised_overlaps_origin`
* `CAD.plane_defined_iff`
* `CAD.plane_through_points`
* `CAD.plane_projection`
* `CAD.plane_projection_idem`
* `CAD.plane_segment_iff`
* `CAD.plane_segment_point`
* `CAD.contains_complete`
* `CAD.contains_iff_partial`
* `CAD.contains_iff_off_line`
* `CAD.contains_false_positive`
* `CAD.tri_segment_sound_partial`
* `CAD.tri_segment_complete`
* `CAD.tri_segment_not_crossing`
* `CAD.tri_segment_false_positive`
* `CAD.tri_tri_symm`
* `CAD.tri_tri_sound_partial`
* `CAD.tri_tri_reject_sound`
* `CAD.tri_tri_complete_general`
* `CAD.tri_tri_false_positive`
* `CAD.segment_intersect_iff`
* `CAD.segment_intersect_sound_partial`
* `CAD.segment_intersect_complete`
* `CAD.segment_intersect_false_positive`
* `CAD.segment_intersect_not_symmetric`
* `CAD.normalized_spec`
* `CAD.distance_square_spec`
* `CAD.norm_triangle_ineq`
* `CAD.triangle_surface_symm`
* `CAD.triangle_surface_zero_iff`
* `CAD.triangle_normal_spec`
* `CAD.segment_norm_spec`
* `CAD.scale_laws`
* `CAD.rotation_matrix_spec`
* `CAD.quaternion_eq_matrix`
* `CAD.quaternion_proper`
* `CAD.matrix_proper`
* `CAD.rotation_360_not_identity`
* `CAD.euler_isometry_partial`
* `CAD.euler_reverses_orientation`
* `CAD.bernstein_nonneg`
* `CAD.QuadBez.eval_corners`
* `CAD.QuadBez.eval_flat`
* `CAD.QuadBez.eval_affine`
* `CAD.QuadBez.eval_hull`
* `CAD.QuadBez.eval_rational`
* `CAD.QuadBez.add_to_mesh_partial`
* `CAD.QuadBez.add_to_mesh_incomplete`
* `CAD.QuadBez.add_to_mesh_flat`
* `CAD.Nurbs.find_knot_span_spec`
* `CAD.Nurbs.find_knot_span_unique`
* `CAD.Nurbs.setUniform_clamped`
* `CAD.Nurbs.scaleKnots_eq`
* `CAD.Nurbs.scaleKnots_clamped`
* `CAD.Nurbs.find_knot_span_unclamped_fails`
* `CAD.Nurbs.evaluate_spec`
* `CAD.Nurbs.denom_pos`
* `CAD.Nurbs.evaluate_defined`
* `CAD.Nurbs.evaluate_history_free`
* `CAD.Nurbs.evaluate_keeps`
* `CAD.Nurbs.evaluate_zero_denom`
* `CAD.Nurbs.evaluate_zero`
* `CAD.Nurbs.evaluate_one`
* `CAD.Nurbs.evaluate_at_full_knot`
* `CAD.Nurbs.evaluate_zero_extra_knot`
* `CAD.Nurbs.evaluate_affine`
* `CAD.Nurbs.surface_evaluate_affine`
* `CAD.Nurbs.evaluate_hull`
* `CAD.Nurbs.evaluate_weight_scale`
* `CAD.Nurbs.surface_evaluate_hull`
* `CAD.Nurbs.surface_weight_scale`
* `CAD.Nurbs.insert_knot_spec`
* `CAD.Nurbs.insert_knots_spec`
* `CAD.Nurbs.insertKnot_eq`
* `CAD.Nurbs.insert_knot_outside`
* `CAD.Nurbs.surface_insert_knot_u`
* `CAD.Nurbs.surface_insert_knot_v`
* `CAD.Nurbs.degree_elevation_1`
* `CAD.Nurbs.degree_elevation_2`
* `CAD.Nurbs.degree_elevation_0_loses`
* `CAD.Nurbs.degree_elevation_1_double`
* `CAD.Nurbs.degree_elevation_2_triple`
* `CAD.Nurbs.surface_degree_elevation_u`
* `CAD.Nurbs.surface_degree_elevation_v`
* `CAD.Nurbs.surface_evaluate_spec`
* `CAD.Nurbs.surface_denom_pos`
* `CAD.Nurbs.surface_evaluate_defined`
* `CAD.Nurbs.surface_evaluate_history_free`
* `CAD.Nurbs.surface_evaluate_keeps`
* `CAD.Nurbs.surface_evaluate_rows`
* `CAD.Nurbs.surface_evaluate_columns`
* `CAD.Nurbs.from_create_u`
* `CAD.Nurbs.from_create_v`
* `CAD.Nurbs.create_from_u`
* `CAD.Nurbs.create_from_v`
* `CAD.Nurbs.extrude_spec`
* `CAD.Nurbs.ruled_spec`
* `CAD.Nurbs.ruled_segment`
* `CAD.Nurbs.ruled_needs_equal_knots`
* `CAD.Nurbs.extrude_ruled_independent_partial`
* `CAD.Nurbs.extrude_keeps_closed_flag`
* `CAD.Nurbs.revolve_independent`
* `CAD.Nurbs.revolve_spec`
* `CAD.Nurbs.revolve_covers`
* `CAD.Nurbs.circle_exact`
* `CAD.Nurbs.circle_covers`
* `CAD.Nurbs.disk_exact`
* `CAD.Nurbs.sphere_equation`
* `CAD.Nurbs.sphere_exact`
* `CAD.Nurbs.torus_equation`
* `CAD.Nurbs.torus_exact`
* `CAD.Nurbs.cylinder_exact`
* `CAD.Nurbs.to_mesh_spec`
* `CAD.Nurbs.to_mesh_boundary`
* `CAD.Nurbs.to_mesh_closed`
* `CAD.Nurbs.torus_mesh_closed`
* `CAD.Nurbs.to_mesh_triangles`
* `CAD.Nurbs.to_mesh_solid`
* `CAD.Nurbs.to_mesh_nonpos`
* `CAD.Nurbs.to_mesh_no_rows`
* `CAD.Nurbs.create_from_z_points`
* `CAD.Nurbs.create_from_z_square_partial`
* `CAD.Nurbs.create_from_z_scrambled`
* `CAD.Nurbs.create_from_z_not_grid`
* `CAD.image_get_defined`
* `CAD.image_set_get`
* `CAD.image_new`
* `CAD.image_offset_overflow`
* `CAD.bmp32_roundtrip`
* `CAD.bmp32_read`
* `CAD.bmp_no_columns`
* `CAD.bmp_read_other`
* `CAD.bmp24_roundtrip_partial`
* `CAD.bmp8_roundtrip_partial`
* `CAD.bmp24_roundtrip_fails`
* `CAD.bmp8_roundtrip_fails`
* `CAD.bmp_header`
* `CAD.Stl.stl_roundtrip`
* `CAD.Stl.stl_roundtrip_exact`
* `CAD.Stl.stl_resave`
* `CAD.Stl.stl_length`
* `CAD.Stl.stl_float`
* `CAD.F32.f32_near`
* `CAD.F32.f32_exact`
* `CAD.Stl.stl_load_any_partial`
* `CAD.Stl.stl_load_overflow`
* `CAD.Stl.stl_load_missing`
* `CAD.Obj.obj_text_roundtrip_partial`
* `CAD.Obj.obj_text_exact`
* `CAD.Obj.obj_six_digits`
* `CAD.Obj.obj_roundtrip`
* `CAD.Obj.codecG_reads`
* `CAD.Obj.roundG_near`
* `CAD.Obj.roundG_exact`
* `CAD.Obj.obj_load_slashes`
* `CAD.Obj.obj_meshes_partial`
* `CAD.Obj.obj_reuse_fails`
* `CAD.Obj.obj_polyline_zero_based`
* `CAD.Obj.obj_polyline_swallows`
* `CAD.Step.step_ids`
* `CAD.Step.step_defined`
* `CAD.Step.step_knots_partial`
* `CAD.Step.step_double_knots`
* `CAD.Step.step_unclamped`
* `CAD.Render.render_safe_partial`
* `CAD.Render.new_ok`
* `CAD.Render.project_overflow`
* `CAD.Render.no_columns_asserts`
* `CAD.Render.no_rows_asserts`
* `CAD.Render.puts_nearest`
* `CAD.Render.puts_order`
* `CAD.Render.triangle_frags`
* `CAD.Render.mesh_frags`
* `CAD.Render.mesh_nearer`
* `CAD.Render.mesh_order`
* `CAD.Render.mesh_order_ambient`
* `CAD.Render.pixel_put_partial`
* `CAD.Render.pixel_order_fails`
* `CAD.Render.pixel_order_fails_float`
* `CAD.Render.line_overwrites_nearer`
* `CAD.Render.ties_keep_first`
* `CAD.Render.hline_depth_partial`
* `CAD.Render.hline_between`
* `CAD.Render.trapeze_depth_partial`
* `CAD.Render.hline_left_fails`
* `CAD.Render.shade_spec`
* `CAD.Render.shade_negative`
* `CAD.Render.white_light`
* `CAD.Render.shade_lamps`
* `CAD.Boolean.boolean_covers_partial`
* `CAD.Boolean.boolean_copies_partial`
* `CAD.Boolean.split_meshes_raw`
* `CAD.splitTriangle_cases`
* `CAD.splitTriangle_noSplit`
* `CAD.Boolean.boolean_disjoint_asserts`
* `CAD.Boolean.boolean_doubles`
* `CAD.Boolean.boolean_grows`
* `CAD.Boolean.boolean_unlinked_asserts`
* `CAD.Boolean.boolean_crossing_unsplit`
* `CAD.Face.copy_spec`
* `CAD.Face.ofMesh_spec`
* `CAD.Face.assign_keeps`
* `CAD.Solid.copy_partial`
* `CAD.Solid.assign_keeps`
* `CAD.Solid.addFace_spec`
* `CAD.Solid.addFace_set`
* `CAD.MeshUtil.merge_closed_partial`
* `CAD.MeshUtil.merge_can_tear`
* `CAD.SmoothMesh.append_spec`
* `CAD.SmoothMesh.assign_spec`
* `CAD.SmoothMesh.transform_commutes`
* `CAD.SmoothMesh.assign_self_empties`
* `CAD.SmoothMesh.append_self_diverges`
* `CAD.SmoothMesh.sphere_patches`
* `CAD.SmoothMesh.sphere_radius_partial`
* `CAD.SmoothMesh.sphere_orientation`
* `CAD.CubicBez.normals_tangent`
* `CAD.CubicBez.normals_flat`
* `CAD.Nurbs.quad_exact`
* `CAD.Nurbs.triangle_exact`
* `CAD.Nurbs.box_exact`
* `CAD.Nurbs.to_polyline_spec`
* `CAD.Nurbs.polyline_rounded_partial`
* `CAD.Nurbs.polyline_double_partial`
* `CAD.Nurbs.polyline_misses_end`
* `CAD.Nurbs.create_from_mesh_stored`
* `CAD.Nurbs.create_from_mesh_partial`
* `CAD.Nurbs.create_from_mesh_unlinked`
* `CAD.Nurbs.solid_transform`
* `CAD.Nurbs.controlpoints_mesh`
* `CAD.convert_to_bw_spec`
* `CAD.scale_partial`
* `CAD.scale_one`
* `CAD.scale_overflow`
* `CAD.shierpinsky_spec`
* `CAD.shierpinsky_count`
* `CAD.to_double_square_partial`
* `CAD.to_double_wide`
* `CAD.Step.step_net`
* `CAD.Render.project_nearest_partial`
* `CAD.Render.project_left_fails`
* `CAD.Render.last_row_kept`
* `CAD.Render.behind_kept_partial`
* `CAD.Render.f32_sign`
* `CAD.Render.line_behind_drawn`
* `CAD.Render.mirrored_corner`
* `CAD.Nurbs.box_mesh_watertight`
* `CAD.Nurbs.box_mesh_surface`
* `CAD.Nurbs.sphere_mesh_watertight`
* `CAD.Nurbs.torus_mesh_watertight`
* `CAD.Nurbs.cylinder_mesh_watertight`
* `CAD.Nurbs.thin_box_open`
* `CAD.Nurbs.from_mesh_to_mesh`
* `CAD.Nurbs.from_mesh_to_mesh_surface`
* `CAD.Nurbs.from_small_mesh_open`
* `CAD.SmoothMesh.flat_solids`
* `CAD.SmoothMesh.flat_solids_golden`
* `CAD.SmoothMesh.flat_mesh_partial`
* `CAD.SmoothMesh.flat_mesh_surface_partial`
* `CAD.SmoothMesh.solids_inside_out`
* `CAD.ImageUtil.mandelbrot_ints`
* `CAD.ImageUtil.mandelbrot_spec`
* `CAD.ImageUtil.escape_outside`
* `CAD.ImageUtil.escape_inside`
* `CAD.ImageUtil.mandelbrot_symmetric`
* `CAD.ImageUtil.tip_lost`
* `CAD.ImageUtil.mandelbrot_overflow`
* `CAD.bmp_format`
* `CAD.Obj.obj_load_foreign_partial`
* `CAD.Obj.obj_load_bad_face`
* `CAD.Obj.obj_load_quad`
* `CAD.Obj.realTok_decimal`
* `CAD.Obj.obj_text`
* `CAD.Render.back_hidden`
* `CAD.Render.front_shown`
* `CAD.Render.triangle_cover_partial`
* `CAD.Render.triangle_picture_partial`
* `CAD.Render.facing_partial`
* `CAD.Render.facet_behind_partial`
* `CAD.Render.above_fails`
* `CAD.Render.last_row_fails`
* `CAD.Render.line_cells`
* `CAD.Render.polyline_segments`
* `CAD.Step.step_read_partial`
* `CAD.Step.step_not_conforming`
* `CAD.Step.step_transposed`
* `CAD.Nurbs.move_point`
* `CAD.Nurbs.move_point_right`
* `CAD.Nurbs.surface_move_point`
* `CAD.Nurbs.surface_sides`
* `CAD.Nurbs.surfaces_join`
* `CAD.Nurbs.surface_corners`
* `CAD.Nurbs.surfaces_join_weights`
* `CAD.Nurbs.evaluate_continuous`
* `CAD.Nurbs.surface_evaluate_continuous`
* `CAD.Nurbs.evaluate_jump`
* `CAD.Factory.torus_volume`
* `CAD.Factory.torus_volume_limit`
* `CAD.Factory.torus_surface_bounds`
* `CAD.Factory.torus_surface_limit`
* `CAD.Factory.sphere_uv_volume`
* `CAD.Factory.sphere_uv_volume_limit`
* `CAD.Factory.sphere_uv_surface_bounds`
* `CAD.Factory.sphere_uv_surface_limit`
* `CAD.Factory.cylinder_volume_limit`
* `CAD.Factory.cylinder_surface`
* `CAD.Factory.cylinder_surface_limit`
* `CAD.MeshUtil.merge_welds`
* `CAD.MeshUtil.stl_weld`
* `CAD.MeshUtil.stl_load_not_welded`
* `CAD.MeshUtil.closedIds_iff_points`
* `CAD.Store.add_assign`
* `CAD.Store.sub_assign`
* `CAD.Store.mul_assign`
* `CAD.Store.div_assign`
* `CAD.Store.assign_inverse`
* `CAD.Store.normalize_spec`
* `CAD.GeometryUtil.random_axis`
* `CAD.Color.pixel_components`
* `CAD.Color.color_constants`
* `CAD.oriented_outside_iff`
* `CAD.oriented_outside_moved`
* `CAD.oriented_outside_open`
* `CAD.checks_not_written`
* `CAD.plane_plane_iff`
* `CAD.plane_plane_partial`
* `CAD.plane_plane_no_line`
* `CAD.plane_plane_misses`
* `CAD.plane_plane_self`
* `CAD.Factory.geodesic_watertight`
* `CAD.Render.camera_aims`
* `CAD.Step.step_text_partial`
* `CAD.Step.step_text_decimal`
* `CAD.Step.step_exponent`
* `CAD.Step.showG_form`
* `CAD.Step.step_bad_real`
* `CAD.Step.step_integers`
* `CAD.Step.step_header`
* `CAD.Step.step_reopened`
* `CAD.MeshUtil.merge_rounding`
* `CAD.MeshUtil.merge_rounding_gap`
* `CAD.Rounded.geodesic_rounded`
* `CAD.Rounded.geodesic_double`
* `CAD.Rounded.double_rounds`
* `CAD.Rounded.exact_model`
* `CAD.ieee_representable`
* `CAD.ieee_nearest`
* `CAD.roundEven_tie`
* `CAD.Render.render_rounded`
* `CAD.Render.triangle_rounded`
* `CAD.Render.Arith.OK.render_safe`
* `CAD.Render.Arith.OK.triangle_frags`
* `CAD.Render.Arith.machine_ok`
* `CAD.Render.Arith.exact_model`
* `CAD.Render.Arith.OK.camera_sees`
* `CAD.ImageUtil.mandelbrot_rounded`
* `CAD.ImageUtil.mandelbrot_float`
* `CAD.ImageUtil.floatOK_single`
* `CAD.ImageUtil.orbit_near`
* `CAD.Rounded.volume_rounded`
* `CAD.Rounded.surface_rounded`
* `CAD.Rounded.measures_double`
* `CAD.Rounded.measureOK_double`
* `CAD.Nurbs.curve_rounded`
* `CAD.Nurbs.surface_rounded`
* `CAD.Nurbs.curve_double`
* `CAD.Nurbs.surface_double`
* `CAD.Nurbs.curve_ends_rounded`
* `CAD.Nurbs.closed_curve_rounded`
* `CAD.Nurbs.curve_ends_double`
* `CAD.Nurbs.surface_sides_rounded`
* `CAD.Nurbs.surfaces_join_rounded`
* `CAD.Nurbs.closed_surface_rounded`
* `CAD.Nurbs.surfaces_join_double`
* `CAD.Nurbs.closed_surface_double`
* `CAD.Nurbs.curve_end_not_exact`
* `CAD.Nurbs.curve_lipschitz`
* `CAD.Nurbs.surface_lipschitz`
* `CAD.Nurbs.polyline_near`
* `CAD.Nurbs.to_mesh_near`
* `CAD.Nurbs.to_mesh_converges`
* `CAD.Nurbs.to_mesh_rounded`
* `CAD.Nurbs.to_mesh_double`
* `CAD.Nurbs.to_mesh_solid_rounded`
* `CAD.Nurbs.solid_weld_rounded`
* `CAD.Nurbs.box_weld_double`
* `CAD.Nurbs.box_cracks_double`
* `CAD.Factory.tetrahedron_convex`
* `CAD.Factory.box_convex`
* `CAD.Factory.octahedron_convex`
* `CAD.Factory.icosahedron_convex`
* `CAD.Factory.dodecahedron_convex`
* `CAD.Factory.sphere_uv_convex`
* `CAD.Factory.cylinder_convex`
* `CAD.Factory.torus_outward`
* `CAD.Factory.sphere_uv_accuracy`
* `CAD.Factory.cylinder_accuracy`
* `CAD.Factory.torus_accuracy`
* `CAD.Factory.geodesic_accuracy`
* `CAD.Transform.rotation_double`
* `CAD.Transform.rotation_drift`
* `CAD.Transform.rotation_rigid`
* `CAD.Transform.euler_double`
* `CAD.Transform.mesh_rotation_drift`
* `CAD.Transform.translation_scale_double`
* `CAD.Factory.sphere_uv_double`
* `CAD.Factory.torus_double`
* `CAD.Factory.cylinder_double`
* `CAD.Factory.platonic_double`
* `CAD.Factory.sphere_uv_measured`
* `CAD.Factory.torus_measured`
* `CAD.Factory.cylinder_measured`
* `CAD.Factory.platonic_measured`
* `CAD.Rounded.distance_double`
* `CAD.Rounded.project_double`
* `CAD.Rounded.cutted_by_double`
* `CAD.Rounded.plane_segment_double`
* `CAD.Rounded.contains_double`
* `CAD.Rounded.tri_segment_double`
* `CAD.Rounded.tri_tri_double`
* `CAD.Stl.stl_measured`
* `CAD.Obj.obj_measured`
* `CAD.Obj.codecD_reads`
* `CAD.Rounded.compare_double`
* `CAD.Rounded.merge_double`
* `CAD.Rounded.weld_double`
* `CAD.MeshUtil.merge_by_spec`
* `CAD.Rounded.tessellate_double`
* `CAD.Rounded.tessellate_measured_double`
* `CAD.Rounded.tessellate_weld_double`
* `CAD.Nurbs.circle_double`
* `CAD.Nurbs.sphere_double`
* `CAD.Nurbs.torus_double`
* `CAD.Nurbs.disk_double`
* `CAD.Nurbs.cylinder_double`
* `CAD.Nurbs.shapes_id`
* `CAD.Nurbs.curve_off`
* `CAD.Nurbs.surface_off`
* `CAD.Nurbs.sphere_mesh_double`
* `CAD.Nurbs.torus_mesh_double`
* `CAD.Nurbs.cylinder_mesh_double`
* `CAD.Nurbs.solid_mesh_off`
* `CAD.Nurbs.sphere_weld_double`
* `CAD.Nurbs.torus_weld_double`
* `CAD.Nurbs.cylinder_weld_double`
* `CAD.Nurbs.sphere_gap`
* `CAD.Nurbs.torus_gap`
* `CAD.Nurbs.cylinder_gap`
* `CAD.Stl.stl_weld_double`
* `CAD.Obj.obj_weld_double`
* `CAD.Nurbs.sphere_stl_double`
* `CAD.Nurbs.torus_stl_double`
* `CAD.Nurbs.cylinder_stl_double`
* `CAD.Nurbs.toMeshSolid_allDouble`
* `CAD.Nurbs.sphere_volume`
* `CAD.Nurbs.torus_volume`
* `CAD.Nurbs.cylinder_volume`
* `CAD.Nurbs.sphere_volume_double`
* `CAD.Nurbs.torus_volume_double`
* `CAD.Nurbs.cylinder_volume_double`
* `CAD.Nurbs.sphere_area`
* `CAD.Nurbs.torus_area`
* `CAD.Nurbs.cylinder_area`
* `CAD.Nurbs.sphere_area_double`
* `CAD.Nurbs.torus_area_double`
* `CAD.Nurbs.cylinder_area_double`
* `CAD.QuadBez.eval_double`
* `CAD.QuadBez.corner_double`
* `CAD.QuadBez.side_double`
* `CAD.QuadBez.side_crack`
* `CAD.SmoothMesh.mesh_double`
* `CAD.SmoothMesh.sphere_double`
* `CAD.QuadBez.eval2Rounded_id`
* `CAD.Render.project_double`
* `CAD.Render.project_origin_double`
* `CAD.Render.project_around`
* `CAD.Render.rotated_near`
* `CAD.Render.coord_near`
* `CAD.Render.shade_double`
* `CAD.Render.triangle_color_double`
* `CAD.Render.picture_double`
* `CAD.Render.normalR_unit`
* `CAD.Render.lamps_near`
* `CAD.Render.shadeR_id`
* `CAD.Bezier.bernsteinR_id`
* `CAD.Bezier.bernstein_double`
* `CAD.CubicBez.setNormalsR_id`
* `CAD.CubicBez.set_normals_double`
* `CAD.CubicBez.normals_tangent_double`
* `CAD.CubicBez.normals_side_rounded`
* `CAD.CubicBez.normals_flat_double`
* `CAD.CubicBez.normalized_near_unit`
* `CAD.ImageUtil.scaleR_id`
* `CAD.ImageUtil.scale_double_partial`
* `CAD.ImageUtil.scale_one_double`
* `CAD.ImageUtil.scale_overflow_double`
* `CAD.ImageUtil.mandelbrot_in_range`

## propext, Quot.sound

* `CAD.add_triangle_ignores_junk`
* `CAD.half_edge_stores_nothing`
* `CAD.half_edge_vertices`
* `CAD.bbox_contains_all`
* `CAD.bbox_faces_touch`
* `CAD.bbox_least`
* `CAD.bbox_order_independent`
* `CAD.bbox_overlap_exact`
* `CAD.plane_plane_symm`
* `CAD.cross_orthogonal`
* `CAD.cross_norm_square`
* `CAD.cross_bilinear`
* `CAD.translation_laws`
* `CAD.translation_rigid`
* `CAD.apply_all_get`
* `CAD.matrix_rodrigues`
* `CAD.quaternion_default`
* `CAD.matrix_default`
* `CAD.bernstein_sum`
* `CAD.bernstein_textbook`
* `CAD.bernstein_symm`
* `CAD.QuadBez.eval_default`
* `CAD.QuadBez.eval_side`
* `CAD.QuadBez.setters_keep`
* `CAD.Nurbs.degree_elevation_3`
* `CAD.Nurbs.surface_degree_elevation_3`
* `CAD.Nurbs.set_equals_weights_keeps`
* `CAD.Nurbs.set_equals_weights_fresh`
* `CAD.Nurbs.create_from_z_short`
* `CAD.Step.step_missing_points`
* `CAD.Render.project_eye_plane`
* `CAD.Render.shade_ambient`
* `CAD.Render.shade_degenerate`
* `CAD.Face.assign_copies_iff`
* `CAD.Solid.assign_copies_iff`
* `CAD.SmoothMesh.transform_spec`
* `CAD.CubicBez.normals_side`
* `CAD.Nurbs.to_polyline_empty`
* `CAD.convert_to_bw_planes`
