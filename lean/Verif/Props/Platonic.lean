import Verif.Lemmas.Factory
import Mathlib.Tactic.LinearCombination
import Mathlib.Tactic.FieldSimp

/-! C23: tetrahedron, box, octahedron, dodecahedron, icosahedron. -/

set_option linter.unusedSimpArgs false

namespace CAD
namespace Factory
open Mesh
variable {K : Type}

/-- A closed oriented surface of the given numbers of vertices, edges and
triangles, with valid ids (specification). -/
structure Polyhedron (V E F : Nat) (r : Mesh K) : Prop where
  ok : r.OK
  vertices : r.nbVertices = V
  triangles : r.nbTriangles = F
  linked : ∀ i, 0 ≤ i → i < r.nbTriangles → r.isTriangleUnlinked i = some false
  closed : ClosedIds r.cornerList
  edges : edgeCount r.cornerList = E

instance (fs : List (Int × Int × Int)) : Decidable (ClosedIds fs) :=
  decidable_of_iff ((idEdges fs).Nodup ∧ (∀ e ∈ idEdges fs, e.swap ∈ idEdges fs) ∧
    ∀ e ∈ idEdges fs, e.1 ≠ e.2) ⟨fun h => ⟨h.1, h.2.1, h.2.2⟩, fun h => ⟨h.1, h.2, h.3⟩⟩

instance (n : Nat) (f : Int × Int × Int) : Decidable (CornersIn n f) := by
  unfold CornersIn InRange; infer_instance

theorem polyhedron_build (m : Mesh K) (ps : List (P3 K)) (fs) {V E F : Nat}
    (h1 : ps.length = V) (h2 : ∀ f ∈ fs, CornersIn V f) (h3 : fs.length = F) (h4 : ClosedIds fs)
    (h5 : 2 * E = 3 * F) : Polyhedron V E F (m.build ps fs) where
  ok := build_ok m (by rw [h1]; exact h2)
  vertices := by rw [build_nbVertices, h1]
  triangles := by rw [build_nbTriangles, h3]
  linked := build_linked m ps fs
  closed := by rw [build_cornerList]; exact h4
  edges := by
    rw [build_cornerList]
    have := h4.edgeCount
    omega

theorem volume_of [Field K] {r : Mesh K} (h : r.OK) (v : K)
    (hv : (r.triangles.map fun t => t.p1.dot t.orthogonal).sum = v * 6) (h6 : (6 : K) ≠ 0) :
    Measure.volume r = some v := by
  rw [volume_eq h]
  unfold total
  rw [← triangles_eq, hv, mul_div_cancel_right₀ _ h6]

section
variable [Field K] [LinearOrder K] [IsStrictOrderedRing K]

theorem tetra_tris (s : K) (m : Mesh K) :
    ∃ r, createTetrahedron s m = some r ∧ Polyhedron 4 6 4 r ∧ r.triangles =
      (let p0 : P3 K := ⟨s, s, s⟩
       let p1 : P3 K := ⟨-s, -s, s⟩
       let p2 : P3 K := ⟨s, -s, -s⟩
       let p3 : P3 K := ⟨-s, s, -s⟩
       [⟨p0, p1, p2⟩, ⟨p1, p3, p2⟩, ⟨p0, p3, p1⟩, ⟨p0, p2, p3⟩]) := by
  unfold createTetrahedron
  simp only [addVertices_eq]
  rw [addTriangles_eq]
  · refine ⟨_, rfl, polyhedron_build m _ _ rfl (by decide) rfl (by decide) rfl, ?_⟩
    exact (build_soup m _ _).trans rfl
  · simp only [pushPts_verts, Mesh.clear, KernLT.clear, List.nil_append, List.length_cons,
      List.length_nil]
    decide

/-- **C23** tetrahedron: closed, `4 - 6 + 4 = 2`, all edges `√8·s`, every face
outward for `s > 0`, all corners at distance `√3·s`, volume `8/3·s³`. -/
theorem tetrahedron_spec (s : K) (m : Mesh K) :
    ∃ r, createTetrahedron s m = some r ∧ Polyhedron 4 6 4 r ∧
      (∀ t ∈ r.triangles, ∀ e ∈ t.dirEdges, e.1.distSq e.2 = 8 * s ^ 2) ∧
      (∀ t ∈ r.triangles, t.p1.normSq = 3 * s ^ 2) ∧
      (∀ t ∈ r.triangles, t.p1.dot t.orthogonal = 4 * s ^ 3) ∧
      Measure.volume r = some (8 / 3 * s ^ 3) := by
  obtain ⟨r, hr, hp, ht⟩ := tetra_tris s m
  refine ⟨r, hr, hp, ?_, ?_, ?_, volume_of hp.ok _ ?_ (by norm_num)⟩
  · rw [ht]
    simp only [List.mem_cons, List.not_mem_nil, or_false, Tri3.dirEdges, forall_eq_or_imp, forall_eq,
      P3.distSq, P3.normSq]
    grind
  · rw [ht]
    simp only [List.mem_cons, List.not_mem_nil, or_false, forall_eq_or_imp, forall_eq, P3.normSq]
    grind
  · rw [ht]
    simp only [List.mem_cons, List.not_mem_nil, or_false, forall_eq_or_imp, forall_eq, Tri3.orthogonal,
      P3.dot, P3.cross, P3.sub_x, P3.sub_y, P3.sub_z]
    grind
  · rw [ht]
    simp only [List.map_cons, List.map_nil, List.sum_cons, List.sum_nil, Tri3.orthogonal,
      P3.dot, P3.cross, P3.sub_x, P3.sub_y, P3.sub_z]
    ring

theorem box_tris (x y z : K) (m : Mesh K) :
    ∃ r, createBox x y z m = some r ∧ Polyhedron 8 18 12 r ∧ r.triangles =
      (let p0 : P3 K := ⟨x / 2, y / 2, z / 2⟩
       let p1 : P3 K := ⟨-(x / 2), y / 2, z / 2⟩
       let p2 : P3 K := ⟨-(x / 2), -(y / 2), z / 2⟩
       let p3 : P3 K := ⟨x / 2, -(y / 2), z / 2⟩
       let p4 : P3 K := ⟨x / 2, y / 2, -(z / 2)⟩
       let p5 : P3 K := ⟨-(x / 2), y / 2, -(z / 2)⟩
       let p6 : P3 K := ⟨-(x / 2), -(y / 2), -(z / 2)⟩
       let p7 : P3 K := ⟨x / 2, -(y / 2), -(z / 2)⟩
       [⟨p0, p1, p2⟩,
       ⟨p2, p3, p0⟩,
       ⟨p7, p6, p5⟩,
       ⟨p5, p4, p7⟩,
       ⟨p4, p5, p1⟩,
       ⟨p1, p0, p4⟩,
       ⟨p3, p2, p6⟩,
       ⟨p6, p7, p3⟩,
       ⟨p5, p6, p2⟩,
       ⟨p2, p1, p5⟩,
       ⟨p0, p3, p7⟩,
       ⟨p7, p4, p0⟩]) := by
  unfold createBox
  simp only [addVertices_eq]
  rw [addQuads_eq]
  · refine ⟨_, rfl, polyhedron_build m _ _ rfl (by decide +kernel) rfl (by decide +kernel) rfl, ?_⟩
    exact (build_soup m _ _).trans rfl
  · simp only [pushPts_verts, Mesh.clear, KernLT.clear, List.nil_append, List.length_cons,
      List.length_nil]
    decide +kernel

/-- **C23** box: closed, `8 - 18 + 12 = 2`, the corners are `(±x/2, ±y/2, ±z/2)`,
every face triangle outward for positive sizes, volume `x·y·z`. -/
theorem box_spec (x y z : K) (m : Mesh K) :
    ∃ r, createBox x y z m = some r ∧ Polyhedron 8 18 12 r ∧
      (∀ t ∈ r.triangles, ∀ e ∈ t.dirEdges,
        (e.1.x = x / 2 ∨ e.1.x = -(x / 2)) ∧ (e.1.y = y / 2 ∨ e.1.y = -(y / 2)) ∧
        (e.1.z = z / 2 ∨ e.1.z = -(z / 2))) ∧
      (∀ t ∈ r.triangles, t.p1.dot t.orthogonal = x * y * z / 2) ∧
      Measure.volume r = some (x * y * z) := by
  obtain ⟨r, hr, hp, ht⟩ := box_tris x y z m
  refine ⟨r, hr, hp, ?_, ?_, volume_of hp.ok _ ?_ (by norm_num)⟩
  · rw [ht]
    simp only [List.mem_cons, List.not_mem_nil, or_false, Tri3.dirEdges, forall_eq_or_imp, forall_eq,
      true_or, or_true, and_true]
  · rw [ht]
    simp only [List.mem_cons, List.not_mem_nil, or_false, forall_eq_or_imp, forall_eq, Tri3.orthogonal,
      P3.dot, P3.cross, P3.sub_x, P3.sub_y, P3.sub_z]
    refine ⟨?_, ?_, ?_, ?_, ?_, ?_, ?_, ?_, ?_, ?_, ?_, ?_⟩ <;> ring
  · rw [ht]
    simp only [List.map_cons, List.map_nil, List.sum_cons, List.sum_nil, Tri3.orthogonal,
      P3.dot, P3.cross, P3.sub_x, P3.sub_y, P3.sub_z]
    ring

theorem octa_tris (s : K) (m : Mesh K) :
    ∃ r, createOctahedron s m = some r ∧ Polyhedron 6 12 8 r ∧ r.triangles =
      (let p0 : P3 K := ⟨s, 0, 0⟩
       let p1 : P3 K := ⟨0, s, 0⟩
       let p2 : P3 K := ⟨0, 0, s⟩
       let p3 : P3 K := ⟨-s, 0, 0⟩
       let p4 : P3 K := ⟨0, -s, 0⟩
       let p5 : P3 K := ⟨0, 0, -s⟩
       [⟨p0, p1, p2⟩,
       ⟨p1, p0, p5⟩,
       ⟨p2, p1, p3⟩,
       ⟨p0, p2, p4⟩,
       ⟨p4, p3, p5⟩,
       ⟨p3, p4, p2⟩,
       ⟨p5, p3, p1⟩,
       ⟨p4, p5, p0⟩]) := by
  unfold createOctahedron
  simp only [addVertices_eq]
  rw [addTriangles_eq]
  · refine ⟨_, rfl, polyhedron_build m _ _ rfl (by decide +kernel) rfl (by decide +kernel) rfl, ?_⟩
    exact (build_soup m _ _).trans rfl
  · simp only [pushPts_verts, Mesh.clear, KernLT.clear, List.nil_append, List.length_cons,
      List.length_nil]
    decide +kernel

/-- **C23** octahedron: closed, `6 - 12 + 8 = 2`, all edges `√2·s`, corners at
distance `s`, every face outward for `s > 0`, volume `4/3·s³`. -/
theorem octahedron_spec (s : K) (m : Mesh K) :
    ∃ r, createOctahedron s m = some r ∧ Polyhedron 6 12 8 r ∧
      (∀ t ∈ r.triangles, ∀ e ∈ t.dirEdges, e.1.distSq e.2 = 2 * s ^ 2) ∧
      (∀ t ∈ r.triangles, t.p1.normSq = s ^ 2) ∧
      (∀ t ∈ r.triangles, t.p1.dot t.orthogonal = s ^ 3) ∧
      Measure.volume r = some (4 / 3 * s ^ 3) := by
  obtain ⟨r, hr, hp, ht⟩ := octa_tris s m
  refine ⟨r, hr, hp, ?_, ?_, ?_, volume_of hp.ok _ ?_ (by norm_num)⟩
  · rw [ht]
    simp only [List.mem_cons, List.not_mem_nil, or_false, Tri3.dirEdges, forall_eq_or_imp, forall_eq,
      P3.distSq, P3.normSq]
    grind
  · rw [ht]
    simp only [List.mem_cons, List.not_mem_nil, or_false, forall_eq_or_imp, forall_eq, P3.normSq]
    grind
  · rw [ht]
    simp only [List.mem_cons, List.not_mem_nil, or_false, forall_eq_or_imp, forall_eq, Tri3.orthogonal,
      P3.dot, P3.cross, P3.sub_x, P3.sub_y, P3.sub_z]
    grind
  · rw [ht]
    simp only [List.map_cons, List.map_nil, List.sum_cons, List.sum_nil, Tri3.orthogonal,
      P3.dot, P3.cross, P3.sub_x, P3.sub_y, P3.sub_z]
    ring

end

theorem icosaWith_tris (s t : ℝ) (m : Mesh ℝ) :
    ∃ r, icosahedronWith s t m = some r ∧ Polyhedron 12 30 20 r ∧ r.triangles =
      (let p0 : P3 ℝ := ⟨s, 0, t⟩
       let p1 : P3 ℝ := ⟨s, 0, -t⟩
       let p2 : P3 ℝ := ⟨-s, 0, t⟩
       let p3 : P3 ℝ := ⟨-s, 0, -t⟩
       let p4 : P3 ℝ := ⟨0, t, s⟩
       let p5 : P3 ℝ := ⟨0, -t, s⟩
       let p6 : P3 ℝ := ⟨0, t, -s⟩
       let p7 : P3 ℝ := ⟨0, -t, -s⟩
       let p8 : P3 ℝ := ⟨t, s, 0⟩
       let p9 : P3 ℝ := ⟨-t, s, 0⟩
       let p10 : P3 ℝ := ⟨t, -s, 0⟩
       let p11 : P3 ℝ := ⟨-t, -s, 0⟩
       [⟨p0, p1, p8⟩,
       ⟨p0, p10, p1⟩,
       ⟨p2, p3, p11⟩,
       ⟨p2, p9, p3⟩,
       ⟨p4, p5, p0⟩,
       ⟨p4, p2, p5⟩,
       ⟨p6, p7, p3⟩,
       ⟨p6, p1, p7⟩,
       ⟨p8, p9, p4⟩,
       ⟨p8, p6, p9⟩,
       ⟨p10, p11, p7⟩,
       ⟨p10, p5, p11⟩,
       ⟨p0, p8, p4⟩,
       ⟨p3, p7, p11⟩,
       ⟨p10, p0, p5⟩,
       ⟨p9, p6, p3⟩,
       ⟨p1, p6, p8⟩,
       ⟨p2, p11, p5⟩,
       ⟨p2, p4, p9⟩,
       ⟨p1, p10, p7⟩]) := by
  unfold icosahedronWith
  simp only [addVertices_eq]
  rw [addTriangles_eq]
  · refine ⟨_, rfl, polyhedron_build m _ _ rfl (by decide +kernel) rfl (by decide +kernel) rfl, ?_⟩
    exact (build_soup m _ _).trans rfl
  · simp only [pushPts_verts, Mesh.clear, KernLT.clear, List.nil_append, List.length_cons,
      List.length_nil]
    decide +kernel

theorem icosa_tris (s : ℝ) (m : Mesh ℝ) :
    ∃ r, createIcosahedron s m = some r ∧ Polyhedron 12 30 20 r ∧ r.triangles =
      (let t := (Real.sqrt 5 - 1) / 2 * s
       let p0 : P3 ℝ := ⟨s, 0, t⟩
       let p1 : P3 ℝ := ⟨s, 0, -t⟩
       let p2 : P3 ℝ := ⟨-s, 0, t⟩
       let p3 : P3 ℝ := ⟨-s, 0, -t⟩
       let p4 : P3 ℝ := ⟨0, t, s⟩
       let p5 : P3 ℝ := ⟨0, -t, s⟩
       let p6 : P3 ℝ := ⟨0, t, -s⟩
       let p7 : P3 ℝ := ⟨0, -t, -s⟩
       let p8 : P3 ℝ := ⟨t, s, 0⟩
       let p9 : P3 ℝ := ⟨-t, s, 0⟩
       let p10 : P3 ℝ := ⟨t, -s, 0⟩
       let p11 : P3 ℝ := ⟨-t, -s, 0⟩
       [⟨p0, p1, p8⟩,
       ⟨p0, p10, p1⟩,
       ⟨p2, p3, p11⟩,
       ⟨p2, p9, p3⟩,
       ⟨p4, p5, p0⟩,
       ⟨p4, p2, p5⟩,
       ⟨p6, p7, p3⟩,
       ⟨p6, p1, p7⟩,
       ⟨p8, p9, p4⟩,
       ⟨p8, p6, p9⟩,
       ⟨p10, p11, p7⟩,
       ⟨p10, p5, p11⟩,
       ⟨p0, p8, p4⟩,
       ⟨p3, p7, p11⟩,
       ⟨p10, p0, p5⟩,
       ⟨p9, p6, p3⟩,
       ⟨p1, p6, p8⟩,
       ⟨p2, p11, p5⟩,
       ⟨p2, p4, p9⟩,
       ⟨p1, p10, p7⟩]) :=
  icosaWith_tris s ((Real.sqrt 5 - 1) / 2 * s) m

/-- **C23** icosahedron: closed, `12 - 30 + 20 = 2`, all edges `a = (√5 - 1)·s`, all
corners at the same distance, every face outward for `s > 0`, and the textbook
volume `5(3 + √5)/12·a³`. -/
theorem icosahedron_spec (s : ℝ) (m : Mesh ℝ) :
    ∃ r, createIcosahedron s m = some r ∧ Polyhedron 12 30 20 r ∧
      (∀ t ∈ r.triangles, ∀ e ∈ t.dirEdges, e.1.distSq e.2 = ((Real.sqrt 5 - 1) * s) ^ 2) ∧
      (∀ t ∈ r.triangles, t.p1.normSq = (5 - Real.sqrt 5) / 2 * s ^ 2) ∧
      (∀ t ∈ r.triangles, t.p1.dot t.orthogonal = (Real.sqrt 5 - 1) * s ^ 3) ∧
      Measure.volume r = some (5 * (3 + Real.sqrt 5) / 12 * ((Real.sqrt 5 - 1) * s) ^ 3) := by
  obtain ⟨r, hr, hp, ht⟩ := icosa_tris s m
  have h5 : Real.sqrt 5 ^ 2 = 5 := Real.sq_sqrt (by norm_num)
  generalize Real.sqrt 5 = q at *
  refine ⟨r, hr, hp, ?_, ?_, ?_, volume_of hp.ok _ ?_ (by norm_num)⟩
  · rw [ht]
    simp only [List.mem_cons, List.not_mem_nil, or_false, Tri3.dirEdges, forall_eq_or_imp, forall_eq,
      P3.distSq, P3.normSq]
    grind
  · rw [ht]
    simp only [List.mem_cons, List.not_mem_nil, or_false, forall_eq_or_imp, forall_eq, P3.normSq]
    grind
  · rw [ht]
    simp only [List.mem_cons, List.not_mem_nil, or_false, forall_eq_or_imp, forall_eq, Tri3.orthogonal,
      P3.dot, P3.cross, P3.sub_x, P3.sub_y, P3.sub_z]
    grind
  · rw [ht]
    simp only [List.map_cons, List.map_nil, List.sum_cons, List.sum_nil, Tri3.orthogonal,
      P3.dot, P3.cross, P3.sub_x, P3.sub_y, P3.sub_z]
    grind

theorem dodeca_tris (s : ℝ) (m : Mesh ℝ) :
    ∃ r, createDodecahedron s m = some r ∧ Polyhedron 20 54 36 r ∧ r.triangles =
      (let t1 := (Real.sqrt 5 + 1) / 2 * s
       let t2 := 1 / ((Real.sqrt 5 + 1) / 2) * s
       let p0 : P3 ℝ := ⟨s, s, s⟩
       let p1 : P3 ℝ := ⟨s, s, -s⟩
       let p2 : P3 ℝ := ⟨s, -s, s⟩
       let p3 : P3 ℝ := ⟨s, -s, -s⟩
       let p4 : P3 ℝ := ⟨-s, s, s⟩
       let p5 : P3 ℝ := ⟨-s, s, -s⟩
       let p6 : P3 ℝ := ⟨-s, -s, s⟩
       let p7 : P3 ℝ := ⟨-s, -s, -s⟩
       let p8 : P3 ℝ := ⟨0, t1, t2⟩
       let p9 : P3 ℝ := ⟨0, t1, -t2⟩
       let p10 : P3 ℝ := ⟨0, -t1, t2⟩
       let p11 : P3 ℝ := ⟨0, -t1, -t2⟩
       let p12 : P3 ℝ := ⟨t2, 0, t1⟩
       let p13 : P3 ℝ := ⟨t2, 0, -t1⟩
       let p14 : P3 ℝ := ⟨-t2, 0, t1⟩
       let p15 : P3 ℝ := ⟨-t2, 0, -t1⟩
       let p16 : P3 ℝ := ⟨t1, t2, 0⟩
       let p17 : P3 ℝ := ⟨t1, -t2, 0⟩
       let p18 : P3 ℝ := ⟨-t1, t2, 0⟩
       let p19 : P3 ℝ := ⟨-t1, -t2, 0⟩
       [⟨p0, p12, p2⟩,
       ⟨p2, p17, p16⟩,
       ⟨p0, p2, p16⟩,
       ⟨p19, p18, p5⟩,
       ⟨p5, p15, p7⟩,
       ⟨p19, p5, p7⟩,
       ⟨p12, p0, p8⟩,
       ⟨p8, p4, p14⟩,
       ⟨p12, p8, p14⟩,
       ⟨p13, p3, p11⟩,
       ⟨p11, p7, p15⟩,
       ⟨p13, p11, p15⟩,
       ⟨p2, p12, p14⟩,
       ⟨p14, p6, p10⟩,
       ⟨p2, p14, p10⟩,
       ⟨p9, p1, p13⟩,
       ⟨p13, p15, p5⟩,
       ⟨p9, p13, p5⟩,
       ⟨p18, p19, p6⟩,
       ⟨p6, p14, p4⟩,
       ⟨p18, p6, p4⟩,
       ⟨p3, p13, p1⟩,
       ⟨p1, p16, p17⟩,
       ⟨p3, p1, p17⟩,
       ⟨p1, p9, p8⟩,
       ⟨p8, p0, p16⟩,
       ⟨p1, p8, p16⟩,
       ⟨p19, p7, p11⟩,
       ⟨p11, p10, p6⟩,
       ⟨p19, p11, p6⟩,
       ⟨p18, p4, p8⟩,
       ⟨p8, p9, p5⟩,
       ⟨p18, p8, p5⟩,
       ⟨p2, p10, p11⟩,
       ⟨p11, p3, p17⟩,
       ⟨p2, p11, p17⟩]) := by
  unfold createDodecahedron
  simp only [addVertices_eq]
  rw [addPentagons_eq]
  · refine ⟨_, rfl, polyhedron_build m _ _ rfl (by decide +kernel) rfl (by decide +kernel) rfl, ?_⟩
    exact (build_soup m _ _).trans rfl
  · simp only [pushPts_verts, Mesh.clear, KernLT.clear, List.nil_append, List.length_cons,
      List.length_nil]
    decide +kernel

/-- **C23** dodecahedron, each pentagon cut in three triangles: closed,
`20 - 54 + 36 = 2`; every mesh edge is a pentagon side of length `a = (√5 - 1)·s` or
a pentagon diagonal of length `2·s`; all corners at distance `√3·s`; every
triangle outward for `s > 0`; the textbook volume `(15 + 7√5)/4·a³`. -/
theorem dodecahedron_spec (s : ℝ) (m : Mesh ℝ) :
    ∃ r, createDodecahedron s m = some r ∧ Polyhedron 20 54 36 r ∧
      (∀ t ∈ r.triangles, ∀ e ∈ t.dirEdges,
        e.1.distSq e.2 = ((Real.sqrt 5 - 1) * s) ^ 2 ∨ e.1.distSq e.2 = (2 * s) ^ 2) ∧
      (∀ t ∈ r.triangles, ∀ e ∈ t.dirEdges, e.1.normSq = 3 * s ^ 2) ∧
      (∀ t ∈ r.triangles, t.p1.dot t.orthogonal = 2 * s ^ 3 ∨
        t.p1.dot t.orthogonal = (Real.sqrt 5 + 1) * s ^ 3) ∧
      Measure.volume r = some ((15 + 7 * Real.sqrt 5) / 4 * ((Real.sqrt 5 - 1) * s) ^ 3) := by
  obtain ⟨r, hr, hp, ht⟩ := dodeca_tris s m
  have h5 : Real.sqrt 5 ^ 2 = 5 := Real.sq_sqrt (by norm_num)
  have hpos : 0 < Real.sqrt 5 + 1 := by positivity
  have hinv : 1 / ((Real.sqrt 5 + 1) / 2) = (Real.sqrt 5 - 1) / 2 := by
    field_simp; linear_combination -h5
  rw [hinv] at ht
  clear hinv hpos
  generalize Real.sqrt 5 = q at *
  refine ⟨r, hr, hp, ?_, ?_, ?_, volume_of hp.ok _ ?_ (by norm_num)⟩
  · rw [ht]
    simp only [List.mem_cons, List.not_mem_nil, or_false, Tri3.dirEdges, forall_eq_or_imp, forall_eq,
      P3.distSq, P3.normSq]
    grind
  · rw [ht]
    simp only [List.mem_cons, List.not_mem_nil, or_false, Tri3.dirEdges, forall_eq_or_imp, forall_eq,
      P3.distSq, P3.normSq]
    grind
  · rw [ht]
    simp only [List.mem_cons, List.not_mem_nil, or_false, forall_eq_or_imp, forall_eq, Tri3.orthogonal,
      P3.dot, P3.cross, P3.sub_x, P3.sub_y, P3.sub_z]
    grind
  · rw [ht]
    simp only [List.map_cons, List.map_nil, List.sum_cons, List.sum_nil, Tri3.orthogonal,
      P3.dot, P3.cross, P3.sub_x, P3.sub_y, P3.sub_z]
    grind

end Factory
end CAD
