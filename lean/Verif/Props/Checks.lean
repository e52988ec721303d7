import Verif.Props.Measure
import Verif.Props.Platonic
import Verif.Spec.Geometry

/-! C106: what the yes/no checks of `MeshMeasurements` say. -/

set_option linter.unusedSimpArgs false

namespace CAD
open Mesh
variable {K : Type}

section
variable [Field K] [LinearOrder K] [IsStrictOrderedRing K]

/-- C106.  `is_oriented_outside` compares the enclosed volume with zero. -/
theorem oriented_outside_iff (m : Mesh K) (hm : m.OK) :
    ∃ b, Measure.isOrientedOutside m = some b ∧ (b = true ↔ 0 ≤ (m.triangles.map fun t => det3 t.p1 t.p2 t.p3).sum) := by
  refine ⟨decide ((m.triangles.map fun t => det3 t.p1 t.p2 t.p3).sum / 6 ≥ 0), ?_, ?_⟩
  · unfold Measure.isOrientedOutside
    rw [measures_are_sums m hm]; rfl
  · rw [decide_eq_true_iff]
    constructor
    · intro h
      have := mul_nonneg h (show (0 : K) ≤ 6 by norm_num)
      rwa [div_mul_cancel₀ _ (by norm_num)] at this
    · intro h
      exact div_nonneg h (by norm_num)

/-- C106.  Moving a closed mesh by any affine map of positive determinant (translations, rotations,
scales by positive factors) keeps the answer; a map of negative determinant (a mirror) turns it
over unless the volume is zero. -/
theorem oriented_outside_moved (m m' : Mesh K) (hm : m.OK) (hc : ClosedSoup m.triangles) (r1 r2 r3 t : P3 K)
    (h : m.applyTransform (affine r1 r2 r3 t) = some m') :
    (0 < det3 r1 r2 r3 → Measure.isOrientedOutside m' = Measure.isOrientedOutside m) ∧
    (det3 r1 r2 r3 < 0 → Measure.volume m ≠ some 0 →
      Measure.isOrientedOutside m' = (Measure.isOrientedOutside m).map (! ·)) := by
  have hV := measures_are_sums m hm
  generalize (m.triangles.map fun t => det3 t.p1 t.p2 t.p3).sum / 6 = V at hV
  have hv := volume_affine m m' hm hc r1 r2 r3 t h V hV
  unfold Measure.isOrientedOutside
  rw [hv, hV]
  constructor
  · intro hd
    simp only [Option.bind_eq_bind, Option.bind_some, Option.pure_def, Option.some.injEq, decide_eq_decide]
    exact mul_nonneg_iff_of_pos_left hd
  · intro hd h0
    have h0' : V ≠ 0 := fun e => h0 (by rw [e])
    simp only [Option.bind_eq_bind, Option.bind_some, Option.pure_def, Option.map_some, Option.some.injEq]
    by_cases hp : 0 ≤ V
    · have : ¬ 0 ≤ det3 r1 r2 r3 * V := by
        rw [not_le]; exact mul_neg_of_neg_of_pos hd (lt_of_le_of_ne hp h0'.symm)
      simp [hp, this]
    · have : 0 ≤ det3 r1 r2 r3 * V := (mul_pos_of_neg_of_neg hd (not_le.1 hp)).le
      simp [hp, this]

end

/-- the unit box of `MeshFactory` is oriented outside, its mirror image is not -/
example : (do
    let m ← Factory.createBox 1 1 1 (Mesh.new : Mesh ℚ)
    let m' ← m.applyTransform (affine ⟨-1, 0, 0⟩ ⟨0, 1, 0⟩ ⟨0, 0, 1⟩ ⟨5, 0, 0⟩)
    let a ← Measure.isOrientedOutside m
    let b ← Measure.isOrientedOutside m'
    return (a, b, decide (ClosedSoup m.triangles)) : Res (Bool × Bool × Bool)) = some (true, false, true) := by decide +kernel

/-- C106.  For a mesh that is not closed the answer depends on where the mesh is: translating one
triangle turns it over. -/
theorem oriented_outside_open : ∃ (m m' : Mesh ℚ) (t : P3 ℚ), m.OK ∧ m.applyTransform (affine ⟨1, 0, 0⟩ ⟨0, 1, 0⟩ ⟨0, 0, 1⟩ t) = some m' ∧
    Measure.isOrientedOutside m = some true ∧ Measure.isOrientedOutside m' = some false := by
  have h : ((Mesh.run ([.addTrianglePts ⟨0, 0, 1⟩ ⟨1, 0, 1⟩ ⟨0, 1, 1⟩] : List (MOp ℚ))).bind fun r =>
      (r.1.applyTransform (affine ⟨1, 0, 0⟩ ⟨0, 1, 0⟩ ⟨0, 0, 1⟩ ⟨0, 0, -2⟩)).map fun m' =>
        (Measure.isOrientedOutside r.1, Measure.isOrientedOutside m')) = some (some true, some false) := by decide +kernel
  obtain ⟨⟨m, ids⟩, h1, h2⟩ := Option.bind_eq_some_iff.1 h
  obtain ⟨m', h3, h4⟩ := Option.map_eq_some_iff.1 h2
  rw [Prod.mk.injEq] at h4
  exact ⟨m, m', _, Mesh.run_ok h1, h3, h4.1, h4.2⟩

/-! ### The checks that are not written yet -/

/-- a vertex of no linked triangle (specification) -/
def HasIsolatedVertex (m : Mesh K) : Prop :=
  ∃ i, (m.getVertex i).isSome ∧ ∀ f ∈ m.cornerList, f.1 ≠ i ∧ f.2.1 ≠ i ∧ f.2.2 ≠ i

/-- two vertices at one place (specification) -/
def HasDuplicatedVertices (m : Mesh K) : Prop :=
  ∃ i j p, i ≠ j ∧ m.getVertex i = some p ∧ m.getVertex j = some p

/-- an edge of a linked triangle of length zero, shorter than any other (specification) -/
def HasShortEdge (m : Mesh K) : Prop := ∃ t ∈ m.triangles, ∃ e ∈ t.dirEdges, e.1 = e.2

/-- two linked triangles without a common corner that share a point (specification) -/
def HasSelfIntersection [Field K] [LinearOrder K] (m : Mesh K) : Prop :=
  ∃ s ∈ m.triangles, ∃ t ∈ m.triangles, (∀ p ∈ [s.p1, s.p2, s.p3], ∀ q ∈ [t.p1, t.p2, t.p3], p ≠ q) ∧
    ∃ q, InTriangle s q ∧ InTriangle t q

/-- two crossing triangles, a triangle with a doubled corner and a lone vertex -/
def badOps : List (MOp ℚ) :=
  [.addTrianglePts ⟨0, 0, 0⟩ ⟨4, 0, 0⟩ ⟨0, 4, 0⟩, .addTrianglePts ⟨1, 1, -1⟩ ⟨1, 1, 1⟩ ⟨5, 5, 0⟩,
   .addTrianglePts ⟨9, 0, 0⟩ ⟨9, 0, 0⟩ ⟨9, 1, 0⟩, .addVertex ⟨7, 7, 7⟩]

/-- C106, negation: the four checks for self intersections, isolated vertices, duplicated vertices
and short edges answer yes on every mesh, also on one that has all four defects. -/
theorem checks_not_written (n : Mesh K) :
    (Measure.hasNoSelfIntersections n = true ∧ Measure.hasNoIsolatedVertices n = true ∧
      Measure.hasNoDuplicatedVertices n = true ∧ Measure.hasNoShortEdges n = true) ∧
    ∃ m ids, Mesh.run badOps = some (m, ids) ∧ HasSelfIntersection m ∧ HasIsolatedVertex m ∧ HasDuplicatedVertices m ∧ HasShortEdge m := by
  refine ⟨⟨rfl, rfl, rfl, rfl⟩, ?_⟩
  have ht : ((Mesh.run badOps).map fun r => r.1.triangles) =
      some [⟨⟨0, 0, 0⟩, ⟨4, 0, 0⟩, ⟨0, 4, 0⟩⟩, ⟨⟨1, 1, -1⟩, ⟨1, 1, 1⟩, ⟨5, 5, 0⟩⟩, ⟨⟨9, 0, 0⟩, ⟨9, 0, 0⟩, ⟨9, 1, 0⟩⟩] := by
    decide +kernel
  have hl : ((Mesh.run badOps).map fun r => r.1.cornerList) = some [(0, 1, 2), (3, 4, 5), (6, 7, 8)] := by decide +kernel
  have hv : ((Mesh.run badOps).map fun r => [r.1.getVertex 6, r.1.getVertex 7, r.1.getVertex 9]) =
      some [some ⟨9, 0, 0⟩, some ⟨9, 0, 0⟩, some ⟨7, 7, 7⟩] := by decide +kernel
  obtain ⟨⟨m, ids⟩, h1, e1⟩ := Option.map_eq_some_iff.1 ht
  rw [h1] at hl hv
  simp only [Option.map_some, Option.some.injEq, List.cons.injEq, and_true] at hv
  have e2 : m.cornerList = [(0, 1, 2), (3, 4, 5), (6, 7, 8)] := Option.some.inj hl
  obtain ⟨e3, e4, e5⟩ := hv
  replace e1 : m.triangles = _ := e1
  refine ⟨m, ids, h1, ?_, ?_, ?_, ?_⟩
  · refine ⟨_, by rw [e1]; exact List.mem_cons_self, _, by rw [e1]; exact List.mem_cons_of_mem _ List.mem_cons_self, ?_, ⟨1, 1, 0⟩, ?_, ?_⟩
    · decide +kernel
    · exact ⟨1 / 2, 1 / 4, 1 / 4, by norm_num, by norm_num, by norm_num, by norm_num, by ext <;> norm_num⟩
    · exact ⟨1 / 2, 1 / 2, 0, by norm_num, by norm_num, by norm_num, by norm_num, by ext <;> norm_num⟩
  · refine ⟨9, by rw [e5]; rfl, ?_⟩
    rw [e2]
    decide
  · exact ⟨6, 7, _, by decide, e3, e4⟩
  · refine ⟨_, by rw [e1]; exact List.mem_cons_of_mem _ (List.mem_cons_of_mem _ List.mem_cons_self), _, List.mem_cons_self, rfl⟩

end CAD
