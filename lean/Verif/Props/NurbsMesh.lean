import Verif.Props.NurbsSolids
import Verif.Props.Surfaces
import Mathlib.Tactic.IntervalCases

/-! C56: `NurbsUtil::to_mesh`. -/

set_option linter.unusedSimpArgs false

namespace CAD
namespace Nurbs
open BSpline Mesh MeshUtil Factory
variable {K : Type} [Field K] [LinearOrder K] [IsStrictOrderedRing K]

/-- the sample in column `i` and row `j` -/
def sample (s : Surface K) (U V i j : Nat) : P3 K := (s.at ((i : K) / U) ((j : K) / V)).getD ⟨0, 0, 0⟩

/-- all samples, row by row -/
def samples (s : Surface K) (U V : Nat) : List (P3 K) :=
  (List.range (V + 1)).flatMap fun j => (List.range (U + 1)).map fun i => sample s U V i j

theorem length_samples (s : Surface K) (U V : Nat) : (samples s U V).length = (U + 1) * (V + 1) := by
  simp [samples, List.length_flatMap, mul_comm]

theorem getElem?_samples (s : Surface K) {U V i j : Nat} (hi : i ≤ U) (hj : j ≤ V) :
    (samples s U V)[i + (U + 1) * j]? = some (sample s U V i j) :=
  range_grid_getElem? (U + 1) (V + 1) (fun j i => sample s U V i j) i j (by omega) (by omega)

theorem frac_mem {i U : Nat} (h : i ≤ U) (hU : 0 < U) : 0 ≤ (i : K) / U ∧ (i : K) / U ≤ 1 := by
  have : (0 : K) < U := by exact_mod_cast hU
  refine ⟨by positivity, ?_⟩
  rw [div_le_one this]
  exact_mod_cast h

theorem sample_eq {s : Surface K} {p q nu nv : Nat} (h : s.Valid p q nu nv) (hw : ∀ w ∈ s.weights, 0 < w) {U V i j : Nat}
    (hU : 0 < U) (hV : 0 < V) (hi : i ≤ U) (hj : j ≤ V) :
    s.at ((i : K) / U) ((j : K) / V) = some (sample s U V i j) := by
  obtain ⟨a, b⟩ := frac_mem (K := K) hi hU
  obtain ⟨c, d⟩ := frac_mem (K := K) hj hV
  obtain ⟨x, hx⟩ := Option.isSome_iff_exists.1 (surface_evaluate_defined h hw a b c d)
  rw [sample, hx]; rfl

theorem SameShape.trans' {s s' s'' : Surface K} (h : s.SameShape s') (h' : s'.SameShape s'') : s.SameShape s'' := by
  obtain ⟨a1, a2, a3, a4, a5, a6, a7, a8, a9, a10⟩ := h
  obtain ⟨b1, b2, b3, b4, b5, b6, b7, b8, b9, b10⟩ := h'
  exact ⟨b1.trans a1, b2.trans a2, b3.trans a3, b4.trans a4, b5.trans a5, b6.trans a6, b7.trans a7, b8.trans a8,
    b9.trans a9, b10.trans a10⟩

/-- the vertices of `to_mesh`, whatever the arithmetic -/
theorem toMeshVerticesBy_eq {o : EvalOps K} {quot : K → K → Res K} {g : Nat → Nat → P3 K} {s : Surface K} {p q nu nv : Nat}
    (h : s.Valid p q nu nv) {U V : Nat}
    (hg : ∀ i ≤ U, ∀ j ≤ V, ∃ a b, quot i U = some a ∧ quot j V = some b ∧ ∀ t : Surface K, t.Valid p q nu nv → s.SameShape t →
      ∃ t', t.evaluateBy o a b = some (t', g i j) ∧ t'.Valid p q nu nv ∧ t.SameShape t') (m : Mesh K) :
    ∃ s', toMeshVerticesBy o quot U V (s, m) = some (s', m.pushPts ((List.range (V + 1)).flatMap fun j => (List.range (U + 1)).map fun i => g i j)) ∧
      s'.Valid p q nu nv ∧ s.SameShape s' := by
  have eU : ((U : Int) + 1).toNat = U + 1 := by omega
  have eV : ((V : Int) + 1).toNat = V + 1 := by omega
  unfold toMeshVerticesBy
  rw [eU, eV]
  obtain ⟨⟨s', m'⟩, e, hv, hs, rfl⟩ := loopN_inv (n := V + 1) (s := (s, m)) (f := _)
    (fun j (a : Surface K × Mesh K) => a.1.Valid p q nu nv ∧ s.SameShape a.1 ∧
      a.2 = m.pushPts ((List.range j).flatMap fun j => (List.range (U + 1)).map fun i => g i j))
    ⟨h, ⟨rfl, rfl, rfl, rfl, rfl, rfl, rfl, rfl, rfl, rfl⟩, by simp [pushPts_nil]⟩ (by
      rintro j hj ⟨t, mt⟩ ⟨hv, hs, rfl⟩
      obtain ⟨⟨t', mt'⟩, e, hv', hs', rfl⟩ := loopN_inv (n := U + 1)
        (s := (t, m.pushPts ((List.range j).flatMap fun j => (List.range (U + 1)).map fun i => g i j)))
        (f := fun (u : Nat) (a : Surface K × Mesh K) => do
          let du1 ← quot (u : K) ((U : Int) : K)
          let dv1 ← quot (j : K) ((V : Int) : K)
          let r ← a.1.evaluateBy o du1 dv1
          return (r.1, (a.2.addVertex r.2).1))
        (fun i (a : Surface K × Mesh K) => a.1.Valid p q nu nv ∧ s.SameShape a.1 ∧
          a.2 = m.pushPts (((List.range j).flatMap fun j => (List.range (U + 1)).map fun i => g i j) ++
            (List.range i).map fun i => g i j))
        ⟨hv, hs, by simp⟩ (by
          rintro i hi ⟨r, mr⟩ ⟨hv, hs, hmr⟩
          simp only at hv hs hmr
          obtain ⟨a, b, ha, hb, ev⟩ := hg i (by omega) j (by omega)
          obtain ⟨r', hr, k1, k2⟩ := ev r hv hs
          refine ⟨(r', (mr.addVertex (g i j)).1), ?_, k1, SameShape.trans' hs k2, ?_⟩
          · simp only [Int.cast_natCast, ha, hb, Option.bind_eq_bind, Option.bind_some, hr, Option.pure_def]
          · simp only
            rw [addVertex_eq, hmr, pushPts_push, List.range_succ (n := i), List.map_append, List.append_assoc]
            rfl)
      exact ⟨_, e, hv', hs', by rw [List.range_succ (n := j), List.flatMap_append, List.flatMap_singleton]⟩)
  exact ⟨s', e, hv, hs⟩

/-- what the exact arithmetic gives at a sample -/
theorem exact_sample {s : Surface K} {p q nu nv : Nat} (h : s.Valid p q nu nv) (hw : ∀ w ∈ s.weights, 0 < w)
    {U V : Nat} (hU : 0 < U) (hV : 0 < V) (i : Nat) (hi : i ≤ U) (j : Nat) (hj : j ≤ V) :
    ∃ a b, divR (i : K) U = some a ∧ divR (j : K) V = some b ∧ ∀ t : Surface K, t.Valid p q nu nv → s.SameShape t →
      ∃ t', t.evaluateBy exactOps a b = some (t', sample s U V i j) ∧ t'.Valid p q nu nv ∧ t.SameShape t' := by
  have hU' : (U : K) ≠ 0 := by exact_mod_cast hU.ne'
  have hV' : (V : K) ≠ 0 := by exact_mod_cast hV.ne'
  refine ⟨_, _, if_neg hU', if_neg hV', fun t hv hs => ?_⟩
  have hat := sample_eq h hw hU hV hi hj
  rw [← surface_evaluate_history_free h hv hs] at hat
  obtain ⟨⟨r', x⟩, hr, hx⟩ := Option.map_eq_some_iff.1 hat
  obtain ⟨k1, k2⟩ := surface_evaluate_keeps hv hr
  simp only at hx
  exact ⟨r', by rw [← hx]; exact hr, k1, k2⟩

/-! ### the quads -/

/-- cells of the sampling grid, as `(v, u)` -/
def meshCells (U V : Nat) : List (Nat × Nat) := List.range V ×ˢ List.range U

/-- the two triangles of a cell, as grid positions -/
def meshCell (cu cv : Bool) (U V : Nat) (c : Nat × Nat) : List ((Int × Int) × (Int × Int) × (Int × Int)) :=
  let i : Int := c.2
  let j : Int := c.1
  [((i, j), (wrap cu i U, j), (wrap cu i U, wrap cv j V)), ((wrap cu i U, wrap cv j V), (i, wrap cv j V), (i, j))]

/-- vertex id of a grid position -/
def meshId (start : Int) (U : Nat) (p : Int × Int) : Int := start + gid (U + 1) p

/-- all triangles, as vertex ids -/
def meshFaces (cu cv : Bool) (start : Int) (U V : Nat) : List (Int × Int × Int) :=
  ((meshCells U V).flatMap (meshCell cu cv U V)).map (mapTri (meshId start U))

theorem mem_meshCells {U V : Nat} {c : Nat × Nat} : c ∈ meshCells U V ↔ c.1 < V ∧ c.2 < U := by
  obtain ⟨j, i⟩ := c
  change (j, i) ∈ List.product _ _ ↔ _
  rw [List.pair_mem_product, List.mem_range, List.mem_range]

theorem wrap_range (cl : Bool) {i U : Nat} (h : i < U) : 0 ≤ wrap cl i U ∧ wrap cl i U < U + 1 := by
  unfold wrap; split_ifs <;> omega

theorem meshId_range {start : Nat} {U V : Nat} {p : Int × Int} (h1 : 0 ≤ p.1 ∧ p.1 < U + 1) (h2 : 0 ≤ p.2 ∧ p.2 < V + 1) :
    (start : Int) ≤ meshId start U p ∧ meshId start U p < start + (U + 1) * (V + 1) := by
  have := gid_range (X := U + 1) (Y := V + 1) h1 h2 (n := (U + 1) * (V + 1)) (by push_cast; ring)
  obtain ⟨a, b⟩ := this
  push_cast at b
  unfold meshId
  constructor <;> omega

theorem meshFaces_range {cu cv : Bool} {start U V : Nat} : ∀ f ∈ meshFaces cu cv start U V,
    ((start : Int) ≤ f.1 ∧ f.1 < start + (U + 1) * (V + 1)) ∧ ((start : Int) ≤ f.2.1 ∧ f.2.1 < start + (U + 1) * (V + 1)) ∧
      ((start : Int) ≤ f.2.2 ∧ f.2.2 < start + (U + 1) * (V + 1)) := by
  intro f hf
  obtain ⟨t, ht, rfl⟩ := List.mem_map.1 hf
  obtain ⟨⟨j, i⟩, hc, ht⟩ := List.mem_flatMap.1 ht
  obtain ⟨h1, h2⟩ := mem_meshCells.1 hc
  simp only at h1 h2
  have a := wrap_range cu h2
  have b := wrap_range cv h1
  simp only [meshCell, List.mem_cons, List.not_mem_nil, or_false] at ht
  rcases ht with rfl | rfl
  · exact ⟨meshId_range ⟨by simp, by simp; omega⟩ ⟨by simp, by simp; omega⟩, meshId_range a ⟨by simp, by simp; omega⟩,
      meshId_range a b⟩
  · exact ⟨meshId_range a b, meshId_range ⟨by simp, by simp; omega⟩ b,
      meshId_range ⟨by simp, by simp; omega⟩ ⟨by simp, by simp; omega⟩⟩

theorem length_meshFaces (cu cv : Bool) (start : Int) (U V : Nat) : (meshFaces cu cv start U V).length = 2 * U * V := by
  unfold meshFaces
  rw [List.length_map, List.length_flatMap]
  simp only [meshCell, List.length_cons, List.length_nil, List.map_const', List.sum_replicate, meshCells,
    List.length_product, List.length_range, smul_eq_mul]
  ring

theorem toMeshQuads_eq (cu cv : Bool) (start U V : Nat) (m : Mesh K)
    (hm : m.kern.verts.length = start + (U + 1) * (V + 1)) :
    toMeshQuads cu cv start U V m = some (m.pushTris (meshFaces cu cv start U V)) := by
  unfold toMeshQuads
  have key : ∀ (j i : Nat), j < V → i < U → ∀ s : Mesh K, s.kern.verts = m.kern.verts →
      s.addQuad (start + i + (U + 1) * j) (start + wrap cu i U + (U + 1) * j)
        (start + wrap cu i U + (U + 1) * wrap cv j V) (start + i + (U + 1) * wrap cv j V) =
        some (s.pushTris ((meshCell cu cv U V (j, i)).map (mapTri (meshId start U)))) := by
    intro j i hj hi s hs
    rw [addQuad_eq, if_pos]
    · simp [meshCell, mapTri, meshId, gid, add_assoc]
    · have hin : ∀ f ∈ (meshCell cu cv U V (j, i)).map (mapTri (meshId start U)), CornersIn s.kern.verts.length f := by
        intro f hf
        have := meshFaces_range (cu := cu) (cv := cv) (start := start) (U := U) (V := V) f (by
          obtain ⟨t, ht, rfl⟩ := List.mem_map.1 hf
          exact List.mem_map_of_mem (List.mem_flatMap.2 ⟨(j, i), mem_meshCells.2 ⟨hj, hi⟩, ht⟩))
        obtain ⟨⟨a1, a2⟩, ⟨b1, b2⟩, c1, c2⟩ := this
        rw [hs, hm]
        refine ⟨⟨by omega, ?_⟩, ⟨by omega, ?_⟩, by omega, ?_⟩ <;> push_cast <;> assumption
      have h1 := hin (_, _, _) (List.mem_cons_self ..)
      have h2 := hin (_, _, _) (List.mem_cons_of_mem _ (List.mem_cons_self ..))
      simp only [meshId, gid, ← add_assoc] at h1 h2
      exact ⟨h1, h2⟩
  rw [loopN_pushTris (g := fun j => (List.range U).flatMap fun i =>
    (meshCell cu cv U V (j, i)).map (mapTri (meshId start U))) m.kern.verts]
  · congr 2
    unfold meshFaces meshCells
    rw [List.map_flatMap]
    simp only [List.product, List.flatMap_assoc, SProd.sprod, List.flatMap_map, Int.toNat_natCast]
  · intro j hj s hs
    exact loopN_pushTris (g := fun i => (meshCell cu cv U V (j, i)).map (mapTri (meshId start U))) m.kern.verts
      (fun i hi s hs => key j i (by simpa using hj) (by simpa using hi) s hs) s hs
  · rfl

/-- what `to_mesh` makes, whatever the arithmetic: the samples and the triangles are appended -/
theorem toMeshBy_eq {o : EvalOps K} {quot : K → K → Res K} {g : Nat → Nat → P3 K} {s : Surface K} {p q nu nv : Nat}
    (h : s.Valid p q nu nv) {k : Nat} (hk : 0 < k)
    (hg : ∀ i ≤ k * nu, ∀ j ≤ k * nv, ∃ a b, quot i ((k * nu : Nat) : K) = some a ∧ quot j ((k * nv : Nat) : K) = some b ∧
      ∀ t : Surface K, t.Valid p q nu nv → s.SameShape t →
        ∃ t', t.evaluateBy o a b = some (t', g i j) ∧ t'.Valid p q nu nv ∧ t.SameShape t') (m : Mesh K) (b : Bool) :
    let M := if b then m.clear else m
    ∃ s', s'.Valid p q nu nv ∧ s.SameShape s' ∧ toMeshBy o quot s m k b = some (s',
      (M.pushPts ((List.range (k * nv + 1)).flatMap fun j => (List.range (k * nu + 1)).map fun i => g i j)).pushTris
        (meshFaces s.closedU s.closedV M.kern.verts.length (k * nu) (k * nv))) := by
  intro M
  have hnu : 0 < nu := lt_of_le_of_lt (Nat.zero_le _) h.knotsU.p_lt_n
  have hnv : 0 < nv := lt_of_le_of_lt (Nat.zero_le _) h.knotsV.p_lt_n
  have hU : 0 < k * nu := Nat.mul_pos hk hnu
  have hV : 0 < k * nv := Nat.mul_pos hk hnv
  obtain ⟨s', e, hv, hs⟩ := toMeshVerticesBy_eq h hg M
  refine ⟨s', hv, hs, ?_⟩
  unfold toMeshBy
  have e1 : (k : Int) * s.nbU = ((k * nu : Nat) : Int) := by rw [h.nbU]; push_cast; ring
  have e2 : (k : Int) * s.nbV = ((k * nv : Nat) : Int) := by rw [h.nbV]; push_cast; ring
  have e3 : ¬ (((k * nu : Nat) : Int) * ((k * nu : Nat) : Int) = 0) := by
    rw [mul_self_eq_zero]; omega
  have e4 : (if b = true then m.clear else m) = M := rfl
  have e5 : M.nbVertices = (M.kern.verts.length : Int) := rfl
  rw [e4]
  simp only [e1, e2, e3, if_false, e, Option.bind_eq_bind, Option.bind_some, e5]
  rw [toMeshQuads_eq _ _ _ _ _ _ (by
    rw [pushPts_verts, List.length_append, List.length_flatMap]
    simp [mul_comm])]
  rfl

/-- what `to_mesh` makes: the samples and the triangles are appended -/
theorem toMesh_eq {s : Surface K} {p q nu nv : Nat} (h : s.Valid p q nu nv) (hw : ∀ w ∈ s.weights, 0 < w) {k : Nat}
    (hk : 0 < k) (m : Mesh K) (b : Bool) :
    let M := if b then m.clear else m
    ∃ s', s'.Valid p q nu nv ∧ s.SameShape s' ∧ toMesh s m k b = some (s', (M.pushPts (samples s (k * nu) (k * nv))).pushTris
      (meshFaces s.closedU s.closedV M.kern.verts.length (k * nu) (k * nv))) :=
  toMeshBy_eq h hk (fun i hi j hj => exact_sample h hw
    (Nat.mul_pos hk (lt_of_le_of_lt (Nat.zero_le _) h.knotsU.p_lt_n))
    (Nat.mul_pos hk (lt_of_le_of_lt (Nat.zero_le _) h.knotsV.p_lt_n)) i hi j hj) m b

/-- C56.  `to_mesh` on a mesh `m` (emptied first if asked): the new vertices are the
samples of the surface on a grid of `U + 1` times `V + 1` parameters, there are
`2 U V` new triangles, linked and between new vertices, and what the mesh held before
is unchanged.  `U` and `V` are the number of segments times the number of control
points. -/
theorem to_mesh_spec {s : Surface K} {p q nu nv : Nat} (h : s.Valid p q nu nv) (hw : ∀ w ∈ s.weights, 0 < w) {k : Nat}
    (hk : 0 < k) (m : Mesh K) (hm : m.OK) (b : Bool) :
    let M := if b then m.clear else m
    let U := k * nu
    let V := k * nv
    ∃ s' m', toMesh s m k b = some (s', m') ∧ s.SameShape s' ∧ m'.OK ∧
      m'.nbVertices = M.nbVertices + (U + 1) * (V + 1) ∧ m'.nbTriangles = M.nbTriangles + 2 * U * V ∧
      (∀ i j : Nat, i ≤ U → j ≤ V → ∃ P, m'.getVertex (M.nbVertices + i + (U + 1) * j) = some P ∧
        s.at ((i : K) / U) ((j : K) / V) = some P) ∧
      (∀ i, 0 ≤ i → i < M.nbVertices → m'.getVertex i = M.getVertex i) ∧
      (∀ t, 0 ≤ t → t < M.nbTriangles → m'.getTriangleVertices t = M.getTriangleVertices t ∧
        m'.isTriangleUnlinked t = M.isTriangleUnlinked t) ∧
      (∀ t, M.nbTriangles ≤ t → t < m'.nbTriangles → m'.isTriangleUnlinked t = some false ∧
        ∃ a b c, m'.getTriangleVertices t = some (a, b, c) ∧ (M.nbVertices ≤ a ∧ a < m'.nbVertices) ∧
          (M.nbVertices ≤ b ∧ b < m'.nbVertices) ∧ (M.nbVertices ≤ c ∧ c < m'.nbVertices)) := by
  intro M U V
  have hnu : 0 < nu := lt_of_le_of_lt (Nat.zero_le _) h.knotsU.p_lt_n
  have hnv : 0 < nv := lt_of_le_of_lt (Nat.zero_le _) h.knotsV.p_lt_n
  have hU : 0 < U := Nat.mul_pos hk hnu
  have hV : 0 < V := Nat.mul_pos hk hnv
  have hM : M.OK := by simp only [M]; split_ifs; exacts [clear_ok m, hm]
  obtain ⟨s', -, hs, e⟩ := toMesh_eq h hw hk m b
  have hr := meshFaces_range (cu := s.closedU) (cv := s.closedV) (start := M.kern.verts.length) (U := U) (V := V)
  have hview : ((M.pushPts (samples s U V)).pushTris (meshFaces s.closedU s.closedV M.kern.verts.length U V)).view =
      ⟨M.kern.verts ++ samples s U V, M.view.faces ++ (meshFaces s.closedU s.closedV M.kern.verts.length U V).map (⟨·, true⟩),
        M.color⟩ := by
    rw [view_pushTris]; rfl
  have hnV : M.nbVertices = (M.kern.verts.length : Int) := rfl
  have hnT : M.nbTriangles = (M.view.faces.length : Int) := (answers_view M).nbTriangles
  generalize hm' : (M.pushPts (samples s U V)).pushTris (meshFaces s.closedU s.closedV M.kern.verts.length U V) = m' at hview
  have nV : m'.nbVertices = M.nbVertices + (U + 1) * (V + 1) := by
    rw [(answers_view m').nbVertices, hview, hnV]
    simp only [List.length_append, length_samples]
    push_cast; ring
  have nT : m'.nbTriangles = M.nbTriangles + 2 * U * V := by
    rw [(answers_view m').nbTriangles, hview, hnT]
    simp only [List.length_append, List.length_map, length_meshFaces]
    push_cast; ring
  refine ⟨s', m', by rw [e]; exact congrArg _ (congrArg _ hm'), hs, ?_, nV, nT, ?_, ?_, ?_, ?_⟩
  · rw [← hm']
    refine (hM.pushPts _).pushTris ?_
    intro f hf
    obtain ⟨⟨a1, a2⟩, ⟨b1, b2⟩, c1, c2⟩ := hr f hf
    simp only [pushPts_verts, List.length_append, length_samples]
    refine ⟨⟨by omega, ?_⟩, ⟨by omega, ?_⟩, by omega, ?_⟩ <;> push_cast <;> assumption
  · intro i j hi hj
    refine ⟨sample s U V i j, ?_, sample_eq h hw hU hV hi hj⟩
    rw [(answers_view m').getVertex, hview, hnV]
    have : ((M.kern.verts.length : Int) + i + (U + 1) * j) = ((M.kern.verts.length + (i + (U + 1) * j) : Nat) : Int) := by
      push_cast; ring
    rw [this, getI_natCast, List.getElem?_append_right (by omega), Nat.add_sub_cancel_left, getElem?_samples s hi hj]
  · intro i h0 h1
    lift i to Nat using h0
    rw [(answers_view m').getVertex, hview, (answers_view M).getVertex, getI_natCast, getI_natCast,
      List.getElem?_append_left (by omega)]
    rfl
  · intro t h0 h1
    lift t to Nat using h0
    rw [(answers_view m').corners, (answers_view m').unlinked, hview, (answers_view M).corners, (answers_view M).unlinked,
      getI_natCast, getI_natCast, List.getElem?_append_left (by omega)]
    exact ⟨rfl, rfl⟩
  · intro t h0 h1
    obtain ⟨n, rfl⟩ := Int.eq_ofNat_of_zero_le (a := t) (by omega)
    rw [(answers_view m').corners, (answers_view m').unlinked, hview, getI_natCast, List.getElem?_append_right (by omega)]
    have hlen : n - M.view.faces.length < (meshFaces s.closedU s.closedV M.kern.verts.length U V).length := by
      rw [length_meshFaces]
      zify
      rw [Nat.cast_sub (by omega)]
      omega
    rw [List.getElem?_map, List.getElem?_eq_getElem hlen]
    obtain ⟨g1, g2, g3⟩ := hr _ (List.getElem_mem hlen)
    rw [nV]
    exact ⟨rfl, _, _, _, rfl, g1, g2, g3⟩

/-! ### the boundary -/

/-- the directed edges of a cell -/
def meshEdges (cu cv : Bool) (U V : Nat) (c : Nat × Nat) : List ((Int × Int) × (Int × Int)) :=
  let i : Int := c.2
  let j : Int := c.1
  let i' := wrap cu i U
  let j' := wrap cv j V
  [((i, j), (i', j)), ((i', j), (i', j')), ((i', j'), (i, j)), ((i', j'), (i, j')), ((i, j'), (i, j)), ((i, j), (i', j'))]

theorem idEdges_mesh (cu cv : Bool) (start : Int) (U V : Nat) : idEdges (meshFaces cu cv start U V) =
    ((meshCells U V).flatMap (meshEdges cu cv U V)).map (Prod.map (meshId start U) (meshId start U)) := by
  unfold idEdges meshFaces
  induction meshCells U V with
  | nil => rfl
  | cons c l ih =>
    simp only [List.flatMap_cons, List.map_append, List.flatMap_append, ih]
    congr 1

/-- inverse of `wrap` -/
def unwrap (i U : Int) : Int := if i = 0 then U - 1 else i - 1

/-- the cell an edge belongs to -/
def meshCellOf (cu cv : Bool) (U V : Nat) (e : (Int × Int) × (Int × Int)) : Nat × Nat :=
  let dx := e.2.1 - e.1.1
  let dy := e.2.2 - e.1.2
  if dx = 1 ∨ (cu = true ∧ dx = 1 - U) then (e.1.2.toNat, e.1.1.toNat)
  else if dx = 0 then
    if dy = 1 ∨ (cv = true ∧ dy = 1 - V) then (e.1.2.toNat, (unwrap e.1.1 U).toNat) else (e.2.2.toNat, e.2.1.toNat)
  else if dy = 0 then ((unwrap e.2.2 V).toNat, e.2.1.toNat) else (e.2.2.toNat, e.2.1.toNat)

theorem wrap_cases (cl : Bool) {i U : Nat} (h : i < U) :
    (wrap cl i U = 0 ∧ cl = true ∧ (i : Int) = U - 1) ∨ (wrap cl i U = i + 1 ∧ ¬ (cl = true ∧ (i : Int) = U - 1)) := by
  unfold wrap
  split_ifs with h1
  · exact Or.inl ⟨rfl, h1⟩
  · exact Or.inr ⟨rfl, h1⟩

theorem meshEdges_nodup {cu cv : Bool} {U V : Nat} (hu : cu = true → 3 ≤ U) (hv : cv = true → 3 ≤ V) :
    ((meshCells U V).flatMap (meshEdges cu cv U V)).Nodup := by
  refine nodup_of_cells (List.Nodup.product List.nodup_range List.nodup_range) _ (meshCellOf cu cv U V) ?_ ?_
  · rintro ⟨j, i⟩ hc e he
    obtain ⟨h1, h2⟩ := mem_meshCells.1 hc
    simp only at h1 h2
    simp only [meshEdges, List.mem_cons, List.not_mem_nil, or_false] at he
    have w1 := wrap_cases cu h2
    have w2 := wrap_cases cv h1
    generalize wrap cu i U = i' at he w1
    generalize wrap cv j V = j' at he w2
    have key : ∀ x y x' y' : Nat, x = x' → y = y' → (x, y) = (x', y') := fun _ _ _ _ h1 h2 => by rw [h1, h2]
    cases cu <;> cases cv <;>
      simp only [Bool.false_eq_true, false_imp_iff, forall_const, false_and, true_and, not_false_eq_true, and_true,
        and_false, false_or] at w1 w2 hu hv <;>
      rcases he with rfl | rfl | rfl | rfl | rfl | rfl <;>
      simp only [meshCellOf, unwrap, Bool.false_eq_true, false_and, true_and, or_false] <;> split_ifs <;>
      first | omega | (refine key _ _ _ _ ?_ ?_ <;> omega)
  · rintro ⟨j, i⟩ hc
    obtain ⟨h1, h2⟩ := mem_meshCells.1 hc
    simp only at h1 h2
    have w1 := wrap_cases cu h2
    have w2 := wrap_cases cv h1
    simp only [meshEdges]
    generalize wrap cu i U = i' at w1
    generalize wrap cv j V = j' at w2
    have a1 : i' ≠ i := by
      cases cu <;> simp only [Bool.false_eq_true, false_imp_iff, forall_const, false_and, true_and, not_false_eq_true, and_true,
        and_false, false_or] at w1 hu <;> omega
    have a2 : j' ≠ j := by
      cases cv <;> simp only [Bool.false_eq_true, false_imp_iff, forall_const, false_and, true_and, not_false_eq_true, and_true,
        and_false, false_or] at w2 hv <;> omega
    simp [a1, a2, a1.symm, a2.symm]

theorem mem_meshEdges {cu cv : Bool} {U V : Nat} {e : (Int × Int) × (Int × Int)} :
    e ∈ (meshCells U V).flatMap (meshEdges cu cv U V) ↔ ∃ i j : Nat, i < U ∧ j < V ∧ e ∈ meshEdges cu cv U V (j, i) := by
  rw [List.mem_flatMap]
  constructor
  · rintro ⟨⟨j, i⟩, hc, he⟩
    obtain ⟨h1, h2⟩ := mem_meshCells.1 hc
    exact ⟨i, j, h2, h1, he⟩
  · rintro ⟨i, j, h2, h1, he⟩
    exact ⟨(j, i), mem_meshCells.2 ⟨h1, h2⟩, he⟩

/-- The sides of the sampling grid that are not closed, as directed edges between grid
positions: bottom and top if the surface is not closed in `v`, left and right if it is
not closed in `u`. -/
def OpenSide (cu cv : Bool) (U V : Nat) (e : (Int × Int) × (Int × Int)) : Prop :=
  (cv = false ∧ ∃ i : Nat, i < U ∧ (e = (((i : Int), (0 : Int)), (wrap cu i U, (0 : Int))) ∨ e = ((wrap cu i U, (V : Int)), ((i : Int), (V : Int))))) ∨
  (cu = false ∧ ∃ j : Nat, j < V ∧ (e = (((U : Int), (j : Int)), ((U : Int), wrap cv j V)) ∨ e = (((0 : Int), wrap cv j V), ((0 : Int), (j : Int)))))

theorem mesh_pos_boundary {cu cv : Bool} {U V : Nat} (hu : cu = true → 3 ≤ U) (hv : cv = true → 3 ≤ V)
    {e : (Int × Int) × (Int × Int)} (he : e ∈ (meshCells U V).flatMap (meshEdges cu cv U V)) :
    e.swap ∉ (meshCells U V).flatMap (meshEdges cu cv U V) ↔ OpenSide cu cv U V e := by
  rw [mem_meshEdges] at he
  obtain ⟨i, j, hi, hj, he⟩ := he
  constructor
  · intro hn
    by_contra hno
    apply hn
    rw [mem_meshEdges]
    simp only [meshEdges, List.mem_cons, List.not_mem_nil, or_false] at he
    rcases he with rfl | rfl | rfl | rfl | rfl | rfl
    · -- bottom of the cell
      by_cases h0 : j = 0
      · cases cv with
        | false => exact absurd (show OpenSide cu false U V _ from Or.inl ⟨rfl, i, hi, Or.inl (by simp [h0])⟩) hno
        | true =>
          have := hv rfl
          refine ⟨i, V - 1, hi, by omega, ?_⟩
          have : wrap true ((V - 1 : Nat) : Int) V = 0 := by unfold wrap; rw [if_pos ⟨rfl, by omega⟩]
          simp [meshEdges, this, h0]
      · refine ⟨i, j - 1, hi, by omega, ?_⟩
        have : wrap cv ((j - 1 : Nat) : Int) V = j := by unfold wrap; rw [if_neg (by omega)]; omega
        simp [meshEdges, this]
    · -- right
      by_cases h0 : i = U - 1
      · cases cu with
        | false =>
          refine absurd (show OpenSide false cv U V _ from Or.inr ⟨rfl, j, hj, Or.inl ?_⟩) hno
          have : wrap false (i : Int) U = U := by unfold wrap; simp; omega
          rw [this]
        | true =>
          have := hu rfl
          refine ⟨0, j, by omega, hj, ?_⟩
          have : wrap true (i : Int) U = 0 := by unfold wrap; rw [if_pos ⟨rfl, by omega⟩]
          simp [meshEdges, this]
      · refine ⟨i + 1, j, by omega, hj, ?_⟩
        have : wrap cu (i : Int) U = i + 1 := by unfold wrap; rw [if_neg (by omega)]
        simp [meshEdges, this]
    · exact ⟨i, j, hi, hj, by simp [meshEdges]⟩
    · -- top
      by_cases h0 : j = V - 1
      · cases cv with
        | false =>
          refine absurd (show OpenSide cu false U V _ from Or.inl ⟨rfl, i, hi, Or.inr ?_⟩) hno
          have : wrap false (j : Int) V = V := by unfold wrap; simp; omega
          rw [this]
        | true =>
          have := hv rfl
          refine ⟨i, 0, hi, by omega, ?_⟩
          have : wrap true (j : Int) V = 0 := by unfold wrap; rw [if_pos ⟨rfl, by omega⟩]
          simp [meshEdges, this]
      · refine ⟨i, j + 1, hi, by omega, ?_⟩
        have : wrap cv (j : Int) V = j + 1 := by unfold wrap; rw [if_neg (by omega)]
        simp [meshEdges, this]
    · -- left
      by_cases h0 : i = 0
      · cases cu with
        | false => exact absurd (show OpenSide false cv U V _ from Or.inr ⟨rfl, j, hj, Or.inr (by simp [h0])⟩) hno
        | true =>
          have := hu rfl
          refine ⟨U - 1, j, by omega, hj, ?_⟩
          have : wrap true ((U - 1 : Nat) : Int) U = 0 := by unfold wrap; rw [if_pos ⟨rfl, by omega⟩]
          simp [meshEdges, this, h0]
      · refine ⟨i - 1, j, by omega, hj, ?_⟩
        have : wrap cu ((i - 1 : Nat) : Int) U = i := by unfold wrap; rw [if_neg (by omega)]; omega
        simp [meshEdges, this]
    · exact ⟨i, j, hi, hj, by simp [meshEdges]⟩
  · intro ho hmem
    rw [mem_meshEdges] at hmem
    obtain ⟨i', j', hi', hj', hmem⟩ := hmem
    simp only [meshEdges, List.mem_cons, List.not_mem_nil, or_false] at hmem
    have w1 := wrap_cases cu hi'
    have w2 := wrap_cases cv hj'
    rcases ho with ⟨rfl, k, hk, rfl | rfl⟩ | ⟨rfl, k, hk, rfl | rfl⟩
    all_goals
      first
        | have w3 := wrap_cases cu hk
          simp only [Prod.swap, Prod.mk.injEq] at hmem
          cases cu <;> simp only [Bool.false_eq_true, false_and, and_false, not_false_eq_true, and_true, false_or, true_and,
            or_false, not_false_iff] at w1 w2 w3 <;> (try have := hu rfl) <;> omega
        | have w3 := wrap_cases cv hk
          simp only [Prod.swap, Prod.mk.injEq] at hmem
          cases cv <;> simp only [Bool.false_eq_true, false_and, and_false, not_false_eq_true, and_true, false_or, true_and,
            or_false, not_false_iff] at w1 w2 w3 <;> (try have := hv rfl) <;> omega

theorem meshEdges_range {cu cv : Bool} {U V : Nat} {e} (h : e ∈ (meshCells U V).flatMap (meshEdges cu cv U V)) :
    (0 ≤ e.1.1 ∧ e.1.1 < U + 1) ∧ (0 ≤ e.2.1 ∧ e.2.1 < U + 1) := by
  obtain ⟨i, j, hi, hj, he⟩ := mem_meshEdges.1 h
  have := wrap_range cu hi
  simp only [meshEdges, List.mem_cons, List.not_mem_nil, or_false] at he
  rcases he with rfl | rfl | rfl | rfl | rfl | rfl <;> simp only <;> omega

theorem meshEdges_proper {cu cv : Bool} {U V : Nat} (hu : cu = true → 3 ≤ U) (hv : cv = true → 3 ≤ V) {e}
    (h : e ∈ (meshCells U V).flatMap (meshEdges cu cv U V)) : e.1 ≠ e.2 := by
  obtain ⟨i, j, hi, hj, he⟩ := mem_meshEdges.1 h
  simp only [meshEdges, List.mem_cons, List.not_mem_nil, or_false] at he
  have w1 := wrap_cases cu hi
  have w2 := wrap_cases cv hj
  generalize wrap cu i U = i' at he w1
  generalize wrap cv j V = j' at he w2
  have a1 : i' ≠ i := by
    cases cu <;> simp only [Bool.false_eq_true, false_imp_iff, forall_const, false_and, true_and, not_false_eq_true, and_true,
      and_false, false_or] at w1 hu <;> omega
  have a2 : j' ≠ j := by
    cases cv <;> simp only [Bool.false_eq_true, false_imp_iff, forall_const, false_and, true_and, not_false_eq_true, and_true,
      and_false, false_or] at w2 hv <;> omega
  rcases he with rfl | rfl | rfl | rfl | rfl | rfl <;> simp [a1, a2, a1.symm, a2.symm]

theorem meshId_inj {start : Int} {U : Nat} {p q : Int × Int} (hp : 0 ≤ p.1 ∧ p.1 < U + 1) (hq : 0 ≤ q.1 ∧ q.1 < U + 1)
    (h : meshId start U p = meshId start U q) : p = q := gid_inj hp hq (by unfold meshId at h; omega)

/-- C56, topology.  Each directed edge of the mesh occurs once; the edges whose reverse
does not occur are exactly the sides of the sampling grid in the directions in which the
surface is not flagged as closed. -/
theorem to_mesh_boundary {s : Surface K} {p q nu nv : Nat} (h : s.Valid p q nu nv) (hw : ∀ w ∈ s.weights, 0 < w) {k : Nat}
    (hk : 0 < k) (m : Mesh K) (hu : s.closedU = true → 3 ≤ k * nu) (hv : s.closedV = true → 3 ≤ k * nv) :
    ∃ s' m', toMesh s m k true = some (s', m') ∧ (idEdges m'.cornerList).Nodup ∧ (∀ e ∈ idEdges m'.cornerList, e.1 ≠ e.2) ∧
      ∀ e ∈ idEdges m'.cornerList, e.swap ∉ idEdges m'.cornerList ↔
        ∃ a b, OpenSide s.closedU s.closedV (k * nu) (k * nv) (a, b) ∧
          e = (a.1 + (k * nu + 1) * a.2, b.1 + (k * nu + 1) * b.2) := by
  obtain ⟨s', -, -, e⟩ := toMesh_eq h hw hk m true
  refine ⟨s', _, e, ?_⟩
  have e0 : ((m.clear.kern.verts.length : Nat) : Int) = 0 := rfl
  have hcl : (((if true = true then m.clear else m).pushPts (samples s (k * nu) (k * nv))).pushTris
      (meshFaces s.closedU s.closedV ((if true = true then m.clear else m).kern.verts.length : Nat) (k * nu) (k * nv))).cornerList =
      meshFaces s.closedU s.closedV 0 (k * nu) (k * nv) := by
    simp only [if_true, e0]
    exact build_cornerList m _ _
  rw [hcl, idEdges_mesh]
  refine ⟨?_, ?_, ?_⟩
  · refine List.Nodup.map_on ?_ (meshEdges_nodup hu hv)
    intro e he f hf h
    obtain ⟨a, b⟩ := meshEdges_range he
    obtain ⟨c, d⟩ := meshEdges_range hf
    simp only [Prod.map, Prod.mk.injEq] at h
    exact Prod.ext (meshId_inj a c h.1) (meshId_inj b d h.2)
  · intro e he heq
    obtain ⟨⟨a, b⟩, hab, rfl⟩ := List.mem_map.1 he
    obtain ⟨ha, hb⟩ := meshEdges_range hab
    exact meshEdges_proper hu hv hab (meshId_inj ha hb heq)
  · intro e he
    obtain ⟨⟨a, b⟩, hab, rfl⟩ := List.mem_map.1 he
    obtain ⟨ha, hb⟩ := meshEdges_range hab
    have hiff : Prod.swap (Prod.map (meshId 0 (k * nu)) (meshId 0 (k * nu)) (a, b)) ∈
        ((meshCells (k * nu) (k * nv)).flatMap (meshEdges s.closedU s.closedV (k * nu) (k * nv))).map
          (Prod.map (meshId 0 (k * nu)) (meshId 0 (k * nu))) ↔
        Prod.swap (a, b) ∈ (meshCells (k * nu) (k * nv)).flatMap (meshEdges s.closedU s.closedV (k * nu) (k * nv)) := by
      constructor
      · intro h
        obtain ⟨⟨c, d⟩, hcd, h⟩ := List.mem_map.1 h
        obtain ⟨hc, hd⟩ := meshEdges_range hcd
        simp only [Prod.map, Prod.swap, Prod.mk.injEq] at h
        have h1 := meshId_inj hc hb h.1
        have h2 := meshId_inj hd ha h.2
        simp only at h1 h2
        simp only [Prod.swap]
        rw [← h1, ← h2]; exact hcd
      · intro h
        exact List.mem_map.2 ⟨_, h, rfl⟩
    rw [hiff, mesh_pos_boundary hu hv hab]
    constructor
    · intro ho
      exact ⟨a, b, ho, by simp [Prod.map, meshId, gid]⟩
    · rintro ⟨c, d, ho, hcd⟩
      have hr : (0 ≤ c.1 ∧ c.1 < ((k * nu : Nat) : Int) + 1) ∧ (0 ≤ d.1 ∧ d.1 < ((k * nu : Nat) : Int) + 1) := by
        rcases ho with ⟨-, i, hi, h | h⟩ | ⟨-, j, hj, h | h⟩
        all_goals
          simp only [Prod.mk.injEq] at h
          obtain ⟨rfl, rfl⟩ := h
          simp only
        · have := wrap_range s.closedU hi; omega
        · have := wrap_range s.closedU hi; omega
        · omega
        · omega
      simp only [Prod.map, Prod.mk.injEq, meshId, zero_add, gid] at hcd
      push_cast at hcd
      have h1 : a = c := gid_inj ha hr.1 (by simp only [gid]; push_cast; exact hcd.1)
      have h2 : b = d := gid_inj hb hr.2 (by simp only [gid]; push_cast; exact hcd.2)
      rw [h1, h2]; exact ho

/-- C56: the mesh of a surface flagged closed in both directions is a closed oriented
surface. -/
theorem to_mesh_closed {s : Surface K} {p q nu nv : Nat} (h : s.Valid p q nu nv) (hw : ∀ w ∈ s.weights, 0 < w) {k : Nat}
    (hk : 0 < k) (m : Mesh K) (hu : 3 ≤ k * nu) (hv : 3 ≤ k * nv) (cu : s.closedU = true) (cv : s.closedV = true) :
    ∃ s' m', toMesh s m k true = some (s', m') ∧ ClosedIds m'.cornerList := by
  obtain ⟨s', m', e, hn, hp, hb⟩ := to_mesh_boundary h hw hk m (fun _ => hu) (fun _ => hv)
  refine ⟨s', m', e, hn, fun e he => ?_, hp⟩
  by_contra hne
  obtain ⟨a, b, ho, -⟩ := (hb e he).1 hne
  rw [cu, cv] at ho
  rcases ho with ⟨h, -⟩ | ⟨h, -⟩ <;> exact absurd h (by decide)

/-- C56 for a concrete shape: the mesh of the torus is a closed oriented surface at every
resolution, for all radii and whatever the target surface held. -/
theorem torus_mesh_closed {tol : K} (ht : 0 < tol) {r2 : K} (h2 : 0 < r2) (major minor : K) (ns : Surface K)
    {k : Nat} (hk : 0 < k) (m : Mesh K) :
    ∃ S s' m', createTorus tol r2 major minor ns = some S ∧ toMesh S m k true = some (s', m') ∧ ClosedIds m'.cornerList ∧
      m'.nbTriangles = 2 * (9 * k) * (9 * k) := by
  obtain ⟨tp, tw, e, l1, l2⟩ := setDegree_curve (Curve.new : Curve K).clear 2
  simp only [Nat.cast_ofNat] at e
  have hc : createCircle r2 minor Curve.new = some ⟨2, knotsCircle, [1, 1 / r2, 1, 1 / r2, 1, 1 / r2, 1, 1 / r2, 1],
      [minor • ⟨1, 0, 0⟩, minor • ⟨1, 1, 0⟩, minor • ⟨0, 1, 0⟩, minor • ⟨-1, 1, 0⟩, minor • ⟨-1, 0, 0⟩, minor • ⟨-1, -1, 0⟩,
        minor • ⟨0, -1, 0⟩, minor • ⟨1, -1, 0⟩, minor • ⟨1, 0, 0⟩], 9, tp, tw⟩ := by
    simp only [createCircle, e, Option.bind_eq_bind, Option.bind_some, Curve.setKnots,
      scaleKnots_self knotsCircle_clamped, Option.pure_def]
    rfl
  generalize hC : (⟨2, knotsCircle, [1, 1 / r2, 1, 1 / r2, 1, 1 / r2, 1, 1 / r2, 1],
      [minor • ⟨1, 0, 0⟩, minor • ⟨1, 1, 0⟩, minor • ⟨0, 1, 0⟩, minor • ⟨-1, 1, 0⟩, minor • ⟨-1, 0, 0⟩, minor • ⟨-1, -1, 0⟩,
        minor • ⟨0, -1, 0⟩, minor • ⟨1, -1, 0⟩, minor • ⟨1, 0, 0⟩], 9, tp, tw⟩ : Curve K) = C at hc
  have hv : (C.mapPoints fun p => ⟨p.x + major, -p.z, p.y⟩).Valid 2 9 := by
    rw [← hC]
    exact ⟨rfl, rfl, rfl, rfl, knotsCircle_clamped, l1.ge, l2.ge⟩
  obtain ⟨b, pu, pv, wu, wv, hb, e', k1, k2, k3, k4⟩ := revolve_eq hv tol r2 ns.clear
  obtain ⟨S, e2, hS, -, -, cu, cv, -⟩ := revolve_valid hv tol r2 ns.clear
  have hcv : S.closedV = true := by
    have : (C.mapPoints fun p => (⟨p.x + major, -p.z, p.y⟩ : P3 K)).isClosed tol = some true := by
      rw [← hC]
      have hq : ∀ P : P3 K, (P - P).normSq < tol * tol := fun P => by
        simpa [P3.normSq] using mul_pos ht ht
      exact congrArg some (decide_eq_true (hq _))
    rw [this, Option.some_inj] at cv
    exact cv.symm
  have hw : ∀ w ∈ S.weights, 0 < w := by
    rw [e', Option.some_inj] at e2
    rw [← e2]
    simp only [List.mem_flatMap, List.mem_range]
    rintro w ⟨i, hi, hw⟩
    have hpos : 0 < (C.mapPoints fun p => (⟨p.x + major, -p.z, p.y⟩ : P3 K)).weights.getD i 0 := by
      rw [← hC]
      simp only [Curve.mapPoints]
      interval_cases i <;> simp [h2]
    simp only [circleWts, List.mem_cons, List.not_mem_nil, or_false] at hw
    rcases hw with rfl | rfl | rfl | rfl | rfl | rfl | rfl | rfl | rfl <;> first | exact hpos | exact div_pos hpos h2
  obtain ⟨s', m', e3, hcl⟩ := to_mesh_closed hS hw hk m (by omega) (by omega) cu hcv
  obtain ⟨s'', m'', e4, -, -, -, hn, -⟩ := to_mesh_spec hS hw hk m.clear (clear_ok m) true
  refine ⟨S, s', m', by simp [createTorus, hc, e2], e3, hcl, ?_⟩
  have : toMesh S m.clear k true = toMesh S m k true := rfl
  rw [this, e3, Option.some_inj] at e4
  rw [(Prod.mk.inj e4).2, hn]
  have : (m.clear.clear).nbTriangles = 0 := rfl
  simp only [if_true, this]
  push_cast
  ring

/-! ### the triangles as points -/

/-- the sample at a grid position -/
def samplePos (s : Surface K) (U V : Nat) (p : Int × Int) : P3 K := sample s U V p.1.toNat p.2.toNat

/-- the triangles of the mesh of a surface as points -/
def surfaceSoup (s : Surface K) (U V : Nat) : List (Tri3 K) :=
  ((meshCells U V).flatMap (meshCell s.closedU s.closedV U V)).map fun t =>
    ⟨samplePos s U V t.1, samplePos s U V t.2.1, samplePos s U V t.2.2⟩

theorem getI_samples (s : Surface K) (l : List (P3 K)) {U V : Nat} {p : Int × Int} (h1 : 0 ≤ p.1 ∧ p.1 < U + 1)
    (h2 : 0 ≤ p.2 ∧ p.2 < V + 1) :
    getI (l ++ samples s U V) (meshId l.length U p) = some (samplePos s U V p) := by
  obtain ⟨i, j⟩ := p
  simp only at h1 h2
  obtain ⟨i, rfl⟩ := Int.eq_ofNat_of_zero_le h1.1
  obtain ⟨j, rfl⟩ := Int.eq_ofNat_of_zero_le h2.1
  have : meshId l.length U ((i : Int), (j : Int)) = ((l.length + (i + (U + 1) * j) : Nat) : Int) := by
    simp [meshId, gid]
  rw [this, getI_natCast, List.getElem?_append_right (by omega), Nat.add_sub_cancel_left,
    getElem?_samples s (by omega) (by omega)]
  rfl

theorem soup_mesh (s : Surface K) (U V : Nat) {M : Mesh K} (hM : M.OK) :
    ((M.pushPts (samples s U V)).pushTris (meshFaces s.closedU s.closedV M.kern.verts.length U V)).triangles =
      M.triangles ++ surfaceSoup s U V := by
  rw [triangles_eq, triangles_eq, soup_pushTris, soup_pushPts hM]
  congr 1
  unfold meshFaces surfaceSoup
  rw [List.filterMap_map, ← List.filterMap_eq_map]
  refine List.filterMap_congr fun t ht => ?_
  obtain ⟨⟨j, i⟩, hc, ht⟩ := List.mem_flatMap.1 ht
  obtain ⟨h1, h2⟩ := mem_meshCells.1 hc
  simp only at h1 h2
  have a := wrap_range s.closedU h2
  have b := wrap_range s.closedV h1
  have c : 0 ≤ (i : Int) ∧ (i : Int) < U + 1 := by omega
  have d : 0 ≤ (j : Int) ∧ (j : Int) < V + 1 := by omega
  simp only [meshCell, List.mem_cons, List.not_mem_nil, or_false] at ht
  have e : (M.pushPts (samples s U V)).view.points = M.kern.verts ++ samples s U V := rfl
  rcases ht with rfl | rfl
  · simp only [Function.comp, mapTri, AMesh.tri, e]
    rw [getI_samples s _ c d, getI_samples s _ a d, getI_samples s _ a b]
    rfl
  · simp only [Function.comp, mapTri, AMesh.tri, e]
    rw [getI_samples s _ a b, getI_samples s _ c b, getI_samples s _ c d]
    rfl

/-- C56: the triangles `to_mesh` appends, as points. -/
theorem to_mesh_triangles {s : Surface K} {p q nu nv : Nat} (h : s.Valid p q nu nv) (hw : ∀ w ∈ s.weights, 0 < w) {k : Nat}
    (hk : 0 < k) (m : Mesh K) (hm : m.OK) :
    ∃ s' m', toMesh s m k false = some (s', m') ∧ m'.OK ∧ m'.triangles = m.triangles ++ surfaceSoup s (k * nu) (k * nv) := by
  obtain ⟨s', -, -, e⟩ := toMesh_eq h hw hk m false
  obtain ⟨s'', m', e', -, hok, -⟩ := to_mesh_spec h hw hk m hm false
  refine ⟨s'', m', e', hok, ?_⟩
  rw [e', Option.some_inj] at e
  have := (Prod.mk.inj e).2
  rw [this]
  exact soup_mesh s _ _ hm

/-- C56, solids: the mesh of a solid holds exactly the triangles of its surfaces, one
surface after the other. -/
theorem to_mesh_solid (ns : Solid K) (hv : ∀ s ∈ ns, ∃ p q nu nv, s.Valid p q nu nv) (hw : ∀ s ∈ ns, ∀ w ∈ s.weights, 0 < w)
    {k : Nat} (hk : 0 < k) (m : Mesh K) :
    ∃ m', toMeshSolid ns m k = some m' ∧ m'.OK ∧
      m'.triangles = ns.flatMap fun s => surfaceSoup s (k * s.nbU.toNat) (k * s.nbV.toNat) := by
  unfold toMeshSolid toMeshSolidBy
  have key : ∀ (l : Solid K) (M : Mesh K), M.OK → (∀ s ∈ l, s ∈ ns) →
      ∃ m', l.foldlM (fun m f => do
        let a ← toMesh f m k false
        return a.2) M = some m' ∧ m'.OK ∧
        m'.triangles = M.triangles ++ l.flatMap fun s => surfaceSoup s (k * s.nbU.toNat) (k * s.nbV.toNat) := by
    intro l
    induction l with
    | nil => intro M hM _; exact ⟨M, rfl, hM, by simp⟩
    | cons s l ih =>
      intro M hM hl
      obtain ⟨p, q, nu, nv, hs⟩ := hv s (hl s (by simp))
      obtain ⟨s', M', e, hok, ht⟩ := to_mesh_triangles hs (hw s (hl s (by simp))) hk M hM
      obtain ⟨m', e', hok', ht'⟩ := ih M' hok fun t ht => hl t (by simp [ht])
      refine ⟨m', ?_, hok', ?_⟩
      · rw [List.foldlM_cons, e]
        exact e'
      · rw [ht', ht, List.flatMap_cons, List.append_assoc, hs.nbU, hs.nbV]
        simp
  obtain ⟨m', e, hok, ht⟩ := key ns m.clear (clear_ok m) fun _ h => h
  refine ⟨m', e, hok, ?_⟩
  rw [ht, triangles_eq, clear_soup, List.nil_append]

/-- C56: nothing is added for a non-positive number of segments. -/
theorem to_mesh_nonpos (s : Surface K) (m : Mesh K) (b : Bool) {k : Int} (hk : k ≤ 0) (hu : 0 < s.nbU) (hv : 0 < s.nbV) :
    toMesh s m k b = some (s, if b then m.clear else m) := by
  unfold toMesh toMeshBy
  rcases hk.eq_or_lt with rfl | hk
  · simp
  · have h1 : k * s.nbU < 0 := mul_neg_of_neg_of_pos hk hu
    have h2 : k * s.nbV < 0 := mul_neg_of_neg_of_pos hk hv
    have e1 : (k * s.nbV + 1).toNat = 0 := by omega
    have e2 : (k * s.nbV).toNat = 0 := by omega
    have e3 : ¬ (k * s.nbU * (k * s.nbU) = 0) := by rw [mul_self_eq_zero]; omega
    simp only [e3, if_false, toMeshVerticesBy, toMeshQuads, e1, e2, loopN_zero, Option.bind_eq_bind, Option.bind_some,
      Option.pure_def]

/-- C56, the negation for surfaces without rows: the test of line 89 looks at the columns
twice, so a surface with columns but no rows reaches the division by zero rows. -/
theorem to_mesh_no_rows : toMesh ({ (Surface.new : Surface ℚ) with nbU := 2, nbV := 0 }) Mesh.new 1 true = none ∧
    (toMesh ({ (Surface.new : Surface ℚ) with nbU := 0, nbV := 2 }) Mesh.new 1 true).isSome = true := by decide +kernel

end Nurbs
end CAD
