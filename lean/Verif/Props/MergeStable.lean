import Verif.Props.MeshUtil
import Verif.Lemmas.Topology
import Verif.Lemmas.Point
import Verif.Props.Vector

/-! C111: `merge_vertices` and rounding errors. -/

set_option linter.unusedSimpArgs false
set_option linter.unusedSectionVars false

namespace CAD
namespace MeshUtil
open Mesh
variable {K : Type} [Field K] [LinearOrder K]

theorem getVertex_verts (m : Mesh K) (i : Nat) : m.getVertex i = m.kern.verts[i]? := by
  rw [(answers_view m).getVertex, getI_natCast]; rfl

/-- the alias vector only depends on the answers of the comparison -/
theorem findAliases_congr {near near' : P3 K → P3 K → Bool} {m m' : Mesh K}
    (hn : m'.nbVertices = m.nbVertices)
    (h : ∀ i j p q p' q', m.getVertex i = some p → m.getVertex j = some q → m'.getVertex i = some p' →
      m'.getVertex j = some q' → near' p' q' = near p q) (al : List Int) :
    findAliases near' m' al = findAliases near m al := by
  have hl : m'.kern.verts.length = m.kern.verts.length := by
    simpa [Mesh.nbVertices, KernLT.nbVertices] using hn
  unfold findAliases
  rw [hn]
  have hN : m.nbVertices.toNat = m.kern.verts.length := by simp [Mesh.nbVertices, KernLT.nbVertices]
  rw [hN]
  refine loopN_congr (fun i hi al => ?_) _
  have e1 : m.getVertex i = some m.kern.verts[i] := by
    rw [getVertex_verts, List.getElem?_eq_getElem]
  have e2 : m'.getVertex i = some (m'.kern.verts[i]'(by omega)) := by
    rw [getVertex_verts, List.getElem?_eq_getElem]
  simp only [e1, e2, Option.bind_eq_bind, Option.bind_some]
  refine loopN_congr (fun j hj al => ?_) _
  have f1 : m.getVertex j = some (m.kern.verts[j]'(by omega)) := by
    rw [getVertex_verts, List.getElem?_eq_getElem]
  have f2 : m'.getVertex j = some (m'.kern.verts[j]'(by omega)) := by
    rw [getVertex_verts, List.getElem?_eq_getElem]
  simp only [f1, f2, Option.bind_eq_bind, Option.bind_some, h i j _ _ _ _ e1 f1 e2 f2]

/-- two merges whose comparisons give the same answers do the same -/
theorem mergeBy_stable {near near' : P3 K → P3 K → Bool} {m m' : Mesh K} (hm : m.OK) (hm' : m'.OK)
    (hc : m'.cornerList = m.cornerList) (hn : m'.nbVertices = m.nbVertices)
    (h : ∀ i j p q p' q', m.getVertex i = some p → m.getVertex j = some q → m'.getVertex i = some p' →
      m'.getVertex j = some q' → near' p' q' = near p q) (junk junk' : Int) :
    ∃ r r', mergeVerticesBy near junk m = some r ∧ mergeVerticesBy near' junk' m' = some r' ∧
      r'.OK ∧ (∀ i, 0 ≤ i → i < r'.nbTriangles → r'.isTriangleUnlinked i = some false) ∧
      r'.cornerList = r.cornerList ∧ r'.nbVertices = r.nbVertices ∧ r'.nbTriangles = r.nbTriangles ∧
      ∀ k p', r'.getVertex k = some p' → ∃ p i, r.getVertex k = some p ∧ m.getVertex i = some p ∧
        m'.getVertex i = some p' := by
  obtain ⟨al, h1, h2, h3⟩ := mergeBy_eq near junk hm
  obtain ⟨al', h1', h2', h3'⟩ := mergeBy_eq near' junk' hm'
  have hl : m'.kern.verts.length = m.kern.verts.length := by
    simpa [Mesh.nbVertices, KernLT.nbVertices] using hn
  rw [findAliases_congr hn h, hn, h1, Option.some.injEq] at h1'
  subst h1'
  rw [cornerList_eq, cornerList_eq] at hc
  rw [hc] at h3'
  have hlen : (keptPts m'.kern.verts al m'.kern.verts.length).length =
      (keptPts m.kern.verts al m.kern.verts.length).length := by
    rw [keptPts_length h2'.len le_rfl, keptPts_length h2.len le_rfl, hl]
  refine ⟨_, _, h3, h3', ?_, ?_, ?_, ?_, ?_, ?_⟩
  · have hval : ∀ f ∈ m.view.linkedCorners, CornersIn m.kern.verts.length f :=
      linkedCorners_valid ((ok_iff m).1 hm).valid
    refine build_ok m' ?_
    intro f hf
    obtain ⟨g, hg, rfl⟩ := List.mem_map.1 hf
    obtain ⟨c1, c2, c3⟩ := hval g hg
    obtain ⟨f1, f2, f3⟩ := g
    obtain ⟨k1, rfl, hk1⟩ := c1.exists
    obtain ⟨k2, rfl, hk2⟩ := c2.exists
    obtain ⟨k3, rfl, hk3⟩ := c3.exists
    obtain ⟨j1, e1, l1, -⟩ := newId_spec h2' (by rw [hl]; exact hk1)
    obtain ⟨j2, e2, l2, -⟩ := newId_spec h2' (by rw [hl]; exact hk2)
    obtain ⟨j3, e3, l3, -⟩ := newId_spec h2' (by rw [hl]; exact hk3)
    simp only [mapCorners, Int.toNat_natCast, e1, e2, e3]
    exact ⟨inRange_natCast.2 l1, inRange_natCast.2 l2, inRange_natCast.2 l3⟩
  · exact build_linked m' _ _
  · exact (build_cornerList m' _ _).trans (build_cornerList m _ _).symm
  · simp only [Mesh.nbVertices, KernLT.nbVertices, pushTris_verts, pushPts_verts, Mesh.clear,
      KernLT.clear, List.nil_append, hlen]
  · exact (build_nbTriangles m' _ _).trans (build_nbTriangles m _ _).symm
  · intro k p' hp'
    rw [(answers_view _).getVertex] at hp'
    obtain ⟨k', rfl, hk'⟩ := getI_eq_some_iff.1 hp'
    obtain ⟨i, hi, hai, hip, rfl⟩ := keptPts_index h2'.len le_rfl hk'
    refine ⟨m.kern.verts[i]'(by omega), i, ?_, ?_, ?_⟩
    · rw [getVertex_verts]
      exact keptPts_get h2.len (by omega) hai
    · rw [getVertex_verts, List.getElem?_eq_getElem]
    · rw [getVertex_verts]; exact hip

theorem norm_sub_comm (p q : P3 ℝ) : (p - q).norm = (q - p).norm := by
  rw [P3.norm_eq, P3.norm_eq, ← P3.distSq_eq, ← P3.distSq_eq, P3.distSq_comm]

theorem dist_triangle (p q s : P3 ℝ) : (p - s).norm ≤ (p - q).norm + (q - s).norm := by
  have := norm_triangle_ineq (p - q) (q - s)
  rwa [sub_add_sub_cancel] at this

theorem distSq_lt_iff {p q : P3 ℝ} {t : ℝ} (ht : 0 ≤ t) : p.distSq q < t * t ↔ (p - q).norm < t := by
  rw [P3.distSq_eq, ← P3.norm_sq]
  exact (mul_self_lt_mul_self_iff (P3.norm_nonneg _) ht).symm

/-- **C111** `merge_vertices` computed with rounding errors.  `m'` has the same triangles as
`m` and its vertices are at most `δ` off; the comparison `near'` may answer anything for
distances within `ε` of the tolerance.  If no two vertices of `m` are at a distance within
`ε + 2δ` of the tolerance, the errors have no effect on the topology: the same vertices are
merged, the triangles get the same ids, and the vertices of the two results differ by at most
`δ`. -/
theorem merge_rounding (m m' : Mesh ℝ) (hm : m.OK) (hm' : m'.OK) (hc : m'.cornerList = m.cornerList)
    (hn : m'.nbVertices = m.nbVertices) (tol δ ε : ℝ) (htol : 0 ≤ tol)
    (hδ : ∀ i p p', m.getVertex i = some p → m'.getVertex i = some p' → (p' - p).norm ≤ δ)
    (near' : P3 ℝ → P3 ℝ → Bool) (hlt : ∀ p q : P3 ℝ, (p - q).norm < tol - ε → near' p q = true)
    (hge : ∀ p q : P3 ℝ, tol + ε ≤ (p - q).norm → near' p q = false)
    (hgap : ∀ i j p q, m.getVertex i = some p → m.getVertex j = some q →
      (p - q).norm < tol - ε - 2 * δ ∨ tol + ε + 2 * δ ≤ (p - q).norm) (hε : 0 ≤ ε) :
    ∃ r r', mergeVertices m tol = some r ∧ mergeVerticesBy near' 0 m' = some r' ∧ r'.OK ∧
      r'.cornerList = r.cornerList ∧ r'.nbVertices = r.nbVertices ∧
      ∀ k p p', r.getVertex k = some p → r'.getVertex k = some p' → (p' - p).norm ≤ δ := by
  obtain ⟨r, r', h1, h2, h3, -, h4, h5, -, h6⟩ := mergeBy_stable (near := nearTol tol) (near' := near') hm hm' hc hn (by
    intro i j p q p' q' hp hq hp' hq'
    have d1 := hδ i p p' hp hp'
    have d2 := hδ j q q' hq hq'
    have t1 := dist_triangle p' p q'
    have t2 := dist_triangle p q q'
    have t3 := dist_triangle p p' q
    have t4 := dist_triangle p' q' q
    rw [norm_sub_comm q q'] at t2
    rw [norm_sub_comm p p'] at t3
    have hδ0 : 0 ≤ δ := le_trans (P3.norm_nonneg _) d1
    rcases hgap i j p q hp hq with hg | hg
    · rw [hlt p' q' (by linarith), eq_comm, nearTol_iff, distSq_lt_iff htol]
      linarith
    · rw [hge p' q' (by linarith), eq_comm, ← Bool.not_eq_true, nearTol_iff, distSq_lt_iff htol, not_lt]
      linarith) 0 0
  refine ⟨r, r', h1, h2, h3, h4, h5, fun k p p' hp hp' => ?_⟩
  obtain ⟨q, i, hq, hi, hi'⟩ := h6 k p' hp'
  rw [hp, Option.some.injEq] at hq
  subst hq
  exact hδ i _ _ hi hi'

/-- a triangle with a doubled corner, one copy of which is off by `1/100`: merged with tolerance
`1/10` it gets the same ids as the ideal one -/
example : ∃ r r', mergeVertices (Mesh.new.build [(⟨0, 0, 0⟩ : P3 ℝ), ⟨1, 0, 0⟩, ⟨1, 0, 0⟩] [(0, 1, 2)]) (1 / 10) = some r ∧
    mergeVertices (Mesh.new.build [(⟨0, 0, 0⟩ : P3 ℝ), ⟨1, 0, 0⟩, ⟨101 / 100, 0, 0⟩] [(0, 1, 2)]) (1 / 10) = some r' ∧
    r'.cornerList = r.cornerList := by
  have three : ∀ (a b c : P3 ℝ) i p, (Mesh.new.build [a, b, c] [(0, 1, 2)]).getVertex i = some p →
      (i = 0 ∧ p = a) ∨ (i = 1 ∧ p = b) ∨ (i = 2 ∧ p = c) := by
    intro a b c i p h
    rw [build_getVertex] at h
    obtain ⟨k, rfl, hk⟩ := getI_eq_some_iff.1 h
    match k, hk with
    | 0, hk => left; simpa [eq_comm] using hk
    | 1, hk => right; left; simpa [eq_comm] using hk
    | 2, hk => right; right; simpa [eq_comm] using hk
  have ok : ∀ a b c : P3 ℝ, (Mesh.new.build [a, b, c] [(0, 1, 2)]).OK := fun a b c => build_ok _ (by
    intro f hf
    simp only [List.mem_singleton] at hf
    subst hf
    change CornersIn 3 (0, 1, 2)
    decide)
  have ax : ∀ a b : ℝ, ((⟨a, 0, 0⟩ : P3 ℝ) - ⟨b, 0, 0⟩).norm = |a - b| := by
    intro a b
    rw [P3.norm_eq, ← Real.sqrt_sq_eq_abs]
    congr 1
    simp [P3.normSq]; ring
  obtain ⟨r, r', h1, h2, -, h3, -⟩ := merge_rounding _ _ (ok ⟨0, 0, 0⟩ ⟨1, 0, 0⟩ ⟨1, 0, 0⟩) (ok ⟨0, 0, 0⟩ ⟨1, 0, 0⟩ ⟨101 / 100, 0, 0⟩)
    (by rw [build_cornerList, build_cornerList]) (by rw [build_nbVertices, build_nbVertices]; rfl) (1 / 10) (1 / 100) 0 (by norm_num)
    (by
      intro i p p' hp hp'
      rcases three _ _ _ i p hp with ⟨rfl, rfl⟩ | ⟨rfl, rfl⟩ | ⟨rfl, rfl⟩ <;>
      rcases three _ _ _ _ p' hp' with ⟨h, rfl⟩ | ⟨h, rfl⟩ | ⟨h, rfl⟩ <;> first
        | (exfalso; omega)
        | (rw [ax, abs_le]; norm_num))
    (nearTol (1 / 10)) (fun p q h => by rw [nearTol_iff, distSq_lt_iff (by norm_num)]; linarith)
    (fun p q h => by rw [← Bool.not_eq_true, nearTol_iff, distSq_lt_iff (by norm_num)]; linarith)
    (by
      intro i j p q hp hq
      rcases three _ _ _ i p hp with ⟨rfl, rfl⟩ | ⟨rfl, rfl⟩ | ⟨rfl, rfl⟩ <;>
      rcases three _ _ _ j q hq with ⟨rfl, rfl⟩ | ⟨rfl, rfl⟩ | ⟨rfl, rfl⟩ <;> rw [ax] <;> norm_num) le_rfl
  exact ⟨r, r', h1, h2, h3⟩

/-- **C111** without the gap the claim is false: however small the error, it can change which
vertices are merged. -/
theorem merge_rounding_gap (tol δ : ℝ) (htol : 0 < tol) (hδ : 0 < δ) :
    ∃ m m' r r' : Mesh ℝ, m.OK ∧ m'.OK ∧ m'.cornerList = m.cornerList ∧ m'.nbVertices = m.nbVertices ∧
      (∀ i p p', m.getVertex i = some p → m'.getVertex i = some p' → (p' - p).norm ≤ δ) ∧
      mergeVertices m tol = some r ∧ mergeVertices m' tol = some r' ∧ r'.nbVertices ≠ r.nbVertices := by
  set d := min δ tol with hd
  have d1 : d ≤ δ := min_le_left _ _
  have d2 : d ≤ tol := min_le_right _ _
  have d0 : 0 < d := lt_min hδ htol
  set ps : List (P3 ℝ) := [⟨0, 0, 0⟩, ⟨tol, 0, 0⟩] with hps
  set ps' : List (P3 ℝ) := [⟨0, 0, 0⟩, ⟨tol - d, 0, 0⟩] with hps'
  have ok : ∀ l : List (P3 ℝ), (Mesh.new.build l []).OK := fun l => build_ok _ (by simp)
  have two : ∀ (a b : P3 ℝ) i p, (Mesh.new.build [a, b] []).getVertex i = some p → (i = 0 ∧ p = a) ∨ (i = 1 ∧ p = b) := by
    intro a b i p h
    rw [build_getVertex] at h
    obtain ⟨k, rfl, hk⟩ := getI_eq_some_iff.1 h
    match k, hk with
    | 0, hk => left; simpa [eq_comm] using hk
    | 1, hk => right; simpa [eq_comm] using hk
  have hfar := merge_far (Mesh.new.build ps []) (ok ps) tol (by
    intro i j p q hij hp hq
    rcases two _ _ i p hp with ⟨rfl, rfl⟩ | ⟨rfl, rfl⟩ <;> rcases two _ _ j q hq with ⟨rfl, rfl⟩ | ⟨rfl, rfl⟩
    · exact absurd rfl hij
    · apply le_of_eq; simp [P3.distSq]
    · apply le_of_eq; simp [P3.distSq]
    · exact absurd rfl hij)
  obtain ⟨r', hr', h1, h2, -⟩ := merge_respects_tolerance 0 (Mesh.new.build ps' []) (ok ps') tol
  refine ⟨Mesh.new.build ps [], Mesh.new.build ps' [], _, r', ok _, ok _, ?_, ?_, ?_, hfar, hr', ?_⟩
  · rw [build_cornerList, build_cornerList]
  · rw [build_nbVertices, build_nbVertices]; rfl
  · intro i p p' hp hp'
    rcases two _ _ i p hp with ⟨rfl, rfl⟩ | ⟨rfl, rfl⟩ <;> rcases two _ _ _ p' hp' with ⟨h, rfl⟩ | ⟨h, rfl⟩
    · rw [sub_self, P3.norm_eq_zero.2 rfl]; exact hδ.le
    · simp at h
    · simp at h
    · rw [P3.norm_eq]
      have : ((⟨tol - d, 0, 0⟩ : P3 ℝ) - ⟨tol, 0, 0⟩).normSq = d ^ 2 := by
        simp [P3.normSq]; ring
      rw [this, Real.sqrt_sq d0.le]; exact d1
  · have hN : (((Mesh.new.build ps []).clear.pushPts (Mesh.new.build ps []).kern.verts).pushTris
        (Mesh.new.build ps []).view.linkedCorners).nbVertices = 2 := rfl
    rw [hN]
    intro hc
    have get : ∀ i : Nat, i < 2 → ∃ p, r'.getVertex i = some p := by
      intro i hi
      have : r'.kern.verts.length = 2 := by
        have : (r'.kern.verts.length : Int) = 2 := hc
        omega
      rw [getVertex_verts]
      exact ⟨_, List.getElem?_eq_getElem (by omega)⟩
    obtain ⟨p, hp⟩ := get 0 (by omega)
    obtain ⟨q, hq⟩ := get 1 (by omega)
    have hpq := h1 _ _ p q (by simp) hp hq
    obtain ⟨i, hi⟩ := h2 _ p hp
    obtain ⟨j, hj⟩ := h2 _ q hq
    have : p.distSq q < tol * tol := by
      rcases two _ _ i p hi with ⟨rfl, rfl⟩ | ⟨rfl, rfl⟩ <;> rcases two _ _ j q hj with ⟨rfl, rfl⟩ | ⟨rfl, rfl⟩ <;>
        simp [P3.distSq] <;> nlinarith
    linarith

end MeshUtil
end CAD
