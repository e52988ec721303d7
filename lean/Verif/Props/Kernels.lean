import Verif.Lemmas.Mesh

/-! Property C04: the kernels behind `Mesh`. -/

namespace CAD
variable {K : Type}

/-- Two kernel objects (of two classes) give the same answer to every query. -/
structure SameAnswers {σ τ : Type} (v : KernelVT K σ) (w : KernelVT K τ) (s : σ) (t : τ) : Prop where
  nbVertices : v.nbVertices s = w.nbVertices t
  getVertex : ∀ i, v.getVertex s i = w.getVertex t i
  nbTriangles : v.nbTriangles s = w.nbTriangles t
  corners : ∀ i, v.getTriangleVertices s i = w.getTriangleVertices t i
  unlinked : ∀ i, v.isTriangleUnlinked s i = w.isTriangleUnlinked t i

/-- forget what the linked-triangles kernel stores in addition -/
def TriLT.toTIN (t : TriLT) : TriTIN := ⟨t.v1, t.v2, t.v3, decide (t.unlinked = -1)⟩
def KernLT.toTIN (k : KernLT K) : KernTIN K := ⟨k.tris.map TriLT.toTIN, k.verts⟩

theorem sameAnswers_toTIN (k : KernLT K) : SameAnswers (vtLT K) (vtTIN K) k k.toTIN := by
  refine ⟨rfl, fun _ => rfl, by simp [vtLT, vtTIN, KernLT.nbTriangles, KernTIN.nbTriangles, KernLT.toTIN], ?_, ?_⟩
  · intro i
    simp only [vtLT, vtTIN, KernLT.getTriangleVertices, KernTIN.getTriangleVertices, KernLT.toTIN,
      List.length_map, getI_map, assertIdx_eq]
    by_cases h : InRange k.tris.length i
    · cases hg : getI k.tris i <;> simp [h, TriLT.toTIN]
    · simp [h]
  · intro i
    simp only [vtLT, vtTIN, KernLT.isTriangleUnlinked, KernTIN.isTriangleUnlinked, KernLT.toTIN,
      List.length_map, getI_map, assertIdx_eq]
    by_cases h : InRange k.tris.length i
    · cases hg : getI k.tris i <;> simp [h, TriLT.toTIN]
    · simp [h]

theorem step_toTIN (k : KernLT K) (hk : k.NoNear) (op : KOp K) :
    ((vtLT K).step k op).map (fun r => (r.1.toTIN, r.2)) = (vtTIN K).step k.toTIN op ∧
    ∀ r, (vtLT K).step k op = some r → r.1.NoNear := by
  cases op with
  | clear => exact ⟨rfl, by rintro _ ⟨⟩; intro t ht; cases ht⟩
  | addVertex p => exact ⟨rfl, by rintro _ ⟨⟩; exact hk⟩
  | setVertex i p =>
    simp only [KernelVT.step, vtLT, vtTIN, KernLT.setVertex, KernTIN.setVertex, KernLT.toTIN,
      assertIdx_eq]
    by_cases h : InRange k.verts.length i
    · simp only [h, if_true, setI_of_inRange _ h]
      exact ⟨rfl, by rintro _ ⟨⟩; exact hk⟩
    · simp only [h, if_false]
      exact ⟨rfl, by rintro _ ⟨⟩⟩
  | addTriangle a b c =>
    simp only [KernelVT.step, vtLT, vtTIN, KernLT.addTriangle_eq, KernTIN.addTriangle,
      assertIdx_eq]
    have hl : k.toTIN.verts = k.verts := rfl
    rw [hl]
    by_cases h : CornersIn k.verts.length (a, b, c)
    · obtain ⟨h1, h2, h3⟩ := id h
      have h1' : InRange k.verts.length a := h1
      have h2' : InRange k.verts.length b := h2
      have h3' : InRange k.verts.length c := h3
      simp only [h, h1', h2', h3', if_true]
      refine ⟨?_, ?_⟩
      · simp [KernLT.toTIN, TriLT.toTIN, TriLT.mk3]
      · rintro _ ⟨⟩; exact hk.append _ _ _
    · rw [if_neg h]
      refine ⟨?_, by rintro _ ⟨⟩⟩
      by_cases h1 : InRange k.verts.length a <;> by_cases h2 : InRange k.verts.length b <;>
        by_cases h3 : InRange k.verts.length c <;> simp [h1, h2, h3]
      exact absurd ⟨h1, h2, h3⟩ h
  | unlinkTriangle i =>
    simp only [KernelVT.step, vtLT, vtTIN, KernLT.unlinkTriangle_eq k hk, KernTIN.unlinkTriangle,
      assertIdx_eq]
    have hl : k.toTIN.tris.length = k.tris.length := by simp [KernLT.toTIN]
    rw [hl]
    by_cases h : InRange k.tris.length i
    · obtain ⟨n, rfl, hn⟩ := h.exists
      have hi : InRange k.toTIN.tris.length (n : Int) := by rw [hl]; exact h
      have hg : getI k.toTIN.tris (n : Int) = some k.tris[n].toTIN := by
        simp [KernLT.toTIN, hn]
      simp only [h, if_true, hg, setI_of_inRange _ hi, Option.map_some]
      refine ⟨?_, by rintro _ ⟨⟩; exact hk.unlink _⟩
      simp only [Option.bind_eq_bind, Option.bind_some, Option.pure_def, Option.map_some,
        Int.toNat_natCast, KernLT.toTIN]
      congr 3
      apply List.ext_getElem?
      intro j
      simp only [List.getElem?_map, List.getElem?_modify, List.getElem?_set, List.length_map]
      by_cases hj : n = j
      · subst hj; simp [hn, TriLT.toTIN]
      · simp [hj]
    · simp only [h, if_false]
      exact ⟨rfl, by rintro _ ⟨⟩⟩

/-- After equal histories of calls the linked-triangles kernel and the TIN kernel
are both undefined, or have returned the same ids and answer every query alike. -/
theorem kernels_agree (ops : List (KOp K)) :
    ((vtLT K).run ops = none ∧ (vtTIN K).run ops = none) ∨
    ∃ k t ids, (vtLT K).run ops = some (k, ids) ∧ (vtTIN K).run ops = some (t, ids) ∧
      SameAnswers (vtLT K) (vtTIN K) k t := by
  have key : ∀ (ops : List (KOp K)) (k : KernLT K) (ids : List Int), k.NoNear →
      (ops.foldlM (fun (s : KernLT K × List Int) op =>
        ((vtLT K).step s.1 op).map fun r => (r.1, s.2 ++ [r.2])) (k, ids)).map
        (fun r => (r.1.toTIN, r.2)) =
      ops.foldlM (fun (s : KernTIN K × List Int) op =>
        ((vtTIN K).step s.1 op).map fun r => (r.1, s.2 ++ [r.2])) (k.toTIN, ids) := by
    intro ops
    induction ops with
    | nil => intro k ids hk; rfl
    | cons op ops ih =>
      intro k ids hk
      obtain ⟨h1, h2⟩ := step_toTIN k hk op
      simp only [List.foldlM_cons, Option.bind_eq_bind]
      rw [← h1]
      cases h : (vtLT K).step k op with
      | none => rfl
      | some r => simpa using ih r.1 (ids ++ [r.2]) (h2 r h)
  have h := key ops KernLT.empty [] (by intro t ht; cases ht)
  have h' : ((vtLT K).run ops).map (fun r => (r.1.toTIN, r.2)) = (vtTIN K).run ops := h
  cases hr : (vtLT K).run ops with
  | none => left; rw [hr] at h'; exact ⟨rfl, h'.symm⟩
  | some r =>
    right; rw [hr] at h'
    exact ⟨r.1, r.1.toTIN, r.2, rfl, h'.symm, sameAnswers_toTIN _⟩

/-- The half-edge kernel never stores a triangle: after any defined history it
reports no triangle. -/
theorem half_edge_stores_nothing (ops : List (KOp K)) (s : KernHE K) (ids : List Int)
    (h : (vtHE K).run ops = some (s, ids)) : (vtHE K).nbTriangles s = 0 := by
  have key : ∀ (ops : List (KOp K)) (k s : KernHE K) (ids ids' : List Int), k.tris = [] →
      ops.foldlM (fun (s : KernHE K × List Int) op =>
        ((vtHE K).step s.1 op).map fun r => (r.1, s.2 ++ [r.2])) (k, ids) = some (s, ids') →
      s.tris = [] := by
    intro ops
    induction ops with
    | nil => intro k s ids ids' hk h; simp at h; rw [← h.1]; exact hk
    | cons op ops ih =>
      intro k s ids ids' hk h
      simp only [List.foldlM_cons, Option.bind_eq_bind, Option.bind_eq_some_iff,
        Option.map_eq_some_iff] at h
      obtain ⟨s1, ⟨r, hr, rfl⟩, hs⟩ := h
      refine ih r.1 s _ ids' ?_ hs
      cases op with
      | clear => simp only [KernelVT.step, vtHE, KernHE.clear, Option.some.injEq] at hr; rw [← hr]
      | addVertex p =>
        simp only [KernelVT.step, vtHE, KernHE.addVertex, Option.some.injEq] at hr; rw [← hr]
        exact hk
      | setVertex i p =>
        simp only [KernelVT.step, vtHE, KernHE.setVertex, Option.map_eq_some_iff,
          Option.bind_eq_bind, Option.bind_eq_some_iff, Option.pure_def, Option.some.injEq] at hr
        obtain ⟨k', ⟨_, _, vs, _, rfl⟩, rfl⟩ := hr
        exact hk
      | addTriangle a b c =>
        simp only [KernelVT.step, vtHE, KernHE.addTriangle, Option.some.injEq] at hr; rw [← hr]
        exact hk
      | unlinkTriangle i =>
        exfalso
        simp only [KernelVT.step, vtHE, KernHE.unlinkTriangle, hk, assertIdx_eq] at hr
        have hn : ¬ InRange ([] : List TriHE).length i := by
          simp only [InRange, List.length_nil]; omega
        rw [if_neg hn] at hr
        simp at hr
  have := key ops KernHE.empty s [] ids rfl h
  simp [vtHE, KernHE.nbTriangles, this]

theorem step_verts_HE {k k' : KernLT K} {s s' : KernHE K} {id id' : Int} (op : KOp K) (h : s.verts = k.verts) (ht : s.tris = [])
    (h1 : (vtLT K).step k op = some (k', id)) (h2 : (vtHE K).step s op = some (s', id')) : s'.verts = k'.verts ∧ s'.tris = [] := by
  cases op with
  | clear =>
    simp only [KernelVT.step, vtLT, vtHE, KernLT.clear, KernHE.clear, Option.some.injEq, Prod.mk.injEq] at h1 h2
    rw [← h1.1, ← h2.1]; exact ⟨rfl, rfl⟩
  | addVertex p =>
    simp only [KernelVT.step, vtLT, vtHE, KernLT.addVertex, KernHE.addVertex, Option.some.injEq, Prod.mk.injEq] at h1 h2
    rw [← h1.1, ← h2.1, h]; exact ⟨rfl, ht⟩
  | setVertex i p =>
    simp only [KernelVT.step, vtLT, vtHE, KernLT.setVertex, KernHE.setVertex, Option.map_eq_some_iff,
      Option.bind_eq_bind, Option.bind_eq_some_iff, Option.pure_def, Option.some.injEq, Prod.mk.injEq] at h1 h2
    obtain ⟨_, ⟨_, _, vs, e1, rfl⟩, rfl, -⟩ := h1
    obtain ⟨_, ⟨_, _, vs', e2, rfl⟩, rfl, -⟩ := h2
    rw [h, e1, Option.some.injEq] at e2
    exact ⟨e2.symm, ht⟩
  | addTriangle a b c =>
    simp only [KernelVT.step, vtLT, vtHE, KernLT.addTriangle_eq, KernHE.addTriangle, Option.some.injEq, Prod.mk.injEq] at h1 h2
    split_ifs at h1
    simp only [Option.some.injEq, Prod.mk.injEq] at h1
    rw [← h2.1, ← h1.1]; exact ⟨h, ht⟩
  | unlinkTriangle i =>
    exfalso
    simp only [KernelVT.step, vtHE, KernHE.unlinkTriangle, ht, assertIdx_eq] at h2
    have hn : ¬ InRange ([] : List TriHE).length i := by
      simp only [InRange, List.length_nil]; omega
    rw [if_neg hn] at h2
    simp at h2

/-- Its vertices are those of the other kernels: after a history that is defined for both, all
answers about vertices agree. -/
theorem half_edge_vertices (ops : List (KOp K)) {k : KernLT K} {s : KernHE K} {ids ids' : List Int} (h1 : (vtLT K).run ops = some (k, ids))
    (h2 : (vtHE K).run ops = some (s, ids')) :
    (vtHE K).nbVertices s = (vtLT K).nbVertices k ∧ ∀ i, (vtHE K).getVertex s i = (vtLT K).getVertex k i := by
  have key : ∀ (ops : List (KOp K)) (k k' : KernLT K) (s s' : KernHE K) (i1 i1' i2 i2' : List Int), s.verts = k.verts → s.tris = [] →
      ops.foldlM (fun (s : KernLT K × List Int) op => ((vtLT K).step s.1 op).map fun r => (r.1, s.2 ++ [r.2])) (k, i1) = some (k', i1') →
      ops.foldlM (fun (s : KernHE K × List Int) op => ((vtHE K).step s.1 op).map fun r => (r.1, s.2 ++ [r.2])) (s, i2) = some (s', i2') →
      s'.verts = k'.verts := by
    intro ops
    induction ops with
    | nil => intro k k' s s' i1 i1' i2 i2' h ht e1 e2; simp at e1 e2; rw [← e1.1, ← e2.1, h]
    | cons op ops ih =>
      intro k k' s s' i1 i1' i2 i2' h ht e1 e2
      simp only [List.foldlM_cons, Option.bind_eq_bind, Option.bind_eq_some_iff, Option.map_eq_some_iff] at e1 e2
      obtain ⟨_, ⟨⟨k1, j1⟩, g1, rfl⟩, f1⟩ := e1
      obtain ⟨_, ⟨⟨s1, j2⟩, g2, rfl⟩, f2⟩ := e2
      obtain ⟨a, b⟩ := step_verts_HE op h ht g1 g2
      exact ih k1 k' s1 s' _ _ _ _ a b f1 f2
  have e := key ops _ k _ s _ _ _ _ rfl rfl h1 h2
  refine ⟨by simp [vtHE, vtLT, KernHE.nbVertices, KernLT.nbVertices, e], fun i => ?_⟩
  simp only [vtHE, vtLT, KernHE.getVertex, KernLT.getVertex, e, assertIdx, assert]
  by_cases i0 : 0 ≤ i
  · simp only [i0, true_and]
  · have : getI k.verts i = none := by simp [getI, i0]
    simp only [i0, false_and, if_false, this]
    split_ifs <;> rfl

/-- a history defined for both: two vertices, the second then moved -/
example : ((vtHE ℚ).run [.addVertex ⟨0, 0, 0⟩, .addVertex ⟨1, 0, 0⟩, .setVertex 1 ⟨1, 2, 3⟩]).bind (fun r => (vtHE ℚ).getVertex r.1 1) = some ⟨1, 2, 3⟩ := by
  decide +kernel

/-- So it is not interchangeable with the other two: one added triangle is
reported by them and not by it. -/
theorem half_edge_differs (p : P3 K) :
    let ops := [KOp.addVertex p, .addVertex p, .addVertex p, .addTriangle 0 1 2]
    (∃ k ids, (vtLT K).run ops = some (k, ids) ∧ ids = [0, 1, 2, 0] ∧ (vtLT K).nbTriangles k = 1) ∧
    (∃ k ids, (vtHE K).run ops = some (k, ids) ∧ ids = [0, 1, 2, -1] ∧
      (vtHE K).nbTriangles k = 0) :=
  ⟨⟨_, _, rfl, rfl, rfl⟩, ⟨_, _, rfl, rfl, rfl⟩⟩

/-- `get_near_triangles` of the TIN kernel does not set its outputs: it returns
whatever they held. -/
theorem tin_near_unset (k : KernTIN K) (i : Int) (out : Int × Int × Int)
    (hi : 0 ≤ i ∧ i < k.nbTriangles) : k.getNearTriangles i out = some out := by
  have : InRange k.tris.length i := hi
  simp [KernTIN.getNearTriangles, assertIdx_eq, this]

end CAD
