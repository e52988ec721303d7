import Verif.Lemmas.MeshStep

/-! Properties C01–C07: histories of `Mesh` calls. -/

set_option linter.unusedSimpArgs false

namespace CAD
variable {K : Type}
open Mesh

/-! ### C01 -/

/-- Any history of calls on a new mesh behaves as the abstract mesh: it is
undefined exactly when the abstract history is, returns the same ids, and all
queries on the final mesh answer as the final abstract mesh. -/
theorem mesh_history_refines (ops : List (MOp K)) :
    (Mesh.run ops = none ∧ AMesh.run ops = none) ∨
    ∃ m a ids, Mesh.run ops = some (m, ids) ∧ AMesh.run ops = some (a, ids) ∧ Answers m a := by
  have h := (runFrom_refines ops Mesh.new [] (by intro t ht; cases ht)).1
  have h' : (Mesh.run ops).map (fun r => (r.1.view, r.2)) = AMesh.run ops := h
  cases hr : Mesh.run ops with
  | none => left; rw [hr] at h'; exact ⟨rfl, h'.symm⟩
  | some r =>
    right
    rw [hr] at h'
    exact ⟨r.1, r.1.view, r.2, rfl, h'.symm, answers_view _⟩

/-- The uninitialised locals of `add_triangle` have no influence. -/
theorem add_triangle_ignores_junk (junk junk' : Int × Int) (k : KernLT K) (a b c : Int) :
    KernLT.addTriangleJunk junk k a b c = KernLT.addTriangleJunk junk' k a b c := by
  rw [KernLT.addTriangle_junk, KernLT.addTriangle_junk]

/-! ### C02 -/

/-- every face, linked or not, refers to existing points -/
def AMesh.Valid (a : AMesh K) : Prop := ∀ f ∈ a.faces, CornersIn a.points.length f.corners

theorem CornersIn.mono {n m : Nat} {f : Int × Int × Int} (h : CornersIn n f) (hm : n ≤ m) :
    CornersIn m f := ⟨h.1.mono hm, h.2.1.mono hm, h.2.2.mono hm⟩

namespace AMesh

theorem Valid.addFaces {a b : AMesh K} {fs} (ha : a.Valid) (h : a.addFaces fs = some b) :
    b.Valid := by
  unfold AMesh.addFaces at h
  split at h
  · rename_i hf
    simp only [Option.some.injEq] at h; subst h
    intro f hf'
    rcases List.mem_append.1 hf' with h1 | h1
    · exact ha f h1
    · obtain ⟨g, hg, rfl⟩ := List.mem_map.1 h1; exact hf g hg
  · simp at h

theorem Valid.addPoints {a : AMesh K} (ha : a.Valid) (ps) : (a.addPoints ps).Valid := by
  intro f hf; exact (ha f hf).mono (by simp [AMesh.addPoints])

theorem Valid.erase {a b : AMesh K} {i} (ha : a.Valid) (h : a.erase i = some b) : b.Valid := by
  unfold AMesh.erase at h
  split at h
  · simp only [Option.some.injEq] at h; subst h
    intro f hf
    obtain ⟨j, hj⟩ := List.mem_iff_getElem?.1 hf
    simp only [List.getElem?_modify] at hj
    obtain ⟨t', ht', rfl⟩ := Option.map_eq_some_iff.1 hj
    have := ha t' (List.mem_of_getElem? ht')
    split <;> simpa using this
  · simp at h

theorem Valid.step {a b : AMesh K} {op id} (ha : a.Valid) (h : a.step op = some (b, id)) :
    b.Valid := by
  cases op with
  | setColor c => simp only [AMesh.step, Option.some.injEq, Prod.mk.injEq] at h; rw [← h.1]; exact ha
  | addVertex p =>
    simp only [AMesh.step, Option.some.injEq, Prod.mk.injEq] at h; rw [← h.1]; exact ha.addPoints _
  | setVertex i p =>
    simp only [AMesh.step] at h
    split at h
    · simp only [Option.some.injEq, Prod.mk.injEq] at h; rw [← h.1]
      intro f hf; simpa using ha f hf
    · simp at h
  | addTriangle i j k =>
    simp only [AMesh.step, Option.map_eq_some_iff, Prod.mk.injEq] at h
    obtain ⟨c, hc, rfl, _⟩ := h; exact ha.addFaces hc
  | addTrianglePts p q r =>
    simp only [AMesh.step, Option.map_eq_some_iff, Prod.mk.injEq] at h
    obtain ⟨c, hc, rfl, _⟩ := h; exact (ha.addPoints _).addFaces hc
  | addQuad i j k l =>
    simp only [AMesh.step, Option.map_eq_some_iff, Prod.mk.injEq] at h
    obtain ⟨c, hc, rfl, _⟩ := h; exact ha.addFaces hc
  | addQuadPts first p q r s =>
    simp only [AMesh.step, Option.map_eq_some_iff, Prod.mk.injEq] at h
    obtain ⟨c, hc, rfl, _⟩ := h; exact (ha.addPoints _).addFaces hc
  | addPentagon i j k l o =>
    simp only [AMesh.step, Option.map_eq_some_iff, Prod.mk.injEq] at h
    obtain ⟨c, hc, rfl, _⟩ := h; exact ha.addFaces hc
  | unlinkTriangle i =>
    simp only [AMesh.step, Option.map_eq_some_iff, Prod.mk.injEq] at h
    obtain ⟨c, hc, rfl, _⟩ := h; exact ha.erase hc
  | flipTriangle i =>
    simp only [AMesh.step, Option.bind_eq_bind, Option.bind_eq_some_iff, Option.pure_def,
      Option.some.injEq, Prod.mk.injEq] at h
    obtain ⟨f, _, a1, h1, a2, h2, rfl, _⟩ := h
    exact (ha.erase h1).addFaces h2
  | splitTriangleWithVertex t s =>
    simp only [AMesh.step, Option.bind_eq_bind, Option.bind_eq_some_iff, Option.pure_def,
      Option.some.injEq, Prod.mk.injEq] at h
    obtain ⟨f, _, a1, h1, a2, h2, rfl, _⟩ := h
    exact (ha.erase h1).addFaces h2
  | splitTriangleWithPoint t p =>
    simp only [AMesh.step, Option.bind_eq_bind, Option.bind_eq_some_iff, Option.pure_def,
      Option.some.injEq, Prod.mk.injEq] at h
    obtain ⟨f, _, a1, h1, a2, h2, rfl, _⟩ := h
    exact ((ha.addPoints _).erase h1).addFaces h2
  | splitEdgeWithVertex t1 t2 v1 v2 s =>
    simp only [AMesh.step, Option.bind_eq_bind, Option.bind_eq_some_iff, Option.pure_def,
      Option.some.injEq, Prod.mk.injEq] at h
    obtain ⟨f, _, g, _, a1, h1, a2, h2, f', _, g', _, a3, h3, a4, h4, rfl, _⟩ := h
    exact (((ha.addFaces h1).erase h2).addFaces h3).erase h4
  | addMesh o =>
    simp only [AMesh.step, AMesh.append, Option.map_eq_some_iff, Prod.mk.injEq] at h
    obtain ⟨c, hc, rfl, _⟩ := h
    exact Valid.addFaces (Valid.addPoints (a := { a with color := o.view.color }) ha _) hc
  | assign o =>
    simp only [AMesh.step, AMesh.append, Option.map_eq_some_iff, Prod.mk.injEq] at h
    obtain ⟨c, hc, rfl, _⟩ := h
    exact Valid.addFaces (Valid.addPoints (by intro f hf; cases hf) _) hc
  | applyTransform f =>
    simp only [AMesh.step, Option.some.injEq, Prod.mk.injEq] at h; rw [← h.1]
    intro g hg; simpa using ha g hg
  | clear =>
    simp only [AMesh.step, Option.some.injEq, Prod.mk.injEq] at h; rw [← h.1]
    intro f hf; cases hf

theorem Valid.runFrom {ops : List (MOp K)} : ∀ {a b : AMesh K} {ids ids' : List Int}, a.Valid →
    ops.foldlM (fun (s : AMesh K × List Int) op =>
      (s.1.step op).map fun r => (r.1, s.2 ++ [r.2])) (a, ids) = some (b, ids') → b.Valid := by
  induction ops with
  | nil => intro a b ids ids' ha h; simp at h; rw [← h.1]; exact ha
  | cons op ops ih =>
    intro a b ids ids' ha h
    simp only [List.foldlM_cons, Option.bind_eq_bind, Option.bind_eq_some_iff,
      Option.map_eq_some_iff] at h
    obtain ⟨s, ⟨r, hr, rfl⟩, hs⟩ := h
    exact ih (ha.step (b := r.1) (id := r.2) hr) hs

end AMesh

theorem Mesh.run_valid {ops : List (MOp K)} {m ids} (h : Mesh.run ops = some (m, ids)) :
    m.view.Valid := by
  have h1 := (runFrom_refines ops Mesh.new [] (by intro t ht; cases ht)).1
  have h' : (Mesh.run ops).map (fun r => (r.1.view, r.2)) = AMesh.run ops := h1
  rw [h] at h'
  exact AMesh.Valid.runFrom (a := AMesh.new) (by intro f hf; cases hf) h'.symm

/-- In every state reached by a defined history, every triangle id (linked or
not) has three corners that are existing vertices, so `get_triangle` and the
`get_vertex` calls it makes are defined. -/
theorem mesh_indices_valid (ops : List (MOp K)) (m : Mesh K) (ids : List Int)
    (h : Mesh.run ops = some (m, ids)) (i : Int) (hi : 0 ≤ i ∧ i < m.nbTriangles) :
    ∃ a b c p q r, m.getTriangleVertices i = some (a, b, c) ∧
      (0 ≤ a ∧ a < m.nbVertices) ∧ (0 ≤ b ∧ b < m.nbVertices) ∧ (0 ≤ c ∧ c < m.nbVertices) ∧
      m.getVertex a = some p ∧ m.getVertex b = some q ∧ m.getVertex c = some r ∧
      m.getTriangle i = some ⟨p, q, r⟩ := by
  have hv := Mesh.run_valid h
  have hA := answers_view m
  have hi' : InRange m.view.faces.length i := by
    rw [view_faces_length]; exact hi
  obtain ⟨n, rfl, hn⟩ := hi'.exists
  have hc := hA.corners n
  simp only [getI_natCast, List.getElem?_eq_getElem hn, Option.map_some] at hc
  have hmem := hv _ (List.getElem_mem hn)
  obtain ⟨h1, h2, h3⟩ := hmem
  generalize hf : m.view.faces[n].corners = f at *
  obtain ⟨a, b, c⟩ := f
  obtain ⟨ka, rfl, hka⟩ := h1.exists
  obtain ⟨kb, rfl, hkb⟩ := h2.exists
  obtain ⟨kc, rfl, hkc⟩ := h3.exists
  have g1 := hA.getVertex ka
  have g2 := hA.getVertex kb
  have g3 := hA.getVertex kc
  simp only [getI_natCast, List.getElem?_eq_getElem hka, List.getElem?_eq_getElem hkb,
    List.getElem?_eq_getElem hkc] at g1 g2 g3
  refine ⟨_, _, _, _, _, _, hc, h1, h2, h3, g1, g2, g3, ?_⟩
  have kg : ∀ j p, m.getVertex j = some p → m.kern.getVertex j = some p := by
    intro j p hj
    unfold Mesh.getVertex at hj
    simp only [Option.bind_eq_bind, Option.bind_eq_some_iff] at hj
    obtain ⟨_, _, hj⟩ := hj; exact hj
  unfold Mesh.getTriangle
  have hi2 : (0 : Int) ≤ n ∧ (n : Int) < m.kern.nbTriangles := hi
  simp only [assert, if_pos hi2, Option.bind_eq_bind, Option.bind_some, hc, kg _ _ g1, kg _ _ g2,
    kg _ _ g3, Option.pure_def]

/-- Calls that only take a triangle id are defined on every valid id of a
reachable mesh: none of the assertions inside can fail. -/
theorem mesh_triangle_calls_defined (ops : List (MOp K)) (m : Mesh K) (ids : List Int)
    (h : Mesh.run ops = some (m, ids)) (i : Int) (hi : 0 ≤ i ∧ i < m.nbTriangles) :
    (m.unlinkTriangle i).isSome ∧ (m.flipTriangle i).isSome ∧
    (∀ p, (m.splitTriangleWithPoint i p).isSome) ∧
    (∀ v, 0 ≤ v ∧ v < m.nbVertices → (m.splitTriangleWithVertex i v).isSome) := by
  have hn := Mesh.run_noNear h
  obtain ⟨a, b, c, p, q, r, hc, h1, h2, h3, _⟩ := mesh_indices_valid ops m ids h i hi
  have hr : InRange m.kern.tris.length i := hi
  have hcv : m.view.corners i = some (a, b, c) := by
    rw [← hc, (answers_view m).corners]; rfl
  have e1 : InRange m.kern.verts.length a := h1
  have e2 : InRange m.kern.verts.length b := h2
  have e3 : InRange m.kern.verts.length c := h3
  refine ⟨?_, ?_, ?_, ?_⟩
  · rw [unlinkTriangle_eq m hn, if_pos hr]; rfl
  · rw [flipTriangle_eq m hn, hcv]; simp [CornersIn, e1, e2, e3]
  · intro p
    rw [splitTriangleWithPoint_eq m hn, hcv]
    have := CornersIn.mono (f := (a, b, c)) ⟨e1, e2, e3⟩ (Nat.le_succ m.kern.verts.length)
    simp only [Option.bind_some]
    rw [if_pos this]; rfl
  · intro v hv
    have hv' : InRange m.kern.verts.length v := hv
    rw [splitTriangleWithVertex_eq m hn, hcv, if_pos hv']; simp [CornersIn, e1, e2, e3]

/-! ### C03 -/

/-- the calls that restart the numbering -/
def MOp.Resets : MOp K → Prop
  | .clear => True
  | .assign _ => True
  | _ => False

/-- the calls that move existing vertices -/
def MOp.Moves : MOp K → Prop
  | .setVertex _ _ => True
  | .applyTransform _ => True
  | _ => False

/-- `b` extends `a`: same faces under the same ids, except that some may have
been unlinked; possibly more faces and points; points kept if `keep`. -/
structure AMesh.Extends (a b : AMesh K) (keep : Prop) : Prop where
  points : a.points.length ≤ b.points.length
  faces : a.faces.length ≤ b.faces.length
  corners : ∀ n : Nat, n < a.faces.length → (b.faces[n]?).map AFace.corners = (a.faces[n]?).map AFace.corners
  unlinked : ∀ (n : Nat) (f : AFace), a.faces[n]? = some f → f.linked = false →
    (b.faces[n]?).map AFace.linked = some false
  kept : keep → ∀ n : Nat, n < a.points.length → b.points[n]? = a.points[n]?

namespace AMesh

theorem Extends.refl (a : AMesh K) (keep : Prop) : a.Extends a keep :=
  ⟨le_rfl, le_rfl, fun _ _ => rfl, fun n f h hl => by simp [h, hl], fun _ _ _ => rfl⟩

theorem Extends.trans {a b c : AMesh K} {p q r : Prop} (h1 : a.Extends b p) (h2 : b.Extends c q)
    (hr : r → p ∧ q) : a.Extends c r where
  points := h1.points.trans h2.points
  faces := h1.faces.trans h2.faces
  corners n hn := by rw [h2.corners n (lt_of_lt_of_le hn h1.faces), h1.corners n hn]
  unlinked n f hf hl := by
    have := h1.unlinked n f hf hl
    obtain ⟨g, hg, hg'⟩ := Option.map_eq_some_iff.1 this
    exact h2.unlinked n g hg hg'
  kept k n hn := by
    rw [h2.kept (hr k).2 n (lt_of_lt_of_le hn h1.points), h1.kept (hr k).1 n hn]

theorem Extends.addPoints (a : AMesh K) (ps) (keep : Prop) : a.Extends (a.addPoints ps) keep where
  points := by simp [AMesh.addPoints]
  faces := le_rfl
  corners _ _ := rfl
  unlinked n f h hl := by simp [AMesh.addPoints, h, hl]
  kept _ n hn := by simp [AMesh.addPoints, List.getElem?_append_left hn]

theorem Extends.addFaces {a b : AMesh K} {fs} (h : a.addFaces fs = some b) (keep : Prop) :
    a.Extends b keep := by
  unfold AMesh.addFaces at h
  split at h
  · simp only [Option.some.injEq] at h; subst h
    refine ⟨le_rfl, by simp, ?_, ?_, fun _ _ _ => rfl⟩
    · intro n hn; simp [List.getElem?_append_left hn]
    · intro n f hf hl
      have hn : n < a.faces.length := (List.getElem?_eq_some_iff.1 hf).1
      simp [List.getElem?_append_left hn, hf, hl]
  · simp at h

theorem Extends.erase {a b : AMesh K} {i} (h : a.erase i = some b) (keep : Prop) :
    a.Extends b keep := by
  unfold AMesh.erase at h
  split at h
  · simp only [Option.some.injEq] at h; subst h
    refine ⟨le_rfl, by simp, ?_, ?_, fun _ _ _ => rfl⟩
    · intro n hn
      simp only [List.getElem?_modify]
      cases a.faces[n]? with
      | none => rfl
      | some f => by_cases h : i.toNat = n <;> simp [h]
    · intro n f hf hl
      simp only [List.getElem?_modify, hf]
      by_cases h : i.toNat = n <;> simp [h, hl]
  · simp at h

theorem Extends.step {a b : AMesh K} {op id} (hop : ¬ op.Resets) (h : a.step op = some (b, id)) :
    a.Extends b (¬ op.Moves) := by
  have dup : ∀ {p : Prop}, p → p ∧ p := fun h => ⟨h, h⟩
  cases op with
  | setColor c =>
    simp only [AMesh.step, Option.some.injEq, Prod.mk.injEq] at h; rw [← h.1]
    exact ⟨le_rfl, le_rfl, fun _ _ => rfl, fun n f h hl => by simp [h, hl], fun _ _ _ => rfl⟩
  | addVertex p =>
    simp only [AMesh.step, Option.some.injEq, Prod.mk.injEq] at h; rw [← h.1]
    exact Extends.addPoints _ _ _
  | setVertex i p =>
    simp only [AMesh.step] at h
    split at h
    · simp only [Option.some.injEq, Prod.mk.injEq] at h; rw [← h.1]
      exact ⟨by simp, le_rfl, fun _ _ => rfl, fun n f h hl => by simp [h, hl],
        fun hk => absurd trivial hk⟩
    · simp at h
  | addTriangle i j k =>
    simp only [AMesh.step, Option.map_eq_some_iff, Prod.mk.injEq] at h
    obtain ⟨c, hc, rfl, _⟩ := h; exact Extends.addFaces hc _
  | addTrianglePts p q r =>
    simp only [AMesh.step, Option.map_eq_some_iff, Prod.mk.injEq] at h
    obtain ⟨c, hc, rfl, _⟩ := h; exact (Extends.addPoints _ _ _).trans (Extends.addFaces hc _) dup
  | addQuad i j k l =>
    simp only [AMesh.step, Option.map_eq_some_iff, Prod.mk.injEq] at h
    obtain ⟨c, hc, rfl, _⟩ := h; exact Extends.addFaces hc _
  | addQuadPts first p q r s =>
    simp only [AMesh.step, Option.map_eq_some_iff, Prod.mk.injEq] at h
    obtain ⟨c, hc, rfl, _⟩ := h; exact (Extends.addPoints _ _ _).trans (Extends.addFaces hc _) dup
  | addPentagon i j k l o =>
    simp only [AMesh.step, Option.map_eq_some_iff, Prod.mk.injEq] at h
    obtain ⟨c, hc, rfl, _⟩ := h; exact Extends.addFaces hc _
  | unlinkTriangle i =>
    simp only [AMesh.step, Option.map_eq_some_iff, Prod.mk.injEq] at h
    obtain ⟨c, hc, rfl, _⟩ := h; exact Extends.erase hc _
  | flipTriangle i =>
    simp only [AMesh.step, Option.bind_eq_bind, Option.bind_eq_some_iff, Option.pure_def,
      Option.some.injEq, Prod.mk.injEq] at h
    obtain ⟨f, _, a1, h1, a2, h2, rfl, _⟩ := h
    exact (Extends.erase h1 _).trans (Extends.addFaces h2 _) dup
  | splitTriangleWithVertex t s =>
    simp only [AMesh.step, Option.bind_eq_bind, Option.bind_eq_some_iff, Option.pure_def,
      Option.some.injEq, Prod.mk.injEq] at h
    obtain ⟨f, _, a1, h1, a2, h2, rfl, _⟩ := h
    exact (Extends.erase h1 _).trans (Extends.addFaces h2 _) dup
  | splitTriangleWithPoint t p =>
    simp only [AMesh.step, Option.bind_eq_bind, Option.bind_eq_some_iff, Option.pure_def,
      Option.some.injEq, Prod.mk.injEq] at h
    obtain ⟨f, _, a1, h1, a2, h2, rfl, _⟩ := h
    exact (Extends.addPoints _ _ _).trans
      ((Extends.erase h1 _).trans (Extends.addFaces h2 _) dup) dup
  | splitEdgeWithVertex t1 t2 v1 v2 s =>
    simp only [AMesh.step, Option.bind_eq_bind, Option.bind_eq_some_iff, Option.pure_def,
      Option.some.injEq, Prod.mk.injEq] at h
    obtain ⟨f, _, g, _, a1, h1, a2, h2, f', _, g', _, a3, h3, a4, h4, rfl, _⟩ := h
    exact (Extends.addFaces h1 _).trans ((Extends.erase h2 _).trans
      ((Extends.addFaces h3 _).trans (Extends.erase h4 _) dup) dup) dup
  | addMesh o =>
    simp only [AMesh.step, AMesh.append, Option.map_eq_some_iff, Prod.mk.injEq] at h
    obtain ⟨c, hc, rfl, _⟩ := h
    refine Extends.trans (b := AMesh.addPoints { a with color := o.view.color } o.view.points)
      ?_ (Extends.addFaces hc _) dup
    exact Extends.addPoints a o.view.points _ |>.trans
      ⟨le_rfl, le_rfl, fun _ _ => rfl, fun n f h hl => by
        simp only [AMesh.addPoints] at h ⊢; simp [h, hl], fun _ _ _ => rfl⟩ dup
  | assign o => exact absurd trivial hop
  | applyTransform f =>
    simp only [AMesh.step, Option.some.injEq, Prod.mk.injEq] at h; rw [← h.1]
    exact ⟨by simp, le_rfl, fun _ _ => rfl, fun n f h hl => by simp [h, hl],
      fun hk => absurd trivial hk⟩
  | clear => exact absurd trivial hop

theorem Extends.runFrom {ops : List (MOp K)} (hops : ∀ op ∈ ops, ¬ op.Resets) :
    ∀ {a b : AMesh K} {ids ids' : List Int},
    ops.foldlM (fun (s : AMesh K × List Int) op =>
      (s.1.step op).map fun r => (r.1, s.2 ++ [r.2])) (a, ids) = some (b, ids') →
      a.Extends b (∀ op ∈ ops, ¬ op.Moves) := by
  induction ops with
  | nil => intro a b ids ids' h; simp at h; rw [← h.1]; exact Extends.refl _ _
  | cons op ops ih =>
    intro a b ids ids' h
    simp only [List.foldlM_cons, Option.bind_eq_bind, Option.bind_eq_some_iff,
      Option.map_eq_some_iff] at h
    obtain ⟨s, ⟨r, hr, rfl⟩, hs⟩ := h
    exact (Extends.step (hops op (by simp)) (b := r.1) (id := r.2) hr).trans
      (ih (fun o ho => hops o (by simp [ho])) hs)
      (fun h => ⟨h op (by simp), fun o ho => h o (by simp [ho])⟩)

end AMesh

theorem Mesh.runFrom_view {m m' : Mesh K} (hm : m.kern.NoNear) {ops ids}
    (h : m.runFrom ops = some (m', ids)) : m.view.runFrom ops = some (m'.view, ids) := by
  have h1 := (runFrom_refines ops m [] hm).1
  have h' : (m.runFrom ops).map (fun r => (r.1.view, r.2)) = m.view.runFrom ops := h1
  rw [h] at h'; exact h'.symm

/-- Ids are stable: after more calls (none of which restarts the numbering) the
counts have not decreased, every triangle id has the corners it had, an unlinked
triangle is still unlinked, and if no later call moves vertices every vertex id
denotes the point it denoted. -/
theorem mesh_ids_stable (before after : List (MOp K)) (m m' : Mesh K) (ids ids' : List Int)
    (h : Mesh.run before = some (m, ids)) (h' : m.runFrom after = some (m', ids'))
    (hr : ∀ op ∈ after, ¬ op.Resets) :
    m.nbVertices ≤ m'.nbVertices ∧ m.nbTriangles ≤ m'.nbTriangles ∧
    (∀ i, i < m.nbTriangles → m'.getTriangleVertices i = m.getTriangleVertices i) ∧
    (∀ i, m.isTriangleUnlinked i = some true → m'.isTriangleUnlinked i = some true) ∧
    ((∀ op ∈ after, ¬ op.Moves) → ∀ i, i < m.nbVertices → m'.getVertex i = m.getVertex i) := by
  have hE := AMesh.Extends.runFrom hr (Mesh.runFrom_view (Mesh.run_noNear h) h')
  have A := answers_view m
  have A' := answers_view m'
  refine ⟨?_, ?_, ?_, ?_, ?_⟩
  · rw [A.nbVertices, A'.nbVertices]; exact_mod_cast hE.points
  · rw [A.nbTriangles, A'.nbTriangles]; exact_mod_cast hE.faces
  · intro i hi
    rw [A.corners, A'.corners]
    unfold getI
    split
    · refine hE.corners _ ?_
      rw [A.nbTriangles] at hi; omega
    · rfl
  · intro i hi
    rw [A.unlinked] at hi; rw [A'.unlinked]
    obtain ⟨f, hf, hfl⟩ := Option.map_eq_some_iff.1 hi
    obtain ⟨n, rfl, hn⟩ := getI_eq_some_iff.1 hf
    have := hE.unlinked n f hn (by simpa using hfl)
    obtain ⟨g, hg, hg'⟩ := Option.map_eq_some_iff.1 this
    simp [hg, hg']
  · intro hmv i hi
    rw [A.getVertex, A'.getVertex]
    unfold getI
    split
    · refine hE.kept hmv _ ?_
      rw [A.nbVertices] at hi; omega
    · rfl

/-- A new id is the old count, so it differs from every earlier id (by
`mesh_ids_stable` counts never decrease), and it denotes the new item. -/
theorem mesh_new_vertex_fresh (m : Mesh K) (p : P3 K) :
    (m.addVertex p).2 = m.nbVertices ∧ (m.addVertex p).1.nbVertices = m.nbVertices + 1 ∧
      (m.addVertex p).1.getVertex m.nbVertices = some p := by
  rw [addVertex_eq]
  refine ⟨rfl, by simp [nbVertices, KernLT.nbVertices], ?_⟩
  rw [(answers_view _).getVertex]
  simp [nbVertices, KernLT.nbVertices, AMesh.addPoints]

/-- The same for triangles. -/
theorem mesh_new_triangle_fresh (m : Mesh K) (a b c : Int) (m' : Mesh K) (id : Int)
    (h : m.addTriangle a b c = some (m', id)) :
    id = m.nbTriangles ∧ m'.nbTriangles = m.nbTriangles + 1 ∧
      m'.getTriangleVertices id = some (a, b, c) ∧ m'.isTriangleUnlinked id = some false := by
  rw [addTriangle_eq] at h
  split at h
  · simp only [Option.some.injEq, Prod.mk.injEq] at h
    obtain ⟨rfl, rfl⟩ := h
    refine ⟨rfl, by simp [nbTriangles, KernLT.nbTriangles, pushTris], ?_, ?_⟩
    · rw [(answers_view _).corners, view_pushTris]
      rw [← view_faces_length]; simp
    · rw [(answers_view _).unlinked, view_pushTris]
      rw [← view_faces_length]; simp
  · simp at h

/-- Two `add_triangle` calls in one history (no `clear`/assignment in between)
return different ids; likewise two `add_vertex` calls. -/
theorem mesh_ids_distinct (before mid : List (MOp K)) (m m1 m2 m3 : Mesh K) (ids ids' : List Int)
    (h : Mesh.run before = some (m, ids)) (hr : ∀ op ∈ mid, ¬ op.Resets) :
    (∀ a b c a' b' c' id id', m.addTriangle a b c = some (m1, id) →
      m1.runFrom mid = some (m2, ids') → m2.addTriangle a' b' c' = some (m3, id') → id < id') ∧
    (∀ p p', (m.addVertex p).1.runFrom mid = some (m2, ids') →
      (m.addVertex p).2 < (m2.addVertex p').2) := by
  have app : ∀ (op : MOp K) (r : Mesh K × Int), m.step op = some r →
      Mesh.run (before ++ [op]) = some (r.1, ids ++ [r.2]) := by
    intro op r hop
    unfold Mesh.run Mesh.runFrom at h ⊢
    rw [List.foldlM_append, h]
    simp [hop]
  refine ⟨?_, ?_⟩
  · intro a b c a' b' c' id id' h1 h2 h3
    obtain ⟨e1, e2, _⟩ := mesh_new_triangle_fresh m a b c m1 id h1
    obtain ⟨e3, _⟩ := mesh_new_triangle_fresh m2 a' b' c' m3 id' h3
    have hs := mesh_ids_stable _ mid m1 m2 _ _ (app (.addTriangle a b c) _ h1) h2 hr
    have := hs.2.1
    omega
  · intro p p' h2
    obtain ⟨e1, e2, _⟩ := mesh_new_vertex_fresh m p
    obtain ⟨e3, _⟩ := mesh_new_vertex_fresh m2 p'
    have hs := mesh_ids_stable _ mid _ m2 _ _ (app (.addVertex p) _ rfl) h2 hr
    have := hs.1
    omega

/-! ### C05, C06, C07 -/

theorem linkedCorners_valid {a : AMesh K} (h : a.Valid) :
    ∀ g ∈ a.linkedCorners, CornersIn a.points.length g := by
  intro g hg
  obtain ⟨f, hf, rfl⟩ := List.mem_map.1 hg
  exact h f (List.mem_filter.1 hf).1

theorem map_linked (a : AMesh K) :
    a.linkedCorners.map (fun c => (⟨c, true⟩ : AFace)) = a.faces.filter AFace.linked := by
  unfold AMesh.linkedCorners
  rw [List.map_map]
  conv_rhs => rw [← List.map_id (a.faces.filter AFace.linked)]
  apply List.map_congr_left
  intro f hf
  have := (List.mem_filter.1 hf).2
  cases f; simp_all

/-- Copy construction (whatever the indeterminate initial colour) and assignment
(whatever the target held) of a reachable mesh are defined and give the same
points, the same colour and exactly the linked faces in order. -/
theorem mesh_copy_spec_partial (ops : List (MOp K)) (f : Mesh K) (ids : List Int) (a : AMesh K)
    (h : Mesh.run ops = some (f, ids)) (ha : Answers f a) (junk : Int) (target : Mesh K) :
    ∃ c, Mesh.copyConstruct junk f = some c ∧ target.assign f = some c ∧
      Answers c ⟨a.points, a.faces.filter AFace.linked, a.color⟩ := by
  have hv := Mesh.run_valid h
  obtain rfl := Answers.unique ha
  refine ⟨(Mesh.mk ⟨[], f.kern.verts⟩ f.color).pushTris f.view.linkedCorners, ?_, ?_, ?_⟩
  · unfold copyConstruct; rw [assign_eq, if_pos (by exact linkedCorners_valid hv)]
  · rw [assign_eq, if_pos (by exact linkedCorners_valid hv)]
  · have := answers_view ((Mesh.mk ⟨[], f.kern.verts⟩ f.color).pushTris f.view.linkedCorners)
    rw [view_pushTris, map_linked] at this
    exact this

/-- Assigning a mesh to itself empties it (it always terminates): the second
half of C05 is false of the code. -/
theorem mesh_self_assign_empties (fuel : Nat) (m : Mesh K) :
    assignSelf fuel m = .done ⟨KernLT.empty, m.color⟩ := by
  unfold assignSelf addMeshSelf
  cases fuel <;>
    simp [clear, KernLT.clear, setColor, getColor, loopFuel, nbVertices, KernLT.nbVertices,
      nbTriangles, KernLT.nbTriangles, KernLT.empty]

/-- Appending a different reachable mesh: points and linked faces of the other
mesh follow those of this one, with shifted corners, so each appended face has
the corner points it had. -/
theorem mesh_append_spec_partial (ops : List (MOp K)) (m o : Mesh K) (ids : List Int) (a b : AMesh K)
    (h : Mesh.run ops = some (o, ids)) (ha : Answers m a) (hb : Answers o b) :
    ∃ r, m.addMesh o = some r ∧
      Answers r ⟨a.points ++ b.points,
        a.faces ++ (b.faces.filter AFace.linked).map
          (fun f => ⟨AMesh.shift a.points.length f.corners, true⟩), b.color⟩ ∧
      ∀ i : Int, 0 ≤ i → r.getVertex (i + m.nbVertices) = o.getVertex i := by
  have hv := Mesh.run_valid h
  obtain rfl := Answers.unique ha
  obtain rfl := Answers.unique hb
  refine ⟨((m.setColor o.color).pushPts o.kern.verts).pushTris
    (o.view.linkedCorners.map (AMesh.shift m.kern.verts.length)), ?_, ?_, ?_⟩
  · rw [addMesh_eq, if_pos]
    intro g hg
    obtain ⟨f, hf, rfl⟩ := List.mem_map.1 hg
    have hc := linkedCorners_valid hv f hf
    obtain ⟨h1, h2, h3⟩ := hc
    simp only [CornersIn, InRange, AMesh.shift, view_points] at *
    omega
  · have := answers_view (((m.setColor o.color).pushPts o.kern.verts).pushTris
      (o.view.linkedCorners.map (AMesh.shift m.kern.verts.length)))
    rw [view_pushTris] at this
    simp only [AMesh.linkedCorners, List.map_map] at this ⊢
    exact this
  · intro i hi
    rw [(answers_view _).getVertex, (answers_view _).getVertex]
    unfold getI
    rw [if_pos hi, if_pos (by simp only [nbVertices, KernLT.nbVertices]; omega)]
    simp only [nbVertices, KernLT.nbVertices, view_pushTris, view_pushPts, AMesh.addPoints, view_points]
    have : (i + (m.kern.verts.length : Int)).toNat = i.toNat + m.kern.verts.length := by omega
    rw [this, List.getElem?_append_right (by simp [setColor])]
    simp [setColor]

/-- `m.add_mesh(m)` on a mesh with at least one vertex never returns: after any
number of iterations the first loop is still running (C06, second half, is false
of the code). -/
theorem mesh_self_append_diverges (m : Mesh K) (hm : 1 ≤ m.nbVertices) (fuel : Nat) :
    ∃ i s, addMeshSelf fuel m = .running i s := by
  have key : ∀ (fuel : Nat) (i : Nat) (s : Mesh K), (i : Int) < s.nbVertices →
      ∃ j t, loopFuel nbVertices (fun i m => addMeshVertex m i m) fuel i s = .running j t := by
    intro fuel
    induction fuel with
    | zero => intro i s h; exact ⟨i, s, by simp [loopFuel, h]⟩
    | succ n ih =>
      intro i s h
      have hi : i < s.kern.verts.length := by
        simp only [nbVertices, KernLT.nbVertices] at h; exact_mod_cast h
      have hb : addMeshVertex s i s = some (s.pushPts [s.kern.verts[i]]) := by
        unfold addMeshVertex
        rw [(answers_view s).getVertex]
        simp [hi, addVertex_eq]
      simp only [loopFuel, h, if_true, hb]
      have := ih (i + 1) (s.pushPts [s.kern.verts[i]]) (by
        simp only [nbVertices, KernLT.nbVertices, pushPts_verts, List.length_append,
          List.length_singleton]; omega)
      simpa using this
  obtain ⟨j, t, h⟩ := key fuel 0 (m.setColor m.getColor) (by
    simp only [nbVertices, KernLT.nbVertices, setColor] at hm ⊢; omega)
  exact ⟨j, t, by unfold addMeshSelf; simp only [Nat.cast_zero] at h; simp only [h]⟩

/-- `apply_transform`: every vertex is moved exactly once, faces and colour are
unchanged. -/
theorem mesh_transform_spec (m : Mesh K) (a : AMesh K) (ha : Answers m a) (t : P3 K → P3 K) :
    ∃ r, m.applyTransform t = some r ∧ Answers r { a with points := a.points.map t } ∧
      ∀ i, r.getVertex i = (m.getVertex i).map t := by
  obtain rfl := Answers.unique ha
  refine ⟨_, applyTransform_eq m t, answers_view _, ?_⟩
  intro i
  rw [(answers_view _).getVertex, (answers_view _).getVertex]
  simp

/-- Two transforms one after the other act as their composition. -/
theorem mesh_transform_comp (m : Mesh K) (s t : P3 K → P3 K) :
    ((m.applyTransform s).bind fun m => m.applyTransform t) = m.applyTransform (t ∘ s) := by
  simp [applyTransform_eq]

/-! ### Concrete instances of the hypotheses -/

section examples

/-- a history with every kind of call that is defined -/
def sampleOps : List (MOp ℚ) :=
  [.addVertex ⟨0, 0, 0⟩, .addVertex ⟨1, 0, 0⟩, .addVertex ⟨0, 1, 0⟩, .addVertex ⟨0, 0, 1⟩,
   .addTriangle 0 1 2, .addQuad 0 1 2 3, .unlinkTriangle 1, .flipTriangle 0,
   .splitTriangleWithVertex 2 1, .splitTriangleWithPoint 3 ⟨1/3, 1/3, 0⟩,
   .addTrianglePts ⟨2, 0, 0⟩ ⟨3, 0, 0⟩ ⟨2, 1, 0⟩, .setVertex 1 ⟨2, 0, 0⟩,
   .applyTransform (fun p => p + p), .setColor 7]

example : ((Mesh.run sampleOps).map fun r => (r.1.nbVertices, r.1.nbTriangles, r.2)) =
    some (8, 11, [0, 1, 2, 3, 0, 0, 0, 0, 0, 0, 10, 0, 0, 0]) := by decide +kernel
example : ∃ m ids, Mesh.run sampleOps = some (m, ids) ∧ 1 ≤ m.nbVertices ∧ 0 < m.nbTriangles := by
  have h : ((Mesh.run sampleOps).map fun r => (r.1.nbVertices, r.1.nbTriangles)) = some (8, 11) := by
    decide +kernel
  obtain ⟨⟨m, ids⟩, h1, h2⟩ := Option.map_eq_some_iff.1 h
  simp only [Prod.mk.injEq] at h2
  exact ⟨m, ids, h1, by omega, by omega⟩
/-- an undefined history -/
example : (Mesh.run [.addVertex ⟨0, 0, 0⟩, .addTriangle 0 0 1] : Res (Mesh ℚ × List Int)).isNone := by
  decide +kernel

end examples

end CAD
