import Verif.Lemmas.Point
import Verif.Lemmas.MeshStep
import Verif.Model.Measure
import Verif.Spec.Soup
import Verif.Props.MeshHistory

/-! The geometric triangles of a mesh under the mesh operations. -/

set_option linter.unusedSimpArgs false

namespace CAD
variable {K : Type}

/-- the three points of a corner triple -/
def AMesh.tri (a : AMesh K) (f : Int × Int × Int) : Res (Tri3 K) := do
  let p ← getI a.points f.1
  let q ← getI a.points f.2.1
  let r ← getI a.points f.2.2
  return ⟨p, q, r⟩

theorem AMesh.tri_isSome {a : AMesh K} {f} (h : CornersIn a.points.length f) :
    ∃ t, a.tri f = some t := by
  obtain ⟨h1, h2, h3⟩ := h
  obtain ⟨p, hp⟩ := Option.isSome_iff_exists.1 (getI_isSome_iff.2 h1)
  obtain ⟨q, hq⟩ := Option.isSome_iff_exists.1 (getI_isSome_iff.2 h2)
  obtain ⟨r, hr⟩ := Option.isSome_iff_exists.1 (getI_isSome_iff.2 h3)
  exact ⟨⟨p, q, r⟩, by simp [AMesh.tri, hp, hq, hr]⟩

namespace Mesh

theorem kGetVertex_eq (m : Mesh K) (i : Int) : m.kern.getVertex i = getI m.kern.verts i := by
  unfold KernLT.getVertex
  rw [assertIdx_eq]
  by_cases h : InRange m.kern.verts.length i
  · simp [h]
  · rw [getI_none_of_not h]; simp [h]

theorem getTriangle_eq (m : Mesh K) (i : Int) :
    m.getTriangle i = (getI m.view.faces i).bind fun f => m.view.tri f.corners := by
  unfold getTriangle
  have hc := (answers_view m).corners i
  by_cases h : InRange m.kern.tris.length i
  · have h' : 0 ≤ i ∧ i < m.kern.tris.length := h
    simp only [assert, KernLT.nbTriangles, h', and_self, if_true, Option.bind_eq_bind,
      Option.bind_some, hc]
    cases getI m.view.faces i with
    | none => rfl
    | some f =>
      simp only [Option.map_some, Option.bind_some, kGetVertex_eq, AMesh.tri, view_points]
      rfl
  · have h' : ¬ (0 ≤ i ∧ i < m.kern.tris.length) := h
    rw [getI_none_of_not (by simpa using h)]
    simp only [assert, KernLT.nbTriangles, h', if_false]; rfl

/-- kernel-level form of `OK` -/
structure OK' (m : Mesh K) : Prop where
  near : m.kern.NoNear
  valid : m.view.Valid

theorem ok_iff (m : Mesh K) : m.OK ↔ m.OK' := by
  constructor
  · intro h
    constructor
    · intro t ht
      obtain ⟨n, hn⟩ := List.mem_iff_getElem?.1 ht
      have hl : n < m.kern.tris.length := (List.getElem?_eq_some_iff.1 hn).1
      refine h.near n t.t1 t.t2 t.t3 ?_
      have hr : InRange m.kern.tris.length (n : Int) := inRange_natCast.2 hl
      have hr' : 0 ≤ (n : Int) ∧ (n : Int) < m.kern.nbTriangles := hr
      simp [getNearTriangles, KernLT.getNearTriangles, assertIdx_eq, hr, assert, hr',
        getI_natCast, hn]
    · intro f hf
      obtain ⟨n, hn⟩ := List.mem_iff_getElem?.1 hf
      have := h.corners n f.corners.1 f.corners.2.1 f.corners.2.2 (by
        rw [(answers_view m).corners]; simp [hn])
      exact this
  · intro h
    constructor
    · intro i a b c hi
      simp only [getNearTriangles, KernLT.getNearTriangles, Option.bind_eq_bind,
        Option.bind_eq_some_iff, Option.pure_def, Option.some.injEq, Prod.mk.injEq] at hi
      obtain ⟨_, _, _, _, t, ht, rfl, rfl, rfl⟩ := hi
      obtain ⟨n, _, hn⟩ := getI_eq_some_iff.1 ht
      exact h.near t (List.mem_of_getElem? hn)
    · intro i a b c hi
      rw [(answers_view m).corners] at hi
      obtain ⟨f, hf, hc⟩ := Option.map_eq_some_iff.1 hi
      obtain ⟨n, _, hn⟩ := getI_eq_some_iff.1 hf
      have := h.valid f (List.mem_of_getElem? hn)
      rw [hc] at this
      exact this

theorem run_ok {ops : List (MOp K)} {m ids} (h : Mesh.run ops = some (m, ids)) : m.OK :=
  (ok_iff m).2 ⟨run_noNear h, run_valid h⟩

theorem OK.step {m m' : Mesh K} (h : m.OK) {op id} (hs : m.step op = some (m', id)) : m'.OK := by
  have h' := (ok_iff m).1 h
  obtain ⟨h1, h2⟩ := step_refines m h'.near op
  refine (ok_iff m').2 ⟨h2 _ hs, ?_⟩
  rw [hs] at h1
  exact h'.valid.step h1.symm

theorem new_ok : (Mesh.new : Mesh K).OK :=
  (ok_iff _).2 ⟨fun _ ht => (nomatch ht), fun _ ht => (nomatch ht)⟩

/-- A mesh without triangles is consistent. -/
theorem ok_of_no_tris {m : Mesh K} (h : m.kern.tris = []) : m.OK :=
  (ok_iff _).2 ⟨fun t ht => (by rw [h] at ht; cases ht), fun t ht => (by
    have e : m.view.faces = [] := by rw [view_def, h]; rfl
    rw [e] at ht; cases ht)⟩

theorem OK.pushPts {m : Mesh K} (h : m.OK) (ps) : (m.pushPts ps).OK := by
  have h' := (ok_iff m).1 h
  exact (ok_iff _).2 ⟨h'.near, h'.valid.addPoints ps⟩

theorem OK.pushTris {m : Mesh K} (h : m.OK) {fs} (hf : ∀ f ∈ fs, CornersIn m.kern.verts.length f) :
    (m.pushTris fs).OK := by
  have h' := (ok_iff m).1 h
  refine (ok_iff _).2 ⟨NoNear.pushTris h'.near _, ?_⟩
  refine h'.valid.addFaces (fs := fs) ?_
  rw [view_addFaces, if_pos hf]

theorem OK.unl {m : Mesh K} (h : m.OK) (n) : (m.unl n).OK := by
  have h' := (ok_iff m).1 h
  refine (ok_iff _).2 ⟨NoNear.unl h'.near _, ?_⟩
  intro f hf
  rw [view_unl] at hf ⊢
  obtain ⟨j, hj⟩ := List.mem_iff_getElem?.1 hf
  simp only [List.getElem?_modify] at hj
  obtain ⟨t', ht', rfl⟩ := Option.map_eq_some_iff.1 hj
  have := h'.valid t' (List.mem_of_getElem? ht')
  split <;> simpa using this

/-- the geometric triangles in terms of the abstract mesh -/
def soup (m : Mesh K) : List (Tri3 K) := m.view.linkedCorners.filterMap m.view.tri

theorem filterMap_range_getElem? {α β : Type} (l : List α) (g : α → Option β) :
    (List.range l.length).filterMap (fun i => (l[i]?).bind g) = l.filterMap g := by
  have h : (List.range l.length).map (fun i => l[i]?) = l.map some := by
    apply List.ext_getElem?
    intro n
    simp only [List.getElem?_map]
    by_cases hn : n < l.length
    · rw [List.getElem?_range hn, List.getElem?_eq_getElem hn]
      simp [List.getElem?_eq_getElem hn]
    · rw [List.getElem?_eq_none (by simpa using hn), List.getElem?_eq_none (by simpa using hn)]; rfl
  have h2 : ((List.range l.length).map (fun i => l[i]?)).filterMap (fun o => o.bind g) =
      (l.map some).filterMap (fun o => o.bind g) := by rw [h]
  rw [List.filterMap_map, List.filterMap_map] at h2
  exact h2

theorem triangles_eq (m : Mesh K) : m.triangles = m.soup := by
  unfold triangles soup AMesh.linkedCorners
  have hl : m.nbTriangles.toNat = m.view.faces.length := by
    rw [(answers_view m).nbTriangles]; simp
  rw [hl, List.filterMap_map, List.filterMap_filter]
  rw [← filterMap_range_getElem? m.view.faces]
  apply List.filterMap_congr
  intro i hi
  have hi' : i < m.view.faces.length := List.mem_range.1 hi
  rw [(answers_view m).unlinked, getTriangle_eq]
  simp only [getI_natCast, List.getElem?_eq_getElem hi', Option.map_some, Option.bind_some,
    Option.some.injEq, Function.comp]
  cases h : m.view.faces[i].linked <;> simp [h]

@[simp] theorem soup_setColor (m : Mesh K) (c) : (m.setColor c).soup = m.soup := rfl

theorem tri_pushPts {m : Mesh K} {f} (h : CornersIn m.kern.verts.length f) (ps : List (P3 K)) :
    (m.pushPts ps).view.tri f = m.view.tri f := by
  obtain ⟨h1, h2, h3⟩ := h
  have key : ∀ i, InRange m.kern.verts.length i →
      getI (m.kern.verts ++ ps) i = getI m.kern.verts i := by
    intro i hi
    obtain ⟨n, rfl, hn⟩ := hi.exists
    simp [List.getElem?_append_left hn]
  simp only [AMesh.tri, view_pushPts, AMesh.addPoints, view_points, key _ h1, key _ h2, key _ h3]

theorem soup_pushPts {m : Mesh K} (h : m.OK) (ps : List (P3 K)) : (m.pushPts ps).soup = m.soup := by
  have h' := (ok_iff m).1 h
  unfold soup
  apply List.filterMap_congr
  intro f hf
  exact tri_pushPts (linkedCorners_valid h'.valid f hf) ps

theorem soup_pushTris (m : Mesh K) (fs : List (Int × Int × Int)) :
    (m.pushTris fs).soup = m.soup ++ fs.filterMap m.view.tri := by
  unfold soup AMesh.linkedCorners
  rw [view_pushTris]
  simp only [List.filter_append, List.map_append, List.filterMap_append]
  congr 1
  rw [List.filter_map]
  have : fs.filter (AFace.linked ∘ fun f => (⟨f, true⟩ : AFace)) = fs := by
    simp [Function.comp_def]
  rw [this, List.map_map]
  simp only [Function.comp_def, List.map_id']
  rfl

/-- Summing any quantity over the linked triangles. -/
def total {A : Type} [AddCommGroup A] (g : Tri3 K → A) (m : Mesh K) : A := (m.soup.map g).sum

theorem total_unl {A : Type} [AddCommGroup A] (g : Tri3 K → A) (m : Mesh K) (n : Nat)
    (f : AFace) (hf : m.view.faces[n]? = some f) (hl : f.linked = true) (t : Tri3 K)
    (ht : m.view.tri f.corners = some t) :
    (m.unl n).total g + g t = m.total g := by
  unfold total soup AMesh.linkedCorners
  rw [view_unl]
  have htri : (AMesh.tri { m.view with faces := m.view.faces.modify n fun f => { f with linked := false } }) = m.view.tri := rfl
  rw [htri]
  simp only
  obtain ⟨hn, hfe⟩ := List.getElem?_eq_some_iff.1 hf
  have e1 : m.view.faces = m.view.faces.take n ++ f :: m.view.faces.drop (n + 1) := by
    rw [← hfe, ← List.drop_eq_getElem_cons hn, List.take_append_drop]
  have e2 : m.view.faces.modify n (fun f => { f with linked := false }) =
      m.view.faces.take n ++ { f with linked := false } :: m.view.faces.drop (n + 1) := by
    rw [List.modify_eq_take_cons_drop hn, hfe]
  rw [e2]
  conv_rhs => rw [e1]
  simp only [List.filter_append, List.filter_cons, hl, if_true, Bool.false_eq_true, if_false,
    List.map_append, List.map_cons, List.filterMap_append, List.filterMap_cons, ht, List.sum_append,
    List.sum_cons]
  abel

theorem unl_unlinked (m : Mesh K) (n : Nat)
    (f : AFace) (hf : m.view.faces[n]? = some f) (hl : f.linked = false) :
    (m.unl n).view = m.view := by
  rw [view_unl]
  have : m.view.faces.modify n (fun f => { f with linked := false }) = m.view.faces := by
    apply List.ext_getElem?
    intro j
    simp only [List.getElem?_modify]
    by_cases hj : n = j
    · subst hj; rw [hf]; cases f; simp_all
    · cases m.view.faces[j]? <;> simp [hj]
  rw [this]

theorem total_unl_unlinked {A : Type} [AddCommGroup A] (g : Tri3 K → A) (m : Mesh K) (n : Nat)
    (f : AFace) (hf : m.view.faces[n]? = some f) (hl : f.linked = false) :
    (m.unl n).total g = m.total g := by
  unfold total soup; rw [unl_unlinked m n f hf hl]

theorem foldLinked_eq {A : Type} {m : Mesh K} (h : m.OK) (step : A → Tri3 K → Res A) (init : A) :
    Measure.foldLinked m step init = m.soup.foldlM step init := by
  have h' := (ok_iff m).1 h
  have hl : m.nbTriangles.toNat = m.view.faces.length := by
    rw [(answers_view m).nbTriangles]; simp
  unfold Measure.foldLinked
  rw [hl]
  have key : ∀ n, n ≤ m.view.faces.length →
      loopN n (fun i acc => (do
        let u ← m.isTriangleUnlinked i
        if u then return acc
        let t ← m.getTriangle i
        step acc t : Res A)) init =
      ((((m.view.faces.take n).filter AFace.linked).map AFace.corners).filterMap
        m.view.tri).foldlM step init := by
    intro n
    induction n with
    | zero => intro _; simp [loopN_zero]
    | succ n ih =>
      intro hn
      rw [loopN_succ, ih (by omega)]
      have hn' : n < m.view.faces.length := hn
      have ht : m.view.faces.take (n + 1) = m.view.faces.take n ++ [m.view.faces[n]] := by
        rw [List.take_add_one, List.getElem?_eq_getElem hn']; rfl
      rw [ht]
      obtain ⟨t, htr⟩ := AMesh.tri_isSome (h'.valid _ (List.getElem_mem hn'))
      rw [List.filter_append, List.map_append, List.filterMap_append, List.foldlM_append]
      congr 1
      funext acc
      rw [(answers_view m).unlinked, getTriangle_eq]
      simp only [getI_natCast, List.getElem?_eq_getElem hn', Option.map_some, Option.bind_eq_bind,
        Option.bind_some, htr]
      cases hk : m.view.faces[n].linked
      · simp [hk]
      · simp [hk, htr]
  rw [key _ le_rfl, List.take_length]
  rfl

theorem sumLinked_eq {A : Type} [AddCommGroup A] {m : Mesh K} (h : m.OK) (g : Tri3 K → A) :
    Measure.sumLinked m g = some (m.total g) := by
  unfold Measure.sumLinked
  rw [foldLinked_eq h]
  have key : ∀ (l : List (Tri3 K)) (a : A), l.foldlM (fun acc t => (some (acc + g t) : Res A)) a = some (a + (l.map g).sum) := by
    intro l
    induction l with
    | nil => intro a; simp
    | cons t l ih => intro a; simp [List.foldlM_cons, ih, add_assoc]
  rw [key, zero_add]
  rfl

theorem volume_eq [Field K] {m : Mesh K} (h : m.OK) :
    Measure.volume m = some (m.total (fun t => t.p1.dot t.orthogonal) / 6) := by
  unfold Measure.volume; rw [sumLinked_eq h]; rfl

theorem surface_eq {m : Mesh ℝ} (h : m.OK) :
    Measure.surface m = some (m.total Tri3.surface) := sumLinked_eq h _

theorem total_pushTris {A : Type} [AddCommGroup A] (g : Tri3 K → A) (m : Mesh K) (fs) :
    (m.pushTris fs).total g = m.total g + ((fs.filterMap m.view.tri).map g).sum := by
  unfold total; rw [soup_pushTris]; simp

theorem soup_unl_perm (m : Mesh K) (n : Nat)
    (f : AFace) (hf : m.view.faces[n]? = some f) (hl : f.linked = true) (t : Tri3 K)
    (ht : m.view.tri f.corners = some t) : m.soup.Perm (t :: (m.unl n).soup) := by
  unfold soup AMesh.linkedCorners
  rw [view_unl]
  have htri : (AMesh.tri { m.view with faces := m.view.faces.modify n fun f => { f with linked := false } }) = m.view.tri := rfl
  rw [htri]
  simp only
  obtain ⟨hn, hfe⟩ := List.getElem?_eq_some_iff.1 hf
  have e1 : m.view.faces = m.view.faces.take n ++ f :: m.view.faces.drop (n + 1) := by
    rw [← hfe, ← List.drop_eq_getElem_cons hn, List.take_append_drop]
  have e2 : m.view.faces.modify n (fun f => { f with linked := false }) =
      m.view.faces.take n ++ { f with linked := false } :: m.view.faces.drop (n + 1) := by
    rw [List.modify_eq_take_cons_drop hn, hfe]
  rw [e2]
  conv_lhs => rw [e1]
  simp only [List.filter_append, List.filter_cons, hl, if_true, Bool.false_eq_true, if_false,
    List.map_append, List.map_cons, List.filterMap_append, List.filterMap_cons, ht]
  exact List.perm_middle

theorem tri_unl (m : Mesh K) (n) (f) : (m.unl n).view.tri f = m.view.tri f := by
  rw [view_unl]; rfl

theorem tri_pushTris (m : Mesh K) (fs) (f) : (m.pushTris fs).view.tri f = m.view.tri f := by
  rw [view_pushTris]; rfl

/-- reading the public queries of a linked triangle as kernel facts -/
theorem linked_of_queries {m : Mesh K} {i : Int} (hu : m.isTriangleUnlinked i = some false) :
    ∃ (n : Nat) (f : AFace), i = n ∧ m.view.faces[n]? = some f ∧ f.linked = true := by
  rw [(answers_view m).unlinked] at hu
  obtain ⟨f, hf, hl⟩ := Option.map_eq_some_iff.1 hu
  obtain ⟨n, rfl, hn⟩ := getI_eq_some_iff.1 hf
  exact ⟨n, f, rfl, hn, by simpa using hl⟩

theorem tri_eq_some {m : Mesh K} {a b c : Int} {p q r : P3 K}
    (h1 : m.getVertex a = some p) (h2 : m.getVertex b = some q) (h3 : m.getVertex c = some r) :
    m.view.tri (a, b, c) = some ⟨p, q, r⟩ := by
  rw [(answers_view m).getVertex] at h1 h2 h3
  simp only [view_points] at h1 h2 h3
  simp [AMesh.tri, h1, h2, h3]

theorem getVertex_isSome {m : Mesh K} {a : Int} (h : InRange m.kern.verts.length a) :
    ∃ p, m.getVertex a = some p := by
  rw [(answers_view m).getVertex]
  exact Option.isSome_iff_exists.1 (getI_isSome_iff.2 h)

theorem inRange_of_getVertex {m : Mesh K} {a : Int} {p} (h : m.getVertex a = some p) :
    InRange m.kern.verts.length a := by
  rw [(answers_view m).getVertex] at h
  exact getI_isSome_iff.1 (by rw [show getI m.kern.verts a = some p from h]; rfl)

theorem corners_of_tv {m : Mesh K} {i : Int} {f} (h : m.getTriangleVertices i = some f) :
    m.view.corners i = some f := by rw [← h, (answers_view m).corners]; rfl

end Mesh
end CAD
