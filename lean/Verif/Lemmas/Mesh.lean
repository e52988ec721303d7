import Verif.Spec.Mesh
import Mathlib.Tactic.Ring
import Mathlib.Tactic.Linarith
import Mathlib.Tactic.SplitIfs

/-! Normal forms of the mesh operations and their simulation of the abstract mesh. -/

set_option linter.unusedSimpArgs false

namespace CAD

section basic
variable {α : Type}

@[simp] theorem getI_natCast (l : List α) (n : Nat) : getI l (n : Int) = l[n]? := by
  simp [getI]

theorem getI_of_inRange {l : List α} {i : Int} (h : InRange l.length i) :
    getI l i = l[i.toNat]? := by simp [getI, h.1]

theorem getI_none_of_not {l : List α} {i : Int} (h : ¬ InRange l.length i) : getI l i = none := by
  unfold getI InRange at *
  split
  · rw [List.getElem?_eq_none]; omega
  · rfl

theorem getI_isSome_iff {l : List α} {i : Int} : (getI l i).isSome ↔ InRange l.length i := by
  constructor
  · intro h; by_contra hn; rw [getI_none_of_not hn] at h; simp at h
  · intro h; rw [getI_of_inRange h]; have := h.1; have := h.2; simp; omega

theorem getI_eq_some_iff {l : List α} {i : Int} {a : α} :
    getI l i = some a ↔ ∃ n : Nat, i = n ∧ l[n]? = some a := by
  constructor
  · intro h
    unfold getI at h
    split at h
    · exact ⟨i.toNat, by omega, h⟩
    · simp at h
  · rintro ⟨n, rfl, h⟩; simpa using h

@[simp] theorem getI_map {β : Type} (f : α → β) (l : List α) (i : Int) :
    getI (l.map f) i = (getI l i).map f := by
  unfold getI; split <;> simp

theorem setI_of_inRange {l : List α} {i : Int} (a : α) (h : InRange l.length i) :
    setI l i a = some (l.set i.toNat a) := by
  unfold setI InRange at *; simp [h]

theorem assertIdx_eq (i : Int) (n : Nat) :
    assertIdx i n = if InRange n i then some () else none := rfl

theorem inRange_natCast {n k : Nat} : InRange n (k : Int) ↔ k < n := by
  unfold InRange; omega

theorem InRange.exists {n : Nat} {i : Int} (h : InRange n i) : ∃ k : Nat, i = k ∧ k < n :=
  ⟨i.toNat, by have := h.1; omega, by have := h.1; have := h.2; omega⟩

theorem InRange.mono {n m : Nat} {i : Int} (h : InRange n i) (hm : n ≤ m) : InRange m i := by
  unfold InRange at *; omega

theorem loopN_zero {σ : Type} (body : Nat → σ → Res σ) (s : σ) : loopN 0 body s = some s := rfl

theorem loopN_succ {σ : Type} (n : Nat) (body : Nat → σ → Res σ) (s : σ) :
    loopN (n + 1) body s = (loopN n body s).bind (body n) := by
  unfold loopN
  rw [List.range_succ, List.foldlM_append]
  cases (List.range n).foldlM (fun s i => body i s) s <;> simp

end basic

variable {K : Type}

/-- No neighbour link is set. -/
def KernLT.NoNear (k : KernLT K) : Prop := ∀ t ∈ k.tris, t.t1 = -1 ∧ t.t2 = -1 ∧ t.t3 = -1

theorem KernLT.addTriangle_junk (junk : Int × Int) (k : KernLT K) (a b c : Int) :
    addTriangleJunk junk k a b c = addTriangle k a b c := by
  simp [addTriangle, addTriangleJunk]

theorem KernLT.addTriangle_eq (k : KernLT K) (a b c : Int) :
    addTriangle k a b c = if CornersIn k.verts.length (a, b, c) then
      some ({ k with tris := k.tris ++ [TriLT.mk3 a b c] }, (k.tris.length : Int)) else none := by
  unfold addTriangle addTriangleJunk CornersIn
  simp only [assertIdx_eq]
  by_cases h1 : InRange k.verts.length a <;> by_cases h2 : InRange k.verts.length b <;>
    by_cases h3 : InRange k.verts.length c <;> simp [h1, h2, h3]

theorem KernLT.unlinkTriangle_eq (k : KernLT K) (hk : k.NoNear) (i : Int) :
    k.unlinkTriangle i = if InRange k.tris.length i then
      some { k with tris := k.tris.modify i.toNat fun t => { t with unlinked := -1 } }
      else none := by
  unfold unlinkTriangle
  rw [assertIdx_eq]
  by_cases h : InRange k.tris.length i
  · obtain ⟨n, rfl, hn⟩ := h.exists
    have hn' : k.tris[n]? = some k.tris[n] := List.getElem?_eq_getElem hn
    have := hk _ (List.getElem_mem hn)
    have hs : k.tris.set n { k.tris[n] with unlinked := -1 } =
        k.tris.modify n fun t => { t with unlinked := -1 } := by
      apply List.ext_getElem?
      intro j
      rw [List.getElem?_modify]
      by_cases hj : n = j
      · subst hj; simp [hn, hn']
      · simp [hj]
    have h2 : assertIdx (n : Int) k.tris.length = some () := by rw [assertIdx_eq]; simp [h]
    simp [h, h2, hn', setI_of_inRange _ h, getNearTriangles, unlinkNear, this, hn, ← hs]
  · simp [h]

theorem KernLT.NoNear.unlink {k : KernLT K} (hk : k.NoNear) (n : Nat) :
    KernLT.NoNear { k with tris := k.tris.modify n fun t => { t with unlinked := -1 } } := by
  intro t ht
  obtain ⟨j, hj⟩ := List.mem_iff_getElem?.1 ht
  simp only [List.getElem?_modify] at hj
  obtain ⟨t', ht', rfl⟩ := Option.map_eq_some_iff.1 hj
  have := hk t' (List.mem_of_getElem? ht')
  split <;> simpa using this

theorem KernLT.NoNear.append {k : KernLT K} (hk : k.NoNear) (a b c : Int) :
    KernLT.NoNear { k with tris := k.tris ++ [TriLT.mk3 a b c] } := by
  intro t ht
  rcases List.mem_append.1 ht with h | h
  · exact hk t h
  · simp at h; subst h; simp [TriLT.mk3]

namespace Mesh

/-- the face of a stored triangle -/
def face (t : TriLT) : AFace := ⟨(t.v1, t.v2, t.v3), decide (t.unlinked ≠ -1)⟩

theorem view_def (m : Mesh K) : m.view = ⟨m.kern.verts, m.kern.tris.map face, m.color⟩ := rfl

@[simp] theorem view_points (m : Mesh K) : m.view.points = m.kern.verts := rfl
@[simp] theorem view_faces_length (m : Mesh K) : m.view.faces.length = m.kern.tris.length := by
  simp [view]
@[simp] theorem view_color (m : Mesh K) : m.view.color = m.color := rfl
@[simp] theorem face_mk3 (a b c : Int) : face (TriLT.mk3 a b c) = ⟨(a, b, c), true⟩ := by
  simp [face, TriLT.mk3]

theorem answers_view (m : Mesh K) : Answers m m.view := by
  constructor
  · rfl
  · intro i
    unfold getVertex KernLT.getVertex
    simp only [assertIdx_eq, KernLT.nbVertices, view_points]
    by_cases h : InRange m.kern.verts.length i
    · have : 0 ≤ i ∧ i < m.kern.verts.length := h
      simp [assert, this, h]
    · have h' : ¬ (0 ≤ i ∧ i < m.kern.verts.length) := h
      rw [getI_none_of_not h]
      simp only [assert, h', if_false]; rfl
  · simp [nbTriangles, KernLT.nbTriangles]
  · intro i
    unfold getTriangleVertices KernLT.getTriangleVertices
    simp only [assertIdx_eq, KernLT.nbTriangles, view_def, getI_map]
    by_cases h : InRange m.kern.tris.length i
    · have : 0 ≤ i ∧ i < m.kern.tris.length := h
      obtain ⟨n, rfl, hn⟩ := h.exists
      simp [assert, hn, h, face]
    · have h' : ¬ (0 ≤ i ∧ i < m.kern.tris.length) := h
      rw [getI_none_of_not h]
      simp only [assert, h', if_false]; rfl
  · intro i
    unfold isTriangleUnlinked KernLT.isTriangleUnlinked
    simp only [assertIdx_eq, KernLT.nbTriangles, view_def, getI_map]
    by_cases h : InRange m.kern.tris.length i
    · have : 0 ≤ i ∧ i < m.kern.tris.length := h
      obtain ⟨n, rfl, hn⟩ := h.exists
      simp [assert, hn, h, face]
    · have h' : ¬ (0 ≤ i ∧ i < m.kern.tris.length) := h
      rw [getI_none_of_not h]
      simp only [assert, h', if_false]; rfl
  · rfl

/-- The answers determine the abstract mesh. -/
theorem Answers.unique {m : Mesh K} {a : AMesh K} (h : Answers m a) : a = m.view := by
  have hv := answers_view m
  have hp : a.points = m.view.points := by
    apply List.ext_getElem?
    intro n
    have h1 := h.getVertex n
    have h2 := hv.getVertex n
    rw [h1] at h2; simpa using h2
  have hf : a.faces = m.view.faces := by
    apply List.ext_getElem?
    intro n
    have h1 := h.corners n
    have h2 := hv.corners n
    have h3 := h.unlinked n
    have h4 := hv.unlinked n
    rw [h1] at h2; rw [h3] at h4
    simp only [getI_natCast] at h2 h4
    cases ha : a.faces[n]? <;> cases hb : m.view.faces[n]? <;> rw [ha, hb] at h2 h4 <;>
      simp at h2 h4 ⊢
    rename_i x y
    cases x; cases y; simp_all
  have hc : a.color = m.view.color := by rw [← h.color, hv.color]
  exact AMesh.ext hp hf hc

theorem kAddTriangle_eq (m : Mesh K) (a b c : Int) :
    m.kAddTriangle a b c = if CornersIn m.kern.verts.length (a, b, c) then
      some ({ m with kern := { m.kern with tris := m.kern.tris ++ [TriLT.mk3 a b c] } },
        (m.kern.tris.length : Int)) else none := by
  unfold kAddTriangle
  rw [KernLT.addTriangle_eq]
  split <;> simp

/-- Append triangles `fs`, no checks. -/
def pushTris (m : Mesh K) (fs : List (Int × Int × Int)) : Mesh K :=
  { m with kern := { m.kern with
      tris := m.kern.tris ++ fs.map fun f => TriLT.mk3 f.1 f.2.1 f.2.2 } }

theorem kAddTriangle_push (m : Mesh K) (a b c : Int) :
    m.kAddTriangle a b c = if CornersIn m.kern.verts.length (a, b, c) then
      some (m.pushTris [(a, b, c)], (m.kern.tris.length : Int)) else none := kAddTriangle_eq m a b c

@[simp] theorem pushTris_verts (m : Mesh K) (fs) : (m.pushTris fs).kern.verts = m.kern.verts := rfl
@[simp] theorem pushTris_color (m : Mesh K) (fs) : (m.pushTris fs).color = m.color := rfl
@[simp] theorem pushTris_push (m : Mesh K) (fs gs) :
    (m.pushTris fs).pushTris gs = m.pushTris (fs ++ gs) := by
  simp [pushTris, List.append_assoc]
@[simp] theorem pushTris_nil (m : Mesh K) : m.pushTris [] = m := by simp [pushTris]

theorem view_pushTris (m : Mesh K) (fs : List (Int × Int × Int)) :
    (m.pushTris fs).view =
      { m.view with faces := m.view.faces ++ fs.map fun f => ⟨f, true⟩ } := by
  simp only [view_def, pushTris, List.map_append, List.map_map]
  congr 3

theorem view_addFaces (m : Mesh K) (fs : List (Int × Int × Int)) :
    m.view.addFaces fs = if ∀ f ∈ fs, CornersIn m.kern.verts.length f then
      some (m.pushTris fs).view else none := by
  unfold AMesh.addFaces
  rw [view_pushTris]; rfl

theorem NoNear.pushTris {m : Mesh K} (hm : m.kern.NoNear) (fs) :
    (m.pushTris fs).kern.NoNear := by
  intro t ht
  rcases List.mem_append.1 ht with h | h
  · exact hm t h
  · obtain ⟨f, _, rfl⟩ := List.mem_map.1 h; simp [TriLT.mk3]

/-- Unlink triangle `n`, no checks. -/
def unl (m : Mesh K) (n : Nat) : Mesh K :=
  { m with kern := { m.kern with
      tris := m.kern.tris.modify n fun t => { t with unlinked := -1 } } }

theorem kUnlink_eq (m : Mesh K) (hm : m.kern.NoNear) (i : Int) :
    m.kern.unlinkTriangle i = if InRange m.kern.tris.length i then some (m.unl i.toNat).kern
      else none := KernLT.unlinkTriangle_eq _ hm i

@[simp] theorem unl_verts (m : Mesh K) (n) : (m.unl n).kern.verts = m.kern.verts := rfl
@[simp] theorem unl_color (m : Mesh K) (n) : (m.unl n).color = m.color := rfl
@[simp] theorem unl_tris_length (m : Mesh K) (n) :
    (m.unl n).kern.tris.length = m.kern.tris.length := by simp [unl]
theorem mk_unl (m : Mesh K) (n) : ({ m with kern := (m.unl n).kern } : Mesh K) = m.unl n := rfl

theorem NoNear.unl {m : Mesh K} (hm : m.kern.NoNear) (n) : (m.unl n).kern.NoNear :=
  KernLT.NoNear.unlink hm n

theorem view_unl (m : Mesh K) (n : Nat) :
    (m.unl n).view =
      { m.view with faces := m.view.faces.modify n fun f => { f with linked := false } } := by
  simp only [view_def, unl]
  congr 1
  apply List.ext_getElem?
  intro j
  simp only [List.getElem?_map, List.getElem?_modify]
  cases m.kern.tris[j]? <;> simp
  split <;> simp [face]

theorem view_erase (m : Mesh K) (i : Int) :
    m.view.erase i = if InRange m.kern.tris.length i then some (m.unl i.toNat).view else none := by
  unfold AMesh.erase
  rw [view_unl, view_faces_length]

theorem getTV_eq (m : Mesh K) (i : Int) :
    m.kern.getTriangleVertices i = m.view.corners i := by
  unfold KernLT.getTriangleVertices AMesh.corners
  simp only [assertIdx_eq, view_def, getI_map]
  by_cases h : InRange m.kern.tris.length i
  · obtain ⟨n, rfl, hn⟩ := h.exists
    simp [h, hn, face]
  · rw [getI_none_of_not h]; simp [h]

/-- Append points, no checks. -/
def pushPts (m : Mesh K) (ps : List (P3 K)) : Mesh K :=
  { m with kern := { m.kern with verts := m.kern.verts ++ ps } }

theorem addVertex_eq (m : Mesh K) (p : P3 K) :
    m.addVertex p = (m.pushPts [p], (m.kern.verts.length : Int)) := by
  simp [addVertex, KernLT.addVertex, pushPts]

@[simp] theorem pushPts_push (m : Mesh K) (ps qs) :
    (m.pushPts ps).pushPts qs = m.pushPts (ps ++ qs) := by simp [pushPts]
@[simp] theorem pushPts_verts (m : Mesh K) (ps) :
    (m.pushPts ps).kern.verts = m.kern.verts ++ ps := rfl
@[simp] theorem pushPts_tris (m : Mesh K) (ps) : (m.pushPts ps).kern.tris = m.kern.tris := rfl
@[simp] theorem pushPts_color (m : Mesh K) (ps) : (m.pushPts ps).color = m.color := rfl
@[simp] theorem view_pushPts (m : Mesh K) (ps) : (m.pushPts ps).view = m.view.addPoints ps := rfl
theorem NoNear.pushPts {m : Mesh K} (hm : m.kern.NoNear) (ps) : (m.pushPts ps).kern.NoNear := hm

theorem addTriangle_eq (m : Mesh K) (a b c : Int) :
    m.addTriangle a b c = if CornersIn m.kern.verts.length (a, b, c) then
      some (m.pushTris [(a, b, c)], (m.kern.tris.length : Int)) else none := by
  unfold addTriangle
  rw [kAddTriangle_push]
  unfold assert KernLT.nbVertices CornersIn InRange
  by_cases h1 : 0 ≤ a <;> by_cases h2 : 0 ≤ b <;> by_cases h3 : 0 ≤ c <;>
  by_cases h4 : a < m.kern.verts.length <;> by_cases h5 : b < m.kern.verts.length <;>
  by_cases h6 : c < m.kern.verts.length <;> simp [h1, h2, h3, h4, h5, h6]

theorem addTrianglePts_eq (m : Mesh K) (p q r : P3 K) :
    m.addTrianglePts p q r =
      let n := (m.kern.verts.length : Int)
      some ((m.pushPts [p, q, r]).pushTris [(n, n + 1, n + 2)], (m.kern.tris.length : Int)) := by
  unfold addTrianglePts
  simp only [addVertex_eq, addTriangle_eq, pushPts_push, pushPts_verts, pushPts_tris,
    List.cons_append, List.nil_append, List.length_append, List.length_cons, List.length_nil]
  rw [if_pos]
  · push_cast; simp [add_assoc]
  · refine ⟨?_, ?_, ?_⟩ <;> simp only [InRange] <;> omega

theorem addQuad_eq (m : Mesh K) (a b c d : Int) :
    m.addQuad a b c d =
      if CornersIn m.kern.verts.length (a, b, c) ∧ CornersIn m.kern.verts.length (c, d, a) then
        some (m.pushTris [(a, b, c), (c, d, a)]) else none := by
  unfold addQuad
  simp only [kAddTriangle_push]
  unfold assert KernLT.nbVertices CornersIn InRange
  by_cases h1 : 0 ≤ a <;> [skip; simp [h1]]
  by_cases h2 : 0 ≤ b <;> [skip; simp [h1, h2]]
  by_cases h3 : 0 ≤ c <;> [skip; simp [h1, h2, h3]]
  by_cases h4 : 0 ≤ d <;> [skip; simp [h1, h2, h3, h4]]
  by_cases h5 : a < m.kern.verts.length <;> [skip; simp [h1, h2, h3, h4, h5]]
  by_cases h6 : b < m.kern.verts.length <;> [skip; simp [h1, h2, h3, h4, h5, h6]]
  by_cases h7 : c < m.kern.verts.length <;> [skip; simp [h1, h2, h3, h4, h5, h6, h7]]
  by_cases h8 : d < m.kern.verts.length <;> [skip; simp [h1, h2, h3, h4, h5, h6, h7, h8]]
  simp [h1, h2, h3, h4, h5, h6, h7, h8]

theorem addQuadPtsWith_eq (m : Mesh K) (first : Bool) (p q r s : P3 K) :
    m.addQuadPtsWith first p q r s =
      let n := (m.kern.verts.length : Int)
      some ((m.pushPts [p, q, r, s]).pushTris
        (if first then [(n, n + 1, n + 2), (n + 2, n + 3, n)]
          else [(n + 1, n + 2, n + 3), (n + 3, n, n + 1)])) := by
  unfold addQuadPtsWith
  simp only [addVertex_eq, addQuad_eq, pushPts_push, pushPts_verts, pushPts_tris,
    List.cons_append, List.nil_append, List.length_append, List.length_cons, List.length_nil]
  split
  · rw [if_pos]
    · push_cast; simp [add_assoc]
    · refine ⟨⟨?_, ?_, ?_⟩, ?_, ?_, ?_⟩ <;> simp only [InRange] <;> omega
  · rw [if_pos]
    · push_cast; simp [add_assoc]
    · refine ⟨⟨?_, ?_, ?_⟩, ?_, ?_, ?_⟩ <;> simp only [InRange] <;> omega

theorem addPentagon_eq (m : Mesh K) (a b c d e : Int) :
    m.addPentagon a b c d e =
      if InRange m.kern.verts.length a ∧ InRange m.kern.verts.length b ∧
        InRange m.kern.verts.length c ∧ InRange m.kern.verts.length d ∧
        InRange m.kern.verts.length e then
        some (m.pushTris [(a, b, c), (c, d, e), (a, c, e)]) else none := by
  unfold addPentagon
  simp only [kAddTriangle_push]
  unfold assert KernLT.nbVertices CornersIn InRange
  by_cases h1 : 0 ≤ a <;> [skip; simp [h1]]
  by_cases h2 : 0 ≤ b <;> [skip; simp [h1, h2]]
  by_cases h3 : 0 ≤ c <;> [skip; simp [h1, h2, h3]]
  by_cases h4 : 0 ≤ d <;> [skip; simp [h1, h2, h3, h4]]
  by_cases h4' : 0 ≤ e <;> [skip; simp [h1, h2, h3, h4, h4']]
  by_cases h5 : a < m.kern.verts.length <;> [skip; simp [h1, h2, h3, h4, h4', h5]]
  by_cases h6 : b < m.kern.verts.length <;> [skip; simp [h1, h2, h3, h4, h4', h5, h6]]
  by_cases h7 : c < m.kern.verts.length <;> [skip; simp [h1, h2, h3, h4, h4', h5, h6, h7]]
  by_cases h8 : d < m.kern.verts.length <;> [skip; simp [h1, h2, h3, h4, h4', h5, h6, h7, h8]]
  by_cases h9 : e < m.kern.verts.length <;> [skip; simp [h1, h2, h3, h4, h4', h5, h6, h7, h8, h9]]
  simp [h1, h2, h3, h4, h4', h5, h6, h7, h8, h9]

theorem setVertex_eq (m : Mesh K) (i : Int) (p : P3 K) :
    m.setVertex i p = if InRange m.kern.verts.length i then
      some { m with kern := { m.kern with verts := m.kern.verts.set i.toNat p } } else none := by
  unfold setVertex KernLT.setVertex
  rw [assertIdx_eq]
  by_cases h : InRange m.kern.verts.length i
  · have h' : 0 ≤ i ∧ i < m.kern.verts.length := h
    simp [assert, KernLT.nbVertices, h', h, setI_of_inRange _ h]
  · have h' : ¬ (0 ≤ i ∧ i < m.kern.verts.length) := h
    simp only [assert, KernLT.nbVertices, h', h, if_false]; rfl

theorem unlinkTriangle_eq (m : Mesh K) (hm : m.kern.NoNear) (i : Int) :
    m.unlinkTriangle i = if InRange m.kern.tris.length i then some (m.unl i.toNat) else none := by
  unfold unlinkTriangle
  rw [kUnlink_eq m hm]
  by_cases h : InRange m.kern.tris.length i
  · have h' : 0 ≤ i ∧ i < m.kern.tris.length := h
    simp [assert, KernLT.nbTriangles, h', h, mk_unl]
  · have h' : ¬ (0 ≤ i ∧ i < m.kern.tris.length) := h
    simp only [assert, KernLT.nbTriangles, h', h, if_false]; rfl

theorem corners_none {m : Mesh K} {i : Int} (h : ¬ InRange m.kern.tris.length i) :
    m.view.corners i = none := by
  unfold AMesh.corners
  rw [getI_none_of_not (by simpa using h)]; rfl

theorem flipTriangle_eq (m : Mesh K) (hm : m.kern.NoNear) (i : Int) :
    m.flipTriangle i = (m.view.corners i).bind fun f =>
      if CornersIn m.kern.verts.length (f.1, f.2.2, f.2.1) then
        some ((m.unl i.toNat).pushTris [(f.1, f.2.2, f.2.1)]) else none := by
  unfold flipTriangle
  rw [kUnlink_eq m hm, getTV_eq]
  by_cases h : InRange m.kern.tris.length i
  · have h' : 0 ≤ i ∧ i < m.kern.tris.length := h
    simp only [assert, KernLT.nbTriangles, h', h, if_true, and_self]
    cases m.view.corners i with
    | none => rfl
    | some f => simp only [Option.bind_some, Option.bind_eq_bind, Option.pure_def, mk_unl, kAddTriangle_push]
                rw [unl_verts]; split <;> simp
  · have h' : ¬ (0 ≤ i ∧ i < m.kern.tris.length) := h
    rw [corners_none h]
    simp only [assert, KernLT.nbTriangles, h', if_false]; rfl

theorem splitTriangleWithVertex_eq (m : Mesh K) (hm : m.kern.NoNear) (i s : Int) :
    m.splitTriangleWithVertex i s = if InRange m.kern.verts.length s then
      (m.view.corners i).bind fun f =>
      if CornersIn m.kern.verts.length f then
        some ((m.unl i.toNat).pushTris
          [(f.1, f.2.1, s), (f.2.1, f.2.2, s), (f.2.2, f.1, s)]) else none
      else none := by
  unfold splitTriangleWithVertex
  rw [kUnlink_eq m hm, getTV_eq]
  by_cases h : InRange m.kern.tris.length i
  · have h' : 0 ≤ i ∧ i < m.kern.tris.length := h
    by_cases hs : InRange m.kern.verts.length s
    · have hs' : 0 ≤ s ∧ s < m.kern.verts.length := hs
      simp only [assert, KernLT.nbTriangles, KernLT.nbVertices, h', h, hs, hs', if_true, and_self]
      cases m.view.corners i with
      | none => rfl
      | some f =>
        simp only [Option.bind_some, Option.bind_eq_bind, Option.pure_def, mk_unl,
          kAddTriangle_push, unl_verts, pushTris_verts]
        by_cases h1 : InRange m.kern.verts.length f.1 <;>
        by_cases h2 : InRange m.kern.verts.length f.2.1 <;>
        by_cases h3 : InRange m.kern.verts.length f.2.2 <;>
        simp [CornersIn, h1, h2, h3, hs]
    · have hs' : ¬ (0 ≤ s ∧ s < m.kern.verts.length) := hs
      simp only [assert, KernLT.nbTriangles, KernLT.nbVertices, h', hs, hs', if_false]; rfl
  · have h' : ¬ (0 ≤ i ∧ i < m.kern.tris.length) := h
    rw [corners_none h]
    simp only [assert, KernLT.nbTriangles, h', if_false, Option.bind_none, ite_self]; rfl

theorem corners_pushPts (m : Mesh K) (ps) (i : Int) :
    (m.pushPts ps).view.corners i = m.view.corners i := rfl

theorem splitTriangleWithPoint_eq (m : Mesh K) (hm : m.kern.NoNear) (i : Int) (p : P3 K) :
    m.splitTriangleWithPoint i p =
      let s := (m.kern.verts.length : Int)
      (m.view.corners i).bind fun f =>
      if CornersIn (m.kern.verts.length + 1) f then
        some (((m.pushPts [p]).unl i.toNat).pushTris
          [(f.1, f.2.1, s), (f.2.1, f.2.2, s), (f.2.2, f.1, s)]) else none := by
  unfold splitTriangleWithPoint
  by_cases h : InRange m.kern.tris.length i
  · have h' : 0 ≤ i ∧ i < m.kern.tris.length := h
    simp only [assert, KernLT.nbTriangles, h', if_true, and_self, addVertex_eq]
    change (m.pushPts [p]).splitTriangleWithVertex i m.kern.verts.length = _
    rw [splitTriangleWithVertex_eq _ (NoNear.pushPts hm _), if_pos]
    · simp only [corners_pushPts, pushPts_verts, List.length_append, List.length_singleton]
    · simp only [InRange, pushPts_verts, List.length_append, List.length_singleton]; omega
  · have h' : ¬ (0 ≤ i ∧ i < m.kern.tris.length) := h
    rw [corners_none h]
    simp only [assert, KernLT.nbTriangles, h', if_false]; rfl

/-- one half of `split_edge_with_vertex`, in normal form -/
theorem splitEdge_rot1 (v : Int) (f : Int × Int × Int) :
    (let g := if f.1 ≠ v then rotateMacro f else f
     let g := if g.1 ≠ v then rotateMacro g else g
     (assert (g.1 = v)).map fun _ => g) = AMesh.splitCorners1 v f := by
  obtain ⟨a, b, c⟩ := f
  unfold AMesh.splitCorners1 rotateMacro assert
  by_cases h1 : a = v
  · simp [h1]
  · by_cases h2 : b = v
    · simp [h1, h2]
    · by_cases h3 : c = v <;> simp [h1, h2, h3]

theorem splitEdge_rot2 (v : Int) (f : Int × Int × Int) :
    (let g := if f.2.1 ≠ v then rotateMacro f else f
     let g := if g.2.1 ≠ v then rotateMacro g else g
     (assert (g.2.1 = v)).map fun _ => g) = AMesh.splitCorners2 v f := by
  obtain ⟨a, b, c⟩ := f
  unfold AMesh.splitCorners2 rotateMacro assert
  by_cases h1 : b = v
  · simp [h1]
  · by_cases h2 : c = v <;> simp [h1, h2]

theorem splitEdge_eq (m : Mesh K) (t1 t2 v1 v2 s : Int) (hm : m.kern.NoNear) :
    m.splitEdgeWithVertex t1 t2 v1 v2 s =
      ((m.view.corners t1).bind (AMesh.splitCorners1 v1)).bind fun f =>
      if CornersIn m.kern.verts.length (f.1, s, f.2.2) ∧
         CornersIn m.kern.verts.length (s, f.2.1, f.2.2) then
        let m1 := (m.pushTris [(f.1, s, f.2.2), (s, f.2.1, f.2.2)]).unl t1.toNat
        ((m1.view.corners t2).bind (AMesh.splitCorners2 v2)).bind fun g =>
        if CornersIn m.kern.verts.length (g.2.1, s, g.2.2) ∧
           CornersIn m.kern.verts.length (s, g.1, g.2.2) then
          some ((m1.pushTris [(g.2.1, s, g.2.2), (s, g.1, g.2.2)]).unl t2.toNat)
        else none
      else none := by
  unfold splitEdgeWithVertex
  simp only [getTV_eq]
  by_cases e1 : t1 = -1
  · have : m.view.corners t1 = none := by
      apply corners_none; subst e1; simp [InRange]
    simp [assert, e1, e1 ▸ this]
  by_cases e2 : t2 = -1
  · have : ∀ m1 : Mesh K, m1.view.corners t2 = none := by
      intro m1; apply corners_none; subst e2; simp [InRange]
    simp [assert, e1, e2, e2 ▸ this]
  simp only [assert, ne_eq, e1, e2, not_false_eq_true, if_true]
  cases hc : m.view.corners t1 with
  | none => simp
  | some f =>
    have hr1 : InRange m.kern.tris.length t1 := by
      by_contra hn; rw [corners_none hn] at hc; simp at hc
    have R1 := splitEdge_rot1 v1 f
    simp only [ne_eq] at R1
    simp only [Option.bind_some, Option.bind_eq_bind, Option.pure_def] at R1 ⊢
    rw [← R1]
    generalize (if ¬ (if ¬f.1 = v1 then rotateMacro f else f).1 = v1 then
      rotateMacro (if ¬f.1 = v1 then rotateMacro f else f) else
      (if ¬f.1 = v1 then rotateMacro f else f)) = g
    by_cases hg : g.1 = v1
    · simp only [assert, hg, if_true, Option.bind_some, Option.map_some, kAddTriangle_push,
        pushTris_verts]
      by_cases c1 : CornersIn m.kern.verts.length (v1, s, g.2.2)
      · by_cases c2 : CornersIn m.kern.verts.length (s, g.2.1, g.2.2)
        · simp only [c1, c2, if_true, and_self, Option.bind_some, pushTris_verts, pushTris_push]
          rw [kUnlink_eq _ (NoNear.pushTris hm _), if_pos]
          · simp only [Option.bind_some]
            generalize hm1 : (m.pushTris ([(v1, s, g.2.2)] ++ [(s, g.2.1, g.2.2)])).unl t1.toNat = m1
            have hm1v : m1.kern.verts = m.kern.verts := by rw [← hm1]; rfl
            have hm1n : m1.kern.NoNear := by
              rw [← hm1]; exact NoNear.unl (NoNear.pushTris hm _) _
            have hm1e : (m.pushTris [(v1, s, g.2.2), (s, g.2.1, g.2.2)]).unl t1.toNat = m1 := hm1
            rw [hm1e]
            rw [show m1.kern.getTriangleVertices t2 = m1.view.corners t2 from getTV_eq m1 t2]
            cases hc2 : m1.view.corners t2 with
            | none => rfl
            | some f2 =>
              have hr2 : InRange m1.kern.tris.length t2 := by
                by_contra hn; rw [corners_none hn] at hc2; simp at hc2
              have R2 := splitEdge_rot2 v2 f2
              simp only [ne_eq] at R2
              simp only [Option.bind_some]
              rw [← R2]
              generalize (if ¬ (if ¬f2.2.1 = v2 then rotateMacro f2 else f2).2.1 = v2 then
                rotateMacro (if ¬f2.2.1 = v2 then rotateMacro f2 else f2) else
                (if ¬f2.2.1 = v2 then rotateMacro f2 else f2)) = g2
              by_cases hg2 : g2.2.1 = v2
              · simp only [assert, hg2, if_true, Option.bind_some, Option.map_some]
                rw [show ({ kern := m1.kern, color := (m.pushTris ([(v1, s, g.2.2)] ++
                  [(s, g.2.1, g.2.2)])).color } : Mesh K) = m1 from by rw [← hm1]; rfl]
                simp only [hm1v]
                by_cases d1 : CornersIn m.kern.verts.length (v2, s, g2.2.2)
                · by_cases d2 : CornersIn m.kern.verts.length (s, g2.1, g2.2.2)
                  · simp only [d1, d2, if_true, and_self, Option.bind_some, pushTris_verts,
                      pushTris_push, hm1v]
                    rw [kUnlink_eq _ (NoNear.pushTris hm1n _), if_pos]
                    · rfl
                    · refine hr2.mono ?_
                      simp [pushTris]
                  · simp [d1, d2, hm1v]
                · simp [d1]
              · simp [assert, hg2]
          · refine hr1.mono ?_
            simp [pushTris]
        · simp [c1, c2]
      · simp [c1]
    · simp [assert, hg]

/-! ### loops -/

theorem loop_addVertices (m f : Mesh K) (n : Nat) (hn : n ≤ f.kern.verts.length) :
    loopN n (fun i m => addMeshVertex f i m) m = some (m.pushPts (f.kern.verts.take n)) := by
  induction n with
  | zero => simp [loopN_zero, pushPts]
  | succ n ih =>
    rw [loopN_succ, ih (by omega)]
    have h := (answers_view f).getVertex n
    have hn' : n < f.kern.verts.length := hn
    simp only [view_points, getI_natCast, List.getElem?_eq_getElem hn'] at h
    simp only [Option.bind_some, addMeshVertex, h, Option.bind_eq_bind, addVertex_eq,
      pushPts_push, Option.pure_def]
    rw [List.take_add_one, List.getElem?_eq_getElem hn']; rfl

theorem loop_addTriangles (m f : Mesh K) (nb : Int) (n : Nat) (hn : n ≤ f.kern.tris.length) :
    loopN n (fun i m => addMeshTriangle f nb i m) m =
      let fs := (((f.view.faces.take n).filter AFace.linked).map AFace.corners).map (AMesh.shift nb)
      if ∀ g ∈ fs, CornersIn m.kern.verts.length g then some (m.pushTris fs) else none := by
  induction n with
  | zero => simp [loopN_zero, pushTris]
  | succ n ih =>
    rw [loopN_succ, ih (by omega)]
    have hu := (answers_view f).unlinked n
    have hc := (answers_view f).corners n
    have hn' : n < f.view.faces.length := by simpa using hn
    simp only [getI_natCast, List.getElem?_eq_getElem hn', Option.map_some] at hu hc
    have ht : f.view.faces.take (n + 1) = f.view.faces.take n ++ [f.view.faces[n]] := by
      rw [List.take_add_one, List.getElem?_eq_getElem hn']; rfl
    generalize f.view.faces[n] = g at hu hc ht
    have hF : (((f.view.faces.take (n + 1)).filter AFace.linked).map AFace.corners).map
        (AMesh.shift nb) = (((f.view.faces.take n).filter AFace.linked).map AFace.corners).map
        (AMesh.shift nb) ++ if g.linked then [AMesh.shift nb g.corners] else [] := by
      rw [ht]; cases hg : g.linked <;> simp [hg]
    rw [hF]
    generalize (((f.view.faces.take n).filter AFace.linked).map AFace.corners).map
      (AMesh.shift nb) = fs
    cases hg : g.linked
    · simp only [Bool.false_eq_true, if_false, List.append_nil]
      by_cases hall : ∀ g ∈ fs, CornersIn m.kern.verts.length g
      · simp only [if_pos hall, Option.bind_some]
        simp [addMeshTriangle, hu, hg]
      · simp only [if_neg hall, Option.bind_none]
    · simp only [if_true]
      by_cases hall : ∀ g ∈ fs, CornersIn m.kern.verts.length g
      · simp only [if_pos hall, Option.bind_some]
        simp only [addMeshTriangle, hu, hg, hc, Bool.not_true, Option.bind_eq_bind,
          Option.bind_some, Bool.false_eq_true, if_false, addTriangle_eq, pushTris_verts]
        have hs : (g.corners.1 + nb, g.corners.2.1 + nb, g.corners.2.2 + nb) =
          AMesh.shift nb g.corners := rfl
        rw [hs]
        by_cases hl : CornersIn m.kern.verts.length (AMesh.shift nb g.corners)
        · have : ∀ x ∈ fs ++ [AMesh.shift nb g.corners], CornersIn m.kern.verts.length x := by
            intro x hx
            rcases List.mem_append.1 hx with h | h
            · exact hall _ h
            · rw [List.mem_singleton.1 h]; exact hl
          simp only [if_pos hl, if_pos this, Option.bind_some, pushTris_push, Option.pure_def]
        · have : ¬ ∀ x ∈ fs ++ [AMesh.shift nb g.corners], CornersIn m.kern.verts.length x :=
            fun H => hl (H _ (by simp))
          rw [if_neg this]
          simp [hl]
      · have : ¬ ∀ x ∈ fs ++ [AMesh.shift nb g.corners], CornersIn m.kern.verts.length x :=
          fun H => hall fun x hx => H x (by simp [hx])
        simp only [if_neg hall, if_neg this, Option.bind_none]

theorem addMesh_eq (m f : Mesh K) :
    m.addMesh f =
      let fs := f.view.linkedCorners.map (AMesh.shift m.kern.verts.length)
      if ∀ g ∈ fs, CornersIn (m.kern.verts.length + f.kern.verts.length) g then
        some (((m.setColor f.color).pushPts f.kern.verts).pushTris fs) else none := by
  unfold addMesh
  simp only [nbVertices, KernLT.nbVertices, nbTriangles, KernLT.nbTriangles, Int.toNat_natCast,
    Option.bind_eq_bind]
  rw [loop_addVertices _ _ _ le_rfl]
  simp only [Option.bind_some, List.take_length]
  rw [loop_addTriangles _ _ _ _ le_rfl]
  have : f.view.faces.take f.kern.tris.length = f.view.faces := by
    rw [← view_faces_length]; exact List.take_length
  rw [this]
  simp only [pushPts_verts, List.length_append]
  rfl

theorem assign_eq (m f : Mesh K) :
    m.assign f =
      if ∀ g ∈ f.view.linkedCorners, CornersIn f.kern.verts.length g then
        some ((Mesh.mk ⟨[], f.kern.verts⟩ f.color).pushTris f.view.linkedCorners) else none := by
  unfold assign
  simp only [addMesh_eq, Option.bind_eq_bind, clear, KernLT.clear, List.length_nil, zero_add]
  have : f.view.linkedCorners.map (AMesh.shift ((0 : Nat) : Int)) = f.view.linkedCorners := by
    conv_rhs => rw [← List.map_id f.view.linkedCorners]
    congr 1
    funext x
    simp [AMesh.shift]
  rw [this]
  split <;> simp [pushPts, pushTris, setColor, getColor]

theorem applyTransform_loop (m : Mesh K) (t : P3 K → P3 K) (n : Nat)
    (hn : n ≤ m.kern.verts.length) :
    loopN n (fun i m => do
      let pv ← m.getVertex i
      m.setVertex i (t pv)) m =
    some { m with kern := { m.kern with
      verts := (m.kern.verts.take n).map t ++ m.kern.verts.drop n } } := by
  induction n with
  | zero => simp [loopN_zero]
  | succ n ih =>
    rw [loopN_succ, ih (by omega)]
    have hn' : n < m.kern.verts.length := hn
    set m' : Mesh K := { m with kern := { m.kern with
      verts := (m.kern.verts.take n).map t ++ m.kern.verts.drop n } } with hm'
    have hv : m'.kern.verts = (m.kern.verts.take n).map t ++ m.kern.verts.drop n := rfl
    have hl : m'.kern.verts.length = m.kern.verts.length := by
      simp only [hv, List.length_append, List.length_map, List.length_take, List.length_drop]; omega
    have hg := (answers_view m').getVertex n
    have hl2 : ((m.kern.verts.take n).map t).length = n := by
      rw [List.length_map, List.length_take]; omega
    have hx : m'.kern.verts[n]? = some m.kern.verts[n] := by
      rw [hv, List.getElem?_append_right (by omega), hl2, List.getElem?_drop]; simp [hn']
    simp only [view_points, getI_natCast, hx] at hg
    simp only [Option.bind_some, Option.bind_eq_bind, hg]
    rw [setVertex_eq, if_pos (by rw [hl]; exact inRange_natCast.2 hn')]
    simp only [Int.toNat_natCast, Option.some.injEq]
    rw [hm']
    congr 2
    have hd : m.kern.verts.drop n = m.kern.verts[n] :: m.kern.verts.drop (n + 1) :=
      List.drop_eq_getElem_cons hn'
    rw [List.set_append_right _ _ (by omega), hl2, hd, List.take_add_one,
      List.getElem?_eq_getElem hn', Nat.sub_self, List.set_cons_zero, List.map_append]
    simp only [Option.toList_some, List.map_cons, List.map_nil, List.append_assoc,
      List.cons_append, List.nil_append]

theorem applyTransform_eq (m : Mesh K) (t : P3 K → P3 K) :
    m.applyTransform t =
      some { m with kern := { m.kern with verts := m.kern.verts.map t } } := by
  unfold applyTransform
  have := applyTransform_loop m t m.kern.verts.length le_rfl
  simp only [List.take_length, List.drop_length, List.append_nil] at this
  exact this

end Mesh
end CAD
