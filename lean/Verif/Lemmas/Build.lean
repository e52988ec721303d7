import Verif.Lemmas.Soup

/-! Lemmas for code that builds a mesh by appending vertices and triangles. -/

namespace CAD
variable {K : Type}

theorem loopN_congr {σ : Type} {n : Nat} {f g : Nat → σ → Res σ} (h : ∀ i < n, ∀ s, f i s = g i s)
    (s : σ) : loopN n f s = loopN n g s := by
  induction n with
  | zero => rfl
  | succ n ih =>
    rw [loopN_succ, loopN_succ, ih (fun i hi => h i (by omega))]
    cases loopN n g s with
    | none => rfl
    | some s => exact h n (by omega) s

/-- A loop whose body always succeeds, with an invariant. -/
theorem loopN_inv {σ : Type} {n : Nat} {f : Nat → σ → Res σ} (I : Nat → σ → Prop) {s : σ}
    (h0 : I 0 s) (hs : ∀ i < n, ∀ s, I i s → ∃ s', f i s = some s' ∧ I (i + 1) s') :
    ∃ s', loopN n f s = some s' ∧ I n s' := by
  induction n with
  | zero => exact ⟨s, rfl, h0⟩
  | succ n ih =>
    obtain ⟨s1, h1, i1⟩ := ih (fun i hi => hs i (by omega))
    obtain ⟨s2, h2, i2⟩ := hs n (by omega) s1 i1
    exact ⟨s2, by rw [loopN_succ, h1]; exact h2, i2⟩

/-- the three corners of a triangle -/
def Tri3.pts (t : Tri3 K) : List (P3 K) := [t.p1, t.p2, t.p3]

/-- corner triples of `k` triangles with three fresh vertices each, the first
vertex being `n` -/
def freshCorners (n k : Nat) : List (Int × Int × Int) :=
  (List.range k).map fun (i : Nat) =>
    (((n + 3 * i : Nat) : Int), ((n + 3 * i + 1 : Nat) : Int), ((n + 3 * i + 2 : Nat) : Int))

theorem freshCorners_add (n k l : Nat) :
    freshCorners n (k + l) = freshCorners n k ++ freshCorners (n + 3 * k) l := by
  simp only [freshCorners, List.range_add, List.map_append, List.map_map]
  congr 1
  apply List.map_congr_left
  intro i _
  simp only [Function.comp, Prod.mk.injEq]
  refine ⟨?_, ?_, ?_⟩ <;> congr 1 <;> ring

theorem length_flatMap_pts (ts : List (Tri3 K)) : (ts.flatMap Tri3.pts).length = 3 * ts.length := by
  induction ts with
  | nil => rfl
  | cons t ts ih => simp [List.flatMap_cons, ih, Tri3.pts]; ring

namespace Mesh

/-- append triangles with three fresh vertices each -/
def addSoup (m : Mesh K) (ts : List (Tri3 K)) : Mesh K :=
  (m.pushPts (ts.flatMap Tri3.pts)).pushTris (freshCorners m.kern.verts.length ts.length)

theorem pushTris_pushPts (m : Mesh K) (fs ps) :
    (m.pushTris fs).pushPts ps = (m.pushPts ps).pushTris fs := rfl

theorem pushPts_nil (m : Mesh K) : m.pushPts [] = m := by simp [pushPts]

theorem addSoup_nil (m : Mesh K) : m.addSoup [] = m := by
  simp [addSoup, pushPts_nil, freshCorners]

theorem addSoup_append (m : Mesh K) (ts us) : (m.addSoup ts).addSoup us = m.addSoup (ts ++ us) := by
  unfold addSoup
  rw [pushTris_pushPts, pushTris_push, pushPts_push]
  simp only [pushTris_verts, pushPts_verts, List.length_append, length_flatMap_pts,
    List.flatMap_append, freshCorners_add]

theorem addTrianglePts_soup (m : Mesh K) (p q r : P3 K) :
    m.addTrianglePts p q r = some (m.addSoup [⟨p, q, r⟩], (m.kern.tris.length : Int)) := by
  rw [addTrianglePts_eq]
  simp [addSoup, freshCorners, Tri3.pts]

theorem loopN_addSoup {n : Nat} {f : Nat → Mesh K → Res (Mesh K)} {g : Nat → List (Tri3 K)}
    (h : ∀ i < n, ∀ m, f i m = some (m.addSoup (g i))) (m : Mesh K) :
    loopN n f m = some (m.addSoup ((List.range n).flatMap g)) := by
  induction n with
  | zero => simp [loopN_zero, addSoup_nil]
  | succ n ih =>
    rw [loopN_succ, ih (fun i hi => h i (by omega)), Option.bind_some, h n (by omega),
      addSoup_append, List.range_succ, List.flatMap_append]
    simp

theorem freshCorners_in (n k : Nat) : ∀ f ∈ freshCorners n k, CornersIn (n + 3 * k) f := by
  intro f hf
  obtain ⟨i, hi, rfl⟩ := List.mem_map.1 hf
  have := List.mem_range.1 hi
  refine ⟨inRange_natCast.2 ?_, inRange_natCast.2 ?_, inRange_natCast.2 ?_⟩ <;> omega

theorem OK.addSoup {m : Mesh K} (h : m.OK) (ts) : (m.addSoup ts).OK := by
  unfold Mesh.addSoup
  refine (h.pushPts _).pushTris ?_
  rw [pushPts_verts, List.length_append, length_flatMap_pts]
  exact freshCorners_in _ _

theorem fresh_tri (l : List (P3 K)) (ts : List (Tri3 K)) (fs c) :
    (freshCorners l.length ts.length).filterMap
      (AMesh.tri ⟨l ++ ts.flatMap Tri3.pts, fs, c⟩) = ts := by
  induction ts generalizing l with
  | nil => rfl
  | cons t ts ih =>
    have h1 : freshCorners l.length (t :: ts).length =
        freshCorners l.length 1 ++ freshCorners (l ++ t.pts).length ts.length := by
      rw [List.length_cons, Nat.add_comm, freshCorners_add]; simp [Tri3.pts]
    rw [h1, List.filterMap_append, List.flatMap_cons, ← List.append_assoc, ih]
    have h2 : freshCorners l.length 1 =
      [((l.length : Int), ((l.length + 1 : Nat) : Int), ((l.length + 2 : Nat) : Int))] := by
      simp [freshCorners]
    rw [h2]
    have h3 : AMesh.tri ⟨l ++ t.pts ++ ts.flatMap Tri3.pts, fs, c⟩
        ((l.length : Int), ((l.length + 1 : Nat) : Int), ((l.length + 2 : Nat) : Int)) = some t := by
      unfold AMesh.tri
      simp only [getI_natCast, List.append_assoc]
      simp [Tri3.pts]
    simp only [List.filterMap_cons, h3, List.filterMap_nil]
    rfl

theorem soup_addSoup {m : Mesh K} (h : m.OK) (ts) : (m.addSoup ts).soup = m.soup ++ ts := by
  unfold addSoup
  rw [soup_pushTris, soup_pushPts h]
  congr 1
  exact fresh_tri _ _ _ _

theorem nbVertices_addSoup (m : Mesh K) (ts) :
    (m.addSoup ts).nbVertices = m.nbVertices + 3 * ts.length := by
  have := length_flatMap_pts ts
  simp only [nbVertices, KernLT.nbVertices, addSoup, pushTris_verts, pushPts_verts,
    List.length_append, this]
  push_cast; rfl

theorem nbTriangles_addSoup (m : Mesh K) (ts) :
    (m.addSoup ts).nbTriangles = m.nbTriangles + ts.length := by
  simp [nbTriangles, KernLT.nbTriangles, addSoup, pushTris, freshCorners]

/-- A loop over all triangle ids that skips unlinked ones is a fold over the
linked corner triples. -/
theorem loop_linked {σ : Type} (m : Mesh K) (body : Nat → σ → Res σ)
    (g : Int × Int × Int → σ → Res σ)
    (h0 : ∀ i f s, m.view.faces[i]? = some f → f.linked = false → body i s = some s)
    (h1 : ∀ i f s, m.view.faces[i]? = some f → f.linked = true → body i s = g f.corners s)
    (s : σ) :
    loopN m.nbTriangles.toNat body s = m.view.linkedCorners.foldlM (fun s f => g f s) s := by
  have hl : m.nbTriangles.toNat = m.view.faces.length := by
    rw [(answers_view m).nbTriangles]; simp
  rw [hl]
  have key : ∀ n, n ≤ m.view.faces.length → loopN n body s =
      (((m.view.faces.take n).filter AFace.linked).map AFace.corners).foldlM
        (fun s f => g f s) s := by
    intro n
    induction n with
    | zero => intro _; rfl
    | succ n ih =>
      intro hn
      rw [loopN_succ, ih (by omega)]
      have hn' : n < m.view.faces.length := hn
      have ht : m.view.faces.take (n + 1) = m.view.faces.take n ++ [m.view.faces[n]] := by
        rw [List.take_add_one, List.getElem?_eq_getElem hn']; rfl
      rw [ht, List.filter_append, List.map_append, List.foldlM_append]
      congr 1
      funext s'
      cases hk : m.view.faces[n].linked
      · rw [h0 n _ s' (List.getElem?_eq_getElem hn') hk]; simp [hk]
      · rw [h1 n _ s' (List.getElem?_eq_getElem hn') hk]; simp [hk]
  rw [key _ le_rfl, List.take_length]; rfl

/-- as `loop_linked`, in terms of the geometric triangles -/
theorem loop_soup {σ : Type} {m : Mesh K} (hm : m.OK) (body : Nat → σ → Res σ)
    (g : Tri3 K → σ → Res σ)
    (h0 : ∀ (i : Nat) s, m.isTriangleUnlinked i = some true → body i s = some s)
    (h1 : ∀ (i : Nat) t s, m.isTriangleUnlinked i = some false → m.getTriangle i = some t →
      body i s = g t s) (s : σ) :
    loopN m.nbTriangles.toNat body s = m.triangles.foldlM (fun s t => g t s) s := by
  have hv := ((ok_iff m).1 hm).valid
  rw [loop_linked m body (fun f s => (m.view.tri f).bind fun t => g t s) (s := s)]
  · rw [triangles_eq]
    unfold soup
    have hl := linkedCorners_valid hv
    generalize m.view.linkedCorners = l at hl
    induction l generalizing s with
    | nil => rfl
    | cons f l ih =>
      obtain ⟨t, ht⟩ := AMesh.tri_isSome (hl f (by simp))
      simp only [List.foldlM_cons, List.filterMap_cons, ht, Option.bind_some]
      cases g t s with
      | none => rfl
      | some s' => exact ih s' (fun f hf => hl f (by simp [hf]))
  · intro i f s hf hl
    exact h0 i s (by rw [(answers_view m).unlinked]; simp [hf, hl])
  · intro i f s hf hl
    obtain ⟨t, ht⟩ := AMesh.tri_isSome (hv f (List.mem_of_getElem? hf))
    rw [ht]
    refine h1 i t s (by rw [(answers_view m).unlinked]; simp [hf, hl]) ?_
    rw [getTriangle_eq]; simp [hf, ht]

/-- `get_triangle` agrees with reading the corner ids and then the vertices -/
theorem getTriangle_split {m : Mesh K} {i : Int} {t} (h : m.getTriangle i = some t) :
    ∃ a b c, m.getTriangleVertices i = some (a, b, c) ∧ m.getVertex a = some t.p1 ∧
      m.getVertex b = some t.p2 ∧ m.getVertex c = some t.p3 := by
  rw [getTriangle_eq] at h
  obtain ⟨f, hf, ht⟩ := Option.bind_eq_some_iff.1 h
  refine ⟨f.corners.1, f.corners.2.1, f.corners.2.2, ?_, ?_⟩
  · rw [(answers_view m).corners, hf]; rfl
  · simp only [(answers_view m).getVertex]
    unfold AMesh.tri at ht
    simp only [Option.bind_eq_bind, Option.bind_eq_some_iff] at ht
    obtain ⟨p, hp, q, hq, r, hr, h⟩ := ht
    simp only [Option.pure_def, Option.some.injEq] at h
    subst h
    exact ⟨hp, hq, hr⟩

theorem foldlM_addSoup (l : List (Tri3 K)) (g : Tri3 K → List (Tri3 K)) (m : Mesh K) :
    l.foldlM (fun (s : Mesh K) t => (some (s.addSoup (g t)) : Res (Mesh K))) m =
      some (m.addSoup (l.flatMap g)) := by
  induction l generalizing m with
  | nil => simp [addSoup_nil]
  | cons t l ih => simp [List.foldlM_cons, ih, addSoup_append]

theorem clear_ok (m : Mesh K) : m.clear.OK := ok_of_no_tris rfl

theorem clear_soup (m : Mesh K) : m.clear.soup = [] := rfl

end Mesh
end CAD
