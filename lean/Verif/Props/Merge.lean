import Verif.Props.Geodesic

/-! C74: does `merge_vertices` keep a closed mesh closed? -/

set_option linter.unusedSimpArgs false
set_option linter.unusedSectionVars false

namespace CAD
namespace MeshUtil
open Mesh
variable {K : Type} [Field K] [LinearOrder K]

/-- two pillows glued corner to corner, with two isolated vertices near a repeated corner -/
def crackOps : List (MOp ℚ) :=
  [.addVertex ⟨0, 0, 0⟩, .addVertex ⟨3 / 5, 0, 0⟩, .addVertex ⟨6 / 5, 0, 0⟩, .addVertex ⟨3 / 5, 0, 0⟩,
    .addVertex ⟨10, 0, 0⟩, .addVertex ⟨0, 10, 0⟩, .addTriangle 1 4 5, .addTriangle 3 5 4]

/-- **C74** (negation) `merge_vertices` can tear a closed mesh: two vertices at the
same place, each nearer than the tolerance to two other vertices, are moved to
different places. -/
theorem merge_can_tear : ∃ (m r : Mesh ℚ) (ids : List Int), Mesh.run crackOps = some (m, ids) ∧
    m.getVertex 1 = m.getVertex 3 ∧ ClosedSoup m.triangles ∧ mergeVertices m 1 = some r ∧
    ¬ ClosedSoup r.triangles := by
  have h : ((Mesh.run crackOps).bind fun x => (mergeVertices x.1 1).map fun r =>
      (decide (x.1.getVertex 1 = x.1.getVertex 3), decide (ClosedSoup x.1.triangles),
        decide (ClosedSoup r.triangles))) = some (true, true, false) := by decide +kernel
  obtain ⟨⟨m, ids⟩, hm, h⟩ := Option.bind_eq_some_iff.1 h
  obtain ⟨r, hr, h⟩ := Option.map_eq_some_iff.1 h
  simp only [Prod.mk.injEq, decide_eq_true_eq, decide_eq_false_iff_not] at h
  exact ⟨m, r, ids, hm, h.1, h.2.1, hr, h.2.2⟩

variable [IsStrictOrderedRing K]

/-- a kept representative for each point -/
theorem newId_kept {ps : List (P3 K)} {tol : K} {al : List Int} (h : AliasOK ps (nearTol tol) al)
    {k : Nat} (hk : k < ps.length) :
    ∃ j : Nat, j < ps.length ∧ newId al k = cnt al j ∧ al[j]? = some (-1) ∧ (j = k ∨ Near ps (nearTol tol) k j) := by
  obtain ⟨a, ha, hat⟩ := h.at' k hk
  rcases hat with ⟨rfl, _⟩ | ⟨j, hj, rfl, hj1, hn⟩
  · exact ⟨k, hk, by simp [newId, ha], ha, Or.inl rfl⟩
  · exact ⟨j, by omega, by simp only [newId, ha]; rw [if_neg (by omega)]; simp, hj1, Or.inr hn⟩

theorem kept_not_near {ps : List (P3 K)} {tol : K} {al : List Int} (h : AliasOK ps (nearTol tol) al)
    {i j : Nat} (hi : i < ps.length) (hj : j < ps.length) (hai : al[i]? = some (-1)) (haj : al[j]? = some (-1))
    (hn : Near ps (nearTol tol) i j) (hij : i ≠ j) : False := by
  obtain ⟨p, q, hp, hq, hd⟩ := hn
  rcases lt_or_gt_of_ne hij with hlt | hlt
  · obtain ⟨a, ha, hat⟩ := h.at' j hj
    rw [haj, Option.some.injEq] at ha
    subst ha
    rcases hat with ⟨_, h2⟩ | ⟨x, _, hx, _⟩
    · exact h2 i hlt hai ⟨q, p, hq, hp, by rw [nearTol_comm]; exact hd⟩
    · omega
  · obtain ⟨a, ha, hat⟩ := h.at' i hi
    rw [hai, Option.some.injEq] at ha
    subst ha
    rcases hat with ⟨_, h2⟩ | ⟨x, _, hx, _⟩
    · exact h2 j hlt haj ⟨p, q, hp, hq, hd⟩
    · omega

/-- where point `k` ends up -/
def finalPt (ps : List (P3 K)) (al : List Int) (k : Nat) : Option (P3 K) :=
  getI (keptPts ps al ps.length) (newId al k)

theorem finalPt_coherent {ps : List (P3 K)} {tol : K} {al : List Int} (h : AliasOK ps (nearTol tol) al)
    (htr : ∀ (i j k : Nat) (p q s : P3 K), ps[i]? = some p → ps[j]? = some q → ps[k]? = some s →
      p.distSq q < tol * tol → q.distSq s < tol * tol → p.distSq s < tol * tol)
    {i j : Nat} {p : P3 K} (hi : ps[i]? = some p) (hj : ps[j]? = some p) :
    finalPt ps al i = finalPt ps al j := by
  have hil := (List.getElem?_eq_some_iff.1 hi).1
  have hjl := (List.getElem?_eq_some_iff.1 hj).1
  obtain ⟨a, hal, ea, ha, hna⟩ := newId_kept h hil
  obtain ⟨b, hbl, eb, hb, hnb⟩ := newId_kept h hjl
  have dself : p.distSq p = 0 := by simp [P3.distSq]
  by_cases ht : 0 < tol * tol
  · have near_of : ∀ {k c : Nat}, ps[k]? = some p → (c = k ∨ Near ps (nearTol tol) k c) →
        ∃ q, ps[c]? = some q ∧ p.distSq q < tol * tol := by
      rintro k c hk (rfl | ⟨p', q, hp', hq, hd⟩)
      · exact ⟨p, hk, by rw [dself]; exact ht⟩
      · rw [hk, Option.some.injEq] at hp'
        subst hp'
        exact ⟨q, hq, nearTol_iff.1 hd⟩
    obtain ⟨qa, hqa, da⟩ := near_of hi hna
    obtain ⟨qb, hqb, db⟩ := near_of hj hnb
    have hab : a = b := by
      by_contra hne
      refine kept_not_near h hal hbl ha hb ⟨qa, qb, hqa, hqb, nearTol_iff.2 ?_⟩ hne
      exact htr a i b qa p qb hqa hi hqb (by rw [P3.distSq_comm]; exact da) db
    unfold finalPt
    rw [ea, eb, hab]
  · have no : ∀ k c, ¬ Near ps (nearTol tol) k c := by
      rintro k c ⟨x, y, _, _, hd⟩
      exact ht (lt_of_le_of_lt (P3.distSq_nonneg x y) (nearTol_iff.1 hd))
    obtain rfl := hna.resolve_right (no _ _)
    obtain rfl := hnb.resolve_right (no _ _)
    unfold finalPt
    rw [ea, eb, getI_natCast, getI_natCast, keptPts_get h.len hal ha, keptPts_get h.len hbl hb]
    rw [List.getElem?_eq_getElem hal] at hi
    rw [List.getElem?_eq_getElem hbl] at hj
    rw [hi, hj]

/-- **C74** When "nearer than the tolerance" is transitive among the vertices, the
vertices are moved by a function of their position, so coincident corners stay
coincident and a closed mesh stays closed.  Missing from C74: the hypothesis
(without it the claim is false, `merge_can_tear`). -/
theorem merge_closed_partial (m : Mesh K) (hm : m.OK) (tol : K)
    (htr : ∀ i j k p q s, m.getVertex i = some p → m.getVertex j = some q → m.getVertex k = some s →
      p.distSq q < tol * tol → q.distSq s < tol * tol → p.distSq s < tol * tol) :
    ∃ r, mergeVertices m tol = some r ∧
      (∃ F : P3 K → P3 K, r.triangles = m.triangles.map (Tri3.map F)) ∧
      (ClosedSoup m.triangles → ClosedSoup r.triangles) := by
  obtain ⟨al, hA, h⟩ := mergeVertices_eq 0 hm tol
  have htr' : ∀ (i j k : Nat) (p q s : P3 K), m.kern.verts[i]? = some p → m.kern.verts[j]? = some q →
      m.kern.verts[k]? = some s → p.distSq q < tol * tol → q.distSq s < tol * tol →
      p.distSq s < tol * tol := by
    intro i j k p q s h1 h2 h3
    refine htr i j k p q s ?_ ?_ ?_ <;> rw [(answers_view m).getVertex, getI_natCast] <;> assumption
  classical
  let F : P3 K → P3 K := fun p => if hp : ∃ k, m.kern.verts[k]? = some p then
    (finalPt m.kern.verts al hp.choose).getD p else p
  have hF : ∀ k (hk : k < m.kern.verts.length),
      getI (keptPts m.kern.verts al m.kern.verts.length) (newId al k) = some (F m.kern.verts[k]) := by
    intro k hk
    have hex : ∃ k', m.kern.verts[k']? = some m.kern.verts[k] := ⟨k, List.getElem?_eq_getElem hk⟩
    have h1 : finalPt m.kern.verts al hex.choose = finalPt m.kern.verts al k :=
      finalPt_coherent hA htr' hex.choose_spec (List.getElem?_eq_getElem hk)
    obtain ⟨j, e, hl, q, hq, _⟩ := newId_spec hA hk
    have h2 : finalPt m.kern.verts al k = some q := by
      unfold finalPt; rw [e, getI_natCast]; exact hq
    simp only [F]
    rw [dif_pos hex, h1, h2]
    exact h2
  have key : ((m.clear.pushPts (keptPts m.kern.verts al m.kern.verts.length)).pushTris
        (m.view.linkedCorners.map (mapCorners fun i => newId al i.toNat))).triangles =
      m.triangles.map (Tri3.map F) := by
    rw [triangles_eq, triangles_eq, soup_pushTris]
    set M := m.clear.pushPts (keptPts m.kern.verts al m.kern.verts.length) with hM
    have h0 : M.soup = [] := rfl
    rw [h0, List.nil_append]
    unfold soup
    have hval : ∀ f ∈ m.view.linkedCorners, CornersIn m.kern.verts.length f :=
      linkedCorners_valid ((ok_iff m).1 hm).valid
    generalize m.view.linkedCorners = l at hval
    induction l with
    | nil => simp
    | cons f l ih =>
      obtain ⟨f1, f2, f3⟩ := f
      obtain ⟨c1, c2, c3⟩ := hval (f1, f2, f3) (by simp)
      obtain ⟨k1, rfl, hk1⟩ := c1.exists
      obtain ⟨k2, rfl, hk2⟩ := c2.exists
      obtain ⟨k3, rfl, hk3⟩ := c3.exists
      have t1 : m.view.tri ((k1 : Int), (k2 : Int), (k3 : Int)) =
          some ⟨m.kern.verts[k1], m.kern.verts[k2], m.kern.verts[k3]⟩ := by
        simp [AMesh.tri, hk1, hk2, hk3]
      have t2 : M.view.tri (mapCorners (fun i => newId al i.toNat) ((k1 : Int), (k2 : Int), (k3 : Int))) =
          some ⟨F m.kern.verts[k1], F m.kern.verts[k2], F m.kern.verts[k3]⟩ := by
        have hMv : M.view.points = keptPts m.kern.verts al m.kern.verts.length := rfl
        simp only [AMesh.tri, mapCorners, Int.toNat_natCast, hMv, hF _ hk1, hF _ hk2, hF _ hk3,
          Option.bind_eq_bind, Option.bind_some, Option.pure_def]
      simp only [List.map_cons, List.filterMap_cons, t1, t2]
      rw [ih (fun f hf => hval f (by simp [hf]))]
      rfl
  refine ⟨_, h, ⟨F, key⟩, fun hc => ?_⟩
  rw [key]
  exact closedSoup_map F hc

end MeshUtil
end CAD
