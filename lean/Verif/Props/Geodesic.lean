import Verif.Props.Platonic
import Verif.Props.Tessellate
import Verif.Props.MeshUtil

/-! C27: the geodesic sphere. -/

set_option linter.unusedSimpArgs false

namespace CAD

theorem closedSoup_map {K : Type*} (f : P3 K → P3 K) {ts : List (Tri3 K)} (h : ClosedSoup ts) :
    ClosedSoup (ts.map (Tri3.map f)) := by
  unfold ClosedSoup at *
  have e : (ts.map (Tri3.map f)).flatMap Tri3.dirEdges =
      (ts.flatMap Tri3.dirEdges).map (Prod.map f f) := by
    rw [List.flatMap_map, List.map_flatMap]; rfl
  rw [e]
  have := h.map (Prod.map f f)
  simp only [List.map_map] at this ⊢
  exact this

namespace Mesh
variable {K : Type}

theorem mapVertices_loop (m : Mesh K) (g : P3 K → Res (P3 K)) (t : P3 K → P3 K)
    (hg : ∀ v ∈ m.kern.verts, g v = some (t v)) (n : Nat) (hn : n ≤ m.kern.verts.length) :
    loopN n (fun i m => do
      let pv ← m.getVertex i
      let q ← g pv
      m.setVertex i q) m =
    some { m with kern := { m.kern with
      verts := (m.kern.verts.take n).map t ++ m.kern.verts.drop n } } := by
  induction n with
  | zero => simp [loopN_zero]
  | succ n ih =>
    rw [loopN_succ, ih (by omega)]
    have hn' : n < m.kern.verts.length := hn
    set m' : Mesh K := { m with kern := { m.kern with
      verts := (m.kern.verts.take n).map t ++ m.kern.verts.drop n } } with hm'
    have hv : m'.kern.verts = (m.kern.verts.take n).map t ++ m.kern.verts.drop n := rfl
    have hl : m'.kern.verts.length = m.kern.verts.length := by
      simp only [hv, List.length_append, List.length_map, List.length_take, List.length_drop]; omega
    have hg' := (answers_view m').getVertex n
    have hl2 : ((m.kern.verts.take n).map t).length = n := by
      rw [List.length_map, List.length_take]; omega
    have hx : m'.kern.verts[n]? = some m.kern.verts[n] := by
      rw [hv, List.getElem?_append_right (by omega), hl2, List.getElem?_drop]; simp [hn']
    simp only [view_points, getI_natCast, hx] at hg'
    simp only [Option.bind_some, Option.bind_eq_bind, hg', hg _ (List.getElem_mem hn')]
    rw [setVertex_eq, if_pos (by rw [hl]; exact inRange_natCast.2 hn')]
    simp only [Int.toNat_natCast, Option.some.injEq]
    rw [hm']
    congr 2
    have hd : m.kern.verts.drop n = m.kern.verts[n] :: m.kern.verts.drop (n + 1) :=
      List.drop_eq_getElem_cons hn'
    rw [List.set_append_right _ _ (by omega), hl2, hd, List.take_add_one,
      List.getElem?_eq_getElem hn', Nat.sub_self, List.set_cons_zero, List.map_append]
    simp only [Option.toList_some, List.map_cons, List.map_nil, List.append_assoc,
      List.cons_append, List.nil_append]

theorem mapVertices_soup (m : Mesh K) (g : P3 K → Res (P3 K)) (t : P3 K → P3 K) (ts : List (Tri3 K))
    (hm : m.kern.verts = []) (hg : ∀ x ∈ ts, ∀ v ∈ x.pts, g v = some (t v)) :
    loopN (m.addSoup ts).nbVertices.toNat (fun i m => do
      let pv ← m.getVertex i
      let q ← g pv
      m.setVertex i q) (m.addSoup ts) = some (m.addSoup (ts.map (Tri3.map t))) := by
  have hv : (m.addSoup ts).kern.verts = ts.flatMap Tri3.pts := by
    simp [addSoup, hm]
  have hN : (m.addSoup ts).nbVertices.toNat = (m.addSoup ts).kern.verts.length := by
    simp [Mesh.nbVertices, KernLT.nbVertices]
  rw [hN, mapVertices_loop _ g t _ _ le_rfl]
  · rw [List.take_length, List.drop_length, List.append_nil, hv]
    simp only [addSoup, pushTris, pushPts, hm, List.nil_append, List.length_map, List.flatMap_map,
      List.map_flatMap]
    rfl
  · intro v hv'
    rw [hv] at hv'
    obtain ⟨x, hx, hvx⟩ := List.mem_flatMap.1 hv'
    exact hg x hx v hvx

end Mesh

namespace Factory
open Mesh

/-- central projection to the sphere of radius `r` -/
noncomputable def project (r : ℝ) (v : P3 ℝ) : P3 ℝ := (r / v.norm) • v

theorem normalized_project {r : ℝ} {v : P3 ℝ} (hv : v ≠ 0) :
    (do let n ← v.normalized; some (r • n)) = some (project r v) := by
  rw [P3.normalized_of_ne hv]
  simp [project, P3.ext_iff]
  refine ⟨?_, ?_, ?_⟩ <;> ring

theorem project_norm {r : ℝ} {v : P3 ℝ} (hv : v ≠ 0) : (project r v).normSq = r ^ 2 := by
  have h := P3.norm_sq v
  have h0 := (P3.norm_pos hv).ne'
  simp only [project, P3.normSq, P3.smul_x, P3.smul_y, P3.smul_z] at h ⊢
  field_simp
  linear_combination -r ^ 2 * h

/-- no point of a triangle whose plane misses the origin is the origin -/
theorem inTriangle_ne_zero {t : Tri3 ℝ} (h : t.p1.dot t.orthogonal ≠ 0) {q} (hq : InTriangle t q) :
    q ≠ 0 := by
  rintro rfl
  obtain ⟨a, b, c, _, _, _, hs, he⟩ := hq
  apply h
  simp only [P3.ext_iff, P3.add_x, P3.add_y, P3.add_z, P3.smul_x, P3.smul_y, P3.smul_z] at he
  obtain ⟨h1, h2, h3⟩ := he
  simp only [Tri3.orthogonal, P3.dot, P3.cross, P3.sub_x, P3.sub_y, P3.sub_z]
  change (0 : ℝ) = _ at h1 h2 h3
  obtain ⟨⟨x1, y1, z1⟩, ⟨x2, y2, z2⟩, ⟨x3, y3, z3⟩⟩ := t
  simp only at h1 h2 h3 ⊢
  linear_combination (-(y2 * z3 - z2 * y3 + (y3 * z1 - z3 * y1) + (y1 * z2 - z1 * y2))) * h1 -
    (z2 * x3 - x2 * z3 + (z3 * x1 - x3 * z1) + (z1 * x2 - x1 * z2)) * h2 -
    (x2 * y3 - y2 * x3 + (x3 * y1 - y3 * x1) + (x1 * y2 - y1 * x2)) * h3 -
    (x1 * (y2 * z3 - z2 * y3) + y1 * (z2 * x3 - x2 * z3) + z1 * (x2 * y3 - y2 * x3)) * hs

/-- the icosahedron is closed as a set of triangles -/
theorem icosa_closed {ico : Mesh ℝ} (h : createIcosahedron 1 Mesh.new = some ico) :
    ClosedSoup ico.triangles := by
  obtain ⟨ico', e, hp, ht⟩ := icosa_tris 1 Mesh.new
  rw [h] at e
  obtain rfl := Option.some.inj e
  rw [closed_iff_edgeSum, ht]
  intro g hg
  simp only [edgeSum, Tri3.dirEdges, List.flatMap_cons, List.flatMap_nil, List.map_cons, List.map_nil,
    List.cons_append, List.nil_append, List.sum_cons, List.sum_nil]
  have hg' : ∀ a b, g (a, b) = - g (b, a) := fun a b => hg (a, b)
  grind

/-- the triangles of the geodesic sphere before its vertices are merged -/
noncomputable def geoSoup (r : ℝ) (n : Int) (ico : Mesh ℝ) : List (Tri3 ℝ) :=
  (ico.triangles.flatMap (Tessellate.tess n)).map (Tri3.map (project r))

theorem geodesic_eq (r : ℝ) (n : Int) (m : Mesh ℝ) : ∃ ico, createIcosahedron 1 Mesh.new = some ico ∧
    Polyhedron 12 30 20 ico ∧ (∀ t ∈ ico.triangles, t.p1.dot t.orthogonal ≠ 0) ∧
    createSphereGeodesic r n m = MeshUtil.mergeVertices (m.clear.addSoup (geoSoup r n ico))
      (r / (951 / 1000) / n / 20) := by
  obtain ⟨ico, h1, h2, h3, h4, h5, _⟩ := icosahedron_spec 1 Mesh.new
  have hdet : ∀ t ∈ ico.triangles, t.p1.dot t.orthogonal ≠ 0 := by
    intro t ht
    rw [h5 t ht]
    have : (1 : ℝ) < Real.sqrt 5 := by
      rw [Real.lt_sqrt (by norm_num)]; norm_num
    nlinarith
  refine ⟨ico, h1, h2, hdet, ?_⟩
  unfold createSphereGeodesic
  simp only [h1, Tessellate.compute_eq h2.ok, Option.bind_eq_bind, Option.bind_some]
  have hcc : m.clear.clear = m.clear := rfl
  rw [hcc]
  have key := mapVertices_soup m.clear (fun v => do let n ← v.normalized; some (r • n)) (project r)
    (ico.triangles.flatMap (Tessellate.tess n)) rfl (by
      intro x hx v hv
      obtain ⟨t, ht, hx⟩ := List.mem_flatMap.1 hx
      obtain ⟨a, b, c⟩ := Tessellate.tess_inside hx
      refine normalized_project (inTriangle_ne_zero (hdet t ht) ?_)
      simp only [Tri3.pts, List.mem_cons, List.not_mem_nil, or_false] at hv
      rcases hv with rfl | rfl | rfl
      exacts [a, b, c])
  simp only [Option.bind_eq_bind, Option.bind_assoc, Option.bind_some] at key
  rw [key]
  rfl

/-- **C27** `create_sphere_geodesic(r, n)`, `n ≥ 1`: the call succeeds with
valid ids and `20·n²` linked triangles; every vertex is at distance `|r|` from the
centre; vertices are pairwise at least the merge tolerance apart; and the triangles
are, in order, those of a closed oriented surface with corners on the sphere moved
by less than that tolerance. -/
theorem geodesic_spec (r : ℝ) (n : Int) (hn : 1 ≤ n) (m : Mesh ℝ) :
    let tol := r / (951 / 1000) / n / 20
    ∃ x, createSphereGeodesic r n m = some x ∧ x.OK ∧ x.nbTriangles = 20 * n ^ 2 ∧
      (∀ i, 0 ≤ i → i < x.nbTriangles → x.isTriangleUnlinked i = some false) ∧
      (∀ i p, x.getVertex i = some p → p.normSq = r ^ 2) ∧
      (∀ i j p q, i ≠ j → x.getVertex i = some p → x.getVertex j = some q → tol ^ 2 ≤ p.distSq q) ∧
      ∃ ts : List (Tri3 ℝ), ClosedSoup ts ∧
        (∀ t ∈ ts, t.p1.normSq = r ^ 2 ∧ t.p2.normSq = r ^ 2 ∧ t.p3.normSq = r ^ 2) ∧
        List.Forall₂ (fun t t' => MeshUtil.Moved tol t.p1 t'.p1 ∧ MeshUtil.Moved tol t.p2 t'.p2 ∧
          MeshUtil.Moved tol t.p3 t'.p3) ts x.triangles := by
  intro tol
  obtain ⟨ico, h1, h2, hdet, h3⟩ := geodesic_eq r n m
  have hcl := icosa_closed h1
  have hok := (clear_ok m).addSoup (geoSoup r n ico)
  have hts : (m.clear.addSoup (geoSoup r n ico)).triangles = geoSoup r n ico := by
    rw [triangles_eq, soup_addSoup (clear_ok m), clear_soup, List.nil_append]
  have hsph : ∀ t ∈ geoSoup r n ico, t.p1.normSq = r ^ 2 ∧ t.p2.normSq = r ^ 2 ∧ t.p3.normSq = r ^ 2 := by
    intro t ht
    obtain ⟨u, hu, rfl⟩ := List.mem_map.1 ht
    obtain ⟨v, hv, hu⟩ := List.mem_flatMap.1 hu
    obtain ⟨a, b, c⟩ := Tessellate.tess_inside hu
    exact ⟨project_norm (inTriangle_ne_zero (hdet v hv) a), project_norm (inTriangle_ne_zero (hdet v hv) b),
      project_norm (inTriangle_ne_zero (hdet v hv) c)⟩
  obtain ⟨x, hx, a1, a2, a3, a4, a5, a6, a7⟩ := MeshUtil.merge_keeps_triangles _ hok tol
  obtain ⟨x', hx', b1, b2, b3⟩ := MeshUtil.merge_respects_tolerance 0 _ hok tol
  have : x' = x := by
    have e : MeshUtil.mergeVerticesJunk 0 (m.clear.addSoup (geoSoup r n ico)) tol = some x := hx
    rw [e] at hx'; exact (Option.some.inj hx').symm
  subst this
  have hlen : (geoSoup r n ico).length = 20 * n.toNat ^ 2 := by
    unfold geoSoup
    rw [List.length_map]
    have hl : ico.triangles.length = 20 := by
      obtain ⟨ico', e, hp, ht⟩ := icosa_tris 1 Mesh.new
      rw [h1] at e
      rw [Option.some.inj e, ht]; rfl
    rw [← hl]
    generalize ico.triangles = l
    induction l with
    | nil => simp
    | cons t l ih => rw [List.flatMap_cons, List.length_append, ih, Tessellate.tess_length, List.length_cons]; ring
  refine ⟨x', by rw [h3]; exact hx, a1, ?_, a3, ?_, ?_, geoSoup r n ico, ?_, hsph, ?_⟩
  · rw [a2, hts, hlen]
    push_cast
    rw [Int.toNat_of_nonneg (by omega)]
  · intro i p hp
    obtain ⟨j, hj⟩ := b2 i p hp
    rw [(answers_view _).getVertex] at hj
    obtain ⟨k, _, hk⟩ := getI_eq_some_iff.1 hj
    have hmem : p ∈ (geoSoup r n ico).flatMap Tri3.pts := List.mem_of_getElem? hk
    obtain ⟨t, ht, hpt⟩ := List.mem_flatMap.1 hmem
    simp only [Tri3.pts, List.mem_cons, List.not_mem_nil, or_false] at hpt
    rcases hpt with rfl | rfl | rfl
    exacts [(hsph t ht).1, (hsph t ht).2.1, (hsph t ht).2.2]
  · intro i j p q hij hp hq
    rw [pow_two]; exact b1 i j p q hij hp hq
  · refine closedSoup_map _ ?_
    have := Tessellate.tessellate_closed ico m _ h2.ok n (Tessellate.compute_eq h2.ok n m) hcl
    rwa [triangles_eq, soup_addSoup (clear_ok m), clear_soup, List.nil_append] at this
  · rw [← hts]; exact b3

/-- **C27** with no segments the sphere is empty -/
theorem geodesic_empty (r : ℝ) (n : Int) (hn : n ≤ 0) (m : Mesh ℝ) :
    ∃ x, createSphereGeodesic r n m = some x ∧ x.nbTriangles = 0 ∧ x.nbVertices = 0 := by
  obtain ⟨ico, h1, h2, hdet, h3⟩ := geodesic_eq r n m
  have e : geoSoup r n ico = [] := by
    have : n.toNat = 0 := by omega
    have h : ∀ t : Tri3 ℝ, Tessellate.tess n t = [] := by intro t; unfold Tessellate.tess; rw [this]; rfl
    simp [geoSoup, h]
  rw [e, addSoup_nil] at h3
  obtain ⟨x, hx, a1, a2, a3, a4, a5, a6, a7⟩ := MeshUtil.merge_keeps_triangles _ (clear_ok m)
    (r / (951 / 1000) / (n : ℝ) / 20)
  refine ⟨x, by rw [h3]; exact hx, ?_, ?_⟩
  · rw [a2, triangles_eq, clear_soup]; rfl
  · have h0 : m.clear.nbVertices = 0 := rfl
    have := (show 0 ≤ x.nbVertices by simp [Mesh.nbVertices, KernLT.nbVertices])
    omega

end Factory
end CAD
