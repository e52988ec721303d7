import Verif.Props.NurbsSpread
import Verif.Props.FilesDouble
import Verif.Props.GeodesicRounded
import Verif.Props.Boolean

/-! C133: a mesh computed in `double`, saved as STL or OBJ, loaded and merged in `double`. -/

set_option linter.unusedSimpArgs false

namespace CAD
open Mesh MeshUtil

/-- the vertices of a mesh whose triangles have their own three vertices, in order -/
theorem fresh_vertex {B : Mesh ℝ} (hB : B.OK) {n : Nat}
    (hc : B.cornerList = (List.range n).map fun (k : Nat) => (3 * (k : Int), 3 * (k : Int) + 1, 3 * (k : Int) + 2)) {k : Nat} {t : Tri3 ℝ}
    (ht : B.triangles[k]? = some t) :
    B.getVertex (3 * (k : Int)) = some t.p1 ∧ B.getVertex (3 * (k : Int) + 1) = some t.p2 ∧ B.getVertex (3 * (k : Int) + 2) = some t.p3 := by
  obtain ⟨a, b⟩ := triangles_pos hB
  rw [a, hc, List.map_map, List.getElem?_map, Option.map_eq_some_iff] at ht
  obtain ⟨j, hj, rfl⟩ := ht
  obtain ⟨hl, rfl⟩ := List.getElem?_eq_some_iff.1 hj
  have hl' : k < n := by simpa using hl
  simp only [List.getElem_range, Function.comp]
  exact b _ (by rw [hc]; exact List.mem_map.2 ⟨k, by simpa using hl', rfl⟩)

/-- corners of two meshes with the same faces -/
theorem near_triangles {E : ℝ} {M m : Mesh ℝ} (hM : M.OK) (hm : m.OK) (near : Nurbs.MeshNear E M m) :
    List.Forall₂ (fun t t' => Nurbs.Near E t.p1 t'.p1 ∧ Nurbs.Near E t.p2 t'.p2 ∧ Nurbs.Near E t.p3 t'.p3) M.triangles m.triangles := by
  obtain ⟨a, a'⟩ := triangles_pos hM
  obtain ⟨b, b'⟩ := triangles_pos hm
  rw [near.cornerList] at b b'
  rw [a, b, List.forall₂_map_left_iff, List.forall₂_map_right_iff, List.forall₂_same]
  intro f hf
  obtain ⟨a1, a2, a3⟩ := a' f hf
  obtain ⟨b1, b2, b3⟩ := b' f hf
  have key : ∀ {i : Int}, M.getVertex i = some (posOf M i) → m.getVertex i = some (posOf m i) → Nurbs.Near E (posOf M i) (posOf m i) := by
    intro i h1 h2
    obtain ⟨q, hq, n⟩ := near.vertex i _ h1
    obtain rfl := Option.some_inj.1 (h2.symm.trans hq)
    exact n
  exact ⟨key a1 b1, key a2 b2, key a3 b3⟩

theorem near_trans {d e : ℝ} {p q s : P3 ℝ} (h : Nurbs.Near d p q) (h' : Nurbs.Near e q s) : Nurbs.Near (d + e) p s := by
  obtain ⟨a, b, c⟩ := h
  obtain ⟨a', b', c'⟩ := h'
  refine ⟨?_, ?_, ?_⟩
  · have := abs_sub_le s.x q.x p.x; linarith
  · have := abs_sub_le s.y q.y p.y; linarith
  · have := abs_sub_le s.z q.z p.z; linarith

theorem corner_is_vertex {M : Mesh ℝ} (hM : M.OK) {t : Tri3 ℝ} (ht : t ∈ M.triangles) :
    (∃ i, M.getVertex i = some t.p1) ∧ (∃ i, M.getVertex i = some t.p2) ∧ ∃ i, M.getVertex i = some t.p3 := by
  obtain ⟨a, b⟩ := triangles_pos hM
  rw [a] at ht
  obtain ⟨f, hf, rfl⟩ := List.mem_map.1 ht
  obtain ⟨b1, b2, b3⟩ := b f hf
  exact ⟨⟨_, b1⟩, ⟨_, b2⟩, ⟨_, b3⟩⟩

namespace Stl

/-- a point of `double` coordinates on its way through the file -/
theorem through_point {R : ℝ} (hR : 2 ^ (-120 : ℤ) ≤ R) (hR' : R ≤ 2 ^ 127) {p : P3 ℝ} (dx : CAD.IsDouble p.x) (dy : CAD.IsDouble p.y) (dz : CAD.IsDouble p.z)
    (pR : p.norm ≤ R) : Nurbs.Near (2 ^ (-23 : ℤ) * R) p (throughFile encD decD p) := by
  have co := Rounded.coords_le_norm p
  have e1 : (2 : ℝ) ^ (-23 : ℤ) = 2 * 2 ^ (-24 : ℤ) := by rw [← zpow_one_add₀ (by norm_num)]; norm_num
  have e2 : (2 : ℝ) ^ (-150 : ℤ) ≤ 2 ^ (-24 : ℤ) * R := by
    refine le_trans ?_ (mul_le_mul_of_nonneg_left hR (by positivity))
    rw [← zpow_add₀ (by norm_num)]
    exact zpow_le_zpow_right₀ (by norm_num) (by norm_num)
  have key : ∀ {x : ℝ}, CAD.IsDouble x → |x| ≤ p.norm → |decD (encD x) - x| ≤ 2 ^ (-23 : ℤ) * R := by
    intro x h hx
    have h1 := through_near h (hx.trans (pR.trans hR'))
    have h2 : (2 : ℝ) ^ (-24 : ℤ) * |x| ≤ 2 ^ (-24 : ℤ) * R := mul_le_mul_of_nonneg_left (hx.trans pR) (by positivity)
    rw [e1, mul_assoc]
    linarith
  exact ⟨key dx co.1, key dy co.2.1, key dz co.2.2⟩

/-- C133.  `m` is a mesh of `double` coordinates, off by at most `E` from the exact surface `M`; saved as
STL, loaded (whatever was in the mesh before) and merged in `double`, its triangles are connected again:
one vertex for each position, and closed by vertex numbers when the exact surface is closed. -/
theorem stl_weld_double {M m : Mesh ℝ} (hM : M.OK) (hm : m.OK) {E R tol : ℝ} (near : Nurbs.MeshNear E M m) (hE : 0 ≤ E)
    (hn : 3 * m.triangles.length ≤ 2147483647) (hd : ∀ t ∈ m.triangles, ∀ x ∈ coords t, CAD.IsDouble x)
    (hR : 2 ^ (-120 : ℤ) ≤ R) (hR' : R ≤ 2 ^ 127) (hb : Nurbs.InBall R m)
    (htol : 4 * (E + 2 ^ (-23 : ℤ) * R) + tol * 2 ^ (-49 : ℤ) < tol)
    (hgap : ∀ i j p q, M.getVertex i = some p → M.getVertex j = some q → p ≠ q →
      tol + tol * 2 ^ (-49 : ℤ) + 4 * (E + 2 ^ (-23 : ℤ) * R) ≤ (p - q).norm) :
    ∃ bytes, save encD m = some bytes ∧ ∀ m0 : Mesh ℝ, ∃ m' r, load decD (some bytes) m0 = some (true, m') ∧
      mergeVerticesBy (Rounded.nearTol double tol) 0 m' = some r ∧ r.OK ∧ r.nbTriangles = m.triangles.length ∧
      (∀ t ∈ M.triangles, ∀ p ∈ [t.p1, t.p2, t.p3], ∃ k p', r.getVertex k = some p' ∧ (p' - p).norm ≤ 2 * (E + 2 ^ (-23 : ℤ) * R)) ∧
      (∀ k p', r.getVertex k = some p' → ∃ i p, M.getVertex i = some p ∧ (p' - p).norm ≤ 2 * (E + 2 ^ (-23 : ℤ) * R)) ∧
      (∀ k l p p', r.getVertex k = some p → r.getVertex l = some p' → k ≠ l → tol - tol * 2 ^ (-49 : ℤ) ≤ (p - p').norm) ∧
      (ClosedSoup M.triangles → BalancedIds r.cornerList) := by
  obtain ⟨bytes, e, h⟩ := stl_roundtrip (enc := encD) (fun x => F32.length_enc _) decD hm hn
  refine ⟨bytes, e, fun m0 => ?_⟩
  obtain ⟨m', e', hok, ht, -, hv, -, hc⟩ := h m0
  have R0 : 0 < R := lt_of_lt_of_le (by positivity) hR
  have nt := near_triangles hM hm near
  have len := nt.length_eq
  set A : Mesh ℝ := (Mesh.new : Mesh ℝ).clear.addSoup M.triangles with hA
  have okA : A.OK := (clear_ok _).addSoup _
  have cA : A.cornerList = (List.range M.triangles.length).map fun (k : Nat) => (3 * (k : Int), 3 * (k : Int) + 1, 3 * (k : Int) + 2) := by
    rw [hA, Rounded.soup_cornerList]
    unfold freshCorners
    apply List.map_congr_left
    intro k _
    simp
  have tA : A.triangles = M.triangles := by
    rw [hA, Mesh.triangles_eq, Mesh.soup_addSoup (clear_ok _), Mesh.clear_soup, List.nil_append]
  have vA : A.nbVertices = 3 * M.triangles.length := by rw [hA, nbVertices_addSoup']
  have getA : ∀ {i P}, A.getVertex i = some P → ∃ t ∈ M.triangles, P = t.p1 ∨ P = t.p2 ∨ P = t.p3 := by
    intro i P hP
    rw [hA, Rounded.soup_getVertex] at hP
    obtain ⟨k, -, hk⟩ := getI_eq_some_iff.1 hP
    obtain ⟨t, ht, hpt⟩ := List.mem_flatMap.1 (List.mem_of_getElem? hk)
    exact ⟨t, ht, by simpa [Tri3.pts] using hpt⟩
  have inM : ∀ {i P}, A.getVertex i = some P → ∃ j, M.getVertex j = some P := by
    intro i P hP
    obtain ⟨t, ht, h⟩ := getA hP
    obtain ⟨c1, c2, c3⟩ := corner_is_vertex hM ht
    rcases h with rfl | rfl | rfl <;> assumption
  have nearA : ∀ i p, A.getVertex i = some p → ∃ p', m'.getVertex i = some p' ∧ Nurbs.Near (E + 2 ^ (-23 : ℤ) * R) p p' := by
    intro i p hp
    obtain ⟨j, rfl, hj⟩ := (Mesh.inRange_of_getVertex hp).exists
    have hj' : j < 3 * M.triangles.length := by
      have : (A.kern.verts.length : Int) = 3 * M.triangles.length := vA
      omega
    have hk : j / 3 < M.triangles.length := by omega
    have hk' : j / 3 < m.triangles.length := by omega
    obtain ⟨x1, x2, x3⟩ := fresh_vertex okA cA (k := j / 3) (t := M.triangles[j / 3]) (by rw [tA]; exact List.getElem?_eq_getElem hk)
    obtain ⟨y1, y2, y3⟩ := fresh_vertex hok hc (k := j / 3) (t := (m.triangles[j / 3]).map (throughFile encD decD)) (by
      rw [ht, List.getElem?_map, List.getElem?_eq_getElem hk']; rfl)
    obtain ⟨n1, n2, n3⟩ := (List.forall₂_iff_get.1 nt).2 (j / 3) hk hk'
    have mem : m.triangles[j / 3] ∈ m.triangles := List.getElem_mem _
    have hdt := hd _ mem
    have hbt := hb _ mem
    simp only [coords, List.mem_cons, List.not_mem_nil, or_false, forall_eq_or_imp, forall_eq] at hdt
    simp only [List.get_eq_getElem] at n1 n2 n3
    have w1 := near_trans n1 (through_point hR hR' hdt.1 hdt.2.1 hdt.2.2.1 hbt.1)
    have w2 := near_trans n2 (through_point hR hR' hdt.2.2.2.1 hdt.2.2.2.2.1 hdt.2.2.2.2.2.1 hbt.2)
    have w3 := near_trans n3 (through_point hR hR' hdt.2.2.2.2.2.2.1 hdt.2.2.2.2.2.2.2.1 hdt.2.2.2.2.2.2.2.2 hbt.3)
    rcases (show (j : Int) = 3 * ((j / 3 : Nat) : Int) ∨ (j : Int) = 3 * ((j / 3 : Nat) : Int) + 1 ∨ (j : Int) = 3 * ((j / 3 : Nat) : Int) + 2 by omega)
      with h | h | h
    · rw [h, x1, Option.some.injEq] at hp
      subst hp
      exact ⟨_, by rw [h]; exact y1, w1⟩
    · rw [h, x2, Option.some.injEq] at hp
      subst hp
      exact ⟨_, by rw [h]; exact y2, w2⟩
    · rw [h, x3, Option.some.injEq] at hp
      subst hp
      exact ⟨_, by rw [h]; exact y3, w3⟩
  have t0 : 2 ^ (-23 : ℤ) * R ≤ tol := by
    have : (0 : ℝ) < 2 ^ (-49 : ℤ) := by positivity
    have u1 : (2 : ℝ) ^ (-49 : ℤ) ≤ 1 / 100 := by norm_num
    have q : 0 < 2 ^ (-23 : ℤ) * R := by positivity
    generalize (2 : ℝ) ^ (-49 : ℤ) = u at *
    generalize (2 : ℝ) ^ (-23 : ℤ) * R = w at *
    by_contra hc
    nlinarith
  have h0 : (2 : ℝ) ^ (-500 : ℤ) ≤ tol := by
    refine le_trans ?_ t0
    refine le_trans ?_ (mul_le_mul_of_nonneg_left hR (by positivity))
    rw [← zpow_add₀ (by norm_num)]
    exact zpow_le_zpow_right₀ (by norm_num) (by norm_num)
  obtain ⟨r, f1, f2, f3, f4, f5, f6, f7⟩ := Rounded.weld_near h0 A m' okA hok (by rw [hc, cA, len]) (by rw [hv, vA, len]) nearA (by positivity) htol
    (fun i j p q hp hq hpq => by
      obtain ⟨i', hi⟩ := inM hp
      obtain ⟨j', hj⟩ := inM hq
      exact hgap i' j' p q hi hj hpq)
  rw [tA] at f3 f7
  refine ⟨m', r, e', f1, f2, by rw [f3, len], fun t htm p hp => f4 p ?_, fun k p' hk => ?_, f6, f7⟩
  · obtain ⟨k, hk, rfl⟩ := List.mem_iff_getElem.1 htm
    obtain ⟨x1, x2, x3⟩ := fresh_vertex okA cA (k := k) (t := M.triangles[k]) (by rw [tA]; exact List.getElem?_eq_getElem hk)
    simp only [List.mem_cons, List.not_mem_nil, or_false] at hp
    rcases hp with rfl | rfl | rfl
    · exact ⟨_, x1⟩
    · exact ⟨_, x2⟩
    · exact ⟨_, x3⟩
  · obtain ⟨i, p, hp, n⟩ := f5 k p' hk
    obtain ⟨j, hj⟩ := inM hp
    exact ⟨j, p, hj, n⟩

end Stl

namespace Obj

/-- C133.  The same for OBJ files with their six digits; all vertices of `m` are stored. -/
theorem obj_weld_double {col : Int → List Char} (hcol : ColorOK col) {M m : Mesh ℝ} (hM : M.OK) (hm : m.OK) {E R tol : ℝ}
    (near : Nurbs.MeshNear E M m) (hE : 0 ≤ E) (hn : m.nbVertices ≤ 2147483647)
    (hd : ∀ i p, m.getVertex i = some p → ∀ x ∈ [p.x, p.y, p.z], CAD.IsDouble x)
    (hR : 2 ^ (-120 : ℤ) ≤ R) (hR' : R ≤ 2 ^ 150) (hb : ∀ i p, m.getVertex i = some p → p.norm ≤ R)
    (htol : 4 * (E + 6 / 1000000 * R) + tol * 2 ^ (-49 : ℤ) < tol)
    (hgap : ∀ i j p q, M.getVertex i = some p → M.getVertex j = some q → p ≠ q →
      tol + tol * 2 ^ (-49 : ℤ) + 4 * (E + 6 / 1000000 * R) ≤ (p - q).norm) :
    ∃ text, save codecD col m = some text ∧ ∀ m0 : Mesh ℝ, ∃ m' r, load codecD (some text) m0 = some (true, m') ∧
      mergeVerticesBy (Rounded.nearTol double tol) 0 m' = some r ∧ r.OK ∧ r.nbTriangles = m.triangles.length ∧
      (∀ p, (∃ i, M.getVertex i = some p) → ∃ k p', r.getVertex k = some p' ∧ (p' - p).norm ≤ 2 * (E + 6 / 1000000 * R)) ∧
      (∀ k p', r.getVertex k = some p' → ∃ i p, M.getVertex i = some p ∧ (p' - p).norm ≤ 2 * (E + 6 / 1000000 * R)) ∧
      (∀ k l p p', r.getVertex k = some p → r.getVertex l = some p' → k ≠ l → tol - tol * 2 ^ (-49 : ℤ) ≤ (p - p').norm) ∧
      (ClosedSoup M.triangles → BalancedIds r.cornerList) := by
  obtain ⟨text, e, h⟩ := obj_roundtrip codecD_reads hcol hm hn
  refine ⟨text, e, fun m0 => ?_⟩
  obtain ⟨m', e', hok, hv, hg, hc, -⟩ := h m0
  have R0 : 0 < R := lt_of_lt_of_le (by positivity) hR
  have e2 : (2 : ℝ) ^ (-1075 : ℤ) ≤ 1 / 10000000 * R := by
    refine le_trans ?_ (mul_le_mul_of_nonneg_left hR (by norm_num))
    calc (2 : ℝ) ^ (-1075 : ℤ) ≤ 2 ^ (-24 : ℤ) * 2 ^ (-120 : ℤ) := by
          rw [← zpow_add₀ (by norm_num)]
          exact zpow_le_zpow_right₀ (by norm_num) (by norm_num)
      _ ≤ _ := mul_le_mul_of_nonneg_right (by norm_num) (by positivity)
  have key : ∀ {x : ℝ}, CAD.IsDouble x → |x| ≤ R → |double (roundG (ratOf x) : ℝ) - x| ≤ 6 / 1000000 * R := by
    intro x h hx
    have h1 := through_near h (hx.trans hR')
    generalize (2 : ℝ) ^ (-1075 : ℤ) = w at *
    linarith
  have nearM : ∀ i p, M.getVertex i = some p → ∃ p', m'.getVertex i = some p' ∧ Nurbs.Near (E + 6 / 1000000 * R) p p' := by
    intro i p hp
    obtain ⟨q, hq, n⟩ := near.vertex i p hp
    have hdq := hd i q hq
    simp only [List.mem_cons, List.not_mem_nil, or_false, forall_eq_or_imp, forall_eq] at hdq
    have co := Rounded.coords_le_norm q
    have qR := hb i q hq
    exact ⟨_, by rw [hg, hq]; rfl, near_trans n ⟨key hdq.1 (co.1.trans qR), key hdq.2.1 (co.2.1.trans qR), key hdq.2.2 (co.2.2.trans qR)⟩⟩
  have t0 : 6 / 1000000 * R ≤ tol := by
    have : (0 : ℝ) < 2 ^ (-49 : ℤ) := by positivity
    have u1 : (2 : ℝ) ^ (-49 : ℤ) ≤ 1 / 100 := by norm_num
    generalize (2 : ℝ) ^ (-49 : ℤ) = u at *
    by_contra hc
    nlinarith
  have h0 : (2 : ℝ) ^ (-500 : ℤ) ≤ tol := by
    refine le_trans ?_ t0
    refine le_trans ?_ (mul_le_mul_of_nonneg_left hR (by norm_num))
    calc (2 : ℝ) ^ (-500 : ℤ) ≤ 2 ^ (-24 : ℤ) * 2 ^ (-120 : ℤ) := by
          rw [← zpow_add₀ (by norm_num)]
          exact zpow_le_zpow_right₀ (by norm_num) (by norm_num)
      _ ≤ _ := mul_le_mul_of_nonneg_right (by norm_num) (by positivity)
  obtain ⟨r, f1, f2, f3, f4, f5, f6, f7⟩ := Rounded.weld_near h0 M m' hM hok (by rw [hc, near.cornerList]) (by rw [hv, near.nbVertices]) nearM
    (by positivity) htol hgap
  refine ⟨m', r, e', f1, f2, ?_, f4, f5, f6, f7⟩
  rw [f3, (triangles_pos hM).1, (triangles_pos hm).1, near.cornerList, List.length_map, List.length_map]

end Obj

/-! ### A concrete case -/

/-- a surface closed by vertex numbers is closed by positions -/
theorem closedSoup_of_balanced {m : Mesh ℝ} (hm : m.OK) (h : BalancedIds m.cornerList) : ClosedSoup m.triangles := by
  unfold ClosedSoup
  rw [edges_pos hm, List.map_map]
  have := h.map fun e => (posOf m e.1, posOf m e.2)
  rwa [List.map_map] at this

private noncomputable def corner : Mesh ℝ :=
  Mesh.new.build [⟨0, 0, 0⟩, ⟨1, 0, 0⟩, ⟨0, 1, 0⟩, ⟨0, 0, 1⟩] [(0, 2, 1), (0, 1, 3), (0, 3, 2), (1, 2, 3)]

private theorem corner_ok : corner.OK := Mesh.build_ok _ (by decide)

private theorem corner_vertex {i p} (h : corner.getVertex i = some p) :
    p = ⟨0, 0, 0⟩ ∨ p = ⟨1, 0, 0⟩ ∨ p = ⟨0, 1, 0⟩ ∨ p = ⟨0, 0, 1⟩ := by
  unfold corner at h
  rw [Mesh.build_getVertex] at h
  obtain ⟨k, -, hk⟩ := getI_eq_some_iff.1 h
  have := List.mem_of_getElem? hk
  simpa using this

/-- the tetrahedron at the origin, saved as OBJ, loaded and merged with tolerance 1/10 -/
example : ∃ text, Obj.save Obj.codecD Obj.colG corner = some text ∧ ∀ m0 : Mesh ℝ, ∃ m' r, Obj.load Obj.codecD (some text) m0 = some (true, m') ∧
    mergeVerticesBy (Rounded.nearTol double (1 / 10)) 0 m' = some r ∧ BalancedIds r.cornerList := by
  have hc : corner.cornerList = [(0, 2, 1), (0, 1, 3), (0, 3, 2), (1, 2, 3)] := Mesh.build_cornerList _ _ _
  have cl : ClosedSoup corner.triangles := closedSoup_of_balanced corner_ok (by rw [hc]; unfold BalancedIds; decide)
  have u : (2 : ℝ) ^ (-49 : ℤ) ≤ 1 / 10 := by norm_num
  obtain ⟨text, a, b⟩ := Obj.obj_weld_double (col := Obj.colG) (R := 1) (tol := 1 / 10) Obj.colG_ok corner_ok corner_ok
    (Nurbs.Close.refl le_rfl corner).meshNear le_rfl (by show (4 : Int) ≤ _; norm_num)
    (fun i p hp x hx => by
      have : x = 0 ∨ x = 1 := by
        rcases corner_vertex hp with rfl | rfl | rfl | rfl <;> simp at hx <;> tauto
      rcases this with rfl | rfl
      · exact ⟨0, 0, by norm_num, by norm_num, by norm_num⟩
      · exact ⟨1, 0, by norm_num, by norm_num, by norm_num⟩)
    (zpow_le_one_of_nonpos₀ (by norm_num) (by norm_num)) (by norm_num)
    (fun i p hp => by rcases corner_vertex hp with rfl | rfl | rfl | rfl <;> simp [P3.norm])
    (by generalize (2 : ℝ) ^ (-49 : ℤ) = v at *; linarith)
    (fun i j p q hp hq hpq => by
      have : 1 ≤ (p - q).norm := by
        rw [P3.norm_eq, Real.one_le_sqrt]
        rcases corner_vertex hp with rfl | rfl | rfl | rfl <;> rcases corner_vertex hq with rfl | rfl | rfl | rfl <;>
          first | exact absurd rfl hpq | norm_num [P3.normSq]
      generalize (2 : ℝ) ^ (-49 : ℤ) = v at *
      linarith)
  refine ⟨text, a, fun m0 => ?_⟩
  obtain ⟨m', r, c1, c2, -, -, -, -, -, c3⟩ := b m0
  exact ⟨m', r, c1, c2, c3 cl⟩

namespace Nurbs

/-- all coordinates of all stored vertices are `double` numbers -/
def AllDouble (m : Mesh ℝ) : Prop := ∀ p ∈ m.kern.verts, CAD.IsDouble p.x ∧ CAD.IsDouble p.y ∧ CAD.IsDouble p.z

theorem isDouble_double (x : ℝ) : CAD.IsDouble (double x) := ieee_representable (by norm_num) x

theorem evaluate_isDouble {s s' : Surface ℝ} {u v : ℝ} {p : P3 ℝ} (h : s.evaluateBy (roundedOps double) u v = some (s', p)) :
    CAD.IsDouble p.x ∧ CAD.IsDouble p.y ∧ CAD.IsDouble p.z := by
  unfold Surface.evaluateBy at h
  simp only [Option.bind_eq_bind, Option.bind_eq_some_iff, Option.pure_def, Option.some.injEq, Prod.mk.injEq] at h
  obtain ⟨-, -, -, -, -, -, -, -, t, -, tv, -, q, -, w, -, d, hd, -, rfl⟩ := h
  simp only [roundedOps] at hd
  split_ifs at hd
  rw [← Option.some_inj.1 hd]
  exact ⟨isDouble_double _, isDouble_double _, isDouble_double _⟩

theorem addQuad_verts {m m' : Mesh ℝ} {a b c d : Int} (h : m.addQuad a b c d = some m') : m'.kern.verts = m.kern.verts := by
  rw [addQuad_eq] at h
  split_ifs at h
  rw [← Option.some_inj.1 h]
  rfl

theorem toMesh_allDouble {n n' : Surface ℝ} {m m' : Mesh ℝ} {k : Int} {b : Bool} (hm : AllDouble m) (h : toMeshRounded double n m k b = some (n', m')) :
    AllDouble m' := by
  have h1 : AllDouble (if b then m.clear else m) := by
    split_ifs
    · intro p hp; exact absurd hp (by simp [Mesh.clear, KernLT.clear])
    · exact hm
  unfold toMeshRounded toMeshBy at h
  simp only at h
  generalize (if b then m.clear else m) = m at h h1
  split_ifs at h with h0
  · obtain ⟨-, rfl⟩ := Prod.mk.inj (Option.some_inj.1 h)
    exact h1
  · simp only [Option.bind_eq_bind, Option.bind_eq_some_iff, Option.pure_def, Option.some.injEq, Prod.mk.injEq] at h
    obtain ⟨a, ha, q, hq, -, rfl⟩ := h
    have A : AllDouble a.2 := by
      refine loopN_some_inv (fun a : Surface ℝ × Mesh ℝ => AllDouble a.2) ha h1 fun i _ s s' hs e => ?_
      refine loopN_some_inv (fun a : Surface ℝ × Mesh ℝ => AllDouble a.2) e hs fun i _ s s' hs e => ?_
      simp only [Option.bind_eq_bind, Option.bind_eq_some_iff, Option.pure_def, Option.some.injEq] at e
      obtain ⟨u, -, v, -, r, hr, rfl⟩ := e
      intro p hp
      rcases List.mem_append.1 (show p ∈ s.2.kern.verts ++ [r.2] from hp) with hp | hp
      · exact hs p hp
      · rw [List.mem_singleton] at hp
        subst hp
        exact evaluate_isDouble hr
    refine loopN_some_inv AllDouble hq A fun i _ s s' hs e => ?_
    refine loopN_some_inv AllDouble e hs fun i _ s s' hs e => ?_
    intro p hp
    rw [addQuad_verts e] at hp
    exact hs p hp

/-- the vertices of a solid meshed in `double` are `double` numbers -/
theorem toMeshSolid_allDouble {ns : Solid ℝ} {m M : Mesh ℝ} {k : Int} (h : toMeshSolidRounded double ns m k = some M) : AllDouble M := by
  have key : ∀ (l : Solid ℝ) (A : Mesh ℝ), AllDouble A → l.foldlM (fun m f => do
      let a ← toMeshRounded double f m k false
      return a.2) A = some M → AllDouble M := by
    intro l
    induction l with
    | nil => intro A hA e; exact (Option.some_inj.1 e) ▸ hA
    | cons s l ih =>
      intro A hA e
      rw [List.foldlM_cons] at e
      simp only [Option.bind_eq_bind, Option.bind_eq_some_iff, Option.pure_def, Option.some.injEq] at e
      obtain ⟨B, ⟨a, ha, rfl⟩, e⟩ := e
      exact ih _ (toMesh_allDouble hA ha) (by simpa only [Option.bind_eq_bind, Option.pure_def] using e)
  exact key ns m.clear (fun p hp => absurd hp (by simp [Mesh.clear, KernLT.clear])) h

theorem AllDouble.vertex {m : Mesh ℝ} (h : AllDouble m) {i p} (hp : m.getVertex i = some p) :
    CAD.IsDouble p.x ∧ CAD.IsDouble p.y ∧ CAD.IsDouble p.z := by
  rw [(answers_view m).getVertex] at hp
  obtain ⟨k, -, hk⟩ := getI_eq_some_iff.1 hp
  exact h p (List.mem_of_getElem? hk)


theorem MeshNear.back {d : ℝ} {A B : Mesh ℝ} (h : MeshNear d A B) {i : Int} {P' : P3 ℝ} (hP : B.getVertex i = some P') :
    ∃ P, A.getVertex i = some P ∧ Near d P P' := by
  obtain ⟨n, rfl, hl⟩ := (Mesh.inRange_of_getVertex hP).exists
  have hv : (B.kern.verts.length : Int) = A.kern.verts.length := h.nbVertices
  obtain ⟨P, hA⟩ := Mesh.getVertex_isSome (m := A) (a := (n : Int)) ⟨by omega, by omega⟩
  obtain ⟨Q, hQ, c⟩ := h.vertex _ _ hA
  obtain rfl := Option.some_inj.1 (hP.symm.trans hQ)
  exact ⟨P, hA, c⟩

/-- a shape meshed in `double`, through an STL file and welded in `double` -/
theorem reload_shape {R t g : ℝ} (hR : 2 ^ (-100 : ℤ) ≤ R) (hR' : R ≤ 2 ^ (100 : ℤ)) {M M' : Mesh ℝ} (o : M.OK) (o' : M'.OK)
    (hn : MeshNear (700 * 2 ^ (-53 : ℤ) * R) M M') (cl : ClosedSoup M.triangles) (ad : AllDouble M')
    (hb : ∀ i P, M.getVertex i = some P → P.norm ≤ R) (len : 3 * M.triangles.length ≤ 2147483647)
    (h0 : R * 2 ^ (-19 : ℤ) ≤ t) (h1 : t * (1 + 2 ^ (-49 : ℤ)) + R * 2 ^ (-19 : ℤ) ≤ g)
    (hg : ∀ i j P Q, M.getVertex i = some P → M.getVertex j = some Q → P ≠ Q → g ≤ (P - Q).norm) :
    ∃ bytes, Stl.save Stl.encD M' = some bytes ∧ ∀ m0 : Mesh ℝ, ∃ m1 w, Stl.load Stl.decD (some bytes) m0 = some (true, m1) ∧
      mergeVerticesBy (Rounded.nearTol double t) 0 m1 = some w ∧ w.OK ∧ w.nbTriangles = M.triangles.length ∧ BalancedIds w.cornerList ∧
      (∀ i P, w.getVertex i = some P → ∃ j Q, M.getVertex j = some Q ∧ (P - Q).norm ≤ R * 2 ^ (-20 : ℤ)) ∧
      (∀ i j P Q, w.getVertex i = some P → w.getVertex j = some Q → i ≠ j → t * (1 - 2 ^ (-49 : ℤ)) ≤ (P - Q).norm) := by
  have R0 : 0 < R := lt_of_lt_of_le (by positivity) hR
  have t0 : 0 < t := lt_of_lt_of_le (by positivity) h0
  have e1 : (2 : ℝ) ^ (-53 : ℤ) ≤ 1 / 10 ^ 15 := by norm_num
  have e2 : (2 : ℝ) ^ (-23 : ℤ) = 1 / 8388608 := by norm_num
  have e3 : (2 : ℝ) ^ (-19 : ℤ) = 1 / 524288 := by norm_num
  have e4 : (2 : ℝ) ^ (-20 : ℤ) = 1 / 1048576 := by norm_num
  have e5 : (2 : ℝ) ^ (-49 : ℤ) ≤ 1 / 10 ^ 10 := by norm_num
  have u0 : (0 : ℝ) < 2 ^ (-53 : ℤ) := by positivity
  have v0 : (0 : ℝ) < 2 ^ (-49 : ℤ) := by positivity
  have hE : 700 * 2 ^ (-53 : ℤ) * R ≤ 1 / 10 ^ 12 * R := mul_le_mul_of_nonneg_right (by linarith) R0.le
  have hv : t * 2 ^ (-49 : ℤ) ≤ t * (1 / 10 ^ 10) := mul_le_mul_of_nonneg_left e5 t0.le
  have E0 : 0 ≤ 700 * 2 ^ (-53 : ℤ) * R := by positivity
  have nb : ∀ i P, M'.getVertex i = some P → P.norm ≤ 2 * R := by
    intro i P hP
    obtain ⟨Q, hQ, n⟩ := hn.back hP
    have a := n.norm
    have b := hb i Q hQ
    have c := Rounded.norm_add_le (P - Q) Q
    rw [sub_add_cancel] at c
    generalize 700 * 2 ^ (-53 : ℤ) * R = E at *
    linarith
  have lenM : M'.triangles.length = M.triangles.length := by
    rw [(triangles_pos o').1, (triangles_pos o).1, hn.cornerList, List.length_map, List.length_map]
  have dbl : ∀ t ∈ M'.triangles, ∀ x ∈ Stl.coords t, CAD.IsDouble x := by
    intro t ht x hx
    obtain ⟨⟨i, hi⟩, ⟨j, hj⟩, ⟨l, hl⟩⟩ := corner_is_vertex o' ht
    obtain ⟨a1, a2, a3⟩ := ad.vertex hi
    obtain ⟨b1, b2, b3⟩ := ad.vertex hj
    obtain ⟨c1, c2, c3⟩ := ad.vertex hl
    simp only [Stl.coords, List.mem_cons, List.not_mem_nil, or_false] at hx
    rcases hx with rfl | rfl | rfl | rfl | rfl | rfl | rfl | rfl | rfl <;> assumption
  have R2 : 2 * R ≤ 2 ^ 127 := by
    have : (2 : ℝ) * 2 ^ (100 : ℤ) ≤ 2 ^ 127 := by norm_num
    linarith
  have R1 : (2 : ℝ) ^ (-120 : ℤ) ≤ 2 * R := by
    have : (2 : ℝ) ^ (-120 : ℤ) ≤ 2 ^ (-100 : ℤ) := zpow_le_zpow_right₀ (by norm_num) (by norm_num)
    linarith
  obtain ⟨bytes, s1, s2⟩ := Stl.stl_weld_double o o' (R := 2 * R) (tol := t) hn E0 (by omega) dbl R1 R2 (InBall.of nb o')
    (by
      rw [e2]
      rw [e3] at h0
      generalize 700 * 2 ^ (-53 : ℤ) * R = E at *
      generalize t * 2 ^ (-49 : ℤ) = v at *
      linarith)
    (fun i j p q hp hq hpq => by
      refine le_trans ?_ (h1.trans (hg i j p q hp hq hpq))
      rw [e2, e3, mul_add t, mul_one]
      generalize 700 * 2 ^ (-53 : ℤ) * R = E at *
      generalize t * 2 ^ (-49 : ℤ) = v at *
      linarith)
  refine ⟨bytes, s1, fun m0 => ?_⟩
  obtain ⟨m1, w, a1, a2, a3, a4, -, a6, a7, a8⟩ := s2 m0
  refine ⟨m1, w, a1, a2, a3, by rw [a4, lenM], a8 cl, fun i P hP => ?_, fun i j P Q hP hQ hij => ?_⟩
  · obtain ⟨j, Q, hQ, n⟩ := a6 i P hP
    refine ⟨j, Q, hQ, n.trans ?_⟩
    rw [e2, e4]
    generalize 700 * 2 ^ (-53 : ℤ) * R = E at *
    linarith
  · have := a7 i j P Q hP hQ hij
    rw [mul_sub, mul_one]
    exact this

theorem range_small {x : ℝ} (h : 2 ^ (-100 : ℤ) ≤ x) : (2 : ℝ) ^ (-400 : ℤ) ≤ x :=
  le_trans (zpow_le_zpow_right₀ (by norm_num) (by norm_num)) h

theorem range_big {x : ℝ} (h : x ≤ 2 ^ (100 : ℤ)) : x ≤ (2 : ℝ) ^ (400 : ℤ) :=
  le_trans h (zpow_le_zpow_right₀ (by norm_num) (by norm_num))

/-- **C133** A NURBS sphere made and meshed in `double`, saved as STL, loaded and merged in `double` is
watertight; all vertices are near the sphere. -/
theorem sphere_stl_double {r tol t : ℝ} (hr : 2 ^ (-100 : ℤ) ≤ r) (hr' : r ≤ 2 ^ (100 : ℤ)) (ht : 2 ^ (-400 : ℤ) ≤ tol) (htr : tol ≤ r)
    {k : Nat} (hk : 0 < k) (hk' : k ≤ 2800) (m : Mesh ℝ) (h0 : r * 2 ^ (-19 : ℤ) ≤ t)
    (h1 : t * (1 + 2 ^ (-49 : ℤ)) + r * 2 ^ (-19 : ℤ) ≤ 8 * r / (45 * k ^ 2)) :
    ∃ B M bytes, createSphereSolidRounded double tol r = some B ∧ toMeshSolidRounded double B m k = some M ∧ Stl.save Stl.encD M = some bytes ∧
      ∀ m0 : Mesh ℝ, ∃ m1 w, Stl.load Stl.decD (some bytes) m0 = some (true, m1) ∧ mergeVerticesBy (Rounded.nearTol double t) 0 m1 = some w ∧
        w.OK ∧ w.nbTriangles = 90 * k ^ 2 ∧ BalancedIds w.cornerList ∧
        (∀ i P, w.getVertex i = some P → |P.norm - r| ≤ r * 2 ^ (-20 : ℤ)) ∧
        (∀ i j P Q, w.getVertex i = some P → w.getVertex j = some Q → i ≠ j → t * (1 - 2 ^ (-49 : ℤ)) ≤ (P - Q).norm) := by
  obtain ⟨s, s', e, e', H⟩ := sphere_shape (range_small hr) (range_big hr') ht htr
  obtain ⟨B, B', M, M', f1, f2, f3, f4, f5, f6, f7, f8, -⟩ := sphere_mesh_double (range_small hr) (range_big hr') ht htr hk m m
  obtain rfl : [s] = B := Option.some_inj.1 (e.symm.trans f1)
  have r0 : 0 < r := lt_of_lt_of_le (by positivity) hr
  obtain ⟨B, M1, g, g', o, -⟩ := sphere_mesh_watertight tol root_sq root_pos r hk m
  obtain rfl : [s] = B := Option.some_inj.1 (e.symm.trans g)
  obtain rfl : M = M1 := Option.some_inj.1 (f3.symm.trans g')
  obtain ⟨S, es, -, heq⟩ := sphere_equation tol root_sq root_pos r Surface.new
  obtain rfl : S = s := by
    have : createSphereSolid tol (Real.sqrt 2) r = some [S] := by simp [createSphereSolid, es, Solid.add]
    simpa using this.symm.trans e
  have on : ∀ i Q, M.getVertex i = some Q → Q.norm = r := by
    intro i Q hQ
    obtain ⟨s, hs, a, b, -, -, hat⟩ := vertex_at (by simpa using H.valid) (by simpa using shape_weights H) hk f3 hQ (by norm_num)
    rw [List.mem_singleton] at hs
    subst hs
    obtain ⟨Q', hQ', q⟩ := heq ((a : ℝ) / (9 * k : Nat)) ((b : ℝ) / (5 * k : Nat))
    obtain rfl : Q = Q' := Option.some_inj.1 (hat.symm.trans hQ')
    exact norm_of_sq r0.le q
  obtain ⟨bytes, b1, b2⟩ := reload_shape hr hr' o f5 f8 f6 (toMeshSolid_allDouble f4) (fun i P hP => (on i P hP).le) (by rw [f7]; nlinarith) h0 h1
    (fun i j P Q hP hQ hPQ => sphere_gap r0 e H.valid (shape_weights H) hk f3 hP hQ hPQ)
  refine ⟨B', M', bytes, f2, f4, b1, fun m0 => ?_⟩
  obtain ⟨m1, w, a1, a2, a3, a4, a5, a6, a7⟩ := b2 m0
  refine ⟨m1, w, a1, a2, a3, by rw [a4, f7]; push_cast; ring, a5, fun i P hP => ?_, a7⟩
  obtain ⟨j, Q, hQ, n⟩ := a6 i P hP
  have nQ := on j Q hQ
  have n1 := Rounded.norm_add_le (P - Q) Q
  have n2 := Rounded.norm_sub_le P (P - Q)
  rw [sub_add_cancel, nQ] at n1
  rw [sub_sub_cancel, nQ] at n2
  generalize r * 2 ^ (-20 : ℤ) = z at *
  rw [abs_le]
  constructor <;> linarith only [n, n1, n2]

/-- **C133** torus -/
theorem torus_stl_double {major minor tol t : ℝ} (hm : 2 ^ (-100 : ℤ) ≤ minor) (hM : minor < major) (hM' : major + minor ≤ 2 ^ (100 : ℤ))
    (ht : 2 ^ (-400 : ℤ) ≤ tol) {k : Nat} (hk : 0 < k) (hk' : k ≤ 2100) (m : Mesh ℝ) (h0 : (major + minor) * 2 ^ (-19 : ℤ) ≤ t)
    (h1 : t * (1 + 2 ^ (-49 : ℤ)) + (major + minor) * 2 ^ (-19 : ℤ) ≤ 4 * min minor (major - minor) / (9 * k)) :
    ∃ B M bytes, createTorusSolidRounded double tol major minor = some B ∧ toMeshSolidRounded double B m k = some M ∧
      Stl.save Stl.encD M = some bytes ∧
      ∀ m0 : Mesh ℝ, ∃ m1 w, Stl.load Stl.decD (some bytes) m0 = some (true, m1) ∧ mergeVerticesBy (Rounded.nearTol double t) 0 m1 = some w ∧
        w.OK ∧ w.nbTriangles = 162 * k ^ 2 ∧ BalancedIds w.cornerList ∧
        (∀ i P, w.getVertex i = some P → ∃ Q : P3 ℝ, (P - Q).norm ≤ (major + minor) * 2 ^ (-20 : ℤ) ∧
          (Q.x ^ 2 + Q.y ^ 2 + Q.z ^ 2 + major ^ 2 - minor ^ 2) ^ 2 = 4 * major ^ 2 * (Q.x ^ 2 + Q.y ^ 2)) ∧
        (∀ i j P Q, w.getVertex i = some P → w.getVertex j = some Q → i ≠ j → t * (1 - 2 ^ (-49 : ℤ)) ≤ (P - Q).norm) := by
  have m0 : 0 < minor := lt_of_lt_of_le (by positivity) hm
  have M0 : 0 ≤ major := by linarith
  obtain ⟨s, s', e, e', H⟩ := torus_shape (range_small hm) M0 (range_big hM') ht
  obtain ⟨B, B', M, M', f1, f2, f3, f4, f5, f6, f7, f8, f9, -⟩ := torus_mesh_double (range_small hm) M0 (range_big hM') ht hk m m
  obtain rfl : [s] = B := Option.some_inj.1 (e.symm.trans f1)
  obtain ⟨B, M1, g, g', o, -⟩ := torus_mesh_watertight (small_off ht) root_sq root_pos major minor hk m
  obtain rfl : [s] = B := Option.some_inj.1 (e.symm.trans g)
  obtain rfl : M = M1 := Option.some_inj.1 (f3.symm.trans g')
  have on : ∀ i Q, M.getVertex i = some Q → Q.norm ≤ major + minor := by
    intro i Q hQ
    have q := f9 i Q hQ
    have n := P3.norm_sq Q
    have n0 : 0 ≤ Q.norm := Real.sqrt_nonneg _
    simp only [P3.normSq] at n
    have key : Q.norm * Q.norm + major ^ 2 - minor ^ 2 ≤ 2 * major * Q.norm := by
      refine abs_le_of_sq_le_sq' ?_ (by positivity) |>.2
      have e : Q.norm * Q.norm = Q.x ^ 2 + Q.y ^ 2 + Q.z ^ 2 := by rw [n]; ring
      have : Q.norm * Q.norm + major ^ 2 - minor ^ 2 = Q.x ^ 2 + Q.y ^ 2 + Q.z ^ 2 + major ^ 2 - minor ^ 2 := by rw [e]
      rw [this, q, mul_pow, mul_pow, pow_two Q.norm, e]
      nlinarith [mul_nonneg (sq_nonneg major) (sq_nonneg Q.z)]
    have : (Q.norm - major) ^ 2 ≤ minor ^ 2 := by nlinarith only [key]
    have := (abs_le_of_sq_le_sq' this m0.le).2
    linarith
  obtain ⟨bytes, b1, b2⟩ := reload_shape (by linarith) hM' o f5 f8 f6 (toMeshSolid_allDouble f4) on (by rw [f7]; nlinarith) h0 h1
    (fun i j P Q hP hQ hPQ => torus_gap m0 hM e H.valid (shape_weights H) hk f3 hP hQ hPQ)
  refine ⟨B', M', bytes, f2, f4, b1, fun m0 => ?_⟩
  obtain ⟨m1, w, a1, a2, a3, a4, a5, a6, a7⟩ := b2 m0
  refine ⟨m1, w, a1, a2, a3, by rw [a4, f7]; push_cast; ring, a5, fun i P hP => ?_, a7⟩
  obtain ⟨j, Q, hQ, n⟩ := a6 i P hP
  exact ⟨Q, n, f9 j Q hQ⟩

/-- **C133** cylinder -/
theorem cylinder_stl_double {r h tol t : ℝ} (hr : 2 ^ (-100 : ℤ) ≤ r) (hh : 2 * tol ≤ h) (hR' : r + h ≤ 2 ^ (100 : ℤ))
    (ht : 2 ^ (-400 : ℤ) ≤ tol) (htr : 2 * tol ≤ r) {k : Nat} (hk : 0 < k) (hk' : k ≤ 2500) (m : Mesh ℝ) (h0 : (r + h) * 2 ^ (-19 : ℤ) ≤ t)
    (h1 : t * (1 + 2 ^ (-49 : ℤ)) + (r + h) * 2 ^ (-19 : ℤ) ≤ min (2 * r / (9 * k ^ 2)) (h / (2 * k))) :
    ∃ B M bytes, createCylinderRounded double tol r h = some B ∧ toMeshSolidRounded double B m k = some M ∧ Stl.save Stl.encD M = some bytes ∧
      ∀ m0 : Mesh ℝ, ∃ m1 w, Stl.load Stl.decD (some bytes) m0 = some (true, m1) ∧ mergeVerticesBy (Rounded.nearTol double t) 0 m1 = some w ∧
        w.OK ∧ w.nbTriangles = 108 * k ^ 2 ∧ BalancedIds w.cornerList ∧
        (∀ i P, w.getVertex i = some P → ∃ Q : P3 ℝ, (P - Q).norm ≤ (r + h) * 2 ^ (-20 : ℤ) ∧
          Q.x ^ 2 + Q.y ^ 2 ≤ r ^ 2 ∧ |Q.z| ≤ h / 2 ∧ (Q.x ^ 2 + Q.y ^ 2 = r ^ 2 ∨ |Q.z| = h / 2)) ∧
        (∀ i j P Q, w.getVertex i = some P → w.getVertex j = some Q → i ≠ j → t * (1 - 2 ^ (-49 : ℤ)) ≤ (P - Q).norm) := by
  have r0 : 0 < r := lt_of_lt_of_le (by positivity) hr
  have t0 := small_off ht
  have hp : 0 < h := by linarith
  obtain ⟨s1, s2, s3, s1', s2', s3', e, e', H1, H2, H3⟩ := cylinder_shape (range_small hr) hh (range_big hR') ht htr
  obtain ⟨B, B', M, M', f1, f2, f3, f4, f5, f6, f7, f8, f9, -⟩ := cylinder_mesh_double (range_small hr) hh (range_big hR') ht htr hk m m
  obtain rfl : [s1, s2, s3] = B := Option.some_inj.1 (e.symm.trans f1)
  obtain ⟨B, M1, g, g', o, -⟩ := cylinder_mesh_watertight t0 root_sq root_pos (r := r) (h := h) (by rw [abs_of_pos r0]; linarith)
    (by rw [abs_of_pos hp]; linarith) hk m
  obtain rfl : [s1, s2, s3] = B := Option.some_inj.1 (e.symm.trans g)
  obtain rfl : M = M1 := Option.some_inj.1 (f3.symm.trans g')
  have on : ∀ i Q, M.getVertex i = some Q → Q.norm ≤ r + h := by
    intro i Q hQ
    obtain ⟨q1, q2, -⟩ := f9 i Q hQ
    have n := P3.norm_sq Q
    simp only [P3.normSq] at n
    have z := sq_le_sq' (abs_le.1 q2).1 (abs_le.1 q2).2
    refine abs_le_of_sq_le_sq' (a := Q.norm) (b := r + h) ?_ (by positivity) |>.2
    nlinarith only [n, z, q1, r0, hp]
  obtain ⟨bytes, b1, b2⟩ := reload_shape (by linarith) hR' o f5 f8 f6 (toMeshSolid_allDouble f4) on (by rw [f7]; nlinarith) h0 h1
    (fun i j P Q hP hQ hPQ => cylinder_gap r0 hp e (by simpa using ⟨H1.valid, H2.valid, H3.valid⟩)
      (by simpa using ⟨shape_weights H1, shape_weights H2, shape_weights H3⟩) hk f3 hP hQ hPQ)
  refine ⟨B', M', bytes, f2, f4, b1, fun m0 => ?_⟩
  obtain ⟨m1, w, a1, a2, a3, a4, a5, a6, a7⟩ := b2 m0
  refine ⟨m1, w, a1, a2, a3, by rw [a4, f7]; push_cast; ring, a5, fun i P hP => ?_, a7⟩
  obtain ⟨j, Q, hQ, n⟩ := a6 i P hP
  exact ⟨Q, n, f9 j Q hQ⟩

/-- with the library's tolerance `1e-6`, a sphere of radius 100 with 8 segments per control point, saved,
loaded and welded with `1e-3` -/
example (m : Mesh ℝ) : ∃ B M bytes, createSphereSolidRounded double (1 / 1000000) 100 = some B ∧ toMeshSolidRounded double B m 8 = some M ∧
    Stl.save Stl.encD M = some bytes ∧ ∀ m0 : Mesh ℝ, ∃ m1 w, Stl.load Stl.decD (some bytes) m0 = some (true, m1) ∧
      mergeVerticesBy (Rounded.nearTol double (1 / 1000)) 0 m1 = some w ∧ w.nbTriangles = 5760 ∧ BalancedIds w.cornerList := by
  obtain ⟨B, M, bytes, a, b, c, d⟩ := sphere_stl_double (r := 100) (t := 1 / 1000) (k := 8) (tol := 1 / 1000000)
    (le_trans (zpow_le_zpow_right₀ (by norm_num) (by norm_num : (-100 : ℤ) ≤ 0)) (by norm_num))
    (le_trans (by norm_num : (100 : ℝ) ≤ 2 ^ (10 : ℤ)) (zpow_le_zpow_right₀ (by norm_num) (by norm_num))) tol_ok (by norm_num) (by norm_num) (by norm_num) m
    (by norm_num) (by norm_num)
  refine ⟨B, M, bytes, a, b, c, fun m0 => ?_⟩
  obtain ⟨m1, w, e1, e2, -, e4, e5, -⟩ := d m0
  exact ⟨m1, w, e1, e2, by rw [e4]; norm_num, e5⟩

end Nurbs
end CAD
