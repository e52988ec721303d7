import Verif.Props.GeodesicClosed
import Verif.Props.RoundAccuracy

/-! C122 for `create_sphere_geodesic`: the cones over the faces of the icosahedron cover the space, hence
every point of the sphere is near to the mesh. -/

namespace CAD
namespace Icosa

set_option synthInstance.maxSize 2000 in
set_option synthInstance.maxHeartbeats 200000 in
/-- across the side opposite to a corner there is a face whose plane the corner is behind -/
theorem opposite : ∀ F ∈ faces.flatMap rots, ∃ G ∈ faces, dotT (orthT G) (corner F.2.1) = (0, 2) ∧ dotT (orthT G) (corner F.2.2) = (0, 2) ∧
    dotT (orthT G) (corner F.1) = (4, -6) := by decide +kernel

theorem det_ne {F : Face} (hF : F ∈ faces) : (vec F.1).dot ((vec F.2.1).cross (vec F.2.2)) ≠ 0 := by
  have h : (tri F).orthogonal.dot (vec F.1) = 2 * tau := by
    have := congrArg ev ((orthT_spec F hF).2 F.1 (by simp [corners]))
    rw [ev_dot, ← orth_eq] at this
    rw [vec, this]; simp [ev]
  have e : (vec F.1).dot ((vec F.2.1).cross (vec F.2.2)) = (tri F).orthogonal.dot (vec F.1) := by
    simp only [tri, Tri3.orthogonal, P3.dot, P3.cross, P3.sub_x, P3.sub_y, P3.sub_z]; ring
  rw [e, h]
  have := tau_bounds.1
  norm_num at this ⊢
  linarith

/-- the face whose normal is nearest to a direction has the direction in its cone -/
theorem cone_cover (p : P3 ℝ) : ∃ F ∈ faces, ∃ a b c : ℝ, 0 ≤ a ∧ 0 ≤ b ∧ 0 ≤ c ∧ p = a • vec F.1 + b • vec F.2.1 + c • vec F.2.2 := by
  obtain ⟨F, hF, hmax⟩ : ∃ F ∈ faces, ∀ G ∈ faces, (tri G).orthogonal.dot p ≤ (tri F).orthogonal.dot p := by
    have hne : faces.toFinset.Nonempty := ⟨_, List.mem_toFinset.2 (List.mem_cons_self ..)⟩
    obtain ⟨F, hF, h⟩ := Finset.exists_max_image faces.toFinset (fun F => (tri F).orthogonal.dot p) hne
    exact ⟨F, List.mem_toFinset.1 hF, fun G hG => h G (List.mem_toFinset.2 hG)⟩
  have hd := det_ne hF
  set D := (vec F.1).dot ((vec F.2.1).cross (vec F.2.2)) with hD
  have hp : ∃ a b c : ℝ, p = a • vec F.1 + b • vec F.2.1 + c • vec F.2.2 := by
    refine ⟨p.dot ((vec F.2.1).cross (vec F.2.2)) / D, p.dot ((vec F.2.2).cross (vec F.1)) / D, p.dot ((vec F.1).cross (vec F.2.1)) / D, ?_⟩
    clear_value D
    ext
    all_goals
      simp only [P3.add_x, P3.add_y, P3.add_z, P3.smul_x, P3.smul_y, P3.smul_z]
      field_simp
      rw [hD]
      simp only [P3.dot, P3.cross]
      ring
  obtain ⟨a, b, c, hp⟩ := hp
  have hn : ∀ (G : Face) (v : Fin 12) (z : Zt), dotT (orthT G) (corner v) = z → (tri G).orthogonal.dot (vec v) = ev z := by
    intro G v z h
    rw [← h, ev_dot, ← orth_eq, vec]
  have ht := tau_bounds.1
  norm_num at ht
  obtain ⟨-, hs⟩ := orthT_spec F hF
  have s1 := hn F _ _ (hs F.1 (by simp [corners]))
  have s2 := hn F _ _ (hs F.2.1 (by simp [corners]))
  have s3 := hn F _ _ (hs F.2.2 (by simp [corners]))
  have lin : ∀ g : P3 ℝ, g.dot p = a * g.dot (vec F.1) + b * g.dot (vec F.2.1) + c * g.dot (vec F.2.2) := by
    intro g
    rw [hp]
    simp only [P3.dot, P3.add_x, P3.add_y, P3.add_z, P3.smul_x, P3.smul_y, P3.smul_z]; ring
  have pos : ∀ x : ℝ, 0 ≤ x * (8 * tau - 4) → 0 ≤ x := fun x h => nonneg_of_mul_nonneg_left h (by linarith)
  have e0 : ev (0, 2) = 2 * tau := by simp [ev]
  have e1 : ev (4, -6) = 4 - 6 * tau := by simp [ev]; ring
  refine ⟨F, hF, a, b, c, pos a ?_, pos b ?_, pos c ?_, hp⟩
  · obtain ⟨G, hG, g1, g2, g3⟩ := opposite F (List.mem_flatMap.2 ⟨F, hF, by simp [rots]⟩)
    have := hmax G hG
    rw [lin, lin, s1, s2, s3, hn G _ _ g1, hn G _ _ g2, hn G _ _ g3, e0, e1] at this
    linarith
  · obtain ⟨G, hG, g1, g2, g3⟩ := opposite (F.2.1, F.2.2, F.1) (List.mem_flatMap.2 ⟨F, hF, by simp [rots]⟩)
    have := hmax G hG
    rw [lin, lin, s1, s2, s3, hn G _ _ g1, hn G _ _ g2, hn G _ _ g3, e0, e1] at this
    linarith
  · obtain ⟨G, hG, g1, g2, g3⟩ := opposite (F.2.2, F.1, F.2.1) (List.mem_flatMap.2 ⟨F, hF, by simp [rots]⟩)
    have := hmax G hG
    rw [lin, lin, s1, s2, s3, hn G _ _ g1, hn G _ _ g2, hn G _ _ g3, e0, e1] at this
    linarith

end Icosa

namespace Factory
open Mesh Icosa

/-- the merging of `create_sphere_geodesic` does not move anything -/
theorem geodesic_soup (r : ℝ) (hr : r ≠ 0) (n : ℤ) (hn : 1 ≤ n) (m : Mesh ℝ) : ∃ x ico, createIcosahedron 1 Mesh.new = some ico ∧
    createSphereGeodesic r n m = some x ∧ x.triangles = geoSoup r n ico := by
  have hn' : (0 : ℝ) < n := by exact_mod_cast hn
  obtain ⟨ico, h1, h2, hdet, h3⟩ := geodesic_eq r n m
  have hok := (clear_ok m).addSoup (geoSoup r n ico)
  have hts : (m.clear.addSoup (geoSoup r n ico)).triangles = geoSoup r n ico := by
    rw [triangles_eq, soup_addSoup (clear_ok m), clear_soup, List.nil_append]
  have hvs : ∀ p, (∃ i, (m.clear.addSoup (geoSoup r n ico)).getVertex i = some p) → ∃ w, GridW n w ∧ p = project r (pt n w) := by
    intro p
    rw [← geo_corner h1 r hn p]
    have hv : (m.clear.addSoup (geoSoup r n ico)).kern.verts = (geoSoup r n ico).flatMap Tri3.pts := by
      simp [addSoup, Mesh.clear, KernLT.clear]
    rw [← hv, List.mem_iff_getElem?]
    rintro ⟨i, hi⟩
    rw [(answers_view _).getVertex] at hi
    obtain ⟨k, _, hk⟩ := getI_eq_some_iff.1 hi
    exact ⟨k, hk⟩
  have htol : r / (951 / 1000) / n / 20 ≠ 0 := by
    have := hn'.ne'
    positivity
  obtain ⟨y, k1, k2, k3, -⟩ := MeshUtil.merge_welds _ hok (r / (951 / 1000) / n / 20) htol (by
    intro i j p q hi hj hne
    obtain ⟨w, hw, rfl⟩ := hvs p ⟨i, hi⟩
    obtain ⟨w', hw', rfl⟩ := hvs q ⟨j, hj⟩
    exact project_apart hn r hw hw' fun e => hne (by rw [e]))
  exact ⟨y, ico, h1, by rw [h3, k1], by rw [k3, hts]⟩

/-- the projected triangle has the same rays as the triangle -/
theorem project_cover {r : ℝ} (hr : 0 < r) {t : Tri3 ℝ} {q : P3 ℝ} (h1 : t.p1 ≠ 0) (h2 : t.p2 ≠ 0) (h3 : t.p3 ≠ 0) (hq : InTriangle t q) :
    ∃ s : ℝ, 0 < s ∧ InTriangle (t.map (project r)) (s • q) := by
  obtain ⟨a, b, c, ha, hb, hc, e, rfl⟩ := hq
  have n1 := P3.norm_pos h1
  have n2 := P3.norm_pos h2
  have n3 := P3.norm_pos h3
  have hS : 0 < a * t.p1.norm + b * t.p2.norm + c * t.p3.norm := by
    rcases ha.lt_or_eq with h | h
    · have := mul_pos h n1; positivity
    rcases hb.lt_or_eq with h' | h'
    · have := mul_pos h' n2; positivity
    have : c = 1 := by rw [← h, ← h'] at e; linarith
    subst this
    positivity
  set S := a * t.p1.norm + b * t.p2.norm + c * t.p3.norm with hSd
  refine ⟨r / S, by positivity, a * t.p1.norm / S, b * t.p2.norm / S, c * t.p3.norm / S, by positivity, by positivity, by positivity, ?_, ?_⟩
  · rw [← add_div, ← add_div, ← hSd, div_self hS.ne']
  · clear_value S
    ext
    all_goals
      simp only [Tri3.map, project, P3.add_x, P3.add_y, P3.add_z, P3.smul_x, P3.smul_y, P3.smul_z]
      field_simp

/-- **C122** geodesic sphere: the mesh is inside the ball and at most `3r/(5n²)` away from the sphere, and
every point of the sphere is within the same distance of the mesh -/
theorem geodesic_accuracy {r : ℝ} (hr : 0 < r) {n : Int} (hn : 1 ≤ n) (m : Mesh ℝ) :
    let ε := 3 * r / (5 * n ^ 2)
    ∃ x, createSphereGeodesic r n m = some x ∧
      (∀ t ∈ x.triangles, ∀ q, InTriangle t q → r - ε ≤ q.norm ∧ q.norm ≤ r) ∧
      (∀ p : P3 ℝ, p.norm = r → ∃ t ∈ x.triangles, ∃ q, InTriangle t q ∧ (p - q).norm ≤ ε) := by
  intro ε
  have hn1 : (1 : ℝ) ≤ n := by exact_mod_cast hn
  obtain ⟨x, ico, h1, hx, hts⟩ := geodesic_soup r hr.ne' n hn m
  obtain ⟨x', hx', -, -, -, -, -, hin⟩ := geodesic_watertight r hr.ne' n hn m
  obtain rfl : x = x' := Option.some.inj (hx.symm.trans hx')
  have inner : ∀ t ∈ x.triangles, ∀ q, InTriangle t q → r - ε ≤ q.norm ∧ q.norm ≤ r := by
    intro t ht q hq
    obtain ⟨a, b⟩ := hin t ht q hq
    have hq0 := P3.norm_nonneg q
    have hq2 := P3.norm_sq q
    have ht4 : 4 * ((Real.sqrt 5 - 1) / 2) ^ 4 ≤ 3 / 5 := by
      have h5 : Real.sqrt 5 ^ 2 = 5 := Real.sq_sqrt (by norm_num)
      have : Real.sqrt 5 ≥ 2.236 := Real.le_sqrt_of_sq_le (by norm_num)
      have e : 4 * ((Real.sqrt 5 - 1) / 2) ^ 4 = (Real.sqrt 5 ^ 2 * Real.sqrt 5 ^ 2 - 4 * Real.sqrt 5 ^ 2 * Real.sqrt 5 + 6 * Real.sqrt 5 ^ 2 - 4 * Real.sqrt 5 + 1) / 4 := by ring
      rw [e, h5]
      linarith
    have hε : 4 * ((Real.sqrt 5 - 1) / 2) ^ 4 / (n : ℝ) ^ 2 ≤ 3 / (5 * n ^ 2) := by
      rw [div_le_div_iff₀ (by positivity) (by positivity)]
      nlinarith [sq_nonneg (n : ℝ)]
    have hd1 : 3 / (5 * (n : ℝ) ^ 2) ≤ 1 := by
      rw [div_le_one (by positivity)]; nlinarith
    have hεd : ε = r * (3 / (5 * (n : ℝ) ^ 2)) := by simp only [ε]; ring
    rw [hεd]
    generalize 4 * ((Real.sqrt 5 - 1) / 2) ^ 4 / (n : ℝ) ^ 2 = δ' at *
    have hδ0 : 0 ≤ 3 / (5 * (n : ℝ) ^ 2) := by positivity
    generalize 3 / (5 * (n : ℝ) ^ 2) = δ at *
    have hr2 : 0 ≤ r ^ 2 := by positivity
    constructor
    · refine abs_le_of_sq_le_sq' ?_ hq0 |>.2
      rw [pow_two q.norm, hq2]
      refine le_trans ?_ a
      have : (r - r * δ) ^ 2 = r ^ 2 * (1 - δ) ^ 2 := by ring
      rw [this]
      refine mul_le_mul_of_nonneg_left ?_ hr2
      nlinarith
    · refine abs_le_of_sq_le_sq' ?_ hr.le |>.2
      rw [pow_two q.norm, hq2]
      exact b
  refine ⟨x, hx, inner, fun p hp => ?_⟩
  obtain ⟨F, hF, a, b, c, ha, hb, hc, hpe⟩ := cone_cover p
  have hs : 0 < a + b + c := by
    by_contra h
    have a0 : a = 0 := by linarith
    have b0 : b = 0 := by linarith
    have c0 : c = 0 := by linarith
    rw [a0, b0, c0] at hpe
    have : p = 0 := by
      rw [hpe]; ext <;> simp
    have h0 := P3.norm_sq p
    rw [hp, this] at h0
    simp [P3.normSq] at h0
    exact hr.ne' h0
  obtain ⟨T, hT, hq⟩ := Tessellate.tess_cover (n := n) hn (t := tri F) (q := (1 / (a + b + c)) • p)
    ⟨a / (a + b + c), b / (a + b + c), c / (a + b + c), by positivity, by positivity, by positivity, by field_simp, by
      rw [hpe]
      ext <;> simp only [tri, P3.add_x, P3.add_y, P3.add_z, P3.smul_x, P3.smul_y, P3.smul_z] <;> ring⟩
  rw [tess_eq hn] at hT
  obtain ⟨cl, hcl, rfl⟩ := List.mem_map.1 hT
  obtain ⟨s, hs0, hsq⟩ := project_cover hr (pt_ne_zero hn (small_grid hF hcl 0)) (pt_ne_zero hn (small_grid hF hcl 1)) (pt_ne_zero hn (small_grid hF hcl 2)) hq
  have hmem : (smallTri n F cl).map (project r) ∈ x.triangles := by
    rw [hts, geoSoup_eq h1 r hn]
    exact List.mem_flatMap.2 ⟨F, hF, List.mem_map.2 ⟨cl, hcl, rfl⟩⟩
  refine ⟨_, hmem, _, hsq, ?_⟩
  obtain ⟨i1, i2⟩ := inner _ hmem _ hsq
  have e : s • ((1 / (a + b + c)) • p) = (s * (1 / (a + b + c))) • p := by
    ext <;> simp only [P3.smul_x, P3.smul_y, P3.smul_z] <;> ring
  rw [e] at i1 i2 ⊢
  have hk : 0 < s * (1 / (a + b + c)) := by positivity
  generalize s * (1 / (a + b + c)) = k at *
  have nk : ∀ l : ℝ, (l • p).norm = |l| * r := by
    intro l
    rw [← hp]
    have h1 := P3.norm_sq (l • p)
    have h2 := P3.norm_sq p
    have h3 : (l • p).normSq = (|l| * p.norm) * (|l| * p.norm) := by
      have : (|l| * p.norm) * (|l| * p.norm) = (|l| * |l|) * (p.norm * p.norm) := by ring
      rw [this, abs_mul_abs_self, h2]
      simp only [P3.normSq, P3.smul_x, P3.smul_y, P3.smul_z]; ring
    rw [h3] at h1
    exact (mul_self_inj (P3.norm_nonneg _) (mul_nonneg (abs_nonneg _) (P3.norm_nonneg _))).1 h1
  have e2 : p - k • p = (1 - k) • p := by
    ext <;> simp only [P3.sub_x, P3.sub_y, P3.sub_z, P3.smul_x, P3.smul_y, P3.smul_z] <;> ring
  rw [nk, abs_of_pos hk] at i1 i2
  have hk1 : k ≤ 1 := by
    by_contra h
    push Not at h
    nlinarith
  rw [e2, nk, abs_of_nonneg (by linarith)]
  linarith

/-- `create_sphere_geodesic(10, 4)`: all within 0.375 -/
example : ∃ x, createSphereGeodesic (10 : ℝ) 4 Mesh.new = some x ∧
    (∀ t ∈ x.triangles, ∀ q, InTriangle t q → 9.625 ≤ q.norm ∧ q.norm ≤ 10) ∧
    (∀ p : P3 ℝ, p.norm = 10 → ∃ t ∈ x.triangles, ∃ q, InTriangle t q ∧ (p - q).norm ≤ 0.375) := by
  have h := geodesic_accuracy (r := 10) (by norm_num) (n := 4) (by norm_num) Mesh.new
  norm_num at h ⊢
  exact h

end Factory
end CAD
