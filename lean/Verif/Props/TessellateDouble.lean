import Verif.Props.MergeDouble
import Verif.Props.SmoothSolids
import Verif.Props.FactoryMeasured
import Verif.Props.TransformRounded
import Verif.Props.GeometryRounded

/-! C129: tessellation in `double`. -/

namespace CAD
namespace Rounded
open Mesh Tessellate MeshUtil

/-- one coordinate of `interpolate` -/
theorem interpolate_coord {s a b c : ℝ} (F : FlAt (2 ^ (-53 : ℤ)) s double) (ha : |a| ≤ s) (hb : |b| ≤ s) (hc : |c| ≤ s)
    {n i j : ℤ} (hn : 1 ≤ n) (hi : 0 ≤ i) (hj : 0 ≤ j) (hij : i + j ≤ n) :
    |double (double (a + double (double ((i : ℝ) / n) * double (b - a))) + double (double ((j : ℝ) / n) * double (c - a))) -
      (a + (i : ℝ) / n * (b - a) + (j : ℝ) / n * (c - a))| ≤ 26 * (2 ^ (-53 : ℤ) * s) := by
  have hn' : (0 : ℝ) < n := by exact_mod_cast hn
  have hi' : (0 : ℝ) ≤ (i : ℝ) / n := div_nonneg (by exact_mod_cast hi) hn'.le
  have hj' : (0 : ℝ) ≤ (j : ℝ) / n := div_nonneg (by exact_mod_cast hj) hn'.le
  have hs : (i : ℝ) / n + (j : ℝ) / n ≤ 1 := by
    rw [← add_div, div_le_one hn']
    exact_mod_cast hij
  generalize (i : ℝ) / n = p at *
  generalize (j : ℝ) / n = q at *
  have F1 := Transform.double_at_one
  have conv : ∀ {x y z : ℝ}, 0 ≤ x → 0 ≤ y → x + y ≤ 1 → |a + x * (b - a) + y * (c - a)| ≤ 1 * s := by
    intro x y z hx hy hxy
    obtain ⟨a1, a2⟩ := abs_le.1 ha
    obtain ⟨b1, b2⟩ := abs_le.1 hb
    obtain ⟨c1, c2⟩ := abs_le.1 hc
    have e : a + x * (b - a) + y * (c - a) = (1 - x - y) * a + x * b + y * c := by ring
    have z0 : 0 ≤ 1 - x - y := by linarith
    rw [e, one_mul, abs_le]
    constructor
    · nlinarith [mul_le_mul_of_nonneg_left a1 z0, mul_le_mul_of_nonneg_left b1 hx, mul_le_mul_of_nonneg_left c1 hy]
    · nlinarith [mul_le_mul_of_nonneg_left a2 z0, mul_le_mul_of_nonneg_left b2 hx, mul_le_mul_of_nonneg_left c2 hy]
  have P : Appr (2 ^ (-53 : ℤ)) 1 2 1 (double p) p :=
    ((Appr.exact (b := 1) (by rw [abs_of_nonneg hi']; linarith)).round F1 (by norm_num) (by norm_num)).weaken (by positivity) (by norm_num)
  have Q : Appr (2 ^ (-53 : ℤ)) 1 2 1 (double q) q :=
    ((Appr.exact (b := 1) (by rw [abs_of_nonneg hj']; linarith)).round F1 (by norm_num) (by norm_num)).weaken (by positivity) (by norm_num)
  have us0 : (0 : ℝ) ≤ 2 ^ (-53 : ℤ) * s := mul_nonneg F.u0 F.s0.le
  have d : ∀ {x : ℝ}, |x| ≤ s → Appr (2 ^ (-53 : ℤ)) s 3 2 (double (x - a)) (x - a) := fun {x} hx =>
    ((Appr.exact (b := 2) (by
      have := abs_sub x a
      linarith)).round F (by norm_num) (by norm_num)).weaken us0 (by norm_num)
  have X := ((P.mul F.u0 F.u1 F.s0.le (d hb) (by norm_num) (by norm_num)).round F (by norm_num) (by norm_num))
  have Y := ((Q.mul F.u0 F.u1 F.s0.le (d hc) (by norm_num) (by norm_num)).round F (by norm_num) (by norm_num))
  have A : Appr (2 ^ (-53 : ℤ)) s 0 1 a a := Appr.exact (by rw [one_mul]; exact ha)
  have Z := ((A.add X).bound (b1 := 1) (by
    have := conv (z := 0) hi' le_rfl (by linarith)
    simpa using this)).round F (by norm_num) (by norm_num)
  have W := ((Z.add Y).bound (b1 := 1) (conv (z := 0) hi' hj' hs)).round F (by norm_num) (by norm_num)
  refine W.near.trans (mul_le_mul_of_nonneg_right (by norm_num) us0)

/-- the coordinates of a point are at most `s` -/
def CoordsLe (s : ℝ) (p : P3 ℝ) : Prop := |p.x| ≤ s ∧ |p.y| ≤ s ∧ |p.z| ≤ s

theorem interpolate_double {s : ℝ} (h0 : 2 ^ (-1000 : ℤ) ≤ s) (h1 : s ≤ 2 ^ (1001 : ℤ)) {a b c : P3 ℝ} (ha : CoordsLe s a) (hb : CoordsLe s b) (hc : CoordsLe s c)
    {n i j : ℤ} (hn : 1 ≤ n) (hi : 0 ≤ i) (hj : 0 ≤ j) (hij : i + j ≤ n) :
    Nurbs.Near (26 * (2 ^ (-53 : ℤ) * s)) (Tessellate.interpolate a b c i j n) (interpolate double a b c i j n) := by
  have F := Transform.double_at h0 h1
  refine ⟨?_, ?_, ?_⟩
  · have := interpolate_coord F ha.1 hb.1 hc.1 hn hi hj hij
    simpa [interpolate, Tessellate.interpolate, add, scale, sub] using this
  · have := interpolate_coord F ha.2.1 hb.2.1 hc.2.1 hn hi hj hij
    simpa [interpolate, Tessellate.interpolate, add, scale, sub] using this
  · have := interpolate_coord F ha.2.2 hb.2.2 hc.2.2 hn hi hj hij
    simpa [interpolate, Tessellate.interpolate, add, scale, sub] using this

theorem triangles_inCube {s : ℝ} {m : Mesh ℝ} (hm : m.OK) (hb : ∀ i p, m.getVertex i = some p → CoordsLe s p) :
    ∀ t ∈ m.triangles, CoordsLe s t.p1 ∧ CoordsLe s t.p2 ∧ CoordsLe s t.p3 := by
  obtain ⟨a, b⟩ := triangles_pos hm
  rw [a]
  intro t ht
  obtain ⟨f, hf, rfl⟩ := List.mem_map.1 ht
  obtain ⟨b1, b2, b3⟩ := b f hf
  exact ⟨hb _ _ b1, hb _ _ b2, hb _ _ b3⟩

/-- C129.  `MeshTessellate::compute` in `double` makes the triangles of the exact tessellation, and no
coordinate of a vertex is off by more than `26·2⁻⁵³` of the size of the mesh. -/
theorem tessellate_double {s : ℝ} (h0 : 2 ^ (-1000 : ℤ) ≤ s) (h1 : s ≤ 2 ^ (1001 : ℤ)) (m out : Mesh ℝ) (hm : m.OK)
    (hb : ∀ i p, m.getVertex i = some p → CoordsLe s p) (n : ℤ) :
    ∃ A B, compute m n out = some A ∧ computeBy (interpolate double) m n out = some B ∧ A.OK ∧ B.OK ∧
      Nurbs.MeshNear (26 * (2 ^ (-53 : ℤ) * s)) A B ∧ A.triangles.length = n.toNat ^ 2 * m.triangles.length := by
  refine ⟨_, _, compute_eq hm n out, computeBy_eq _ hm n out, (clear_ok out).addSoup _, (clear_ok out).addSoup _, ?_, ?_⟩
  · have rel : List.Forall₂ (TriRel (Nurbs.Near (26 * (2 ^ (-53 : ℤ) * s)))) (m.triangles.flatMap (tess n))
        (m.triangles.flatMap (tessBy (interpolate double) n)) := by
      refine Tessellate.forall₂_flatMap (R := fun a b => a = b ∧ a ∈ m.triangles) (forall₂_diag fun a ha => ⟨rfl, ha⟩) ?_
      rintro t _ ⟨rfl, ht⟩
      obtain ⟨c1, c2, c3⟩ := triangles_inCube hm hb t ht
      by_cases hn : 1 ≤ n
      · exact tessBy_rel (I := Tessellate.interpolate) fun i j hi hj hij => interpolate_double h0 h1 c1 c2 c3 hn hi hj hij
      · have e : n.toNat = 0 := by omega
        have e1 : tess n t = [] := by simp [tess, e]
        have e2 : tessBy (interpolate double) n t = [] := by simp [tessBy, e]
        rw [e1, e2]
        exact .nil
    refine Nurbs.Close.meshNear ⟨?_, ?_⟩
    · simp only [addSoup, rel.length_eq]
      rfl
    · simp only [addSoup, pushTris_verts, pushPts_verts]
      have e : out.clear.kern.verts = [] := rfl
      rw [e, List.nil_append, List.nil_append]
      refine Tessellate.forall₂_flatMap rel ?_
      rintro x y ⟨r1, r2, r3⟩
      exact .cons r1 (.cons r2 (.cons r3 .nil))
  · rw [triangles_eq, soup_addSoup (clear_ok out), clear_soup, List.nil_append, List.length_flatMap]
    simp [tess_length, mul_comm]

/-- C129.  Tessellating in `double` and measuring in `double` gives the volume and the area of the
input mesh up to the stated error, `N` being the number of new triangles. -/
theorem tessellate_measured_double {R : ℝ} (hR : 1 ≤ R) (hR' : R ≤ 2 ^ 199) (m out : Mesh ℝ) (hm : m.OK)
    (hb : ∀ i p, m.getVertex i = some p → p.norm ≤ R) (n : ℤ) (hn : 1 ≤ n) {N : ℕ} (hN : N = n.toNat ^ 2 * m.triangles.length) (hN' : N ≤ 2 ^ 40) :
    ∃ B V W S T, computeBy (interpolate double) m n out = some B ∧ B.OK ∧ B.triangles.length = N ∧
      Measure.volume m = some V ∧ Rounded.volume double B = some W ∧ Measure.surface m = some S ∧ Rounded.surface double B = some T ∧
      |W - V| ≤ (N + 90) * N * R ^ 3 * 2 ^ (-52 : ℤ) ∧ |T - S| ≤ 5 * (N + 60) * N * R ^ 2 * 2 ^ (-52 : ℤ) ∧
      ((N + 90) * N * R ^ 3 * 2 ^ (-52 : ℤ) ≤ V → Rounded.isOrientedOutside double B = some true) := by
  have R0 : 0 < R := by linarith
  have cube : ∀ i p, m.getVertex i = some p → CoordsLe R p := fun i p hp =>
    ⟨(coords_le_norm p).1.trans (hb i p hp), (coords_le_norm p).2.1.trans (hb i p hp), (coords_le_norm p).2.2.trans (hb i p hp)⟩
  obtain ⟨A, B, e1, e2, o1, o2, near, len⟩ := tessellate_double (s := R)
    (le_trans (zpow_le_one_of_nonpos₀ (by norm_num) (by norm_num)) hR)
    (hR'.trans (by rw [← zpow_natCast]; exact zpow_le_zpow_right₀ (by norm_num) (by norm_num))) m out hm cube n
  have iA : Nurbs.InBall R A := by
    refine Nurbs.InBall.of (fun i p hp => ?_) o1
    obtain ⟨t, ht, a, b, c, ha, hb', hc, hs, rfl⟩ := tessellate_vertices m out A hm n e1 i p hp
    have I := Nurbs.InBall.of hb hm t ht
    have k1 := Rounded.norm_add_le (a • t.p1 + b • t.p2) (c • t.p3)
    have k2 := Rounded.norm_add_le (a • t.p1) (b • t.p2)
    rw [P3.norm_smul, P3.norm_smul, abs_of_nonneg ha, abs_of_nonneg hb'] at k2
    rw [P3.norm_smul c, abs_of_nonneg hc] at k1
    have l1 := mul_le_mul_of_nonneg_left I.1 ha
    have l2 := mul_le_mul_of_nonneg_left I.2 hb'
    have l3 := mul_le_mul_of_nonneg_left I.3 hc
    have : a * R + b * R + c * R = R := by rw [← add_mul, ← add_mul, hs, one_mul]
    linarith
  have iB := iA.near near o1 o2
  have u0 : (0 : ℝ) < 2 ^ (-53 : ℤ) := by positivity
  have u1 : (2 : ℝ) ^ (-53 : ℤ) ≤ 1 / 1000000 := by norm_num
  have hRd : R + 2 * (26 * (2 ^ (-53 : ℤ) * R)) ≤ 1.001 * R := by nlinarith
  rw [← hN] at len
  obtain ⟨V, W, S, T, h1, h2, h3, h4, h5, h6, h7⟩ := Nurbs.measured_double o1 o2 near (iA.mono (R' := 1.001 * R) (by linarith)) (iB.mono hRd)
    (by linarith) (by
      have : (2 : ℝ) ^ 200 = 2 * 2 ^ 199 := by rw [← pow_succ']
      rw [this]
      have p : (0 : ℝ) < 2 ^ 199 := by positivity
      generalize (2 : ℝ) ^ 199 = w at *
      linarith) (by rw [len]; exact hN')
  obtain ⟨A1, a1, -, a2⟩ := tessellate_volume m out hm n hn
  rw [e1, Option.some.injEq] at a1
  subst a1
  obtain ⟨A1, a1, -, a3⟩ := tessellate_surface m out hm n hn
  rw [e1, Option.some.injEq] at a1
  subst a1
  rw [a2] at h1
  rw [a3] at h3
  have lenB : B.triangles.length = N := by
    rw [(triangles_pos o2).1, List.length_map, near.cornerList, ← len, (triangles_pos o1).1, List.length_map]
  rw [len] at h5 h6 h7
  have u2 : (2 : ℝ) ^ (-52 : ℤ) = 2 * 2 ^ (-53 : ℤ) := by rw [← zpow_one_add₀ (by norm_num)]; norm_num
  have N0 : (0 : ℝ) ≤ N := Nat.cast_nonneg _
  rw [u2]
  generalize (2 : ℝ) ^ (-53 : ℤ) = u at *
  generalize (N : ℝ) = N at *
  have b1 : (N + 60) * N * (1.001 * R) ^ 3 * u + N * ((1.001 * R) ^ 2 * (26 * (u * R))) ≤ (N + 90) * N * R ^ 3 * (2 * u) := by
    have q : 0 ≤ N * R ^ 3 * u := by positivity
    have q2 : 0 ≤ N * (N * R ^ 3 * u) := by positivity
    have : (N + 60) * N * (1.001 * R) ^ 3 * u + N * ((1.001 * R) ^ 2 * (26 * (u * R))) =
      1.001 ^ 3 * (N * (N * R ^ 3 * u)) + (60 * 1.001 ^ 3 + 26 * 1.001 ^ 2) * (N * R ^ 3 * u) := by ring
    rw [this]
    nlinarith
  have b2 : 5 * (N + 20) * N * (1.001 * R) ^ 2 * u + N * (6 * (1.001 * R) * (26 * (u * R))) ≤ 5 * (N + 60) * N * R ^ 2 * (2 * u) := by
    have q : 0 ≤ N * R ^ 2 * u := by positivity
    have q2 : 0 ≤ N * (N * R ^ 2 * u) := by positivity
    have : 5 * (N + 20) * N * (1.001 * R) ^ 2 * u + N * (6 * (1.001 * R) * (26 * (u * R))) =
      5 * 1.001 ^ 2 * (N * (N * R ^ 2 * u)) + (100 * 1.001 ^ 2 + 6 * 26 * 1.001) * (N * R ^ 2 * u) := by ring
    rw [this]
    nlinarith
  exact ⟨B, V, W, S, T, e2, o2, lenB, h1, h2, h3, h4, h5.trans b1, h6.trans b2, fun hV => h7 (b1.trans hV)⟩

/-- the point is on the cubic grid of step `h` -/
def OnGrid (h : ℝ) (p : P3 ℝ) : Prop := ∃ a b c : ℤ, p = ⟨a * h, b * h, c * h⟩

/-- different points of a grid are a step apart -/
theorem grid_apart {h : ℝ} (h0 : 0 ≤ h) {p q : P3 ℝ} (hp : OnGrid h p) (hq : OnGrid h q) (hne : p ≠ q) : h ≤ (p - q).norm := by
  obtain ⟨a, b, c, rfl⟩ := hp
  obtain ⟨d, e, f, rfl⟩ := hq
  have key : ∀ x y : ℤ, x ≠ y → h ≤ |(x : ℝ) * h - y * h| := by
    intro x y hxy
    rw [← sub_mul, abs_mul, abs_of_nonneg h0]
    have : (1 : ℝ) ≤ |(x : ℝ) - y| := by
      have : (1 : ℤ) ≤ |x - y| := Int.one_le_abs (sub_ne_zero.2 hxy)
      exact_mod_cast this
    nlinarith
  have co := coords_le_norm ((⟨a * h, b * h, c * h⟩ : P3 ℝ) - ⟨d * h, e * h, f * h⟩)
  simp only [P3.sub_x, P3.sub_y, P3.sub_z] at co
  by_cases h1 : a = d
  · by_cases h2 : b = e
    · have h3 : c ≠ f := fun h3 => hne (by rw [h1, h2, h3])
      exact (key c f h3).trans co.2.2
    · exact (key b e h2).trans co.2.1
  · exact (key a d h1).trans co.1

/-- the new vertices are on the grid that is `n` times finer -/
theorem tess_grid {h : ℝ} {n : ℤ} {t x : Tri3 ℝ} (h1 : OnGrid h t.p1) (h2 : OnGrid h t.p2) (h3 : OnGrid h t.p3) (hx : x ∈ tess n t) (hn : 1 ≤ n) :
    ∀ p ∈ x.pts, OnGrid (h / n) p := by
  have hn' : (n : ℝ) ≠ 0 := by
    have : (0 : ℝ) < n := by exact_mod_cast hn
    exact this.ne'
  obtain ⟨a1, b1, c1, e1⟩ := h1
  obtain ⟨a2, b2, c2, e2⟩ := h2
  obtain ⟨a3, b3, c3, e3⟩ := h3
  have key : ∀ u v : ℤ, OnGrid (h / n) (Tessellate.interpolate t.p1 t.p2 t.p3 u v n) := by
    intro u v
    refine ⟨n * a1 + u * (a2 - a1) + v * (a3 - a1), n * b1 + u * (b2 - b1) + v * (b3 - b1), n * c1 + u * (c2 - c1) + v * (c3 - c1), ?_⟩
    rw [e1, e2, e3]
    unfold Tessellate.interpolate
    ext <;> simp <;> field_simp
  intro p hp
  simp only [Tri3.pts, List.mem_cons, List.not_mem_nil, or_false] at hp
  rcases mem_tess.1 hx with ⟨u, v, -, -, -, rfl⟩ | ⟨u, v, -, -, -, rfl⟩ <;> rcases hp with rfl | rfl | rfl <;> exact key _ _

/-- C129.  A closed mesh with vertices on a grid of step `h`, tessellated into `n²` triangles each and
merged with a tolerance between a quarter and three quarters of `h/n`, all in `double`, is closed by
vertex numbers: nothing but the size of `n` against the precision matters. -/
theorem tessellate_weld_double {s h tol : ℝ} (m out : Mesh ℝ) (hm : m.OK) (hb : ∀ i p, m.getVertex i = some p → CoordsLe s p)
    (hg : ∀ i p, m.getVertex i = some p → OnGrid h p) (hc : ClosedSoup m.triangles) (n : ℤ) (hn : 1 ≤ n)
    (h0 : 2 ^ (-490 : ℤ) ≤ h / n) (hs : h ≤ s) (h1 : s ≤ 2 ^ (1001 : ℤ)) (hns : n * s ≤ 2 ^ 40 * h)
    (ht : h / n / 4 ≤ tol) (ht' : tol ≤ 3 * (h / n) / 4) :
    ∃ B r, computeBy (interpolate double) m n out = some B ∧ mergeVerticesBy (nearTol double tol) 0 B = some r ∧ r.OK ∧
      r.nbTriangles = n.toNat ^ 2 * m.triangles.length ∧ BalancedIds r.cornerList ∧
      (∀ k l p p', r.getVertex k = some p → r.getVertex l = some p' → k ≠ l → tol - tol * 2 ^ (-49 : ℤ) ≤ (p - p').norm) ∧
      (∀ k p', r.getVertex k = some p' → ∃ t ∈ m.triangles, ∃ p, InTriangle t p ∧ (p' - p).norm ≤ 52 * (2 ^ (-53 : ℤ) * s)) ∧
      (∀ i p, m.getVertex i = some p → (∃ t ∈ m.triangles, p ∈ t.pts) → ∃ k p', r.getVertex k = some p' ∧ (p' - p).norm ≤ 52 * (2 ^ (-53 : ℤ) * s)) := by
  have hn' : (0 : ℝ) < n := by exact_mod_cast hn
  have hn1 : (1 : ℝ) ≤ n := by exact_mod_cast hn
  have g0 : 0 < h / n := lt_of_lt_of_le (by positivity) h0
  have hh : 0 < h := by
    have := mul_pos g0 hn'
    rwa [div_mul_cancel₀ _ hn'.ne'] at this
  have hgh : h / n ≤ h := div_le_self hh.le hn1
  have s0 : 0 < s := lt_of_lt_of_le hh hs
  have t500 : 2 ^ (-500 : ℤ) ≤ tol := by
    refine le_trans ?_ ht
    rw [le_div_iff₀ (by norm_num), show (4 : ℝ) = 2 ^ (2 : ℤ) by norm_num, ← zpow_add₀ (by norm_num)]
    exact le_trans (zpow_le_zpow_right₀ (by norm_num) (by norm_num)) h0
  have small : 4 * (26 * (2 ^ (-53 : ℤ) * s)) ≤ h / n / 8 := by
    have : s ≤ 2 ^ 40 * (h / n) := by
      rw [← mul_div_assoc, le_div_iff₀ hn', mul_comm]
      exact hns
    have e : (2 : ℝ) ^ (-53 : ℤ) * 2 ^ 40 = 1 / 8192 := by norm_num
    have := mul_le_mul_of_nonneg_left this (show (0 : ℝ) ≤ 2 ^ (-53 : ℤ) by positivity)
    rw [← mul_assoc, e] at this
    linarith
  have e49 : (2 : ℝ) ^ (-49 : ℤ) ≤ 1 / 1000 := by norm_num
  have e49' : (0 : ℝ) ≤ 2 ^ (-49 : ℤ) := by positivity
  have t0 : 0 < tol := lt_of_lt_of_le (by positivity) t500
  have et : tol * 2 ^ (-49 : ℤ) ≤ tol / 1000 := by nlinarith
  obtain ⟨A, B, e1, e2, o1, o2, near, len⟩ := tessellate_double (s := s)
    (le_trans (zpow_le_zpow_right₀ (by norm_num) (by norm_num)) (h0.trans (hgh.trans hs))) h1 m out hm hb n
  have gridT : ∀ t ∈ m.triangles, OnGrid h t.p1 ∧ OnGrid h t.p2 ∧ OnGrid h t.p3 := by
    obtain ⟨a, b⟩ := triangles_pos hm
    rw [a]
    intro t ht
    obtain ⟨f, hf, rfl⟩ := List.mem_map.1 ht
    obtain ⟨b1, b2, b3⟩ := b f hf
    exact ⟨hg _ _ b1, hg _ _ b2, hg _ _ b3⟩
  have eA := e1
  rw [compute_eq hm, Option.some.injEq] at eA
  have vert : ∀ i p, A.getVertex i = some p ↔ getI ((m.triangles.flatMap (tess n)).flatMap Tri3.pts) i = some p := by
    intro i p
    rw [← eA]
    rw [soup_getVertex]
  have gridA : ∀ i p, A.getVertex i = some p → OnGrid (h / n) p := by
    intro i p hp
    obtain ⟨k, -, hk⟩ := getI_eq_some_iff.1 ((vert i p).1 hp)
    obtain ⟨x, hx, hpx⟩ := List.mem_flatMap.1 (List.mem_of_getElem? hk)
    obtain ⟨t, htm, hxt⟩ := List.mem_flatMap.1 hx
    obtain ⟨g1, g2, g3⟩ := gridT t htm
    exact tess_grid g1 g2 g3 hxt hn p hpx
  generalize hE : 26 * ((2 : ℝ) ^ (-53 : ℤ) * s) = E at *
  have E0 : 0 ≤ E := by rw [← hE]; positivity
  obtain ⟨r, f1, f2, f3, f4, f5, f6, f7⟩ := weld_double t500 A B o1 o2 near E0 (by generalize (2 : ℝ) ^ (-49 : ℤ) = v at *; linarith) (fun i j p q hp hq hpq => by
    have := grid_apart g0.le (gridA i p hp) (gridA j q hq) hpq
    generalize (2 : ℝ) ^ (-49 : ℤ) = v at *
    linarith)
  have E2 : 52 * ((2 : ℝ) ^ (-53 : ℤ) * s) = 2 * E := by rw [← hE]; ring
  rw [E2]
  refine ⟨B, r, e2, f1, f2, by rw [f3, len]; push_cast; rfl, f7 (tessellate_closed m out A hm n e1 hc), f6, ?_, ?_⟩
  · intro k p' hk
    obtain ⟨i, p, hp, hd⟩ := f5 k p' hk
    obtain ⟨t, ht, hin⟩ := tessellate_vertices m out A hm n e1 i p hp
    exact ⟨t, ht, p, hin, hd⟩
  · rintro i p hp ⟨t, htm, hpt⟩
    refine f4 p ?_
    have hn0 : (n : ℝ) ≠ 0 := hn'.ne'
    have : p ∈ (m.triangles.flatMap (tess n)).flatMap Tri3.pts := by
      refine List.mem_flatMap.2 ?_
      simp only [Tri3.pts, List.mem_cons, List.not_mem_nil, or_false] at hpt
      rcases hpt with rfl | rfl | rfl
      · refine ⟨_, List.mem_flatMap.2 ⟨t, htm, mem_tess.2 (Or.inl ⟨0, 0, le_rfl, le_rfl, by omega, rfl⟩)⟩, ?_⟩
        simp only [Tri3.pts, List.mem_cons, List.not_mem_nil, or_false]
        left
        simp [Tessellate.interpolate]
      · refine ⟨_, List.mem_flatMap.2 ⟨t, htm, mem_tess.2 (Or.inl ⟨n - 1, 0, by omega, le_rfl, by omega, rfl⟩)⟩, ?_⟩
        simp only [Tri3.pts, List.mem_cons, List.not_mem_nil, or_false]
        right; left
        ext <;> simp [Tessellate.interpolate, hn0]
      · refine ⟨_, List.mem_flatMap.2 ⟨t, htm, mem_tess.2 (Or.inl ⟨0, n - 1, le_rfl, by omega, by omega, rfl⟩)⟩, ?_⟩
        simp only [Tri3.pts, List.mem_cons, List.not_mem_nil, or_false]
        right; right
        ext <;> simp [Tessellate.interpolate, hn0]
    obtain ⟨k, hk⟩ := List.mem_iff_getElem?.1 this
    exact ⟨k, (vert k p).2 (getI_eq_some_iff.2 ⟨k, rfl, hk⟩)⟩

/-! ### A concrete case -/

/-- the tetrahedron of `create_tetrahedron(1)` -/
private noncomputable def tetra : Mesh ℝ :=
  Mesh.new.build [⟨1, 1, 1⟩, ⟨-1, -1, 1⟩, ⟨1, -1, -1⟩, ⟨-1, 1, -1⟩] [(0, 1, 2), (1, 3, 2), (0, 3, 1), (0, 2, 3)]

/-- a million triangles for each side, merged with `1/2000`: a closed mesh of four million triangles -/
example : ∃ B r, computeBy (interpolate double) tetra 1000 Mesh.new = some B ∧ mergeVerticesBy (nearTol double (1 / 2000)) 0 B = some r ∧ r.OK ∧
    r.nbTriangles = 4000000 ∧ BalancedIds r.cornerList := by
  have ok : tetra.OK := Mesh.build_ok _ (by decide)
  have len : tetra.triangles.length = 4 := by
    unfold tetra
    rw [Factory.build_soup]
    rfl
  have vert : ∀ i p, tetra.getVertex i = some p →
      p = ⟨1, 1, 1⟩ ∨ p = ⟨-1, -1, 1⟩ ∨ p = ⟨1, -1, -1⟩ ∨ p = ⟨-1, 1, -1⟩ := by
    intro i p h
    unfold tetra at h
    rw [Mesh.build_getVertex] at h
    obtain ⟨k, -, hk⟩ := getI_eq_some_iff.1 h
    have := List.mem_of_getElem? hk
    simpa using this
  obtain ⟨B, r, h1, h2, h3, h4, h5, -⟩ := tessellate_weld_double (s := 1) (h := 1) (tol := 1 / 2000) tetra Mesh.new ok
    (fun i p hp => by rcases vert i p hp with rfl | rfl | rfl | rfl <;> simp [CoordsLe])
    (fun i p hp => by
      rcases vert i p hp with rfl | rfl | rfl | rfl
      · exact ⟨1, 1, 1, by simp⟩
      · exact ⟨-1, -1, 1, by simp⟩
      · exact ⟨1, -1, -1, by simp⟩
      · exact ⟨-1, 1, -1, by simp⟩)
    (closedSoup_of_ids ok (by unfold tetra; rw [Mesh.build_cornerList]; decide)) 1000 (by norm_num)
    (by
      refine le_trans (zpow_le_zpow_right₀ (by norm_num) (show (-490 : ℤ) ≤ -10 by norm_num)) ?_
      norm_num) le_rfl (one_le_zpow₀ (by norm_num) (by norm_num)) (by norm_num) (by norm_num) (by norm_num)
  exact ⟨B, r, h1, h2, h3, by rw [h4, len]; norm_num, h5⟩

end Rounded
end CAD
