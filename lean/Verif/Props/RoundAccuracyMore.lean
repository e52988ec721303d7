import Verif.Props.RoundAccuracy

/-! C121 and C122 for the cylinder, C122 for the torus. -/

set_option linter.unusedSimpArgs false

namespace CAD
namespace Factory
open Mesh MeshUtil Real

/-! ### the cylinder -/

/-- all triangles of the cylinder, those that are no proper triangles first -/
def cylAll (L : Nat) : List (Ball L × Ball L × Ball L) :=
  (.north, .at ((L - 1 : Nat) : ZMod L) 0, .north) :: (.south, .south, .at ((L - 1 : Nat) : ZMod L) 1) :: cylTris L

theorem cyl_triangles_all (h r : ℝ) {n : Nat} (m : Mesh ℝ) {x : Mesh ℝ} (hx : createCylinder h r n m = some x) :
    x.triangles.Perm ((cylAll (2 + 4 * n)).map fun t => ⟨cylVertex h r (2 + 4 * n) t.1, cylVertex h r (2 + 4 * n) t.2.1, cylVertex h r (2 + 4 * n) t.2.2⟩) := by
  rw [createCylinder_eq] at hx
  obtain rfl := Option.some.inj hx
  generalize hL0 : 2 + 4 * n = L
  have hL : 1 ≤ L := by omega
  have : NeZero L := ⟨by omega⟩
  have hp := (cylFaces_perm hL).filterMap (AMesh.tri ⟨ballPoints L 2 (cylVertex h r L), [], 0⟩)
  rw [List.filterMap_append, filterMap_named _ _ _ _ cylTris_get] at hp
  have gn := ballPoints_get (L := L) (M := 2) (cylVertex h r L) (v := .north) trivial
  have gs := ballPoints_get (L := L) (M := 2) (cylVertex h r L) (v := .south) trivial
  have g1 := ballPoints_get (L := L) (M := 2) (cylVertex h r L) (v := .at ((L - 1 : Nat) : ZMod L) 0) (by simp [BallIn])
  have g2 := ballPoints_get (L := L) (M := 2) (cylVertex h r L) (v := .at ((L - 1 : Nat) : ZMod L) 1) (by simp [BallIn])
  have e1 : ballId 2 (.at ((L - 1 : Nat) : ZMod L) 0) = 2 * (L : Int) - 2 := by
    simp only [ballId, zmod_natCast_val (show L - 1 < L by omega)]; omega
  have e2 : ballId 2 (.at ((L - 1 : Nat) : ZMod L) 1) = 2 * (L : Int) - 1 := by
    simp only [ballId, zmod_natCast_val (show L - 1 < L by omega)]; omega
  have en : ballId 2 (.north : Ball L) = ((L * 2 : Nat) : Int) := rfl
  have es : ballId 2 (.south : Ball L) = ((L * 2 + 1 : Nat) : Int) := rfl
  rw [e1] at g1
  rw [e2] at g2
  rw [en] at gn
  rw [es] at gs
  rw [build_soup]
  refine hp.trans (List.Perm.of_eq ?_)
  simp only [cylExtra, List.filterMap_cons, List.filterMap_nil, AMesh.tri, gn, gs, g1, g2,
    Option.bind_eq_bind, Option.bind_some, Option.pure_def, List.cons_append, List.nil_append, cylAll, List.map_cons]

/-- normal of the side of a column -/
noncomputable def sideNormal {L : Nat} (a : ZMod L) : P3 ℝ := ⟨cos (lon a + π / L), sin (lon a + π / L), 0⟩

theorem sideNormal_at (h r : ℝ) {L : Nat} (a b : ZMod L) (l : Int) :
    (sideNormal a).dot (cylVertex h r L (.at b l)) = r * cos (lon b - (lon a + π / L)) := by
  simp only [sideNormal, cylVertex, P3.dot]
  rw [cos_sub]
  unfold lon
  ring

theorem cylVertex_z (h r : ℝ) {L : Nat} (v : Ball L) : (cylVertex h r L v).z = h / 2 ∨ (cylVertex h r L v).z = -(h / 2) := by
  match v with
  | .north => exact .inl rfl
  | .south => exact .inr rfl
  | .at a l =>
    simp only [cylVertex]
    split_ifs
    · exact .inl rfl
    · exact .inr rfl

theorem cylVertex_behind {h r : ℝ} (hr : 0 ≤ r) {L : Nat} (hL : 3 ≤ L) (a : ZMod L) (v : Ball L) :
    (sideNormal a).dot (cylVertex h r L v) ≤ r * cos (π / L) := by
  have c0 := cos_step_pos hL
  match v with
  | .north => simp only [sideNormal, cylVertex, P3.dot]; nlinarith [mul_nonneg hr c0.le]
  | .south => simp only [sideNormal, cylVertex, P3.dot]; nlinarith [mul_nonneg hr c0.le]
  | .at b l => rw [sideNormal_at]; exact mul_le_mul_of_nonneg_left (cos_lon_le (by omega) a b) hr

/-- the kinds of triangles of a cylinder -/
theorem cylTris_cases {L : Nat} [NeZero L] {t : Ball L × Ball L × Ball L} (ht : t ∈ cylTris L) :
    ∃ a : ZMod L, t ∈ cylSide a ∨ t = cylTop a ∨ t = cylBottom a := by
  unfold cylTris at ht
  simp only [List.mem_append, List.mem_flatMap, List.mem_map] at ht
  rcases ht with (⟨i, _, ht⟩ | ⟨i, _, rfl⟩) | ⟨i, _, rfl⟩
  · exact ⟨_, .inl ht⟩
  · exact ⟨_, .inr (.inl rfl)⟩
  · exact ⟨_, .inr (.inr rfl)⟩

theorem cylSide_mem {L : Nat} [NeZero L] (a : ZMod L) : (∀ t ∈ cylSide a, t ∈ cylTris L) ∧ cylTop a ∈ cylTris L ∧ cylBottom a ∈ cylTris L := by
  have ha : ((a.val : Nat) : ZMod L) = a := by simp
  have hr : a.val ∈ List.range L := List.mem_range.2 (ZMod.val_lt a)
  unfold cylTris
  simp only [List.mem_append, List.mem_flatMap, List.mem_map]
  refine ⟨fun t ht => .inl (.inl ⟨a.val, hr, by rw [ha]; exact ht⟩), .inl (.inr ⟨a.val, hr, by rw [ha]⟩), .inr ⟨a.val, hr, by rw [ha]⟩⟩

theorem side_plane {h r : ℝ} {L : Nat} (hL : 3 ≤ L) (a : ZMod L) {t : Ball L × Ball L × Ball L} (ht : t ∈ cylSide a) :
    Supports (sideNormal a) (r * cos (π / L)) ⟨cylVertex h r L t.1, cylVertex h r L t.2.1, cylVertex h r L t.2.2⟩ := by
  simp only [cylSide, quadT, List.mem_cons, List.not_mem_nil, or_false] at ht
  have e : ∀ b, (b = a ∨ b = a + 1) → ∀ l, (sideNormal a).dot (cylVertex h r L (.at b l)) = r * cos (π / L) := by
    intro b hb l; rw [sideNormal_at, cos_lon_eq (by omega) a hb]
  rcases ht with rfl | rfl <;> exact ⟨e _ (by simp) _, e _ (by simp) _, e _ (by simp) _⟩

/-- **C121** cylinder -/
theorem cylinder_convex {h r : ℝ} (hh : 0 < h) (hr : 0 < r) {n : Int} (hn : 1 ≤ n) (m : Mesh ℝ) :
    ∃ x, createCylinder h r n m = some x ∧ ConvexOutward x.triangles ∧
      ∀ t ∈ x.triangles, t.p1 = t.p2 ∨ t.p1 = t.p3 ∨ 0 < t.p1.dot t.orthogonal := by
  obtain ⟨x, hx, -, -, -, -, -, -, -, -, ho⟩ := cylinder_spec_partial h r n hn m
  refine ⟨x, hx, ?_, ho hh hr⟩
  clear ho
  lift n to Nat using (by omega)
  have hp := cyl_triangles_all h r m hx
  generalize hL0 : 2 + 4 * n = L at hp
  have hL : 3 ≤ L := by omega
  have : NeZero L := ⟨by omega⟩
  refine convex_of_corners fun t0 ht0 t1 ht1 => ?_
  obtain ⟨t, ht, rfl⟩ := List.mem_map.1 (hp.mem_iff.1 ht0)
  obtain ⟨t', ht', rfl⟩ := List.mem_map.1 (hp.mem_iff.1 ht1)
  suffices H : ∀ v, (cylVertex h r L v - cylVertex h r L t.1).dot (Tri3.orthogonal ⟨cylVertex h r L t.1, cylVertex h r L t.2.1, cylVertex h r L t.2.2⟩) ≤ 0 from
    ⟨H _, H _, H _⟩
  intro v
  rcases List.mem_cons.1 ht with rfl | ht
  · refine le_of_eq ?_
    simp only [Tri3.orthogonal, P3.dot, P3.cross, P3.sub_x, P3.sub_y, P3.sub_z]; ring
  rcases List.mem_cons.1 ht with rfl | ht
  · refine le_of_eq ?_
    simp only [Tri3.orthogonal, P3.dot, P3.cross, P3.sub_x, P3.sub_y, P3.sub_z]; ring
  have hs := sin_step_pos hL
  have pos : 0 < h * r ^ 2 * sin (2 * π / L) := by positivity
  obtain ⟨a, ht⟩ := cylTris_cases ht
  have val := cyl_value h r (show 2 ≤ L by omega) a
  simp only at val
  rcases ht with ht | rfl | rfl
  · refine Supports.behind (side_plane hL a ht) (mul_pos hr (cos_step_pos hL)) ?_ (cylVertex_behind hr.le hL a v)
    have := val.1 t ht
    simp only at this ⊢
    rw [this]; exact pos
  · refine Supports.behind (t := ⟨cylVertex h r L (cylTop a).1, cylVertex h r L (cylTop a).2.1, cylVertex h r L (cylTop a).2.2⟩) (n := ⟨0, 0, 1⟩) (d := h / 2) ?_ (by positivity) ?_ ?_
    · constructor <;> simp [cylTop, cylVertex, P3.dot]
    · have := val.2.1
      simp only at this ⊢
      rw [this]; linarith
    · simp only [P3.dot, zero_mul, one_mul, zero_add]
      rcases cylVertex_z h r v with e | e <;> rw [e] <;> linarith
  · refine Supports.behind (t := ⟨cylVertex h r L (cylBottom a).1, cylVertex h r L (cylBottom a).2.1, cylVertex h r L (cylBottom a).2.2⟩) (n := ⟨0, 0, -1⟩) (d := h / 2) ?_ (by positivity) ?_ ?_
    · constructor <;> simp [cylBottom, cylVertex, P3.dot]
    · have := val.2.2
      simp only at this ⊢
      rw [this]; linarith
    · simp only [P3.dot, zero_mul, zero_add]
      rcases cylVertex_z h r v with e | e <;> rw [e] <;> linarith

/-- distance from the axis -/
noncomputable def axisDist (p : P3 ℝ) : ℝ := √(p.x ^ 2 + p.y ^ 2)

/-- the surface of a cylinder of height `h` and radius `r`: the wall and the two disks -/
def OnCylinder (h r : ℝ) (p : P3 ℝ) : Prop :=
  (axisDist p = r ∧ |p.z| ≤ h / 2) ∨ (axisDist p ≤ r ∧ |p.z| = h / 2)

theorem axisDist_le_iff {p : P3 ℝ} {e : ℝ} (he : 0 ≤ e) : axisDist p ≤ e ↔ p.x ^ 2 + p.y ^ 2 ≤ e ^ 2 := by
  rw [axisDist, sqrt_le_left he]

theorem axisDist_ge {p : P3 ℝ} (θ : ℝ) : cos θ * p.x + sin θ * p.y ≤ axisDist p := by
  refine le_sqrt_of_sq_le ?_
  have := sin_sq_add_cos_sq θ
  nlinarith [sq_nonneg (sin θ * p.x - cos θ * p.y)]

/-- a disk contains the shadow of the triangle when it contains those of the corners -/
theorem InTriangle.disk {t : Tri3 ℝ} {q : P3 ℝ} {d : ℝ} (h : InTriangle t q) (h1 : t.p1.x ^ 2 + t.p1.y ^ 2 ≤ d) (h2 : t.p2.x ^ 2 + t.p2.y ^ 2 ≤ d)
    (h3 : t.p3.x ^ 2 + t.p3.y ^ 2 ≤ d) : q.x ^ 2 + q.y ^ 2 ≤ d := by
  obtain ⟨a, b, c, ha, hb, hc, e, rfl⟩ := h
  have h' : InTriangle ⟨⟨t.p1.x, t.p1.y, 0⟩, ⟨t.p2.x, t.p2.y, 0⟩, ⟨t.p3.x, t.p3.y, 0⟩⟩ (a • ⟨t.p1.x, t.p1.y, 0⟩ + b • ⟨t.p2.x, t.p2.y, 0⟩ + c • ⟨t.p3.x, t.p3.y, 0⟩ : P3 ℝ) :=
    ⟨a, b, c, ha, hb, hc, e, rfl⟩
  have := InTriangle.ball (d := d) h' (by simp only [P3.normSq]; linarith) (by simp only [P3.normSq]; linarith) (by simp only [P3.normSq]; linarith)
  simp only [P3.normSq, P3.add_x, P3.add_y, P3.add_z, P3.smul_x, P3.smul_y, P3.smul_z, mul_zero, add_zero] at this ⊢
  linarith

/-- **C122** cylinder.  The mesh and the surface of the cylinder are within `ε = r (1 - cos (π/(4n+2)))` of each other: the
mesh lies in the solid cylinder, its points that are not on the two disks are at least `r - ε` from the axis, and every
point of the surface has a point of the mesh within `ε`. -/
theorem cylinder_accuracy {h r : ℝ} (hh : 0 < h) (hr : 0 < r) {n : Int} (hn : 1 ≤ n) (m : Mesh ℝ) :
    let ε := r * (1 - cos (π / (4 * n + 2)))
    ε ≤ r * π ^ 2 / (32 * n ^ 2) ∧ ∃ x, createCylinder h r n m = some x ∧
      (∀ t ∈ x.triangles, ∀ q, InTriangle t q → axisDist q ≤ r ∧ |q.z| ≤ h / 2 ∧ (|q.z| = h / 2 ∨ r - ε ≤ axisDist q)) ∧
      (∀ p, OnCylinder h r p → ∃ t ∈ x.triangles, ∃ q, InTriangle t q ∧ (p - q).norm ≤ ε) := by
  intro ε
  have hpi := pi_pos
  have hn1 : (1 : ℝ) ≤ n := by exact_mod_cast hn
  constructor
  · have e1 := one_sub_cos_le (π / (4 * n + 2))
    have b1 : (π / (4 * n + 2)) ^ 2 ≤ π ^ 2 / (16 * n ^ 2) := by
      rw [div_pow]
      exact div_le_div_of_nonneg_left (by positivity) (by positivity) (by nlinarith)
    calc ε ≤ r * (π ^ 2 / (16 * n ^ 2) / 2) := mul_le_mul_of_nonneg_left (by linarith) hr.le
      _ = _ := by field_simp; norm_num
  obtain ⟨x, hx, -⟩ := cylinder_spec_partial h r n hn m
  refine ⟨x, hx, ?_⟩
  lift n to Nat using (by omega)
  have hp := cyl_triangles_all h r m hx
  have eL : cos (π / (4 * ((n : Int) : ℝ) + 2)) = cos (π / (2 + 4 * n : Nat)) := by congr 2; push_cast; ring
  simp only [ε, eL]
  clear ε eL
  generalize hL0 : 2 + 4 * n = L at hp ⊢
  have hL : 3 ≤ L := by omega
  have : NeZero L := ⟨by omega⟩
  have cL := cos_step_pos hL
  have cL1 := cos_le_one (π / (L : ℝ))
  have disk : ∀ v, (cylVertex h r L v).x ^ 2 + (cylVertex h r L v).y ^ 2 ≤ r ^ 2 := by
    intro v
    match v with
    | .north => simp only [cylVertex]; nlinarith
    | .south => simp only [cylVertex]; nlinarith
    | .at a l =>
      simp only [cylVertex]
      exact le_of_eq (by linear_combination r ^ 2 * sin_sq_add_cos_sq ((a.val : ℝ) / L * 2 * π))
  constructor
  · intro t0 ht0 q hq
    obtain ⟨t, ht, rfl⟩ := List.mem_map.1 (hp.mem_iff.1 ht0)
    refine ⟨(axisDist_le_iff hr.le).2 (InTriangle.disk hq (disk _) (disk _) (disk _)), ?_, ?_⟩
    · obtain ⟨a, b, c, ha, hb, hc, e, rfl⟩ := hq
      simp only [P3.add_z, P3.smul_z]
      have hz : ∀ v, -(h / 2) ≤ (cylVertex h r L v).z ∧ (cylVertex h r L v).z ≤ h / 2 := by
        intro v; rcases cylVertex_z h r v with e | e <;> rw [e] <;> constructor <;> linarith
      obtain ⟨l1, u1⟩ := hz t.1
      obtain ⟨l2, u2⟩ := hz t.2.1
      obtain ⟨l3, u3⟩ := hz t.2.2
      have es : a * (h / 2) + b * (h / 2) + c * (h / 2) = h / 2 := by rw [← add_mul, ← add_mul, e, one_mul]
      rw [abs_le]
      constructor
      · linarith [mul_le_mul_of_nonneg_left l1 ha, mul_le_mul_of_nonneg_left l2 hb, mul_le_mul_of_nonneg_left l3 hc]
      · linarith [mul_le_mul_of_nonneg_left u1 ha, mul_le_mul_of_nonneg_left u2 hb, mul_le_mul_of_nonneg_left u3 hc]
    · have flat : ∀ z, |z| = h / 2 → (cylVertex h r L t.1).z = z → (cylVertex h r L t.2.1).z = z → (cylVertex h r L t.2.2).z = z → |q.z| = h / 2 := by
        intro z hz e1 e2 e3
        obtain ⟨a, b, c, ha, hb, hc, e, rfl⟩ := hq
        simp only [P3.add_z, P3.smul_z, e1, e2, e3]
        rw [← add_mul, ← add_mul, e, one_mul, hz]
      have z1 : |h / 2| = h / 2 := abs_of_pos (by positivity)
      have z2 : |-(h / 2)| = h / 2 := by rw [abs_neg, z1]
      rcases List.mem_cons.1 ht with rfl | ht
      · exact .inl (flat (h / 2) z1 rfl (by simp [cylVertex]) rfl)
      rcases List.mem_cons.1 ht with rfl | ht
      · exact .inl (flat (-(h / 2)) z2 rfl rfl (by simp [cylVertex]))
      obtain ⟨a, ht⟩ := cylTris_cases ht
      rcases ht with ht | rfl | rfl
      · right
        have e := InTriangle.lin hq (side_plane hL a ht)
        have g := axisDist_ge (p := q) (lon a + π / L)
        simp only [sideNormal, P3.dot] at e
        linarith
      · exact .inl (flat (h / 2) z1 rfl (by simp [cylTop, cylVertex]) (by simp [cylTop, cylVertex]))
      · exact .inl (flat (-(h / 2)) z2 rfl (by simp [cylBottom, cylVertex]) (by simp [cylBottom, cylVertex]))
  · intro p hP
    obtain ⟨u, hx1, hy1⟩ := exists_polar p.x p.y
    obtain ⟨a, x', x0, x1, eu1, eu2⟩ := exists_lon (show 1 ≤ L by omega) u
    have L0 : (3 : ℝ) ≤ L := by exact_mod_cast hL
    obtain ⟨s, g, s0, s1, g0, g1, gc, gs⟩ := exists_chord (θ := lon a) (d := 2 * π / L) (x := x') (by positivity)
      (by rw [div_lt_iff₀ (by linarith)]; nlinarith) x0 x1
    rw [show 2 * π / (L : ℝ) / 2 = π / L by ring] at g0
    obtain ⟨ns, nc⟩ := sin_cos_next (show 2 ≤ L by omega) a
    have hc1 : cos (lon (a + 1)) = cos (lon a + 2 * π / L) := nc
    have hs1 : sin (lon (a + 1)) = sin (lon a + 2 * π / L) := ns
    have hρ : √(p.x ^ 2 + p.y ^ 2) = axisDist p := rfl
    rw [hρ, eu1] at hx1
    rw [hρ, eu2] at hy1
    have hu := sin_sq_add_cos_sq (lon a + x')
    have near : ∀ (q : P3 ℝ) (ρ : ℝ), q = ⟨ρ * cos (lon a + x'), ρ * sin (lon a + x'), p.z⟩ → |axisDist p - ρ| ≤ r * (1 - cos (π / L)) →
        (p - q).norm ≤ r * (1 - cos (π / L)) := by
      rintro q ρ rfl hd
      rw [norm_le_iff (mul_nonneg hr.le (by linarith))]
      have e : (p - ⟨ρ * cos (lon a + x'), ρ * sin (lon a + x'), p.z⟩ : P3 ℝ).normSq = (axisDist p - ρ) ^ 2 := by
        simp only [P3.normSq, P3.sub_x, P3.sub_y, P3.sub_z]
        rw [hx1, hy1]
        linear_combination (axisDist p - ρ) ^ 2 * hu
      rw [e, ← sq_abs]
      exact pow_le_pow_left₀ (abs_nonneg _) hd 2
    have corner : ∀ l, cylVertex h r L (.at a l) = ⟨cos (lon a) * r, sin (lon a) * r, if l = 0 then h / 2 else -(h / 2)⟩ ∧
        cylVertex h r L (.at (a + 1) l) = ⟨cos (lon a + 2 * π / L) * r, sin (lon a + 2 * π / L) * r, if l = 0 then h / 2 else -(h / 2)⟩ := by
      intro l
      refine ⟨rfl, ?_⟩
      simp only [cylVertex]
      rw [← hc1, ← hs1]
      rfl
    obtain ⟨m1, m2, m3⟩ := cylSide_mem a
    have mem : ∀ t ∈ cylTris L, (⟨cylVertex h r L t.1, cylVertex h r L t.2.1, cylVertex h r L t.2.2⟩ : Tri3 ℝ) ∈ x.triangles := by
      intro t ht
      refine hp.mem_iff.2 (List.mem_map.2 ⟨t, ?_, rfl⟩)
      simp [cylAll, ht]
    rcases hP with ⟨hd, hz⟩ | ⟨hd, hz⟩
    · -- the wall
      obtain ⟨zl, zu⟩ := abs_le.1 hz
      set w := (h / 2 - p.z) / h with hw
      have w0 : 0 ≤ w := div_nonneg (by linarith) hh.le
      have w1 : w ≤ 1 := (div_le_one hh).2 (by linarith)
      have wz : (1 - w) * (h / 2) + w * (-(h / 2)) = p.z := by rw [hw]; field_simp; ring
      have q := quad_cover (A := cylVertex h r L (.at a 0)) (B := cylVertex h r L (.at a 1)) (C := cylVertex h r L (.at (a + 1) 1))
        (D := cylVertex h r L (.at (a + 1) 0)) (α := 1) (β := 1) (by norm_num) (by norm_num) (by norm_num)
        (by rw [(corner 0).1, (corner 1).1, (corner 0).2, (corner 1).2]
            ext <;> simp)
        (a := (1 - s) * (1 - w)) (b := (1 - s) * w) (c := s * w) (d := s * (1 - w))
        (mul_nonneg (by linarith) (by linarith)) (mul_nonneg (by linarith) w0) (mul_nonneg s0 w0) (mul_nonneg s0 (by linarith)) (by ring)
      have hpt : ((1 - s) * (1 - w)) • cylVertex h r L (.at a 0) + ((1 - s) * w) • cylVertex h r L (.at a 1) + (s * w) • cylVertex h r L (.at (a + 1) 1) +
          (s * (1 - w)) • cylVertex h r L (.at (a + 1) 0) = ⟨(r * g) * cos (lon a + x'), (r * g) * sin (lon a + x'), p.z⟩ := by
        rw [mul_assoc, mul_assoc, ← gc, ← gs, ← wz, (corner 0).1, (corner 1).1, (corner 0).2, (corner 1).2]
        ext <;> simp only [P3.add_x, P3.add_y, P3.add_z, P3.smul_x, P3.smul_y, P3.smul_z, if_true, if_false, one_ne_zero] <;> ring
      have hn := near _ (r * g) hpt (by
        rw [hd, show r - r * g = r * (1 - g) by ring, abs_of_nonneg (mul_nonneg hr.le (by linarith))]
        exact mul_le_mul_of_nonneg_left (by linarith) hr.le)
      rcases q with q | q
      · exact ⟨_, mem (.at a 0, .at a 1, .at (a + 1) 1) (m1 _ (by simp [cylSide, quadT])), _, q, hn⟩
      · exact ⟨_, mem (.at (a + 1) 1, .at (a + 1) 0, .at a 0) (m1 _ (by simp [cylSide, quadT])), _, q, hn⟩
    · -- a disk
      have d0 : 0 ≤ axisDist p := sqrt_nonneg _
      have g0p : 0 < g := lt_of_lt_of_le cL g0
      set ρ := min (axisDist p) (r * g) with hρ'
      have ρ0 : 0 ≤ ρ := le_min d0 (by positivity)
      have ρ1 : ρ ≤ r * g := min_le_right _ _
      set w := ρ / (r * g) with hw
      have w0 : 0 ≤ w := by positivity
      have w1 : w ≤ 1 := (div_le_one (by positivity)).2 ρ1
      have wr : w * (r * g) = ρ := div_mul_cancel₀ _ (by positivity)
      have hdist : |axisDist p - ρ| ≤ r * (1 - cos (π / L)) := by
        rcases le_total (axisDist p) (r * g) with h' | h'
        · rw [hρ', min_eq_left h', sub_self, abs_zero]
          exact mul_nonneg hr.le (by linarith)
        · rw [hρ', min_eq_right h', abs_of_nonneg (by linarith)]
          nlinarith [mul_le_mul_of_nonneg_left g0 hr.le]
      rcases (abs_eq (by positivity)).1 hz with hz | hz
      · refine ⟨_, mem _ m2, _, ⟨1 - w, w * (1 - s), w * s, by linarith, mul_nonneg w0 (by linarith), mul_nonneg w0 s0, by ring, rfl⟩, near _ ρ ?_ hdist⟩
        simp only [cylTop]
        rw [(corner 0).1, (corner 0).2, hz, ← wr, mul_assoc, mul_assoc, mul_assoc, mul_assoc, ← gc, ← gs]
        ext <;> simp only [cylVertex, P3.add_x, P3.add_y, P3.add_z, P3.smul_x, P3.smul_y, P3.smul_z, if_true] <;> ring
      · refine ⟨_, mem _ m3, _, ⟨1 - w, w * s, w * (1 - s), by linarith, mul_nonneg w0 s0, mul_nonneg w0 (by linarith), by ring, rfl⟩, near _ ρ ?_ hdist⟩
        simp only [cylBottom]
        rw [(corner 1).1, (corner 1).2, hz, ← wr, mul_assoc, mul_assoc, mul_assoc, mul_assoc, ← gc, ← gs]
        ext <;> simp only [cylVertex, P3.add_x, P3.add_y, P3.add_z, P3.smul_x, P3.smul_y, P3.smul_z, if_false, one_ne_zero] <;> ring

/-! ### the torus -/

theorem torus_triangles_all (R r : ℝ) {n : Nat} (m : Mesh ℝ) {x : Mesh ℝ} (hx : createTorus R r n m = some x) :
    x.triangles = ((torusCells (2 + 4 * n) (6 + 2 * n)).flatMap (torusCell (1, 0) (0, 1))).map fun t =>
      ⟨torusVertex R r (2 + 4 * n) (6 + 2 * n) t.1, torusVertex R r (2 + 4 * n) (6 + 2 * n) t.2.1, torusVertex R r (2 + 4 * n) (6 + 2 * n) t.2.2⟩ := by
  have : NeZero (2 + 4 * n) := ⟨by omega⟩
  have : NeZero (6 + 2 * n) := ⟨by omega⟩
  rw [createTorus_eq] at hx
  obtain rfl := Option.some.inj hx
  exact torus_triangles R r (2 + 4 * n) (6 + 2 * n) m

theorem torusCell_form {L N : Nat} {a : ZMod L} {b : ZMod N} {t} (ht : t ∈ torusCell ((1, 0) : ZMod L × ZMod N) (0, 1) (a, b)) :
    ∀ v, (v = t.1 ∨ v = t.2.1 ∨ v = t.2.2) → (v.1 = a ∨ v.1 = a + 1) ∧ (v.2 = b ∨ v.2 = b + 1) := by
  simp only [torusCell, quadT, List.mem_cons, List.not_mem_nil, or_false, Prod.mk_add_mk, add_zero, zero_add] at ht
  rcases ht with rfl | rfl <;> rintro v (rfl | rfl | rfl) <;> simp

/-- distance of a point from the circle in the middle of the torus -/
noncomputable def ringDist (R : ℝ) (p : P3 ℝ) : ℝ := √((axisDist p - R) ^ 2 + p.z ^ 2)

/-- the triangles of a cell cover the convex combinations of its corners -/
theorem torus_cell_cover {R r : ℝ} (hr : 0 < r) (hR : r < R) {L N : Nat} (a : ZMod L) (b : ZMod N) {w1 w2 w3 w4 : ℝ} (p1 : 0 ≤ w1) (p2 : 0 ≤ w2) (p3 : 0 ≤ w3)
    (p4 : 0 ≤ w4) (hw : w1 + w2 + w3 + w4 = 1) :
    ∃ t ∈ torusCell ((1, 0) : ZMod L × ZMod N) (0, 1) (a, b), InTriangle ⟨torusVertex R r L N t.1, torusVertex R r L N t.2.1, torusVertex R r L N t.2.2⟩
      (w1 • torusVertex R r L N (a + 1, b) + w2 • torusVertex R r L N (a + 1, b + 1) + w3 • torusVertex R r L N (a, b + 1) +
        w4 • torusVertex R r L N (a, b)) := by
  have hpos : ∀ v, 0 < R + r * cos v := by
    intro v
    have := neg_one_le_cos v
    nlinarith
  have q := quad_cover (A := torusVertex R r L N (a + 1, b)) (B := torusVertex R r L N (a + 1, b + 1)) (C := torusVertex R r L N (a, b + 1))
    (D := torusVertex R r L N (a, b)) (α := R + r * cos (lon b)) (β := R + r * cos (lon (b + 1))) (hpos _).le (hpos _).le
    (add_pos (hpos _) (hpos _)) (by
      ext <;> simp only [torusVertex, torusPoint, lon, P3.add_x, P3.add_y, P3.add_z, P3.smul_x, P3.smul_y, P3.smul_z] <;> ring) p1 p2 p3 p4 hw
  rcases q with q | q
  · exact ⟨((a + 1, b), (a + 1, b + 1), (a, b + 1)), by simp [torusCell, quadT], q⟩
  · exact ⟨((a, b + 1), (a, b), (a + 1, b)), by simp [torusCell, quadT], q⟩

set_option maxHeartbeats 1000000 in
/-- **C122** torus.  The mesh and the torus are within `ε = (R + r) (1 - cos (π/(4n+2))) + r (1 - cos (π/(2n+6)))` of each
other: every point of a triangle is between `r - ε` and `r + ε` from the circle in the middle of the torus, and every point of
the torus has a point of the mesh within `ε`. -/
theorem torus_accuracy {R r : ℝ} (hr : 0 < r) (hR : r < R) {n : Int} (hn : 1 ≤ n) (m : Mesh ℝ) :
    let ε := (R + r) * (1 - cos (π / (4 * n + 2))) + r * (1 - cos (π / (2 * n + 6)))
    ε ≤ (R + 5 * r) * π ^ 2 / (32 * n ^ 2) ∧ ∃ x, createTorus R r n m = some x ∧
      (∀ t ∈ x.triangles, ∀ q, InTriangle t q → |ringDist R q - r| ≤ ε) ∧
      (∀ p, ringDist R p = r → ∃ t ∈ x.triangles, ∃ q, InTriangle t q ∧ (p - q).norm ≤ ε) := by
  intro ε
  have hpi := pi_pos
  have hn1 : (1 : ℝ) ≤ n := by exact_mod_cast hn
  have hR0 : 0 < R := hr.trans hR
  constructor
  · have e1 := one_sub_cos_le (π / (4 * n + 2))
    have e2 := one_sub_cos_le (π / (2 * n + 6))
    have b1 : (π / (4 * n + 2)) ^ 2 ≤ π ^ 2 / (16 * n ^ 2) := by
      rw [div_pow]
      exact div_le_div_of_nonneg_left (by positivity) (by positivity) (by nlinarith)
    have b2 : (π / (2 * n + 6)) ^ 2 ≤ π ^ 2 / (4 * n ^ 2) := by
      rw [div_pow]
      exact div_le_div_of_nonneg_left (by positivity) (by positivity) (by nlinarith)
    calc ε ≤ (R + r) * (π ^ 2 / (16 * n ^ 2) / 2) + r * (π ^ 2 / (4 * n ^ 2) / 2) :=
          add_le_add (mul_le_mul_of_nonneg_left (by linarith) (by positivity)) (mul_le_mul_of_nonneg_left (by linarith) hr.le)
      _ = _ := by field_simp; ring
  obtain ⟨x, hx, -⟩ := torus_spec R r n hn m
  refine ⟨x, hx, ?_⟩
  lift n to Nat using (by omega)
  have hT := torus_triangles_all R r m hx
  have eL : cos (π / (4 * ((n : Int) : ℝ) + 2)) = cos (π / (2 + 4 * n : Nat)) := by congr 2; push_cast; ring
  have eN : cos (π / (2 * ((n : Int) : ℝ) + 6)) = cos (π / (6 + 2 * n : Nat)) := by congr 2; push_cast; ring
  simp only [ε, eL, eN]
  clear ε eL eN
  rw [hT]
  clear hT hx
  generalize hL0 : 2 + 4 * n = L
  generalize hN0 : 6 + 2 * n = N
  have hL : 3 ≤ L := by omega
  have hN : 3 ≤ N := by omega
  have : NeZero L := ⟨by omega⟩
  have : NeZero N := ⟨by omega⟩
  have cL := cos_step_pos hL
  have cL1 := cos_le_one (π / (L : ℝ))
  have cN := cos_step_pos hN
  have cN1 := cos_le_one (π / (N : ℝ))
  have hpos : ∀ v, 0 < R + r * cos v := by
    intro v
    have := neg_one_le_cos v
    nlinarith
  have tri : ∀ X Y X' Y' : ℝ, |√(X ^ 2 + Y ^ 2) - √(X' ^ 2 + Y' ^ 2)| ≤ √((X - X') ^ 2 + (Y - Y') ^ 2) := by
    intro X Y X' Y'
    have h := abs_norm_sub_norm_le (⟨X, Y⟩ : ℂ) ⟨X', Y'⟩
    have e : (⟨X, Y⟩ - ⟨X', Y'⟩ : ℂ) = ⟨X - X', Y - Y'⟩ := by apply Complex.ext <;> simp
    rw [e] at h
    simpa only [Complex.norm_def, Complex.normSq_mk, ← sq] using h
  constructor
  · intro t0 ht0 q hq
    obtain ⟨t, ht1, rfl⟩ := List.mem_map.1 ht0
    obtain ⟨⟨a, b⟩, hc, ht⟩ := List.mem_flatMap.1 ht1
    have form := torusCell_form ht
    obtain ⟨w1, w2, w3, p1, p2, p3, hw, rfl⟩ := hq
    simp only
    obtain ⟨fa1, fb1⟩ := form t.1 (.inl rfl)
    obtain ⟨fa2, fb2⟩ := form t.2.1 (.inr (.inl rfl))
    obtain ⟨fa3, fb3⟩ := form t.2.2 (.inr (.inr rfl))
    generalize t.1 = v1 at *
    generalize t.2.1 = v2 at *
    generalize t.2.2 = v3 at *
    -- the point of the profile
    set P := w1 * cos (lon v1.2) + w2 * cos (lon v2.2) + w3 * cos (lon v3.2) with hP
    set Z := w1 * sin (lon v1.2) + w2 * sin (lon v2.2) + w3 * sin (lon v3.2) with hZ
    set q := w1 • torusVertex R r L N v1 + w2 • torusVertex R r L N v2 + w3 • torusVertex R r L N v3 with hq
    have qz : q.z = r * Z := by
      rw [hq, hZ]; simp only [torusVertex, torusPoint, lon, P3.add_z, P3.smul_z]; ring
    -- distance of the profile point from the middle
    have PZ1 : P ^ 2 + Z ^ 2 ≤ 1 := by
      have := InTriangle.ball (t := ⟨⟨cos (lon v1.2), sin (lon v1.2), 0⟩, ⟨cos (lon v2.2), sin (lon v2.2), 0⟩, ⟨cos (lon v3.2), sin (lon v3.2), 0⟩⟩)
        (q := w1 • ⟨cos (lon v1.2), sin (lon v1.2), 0⟩ + w2 • ⟨cos (lon v2.2), sin (lon v2.2), 0⟩ + w3 • ⟨cos (lon v3.2), sin (lon v3.2), 0⟩) (d := 1)
        ⟨w1, w2, w3, p1, p2, p3, hw, rfl⟩ (by simp only [P3.normSq]; linarith [sin_sq_add_cos_sq (lon v1.2)])
        (by simp only [P3.normSq]; linarith [sin_sq_add_cos_sq (lon v2.2)]) (by simp only [P3.normSq]; linarith [sin_sq_add_cos_sq (lon v3.2)])
      simp only [P3.normSq, P3.add_x, P3.add_y, P3.add_z, P3.smul_x, P3.smul_y, P3.smul_z, mul_zero, add_zero] at this
      rw [hP, hZ]; linarith
    have PZ0 : cos (π / N) ≤ √(P ^ 2 + Z ^ 2) := by
      have h := axisDist_ge (p := ⟨P, Z, 0⟩) (lon b + π / N)
      have c := fun v (hv : v = b ∨ v = b + 1) => cos_lon_eq (show 2 ≤ N by omega) b hv
      have c1 := c _ fb1
      have c2 := c _ fb2
      have c3 := c _ fb3
      rw [cos_sub] at c1 c2 c3
      refine le_trans (le_of_eq ?_) h
      simp only
      rw [hP, hZ]
      linear_combination (-w1) * c1 - w2 * c2 - w3 * c3 - cos (π / N) * hw
    have hRP : (R + r * P) = w1 * (R + r * cos (lon v1.2)) + w2 * (R + r * cos (lon v2.2)) + w3 * (R + r * cos (lon v3.2)) := by
      rw [hP]; linear_combination (-R) * hw
    have RP0 : 0 ≤ R + r * P := by
      rw [hRP]
      have := (hpos (lon v1.2)).le
      have := (hpos (lon v2.2)).le
      have := (hpos (lon v3.2)).le
      positivity
    have P1 : P ≤ 1 := by nlinarith [sq_nonneg Z, sq_nonneg (P - 1)]
    -- distance from the axis
    have A1 : axisDist q ≤ R + r * P := by
      rw [axisDist_le_iff RP0]
      obtain ⟨u, hu1, hu2⟩ := exists_polar q.x q.y
      set ρ := √(q.x ^ 2 + q.y ^ 2) with hρ
      have ρ0 : 0 ≤ ρ := sqrt_nonneg _
      have e : ρ ^ 2 = q.x ^ 2 + q.y ^ 2 := sq_sqrt (by positivity)
      rw [← e]
      have l : ρ ≤ R + r * P := by
        have : ρ = cos u * q.x + sin u * q.y := by
          have := sin_sq_add_cos_sq u
          linear_combination (-ρ) * this - cos u * hu1 - sin u * hu2
        rw [this, hRP, hq]
        simp only [torusVertex, torusPoint, P3.add_x, P3.add_y, P3.smul_x, P3.smul_y]
        have k : ∀ (v : ZMod L × ZMod N) {w : ℝ}, 0 ≤ w → w * ((R + r * cos (lon v.2)) * cos (lon v.1 - u)) ≤ w * (R + r * cos (lon v.2)) := by
          intro v w hw0
          refine mul_le_mul_of_nonneg_left ?_ hw0
          have := cos_le_one (lon v.1 - u)
          nlinarith [hpos (lon v.2)]
        have k1 := k v1 p1
        have k2 := k v2 p2
        have k3 := k v3 p3
        simp only [cos_sub] at k1 k2 k3
        unfold lon at *
        linarith
      exact pow_le_pow_left₀ ρ0 l 2
    have A0 : cos (π / L) * (R + r * P) ≤ axisDist q := by
      have h := axisDist_ge (p := q) (lon a + π / L)
      refine le_trans (le_of_eq ?_) h
      have c := fun v (hv : v = a ∨ v = a + 1) => cos_lon_eq (show 2 ≤ L by omega) a hv
      have c1 := c _ fa1
      have c2 := c _ fa2
      have c3 := c _ fa3
      rw [cos_sub] at c1 c2 c3
      rw [hRP, hq]
      simp only [torusVertex, torusPoint, P3.add_x, P3.add_y, P3.smul_x, P3.smul_y]
      change cos (π / L) * (w1 * (R + r * cos (lon v1.2)) + w2 * (R + r * cos (lon v2.2)) + w3 * (R + r * cos (lon v3.2))) =
        cos (lon a + π / L) * (w1 * ((R + r * cos (lon v1.2)) * cos (lon v1.1)) + w2 * ((R + r * cos (lon v2.2)) * cos (lon v2.1)) +
          w3 * ((R + r * cos (lon v3.2)) * cos (lon v3.1))) +
        sin (lon a + π / L) * (w1 * ((R + r * cos (lon v1.2)) * sin (lon v1.1)) + w2 * ((R + r * cos (lon v2.2)) * sin (lon v2.1)) +
          w3 * ((R + r * cos (lon v3.2)) * sin (lon v3.1)))
      linear_combination (-(w1 * (R + r * cos (lon v1.2)))) * c1 - (w2 * (R + r * cos (lon v2.2))) * c2 - (w3 * (R + r * cos (lon v3.2))) * c3
    have key := tri (axisDist q - R) q.z (r * P) (r * Z)
    have e1 : √((r * P) ^ 2 + (r * Z) ^ 2) = r * √(P ^ 2 + Z ^ 2) := by
      rw [show (r * P) ^ 2 + (r * Z) ^ 2 = r ^ 2 * (P ^ 2 + Z ^ 2) by ring, sqrt_mul (by positivity), sqrt_sq hr.le]
    have e2 : √((axisDist q - R - r * P) ^ 2 + (q.z - r * Z) ^ 2) = |axisDist q - R - r * P| := by
      rw [qz, sub_self, ← sqrt_sq_eq_abs]; congr 1; ring
    rw [e1, e2] at key
    have b1 : |axisDist q - R - r * P| ≤ (R + r) * (1 - cos (π / L)) := by
      have x1 : R + r * P ≤ R + r := by nlinarith
      have x2 : (1 - cos (π / L)) * (R + r * P) ≤ (1 - cos (π / L)) * (R + r) := mul_le_mul_of_nonneg_left x1 (by linarith)
      have x3 : 0 ≤ (1 - cos (π / L)) * (R + r) := mul_nonneg (by linarith) (by linarith)
      rw [abs_le]; constructor <;> linarith
    have PZ1' : √(P ^ 2 + Z ^ 2) ≤ 1 := by
      have := sqrt_le_sqrt PZ1
      rwa [sqrt_one] at this
    have hd : √((axisDist q - R) ^ 2 + q.z ^ 2) = ringDist R q := rfl
    rw [hd] at key
    obtain ⟨k1, k2⟩ := abs_le.1 (key.trans b1)
    have m1 := mul_le_mul_of_nonneg_left PZ1' hr.le
    have m2 := mul_le_mul_of_nonneg_left PZ0 hr.le
    have m3 : 0 ≤ r * (1 - cos (π / N)) := mul_nonneg hr.le (by linarith)
    rw [abs_le]; constructor <;> linarith
  · intro p hp
    obtain ⟨u, hx1, hy1⟩ := exists_polar p.x p.y
    obtain ⟨v, hx2, hy2⟩ := exists_polar (axisDist p - R) p.z
    have e0 : √((axisDist p - R) ^ 2 + p.z ^ 2) = r := hp
    rw [e0] at hx2 hy2
    have e1 : √(p.x ^ 2 + p.y ^ 2) = axisDist p := rfl
    rw [e1, show axisDist p = R + r * cos v by linarith] at hx1 hy1
    obtain ⟨a, x', x0, x1, eu1, eu2⟩ := exists_lon (show 1 ≤ L by omega) u
    obtain ⟨b, y', y0, y1, ev1, ev2⟩ := exists_lon (show 1 ≤ N by omega) v
    have L0 : (3 : ℝ) ≤ L := by exact_mod_cast hL
    have N0 : (3 : ℝ) ≤ N := by exact_mod_cast hN
    obtain ⟨s, g, s0, s1, g0, g1, gc, gs⟩ := exists_chord (θ := lon a) (d := 2 * π / L) (x := x') (by positivity)
      (by rw [div_lt_iff₀ (by linarith)]; nlinarith) x0 x1
    obtain ⟨t, g', t0, t1, g0', g1', gc', gs'⟩ := exists_chord (θ := lon b) (d := 2 * π / N) (x := y') (by positivity)
      (by rw [div_lt_iff₀ (by linarith)]; nlinarith) y0 y1
    rw [show 2 * π / (L : ℝ) / 2 = π / L by ring] at g0
    rw [show 2 * π / (N : ℝ) / 2 = π / N by ring] at g0'
    obtain ⟨ns, nc⟩ := sin_cos_next (show 2 ≤ L by omega) a
    obtain ⟨ns', nc'⟩ := sin_cos_next (show 2 ≤ N by omega) b
    obtain ⟨T, hT, hin⟩ := torus_cell_cover hr hR a b (w1 := s * (1 - t)) (w2 := s * t) (w3 := (1 - s) * t) (w4 := (1 - s) * (1 - t))
      (mul_nonneg s0 (by linarith)) (mul_nonneg s0 t0) (mul_nonneg (by linarith) t0) (mul_nonneg (by linarith) (by linarith)) (by ring)
    refine ⟨_, List.mem_map.2 ⟨T, List.mem_flatMap.2 ⟨(a, b), torusCells_all _ _ _, hT⟩, rfl⟩, _, hin, ?_⟩
    have hpt : (s * (1 - t)) • torusVertex R r L N (a + 1, b) + (s * t) • torusVertex R r L N (a + 1, b + 1) + ((1 - s) * t) • torusVertex R r L N (a, b + 1) +
        ((1 - s) * (1 - t)) • torusVertex R r L N (a, b) =
        ⟨(R + r * (g' * cos v)) * (g * cos u), (R + r * (g' * cos v)) * (g * sin u), r * (g' * sin v)⟩ := by
      rw [eu1, eu2, ev1, ev2, ← gc, ← gs, ← gc', ← gs']
      ext <;> simp only [torusVertex, torusPoint, P3.add_x, P3.add_y, P3.add_z, P3.smul_x, P3.smul_y, P3.smul_z, ns, nc, ns', nc', lon] <;> ring
    rw [hpt]
    have cv := abs_le.1 (abs_cos_le_one v)
    set D1 := R + r * cos v - (R + r * (g' * cos v)) * g with hD1
    set D2 := r * (1 - g') with hD2
    have g0p : 0 < g := lt_of_lt_of_le cL g0
    have g0p' : 0 < g' := lt_of_lt_of_le cN g0'
    have nrm : (p - ⟨(R + r * (g' * cos v)) * (g * cos u), (R + r * (g' * cos v)) * (g * sin u), r * (g' * sin v)⟩ : P3 ℝ).normSq =
        D1 ^ 2 + (D2 * sin v) ^ 2 := by
      simp only [P3.normSq, P3.sub_x, P3.sub_y, P3.sub_z]
      rw [hx1, hy1, hy2, hD1, hD2]
      linear_combination (R + r * cos v - (R + r * (g' * cos v)) * g) ^ 2 * sin_sq_add_cos_sq u
    have D20 : 0 ≤ D2 := mul_nonneg hr.le (by linarith)
    have E : D1 = (R + r * (g' * cos v)) * (1 - g) + D2 * cos v := by rw [hD1, hD2]; ring
    set X := (R + r * (g' * cos v)) * (1 - g) with hX
    have gcv : g' * cos v ≤ 1 := (mul_le_of_le_one_right g0p'.le cv.2).trans g1'
    have gcv' : -1 ≤ g' * cos v := by
      have := mul_le_mul_of_nonneg_left cv.1 g0p'.le
      linarith
    have rg1 := mul_le_mul_of_nonneg_left gcv hr.le
    have rg2 := mul_le_mul_of_nonneg_left gcv' hr.le
    have y1 : 0 ≤ R + r * (g' * cos v) := by linarith only [rg2, hR]
    have y2 : R + r * (g' * cos v) ≤ R + r := by linarith only [rg1]
    have y3 : 0 ≤ 1 - g := by linarith only [g1]
    have y4 : 1 - g ≤ 1 - cos (π / L) := by linarith only [g0]
    have X0 : 0 ≤ X := mul_nonneg y1 y3
    have X1 : X ≤ (R + r) * (1 - cos (π / L)) := mul_le_mul y2 y4 y3 (by positivity)
    have D21 : D2 ≤ r * (1 - cos (π / N)) := mul_le_mul_of_nonneg_left (by linarith) hr.le
    refine le_trans ?_ (add_le_add X1 D21)
    rw [norm_le_iff (by linarith), nrm, E]
    have hv := sin_sq_add_cos_sq v
    have : X * D2 * cos v ≤ X * D2 := mul_le_of_le_one_right (mul_nonneg X0 D20) cv.2
    have e : (X + D2 * cos v) ^ 2 + (D2 * sin v) ^ 2 = X ^ 2 + 2 * (X * D2 * cos v) + D2 ^ 2 := by
      linear_combination D2 ^ 2 * hv
    rw [e]
    linarith

/-- the point of the circle in the middle of the torus that is next to `p` -/
noncomputable def ringFoot (R : ℝ) (p : P3 ℝ) : P3 ℝ := ⟨R * p.x / axisDist p, R * p.y / axisDist p, 0⟩

theorem ringFoot_torusPoint {R r : ℝ} (hr : 0 < r) (hR : r < R) (u v : ℝ) : ringFoot R (torusPoint R r u v) = ⟨R * cos u, R * sin u, 0⟩ := by
  have hpos : 0 < R + r * cos v := by
    have := neg_one_le_cos v
    nlinarith
  have e : axisDist (torusPoint R r u v) = R + r * cos v := by
    rw [axisDist]
    have : (torusPoint R r u v).x ^ 2 + (torusPoint R r u v).y ^ 2 = (R + r * cos v) ^ 2 := by
      simp only [torusPoint]
      linear_combination (R + r * cos v) ^ 2 * sin_sq_add_cos_sq u
    rw [this, sqrt_sq hpos.le]
  unfold ringFoot
  rw [e]
  simp only [torusPoint]
  ext
  · simp only; field_simp
  · simp only; field_simp
  · rfl

/-- normal of the plane of a cell of the torus -/
noncomputable def torusNormal {L N : Nat} (a : ZMod L) (b : ZMod N) : P3 ℝ :=
  ⟨cos (lon b + π / N) * cos (lon a + π / L) / cos (π / L), cos (lon b + π / N) * sin (lon a + π / L) / cos (π / L), sin (lon b + π / N)⟩

theorem torusNormal_dot {R r : ℝ} {L N : Nat} (hL : 3 ≤ L) (hN : 3 ≤ N) (a : ZMod L) (b : ZMod N) {v : ZMod L × ZMod N} (h1 : v.1 = a ∨ v.1 = a + 1)
    (h2 : v.2 = b ∨ v.2 = b + 1) : (torusNormal a b).dot (torusVertex R r L N v) = R * cos (lon b + π / N) + r * cos (π / N) ∧
      (torusNormal a b).dot ⟨R * cos (lon v.1), R * sin (lon v.1), 0⟩ = R * cos (lon b + π / N) := by
  have c1 := cos_lon_eq (show 2 ≤ L by omega) a h1
  have c2 := cos_lon_eq (show 2 ≤ N by omega) b h2
  have c0 := (cos_step_pos hL).ne'
  rw [cos_sub] at c1 c2
  constructor
  · simp only [torusNormal, torusVertex, torusPoint, P3.dot]
    change cos (lon b + π / N) * cos (lon a + π / L) / cos (π / L) * ((R + r * cos (lon v.2)) * cos (lon v.1)) +
      cos (lon b + π / N) * sin (lon a + π / L) / cos (π / L) * ((R + r * cos (lon v.2)) * sin (lon v.1)) + sin (lon b + π / N) * (r * sin (lon v.2)) = _
    generalize cos (π / L) = c at *
    generalize cos (lon b + π / N) = cb at *
    generalize sin (lon b + π / N) = sb at *
    generalize cos (lon a + π / L) = ca at *
    generalize sin (lon a + π / L) = sa at *
    rw [← c2]
    field_simp
    linear_combination (cb * (R + r * cos (lon v.2))) * c1
  · simp only [torusNormal, P3.dot]
    generalize cos (π / L) = c at *
    generalize cos (lon b + π / N) = cb at *
    generalize sin (lon b + π / N) = sb at *
    generalize cos (lon a + π / L) = ca at *
    generalize sin (lon a + π / L) = sa at *
    field_simp
    linear_combination cb * R * c1

/-- **C121** torus: every triangle faces away from the circle in the middle of the tube -/
theorem torus_outward {R r : ℝ} (hr : 0 < r) (hR : r < R) {n : Int} (hn : 1 ≤ n) (m : Mesh ℝ) :
    ∃ x, createTorus R r n m = some x ∧ ∀ t ∈ x.triangles, 0 < (t.p1 - ringFoot R t.p1).dot t.orthogonal ∧
      0 < (t.p2 - ringFoot R t.p2).dot t.orthogonal ∧ 0 < (t.p3 - ringFoot R t.p3).dot t.orthogonal := by
  obtain ⟨x, hx, -⟩ := torus_spec R r n hn m
  refine ⟨x, hx, ?_⟩
  lift n to Nat using (by omega)
  rw [torus_triangles_all R r m hx]
  clear hx
  generalize hL0 : 2 + 4 * n = L
  generalize hN0 : 6 + 2 * n = N
  have hL : 3 ≤ L := by omega
  have hN : 3 ≤ N := by omega
  have : NeZero L := ⟨by omega⟩
  have : NeZero N := ⟨by omega⟩
  have hpos : ∀ v, 0 < R + r * cos v := by
    intro v
    have := neg_one_le_cos v
    nlinarith
  intro t0 ht0
  obtain ⟨t, ht1, rfl⟩ := List.mem_map.1 ht0
  obtain ⟨⟨a, b⟩, hc, ht⟩ := List.mem_flatMap.1 ht1
  have form := torusCell_form ht
  obtain ⟨d1, k1⟩ := torusNormal_dot (R := R) (r := r) hL hN a b (form t.1 (.inl rfl)).1 (form t.1 (.inl rfl)).2
  obtain ⟨d2, k2⟩ := torusNormal_dot (R := R) (r := r) hL hN a b (form t.2.1 (.inr (.inl rfl))).1 (form t.2.1 (.inr (.inl rfl))).2
  obtain ⟨d3, k3⟩ := torusNormal_dot (R := R) (r := r) hL hN a b (form t.2.2 (.inr (.inr rfl))).1 (form t.2.2 (.inr (.inr rfl))).2
  set T : Tri3 ℝ := ⟨torusVertex R r L N t.1, torusVertex R r L N t.2.1, torusVertex R r L N t.2.2⟩ with hT
  have hs : Supports (torusNormal a b) (R * cos (lon b + π / N) + r * cos (π / N)) T := ⟨d1, d2, d3⟩
  have foot : ∀ v : ZMod L × ZMod N, ringFoot R (torusVertex R r L N v) = ⟨R * cos (lon v.1), R * sin (lon v.1), 0⟩ := fun v => ringFoot_torusPoint hr hR _ _
  -- the first corner by computation
  have first : 0 < (T.p1 - ringFoot R T.p1).dot T.orthogonal := by
    have hsL := sin_step_pos hL
    have hsN := sin_step_pos hN
    have eL := sin_next (show 2 ≤ L by omega) a
    have eN := sin_next (show 2 ≤ N by omega) b
    simp only at eL eN
    rw [hT]
    simp only [foot]
    simp only [torusCell, quadT, List.mem_cons, List.not_mem_nil, or_false, Prod.mk_add_mk, add_zero, zero_add] at ht
    rcases ht with rfl | rfl
    · simp only [torusVertex, torusPoint, Tri3.orthogonal, P3.dot, P3.cross, P3.sub_x, P3.sub_y, P3.sub_z]
      change 0 < ((R + r * cos (lon b)) * cos (lon (a + 1)) - R * cos (lon (a + 1))) * _ + _ + _
      have p : 0 < r ^ 2 * sin (2 * π / N) * (R + r * cos (lon (b + 1))) * sin (2 * π / L) := by
        have := hpos (lon (b + 1)); positivity
      rw [← eL, ← eN] at p
      refine lt_of_lt_of_eq p ?_
      unfold lon
      generalize ((a + 1).val : ℝ) / L * 2 * π = u'
      generalize (a.val : ℝ) / L * 2 * π = u
      generalize ((b + 1).val : ℝ) / N * 2 * π = v'
      generalize (b.val : ℝ) / N * 2 * π = v
      ring
    · simp only [torusVertex, torusPoint, Tri3.orthogonal, P3.dot, P3.cross, P3.sub_x, P3.sub_y, P3.sub_z]
      change 0 < ((R + r * cos (lon (b + 1))) * cos (lon a) - R * cos (lon a)) * _ + _ + _
      have p : 0 < r ^ 2 * sin (2 * π / N) * (R + r * cos (lon b)) * sin (2 * π / L) := by
        have := hpos (lon b); positivity
      rw [← eL, ← eN] at p
      refine lt_of_lt_of_eq p ?_
      unfold lon
      generalize ((a + 1).val : ℝ) / L * 2 * π = u'
      generalize (a.val : ℝ) / L * 2 * π = u
      generalize ((b + 1).val : ℝ) / N * 2 * π = v'
      generalize (b.val : ℝ) / N * 2 * π = v
      ring
  have hc := cos_step_pos hN
  have hrc : 0 < r * cos (π / N) := mul_pos hr hc
  have q1 := hs.parallel (ringFoot R T.p1)
  have q2 := hs.parallel (ringFoot R T.p2)
  have q3 := hs.parallel (ringFoot R T.p3)
  rw [show ringFoot R T.p1 = _ from foot t.1, k1] at q1
  rw [show ringFoot R T.p2 = _ from foot t.2.1, k2] at q2
  rw [show ringFoot R T.p3 = _ from foot t.2.2, k3] at q3
  rw [← foot] at q1 q2 q3
  have hn0 : (torusNormal a b).normSq ≠ 0 := by
    intro h0
    have h0' : (torusNormal a b).x ^ 2 + (torusNormal a b).y ^ 2 + (torusNormal a b).z ^ 2 = 0 := by
      rw [← h0, P3.normSq]; ring
    have hx : (torusNormal a b).x = 0 := by nlinarith [sq_nonneg (torusNormal a b).x, sq_nonneg (torusNormal a b).y, sq_nonneg (torusNormal a b).z]
    have hy : (torusNormal a b).y = 0 := by nlinarith [sq_nonneg (torusNormal a b).x, sq_nonneg (torusNormal a b).y, sq_nonneg (torusNormal a b).z]
    have hz : (torusNormal a b).z = 0 := by nlinarith [sq_nonneg (torusNormal a b).x, sq_nonneg (torusNormal a b).y, sq_nonneg (torusNormal a b).z]
    simp only [P3.dot, hx, hy, hz, zero_mul, add_zero] at d1 k1
    linarith
  have a2 := mul_left_cancel₀ hn0 (q2.trans q1.symm)
  have a3 := mul_left_cancel₀ hn0 (q3.trans q1.symm)
  have b2 : (T.p2 - T.p1).dot T.orthogonal = 0 := by
    simp only [Tri3.orthogonal, P3.dot, P3.cross, P3.sub_x, P3.sub_y, P3.sub_z]; ring
  have b3 : (T.p3 - T.p1).dot T.orthogonal = 0 := by
    simp only [Tri3.orthogonal, P3.dot, P3.cross, P3.sub_x, P3.sub_y, P3.sub_z]; ring
  have key : ∀ p f : P3 ℝ, (p - f).dot T.orthogonal = (p - T.p1).dot T.orthogonal - (f - T.p1).dot T.orthogonal := by
    intro p f
    simp only [P3.dot, P3.sub_x, P3.sub_y, P3.sub_z]; ring
  have first' := first
  rw [key] at first'
  have z1 : (T.p1 - T.p1).dot T.orthogonal = 0 := by
    simp only [P3.dot, P3.sub_x, P3.sub_y, P3.sub_z]; ring
  refine ⟨first, ?_, ?_⟩
  · rw [key, b2, show (ringFoot R T.p2 - T.p1).dot T.orthogonal = _ from a2]
    rw [z1] at first'
    exact first'
  · rw [key, b3, show (ringFoot R T.p3 - T.p1).dot T.orthogonal = _ from a3]
    rw [z1] at first'
    exact first'

/-- a ring with `R = 3`, `r = 1`, `n = 5`: the mesh and the true torus are within 0.1 -/
example : ∃ x, createTorus (3 : ℝ) 1 5 Mesh.new = some x ∧ (∀ t ∈ x.triangles, ∀ q, InTriangle t q → |ringDist 3 q - 1| ≤ 1 / 10) ∧
    (∀ p, ringDist 3 p = 1 → ∃ t ∈ x.triangles, ∃ q, InTriangle t q ∧ (p - q).norm ≤ 1 / 10) := by
  obtain ⟨he, x, hx, h1, h2⟩ := torus_accuracy (R := 3) (r := 1) (by norm_num) (by norm_num) (n := 5) (by norm_num) Mesh.new
  have hp : π ^ 2 ≤ 10 := by have := pi_lt_d2; have := pi_pos; nlinarith
  have hb := he.trans (b := (3 + 5 * 1) * π ^ 2 / (32 * ((5 : Int) : ℝ) ^ 2)) (c := 1 / 10) (by push_cast; linarith)
  exact ⟨x, hx, fun t ht q hq => (h1 t ht q hq).trans hb, fun p hp => by
    obtain ⟨t, ht, q, hq, h⟩ := h2 p hp
    exact ⟨t, ht, q, hq, h.trans hb⟩⟩

/-- the wall of the true cylinder of height 2 and radius 1 has the point (0, 1, 1/2) -/
example : OnCylinder 2 1 ⟨0, 1, 1 / 2⟩ := by
  refine .inl ⟨?_, ?_⟩
  · simp [axisDist]
  · rw [abs_of_nonneg] <;> norm_num

example : ∃ x, createCylinder (2 : ℝ) 1 5 Mesh.new = some x ∧ ∃ t ∈ x.triangles, ∃ q, InTriangle t q ∧ ((⟨0, 1, 1 / 2⟩ : P3 ℝ) - q).norm ≤ 1 / 80 := by
  obtain ⟨he, x, hx, h1, h2⟩ := cylinder_accuracy (h := 2) (r := 1) (by norm_num) (by norm_num) (n := 5) (by norm_num) Mesh.new
  have hp : π ^ 2 ≤ 10 := by have := pi_lt_d2; have := pi_pos; nlinarith
  have hb := he.trans (b := 1 * π ^ 2 / (32 * ((5 : Int) : ℝ) ^ 2)) (c := 1 / 80) (by push_cast; linarith)
  obtain ⟨t, ht, q, hq, h⟩ := h2 ⟨0, 1, 1 / 2⟩ (.inl ⟨by simp [axisDist], by rw [abs_of_nonneg] <;> norm_num⟩)
  exact ⟨x, hx, t, ht, q, hq, h.trans hb⟩

end Factory
end CAD
