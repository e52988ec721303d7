import Verif.Props.FactoryMeasured
import Verif.Props.RoundAccuracyMore

/-! C124, C125: the solids of `MeshFactory` in `double`, and their measurements in `double`. -/

namespace CAD
namespace Factory
open Nurbs Rounded Real Transform

/-! ### The meshes -/

theorem Polyhedron.close {V E F : Nat} {d : ℝ} {A B : Mesh ℝ} (p : Polyhedron V E F A) (c : Close d A B) : Polyhedron V E F B := by
  have n := c.meshNear
  refine ⟨c.ok p.ok, by rw [n.nbVertices, p.vertices], by rw [n.nbTriangles, p.triangles], fun i h0 h1 => ?_, by rw [n.cornerList]; exact p.closed,
    by rw [n.cornerList]; exact p.edges⟩
  rw [n.unlinked]
  exact p.linked i h0 (by rwa [n.nbTriangles] at h1)

theorem near_ids {d : ℝ} {A B : Mesh ℝ} (n : MeshNear d A B) {i : Int} {q : P3 ℝ} (h : B.getVertex i = some q) : ∃ p, A.getVertex i = some p ∧ Near d p q := by
  obtain ⟨p, hp⟩ : ∃ p, A.getVertex i = some p := by
    have e := n.nbVertices
    rw [(Mesh.answers_view B).getVertex] at h
    obtain ⟨k, rfl, hk⟩ := getI_eq_some_iff.1 h
    have hk' : k < B.kern.verts.length := (List.getElem?_eq_some_iff.1 hk).1
    have e' : (B.kern.verts.length : Int) = A.kern.verts.length := e
    refine ⟨A.kern.verts[k]'(by omega), ?_⟩
    rw [(Mesh.answers_view A).getVertex]
    exact getI_eq_some_iff.2 ⟨k, rfl, List.getElem?_eq_getElem (l := A.kern.verts) (by omega)⟩
  obtain ⟨q', hq', hn⟩ := n.vertex i p hp
  rw [h, Option.some.injEq] at hq'
  subst hq'
  exact ⟨p, hp, hn⟩

theorem u_ge : (1 / 100000000000000000000 : ℝ) ≤ 2 ^ (-53 : ℤ) := by norm_num

variable {C S : ℝ → ℝ}

/-- C124, `create_sphere_uv` in `double` -/
theorem sphere_uv_double (T : LibTrig (2 ^ (-53 : ℤ)) C S) {r : ℝ} (h0 : 2 ^ (-1000 : ℤ) ≤ r) (h1 : r ≤ 2 ^ (1001 : ℤ)) {n : Int} (hn : 1 ≤ n) (m : Mesh ℝ) :
    let L := 2 + 4 * n
    let M := 1 + 2 * n
    ∃ x x', createSphereUv r n m = some x ∧ createSphereUvR double C S r n m = some x' ∧
      Polyhedron (L * M + 2).toNat (3 * (L * M)).toNat (2 * (L * M)).toNat x' ∧ MeshNear (115 * (2 ^ (-53 : ℤ) * r)) x x' ∧
      ∀ i p, x'.getVertex i = some p → |p.norm - r| ≤ 230 * (2 ^ (-53 : ℤ) * r) := by
  intro L M
  have r0 : 0 < r := lt_of_lt_of_le (by positivity) h0
  obtain ⟨x, hx, hp, -, -, -, hv, -⟩ := sphere_uv_spec r n hn m
  obtain ⟨x', hx', hc⟩ := sphere_close double_at_one (double_at h0 h1) T u_ge (r := r) (abs_of_pos r0).le (by omega) m x hx
  refine ⟨x, x', hx, hx', hp.close hc, hc.meshNear, fun i q hq => ?_⟩
  obtain ⟨p, hp, hn⟩ := near_ids hc.meshNear hq
  have e : p.norm = r := by rw [P3.norm_eq, hv i p hp, sqrt_sq r0.le]
  have a := Rounded.norm_add_le p (q - p)
  rw [show p + (q - p) = q by ext <;> simp] at a
  have b := Rounded.norm_sub_le q (q - p)
  rw [show q - (q - p) = p by ext <;> simp] at b
  have := hn.norm
  rw [abs_le]
  constructor <;> linarith

/-- C124, `create_torus` in `double` -/
theorem torus_double (T : LibTrig (2 ^ (-53 : ℤ)) C S) {R r : ℝ} (h0 : 2 ^ (-1000 : ℤ) ≤ |R| + |r|) (h1 : |R| + |r| ≤ 2 ^ (1001 : ℤ)) {n : Int} (hn : 1 ≤ n) (m : Mesh ℝ) :
    let L := 2 + 4 * n
    let N := 6 + 2 * n
    ∃ x x', createTorus R r n m = some x ∧ createTorusR double C S R r n m = some x' ∧
      Polyhedron (L * N).toNat (3 * (L * N)).toNat (2 * (L * N)).toNat x' ∧ MeshNear (115 * (2 ^ (-53 : ℤ) * (|R| + |r|))) x x' := by
  intro L N
  obtain ⟨x, hx, hp, -⟩ := torus_spec R r n hn m
  obtain ⟨x', hx', hc⟩ := torus_close double_at_one (double_at h0 h1) T u_ge (R := R) (r := r) le_rfl (by omega) m x hx
  exact ⟨x, x', hx, hx', hp.close hc, hc.meshNear⟩

/-- C124, `create_cylinder` in `double`: the same triangles as exactly, including the two degenerate
ones; the others are closed -/
theorem cylinder_double (T : LibTrig (2 ^ (-53 : ℤ)) C S) {h r s : ℝ} (h0 : 2 ^ (-1000 : ℤ) ≤ s) (h1 : s ≤ 2 ^ (1001 : ℤ)) (hr : |r| ≤ s) (hh : |h| ≤ 2 * s)
    {n : Int} (hn : 1 ≤ n) (m : Mesh ℝ) :
    let L := 2 + 4 * n
    ∃ x x', createCylinder h r n m = some x ∧ createCylinderR double C S h r n m = some x' ∧ x'.OK ∧
      (∃ fs, x'.cornerList.Perm ((2 * L, 2 * L - 2, 2 * L) :: (2 * L + 1, 2 * L + 1, 2 * L - 1) :: fs) ∧ ClosedIds fs) ∧
      MeshNear (100 * (2 ^ (-53 : ℤ) * s)) x x' := by
  intro L
  obtain ⟨x, hx, hok, -, -, ⟨fs, hfs, hcl, -⟩, -⟩ := cylinder_spec_partial h r n hn m
  obtain ⟨x', hx', hc⟩ := cylinder_close double_at_one (double_at h0 h1) T u_ge hr hh (by omega) m x hx
  exact ⟨x, x', hx, hx', hc.ok hok, ⟨fs, by rw [hc.meshNear.cornerList]; exact hfs, hcl⟩, hc.meshNear⟩

/-- C124, `create_dodecahedron`, `create_icosahedron` and `create_box` in `double` -/
theorem platonic_double {s : ℝ} (h0 : 2 ^ (-1000 : ℤ) ≤ s) (h1 : s ≤ 2 ^ (1001 : ℤ)) (m : Mesh ℝ) :
    (∀ d, |d| ≤ s → ∃ x x', createDodecahedron d m = some x ∧ createDodecahedronR double d m = some x' ∧ Polyhedron 20 54 36 x' ∧
      MeshNear (30 * (2 ^ (-53 : ℤ) * s)) x x') ∧
    (∀ d, |d| ≤ s → ∃ x x', createIcosahedron d m = some x ∧ Rounded.createIcosahedron double d m = some x' ∧ Polyhedron 12 30 20 x' ∧
      MeshNear (30 * (2 ^ (-53 : ℤ) * s)) x x') ∧
    (∀ a b c, |a| ≤ 2 * s → |b| ≤ 2 * s → |c| ≤ 2 * s → ∃ x x', createBox a b c m = some x ∧ createBoxR double a b c m = some x' ∧ Polyhedron 8 18 12 x' ∧
      MeshNear (2 * (2 ^ (-53 : ℤ) * s)) x x') := by
  have F := double_at h0 h1
  refine ⟨fun d hd => ?_, fun d hd => ?_, fun a b c ha hb hc => ?_⟩
  · obtain ⟨x, hx, hp, -⟩ := dodecahedron_spec d m
    obtain ⟨x', hx', hc⟩ := dodecahedron_close double_at_one F hd m x hx
    exact ⟨x, x', hx, hx', hp.close hc, hc.meshNear⟩
  · obtain ⟨x, hx, hp, -⟩ := icosahedron_spec d m
    obtain ⟨x', hx', hc⟩ := icosahedron_close double_at_one F hd m x hx
    exact ⟨x, x', hx, hx', hp.close hc, hc.meshNear⟩
  · obtain ⟨x, hx, hp, -⟩ := box_spec a b c m
    obtain ⟨x', hx', hc'⟩ := box_close F ha hb hc m x hx
    exact ⟨x, x', hx, hx', hp.close hc', hc'.meshNear⟩

/-! ### Short edges -/

theorem chord_le (x y : ℝ) : (cos x - cos y) ^ 2 + (sin x - sin y) ^ 2 ≤ (x - y) ^ 2 := by
  have a := sin_sq_add_cos_sq x
  have b := sin_sq_add_cos_sq y
  have c := one_sub_sq_div_two_le_cos (x := x - y)
  rw [cos_sub] at c
  nlinarith

theorem chord_lon {L : Nat} (hL : 2 ≤ L) {a b c : ZMod L} (hb : b = a ∨ b = a + 1) (hc : c = a ∨ c = a + 1) :
    (cos (lon b) - cos (lon c)) ^ 2 + (sin (lon b) - sin (lon c)) ^ 2 ≤ (2 * π / L) ^ 2 := by
  obtain ⟨ns, nc⟩ := sin_cos_next hL a
  have ns : sin (lon (a + 1)) = sin (lon a + 2 * π / L) := ns
  have nc : cos (lon (a + 1)) = cos (lon a + 2 * π / L) := nc
  have p : 0 ≤ (2 * π / L) ^ 2 := by positivity
  have q := chord_le (lon a) (lon a + 2 * π / L)
  have q' := chord_le (lon a + 2 * π / L) (lon a)
  rcases hb with rfl | rfl <;> rcases hc with rfl | rfl
  · simpa using p
  · rw [ns, nc]; exact q.trans (le_of_eq (by ring))
  · rw [ns, nc]; exact q'.trans (le_of_eq (by ring))
  · simpa using p

theorem sphere_step {r u v u' v' a b : ℝ} (hr : 0 ≤ r) (ha : 0 ≤ a) (hb : 0 ≤ b) (hu : (cos u - cos u') ^ 2 + (sin u - sin u') ^ 2 ≤ a ^ 2)
    (hv : (cos v - cos v') ^ 2 + (sin v - sin v') ^ 2 ≤ b ^ 2) : (spherePoint r u v - spherePoint r u' v').norm ≤ r * a + r * b := by
  have t := Rounded.norm_add_le (spherePoint r u v - spherePoint r u' v) (spherePoint r u' v - spherePoint r u' v')
  rw [show (spherePoint r u v - spherePoint r u' v) + (spherePoint r u' v - spherePoint r u' v') = spherePoint r u v - spherePoint r u' v' by ext <;> simp] at t
  refine t.trans (add_le_add ((norm_le_iff (by positivity)).2 ?_) ((norm_le_iff (by positivity)).2 ?_))
  · have s := sin_sq_add_cos_sq v
    have e : (spherePoint r u v - spherePoint r u' v).normSq = r ^ 2 * (sin v ^ 2 * ((cos u - cos u') ^ 2 + (sin u - sin u') ^ 2)) := by
      simp only [spherePoint, P3.normSq, P3.sub_x, P3.sub_y, P3.sub_z]; ring
    rw [e, mul_pow]
    refine mul_le_mul_of_nonneg_left ?_ (sq_nonneg r)
    have : 0 ≤ cos v ^ 2 * ((cos u - cos u') ^ 2 + (sin u - sin u') ^ 2) := by positivity
    nlinarith
  · have s := sin_sq_add_cos_sq u'
    have e : (spherePoint r u' v - spherePoint r u' v').normSq = r ^ 2 * ((cos v - cos v') ^ 2 + (sin v - sin v') ^ 2 * (sin u' ^ 2 + cos u' ^ 2)) := by
      simp only [spherePoint, P3.normSq, P3.sub_x, P3.sub_y, P3.sub_z]; ring
    rw [e, s, mul_one, mul_pow]
    exact mul_le_mul_of_nonneg_left hv (sq_nonneg r)

theorem torus_step {R r u v u' v' a b : ℝ} (hR : 0 ≤ R) (hr : 0 ≤ r) (ha : 0 ≤ a) (hb : 0 ≤ b) (hu : (cos u - cos u') ^ 2 + (sin u - sin u') ^ 2 ≤ a ^ 2)
    (hv : (cos v - cos v') ^ 2 + (sin v - sin v') ^ 2 ≤ b ^ 2) : (torusPoint R r u v - torusPoint R r u' v').norm ≤ (R + r) * a + r * b := by
  have t := Rounded.norm_add_le (torusPoint R r u v - torusPoint R r u' v) (torusPoint R r u' v - torusPoint R r u' v')
  rw [show (torusPoint R r u v - torusPoint R r u' v) + (torusPoint R r u' v - torusPoint R r u' v') = torusPoint R r u v - torusPoint R r u' v' by ext <;> simp] at t
  refine t.trans (add_le_add ((norm_le_iff (by positivity)).2 ?_) ((norm_le_iff (by positivity)).2 ?_))
  · have e : (torusPoint R r u v - torusPoint R r u' v).normSq = (R + r * cos v) ^ 2 * ((cos u - cos u') ^ 2 + (sin u - sin u') ^ 2) := by
      simp only [torusPoint, P3.normSq, P3.sub_x, P3.sub_y, P3.sub_z]; ring
    rw [e, mul_pow]
    refine mul_le_mul ?_ hu (by positivity) (by positivity)
    have := cos_le_one v
    have := neg_one_le_cos v
    rw [sq_le_sq, abs_of_nonneg (show 0 ≤ R + r by positivity), abs_le]
    constructor <;> nlinarith
  · have s := sin_sq_add_cos_sq u'
    have e : (torusPoint R r u' v - torusPoint R r u' v').normSq = r ^ 2 * ((cos v - cos v') ^ 2 * (sin u' ^ 2 + cos u' ^ 2) + (sin v - sin v') ^ 2) := by
      simp only [torusPoint, P3.normSq, P3.sub_x, P3.sub_y, P3.sub_z]; ring
    rw [e, s, mul_one, mul_pow]
    exact mul_le_mul_of_nonneg_left hv (sq_nonneg r)

/-- edges of the UV sphere -/
theorem sphere_edges {r : ℝ} (hr : 0 ≤ r) {n : Nat} (hn : 1 ≤ n) {m x : Mesh ℝ} (hx : createSphereUv r n m = some x) :
    ∀ t ∈ x.triangles, (t.p1 - t.p2).norm ≤ 4 * π * r / (2 + 4 * n) ∧ (t.p1 - t.p3).norm ≤ 4 * π * r / (2 + 4 * n) := by
  have : NeZero (2 + 4 * n) := ⟨by omega⟩
  rw [sphere_triangles r m hx]
  intro t0 ht0
  obtain ⟨t, ht1, rfl⟩ := List.mem_map.1 ht0
  obtain ⟨⟨a, k⟩, hc, ht⟩ := List.mem_flatMap.1 ht1
  obtain ⟨h0, h1⟩ := (ballCells_mem _ _ a k).1 hc
  have form := sphereCell_form (r := r) (M := 1 + 2 * n) (by omega) h0 h1 ht
  have hpi := pi_pos
  have n0 : (0 : ℝ) ≤ n := Nat.cast_nonneg n
  have e1 : ((2 + 4 * n : Nat) : ℝ) = 2 + 4 * n := by push_cast; ring
  have e2 : (((1 + 2 * n : Nat) + 1 : Nat) : ℝ) = 2 + 2 * n := by push_cast; ring
  have key : ∀ v w, (v = t.1 ∨ v = t.2.1 ∨ v = t.2.2) → (w = t.1 ∨ w = t.2.1 ∨ w = t.2.2) →
      (sphereVertex r (2 + 4 * n) (1 + 2 * n) v - sphereVertex r (2 + 4 * n) (1 + 2 * n) w).norm ≤ 4 * π * r / (2 + 4 * n) := by
    intro v w hv hw
    obtain ⟨b, j, hb, hj, ev⟩ := form v hv
    obtain ⟨b', j', hb', hj', ew⟩ := form w hw
    rw [ev, ew]
    have c := chord_lon (show 2 ≤ 2 + 4 * n by omega) hb hb'
    have d : (cos (lat (1 + 2 * n) j) - cos (lat (1 + 2 * n) j')) ^ 2 + (sin (lat (1 + 2 * n) j) - sin (lat (1 + 2 * n) j')) ^ 2 ≤ (π / (2 + 2 * n)) ^ 2 := by
      refine (chord_le _ _).trans ?_
      have s := lat_succ (1 + 2 * n) k
      rw [e2] at s
      have p : 0 ≤ (π / (2 + 2 * n : ℝ)) ^ 2 := by positivity
      rcases hj with rfl | rfl <;> rcases hj' with rfl | rfl
      · simpa using p
      · rw [s]; exact le_of_eq (by ring)
      · rw [s]; exact le_of_eq (by ring)
      · simpa using p
    rw [e1] at c
    refine (sphere_step hr (by positivity) (by positivity) c d).trans ?_
    have q : π / (2 + 2 * n) ≤ 2 * π / (2 + 4 * n) := by
      rw [div_le_div_iff₀ (by positivity) (by positivity)]
      nlinarith
    have := mul_le_mul_of_nonneg_left q hr
    calc _ ≤ r * (2 * π / (2 + 4 * n)) + r * (2 * π / (2 + 4 * n)) := by linarith
      _ = _ := by ring
  exact ⟨key _ _ (by simp) (by simp), key _ _ (by simp) (by simp)⟩

/-- edges of the torus -/
theorem torus_edges {R r : ℝ} (hr : 0 ≤ r) (hR : r ≤ R) {n : Nat} {m x : Mesh ℝ} (hx : createTorus R r n m = some x) :
    ∀ t ∈ x.triangles, (t.p1 - t.p2).norm ≤ 4 * π * (R + r) / (2 + 4 * n) ∧ (t.p1 - t.p3).norm ≤ 4 * π * (R + r) / (2 + 4 * n) := by
  have : NeZero (2 + 4 * n) := ⟨by omega⟩
  rw [torus_triangles_all R r m hx]
  intro t0 ht0
  obtain ⟨t, ht1, rfl⟩ := List.mem_map.1 ht0
  obtain ⟨⟨a, b⟩, hc, ht⟩ := List.mem_flatMap.1 ht1
  have form := torusCell_form ht
  have hpi := pi_pos
  have n0 : (0 : ℝ) ≤ n := Nat.cast_nonneg n
  have e1 : ((2 + 4 * n : Nat) : ℝ) = 2 + 4 * n := by push_cast; ring
  have e2 : ((6 + 2 * n : Nat) : ℝ) = 6 + 2 * n := by push_cast; ring
  have key : ∀ v w, (v = t.1 ∨ v = t.2.1 ∨ v = t.2.2) → (w = t.1 ∨ w = t.2.1 ∨ w = t.2.2) →
      (torusVertex R r (2 + 4 * n) (6 + 2 * n) v - torusVertex R r (2 + 4 * n) (6 + 2 * n) w).norm ≤ 4 * π * (R + r) / (2 + 4 * n) := by
    intro v w hv hw
    obtain ⟨v1, v2⟩ := form v hv
    obtain ⟨w1, w2⟩ := form w hw
    have c := chord_lon (show 2 ≤ 2 + 4 * n by omega) v1 w1
    have d := chord_lon (show 2 ≤ 6 + 2 * n by omega) v2 w2
    rw [e1] at c
    rw [e2] at d
    refine (torus_step (hr.trans hR) hr (by positivity) (by positivity) c d).trans ?_
    have q : 2 * π / (6 + 2 * n) ≤ 2 * (2 * π / (2 + 4 * n)) := by
      rw [mul_div_assoc', div_le_div_iff₀ (by positivity) (by positivity)]
      nlinarith
    have q1 := mul_le_mul_of_nonneg_left q hr
    have q2 := mul_le_mul_of_nonneg_right (show 2 * r ≤ R + r by linarith) (show 0 ≤ 2 * π / (2 + 4 * n : ℝ) by positivity)
    calc _ ≤ (R + r) * (2 * π / (2 + 4 * n)) + (R + r) * (2 * π / (2 + 4 * n)) := by linarith
      _ = _ := by ring
  exact ⟨key _ _ (by simp) (by simp), key _ _ (by simp) (by simp)⟩

theorem triangles_le {m : Mesh ℝ} {F : Nat} (h : m.nbTriangles = F) : m.triangles.length ≤ F := by
  refine (List.length_filterMap_le _ _).trans ?_
  rw [List.length_range, h, Int.toNat_natCast]

/-! ### Measurements -/

/-- a mesh of about `L²` triangles of size `s / L` -/
theorem measured_grid {s κ : ℝ} {A B : Mesh ℝ} (hA : A.OK) (c : Close (115 * (2 ^ (-53 : ℤ) * s)) A B) (iA : InBall s A) (hs : 1 ≤ s) (hs' : s ≤ 2 ^ 199)
    {n : Nat} (hn : n ≤ 2 ^ 15)
    (edge : ∀ t ∈ A.triangles, (t.p1 - t.p2).norm ≤ 4 * π * s / (2 + 4 * n) ∧ (t.p1 - t.p3).norm ≤ 4 * π * s / (2 + 4 * n))
    (hκ : (A.triangles.length + 60 : ℝ) ≤ κ * (2 + 4 * n) ^ 2) (hN : A.triangles.length ≤ 2 ^ 40) :
    ∃ V W S T, Measure.volume A = some V ∧ Rounded.volume double B = some W ∧ Measure.surface A = some S ∧ Rounded.surface double B = some T ∧
      |W - V| ≤ (36 * κ + 116) * A.triangles.length * s ^ 3 * 2 ^ (-53 : ℤ) ∧
      |T - S| ≤ (171 * κ + 692) * A.triangles.length * s ^ 2 * 2 ^ (-53 : ℤ) ∧
      ((36 * κ + 116) * A.triangles.length * s ^ 3 * 2 ^ (-53 : ℤ) ≤ V → Rounded.isOrientedOutside double B = some true) := by
  have s0 : 0 < s := by linarith
  have hB := c.ok hA
  have n0 : (0 : ℝ) ≤ n := Nat.cast_nonneg n
  have n1 : (n : ℝ) ≤ 32768 := by exact_mod_cast hn
  have N0 : (0 : ℝ) ≤ A.triangles.length := Nat.cast_nonneg _
  have L0 : (0 : ℝ) < 2 + 4 * n := by positivity
  have v1 : (2 : ℝ) ^ (-53 : ℤ) ≤ 1 / 1000000000000000 := by norm_num
  have v0 : (0 : ℝ) < 2 ^ (-53 : ℤ) := by positivity
  have hE : 4 * π * s / (2 + 4 * n) + 4 * (115 * (2 ^ (-53 : ℤ) * s)) ≤ 13 * s / (2 + 4 * n) := by
    have hpi := pi_lt_d4
    rw [le_div_iff₀ L0, add_mul, div_mul_cancel₀ _ L0.ne']
    generalize (2 : ℝ) ^ (-53 : ℤ) = v at *
    have a : v * (2 + 4 * n) ≤ 1 / 1000000000000000 * 131074 := mul_le_mul v1 (by linarith) L0.le (by norm_num)
    have b := mul_le_mul_of_nonneg_right a s0.le
    nlinarith
  have hE' : (2 : ℝ) ^ (-200 : ℤ) ≤ 13 * s / (2 + 4 * n) := by
    refine (zpow_le_zpow_right₀ (by norm_num) (show (-200 : ℤ) ≤ -20 by norm_num)).trans ?_
    rw [le_div_iff₀ L0]
    have : (2 : ℝ) ^ (-20 : ℤ) = 1 / 1048576 := by norm_num
    rw [this]
    linarith
  have iA' : InBall (1.001 * s) A := iA.mono (by linarith)
  have iB : InBall (1.001 * s) B := (iA.near c.meshNear hA hB).mono (by nlinarith)
  obtain ⟨V, W, S, T, h1, h2, h3, h4, h5, h6, h7⟩ := measured_fine hA hB c.meshNear iA' iB edge hE hE' (by linarith)
    (by
      have : (2 : ℝ) ^ 200 = 2 * 2 ^ 199 := by rw [← pow_succ']
      have p : (0 : ℝ) < 2 ^ 199 := by positivity
      rw [this]; generalize (2 : ℝ) ^ 199 = w at *; linarith) hN
  have d2 : (13 * s / (2 + 4 * n : ℝ)) ^ 2 = 169 * s ^ 2 / (2 + 4 * n) ^ 2 := by rw [div_pow, mul_pow]; norm_num
  rw [d2] at h5 h6 h7
  clear hE hE' v1 d2 hs'
  generalize (2 : ℝ) ^ (-53 : ℤ) = v at *
  generalize (A.triangles.length : ℝ) = N at *
  have L2 : (0 : ℝ) < (2 + 4 * n) ^ 2 := by positivity
  generalize (2 + 4 * n : ℝ) ^ 2 = Q at *
  have κ1 : (N + 60) / Q ≤ κ := (div_le_iff₀ L2).2 hκ
  have κ2 : (N + 20) / Q ≤ κ := (div_le_div_of_nonneg_right (by linarith) L2.le).trans κ1
  have p3 : 0 ≤ N * s ^ 3 * v := by positivity
  have p2 : 0 ≤ N * s ^ 2 * v := by positivity
  have b1 : 0.21 * (N + 60) * N * (1.001 * s * (169 * s ^ 2 / Q)) * v + N * ((1.001 * s) ^ 2 * (115 * (v * s))) ≤ (36 * κ + 116) * N * s ^ 3 * v := by
    have m := mul_le_mul_of_nonneg_right κ1 p3
    have κ0 : 0 ≤ κ * (N * s ^ 3 * v) := le_trans (by positivity) m
    calc _ = 35.52549 * ((N + 60) / Q * (N * s ^ 3 * v)) + 115.230115 * (N * s ^ 3 * v) := by ring
      _ ≤ 36 * (κ * (N * s ^ 3 * v)) + 116 * (N * s ^ 3 * v) := by linarith
      _ = _ := by ring
  have b2 : 1.01 * (N + 20) * N * (169 * s ^ 2 / Q) * v + N * (6 * (1.001 * s) * (115 * (v * s))) ≤ (171 * κ + 692) * N * s ^ 2 * v := by
    have m := mul_le_mul_of_nonneg_right κ2 p2
    have κ0 : 0 ≤ κ * (N * s ^ 2 * v) := le_trans (by positivity) m
    calc _ = 170.69 * ((N + 20) / Q * (N * s ^ 2 * v)) + 690.69 * (N * s ^ 2 * v) := by ring
      _ ≤ 171 * (κ * (N * s ^ 2 * v)) + 692 * (N * s ^ 2 * v) := by linarith
      _ = _ := by ring
  exact ⟨V, W, S, T, h1, h2, h3, h4, h5.trans b1, h6.trans b2, fun h => h7 (b1.trans h)⟩

theorem ngon_part {c L : ℝ} (c0 : 0 < c) (L0 : 0 < L) (hc : c ≤ π * L) :
    0 ≤ L * sin (c / L) / c ∧ L * sin (c / L) / c ≤ 1 ∧ 1 - c ^ 2 / 6 / L ^ 2 ≤ L * sin (c / L) / c := by
  have x0 : 0 < c / L := by positivity
  have a := (sin_lt x0).le
  have b := sin_ge_sub_cube x0.le
  refine ⟨?_, ?_, ?_⟩
  · exact div_nonneg (mul_nonneg L0.le (sin_nonneg_of_nonneg_of_le_pi x0.le (by rwa [div_le_iff₀ L0]))) c0.le
  · rw [div_le_one c0]
    calc _ ≤ L * (c / L) := mul_le_mul_of_nonneg_left a L0.le
      _ = c := by field_simp
  · rw [le_div_iff₀ c0]
    refine le_trans (le_of_eq ?_) (mul_le_mul_of_nonneg_left b L0.le)
    field_simp

theorem cos_part {y z L : ℝ} (y0 : 0 ≤ y) (hy : y ≤ z / L) (hy' : y ≤ π / 2) : 0 ≤ cos y ∧ cos y ≤ 1 ∧ 1 - z ^ 2 / 2 / L ^ 2 ≤ cos y := by
  refine ⟨cos_nonneg_of_neg_pi_div_two_le_of_le (by linarith) hy', cos_le_one y, ?_⟩
  have a := one_sub_sq_div_two_le_cos (x := y)
  have b := pow_le_pow_left₀ y0 hy 2
  rw [div_pow] at b
  have : z ^ 2 / 2 / L ^ 2 = z ^ 2 / L ^ 2 / 2 := by ring
  rw [this]
  linarith

theorem prod_part {x y e f : ℝ} (x0 : 0 ≤ x) (x1 : x ≤ 1) (xe : 1 - e ≤ x) (y0 : 0 ≤ y) (y1 : y ≤ 1) (yf : 1 - f ≤ y) :
    0 ≤ x * y ∧ x * y ≤ 1 ∧ 1 - (e + f) ≤ x * y :=
  ⟨mul_nonneg x0 y0, mul_le_one₀ x1 y0 y1, by nlinarith [mul_nonneg x0 (sub_nonneg.2 y1)]⟩

theorem pi_sq_le : π ^ 2 ≤ 9.87 := by
  have a := pi_pos
  have b := pi_lt_d4
  nlinarith

/-- how far the volume of the exact UV sphere is from that of the ball -/
theorem sphere_volume_gap {n : Nat} (hn : 1 ≤ n) :
    |((2 + 4 * n : ℝ) * sin (2 * π / (2 + 4 * n))) * (1 + cos (π / (2 + 2 * n))) / 3 - 4 / 3 * π| ≤ 70 / (2 + 4 * n) ^ 2 := by
  have hn1 : (1 : ℝ) ≤ n := by exact_mod_cast hn
  have hpi := pi_pos
  have hp4 := pi_lt_d4
  have q : π / (2 + 2 * n) ≤ 2 * π / (2 + 4 * n) := by
    rw [div_le_div_iff₀ (by positivity) (by positivity)]
    nlinarith
  have q' : π / (2 + 2 * n) ≤ π / 2 := div_le_div_of_nonneg_left hpi.le (by norm_num) (by linarith)
  have L0 : (6 : ℝ) ≤ 2 + 4 * n := by linarith
  obtain ⟨c0, c1, c2⟩ := cos_part (show 0 ≤ π / (2 + 2 * n : ℝ) by positivity) q q'
  generalize cos (π / (2 + 2 * n)) = y at *
  generalize (2 + 4 * n : ℝ) = L at *
  obtain ⟨a0, a1, a2⟩ := ngon_part (c := 2 * π) (L := L) (by positivity) (by linarith) (by nlinarith)
  obtain ⟨p0, p1, p2⟩ := prod_part (y := (1 + y) / 2) (f := (2 * π) ^ 2 / 4 / L ^ 2) a0 a1 a2 (by linarith) (by linarith)
    (by
      have : (2 * π) ^ 2 / 4 / L ^ 2 = (2 * π) ^ 2 / 2 / L ^ 2 / 2 := by ring
      rw [this]; linarith)
  have e : L * sin (2 * π / L) * (1 + y) / 3 = 4 / 3 * π * (L * sin (2 * π / L) / (2 * π) * ((1 + y) / 2)) := by field_simp; ring
  rw [e]
  generalize L * sin (2 * π / L) / (2 * π) * ((1 + y) / 2) = p at *
  have g : (2 * π) ^ 2 / 6 / L ^ 2 + (2 * π) ^ 2 / 4 / L ^ 2 = (5 / 3 * π ^ 2) / L ^ 2 := by ring
  rw [g] at p2
  have h : 4 / 3 * π * ((5 / 3 * π ^ 2) / L ^ 2) ≤ 70 / L ^ 2 := by
    rw [mul_div_assoc']
    refine div_le_div_of_nonneg_right ?_ (sq_nonneg L)
    have := pi_sq_le
    nlinarith
  have k := mul_le_mul_of_nonneg_left p2 (show 0 ≤ 4 / 3 * π by positivity)
  have k' := mul_le_mul_of_nonneg_left p1 (show 0 ≤ 4 / 3 * π by positivity)
  rw [abs_le]
  constructor <;> nlinarith

/-- how far the area of the exact UV sphere is from that of the sphere -/
theorem sphere_surface_gap {n : Nat} (hn : 1 ≤ n) {A r : ℝ}
    (h1 : cos (π / (2 + 4 * n)) * (((2 + 4 * n : ℝ) * sin (π / (2 + 4 * n))) * cos (π / (4 + 4 * n)) * (4 * r ^ 2)) ≤ A)
    (h2 : A ≤ ((2 + 4 * n : ℝ) * sin (π / (2 + 4 * n))) * cos (π / (4 + 4 * n)) * (4 * r ^ 2)) : |A - 4 * π * r ^ 2| ≤ 145 / (2 + 4 * n) ^ 2 * r ^ 2 := by
  have hn1 : (1 : ℝ) ≤ n := by exact_mod_cast hn
  have hpi := pi_pos
  have hp4 := pi_lt_d4
  have q : π / (4 + 4 * n) ≤ π / (2 + 4 * n) := div_le_div_of_nonneg_left hpi.le (by positivity) (by linarith)
  have q' : π / (4 + 4 * n) ≤ π / 2 := div_le_div_of_nonneg_left hpi.le (by norm_num) (by linarith)
  have q'' : π / (2 + 4 * n) ≤ π / 2 := div_le_div_of_nonneg_left hpi.le (by norm_num) (by linarith)
  have L0 : (6 : ℝ) ≤ 2 + 4 * n := by linarith
  obtain ⟨c0, c1, c2⟩ := cos_part (show 0 ≤ π / (4 + 4 * n : ℝ) by positivity) q q'
  obtain ⟨d0, d1, d2⟩ := cos_part (show 0 ≤ π / (2 + 4 * n : ℝ) by positivity) le_rfl q''
  generalize cos (π / (4 + 4 * n)) = y at *
  generalize (2 + 4 * n : ℝ) = L at *
  obtain ⟨a0, a1, a2⟩ := ngon_part (c := π) (L := L) (by positivity) (by linarith) (by nlinarith)
  obtain ⟨p0, p1, p2⟩ := prod_part a0 a1 a2 c0 c1 c2
  obtain ⟨w0, w1, w2⟩ := prod_part d0 d1 d2 p0 p1 p2
  have e : L * sin (π / L) * y * (4 * r ^ 2) = 4 * π * r ^ 2 * (L * sin (π / L) / π * y) := by field_simp
  rw [e] at h1 h2
  rw [← mul_left_comm] at h1
  generalize L * sin (π / L) / π * y = p at *
  generalize cos (π / L) * p = w at *
  have g : π ^ 2 / 2 / L ^ 2 + (π ^ 2 / 6 / L ^ 2 + π ^ 2 / 2 / L ^ 2) = (7 / 6 * π ^ 2) / L ^ 2 := by ring
  rw [g] at w2
  have h : 4 * π * ((7 / 6 * π ^ 2) / L ^ 2) ≤ 145 / L ^ 2 := by
    rw [mul_div_assoc']
    refine div_le_div_of_nonneg_right ?_ (sq_nonneg L)
    have := pi_sq_le
    nlinarith
  have r2 := sq_nonneg r
  have h' := mul_le_mul_of_nonneg_right h r2
  have k := mul_le_mul_of_nonneg_left w2 (show 0 ≤ 4 * π * r ^ 2 by positivity)
  have k' := mul_le_mul_of_nonneg_left p1 (show 0 ≤ 4 * π * r ^ 2 by positivity)
  have z : 0 ≤ 145 / L ^ 2 * r ^ 2 := by positivity
  rw [abs_le]
  constructor <;> nlinarith

/-- C125: volume, area and orientation of the UV sphere as computed in `double` -/
theorem sphere_uv_measured (T : LibTrig (2 ^ (-53 : ℤ)) C S) {r : ℝ} (h0 : 1 ≤ r) (h1 : r ≤ 2 ^ 199) {n : Nat} (hn : 1 ≤ n) (hn' : n ≤ 2 ^ 15) (m : Mesh ℝ) :
    let L : ℝ := 2 + 4 * n
    ∃ x W A, createSphereUvR double C S r n m = some x ∧ Rounded.volume double x = some W ∧ Rounded.surface double x = some A ∧
      Rounded.isOrientedOutside double x = some true ∧
      |W - 4 / 3 * π * r ^ 3| ≤ (70 / L ^ 2 + 220 * L ^ 2 * 2 ^ (-53 : ℤ)) * r ^ 3 ∧
      |A - 4 * π * r ^ 2| ≤ (145 / L ^ 2 + 1200 * L ^ 2 * 2 ^ (-53 : ℤ)) * r ^ 2 := by
  intro L
  have r0 : 0 < r := by linarith
  have hn1 : (1 : ℝ) ≤ n := by exact_mod_cast hn
  have hn2 : (n : ℝ) ≤ 32768 := by exact_mod_cast hn'
  have s0 : (2 : ℝ) ^ (-1000 : ℤ) ≤ r := (zpow_le_one_of_nonpos₀ (by norm_num) (by norm_num)).trans h0
  have s1 : r ≤ 2 ^ (1001 : ℤ) := h1.trans (by rw [← zpow_natCast]; exact zpow_le_zpow_right₀ (by norm_num) (by norm_num))
  obtain ⟨x, hx, hp, -, -, -, hv, -⟩ := sphere_uv_spec r n (by exact_mod_cast hn) m
  obtain ⟨x', hx', hc⟩ := sphere_close double_at_one (double_at s0 s1) T u_ge (r := r) (abs_of_pos r0).le (show (0 : Int) ≤ n by omega) m x hx
  obtain ⟨y, hy, hV⟩ := sphere_uv_volume r n hn m
  obtain rfl : y = x := Option.some.inj (hy.symm.trans hx)
  obtain ⟨z, A0, hz, hA0, g1, g2⟩ := sphere_uv_surface_bounds r0.le n hn m
  obtain rfl : z = y := Option.some.inj (hz.symm.trans hx)
  have i : InBall r z := InBall.of (fun i p hp => by rw [P3.norm_eq, hv i p hp, sqrt_sq r0.le]) hp.ok
  have len := triangles_le hp.triangles
  have len' : (z.triangles.length : ℝ) ≤ L ^ 2 := by
    have : z.triangles.length ≤ (2 + 4 * n) ^ 2 := len.trans (le_of_eq (by
      have : 2 * ((2 + 4 * (n : Int)) * (1 + 2 * n)) = (((2 + 4 * n) ^ 2 : Nat) : Int) := by push_cast; ring
      rw [this, Int.toNat_natCast]))
    calc (z.triangles.length : ℝ) ≤ (((2 + 4 * n) ^ 2 : Nat) : ℝ) := by exact_mod_cast this
      _ = L ^ 2 := by push_cast; rfl
  have L6 : 6 ≤ L := by simp only [L]; linarith
  have L1 : L ≤ 131074 := by simp only [L]; linarith
  have N40 : z.triangles.length ≤ 2 ^ 40 := by
    have : (z.triangles.length : ℝ) ≤ 2 ^ 40 := len'.trans ((pow_le_pow_left₀ (by linarith) L1 2).trans (by norm_num))
    exact_mod_cast this
  obtain ⟨V, W, A, B, k1, k2, k3, k4, k5, k6, k7⟩ := measured_grid (κ := 8 / 3) hp.ok hc i h0 h1 hn' (sphere_edges r0.le hn hx)
    (by change _ ≤ 8 / 3 * L ^ 2; nlinarith) N40
  rw [hV, Option.some.injEq] at k1
  rw [hA0, Option.some.injEq] at k3
  subst k1 k3
  have G := sphere_volume_gap hn
  have G' := sphere_surface_gap hn g1 g2
  change |L * _ * _ / 3 - 4 / 3 * π| ≤ 70 / L ^ 2 at G
  change |_| ≤ 145 / L ^ 2 * r ^ 2 at G'
  change |W - L * _ * _ / 3 * r ^ 3| ≤ _ at k5
  change _ ≤ L * _ * _ / 3 * r ^ 3 → _ at k7
  generalize L * sin (2 * π / (2 + 4 * n)) * (1 + cos (π / (2 + 2 * n))) / 3 = V at *
  have r3 : 0 < r ^ 3 := by positivity
  have r2 : 0 < r ^ 2 := by positivity
  have v0 : (0 : ℝ) < 2 ^ (-53 : ℤ) := by positivity
  have v1 : (2 : ℝ) ^ (-53 : ℤ) ≤ 1 / 1000000000000000 := by norm_num
  have hpi := pi_gt_three
  clear hn2 s1 h1 g1 g2 hV
  generalize (2 : ℝ) ^ (-53 : ℤ) = v at *
  clear_value L
  have N0 : (0 : ℝ) ≤ z.triangles.length := Nat.cast_nonneg _
  generalize (z.triangles.length : ℝ) = N at *
  have b3 : (36 * (8 / 3) + 116) * N * r ^ 3 * v ≤ 220 * L ^ 2 * v * r ^ 3 := by
    have := mul_le_mul_of_nonneg_right len' (show 0 ≤ r ^ 3 * v by positivity)
    nlinarith [mul_nonneg N0 (mul_pos r3 v0).le]
  have b2 : (171 * (8 / 3) + 692) * N * r ^ 2 * v ≤ 1200 * L ^ 2 * v * r ^ 2 := by
    have := mul_le_mul_of_nonneg_right len' (show 0 ≤ r ^ 2 * v by positivity)
    nlinarith [mul_nonneg N0 (mul_pos r2 v0).le]
  have Gr : |V * r ^ 3 - 4 / 3 * π * r ^ 3| ≤ 70 / L ^ 2 * r ^ 3 := by
    rw [← sub_mul, abs_mul, abs_of_pos r3]
    exact mul_le_mul_of_nonneg_right G r3.le
  refine ⟨x', W, B, hx', k2, k4, k7 (b3.trans ?_), ?_, ?_⟩
  · have l1 : L ^ 2 * v ≤ 131074 ^ 2 * (1 / 1000000000000000) := mul_le_mul (pow_le_pow_left₀ (by linarith) L1 2) v1 v0.le (by norm_num)
    have l2 : 70 / L ^ 2 ≤ 2 := by rw [div_le_iff₀ (by positivity)]; nlinarith
    have l3 := (abs_le.1 G).1
    have : 220 * L ^ 2 * v ≤ V := by nlinarith
    exact mul_le_mul_of_nonneg_right this r3.le
  · have := abs_sub_le W (V * r ^ 3) (4 / 3 * π * r ^ 3)
    linarith
  · have := abs_sub_le B A0 (4 * π * r ^ 2)
    linarith

theorem torusPoint_norm {R r u v : ℝ} (hR : 0 ≤ R) (hr : 0 ≤ r) : (torusPoint R r u v).norm ≤ R + r := by
  rw [norm_le_iff (by positivity)]
  have a := sin_sq_add_cos_sq u
  have b := sin_sq_add_cos_sq v
  have e : (torusPoint R r u v).normSq = (R + r * cos v) ^ 2 * (sin u ^ 2 + cos u ^ 2) + r ^ 2 * sin v ^ 2 := by
    simp only [torusPoint, P3.normSq]; ring
  rw [e, a]
  have := mul_le_mul_of_nonneg_left (cos_le_one v) (show 0 ≤ R * r by positivity)
  nlinarith

theorem torus_volume_gap {n : Nat} (hn : 1 ≤ n) :
    |((2 + 4 * n : ℝ) * sin (2 * π / (2 + 4 * n))) * ((6 + 2 * n : ℝ) * sin (2 * π / (6 + 2 * n))) / 2 - 2 * π ^ 2| ≤ 130 * (1 / (2 + 4 * n : ℝ) ^ 2 + 1 / (6 + 2 * n : ℝ) ^ 2) := by
  have hn1 : (1 : ℝ) ≤ n := by exact_mod_cast hn
  have hpi := pi_pos
  have L0 : (6 : ℝ) ≤ 2 + 4 * n := by linarith
  have N0 : (8 : ℝ) ≤ 6 + 2 * n := by linarith
  generalize (2 + 4 * n : ℝ) = L at *
  generalize (6 + 2 * n : ℝ) = N at *
  obtain ⟨a0, a1, a2⟩ := ngon_part (c := 2 * π) (L := L) (by positivity) (by linarith) (by nlinarith)
  obtain ⟨b0, b1, b2⟩ := ngon_part (c := 2 * π) (L := N) (by positivity) (by linarith) (by nlinarith)
  obtain ⟨p0, p1, p2⟩ := prod_part a0 a1 a2 b0 b1 b2
  have e : L * sin (2 * π / L) * (N * sin (2 * π / N)) / 2 = 2 * π ^ 2 * (L * sin (2 * π / L) / (2 * π) * (N * sin (2 * π / N) / (2 * π))) := by field_simp
  rw [e]
  generalize L * sin (2 * π / L) / (2 * π) * (N * sin (2 * π / N) / (2 * π)) = p at *
  have g : (2 * π) ^ 2 / 6 / L ^ 2 + (2 * π) ^ 2 / 6 / N ^ 2 = (2 / 3 * π ^ 2) * (1 / L ^ 2 + 1 / N ^ 2) := by ring
  rw [g] at p2
  have t0 : 0 ≤ 1 / L ^ 2 + 1 / N ^ 2 := by positivity
  generalize 1 / L ^ 2 + 1 / N ^ 2 = t at *
  have h : 2 * π ^ 2 * (2 / 3 * π ^ 2) ≤ 130 := by
    have := pi_sq_le
    nlinarith [sq_nonneg π]
  have h' := mul_le_mul_of_nonneg_right h t0
  have k := mul_le_mul_of_nonneg_left p2 (show 0 ≤ 2 * π ^ 2 by positivity)
  have k' := mul_le_mul_of_nonneg_left p1 (show 0 ≤ 2 * π ^ 2 by positivity)
  rw [abs_le]
  constructor <;> nlinarith

theorem torus_surface_gap {n : Nat} (hn : 1 ≤ n) {A c : ℝ} (hc : 0 ≤ c)
    (h1 : cos (π / (2 + 4 * n)) * (((2 + 4 * n : ℝ) * sin (π / (2 + 4 * n))) * ((6 + 2 * n : ℝ) * sin (π / (6 + 2 * n))) * (4 * c)) ≤ A)
    (h2 : A ≤ ((2 + 4 * n : ℝ) * sin (π / (2 + 4 * n))) * ((6 + 2 * n : ℝ) * sin (π / (6 + 2 * n))) * (4 * c)) :
    |A - 4 * π ^ 2 * c| ≤ (260 / (2 + 4 * n) ^ 2 + 65 / (6 + 2 * n) ^ 2) * c := by
  have hn1 : (1 : ℝ) ≤ n := by exact_mod_cast hn
  have hpi := pi_pos
  have q'' : π / (2 + 4 * n) ≤ π / 2 := div_le_div_of_nonneg_left hpi.le (by norm_num) (by linarith)
  have L0 : (6 : ℝ) ≤ 2 + 4 * n := by linarith
  have N0 : (8 : ℝ) ≤ 6 + 2 * n := by linarith
  obtain ⟨d0, d1, d2⟩ := cos_part (show 0 ≤ π / (2 + 4 * n : ℝ) by positivity) le_rfl q''
  generalize (2 + 4 * n : ℝ) = L at *
  generalize (6 + 2 * n : ℝ) = N at *
  obtain ⟨a0, a1, a2⟩ := ngon_part (c := π) (L := L) (by positivity) (by linarith) (by nlinarith)
  obtain ⟨b0, b1, b2⟩ := ngon_part (c := π) (L := N) (by positivity) (by linarith) (by nlinarith)
  obtain ⟨p0, p1, p2⟩ := prod_part a0 a1 a2 b0 b1 b2
  obtain ⟨w0, w1, w2⟩ := prod_part d0 d1 d2 p0 p1 p2
  have e : L * sin (π / L) * (N * sin (π / N)) * (4 * c) = 4 * π ^ 2 * c * (L * sin (π / L) / π * (N * sin (π / N) / π)) := by field_simp
  rw [e] at h1 h2
  rw [← mul_left_comm] at h1
  generalize L * sin (π / L) / π * (N * sin (π / N) / π) = p at *
  generalize cos (π / L) * p = w at *
  have g : π ^ 2 / 2 / L ^ 2 + (π ^ 2 / 6 / L ^ 2 + π ^ 2 / 6 / N ^ 2) = π ^ 2 * (2 / 3 * (1 / L ^ 2) + 1 / 6 * (1 / N ^ 2)) := by ring
  rw [g] at w2
  have g' : (260 / L ^ 2 + 65 / N ^ 2) = 390 * (2 / 3 * (1 / L ^ 2) + 1 / 6 * (1 / N ^ 2)) := by ring
  rw [g']
  have t0 : 0 ≤ 2 / 3 * (1 / L ^ 2) + 1 / 6 * (1 / N ^ 2) := by positivity
  generalize 2 / 3 * (1 / L ^ 2) + 1 / 6 * (1 / N ^ 2) = t at *
  have h : 4 * π ^ 2 * π ^ 2 ≤ 390 := by
    have := pi_sq_le
    nlinarith [sq_nonneg π]
  have h' := mul_le_mul_of_nonneg_right h (mul_nonneg t0 hc)
  have k := mul_le_mul_of_nonneg_left w2 (show 0 ≤ 4 * π ^ 2 * c by positivity)
  have k' := mul_le_mul_of_nonneg_left p1 (show 0 ≤ 4 * π ^ 2 * c by positivity)
  have z : 0 ≤ 390 * t * c := by positivity
  rw [abs_le]
  constructor <;> nlinarith

set_option maxHeartbeats 400000 in
/-- C125: volume, area and orientation of the torus as computed in `double` -/
theorem torus_measured (T : LibTrig (2 ^ (-53 : ℤ)) C S) {R r : ℝ} (hr : 0 < r) (hR : r < R) (h0 : 1 ≤ R + r) (h1 : R + r ≤ 2 ^ 199)
    {n : Nat} (hn : 1 ≤ n) (hn' : n ≤ 2 ^ 15) (m : Mesh ℝ) :
    let L : ℝ := 2 + 4 * n
    let N : ℝ := 6 + 2 * n
    ∃ x W A, createTorusR double C S R r n m = some x ∧ Rounded.volume double x = some W ∧ Rounded.surface double x = some A ∧
      (R ≤ 16 * r → Rounded.isOrientedOutside double x = some true) ∧
      |W - 2 * π ^ 2 * R * r ^ 2| ≤ 130 * (1 / L ^ 2 + 1 / N ^ 2) * (R * r ^ 2) + 280 * (2 * L * N) * (R + r) ^ 3 * 2 ^ (-53 : ℤ) ∧
      |A - 4 * π ^ 2 * R * r| ≤ (260 / L ^ 2 + 65 / N ^ 2) * (R * r) + 1450 * (2 * L * N) * (R + r) ^ 2 * 2 ^ (-53 : ℤ) := by
  intro L N
  have R0 : 0 < R := by linarith
  have hn1 : (1 : ℝ) ≤ n := by exact_mod_cast hn
  have hn2 : (n : ℝ) ≤ 32768 := by exact_mod_cast hn'
  have s0 : (2 : ℝ) ^ (-1000 : ℤ) ≤ R + r := (zpow_le_one_of_nonpos₀ (by norm_num) (by norm_num)).trans h0
  have s1 : R + r ≤ 2 ^ (1001 : ℤ) := h1.trans (by rw [← zpow_natCast]; exact zpow_le_zpow_right₀ (by norm_num) (by norm_num))
  obtain ⟨x, hx, hp, -⟩ := torus_spec R r n (by exact_mod_cast hn) m
  obtain ⟨x', hx', hc⟩ := torus_close double_at_one (double_at s0 s1) T u_ge (R := R) (r := r) (by rw [abs_of_pos R0, abs_of_pos hr])
    (show (0 : Int) ≤ n by omega) m x hx
  obtain ⟨y, hy, hV⟩ := torus_volume R r n hn m
  obtain rfl : y = x := Option.some.inj (hy.symm.trans hx)
  obtain ⟨z, A0, hz, hA0, g1, g2⟩ := torus_surface_bounds hr.le hR.le n hn m
  obtain rfl : z = y := Option.some.inj (hz.symm.trans hx)
  have i : InBall (R + r) z := by
    unfold InBall
    rw [torus_triangles_all R r m hx]
    intro t0 ht0
    obtain ⟨t, -, rfl⟩ := List.mem_map.1 ht0
    exact ⟨torusPoint_norm R0.le hr.le, torusPoint_norm R0.le hr.le, torusPoint_norm R0.le hr.le⟩
  have len := triangles_le hp.triangles
  have len' : (z.triangles.length : ℝ) ≤ 2 * L * N := by
    have : z.triangles.length ≤ 2 * (2 + 4 * n) * (6 + 2 * n) := len.trans (le_of_eq (by
      have : 2 * ((2 + 4 * (n : Int)) * (6 + 2 * n)) = ((2 * (2 + 4 * n) * (6 + 2 * n) : Nat) : Int) := by push_cast; ring
      rw [this, Int.toNat_natCast]))
    calc (z.triangles.length : ℝ) ≤ ((2 * (2 + 4 * n) * (6 + 2 * n) : Nat) : ℝ) := by exact_mod_cast this
      _ = 2 * L * N := by push_cast; rfl
  have L6 : 6 ≤ L := by simp only [L]; linarith
  have L1 : L ≤ 131074 := by simp only [L]; linarith
  have eN : N = L / 2 + 5 := by simp only [L, N]; ring
  have N40 : z.triangles.length ≤ 2 ^ 40 := by
    have : (z.triangles.length : ℝ) ≤ 2 ^ 40 := len'.trans (by rw [eN]; nlinarith)
    exact_mod_cast this
  obtain ⟨V, W, A, B, k1, k2, k3, k4, k5, k6, k7⟩ := measured_grid (κ := 13 / 3) hp.ok hc i h0 h1 hn' (torus_edges hr.le hR.le hx)
    (by change _ ≤ 13 / 3 * L ^ 2; rw [eN] at len'; nlinarith) N40
  rw [hV, Option.some.injEq] at k1
  rw [hA0, Option.some.injEq] at k3
  subst k1 k3
  have G := torus_volume_gap hn
  have G' := torus_surface_gap (A := A0) (c := R * r) hn (by positivity) (by simpa only [mul_assoc] using g1) (by simpa only [mul_assoc] using g2)
  change |L * _ * (N * _) / 2 - 2 * π ^ 2| ≤ 130 * (1 / L ^ 2 + 1 / N ^ 2) at G
  change |_| ≤ (260 / L ^ 2 + 65 / N ^ 2) * (R * r) at G'
  change |W - L * _ * (N * _) / 2 * R * r ^ 2| ≤ _ at k5
  change _ ≤ L * _ * (N * _) / 2 * R * r ^ 2 → _ at k7
  generalize L * sin (2 * π / (2 + 4 * n)) * (N * sin (2 * π / (6 + 2 * n))) / 2 = V at *
  have c3 : 0 < R * r ^ 2 := by positivity
  have s3 : 0 < (R + r) ^ 3 := by positivity
  have s2 : 0 < (R + r) ^ 2 := by positivity
  have v0 : (0 : ℝ) < 2 ^ (-53 : ℤ) := by positivity
  have v1 : (2 : ℝ) ^ (-53 : ℤ) ≤ 1 / 1000000000000000 := by norm_num
  have hpi := pi_gt_three
  clear hn2 s0 s1 h1 g1 g2 hV
  generalize (2 : ℝ) ^ (-53 : ℤ) = v at *
  clear_value L N
  have N0 : (0 : ℝ) ≤ z.triangles.length := Nat.cast_nonneg _
  generalize (z.triangles.length : ℝ) = F at *
  have b3 : (36 * (13 / 3) + 116) * F * (R + r) ^ 3 * v ≤ 280 * (2 * L * N) * (R + r) ^ 3 * v := by
    have := mul_le_mul_of_nonneg_right len' (show 0 ≤ (R + r) ^ 3 * v by positivity)
    nlinarith [mul_nonneg N0 (mul_pos s3 v0).le]
  have b2 : (171 * (13 / 3) + 692) * F * (R + r) ^ 2 * v ≤ 1450 * (2 * L * N) * (R + r) ^ 2 * v := by
    have := mul_le_mul_of_nonneg_right len' (show 0 ≤ (R + r) ^ 2 * v by positivity)
    nlinarith [mul_nonneg N0 (mul_pos s2 v0).le]
  have Gr : |V * R * r ^ 2 - 2 * π ^ 2 * R * r ^ 2| ≤ 130 * (1 / L ^ 2 + 1 / N ^ 2) * (R * r ^ 2) := by
    rw [mul_assoc, mul_assoc _ R, ← sub_mul, abs_mul, abs_of_pos c3]
    exact mul_le_mul_of_nonneg_right G c3.le
  refine ⟨x', W, B, hx', k2, k4, fun hRr => k7 (b3.trans ?_), ?_, ?_⟩
  · have l1 : 2 * L * N * v ≤ 2 * 131074 * 65542 * (1 / 1000000000000000) :=
      mul_le_mul (mul_le_mul (by linarith) (by rw [eN]; linarith) (by rw [eN]; linarith) (by norm_num)) v1 v0.le (by norm_num)
    have l2 : 130 * (1 / L ^ 2 + 1 / N ^ 2) ≤ 8 := by
      have a : 1 / L ^ 2 ≤ 1 / 36 := one_div_le_one_div_of_le (by norm_num) (by nlinarith)
      have b : 1 / N ^ 2 ≤ 1 / 64 := one_div_le_one_div_of_le (by norm_num) (by rw [eN]; nlinarith)
      linarith
    have l3 := (abs_le.1 G).1
    have p9 : 9 ≤ π ^ 2 := by nlinarith only [hpi]
    have l4 : 10 ≤ V := by linarith only [p9, l2, l3]
    have l5 : (R + r) ^ 3 ≤ 578 * (R * r ^ 2) := by
      have q : (R + r) ^ 2 ≤ (17 * r) ^ 2 := pow_le_pow_left₀ (by linarith) (by linarith) 2
      have := mul_le_mul q (show R + r ≤ 2 * R by linarith) (by linarith) (by positivity)
      linarith only [this, show (R + r) ^ 2 * (R + r) = (R + r) ^ 3 by ring, show (17 * r) ^ 2 * (2 * R) = 578 * (R * r ^ 2) by ring]
    calc _ = 280 * (2 * L * N * v) * (R + r) ^ 3 := by ring
      _ ≤ 280 * (2 * 131074 * 65542 * (1 / 1000000000000000)) * (578 * (R * r ^ 2)) :=
        mul_le_mul (by linarith only [l1]) l5 s3.le (by norm_num)
      _ = 280 * (2 * 131074 * 65542 * (1 / 1000000000000000)) * 578 * (R * r ^ 2) := by ring
      _ ≤ 10 * (R * r ^ 2) := mul_le_mul_of_nonneg_right (by norm_num) c3.le
      _ ≤ V * (R * r ^ 2) := mul_le_mul_of_nonneg_right l4 c3.le
      _ = _ := by ring
  · have := abs_sub_le W (V * R * r ^ 2) (2 * π ^ 2 * R * r ^ 2)
    linarith
  · have := abs_sub_le B A0 (4 * π ^ 2 * R * r)
    rw [mul_assoc _ R] at this ⊢
    linarith

theorem cylVertex_norm {h r s : ℝ} (s0 : 0 ≤ s) (hr : |r| ≤ s) (hh : |h| ≤ 2 * s) {L : Nat} (v : Ball L) : (cylVertex h r L v).norm ≤ 1.49 * s := by
  rw [norm_le_iff (by positivity)]
  have a : r ^ 2 ≤ s ^ 2 := sq_le_sq.2 (by rwa [abs_of_nonneg s0])
  have b : h ^ 2 ≤ (2 * s) ^ 2 := sq_le_sq.2 (by rwa [abs_of_nonneg (show 0 ≤ 2 * s by positivity)])
  have c := sq_nonneg s
  match v with
  | .north => simp only [cylVertex, P3.normSq]; nlinarith
  | .south => simp only [cylVertex, P3.normSq]; nlinarith
  | .at x l =>
    have t := sin_sq_add_cos_sq ((x.val : ℝ) / L * 2 * π)
    have e : (cylVertex h r L (.at x l)).normSq = r ^ 2 * (sin ((x.val : ℝ) / L * 2 * π) ^ 2 + cos ((x.val : ℝ) / L * 2 * π) ^ 2) + h ^ 2 / 4 := by
      simp only [cylVertex, P3.normSq]
      split_ifs <;> ring
    rw [e, t]
    nlinarith

/-- C125: volume, area and orientation of the cylinder as computed in `double` -/
theorem cylinder_measured (T : LibTrig (2 ^ (-53 : ℤ)) C S) {h r s : ℝ} (h0 : 1 ≤ s) (h1 : s ≤ 2 ^ 199) (r0 : 0 < r) (hr : r ≤ s) (hh0 : 0 < h) (hh : h ≤ 2 * s)
    {n : Nat} (hn : 1 ≤ n) (hn' : n ≤ 2 ^ 15) (m : Mesh ℝ) :
    let L : ℝ := 2 + 4 * n
    ∃ x W A, createCylinderR double C S h r n m = some x ∧ Rounded.volume double x = some W ∧ Rounded.surface double x = some A ∧
      (s ≤ 10 * r → s ≤ 10 * h → Rounded.isOrientedOutside double x = some true) ∧
      |W - π * r ^ 2 * h| ≤ 21 / L ^ 2 * (r ^ 2 * h) + 380 * L ^ 2 * s ^ 3 * 2 ^ (-53 : ℤ) ∧
      |A - (2 * π * r * h + 2 * π * r ^ 2)| ≤ (11 * (r * h) + 42 * r ^ 2) / L ^ 2 + 1030 * L ^ 2 * s ^ 2 * 2 ^ (-53 : ℤ) := by
  intro L
  have s0 : 0 < s := by linarith
  have hn1 : (1 : ℝ) ≤ n := by exact_mod_cast hn
  have hn2 : (n : ℝ) ≤ 32768 := by exact_mod_cast hn'
  have z0 : (2 : ℝ) ^ (-1000 : ℤ) ≤ s := (zpow_le_one_of_nonpos₀ (by norm_num) (by norm_num)).trans h0
  have z1 : s ≤ 2 ^ (1001 : ℤ) := h1.trans (by rw [← zpow_natCast]; exact zpow_le_zpow_right₀ (by norm_num) (by norm_num))
  have hr' : |r| ≤ s := by rwa [abs_of_pos r0]
  have hh' : |h| ≤ 2 * s := by rwa [abs_of_pos hh0]
  obtain ⟨x, hx, hok, -, hnt, -, -, -, -, hV, -⟩ := cylinder_spec_partial h r n (by exact_mod_cast hn) m
  obtain ⟨x', hx', hc⟩ := cylinder_close double_at_one (double_at z0 z1) T u_ge hr' hh' (show (0 : Int) ≤ n by omega) m x hx
  obtain ⟨y, hy, hA0⟩ := cylinder_surface hh0.le r0.le n m
  obtain rfl : y = x := Option.some.inj (hy.symm.trans hx)
  have i : InBall (1.49 * s) y := by
    intro t0 ht0
    obtain ⟨t, -, rfl⟩ := List.mem_map.1 ((cyl_triangles_all h r m hx).mem_iff.1 ht0)
    exact ⟨cylVertex_norm s0.le hr' hh' _, cylVertex_norm s0.le hr' hh' _, cylVertex_norm s0.le hr' hh' _⟩
  have v0 : (0 : ℝ) < 2 ^ (-53 : ℤ) := by positivity
  have v1 : (2 : ℝ) ^ (-53 : ℤ) ≤ 12 / 100000000000000000 := by norm_num
  have i' : InBall (1.5 * s) y := i.mono (by linarith)
  have j : InBall (1.5 * s) x' := (i.near hc.meshNear hok (hc.ok hok)).mono (by nlinarith)
  have L6 : 6 ≤ L := by simp only [L]; linarith
  have L1 : L ≤ 131074 := by simp only [L]; linarith
  have len' : (y.triangles.length : ℝ) ≤ 4 * L + 2 := by
    have : y.triangles.length ≤ 4 * (2 + 4 * n) + 2 := triangles_le (by rw [hnt]; push_cast; ring)
    calc (y.triangles.length : ℝ) ≤ ((4 * (2 + 4 * n) + 2 : Nat) : ℝ) := by exact_mod_cast this
      _ = 4 * L + 2 := by push_cast; rfl
  have N40 : y.triangles.length ≤ 2 ^ 40 := by
    have : (y.triangles.length : ℝ) ≤ 2 ^ 40 := len'.trans (by norm_num; linarith)
    exact_mod_cast this
  obtain ⟨V, W, A, B, k1, k2, k3, k4, k5, k6, k7⟩ := measured_double hok (hc.ok hok) hc.meshNear i' j (by linarith)
    (by
      have : (2 : ℝ) ^ 200 = 2 * 2 ^ 199 := by rw [← pow_succ']
      have p : (0 : ℝ) < 2 ^ 199 := by positivity
      rw [this]; generalize (2 : ℝ) ^ 199 = w at *; linarith) N40
  rw [hV, Option.some.injEq] at k1
  rw [hA0, Option.some.injEq] at k3
  have eL : (((2 + 4 * (n : Int) : Int)) : ℝ) = L := by push_cast; rfl
  rw [eL] at k1
  change 2 * (L * sin (π / L)) * r * h + L * sin (2 * π / L) * r ^ 2 = A at k3
  have hpi := pi_pos
  have hp3 := pi_gt_three
  have hp4 := pi_lt_d4
  have hps := pi_sq_le
  clear z1 h1 hn2 hV hA0
  generalize (2 : ℝ) ^ (-53 : ℤ) = v at *
  clear_value L
  have N0 : (0 : ℝ) ≤ y.triangles.length := Nat.cast_nonneg _
  generalize (y.triangles.length : ℝ) = N at *
  have NL : N ≤ 13 / 3 * L := by linarith
  have s3 : 0 < s ^ 3 * v := by positivity
  have s2 : 0 < s ^ 2 * v := by positivity
  have b3 : (N + 60) * N * (1.5 * s) ^ 3 * v + N * ((1.5 * s) ^ 2 * (100 * (v * s))) ≤ 380 * L ^ 2 * s ^ 3 * v := by
    have q : N * (3.375 * (N + 60) + 225) ≤ 13 / 3 * L * (87 * L) := mul_le_mul NL (by linarith) (by positivity) (by positivity)
    have := mul_le_mul_of_nonneg_right q s3.le
    calc _ = N * (3.375 * (N + 60) + 225) * (s ^ 3 * v) := by ring
      _ ≤ _ := this
      _ ≤ 380 * L ^ 2 * s ^ 3 * v := by nlinarith only [mul_pos (show 0 < L ^ 2 by positivity) s3]
  have b2 : 5 * (N + 20) * N * (1.5 * s) ^ 2 * v + N * (6 * (1.5 * s) * (100 * (v * s))) ≤ 1030 * L ^ 2 * s ^ 2 * v := by
    have q : N * (11.25 * (N + 20) + 900) ≤ 13 / 3 * L * (237 * L) := mul_le_mul NL (by linarith) (by positivity) (by positivity)
    have := mul_le_mul_of_nonneg_right q s2.le
    calc _ = N * (11.25 * (N + 20) + 900) * (s ^ 2 * v) := by ring
      _ ≤ _ := this
      _ ≤ 1030 * L ^ 2 * s ^ 2 * v := by nlinarith only [mul_pos (show 0 < L ^ 2 by positivity) s2]
  obtain ⟨a0, a1, a2⟩ := ngon_part (c := 2 * π) (L := L) (by positivity) (by linarith) (by nlinarith only [hpi, L6])
  obtain ⟨c0, c1, c2⟩ := ngon_part (c := π) (L := L) (by positivity) (by linarith) (by nlinarith only [hpi, L6])
  have eV : V = π * r ^ 2 * h * (L * sin (2 * π / L) / (2 * π)) := by rw [← k1]; field_simp
  have eA : A = 2 * π * r * h * (L * sin (π / L) / π) + 2 * π * r ^ 2 * (L * sin (2 * π / L) / (2 * π)) := by rw [← k3]; field_simp
  clear k1 k3
  generalize L * sin (2 * π / L) / (2 * π) = p at *
  generalize L * sin (π / L) / π = q at *
  have d1 : 1 - p ≤ 6.58 * (1 / L ^ 2) := by
    have : (2 * π) ^ 2 / 6 / L ^ 2 = 2 / 3 * π ^ 2 * (1 / L ^ 2) := by ring
    have t := mul_le_mul_of_nonneg_right hps (show 0 ≤ 1 / L ^ 2 by positivity)
    linarith
  have d2 : 1 - q ≤ 1.645 * (1 / L ^ 2) := by
    have : π ^ 2 / 6 / L ^ 2 = 1 / 6 * π ^ 2 * (1 / L ^ 2) := by ring
    have t := mul_le_mul_of_nonneg_right hps (show 0 ≤ 1 / L ^ 2 by positivity)
    linarith
  have t0 : 0 ≤ 1 / L ^ 2 := by positivity
  have t1 : 1 / L ^ 2 ≤ 1 / 36 := one_div_le_one_div_of_le (by norm_num) (by nlinarith only [L6])
  have f1 : 21 / L ^ 2 * (r ^ 2 * h) = 21 * (1 / L ^ 2) * (r ^ 2 * h) := by ring
  have f2 : (11 * (r * h) + 42 * r ^ 2) / L ^ 2 = (11 * (r * h) + 42 * r ^ 2) * (1 / L ^ 2) := by ring
  rw [f1, f2]
  generalize 1 / L ^ 2 = t at *
  have c3 : 0 < r ^ 2 * h := by positivity
  have Gr : |V - π * r ^ 2 * h| ≤ 21 * t * (r ^ 2 * h) := by
    have : V - π * r ^ 2 * h = - (π * (1 - p) * (r ^ 2 * h)) := by rw [eV]; ring
    rw [this, abs_neg, abs_of_nonneg (mul_nonneg (mul_nonneg hpi.le (by linarith)) c3.le)]
    refine mul_le_mul_of_nonneg_right ?_ c3.le
    refine (mul_le_mul hp4.le d1 (by linarith) (by norm_num)).trans ?_
    nlinarith only [t0]
  have Ga : |A - (2 * π * r * h + 2 * π * r ^ 2)| ≤ (11 * (r * h) + 42 * r ^ 2) * t := by
    have e : A - (2 * π * r * h + 2 * π * r ^ 2) = - (2 * π * (1 - q) * (r * h) + 2 * π * (1 - p) * r ^ 2) := by rw [eA]; ring
    have u1 : 0 ≤ 2 * π * (1 - q) := mul_nonneg (by positivity) (by linarith)
    have u2 : 0 ≤ 2 * π * (1 - p) := mul_nonneg (by positivity) (by linarith)
    have w1 : 2 * π * (1 - q) ≤ 11 * t := (mul_le_mul (show 2 * π ≤ 2 * 3.1416 by linarith) d2 (by linarith) (by norm_num)).trans (by nlinarith only [t0])
    have w2 : 2 * π * (1 - p) ≤ 42 * t := (mul_le_mul (show 2 * π ≤ 2 * 3.1416 by linarith) d1 (by linarith) (by norm_num)).trans (by nlinarith only [t0])
    rw [e, abs_neg, abs_of_nonneg (by positivity)]
    have := mul_le_mul_of_nonneg_right w1 (show 0 ≤ r * h by positivity)
    have := mul_le_mul_of_nonneg_right w2 (sq_nonneg r)
    linarith
  refine ⟨x', W, B, hx', k2, k4, fun q1 q2 => k7 (b3.trans ?_), ?_, ?_⟩
  · have l1 : L ^ 2 * v ≤ 131074 ^ 2 * (12 / 100000000000000000) := mul_le_mul (pow_le_pow_left₀ (by linarith) L1 2) v1 v0.le (by norm_num)
    have l3 := (abs_le.1 Gr).1
    have l5 : s ^ 3 ≤ 1000 * (r ^ 2 * h) := by
      have q : s ^ 2 ≤ (10 * r) ^ 2 := pow_le_pow_left₀ s0.le q1 2
      have := mul_le_mul q q2 s0.le (by positivity)
      linarith only [this, show s ^ 2 * s = s ^ 3 by ring, show (10 * r) ^ 2 * (10 * h) = 1000 * (r ^ 2 * h) by ring]
    calc _ = 380 * (L ^ 2 * v) * s ^ 3 := by ring
      _ ≤ 380 * (131074 ^ 2 * (12 / 100000000000000000)) * (1000 * (r ^ 2 * h)) :=
        mul_le_mul (by linarith only [l1]) l5 (by positivity) (by norm_num)
      _ = 380 * (131074 ^ 2 * (12 / 100000000000000000)) * 1000 * (r ^ 2 * h) := by ring
      _ ≤ 1 * (r ^ 2 * h) := mul_le_mul_of_nonneg_right (by norm_num) c3.le
      _ ≤ V := by
        have : 21 * t * (r ^ 2 * h) ≤ 1 * (r ^ 2 * h) := mul_le_mul_of_nonneg_right (by linarith) c3.le
        have : 3 * (r ^ 2 * h) ≤ π * (r ^ 2 * h) := mul_le_mul_of_nonneg_right hp3.le c3.le
        linarith
  · have := abs_sub_le W V (π * r ^ 2 * h)
    linarith
  · have := abs_sub_le B A (2 * π * r * h + 2 * π * r ^ 2)
    linarith

/-- a polyhedron of few triangles -/
theorem measured_few {s ρ d c : ℝ} {F : Nat} {A B : Mesh ℝ} (hA : A.OK) (cl : Close (d * (2 ^ (-53 : ℤ) * s)) A B) (iA : InBall (ρ * s) A) (hs : 1 ≤ s)
    (hs' : s ≤ 2 ^ 199) (hF : A.nbTriangles = F) (hF' : F ≤ 2 ^ 40) (ρ1 : 1 ≤ ρ) (ρ2 : ρ ≤ 1.9) (d0 : 0 ≤ d) (d1 : d ≤ 1000)
    (hc : (F + 60) * F * (ρ + 0.01) ^ 3 + F * ((ρ + 0.01) ^ 2 * d) ≤ c) :
    ∃ V W, Measure.volume A = some V ∧ Rounded.volume double B = some W ∧ |W - V| ≤ c * s ^ 3 * 2 ^ (-53 : ℤ) ∧
      (c * s ^ 3 * 2 ^ (-53 : ℤ) ≤ V → Rounded.isOrientedOutside double B = some true) := by
  have s0 : 0 < s := by linarith
  have hB := cl.ok hA
  have v0 : (0 : ℝ) < 2 ^ (-53 : ℤ) := by positivity
  have v1 : (2 : ℝ) ^ (-53 : ℤ) ≤ 1 / 1000000000000000 := by norm_num
  have dv : d * 2 ^ (-53 : ℤ) ≤ 1000 * (1 / 1000000000000000) := mul_le_mul d1 v1 v0.le (by norm_num)
  have i1 : InBall ((ρ + 0.01) * s) A := iA.mono (by nlinarith)
  have i2 : InBall ((ρ + 0.01) * s) B := (iA.near cl.meshNear hA hB).mono (by nlinarith)
  have len : (A.triangles.length : ℝ) ≤ F := by exact_mod_cast triangles_le hF
  obtain ⟨V, W, -, -, k1, k2, -, -, k5, -, k7⟩ := measured_double hA hB cl.meshNear i1 i2 (by nlinarith)
    (by
      have : (2 : ℝ) ^ 200 = 2 * 2 ^ 199 := by rw [← pow_succ']
      have p : (0 : ℝ) < 2 ^ 199 := by positivity
      rw [this]; generalize (2 : ℝ) ^ 199 = w at *; nlinarith) ((triangles_le hF).trans hF')
  clear hs' v1 dv
  generalize (2 : ℝ) ^ (-53 : ℤ) = v at *
  have N0 : (0 : ℝ) ≤ A.triangles.length := Nat.cast_nonneg _
  generalize (A.triangles.length : ℝ) = N at *
  have b : (N + 60) * N * ((ρ + 0.01) * s) ^ 3 * v + N * (((ρ + 0.01) * s) ^ 2 * (d * (v * s))) ≤ c * s ^ 3 * v := by
    calc _ = ((N + 60) * N * (ρ + 0.01) ^ 3 + N * ((ρ + 0.01) ^ 2 * d)) * (s ^ 3 * v) := by ring
      _ ≤ ((F + 60) * F * (ρ + 0.01) ^ 3 + F * ((ρ + 0.01) ^ 2 * d)) * (s ^ 3 * v) := by gcongr
      _ ≤ c * (s ^ 3 * v) := mul_le_mul_of_nonneg_right hc (by positivity)
      _ = _ := by ring
  exact ⟨V, W, k1, k2, k5.trans b, fun h => k7 (b.trans h)⟩

theorem icosa_norm {s : ℝ} {m x : Mesh ℝ} (h : createIcosahedron s m = some x) :
    ∀ t ∈ x.triangles, t.p1.normSq = (5 - √5) / 2 * s ^ 2 ∧ t.p2.normSq = (5 - √5) / 2 * s ^ 2 ∧ t.p3.normSq = (5 - √5) / 2 * s ^ 2 := by
  obtain ⟨r, hr, -, ht⟩ := icosa_tris s m
  obtain rfl : r = x := Option.some.inj (hr.symm.trans h)
  have h5 : √5 ^ 2 = 5 := Real.sq_sqrt (by norm_num)
  generalize √5 = q at *
  rw [ht]
  simp only [List.mem_cons, List.not_mem_nil, or_false, forall_eq_or_imp, forall_eq, P3.normSq]
  grind

/-- C125: the volumes of the dodecahedron, the icosahedron and the box as computed in `double` -/
theorem platonic_measured {s : ℝ} (h0 : 1 ≤ s) (h1 : s ≤ 2 ^ 199) (m : Mesh ℝ) :
    (∃ x W, createDodecahedronR double s m = some x ∧ Rounded.volume double x = some W ∧ Rounded.isOrientedOutside double x = some true ∧
      |W - (15 + 7 * √5) / 4 * ((√5 - 1) * s) ^ 3| ≤ 22500 * s ^ 3 * 2 ^ (-53 : ℤ)) ∧
    (∃ x W, Rounded.createIcosahedron double s m = some x ∧ Rounded.volume double x = some W ∧ Rounded.isOrientedOutside double x = some true ∧
      |W - 5 * (3 + √5) / 12 * ((√5 - 1) * s) ^ 3| ≤ 3800 * s ^ 3 * 2 ^ (-53 : ℤ)) ∧
    (∀ a b c, 0 ≤ a → a ≤ 2 * s → 0 ≤ b → b ≤ 2 * s → 0 ≤ c → c ≤ 2 * s → ∃ x W, createBoxR double a b c m = some x ∧ Rounded.volume double x = some W ∧
      (4800 * s ^ 3 * 2 ^ (-53 : ℤ) ≤ a * b * c → Rounded.isOrientedOutside double x = some true) ∧
      |W - a * b * c| ≤ 4800 * s ^ 3 * 2 ^ (-53 : ℤ)) := by
  have s0 : 0 < s := by linarith
  have z0 : (2 : ℝ) ^ (-1000 : ℤ) ≤ s := (zpow_le_one_of_nonpos₀ (by norm_num) (by norm_num)).trans h0
  have z1 : s ≤ 2 ^ (1001 : ℤ) := h1.trans (by rw [← zpow_natCast]; exact zpow_le_zpow_right₀ (by norm_num) (by norm_num))
  have F := double_at z0 z1
  have as : |s| ≤ s := (abs_of_pos s0).le
  have v1 : (2 : ℝ) ^ (-53 : ℤ) ≤ 1 / 1000000000000000 := by norm_num
  have s3 : 0 < s ^ 3 := by positivity
  have q1 : (2.236 : ℝ) ≤ √5 := Real.le_sqrt_of_sq_le (by norm_num)
  have q2 : √5 ≤ 2.24 := Real.sqrt_le_iff.2 ⟨by norm_num, by norm_num⟩
  have small : ∀ c : ℝ, c ≤ 22500 → c * s ^ 3 * 2 ^ (-53 : ℤ) ≤ s ^ 3 := by
    intro c hc
    rw [mul_right_comm]
    have : c * 2 ^ (-53 : ℤ) ≤ 1 := by
      refine (mul_le_mul_of_nonneg_right hc (by positivity)).trans ?_
      refine (mul_le_mul_of_nonneg_left v1 (by norm_num)).trans (by norm_num)
    nlinarith
  have cube : s ^ 3 ≤ ((√5 - 1) * s) ^ 3 := pow_le_pow_left₀ s0.le (by nlinarith) 3
  refine ⟨?_, ?_, ?_⟩
  · obtain ⟨x, hx, hp, -, hn, -, hV⟩ := dodecahedron_spec s m
    obtain ⟨x', hx', hc⟩ := dodecahedron_close double_at_one F as m x hx
    have i : InBall (1.74 * s) x := fun t ht => by
      have key : ∀ p : P3 ℝ, p.normSq = 3 * s ^ 2 → p.norm ≤ 1.74 * s := fun p hp => by
        rw [norm_le_iff (by positivity), hp]; nlinarith [sq_nonneg s]
      exact ⟨key _ (hn t ht (t.p1, t.p2) (by simp [Tri3.dirEdges])), key _ (hn t ht (t.p2, t.p3) (by simp [Tri3.dirEdges])),
        key _ (hn t ht (t.p3, t.p1) (by simp [Tri3.dirEdges]))⟩
    obtain ⟨V, W, k1, k2, k3, k4⟩ := measured_few (c := 22500) hp.ok hc i h0 h1 hp.triangles (by norm_num) (by norm_num) (by norm_num) (by norm_num) (by norm_num) (by norm_num)
    rw [hV, Option.some.injEq] at k1
    subst k1
    refine ⟨x', W, hx', k2, k4 ((small _ le_rfl).trans (cube.trans ?_)), k3⟩
    have : 0 < ((√5 - 1) * s) ^ 3 := s3.trans_le cube
    nlinarith
  · obtain ⟨x, hx, hp, -, -, -, hV⟩ := icosahedron_spec s m
    obtain ⟨x', hx', hc⟩ := icosahedron_close double_at_one F as m x hx
    have i : InBall (1.19 * s) x := fun t ht => by
      have key : ∀ p : P3 ℝ, p.normSq = (5 - √5) / 2 * s ^ 2 → p.norm ≤ 1.19 * s := fun p hp => by
        rw [norm_le_iff (by positivity), hp]; nlinarith [sq_nonneg s]
      obtain ⟨n1, n2, n3⟩ := icosa_norm hx t ht
      exact ⟨key _ n1, key _ n2, key _ n3⟩
    obtain ⟨V, W, k1, k2, k3, k4⟩ := measured_few (c := 3800) hp.ok hc i h0 h1 hp.triangles (by norm_num) (by norm_num) (by norm_num) (by norm_num) (by norm_num) (by norm_num)
    rw [hV, Option.some.injEq] at k1
    subst k1
    refine ⟨x', W, hx', k2, k4 ((small _ (by norm_num)).trans (cube.trans ?_)), k3⟩
    have : 0 < ((√5 - 1) * s) ^ 3 := s3.trans_le cube
    nlinarith
  · intro a b c a0 a1 b0 b1 c0 c1
    obtain ⟨x, hx, hp, hn, -, hV⟩ := box_spec a b c m
    obtain ⟨x', hx', hc⟩ := box_close F (by rwa [abs_of_nonneg a0]) (by rwa [abs_of_nonneg b0]) (by rwa [abs_of_nonneg c0]) m x hx
    have i : InBall (1.74 * s) x := fun t ht => by
      have key : ∀ p : P3 ℝ, ((p.x = a / 2 ∨ p.x = -(a / 2)) ∧ (p.y = b / 2 ∨ p.y = -(b / 2)) ∧ (p.z = c / 2 ∨ p.z = -(c / 2))) → p.norm ≤ 1.74 * s := fun p hp => by
        rw [norm_le_iff (by positivity)]
        have hx : p.x ^ 2 = (a / 2) ^ 2 := by rcases hp.1 with h | h <;> rw [h] <;> ring
        have hy : p.y ^ 2 = (b / 2) ^ 2 := by rcases hp.2.1 with h | h <;> rw [h] <;> ring
        have hz : p.z ^ 2 = (c / 2) ^ 2 := by rcases hp.2.2 with h | h <;> rw [h] <;> ring
        have e : p.normSq = p.x ^ 2 + p.y ^ 2 + p.z ^ 2 := by unfold P3.normSq; ring
        rw [e, hx, hy, hz]
        have := pow_le_pow_left₀ (show 0 ≤ a / 2 by linarith) (show a / 2 ≤ s by linarith) 2
        have := pow_le_pow_left₀ (show 0 ≤ b / 2 by linarith) (show b / 2 ≤ s by linarith) 2
        have := pow_le_pow_left₀ (show 0 ≤ c / 2 by linarith) (show c / 2 ≤ s by linarith) 2
        nlinarith [sq_nonneg s]
      exact ⟨key _ (hn t ht (t.p1, t.p2) (by simp [Tri3.dirEdges])), key _ (hn t ht (t.p2, t.p3) (by simp [Tri3.dirEdges])),
        key _ (hn t ht (t.p3, t.p1) (by simp [Tri3.dirEdges]))⟩
    obtain ⟨V, W, k1, k2, k3, k4⟩ := measured_few (c := 4800) hp.ok hc i h0 h1 hp.triangles (by norm_num) (by norm_num) (by norm_num) (by norm_num) (by norm_num) (by norm_num)
    rw [hV, Option.some.injEq] at k1
    subst k1
    exact ⟨x', W, hx', k2, k4, k3⟩

/-! ### Concrete cases -/

/-- the sphere of radius 10 with 50 segments, with correctly rounded `cos` and `sin`: 40804 triangles;
the volume 4188.79 is within 1.8 (mostly the polygons), the area 1256.64 within 0.4 -/
example (m : Mesh ℝ) : ∃ x W A, createSphereUvR double (fun t => double (cos t)) (fun t => double (sin t)) 10 (50 : Nat) m = some x ∧
    Rounded.volume double x = some W ∧ Rounded.surface double x = some A ∧ Rounded.isOrientedOutside double x = some true ∧
    |W - 4 / 3 * π * 10 ^ 3| ≤ 1.8 ∧ |A - 4 * π * 10 ^ 2| ≤ 0.4 := by
  obtain ⟨x, W, A, h1, h2, h3, h4, h5, h6⟩ := sphere_uv_measured lib_trig (r := 10) (by norm_num) (by norm_num) (n := 50) (by norm_num) (by norm_num) m
  exact ⟨x, W, A, h1, h2, h3, h4, h5.trans (by norm_num), h6.trans (by norm_num)⟩

/-- a ring of radius 10 and thickness 2 -/
example (m : Mesh ℝ) : ∃ x W A, createTorusR double (fun t => double (cos t)) (fun t => double (sin t)) 10 2 (100 : Nat) m = some x ∧
    Rounded.volume double x = some W ∧ Rounded.surface double x = some A ∧ Rounded.isOrientedOutside double x = some true ∧
    |W - 2 * π ^ 2 * 10 * 2 ^ 2| ≤ 0.16 ∧ |A - 4 * π ^ 2 * 10 * 2| ≤ 0.1 := by
  obtain ⟨x, W, A, h1, h2, h3, h4, h5, h6⟩ := torus_measured lib_trig (R := 10) (r := 2) (by norm_num) (by norm_num) (by norm_num) (by norm_num) (n := 100) (by norm_num)
    (by norm_num) m
  exact ⟨x, W, A, h1, h2, h3, h4 (by norm_num), h5.trans (by norm_num), h6.trans (by norm_num)⟩

/-- a tin -/
example (m : Mesh ℝ) : ∃ x W A, createCylinderR double (fun t => double (cos t)) (fun t => double (sin t)) 12 5 (100 : Nat) m = some x ∧
    Rounded.volume double x = some W ∧ Rounded.surface double x = some A ∧ Rounded.isOrientedOutside double x = some true ∧
    |W - π * 5 ^ 2 * 12| ≤ 0.04 ∧ |A - (2 * π * 5 * 12 + 2 * π * 5 ^ 2)| ≤ 0.02 := by
  obtain ⟨x, W, A, h1, h2, h3, h4, h5, h6⟩ := cylinder_measured lib_trig (s := 6) (h := 12) (r := 5) (by norm_num) (by norm_num) (by norm_num) (by norm_num) (by norm_num)
    (by norm_num) (n := 100) (by norm_num) (by norm_num) m
  exact ⟨x, W, A, h1, h2, h3, h4 (by norm_num) (by norm_num), h5.trans (by norm_num), h6.trans (by norm_num)⟩

/-- a box of 3 by 2 by 1 -/
example (m : Mesh ℝ) : ∃ x W, createBoxR double 3 2 1 m = some x ∧ Rounded.volume double x = some W ∧ Rounded.isOrientedOutside double x = some true ∧
    |W - 6| ≤ 1 / 10 ^ 11 := by
  obtain ⟨x, W, h1, h2, h3, h4⟩ := (platonic_measured (s := 3 / 2) (by norm_num) (by norm_num) m).2.2 3 2 1 (by norm_num) (by norm_num) (by norm_num) (by norm_num) (by norm_num) (by norm_num)
  exact ⟨x, W, h1, h2, h3 (by norm_num), by norm_num at h4 ⊢; exact h4.trans (by norm_num)⟩

/-- a sphere of 10 millimetres in the mesh sense: closed, and every vertex at distance 10 up to 3e-13 -/
example (m : Mesh ℝ) : ∃ x', createSphereUvR double (fun t => double (cos t)) (fun t => double (sin t)) 10 4 m = some x' ∧ ClosedIds x'.cornerList ∧
    ∀ i p, x'.getVertex i = some p → |p.norm - 10| ≤ 3 / 10 ^ 13 := by
  obtain ⟨-, x', -, h1, h2, -, h3⟩ := sphere_uv_double lib_trig (r := 10) ((zpow_le_one_of_nonpos₀ (by norm_num) (by norm_num)).trans (by norm_num))
    ((show (10 : ℝ) ≤ 2 ^ (10 : ℤ) by norm_num).trans (zpow_le_zpow_right₀ (by norm_num) (by norm_num))) (n := 4) (by norm_num) m
  exact ⟨x', h1, h2.closed, fun i p hp => (h3 i p hp).trans (by norm_num)⟩

end Factory
end CAD
