import Verif.Props.NurbsShapes

/-! C55 continued: disk, sphere, torus, cylinder; C78: quads and boxes. -/

set_option linter.unusedSimpArgs false

namespace CAD
namespace Nurbs
open BSpline
variable {K : Type} [Field K] [LinearOrder K] [IsStrictOrderedRing K]

/-- `P` is a point of the surface -/
def Surface.Hits (S : Surface K) (P : P3 K) : Prop := ∃ u v, 0 ≤ u ∧ u ≤ 1 ∧ 0 ≤ v ∧ v ≤ 1 ∧ S.at u v = some P

theorem mapPoints_at {S : Surface K} {p q nu nv : Nat} (h : S.Valid p q nu nv) (f : P3 K → P3 K) (r1 r2 r3 t : P3 K)
    (hf : ∀ P, f P = affine r1 r2 r3 t P) (u v : K) : (S.mapPoints f).at u v = (S.at u v).map f := by
  obtain rfl : f = affine r1 r2 r3 t := funext hf
  exact surface_evaluate_affine h _ _ _ _ u v

theorem mirrorY_at {S : Surface K} {p q nu nv : Nat} (h : S.Valid p q nu nv) (u v : K) :
    (S.mapPoints mirrorY).at u v = (S.at u v).map mirrorY :=
  mapPoints_at h _ ⟨1, 0, 0⟩ ⟨0, -1, 0⟩ ⟨0, 0, 1⟩ ⟨0, 0, 0⟩ (fun P => by ext <;> simp [mirrorY, affine, P3.dot]) u v

theorem map_hits {S : Surface K} {f g : P3 K → P3 K} (hat : ∀ u v, (S.mapPoints f).at u v = (S.at u v).map f)
    (hfg : ∀ P, f (g P) = P) (hgf : ∀ P, g (f P) = P) (P : P3 K) : (S.mapPoints f).Hits P ↔ S.Hits (g P) := by
  constructor
  · rintro ⟨u, v, a, b, c, d, e⟩
    rw [hat] at e
    obtain ⟨Q, hQ, rfl⟩ := Option.map_eq_some_iff.1 e
    exact ⟨u, v, a, b, c, d, by rw [hQ, hgf]⟩
  · rintro ⟨u, v, a, b, c, d, e⟩
    exact ⟨u, v, a, b, c, d, by rw [hat, e, Option.map_some, hfg]⟩

/-- A surface of revolution consists of the points with the height and the distance
from the axis of a point of the profile. -/
theorem revolve_hits {nc : Curve ℝ} {q n : Nat} (h : nc.Valid q n) (tol : ℝ) (ns : Surface ℝ) :
    ∃ S, revolve tol (Real.sqrt 2) nc ns = some S ∧ S.Valid 2 q 9 n ∧ ∀ P, S.Hits P ↔
      ∃ v Q, 0 ≤ v ∧ v ≤ 1 ∧ nc.at v = some Q ∧ P.z = Q.z ∧ P.x ^ 2 + P.y ^ 2 = Q.x ^ 2 + Q.y ^ 2 := by
  have hr : Real.sqrt 2 * Real.sqrt 2 = 2 := Real.mul_self_sqrt (by norm_num)
  have h2 : 0 < Real.sqrt 2 := Real.sqrt_pos.2 (by norm_num)
  obtain ⟨S, e, hv, -, hspin, -⟩ := revolve_spec h tol hr h2 ns
  obtain ⟨S', e', hcov⟩ := revolve_covers h tol ns
  obtain rfl : S = S' := Option.some_inj.1 (e.symm.trans e')
  refine ⟨S, e, hv, fun P => ⟨?_, ?_⟩⟩
  · rintro ⟨u, v, -, -, v0, v1, hP⟩
    obtain ⟨c, s, hcs, -, hat⟩ := hspin u
    rw [hat v] at hP
    obtain ⟨Q, hQ, rfl⟩ := Option.map_eq_some_iff.1 hP
    refine ⟨v, Q, v0, v1, hQ, rfl, ?_⟩
    simp only [spin]
    linear_combination (Q.x ^ 2 + Q.y ^ 2) * hcs
  · rintro ⟨v, Q, v0, v1, hQ, hz, hxy⟩
    obtain ⟨c, s, hcs, hP⟩ : ∃ c s : ℝ, c ^ 2 + s ^ 2 = 1 ∧ spin c s Q = P := by
      by_cases h0 : Q.x ^ 2 + Q.y ^ 2 = 0
      · have a1 : Q.x = 0 := by nlinarith [sq_nonneg Q.x, sq_nonneg Q.y]
        have a2 : Q.y = 0 := by nlinarith [sq_nonneg Q.x, sq_nonneg Q.y]
        have a3 : P.x = 0 := by nlinarith [sq_nonneg P.x, sq_nonneg P.y]
        have a4 : P.y = 0 := by nlinarith [sq_nonneg P.x, sq_nonneg P.y]
        exact ⟨1, 0, by norm_num, by ext <;> simp [spin, a1, a2, a3, a4, hz]⟩
      · refine ⟨(P.x * Q.x + P.y * Q.y) / (Q.x ^ 2 + Q.y ^ 2), (P.x * Q.y - P.y * Q.x) / (Q.x ^ 2 + Q.y ^ 2), ?_, ?_⟩
        · field_simp
          linear_combination (Q.x ^ 2 + Q.y ^ 2) * hxy
        · ext
          · simp only [spin]; field_simp; ring
          · simp only [spin]; field_simp; ring
          · simp [spin, hz]
    obtain ⟨u, u0, u1, hu⟩ := hcov c s hcs
    exact ⟨u, v, u0, u1, v0, v1, by rw [hu v, hQ, Option.map_some, hP]⟩

/-! ### disk -/

theorem diskProfile (r : K) : ∃ c : Curve K, (Curve.new.setDegree 1).bind (fun nc =>
      (nc.setPoints [⟨0, 0, 0⟩, ⟨r, 0, 0⟩]).setUniform) = some c ∧ c.setEqualsWeights.Valid 1 2 ∧
      ∀ u, c.setEqualsWeights.at u = some ⟨u * r, 0, 0⟩ := by
  obtain ⟨tp, tw, e, l1, l2⟩ := setDegree_curve (Curve.new : Curve K) 1
  obtain ⟨c', e', h, -, -, -, h'⟩ := line_curve (⟨0, 0, 0⟩ : P3 K) ⟨r, 0, 0⟩
    { (Curve.new : Curve K) with degree := ((1 : Nat) : Int), tempPoints := tp, tempWeights := tw } rfl l1.ge l2.ge
  simp only [Nat.cast_one] at e e'
  refine ⟨c', by rw [e, Option.bind_some, e'], h, fun u => ?_⟩
  rw [h' u]
  congr 1
  ext <;> simp

/-- C55, disk: exactly the points of the plane `z = 0` at distance at most `r` from the
origin, whatever the target held. -/
theorem disk_exact (tol r : ℝ) (ns : Surface ℝ) :
    ∃ S, createDisk tol (Real.sqrt 2) r ns = some S ∧ S.Valid 2 1 9 2 ∧
      ∀ P, S.Hits P ↔ P.z = 0 ∧ P.x ^ 2 + P.y ^ 2 ≤ r ^ 2 := by
  obtain ⟨c, e, hv, hat⟩ := diskProfile r
  obtain ⟨S, e', hv', hits⟩ := revolve_hits hv tol ns.clear
  refine ⟨S, ?_, hv', fun P => (hits P).trans ⟨?_, ?_⟩⟩
  · unfold createDisk
    simp only [Option.bind_eq_bind]
    rw [← Option.bind_assoc, e, Option.bind_some]
    exact e'
  · rintro ⟨v, Q, v0, v1, hQ, hz, hxy⟩
    rw [hat, Option.some_inj] at hQ
    subst hQ
    refine ⟨hz, ?_⟩
    rw [hxy]
    simp only
    have : v ^ 2 ≤ 1 := by nlinarith
    nlinarith [sq_nonneg r]
  · rintro ⟨hz, hxy⟩
    by_cases hr : r = 0
    · subst hr
      exact ⟨0, ⟨0, 0, 0⟩, le_rfl, zero_le_one, by rw [hat]; simp, hz, by
        have := sq_nonneg P.x; have := sq_nonneg P.y; simp only; nlinarith⟩
    · refine ⟨Real.sqrt (P.x ^ 2 + P.y ^ 2) / |r|, _, div_nonneg (Real.sqrt_nonneg _) (abs_nonneg _), ?_, hat _, hz, ?_⟩
      · rw [div_le_one (abs_pos.2 hr)]
        exact Real.sqrt_le_sqrt hxy |>.trans (by rw [Real.sqrt_sq_eq_abs])
      · simp only
        rw [mul_pow, div_pow, Real.sq_sqrt (by positivity), sq_abs]
        field_simp
        ring

/-! ### sphere -/

theorem knotsHalf_clamped : ClampedKnots (knotsHalf : List K) 2 5 := by
  refine ⟨rfl, ?_, ?_, ?_⟩
  · simp only [knotsHalf, List.pairwise_cons, List.mem_cons, List.not_mem_nil, or_false, forall_eq_or_imp, forall_eq,
      List.Pairwise.nil, and_true, false_imp_iff, implies_true]
    norm_num
  · intro i hi
    obtain rfl | rfl | rfl : i = 0 ∨ i = 1 ∨ i = 2 := by omega
    all_goals rfl
  · intro i h1 h2
    obtain rfl | rfl | rfl : i = 5 ∨ i = 6 ∨ i = 7 := by omega
    all_goals rfl

theorem knotsHalf_span {t : K} {k : Nat} (h : InSpan (knotsHalf : List K) t k) : ∃ j < 2, k = 2 * j + 2 := by
  obtain ⟨h1, h2⟩ := h.range knotsHalf_clamped
  have := h.1
  obtain rfl | rfl | rfl : k = 2 ∨ k = 3 ∨ k = 4 := by omega
  · exact ⟨0, by omega, rfl⟩
  · simp [kn, knotsHalf] at this
  · exact ⟨1, by omega, rfl⟩

theorem knotsHalf_deB {M : Type} [AddCommGroup M] [Module K M] (u : K) {j : Nat} (hj : j < 2) (f : Nat → M) :
    deB (kn (knotsHalf : List K)) u 2 f (2 * j + 2) = (1 - (2 * u - j)) ^ 2 • f (2 * j) +
      (2 * (2 * u - j) * (1 - (2 * u - j))) • f (2 * j + 1) + (2 * u - j) ^ 2 • f (2 * j + 2) := by
  have h := deB_arc (kn (knotsHalf : List K)) (2 * j) (j / 2) ((j + 1) / 2) u ?_ ?_ ?_ ?_ f
  · have e : (u - (j : K) / 2) / (((j : K) + 1) / 2 - j / 2) = 2 * u - j := by
      have : ((j : K) + 1) / 2 - j / 2 = 1 / 2 := by ring
      rw [this]; ring
    simp only [e] at h
    exact h
  all_goals
    obtain rfl | rfl : j = 0 ∨ j = 1 := by omega
    all_goals simp [kn, knotsHalf]
    all_goals norm_num

/-- from the circle in the plane `z = 0` to the half circle of the sphere -/
def uprightL : P3 K →ₗ[K] P3 K where
  toFun p := ⟨0, -p.y, -p.x⟩
  map_add' p q := by ext <;> simp <;> ring
  map_smul' a p := by ext <;> simp

theorem sphereProfile_valid (r2 r : K) :
    ∃ c, sphereProfile r2 r = some c ∧ c.Valid 2 5 ∧ c.knots = knotsHalf ∧
      ∀ i < 5, c.pairs i = LinearMap.prodMap uprightL LinearMap.id (ringMap r2 i (⟨r, 0, 0⟩, 1)) := by
  obtain ⟨tp, tw, e, l1, l2⟩ := setDegree_curve (Curve.new : Curve K) 2
  simp only [Nat.cast_ofNat] at e
  refine ⟨_, by simp only [sphereProfile, e, Option.bind_eq_bind, Option.bind_some, Curve.setKnots,
    scaleKnots_self knotsHalf_clamped, Option.pure_def]; rfl,
    ⟨rfl, rfl, rfl, rfl, knotsHalf_clamped, l1.ge, l2.ge⟩, rfl, ?_⟩
  intro i hi
  have := circle_pair r2 1 (⟨r, 0, 0⟩ : P3 K) (show i < 9 by omega)
  rw [one_smul] at this
  rw [← this]
  obtain rfl | rfl | rfl | rfl | rfl : i = 0 ∨ i = 1 ∨ i = 2 ∨ i = 3 ∨ i = 4 := by omega
  all_goals
    refine Prod.ext (P3.ext ?_ ?_ ?_) ?_ <;>
      simp [Curve.pairs, Curve.hp, Curve.hw, Curve.setPoints, Curve.setWeights, circleWts, circlePts, turn, diag, uprightL]

theorem sphereProfile_arc {r2 : K} (hr : r2 * r2 = 2) (h2 : 0 < r2) {r : K} {c : Curve K} (hv : c.Valid 2 5)
    (hk : c.knots = knotsHalf)
    (hp : ∀ i < 5, c.pairs i = LinearMap.prodMap uprightL LinearMap.id (ringMap r2 i (⟨r, 0, 0⟩, 1))) (u : K) (j : Nat)
    (hj : j < 2) (hs : InSpan (knotsHalf : List K) (clamp u) (2 * j + 2)) :
    let x := 2 * u - j
    let D := (1 - x) ^ 2 + r2 * x * (1 - x) + x ^ 2
    let c' := ((1 - x) ^ 2 + r2 * x * (1 - x)) / D
    let s' := (x ^ 2 + r2 * x * (1 - x)) / D
    c.at u = some (if j = 0 then ⟨0, r * s', r * -c'⟩ else ⟨0, r * c', r * s'⟩) := by
  intro x D c' s'
  obtain ⟨hpk, hkn⟩ := hs.range knotsHalf_clamped
  have hD : D ≠ 0 := (arc_pos r2 x hr h2).ne'
  rw [at_pair hv (by rw [hk]; exact hs), hk, deB_congr _ _ hpk fun i h1 _ => hp i (by omega), deB_map, knotsHalf_deB u hj,
    ring_arc hr h2.ne' _ _ (by omega)]
  change project (uprightL (turn^[j] ⟨_ * r + _ * 0, _, D * 0⟩), D * 1) = _
  simp only [project, mul_one, if_neg hD, Option.some_inj, c', s']
  obtain rfl | rfl : j = 0 ∨ j = 1 := by omega
  all_goals
    simp only [Function.iterate_succ, Function.iterate_zero, id, Function.comp, turn, P3.ext_iff, P3.smul_x,
      P3.smul_y, P3.smul_z, uprightL, LinearMap.coe_mk, AddHom.coe_mk, if_true, one_ne_zero, if_false]
    refine ⟨?_, ?_, ?_⟩ <;> field_simp <;> (try ring)

/-- The profile of the sphere is the half circle `x = 0`, `y ≥ 0`. -/
theorem sphereProfile_spec {r2 : K} (hr : r2 * r2 = 2) (h2 : 0 < r2) (r : K) :
    ∃ C, sphereProfile r2 r = some C ∧ C.Valid 2 5 ∧
      ∀ u, ∃ c s : K, c ^ 2 + s ^ 2 = 1 ∧ (0 ≤ u → u ≤ 1 → 0 ≤ s) ∧ C.at u = some ⟨0, r * s, r * c⟩ := by
  obtain ⟨C, e, hv, hk, hp⟩ := sphereProfile_valid r2 r
  refine ⟨C, e, hv, fun u => ?_⟩
  obtain ⟨k, hs⟩ := exists_inSpan (knotsHalf_clamped (K := K)) (clamp_nonneg u) (clamp_le_one u)
  obtain ⟨j, hj, rfl⟩ := knotsHalf_span hs
  have hm := sphereProfile_arc hr h2 hv hk hp u j hj hs
  have hpos := arc_pos r2 (2 * u - j) hr h2
  have hne := hpos.ne'
  have huni : (((1 - (2 * u - j)) ^ 2 + r2 * (2 * u - j) * (1 - (2 * u - j))) /
      ((1 - (2 * u - j)) ^ 2 + r2 * (2 * u - j) * (1 - (2 * u - j)) + (2 * u - j) ^ 2)) ^ 2 +
      (((2 * u - j) ^ 2 + r2 * (2 * u - j) * (1 - (2 * u - j))) /
      ((1 - (2 * u - j)) ^ 2 + r2 * (2 * u - j) * (1 - (2 * u - j)) + (2 * u - j) ^ 2)) ^ 2 = 1 := by
    rw [div_pow, div_pow, ← add_div, arc_identity r2 _ hr, div_self (pow_ne_zero 2 hne)]
  have hx : 0 ≤ u → u ≤ 1 → 0 ≤ 2 * u - j ∧ 2 * u - (j : K) ≤ 1 := by
    intro h0 h1
    rw [clamp_of_mem h0 h1] at hs
    obtain ⟨-, a, b, -⟩ := hs
    obtain rfl | rfl : j = 0 ∨ j = 1 := by omega
    · simp [kn, knotsHalf] at a b
      constructor <;> push_cast <;> linarith
    · simp [kn, knotsHalf] at a b
      constructor <;> push_cast <;> linarith
  have hq : 0 ≤ u → u ≤ 1 → 0 ≤ r2 * (2 * u - j) * (1 - (2 * u - j)) := fun h0 h1 =>
    mul_nonneg (mul_nonneg h2.le (hx h0 h1).1) (sub_nonneg.2 (hx h0 h1).2)
  obtain rfl | rfl : j = 0 ∨ j = 1 := by omega
  · exact ⟨_, _, by rw [neg_sq]; exact huni, fun h0 h1 => div_nonneg (add_nonneg (sq_nonneg _) (hq h0 h1)) hpos.le, hm⟩
  · exact ⟨_, _, by rw [add_comm]; exact huni, fun h0 h1 => div_nonneg (add_nonneg (sq_nonneg _) (hq h0 h1)) hpos.le, hm⟩

theorem sphereProfile_covers (r : ℝ) {C : Curve ℝ} (e : sphereProfile (Real.sqrt 2) r = some C) {c s : ℝ}
    (h1 : c ^ 2 + s ^ 2 = 1) (hs : 0 ≤ s) : ∃ u, 0 ≤ u ∧ u ≤ 1 ∧ C.at u = some ⟨0, r * s, r * c⟩ := by
  have hr : Real.sqrt 2 * Real.sqrt 2 = 2 := Real.mul_self_sqrt (by norm_num)
  have h2 : 0 < Real.sqrt 2 := Real.sqrt_pos.2 (by norm_num)
  obtain ⟨C', e', hv, hk, hp⟩ := sphereProfile_valid (Real.sqrt 2) r
  obtain rfl : C = C' := Option.some_inj.1 (e.symm.trans e')
  rcases le_total c 0 with hc | hc
  · obtain ⟨x, x0, x1, hxc, hxs⟩ := arc_onto hr h2 (c := -c) (s := s) (by linarith) hs (by linarith)
    have hcl : clamp (x / 2) = x / 2 := clamp_of_mem (by linarith) (by linarith)
    rcases x1.eq_or_lt with rfl | x1
    · norm_num at hxc hxs
      refine ⟨1 / 2, by norm_num, by norm_num, ?_⟩
      rw [sphereProfile_arc hr h2 hv hk hp _ 1 (by omega) (by
        rw [hcl]; refine ⟨?_, ?_, ?_, ?_⟩ <;> simp [kn, knotsHalf] <;> norm_num)]
      norm_num [hxc, hxs]
      simp [← hxs]
    · refine ⟨x / 2, by linarith, by linarith, ?_⟩
      rw [sphereProfile_arc hr h2 hv hk hp _ 0 (by omega) (by
        rw [hcl]; refine ⟨?_, ?_, ?_, fun _ => ?_⟩ <;> simp [kn, knotsHalf] <;> linarith)]
      have : 2 * (x / 2) - ((0 : Nat) : ℝ) = x := by push_cast; ring
      simp only [this, hxc, hxs, if_true, neg_neg]
  · obtain ⟨x, x0, x1, hxc, hxs⟩ := arc_onto hr h2 (c := s) (s := c) hs hc (by linarith)
    have hcl : clamp ((x + 1) / 2) = (x + 1) / 2 := clamp_of_mem (by linarith) (by linarith)
    refine ⟨(x + 1) / 2, by linarith, by linarith, ?_⟩
    rw [sphereProfile_arc hr h2 hv hk hp _ 1 (by omega) (by
      rw [hcl]; refine ⟨?_, ?_, ?_, fun _ => ?_⟩ <;> simp [kn, knotsHalf] <;> linarith)]
    have : 2 * ((x + 1) / 2) - ((1 : Nat) : ℝ) = x := by push_cast; ring
    simp only [this, hxc, hxs, one_ne_zero, if_false]

/-- C55, sphere: for all parameters, over any field, `x² + y² + z² = r²`. -/
theorem sphere_equation (tol : K) {r2 : K} (hr : r2 * r2 = 2) (h2 : 0 < r2) (r : K) (ns : Surface K) :
    ∃ S, createSphere tol r2 r ns = some S ∧ S.Valid 2 2 9 5 ∧
      ∀ u v, ∃ P, S.at u v = some P ∧ P.x ^ 2 + P.y ^ 2 + P.z ^ 2 = r ^ 2 := by
  obtain ⟨C, e, hv, hat⟩ := sphereProfile_spec hr h2 r
  obtain ⟨S, e', hv', -, hspin, -⟩ := revolve_spec hv tol hr h2 ns.clear
  refine ⟨S.mapPoints mirrorY, by simp [createSphere, e, e'], ?_, fun u v => ?_⟩
  · exact ⟨hv'.degreeU, hv'.degreeV, hv'.nbU, hv'.nbV, by simpa [Surface.mapPoints] using hv'.points, hv'.weights,
      hv'.knotsU, hv'.knotsV, hv'.tempPointsU, hv'.tempPointsV, hv'.tempWeightsU, hv'.tempWeightsV⟩
  · obtain ⟨c, s, hcs, -, hs⟩ := hspin u
    obtain ⟨c', s', hcs', -, hs'⟩ := hat v
    rw [mirrorY_at hv', hs v, hs']
    refine ⟨_, rfl, ?_⟩
    simp only [spin, mirrorY]
    linear_combination (r * s') ^ 2 * hcs + r ^ 2 * hcs'

/-- C55, sphere, over the reals: the surface is exactly the sphere. -/
theorem sphere_exact (tol r : ℝ) (ns : Surface ℝ) :
    ∃ S, createSphere tol (Real.sqrt 2) r ns = some S ∧ ∀ P, S.Hits P ↔ P.x ^ 2 + P.y ^ 2 + P.z ^ 2 = r ^ 2 := by
  have hr : Real.sqrt 2 * Real.sqrt 2 = 2 := Real.mul_self_sqrt (by norm_num)
  have h2 : 0 < Real.sqrt 2 := Real.sqrt_pos.2 (by norm_num)
  obtain ⟨C, e, hv, hat⟩ := sphereProfile_spec hr h2 r
  obtain ⟨S, e', hv', hits⟩ := revolve_hits hv tol ns.clear
  refine ⟨S.mapPoints mirrorY, by simp [createSphere, e, e'], fun P => ?_⟩
  rw [map_hits (mirrorY_at hv') (g := mirrorY) (fun P => by simp [mirrorY]) (fun P => by simp [mirrorY]), hits]
  constructor
  · rintro ⟨v, Q, v0, v1, hQ, hz, hxy⟩
    obtain ⟨c, s, hcs, -, hs⟩ := hat v
    rw [hs, Option.some_inj] at hQ
    subst hQ
    simp only [mirrorY] at hz hxy
    rw [hz]
    linear_combination hxy + r ^ 2 * hcs
  · intro h
    by_cases hr0 : r = 0
    · subst hr0
      obtain ⟨v, v0, v1, hv⟩ := sphereProfile_covers 0 e (c := 1) (s := 0) (by norm_num) le_rfl
      have a1 : P.x = 0 := by nlinarith [sq_nonneg P.x, sq_nonneg P.y, sq_nonneg P.z]
      have a2 : P.y = 0 := by nlinarith [sq_nonneg P.x, sq_nonneg P.y, sq_nonneg P.z]
      have a3 : P.z = 0 := by nlinarith [sq_nonneg P.x, sq_nonneg P.y, sq_nonneg P.z]
      exact ⟨v, _, v0, v1, hv, by simp [mirrorY, a3], by simp [mirrorY, a1, a2]⟩
    · have hz : (P.z / r) ^ 2 ≤ 1 := by
        rw [div_pow, div_le_one (by positivity)]
        nlinarith [sq_nonneg P.x, sq_nonneg P.y]
      obtain ⟨v, v0, v1, hv⟩ := sphereProfile_covers r e (c := P.z / r) (s := Real.sqrt (1 - (P.z / r) ^ 2))
        (by rw [Real.sq_sqrt (by linarith)]; ring) (Real.sqrt_nonneg _)
      refine ⟨v, _, v0, v1, hv, ?_, ?_⟩
      · simp only [mirrorY]; field_simp
      · simp only [mirrorY]
        rw [mul_pow, Real.sq_sqrt (by linarith)]
        field_simp
        linear_combination h

/-- the hypotheses on `r2` hold for the square root of two -/
example : ∃ S : Surface ℝ, createSphere (1 / 1000) (Real.sqrt 2) 3 Surface.new = some S ∧ S.Valid 2 2 9 5 ∧
    ∀ u v, ∃ P, S.at u v = some P ∧ P.x ^ 2 + P.y ^ 2 + P.z ^ 2 = 3 ^ 2 :=
  sphere_equation _ (Real.mul_self_sqrt (by norm_num)) (Real.sqrt_pos.2 (by norm_num)) 3 _

/-! ### torus -/

theorem torusProfile {r2 : K} (hr : r2 * r2 = 2) (h2 : 0 < r2) (major minor : K) :
    ∃ C, createCircle r2 minor Curve.new = some C ∧ (C.mapPoints fun p => ⟨p.x + major, -p.z, p.y⟩).Valid 2 9 ∧
      (∀ v, (C.mapPoints fun p => ⟨p.x + major, -p.z, p.y⟩).at v = (C.at v).map fun p => ⟨p.x + major, -p.z, p.y⟩) ∧
      ∀ v, ∃ c s : K, c ^ 2 + s ^ 2 = 1 ∧
        (C.mapPoints fun p => ⟨p.x + major, -p.z, p.y⟩).at v = some ⟨minor * c + major, 0, minor * s⟩ := by
  obtain ⟨C, e, hv, hcs, -⟩ := circle_exact hr h2 minor Curve.new
  have hf : (fun p : P3 K => (⟨p.x + major, -p.z, p.y⟩ : P3 K)) =
      affine ⟨1, 0, 0⟩ ⟨0, 0, -1⟩ ⟨0, 1, 0⟩ ⟨major, 0, 0⟩ := by
    funext p; ext <;> simp [affine, P3.dot]
  have hm : ∀ v, (C.mapPoints fun p => ⟨p.x + major, -p.z, p.y⟩).at v =
      (C.at v).map fun p => ⟨p.x + major, -p.z, p.y⟩ := by
    intro v; rw [hf]; exact evaluate_affine hv _ _ _ _ v
  refine ⟨C, e, ⟨hv.degree, by simpa [Curve.mapPoints] using hv.points, hv.nbPoints, hv.weights, hv.knots, hv.tempPoints,
    hv.tempWeights⟩, hm, fun v => ?_⟩
  obtain ⟨c, s, h1, -, h3⟩ := hcs v
  exact ⟨c, s, h1, by rw [hm, h3]; simp⟩

/-- C55, torus: for all parameters, over any field, the equation of the torus of radii
`R` and `r`. -/
theorem torus_equation (tol : K) {r2 : K} (hr : r2 * r2 = 2) (h2 : 0 < r2) (major minor : K) (ns : Surface K) :
    ∃ S, createTorus tol r2 major minor ns = some S ∧ S.Valid 2 2 9 9 ∧
      ∀ u v, ∃ P, S.at u v = some P ∧
        (P.x ^ 2 + P.y ^ 2 + P.z ^ 2 + major ^ 2 - minor ^ 2) ^ 2 = 4 * major ^ 2 * (P.x ^ 2 + P.y ^ 2) := by
  obtain ⟨C, e, hv, -, hat⟩ := torusProfile hr h2 major minor
  obtain ⟨S, e', hv', -, hspin, -⟩ := revolve_spec hv tol hr h2 ns.clear
  refine ⟨S, by simp [createTorus, e, e'], hv', fun u v => ?_⟩
  obtain ⟨c, s, hcs, -, hs⟩ := hspin u
  obtain ⟨c', s', hcs', hs'⟩ := hat v
  rw [hs v, hs']
  refine ⟨_, rfl, ?_⟩
  simp only [spin]
  have hxy : (c * (minor * c' + major) + s * 0) ^ 2 + (c * 0 - s * (minor * c' + major)) ^ 2 = (minor * c' + major) ^ 2 := by
    linear_combination (minor * c' + major) ^ 2 * hcs
  rw [hxy]
  have : (minor * c' + major) ^ 2 + (minor * s') ^ 2 + major ^ 2 - minor ^ 2 = 2 * major * (minor * c' + major) := by
    linear_combination minor ^ 2 * hcs'
  rw [this]
  ring

/-- C55, torus, over the reals: the surface is exactly the torus. -/
theorem torus_exact (tol major minor : ℝ) (hR : major ≠ 0) (ns : Surface ℝ) :
    ∃ S, createTorus tol (Real.sqrt 2) major minor ns = some S ∧ ∀ P, S.Hits P ↔
      (P.x ^ 2 + P.y ^ 2 + P.z ^ 2 + major ^ 2 - minor ^ 2) ^ 2 = 4 * major ^ 2 * (P.x ^ 2 + P.y ^ 2) := by
  have hr : Real.sqrt 2 * Real.sqrt 2 = 2 := Real.mul_self_sqrt (by norm_num)
  have h2 : 0 < Real.sqrt 2 := Real.sqrt_pos.2 (by norm_num)
  obtain ⟨C, e, hv, hmap, -⟩ := torusProfile hr h2 major minor
  obtain ⟨C', e', hcov⟩ := circle_covers minor Curve.new
  obtain rfl : C = C' := Option.some_inj.1 (e.symm.trans e')
  obtain ⟨S, e2, hv', hits⟩ := revolve_hits hv tol ns.clear
  obtain ⟨S', e3, -, heq⟩ := torus_equation tol hr h2 major minor ns
  have e4 : createTorus tol (Real.sqrt 2) major minor ns = some S := by simp [createTorus, e, e2]
  obtain rfl : S = S' := Option.some_inj.1 (e4.symm.trans e3)
  refine ⟨S, e4, fun P => ⟨?_, ?_⟩⟩
  · rintro ⟨u, v, -, -, -, -, hP⟩
    obtain ⟨Q, hQ, h⟩ := heq u v
    rw [hP, Option.some_inj] at hQ
    exact hQ ▸ h
  · intro h
    rw [hits]
    -- the signed distance from the axis
    have hX : ((P.x ^ 2 + P.y ^ 2 + P.z ^ 2 + major ^ 2 - minor ^ 2) / (2 * major)) ^ 2 = P.x ^ 2 + P.y ^ 2 := by
      rw [div_pow, h]; field_simp; ring
    obtain ⟨X, hXd⟩ : ∃ X, X = (P.x ^ 2 + P.y ^ 2 + P.z ^ 2 + major ^ 2 - minor ^ 2) / (2 * major) := ⟨_, rfl⟩
    rw [← hXd] at hX
    have hX2 : 2 * major * X = P.x ^ 2 + P.y ^ 2 + P.z ^ 2 + major ^ 2 - minor ^ 2 := by rw [hXd]; field_simp
    obtain ⟨v, v0, v1, hv⟩ := (hcov ⟨X - major, P.z, 0⟩).2 ⟨by simp only; linear_combination hX - hX2, rfl⟩
    refine ⟨v, ⟨X, 0, P.z⟩, v0, v1, by rw [hmap, hv, Option.map_some]; simp, rfl, ?_⟩
    simp only
    linear_combination -hX

/-! ### cylinder -/

/-- C55, cylinder, over the reals: three surfaces, the bottom disk, the side and the top
disk. -/
theorem cylinder_exact (tol r h : ℝ) (hh : 0 ≤ h) :
    ∃ S1 S2 S3, createCylinder tol (Real.sqrt 2) r h = some [S1, S2, S3] ∧
      (∀ P, S1.Hits P ↔ P.z = -(h / 2) ∧ P.x ^ 2 + P.y ^ 2 ≤ r ^ 2) ∧
      (∀ P, S2.Hits P ↔ (-(h / 2) ≤ P.z ∧ P.z ≤ h / 2) ∧ P.x ^ 2 + P.y ^ 2 = r ^ 2) ∧
      (∀ P, S3.Hits P ↔ P.z = h / 2 ∧ P.x ^ 2 + P.y ^ 2 ≤ r ^ 2) := by
  obtain ⟨D, e, hv, hits⟩ := disk_exact tol r Surface.new
  obtain ⟨C, ec, hvc, -, -, -, hat⟩ := createCurveFromPoints_two (⟨r, 0, -h / 2⟩ : P3 ℝ) ⟨r, 0, h / 2⟩ Curve.new
  obtain ⟨S, es, hvs, hits'⟩ := revolve_hits hvc tol Surface.new
  refine ⟨D.mapPoints fun p => ⟨p.x, -p.y, p.z - h / 2⟩, S.mapPoints mirrorY, D.mapPoints fun p => ⟨p.x, p.y, p.z + h / 2⟩,
    by simp only [createCylinder, e, ec, es, Option.bind_eq_bind, Option.bind_some, Option.pure_def, Solid.add,
    List.nil_append, List.singleton_append, List.cons_append], fun P => ?_, fun P => ?_, fun P => ?_⟩
  · rw [map_hits (g := fun p => ⟨p.x, -p.y, p.z + h / 2⟩) (mapPoints_at hv _ ⟨1, 0, 0⟩ ⟨0, -1, 0⟩ ⟨0, 0, 1⟩ ⟨0, 0, -(h / 2)⟩
      (fun P => by ext <;> simp [affine, P3.dot]; ring)) (fun P => by simp) (fun P => by simp), hits]
    simp only [neg_sq, eq_neg_iff_add_eq_zero]
  · rw [map_hits (g := mirrorY) (mirrorY_at hvs) (fun P => by simp [mirrorY]) (fun P => by simp [mirrorY]), hits']
    simp only [mirrorY, neg_sq]
    constructor
    · rintro ⟨v, Q, v0, v1, hQ, hz, hxy⟩
      rw [hat, Option.some_inj] at hQ
      subst hQ
      simp at hz hxy
      refine ⟨?_, by rw [hxy]; ring⟩
      rw [hz]
      constructor <;> nlinarith
    · rintro ⟨⟨z0, z1⟩, hxy⟩
      by_cases h0 : h = 0
      · subst h0
        exact ⟨0, _, le_rfl, zero_le_one, hat 0, by simp at *; linarith, by simp [hxy]⟩
      · have hpos : 0 < h := lt_of_le_of_ne hh (Ne.symm h0)
        refine ⟨(P.z + h / 2) / h, _, div_nonneg (by linarith) hh, by rw [div_le_one hpos]; linarith, hat _, ?_, ?_⟩
        · simp; field_simp; ring
        · simp; rw [hxy]; ring
  · rw [map_hits (g := fun p => ⟨p.x, p.y, p.z - h / 2⟩) (mapPoints_at hv _ ⟨1, 0, 0⟩ ⟨0, 1, 0⟩ ⟨0, 0, 1⟩ ⟨0, 0, h / 2⟩
      (fun P => by ext <;> simp [affine, P3.dot])) (fun P => by simp) (fun P => by simp), hits]
    simp only [sub_eq_zero]

/-! ### C78: quads and boxes -/

/-- C78.  A quad is the bilinear patch of its four corners, whatever the target held. -/
theorem quad_exact (tol : K) (p1 p2 p3 p4 : P3 K) (ns : Surface K) :
    ∃ S, createQuad tol p1 p2 p3 p4 ns = some S ∧ S.Valid 1 1 2 2 ∧
      ∀ u v, S.at u v = some ((1 - v) • ((1 - u) • p1 + u • p2) + v • ((1 - u) • p4 + u • p3)) := by
  obtain ⟨c1, e1, h1, k1, w1, q1, a1⟩ := createCurveFromPoints_two p1 p2 Curve.new
  obtain ⟨c2, e2, h2, k2, w2, q2, a2⟩ := createCurveFromPoints_two p4 p3 Curve.new
  obtain ⟨S, e, hv, -, -, hs⟩ := ruled_spec h1 h2 (k2.trans k1.symm) tol ns
  refine ⟨S, by simp [createQuad, e1, e2, e], hv, fun u v => ?_⟩
  have hsp : InSpan c1.knots (clamp u) 1 := by rw [k1]; exact knots01_span (clamp_nonneg u) (clamp_le_one u)
  have hsp2 : InSpan c2.knots (clamp u) 1 := by rw [k2]; exact knots01_span (clamp_nonneg u) (clamp_le_one u)
  rw [hs u v 1 hsp, ← deB_hw h1 (u := u) hsp, ← deB_hw h2 (u := u) hsp2, ← deB_hp h1 (u := u) hsp, ← deB_hp h2 (u := u) hsp2, k1, k2]
  simp only [knots01_deB]
  simp [Curve.hp, Curve.hw, w1, w2, q1, q2]

example : ((createQuad (1 / 1000) (⟨0, 0, 0⟩ : P3 ℚ) ⟨2, 0, 0⟩ ⟨2, 2, 4⟩ ⟨0, 2, 0⟩ Surface.new).bind fun S => S.at (1 / 2) (1 / 2)) =
    some ⟨1, 1, 1⟩ := by decide +kernel

/-- C78: a triangle is a quad whose side `v = 1` is a point. -/
theorem triangle_exact (tol : K) (p1 p2 p3 : P3 K) (ns : Surface K) :
    ∃ S, createTriangle tol p1 p2 p3 ns = some S ∧
      ∀ u v, S.at u v = some (((1 - v) * (1 - u)) • p1 + ((1 - v) * u) • p2 + v • p3) := by
  obtain ⟨S, e, -, h⟩ := quad_exact tol p1 p2 p3 p3 ns
  refine ⟨S, e, fun u v => ?_⟩
  rw [h]
  congr 1
  module

/-- C78.  The six surfaces of the box together are exactly the boundary of the box. -/
theorem box_exact (tol : K) {x y z : K} (hx : 0 < x) (hy : 0 < y) (hz : 0 < z) :
    ∃ B, createBox tol x y z = some B ∧ B.length = 6 ∧ ∀ P : P3 K, (∃ S ∈ B, S.Hits P) ↔
      (|P.x| ≤ x / 2 ∧ |P.y| ≤ y / 2 ∧ |P.z| ≤ z / 2) ∧ (|P.x| = x / 2 ∨ |P.y| = y / 2 ∨ |P.z| = z / 2) := by
  obtain ⟨s1, e1, -, a1⟩ := quad_exact tol (⟨x / 2, y / 2, z / 2⟩ : P3 K) ⟨-x / 2, y / 2, z / 2⟩ ⟨-x / 2, -y / 2, z / 2⟩
    ⟨x / 2, -y / 2, z / 2⟩ Surface.new
  obtain ⟨s2, e2, -, a2⟩ := quad_exact tol (⟨x / 2, y / 2, -z / 2⟩ : P3 K) ⟨x / 2, -y / 2, -z / 2⟩ ⟨-x / 2, -y / 2, -z / 2⟩
    ⟨-x / 2, y / 2, -z / 2⟩ s1
  obtain ⟨s3, e3, -, a3⟩ := quad_exact tol (⟨x / 2, y / 2, z / 2⟩ : P3 K) ⟨x / 2, -y / 2, z / 2⟩ ⟨x / 2, -y / 2, -z / 2⟩
    ⟨x / 2, y / 2, -z / 2⟩ s2
  obtain ⟨s4, e4, -, a4⟩ := quad_exact tol (⟨-x / 2, -y / 2, z / 2⟩ : P3 K) ⟨-x / 2, y / 2, z / 2⟩ ⟨-x / 2, y / 2, -z / 2⟩
    ⟨-x / 2, -y / 2, -z / 2⟩ s3
  obtain ⟨s5, e5, -, a5⟩ := quad_exact tol (⟨-x / 2, -y / 2, z / 2⟩ : P3 K) ⟨-x / 2, -y / 2, -z / 2⟩ ⟨x / 2, -y / 2, -z / 2⟩
    ⟨x / 2, -y / 2, z / 2⟩ s4
  obtain ⟨s6, e6, -, a6⟩ := quad_exact tol (⟨x / 2, y / 2, z / 2⟩ : P3 K) ⟨x / 2, y / 2, -z / 2⟩ ⟨-x / 2, y / 2, -z / 2⟩
    ⟨-x / 2, y / 2, z / 2⟩ s5
  refine ⟨[s1, s2, s3, s4, s5, s6], by simp [createBox, e1, e2, e3, e4, e5, e6, Solid.add], rfl, fun P => ⟨?_, ?_⟩⟩
  · have bd : ∀ (a t : K), 0 < a → 0 ≤ t → t ≤ 1 → |(1 - 2 * t) * (a / 2)| ≤ a / 2 := by
      intro a t ha t0 t1
      rw [abs_le]
      constructor <;> nlinarith
    have ab : ∀ a : K, 0 < a → |a / 2| = a / 2 := fun a ha => abs_of_pos (by linarith)
    have abn : ∀ a : K, 0 < a → |-a / 2| = a / 2 := fun a ha => by rw [neg_div, abs_neg, ab a ha]
    rintro ⟨S, hS, u, v, u0, u1, v0, v1, hP⟩
    simp only [List.mem_cons, List.not_mem_nil, or_false] at hS
    rcases hS with rfl | rfl | rfl | rfl | rfl | rfl
    · rw [a1, Option.some_inj] at hP
      have h1 : P.x = (1 - 2 * u) * (x / 2) := by rw [← hP]; simp; ring
      have h2 : P.y = (1 - 2 * v) * (y / 2) := by rw [← hP]; simp; ring
      have h3 : P.z = z / 2 := by rw [← hP]; simp; ring
      rw [h1, h2, h3]
      exact ⟨⟨bd x u hx u0 u1, bd y v hy v0 v1, (ab z hz).le⟩, Or.inr (Or.inr (ab z hz))⟩
    · rw [a2, Option.some_inj] at hP
      have h1 : P.x = (1 - 2 * v) * (x / 2) := by rw [← hP]; simp; ring
      have h2 : P.y = (1 - 2 * u) * (y / 2) := by rw [← hP]; simp; ring
      have h3 : P.z = -z / 2 := by rw [← hP]; simp; ring
      rw [h1, h2, h3]
      exact ⟨⟨bd x v hx v0 v1, bd y u hy u0 u1, (abn z hz).le⟩, Or.inr (Or.inr (abn z hz))⟩
    · rw [a3, Option.some_inj] at hP
      have h1 : P.x = x / 2 := by rw [← hP]; simp; ring
      have h2 : P.y = (1 - 2 * u) * (y / 2) := by rw [← hP]; simp; ring
      have h3 : P.z = (1 - 2 * v) * (z / 2) := by rw [← hP]; simp; ring
      rw [h1, h2, h3]
      exact ⟨⟨(ab x hx).le, bd y u hy u0 u1, bd z v hz v0 v1⟩, Or.inl (ab x hx)⟩
    · rw [a4, Option.some_inj] at hP
      have h1 : P.x = -x / 2 := by rw [← hP]; simp; ring
      have h2 : P.y = (1 - 2 * (1 - u)) * (y / 2) := by rw [← hP]; simp; ring
      have h3 : P.z = (1 - 2 * v) * (z / 2) := by rw [← hP]; simp; ring
      rw [h1, h2, h3]
      exact ⟨⟨(abn x hx).le, bd y (1 - u) hy (by linarith) (by linarith), bd z v hz v0 v1⟩, Or.inl (abn x hx)⟩
    · rw [a5, Option.some_inj] at hP
      have h1 : P.x = (1 - 2 * (1 - v)) * (x / 2) := by rw [← hP]; simp; ring
      have h2 : P.y = -y / 2 := by rw [← hP]; simp; ring
      have h3 : P.z = (1 - 2 * u) * (z / 2) := by rw [← hP]; simp; ring
      rw [h1, h2, h3]
      exact ⟨⟨bd x (1 - v) hx (by linarith) (by linarith), (abn y hy).le, bd z u hz u0 u1⟩, Or.inr (Or.inl (abn y hy))⟩
    · rw [a6, Option.some_inj] at hP
      have h1 : P.x = (1 - 2 * v) * (x / 2) := by rw [← hP]; simp; ring
      have h2 : P.y = y / 2 := by rw [← hP]; simp; ring
      have h3 : P.z = (1 - 2 * u) * (z / 2) := by rw [← hP]; simp; ring
      rw [h1, h2, h3]
      exact ⟨⟨bd x v hx v0 v1, (ab y hy).le, bd z u hz u0 u1⟩, Or.inr (Or.inl (ab y hy))⟩
  · rintro ⟨⟨bx, by', bz⟩, hface⟩
    rw [abs_le] at bx by' bz
    have par : ∀ a c : K, 0 < a → -(a / 2) ≤ c ∧ c ≤ a / 2 → ∃ t, 0 ≤ t ∧ t ≤ 1 ∧ c = (1 - 2 * t) * (a / 2) := by
      rintro a c ha ⟨h1, h2⟩
      refine ⟨(a / 2 - c) / a, div_nonneg (by linarith) ha.le, by rw [div_le_one ha]; linarith, ?_⟩
      field_simp
      ring
    obtain ⟨tx, tx0, tx1, hPx⟩ := par x P.x hx bx
    obtain ⟨ty, ty0, ty1, hPy⟩ := par y P.y hy by'
    obtain ⟨tz, tz0, tz1, hPz⟩ := par z P.z hz bz
    have sgn : ∀ a c : K, 0 < a → |c| = a / 2 → c = a / 2 ∨ c = -(a / 2) := fun a c ha h => by
      rcases abs_choice c with h' | h' <;> rw [h'] at h
      · exact Or.inl h
      · right; linarith
    rcases hface with h | h | h
    · rcases sgn _ _ hx h with h | h
      · exact ⟨s3, by simp, ty, tz, ty0, ty1, tz0, tz1, by
          rw [a3, Option.some_inj]; ext <;> simp [h, hPy, hPz] <;> ring⟩
      · exact ⟨s4, by simp, 1 - ty, tz, by linarith, by linarith, tz0, tz1, by
          rw [a4, Option.some_inj]; ext <;> simp [h, hPy, hPz] <;> ring⟩
    · rcases sgn _ _ hy h with h | h
      · exact ⟨s6, by simp, tz, tx, tz0, tz1, tx0, tx1, by
          rw [a6, Option.some_inj]; ext <;> simp [h, hPx, hPz] <;> ring⟩
      · exact ⟨s5, by simp, tz, 1 - tx, tz0, tz1, by linarith, by linarith, by
          rw [a5, Option.some_inj]; ext <;> simp [h, hPx, hPz] <;> ring⟩
    · rcases sgn _ _ hz h with h | h
      · exact ⟨s1, by simp, tx, ty, tx0, tx1, ty0, ty1, by
          rw [a1, Option.some_inj]; ext <;> simp [h, hPx, hPy] <;> ring⟩
      · exact ⟨s2, by simp, ty, tx, ty0, ty1, tx0, tx1, by
          rw [a2, Option.some_inj]; ext <;> simp [h, hPx, hPy] <;> ring⟩

end Nurbs
end CAD
