import Verif.Props.NurbsFactoryRounded
import Verif.Props.NurbsWatertight
import Verif.Props.MeasureRounded

/-! C130: circles, disks, spheres, tori and cylinders made by `NurbsFactory` and evaluated in
`double` lie on the true shapes up to the stated error. -/

namespace CAD
namespace Nurbs
open BSpline

theorem knotsCircle_quarter : QuarterKnots knotsCircle := by
  intro a ha b hb hab
  simp only [knotsCircle, List.mem_cons, List.not_mem_nil, or_false, or_self] at ha hb
  rcases ha with rfl | rfl | rfl | rfl | rfl | rfl | rfl | rfl | rfl | rfl | rfl | rfl <;>
    rcases hb with rfl | rfl | rfl | rfl | rfl | rfl | rfl | rfl | rfl | rfl | rfl | rfl <;> linarith

theorem knotsHalf_quarter : QuarterKnots knotsHalf := by
  intro a ha b hb hab
  simp only [knotsHalf, List.mem_cons, List.not_mem_nil, or_false, or_self] at ha hb
  rcases ha with rfl | rfl | rfl | rfl | rfl | rfl | rfl | rfl <;>
    rcases hb with rfl | rfl | rfl | rfl | rfl | rfl | rfl | rfl <;> linarith

theorem knots01_quarter : QuarterKnots knots01 := by
  intro a ha b hb hab
  simp only [knots01, List.mem_cons, List.not_mem_nil, or_false, or_self] at ha hb
  rcases ha with rfl | rfl | rfl | rfl <;> rcases hb with rfl | rfl | rfl | rfl <;> linarith

theorem root_half : 1 / Real.sqrt 2 ≤ 1 ∧ 1 / 2 ≤ 1 / Real.sqrt 2 := by
  have hs0 : 1.4 ≤ Real.sqrt 2 := Real.le_sqrt_of_sq_le (by norm_num)
  have hs1 : Real.sqrt 2 ≤ 1.5 := Real.sqrt_le_iff.2 ⟨by norm_num, by norm_num⟩
  constructor
  · rw [div_le_one (by linarith)]; linarith
  · rw [div_le_div_iff₀ (by norm_num) (by linarith)]; linarith

theorem overRoot2_one : |overRoot2 double 1 - 1 / Real.sqrt 2| ≤ 2.5 * 2 ^ (-53 : ℤ) * (1 / Real.sqrt 2) := by
  have := overRoot2_off (w := 1) (w' := 1) (ε := 0) (by norm_num) le_rfl le_rfl (by norm_num) (by simp)
  simpa using this

/-- `Point3 * d` in `double` for a point with coordinates between -1 and 1 -/
theorem scale_off {r : ℝ} (hr : 2 ^ (-400 : ℤ) ≤ r) {x y z : ℝ} (hx : |x| ≤ 1) (hy : |y| ≤ 1) (hz : |z| ≤ 1) :
    Within (1.1 * (2 ^ (-53 : ℤ) * r)) (r • (⟨x, y, z⟩ : P3 ℝ)) (Rounded.scale double r ⟨x, y, z⟩) := by
  have r0 := small_off hr
  have ur : 0 < 2 ^ (-53 : ℤ) * r := by positivity
  have H : ∀ a : ℝ, |a| ≤ 1 → |double (r * a) - r * a| ≤ 1.1 * (2 ^ (-53 : ℤ) * r) := fun a ha => by
    have := double_off (x := r * a) hr (by rw [abs_mul, abs_of_pos r0]; nlinarith)
    exact this.trans (mul_le_mul_of_nonneg_right (by norm_num) ur.le)
  exact ⟨H x hx, H y hy, H z hz⟩

/-! ### circle -/

theorem circle_off {r : ℝ} (hr : 2 ^ (-400 : ℤ) ≤ r) (nc nc' : Curve ℝ) :
    ∃ C C', createCircle (Real.sqrt 2) r nc = some C ∧ createCircleRounded double r nc' = some C' ∧ C.Valid 2 9 ∧ C'.Valid 2 9 ∧
      C.knots = knotsCircle ∧ CurveOff (1.1 * (2 ^ (-53 : ℤ) * r)) (2.5 * 2 ^ (-53 : ℤ)) 9 C C' ∧
      (∀ i < 9, 1 / Real.sqrt 2 ≤ C.weights.getD i 0 ∧ C.weights.getD i 0 ≤ 1) ∧
      ∀ i < 9, |(C.points.getD i ⟨0, 0, 0⟩).x| ≤ r ∧ |(C.points.getD i ⟨0, 0, 0⟩).y| ≤ r ∧ (C.points.getD i ⟨0, 0, 0⟩).z = 0 := by
  obtain ⟨tp, tw, e, l1, l2⟩ := setDegree_curve nc.clear 2
  obtain ⟨tp', tw', e', l1', l2'⟩ := setDegree_curve nc'.clear 2
  simp only [Nat.cast_ofNat] at e e'
  have r0 := small_off hr
  refine ⟨_, _, by simp only [createCircle, e, Option.bind_eq_bind, Option.bind_some, Curve.setKnots,
    scaleKnots_self knotsCircle_clamped, Option.pure_def]; rfl,
    by simp only [createCircleRounded, e', Option.bind_eq_bind, Option.bind_some, Curve.setKnots,
    scaleKnots_self knotsCircle_clamped, Option.pure_def]; rfl,
    ⟨rfl, rfl, rfl, rfl, knotsCircle_clamped, l1.ge, l2.ge⟩, ⟨rfl, rfl, rfl, rfl, knotsCircle_clamped, l1'.ge, l2'.ge⟩, rfl,
    ?_, ?_, ?_⟩
  refine ⟨rfl, ?_, ?_⟩
  · intro i hi
    obtain rfl | rfl | rfl | rfl | rfl | rfl | rfl | rfl | rfl : i = 0 ∨ i = 1 ∨ i = 2 ∨ i = 3 ∨ i = 4 ∨ i = 5 ∨ i = 6 ∨ i = 7 ∨ i = 8 := by omega
    all_goals exact scale_off hr (by simp) (by simp) (by simp)
  · have even : |(1 : ℝ) - 1| ≤ 2.5 * 2 ^ (-53 : ℤ) * 1 := by rw [sub_self, abs_zero]; positivity
    have odd := overRoot2_one
    intro i hi
    obtain rfl | rfl | rfl | rfl | rfl | rfl | rfl | rfl | rfl : i = 0 ∨ i = 1 ∨ i = 2 ∨ i = 3 ∨ i = 4 ∨ i = 5 ∨ i = 6 ∨ i = 7 ∨ i = 8 := by omega
    all_goals first | exact even | exact odd
  · intro i hi
    obtain rfl | rfl | rfl | rfl | rfl | rfl | rfl | rfl | rfl : i = 0 ∨ i = 1 ∨ i = 2 ∨ i = 3 ∨ i = 4 ∨ i = 5 ∨ i = 6 ∨ i = 7 ∨ i = 8 := by omega
    all_goals first | exact ⟨root_half.1, le_rfl⟩ | exact ⟨le_rfl, root_half.1⟩
  · have H : ∀ a : ℝ, |a| ≤ 1 → |r * a| ≤ r := fun a ha => by rw [abs_mul, abs_of_pos r0]; nlinarith
    intro i hi
    obtain rfl | rfl | rfl | rfl | rfl | rfl | rfl | rfl | rfl : i = 0 ∨ i = 1 ∨ i = 2 ∨ i = 3 ∨ i = 4 ∨ i = 5 ∨ i = 6 ∨ i = 7 ∨ i = 8 := by omega
    all_goals exact ⟨H _ (by simp), H _ (by simp), mul_zero r⟩

theorem within_norm {δ : ℝ} {p q : P3 ℝ} (h : Within δ p q) : (q - p).norm ≤ 1.75 * δ := by
  obtain ⟨a, b, c⟩ := h
  have d0 : 0 ≤ δ := (abs_nonneg _).trans a
  unfold P3.norm
  apply Real.sqrt_le_iff.2 ⟨by positivity, ?_⟩
  have sq : ∀ x : ℝ, |x| ≤ δ → x * x ≤ δ * δ := fun x hx => by
    have := mul_self_le_mul_self (abs_nonneg x) hx
    rwa [abs_mul_abs_self] at this
  have := sq _ a
  have := sq _ b
  have := sq _ c
  simp only [P3.sub_x, P3.sub_y, P3.sub_z]
  nlinarith

theorem within_radius {δ : ℝ} {p q : P3 ℝ} (h : Within δ p q) : |q.norm - p.norm| ≤ 1.75 * δ := by
  have n := within_norm h
  have a := Rounded.norm_add_le (q - p) p
  have b := Rounded.norm_sub_le q (q - p)
  rw [show q - p + p = q by ext <;> simp] at a
  rw [show q - (q - p) = p by ext <;> simp] at b
  rw [abs_le]
  constructor <;> linarith

theorem norm_of_sq {p : P3 ℝ} {r : ℝ} (hr : 0 ≤ r) (h : p.x ^ 2 + p.y ^ 2 + p.z ^ 2 = r ^ 2) : p.norm = r := by
  unfold P3.norm
  rw [show p.x * p.x + p.y * p.y + p.z * p.z = r ^ 2 by rw [← h]; ring, Real.sqrt_sq hr]

/-- **C130** circle.  `create_circle` in `double`, evaluated in `double`, at every parameter: the
result is within `250 · 2⁻⁵³ r` in each coordinate of the point of the exact curve at the same
parameter, which is on the circle of radius `r`; its distance from the centre is `r` up to
`450 · 2⁻⁵³ r`. -/
theorem circle_double {r : ℝ} (hr : 2 ^ (-400 : ℤ) ≤ r) (hr' : r ≤ 2 ^ (400 : ℤ)) (nc : Curve ℝ) :
    ∃ C', createCircleRounded double r nc = some C' ∧ C'.Valid 2 9 ∧ ∀ t, 0 ≤ t → t ≤ 1 → ∃ P P',
      (createCircle (Real.sqrt 2) r nc).bind (·.at t) = some P ∧ P.x ^ 2 + P.y ^ 2 = r ^ 2 ∧ P.z = 0 ∧
      C'.atRounded double t = some P' ∧ Within (250 * 2 ^ (-53 : ℤ) * r) P P' ∧ |P'.norm - r| ≤ 450 * 2 ^ (-53 : ℤ) * r := by
  obtain ⟨C, C', e, e', hv, hv', hk, ho, hw, hp⟩ := circle_off hr nc nc
  obtain ⟨C1, e1, -, hx, -⟩ := circle_exact (Real.mul_self_sqrt (by norm_num)) (Real.sqrt_pos.2 (by norm_num)) r nc
  obtain rfl : C = C1 := Option.some_inj.1 (e.symm.trans e1)
  have r0 := small_off hr
  have ur : 0 < 2 ^ (-53 : ℤ) * r := by positivity
  refine ⟨C', e', hv', fun t t0 t1 => ?_⟩
  obtain ⟨P, P', g, g', h⟩ := curve_off_double hv hv' hr hr'
    ⟨ho.knots, fun i hi => (ho.points i hi).mono (by linarith), fun i hi => (ho.weights i hi).trans
      (mul_le_mul_of_nonneg_right (by linarith [zpow_pos (by norm_num : (0 : ℝ) < 2) (-53)]) (by linarith [(hw i hi).1, root_half.2]))⟩
    (fun i hi => ⟨root_half.2.trans (hw i hi).1, (hw i hi).2⟩)
    (fun i hi => ⟨(hp i hi).1, (hp i hi).2.1, by rw [(hp i hi).2.2, abs_zero]; exact r0.le⟩)
    (by rw [hk]; exact knotsCircle_quarter) t0 t1
  obtain ⟨c, s, hcs, -, hat⟩ := hx t
  obtain rfl : P = ⟨r * c, r * s, 0⟩ := Option.some_inj.1 (g.symm.trans hat)
  have onC : (r * c) ^ 2 + (r * s) ^ 2 = r ^ 2 := by linear_combination r ^ 2 * hcs
  refine ⟨_, P', by rw [e, Option.bind_some, g], onC, rfl, g', h, ?_⟩
  have := within_radius h
  rw [norm_of_sq r0.le (p := ⟨r * c, r * s, 0⟩) (by simp only; linear_combination onC)] at this
  exact this.trans (by nlinarith)

/-! ### sphere -/

theorem mapPoints_pt {s : Surface ℝ} {p q nu nv : Nat} (hv : s.Valid p q nu nv) (f : P3 ℝ → P3 ℝ) {i j : Nat} (hi : i < nu) (hj : j < nv) :
    (s.mapPoints f).pt nu i j = f (s.pt nu i j) := by
  have : i + nu * j < s.points.length := by rw [hv.points]; exact idx_lt hi hj
  simp [Surface.pt, Surface.mapPoints, List.getD, this]

theorem SurfOff.map {δ δ' ε : ℝ} {p q nu nv : Nat} {s s' : Surface ℝ} (h : SurfOff δ ε nu nv s s') (hv : s.Valid p q nu nv)
    (hv' : s'.Valid p q nu nv) {f f' : P3 ℝ → P3 ℝ}
    (hf : ∀ i < nu, ∀ j < nv, Within δ' (f (s.pt nu i j)) (f' (s'.pt nu i j))) :
    SurfOff δ' ε nu nv (s.mapPoints f) (s'.mapPoints f') :=
  ⟨h.knotsU, h.knotsV, fun i hi j hj => by rw [mapPoints_pt hv f hi hj, mapPoints_pt hv' f' hi hj]; exact hf i hi j hj, h.weights⟩

theorem Within.mirror {δ : ℝ} {p q : P3 ℝ} (h : Within δ p q) : Within δ (mirrorY p) (mirrorY q) := by
  refine ⟨h.1, ?_, h.2.2⟩
  simp only [mirrorY]
  rw [show -q.y - -p.y = -(q.y - p.y) by ring, abs_neg]
  exact h.2.1

theorem Box.mirror {R : ℝ} {p : P3 ℝ} (h : Box R p) : Box R (mirrorY p) := by
  refine ⟨h.1, ?_, h.2.2⟩
  simp only [mirrorY, abs_neg]
  exact h.2.1

/-- a surface of revolution made in `double`, turned over or not, and evaluated in `double` -/
theorem revolve_double {nc nc' : Curve ℝ} {q n : Nat} (hq : q ≤ 2) (h : nc.Valid q n) (h' : nc'.Valid q n) {R : ℝ} (hR : 2 ^ (-400 : ℤ) ≤ R)
    (hR' : R ≤ 2 ^ (400 : ℤ)) (hk : nc'.knots = nc.knots) (hq4 : QuarterKnots nc.knots)
    (hp : ∀ i < n, Profile R (nc.points.getD i ⟨0, 0, 0⟩) (nc'.points.getD i ⟨0, 0, 0⟩))
    (hw : ∀ i < n, 1 / Real.sqrt 2 ≤ nc.weights.getD i 0 ∧ nc.weights.getD i 0 ≤ 1 ∧
      |nc'.weights.getD i 0 - nc.weights.getD i 0| ≤ 2.5 * 2 ^ (-53 : ℤ) * nc.weights.getD i 0)
    (tol : ℝ) (ns ns' : Surface ℝ) :
    ∃ s s', revolve tol (Real.sqrt 2) nc ns = some s ∧ revolveRounded double tol nc' ns' = some s' ∧ s.Valid 2 q 9 n ∧ s'.Valid 2 q 9 n ∧
      (∀ a b, 0 ≤ a → a ≤ 1 → 0 ≤ b → b ≤ 1 → ∃ P P', s.at a b = some P ∧ s'.atRounded double a b = some P' ∧
        Within (400 * 2 ^ (-53 : ℤ) * R) P P') ∧
      ∀ a b, 0 ≤ a → a ≤ 1 → 0 ≤ b → b ≤ 1 → ∃ P P', (s.mapPoints mirrorY).at a b = some P ∧
        (s'.mapPoints mirrorY).atRounded double a b = some P' ∧ Within (400 * 2 ^ (-53 : ℤ) * R) P P' := by
  obtain ⟨s, s', e, e', hv, hv', ku, kv, -, ho, hwt, hpt⟩ := revolve_off h h' hR hk hp hw tol ns ns'
  have R0 := small_off hR
  have uR : 0 < 2 ^ (-53 : ℤ) * R := by positivity
  have qu : QuarterKnots s.knotsU := by rw [ku]; exact knotsCircle_quarter
  have qv : QuarterKnots s.knotsV := by rw [kv]; exact hq4
  have ho' : SurfOff (10 * (2 ^ (-53 : ℤ) * R)) (6 * 2 ^ (-53 : ℤ)) 9 n s s' :=
    ⟨ho.knotsU, ho.knotsV, fun i hi j hj => (ho.points i hi j hj).mono (by linarith), ho.weights⟩
  refine ⟨s, s', e, e', hv, hv', fun a b a0 a1 b0 b1 => ?_, fun a b a0 a1 b0 b1 => ?_⟩
  · exact surface_off_double hq hv hv' hR hR' ho' hwt hpt qu qv a0 a1 b0 b1
  · exact surface_off_double hq (mapPoints_valid hv _) (mapPoints_valid hv' _) hR hR'
      (ho'.map hv hv' fun i hi j hj => (ho'.points i hi j hj).mirror) hwt
      (fun i hi j hj => by rw [mapPoints_pt hv _ hi hj]; exact (hpt i hi j hj).mirror) qu qv a0 a1 b0 b1

theorem sphereProfile_off {r : ℝ} (hr : 2 ^ (-400 : ℤ) ≤ r) :
    ∃ C C', sphereProfile (Real.sqrt 2) r = some C ∧ sphereProfileRounded double r = some C' ∧ C.Valid 2 5 ∧ C'.Valid 2 5 ∧
      C.knots = knotsHalf ∧ C'.knots = C.knots ∧
      (∀ i < 5, Profile r (C.points.getD i ⟨0, 0, 0⟩) (C'.points.getD i ⟨0, 0, 0⟩)) ∧
      ∀ i < 5, 1 / Real.sqrt 2 ≤ C.weights.getD i 0 ∧ C.weights.getD i 0 ≤ 1 ∧
        |C'.weights.getD i 0 - C.weights.getD i 0| ≤ 2.5 * 2 ^ (-53 : ℤ) * C.weights.getD i 0 := by
  obtain ⟨tp, tw, e, l1, l2⟩ := setDegree_curve (Curve.new : Curve ℝ) 2
  simp only [Nat.cast_ofNat] at e
  have r0 := small_off hr
  have ur : 0 < 2 ^ (-53 : ℤ) * r := by positivity
  refine ⟨_, _, by simp only [sphereProfile, e, Option.bind_eq_bind, Option.bind_some, Curve.setKnots,
    scaleKnots_self knotsHalf_clamped, Option.pure_def]; rfl,
    by simp only [sphereProfileRounded, e, Option.bind_eq_bind, Option.bind_some, Curve.setKnots,
    scaleKnots_self knotsHalf_clamped, Option.pure_def]; rfl,
    ⟨rfl, rfl, rfl, rfl, knotsHalf_clamped, l1.ge, l2.ge⟩, ⟨rfl, rfl, rfl, rfl, knotsHalf_clamped, l1.ge, l2.ge⟩, rfl, ?_, ?_, ?_⟩
  · rfl
  · have H : ∀ y z : ℝ, |y| ≤ 1 → |z| ≤ 1 → Profile r (r • (⟨0, y, z⟩ : P3 ℝ)) (Rounded.scale double r ⟨0, y, z⟩) := fun y z hy hz => by
      refine ⟨(scale_off hr (by simp) hy hz).mono (by linarith), ?_, ?_⟩
      · simp only [P3.smul_x, P3.smul_y, mul_zero, abs_zero, zero_add, abs_mul, abs_of_pos r0]
        nlinarith
      · simp only [P3.smul_z, abs_mul, abs_of_pos r0]
        nlinarith
    intro i hi
    obtain rfl | rfl | rfl | rfl | rfl : i = 0 ∨ i = 1 ∨ i = 2 ∨ i = 3 ∨ i = 4 := by omega
    all_goals exact H _ _ (by simp) (by simp)
  · have even : |(1 : ℝ) - 1| ≤ 2.5 * 2 ^ (-53 : ℤ) * 1 := by rw [sub_self, abs_zero]; positivity
    have odd := overRoot2_one
    intro i hi
    obtain rfl | rfl | rfl | rfl | rfl : i = 0 ∨ i = 1 ∨ i = 2 ∨ i = 3 ∨ i = 4 := by omega
    all_goals first | exact ⟨root_half.1, le_rfl, even⟩ | exact ⟨le_rfl, root_half.1, odd⟩

/-- **C130** sphere.  `create_sphere` in `double`, evaluated in `double`, at all parameters: the
result is within `400 · 2⁻⁵³ r` in each coordinate of the point of the exact surface at the same
parameters, which is on the sphere of radius `r`; its distance from the centre is `r` up to
`700 · 2⁻⁵³ r`. -/
theorem sphere_double {r : ℝ} (hr : 2 ^ (-400 : ℤ) ≤ r) (hr' : r ≤ 2 ^ (400 : ℤ)) (tol : ℝ) (ns : Surface ℝ) :
    ∃ S', createSphereRounded double tol r ns = some S' ∧ S'.Valid 2 2 9 5 ∧ ∀ a b, 0 ≤ a → a ≤ 1 → 0 ≤ b → b ≤ 1 → ∃ P P',
      (createSphere tol (Real.sqrt 2) r ns).bind (·.at a b) = some P ∧ P.x ^ 2 + P.y ^ 2 + P.z ^ 2 = r ^ 2 ∧
      S'.atRounded double a b = some P' ∧ Within (400 * 2 ^ (-53 : ℤ) * r) P P' ∧ |P'.norm - r| ≤ 700 * 2 ^ (-53 : ℤ) * r := by
  obtain ⟨C, C', e, e', hv, hv', hk, hk', hp, hw⟩ := sphereProfile_off hr
  obtain ⟨s, s', f, f', vs, vs', -, hm⟩ := revolve_double le_rfl hv hv' hr hr' hk' (by rw [hk]; exact knotsHalf_quarter) hp hw tol ns.clear ns.clear
  obtain ⟨S, es, -, heq⟩ := sphere_equation tol (Real.mul_self_sqrt (by norm_num : (0 : ℝ) ≤ 2)) (Real.sqrt_pos.2 (by norm_num)) r ns
  have es' : createSphere tol (Real.sqrt 2) r ns = some (s.mapPoints mirrorY) := by
    simp only [createSphere, e, f, Option.bind_eq_bind, Option.bind_some, Option.pure_def]
  have r0 := small_off hr
  obtain rfl : S = s.mapPoints mirrorY := Option.some_inj.1 (es.symm.trans es')
  refine ⟨s'.mapPoints mirrorY, by simp only [createSphereRounded, e', f', Option.bind_eq_bind, Option.bind_some, Option.pure_def],
    mapPoints_valid vs' _, fun a b a0 a1 b0 b1 => ?_⟩
  obtain ⟨P, P', g, g', h⟩ := hm a b a0 a1 b0 b1
  obtain ⟨Q, hQ, onS⟩ := heq a b
  obtain rfl : P = Q := Option.some_inj.1 (g.symm.trans hQ)
  refine ⟨P, P', by rw [es, Option.bind_some, g], onS, g', h, ?_⟩
  have := within_radius h
  rw [norm_of_sq r0.le onS] at this
  exact this.trans (le_of_eq (by ring))

/-! ### torus -/

/-- the profile of the torus -/
theorem torusProfile_off {major minor : ℝ} (hm : 2 ^ (-400 : ℤ) ≤ minor) (hM : 0 ≤ major) :
    ∃ C C' : Curve ℝ, createCircle (Real.sqrt 2) minor Curve.new = some C ∧ createCircleRounded double minor Curve.new = some C' ∧
      (C.mapPoints fun p => (⟨p.x + major, -p.z, p.y⟩ : P3 ℝ)).Valid 2 9 ∧
      (C'.mapPoints fun p => (⟨double (p.x + major), -p.z, p.y⟩ : P3 ℝ)).Valid 2 9 ∧ C.knots = knotsCircle ∧ C'.knots = C.knots ∧
      (∀ i < 9, Profile (major + minor) ((C.mapPoints fun p => (⟨p.x + major, -p.z, p.y⟩ : P3 ℝ)).points.getD i ⟨0, 0, 0⟩)
        ((C'.mapPoints fun p => (⟨double (p.x + major), -p.z, p.y⟩ : P3 ℝ)).points.getD i ⟨0, 0, 0⟩)) ∧
      ∀ i < 9, 1 / Real.sqrt 2 ≤ C.weights.getD i 0 ∧ C.weights.getD i 0 ≤ 1 ∧
        |C'.weights.getD i 0 - C.weights.getD i 0| ≤ 2.5 * 2 ^ (-53 : ℤ) * C.weights.getD i 0 := by
  obtain ⟨C, C', e, e', hv, hv', hk, ho, hw, hp⟩ := circle_off hm Curve.new Curve.new
  have m0 := small_off hm
  have um : 0 < 2 ^ (-53 : ℤ) * minor := by positivity
  have u1 : (2 : ℝ) ^ (-53 : ℤ) ≤ 1 / 10 ^ 10 := by norm_num
  have uM : 0 ≤ 2 ^ (-53 : ℤ) * major := by positivity
  have um1 : 2 ^ (-53 : ℤ) * minor ≤ 1 / 10 ^ 10 * minor := mul_le_mul_of_nonneg_right u1 m0.le
  have hR : 2 ^ (-400 : ℤ) ≤ major + minor := by linarith
  have vC : (C.mapPoints fun p => (⟨p.x + major, -p.z, p.y⟩ : P3 ℝ)).Valid 2 9 :=
    ⟨hv.degree, by simpa [Curve.mapPoints] using hv.points, hv.nbPoints, hv.weights, hv.knots, hv.tempPoints, hv.tempWeights⟩
  have vC' : (C'.mapPoints fun p => (⟨double (p.x + major), -p.z, p.y⟩ : P3 ℝ)).Valid 2 9 :=
    ⟨hv'.degree, by simpa [Curve.mapPoints] using hv'.points, hv'.nbPoints, hv'.weights, hv'.knots, hv'.tempPoints, hv'.tempWeights⟩
  have prof : ∀ i < 9, Profile (major + minor) ((C.mapPoints fun p => (⟨p.x + major, -p.z, p.y⟩ : P3 ℝ)).points.getD i ⟨0, 0, 0⟩)
      ((C'.mapPoints fun p => (⟨double (p.x + major), -p.z, p.y⟩ : P3 ℝ)).points.getD i ⟨0, 0, 0⟩) := by
    intro i hi
    have l : i < C.points.length := by rw [hv.points]; exact hi
    have l' : i < C'.points.length := by rw [hv'.points]; exact hi
    have o := ho.points i hi
    have b := hp i hi
    simp only [Curve.mapPoints, List.getD, List.getElem?_map, List.getElem?_eq_getElem l, List.getElem?_eq_getElem l', Option.map_some,
      Option.getD_some] at o b ⊢
    obtain ⟨o1, o2, o3⟩ := o
    obtain ⟨b1, b2, b3⟩ := b
    generalize C.points[i] = p at *
    generalize C'.points[i] = p' at *
    have x1 : |p.x + major| ≤ major + minor := (abs_add_le _ _).trans (by rw [abs_of_nonneg hM]; linarith)
    have x2 : |p'.x + major| ≤ 1.001 * (major + minor) := by
      have := abs_add_le (p'.x - p.x) (p.x + major)
      rw [show p'.x - p.x + (p.x + major) = p'.x + major by ring] at this
      generalize (2 : ℝ) ^ (-53 : ℤ) * minor = v at *
      linarith
    have x3 := double_off (x := p'.x + major) (R := 1.001 * (major + minor)) (by linarith) x2
    refine ⟨⟨?_, ?_, ?_⟩, ?_, ?_⟩
    · simp only
      rw [show double (p'.x + major) - (p.x + major) = (double (p'.x + major) - (p'.x + major)) + (p'.x - p.x) by ring]
      refine (abs_add_le _ _).trans ?_
      generalize (2 : ℝ) ^ (-53 : ℤ) = u at *
      linarith
    · simp only
      rw [show -p'.z - -p.z = -(p'.z - p.z) by ring, abs_neg]
      exact o3.trans (by linarith)
    · exact o2.trans (by linarith)
    · simp only [b3, neg_zero, abs_zero, add_zero]
      exact x1
    · simp only
      linarith
  exact ⟨C, C', e, e', vC, vC', hk, ho.knots, prof, fun i hi => ⟨(hw i hi).1, (hw i hi).2, ho.weights i hi⟩⟩

/-- **C130** torus.  `create_torus` in `double`, evaluated in `double`, at all parameters: the result
is within `400 · 2⁻⁵³ (R + r)` in each coordinate of the point of the exact surface at the same
parameters, which is on the torus of radii `R` and `r`.  The same for the surface turned over that
`create_torus` puts into a solid. -/
theorem torus_double {major minor : ℝ} (hm : 2 ^ (-400 : ℤ) ≤ minor) (hM : 0 ≤ major) (hM' : major + minor ≤ 2 ^ (400 : ℤ)) (tol : ℝ)
    (ns : Surface ℝ) :
    ∃ S', createTorusRounded double tol major minor ns = some S' ∧ S'.Valid 2 2 9 9 ∧ ∀ a b, 0 ≤ a → a ≤ 1 → 0 ≤ b → b ≤ 1 → ∃ P P',
      (createTorus tol (Real.sqrt 2) major minor ns).bind (·.at a b) = some P ∧
      (P.x ^ 2 + P.y ^ 2 + P.z ^ 2 + major ^ 2 - minor ^ 2) ^ 2 = 4 * major ^ 2 * (P.x ^ 2 + P.y ^ 2) ∧
      S'.atRounded double a b = some P' ∧ Within (400 * 2 ^ (-53 : ℤ) * (major + minor)) P P' ∧
      ∃ P2, (S'.mapPoints mirrorY).atRounded double a b = some P2 ∧ Within (400 * 2 ^ (-53 : ℤ) * (major + minor)) (mirrorY P) P2 := by
  obtain ⟨C, C', e, e', vC, vC', hk, hk', prof, hw⟩ := torusProfile_off hm hM
  have m0 := small_off hm
  have hR : 2 ^ (-400 : ℤ) ≤ major + minor := by linarith
  obtain ⟨s, s', f, f', vs, vs', ha, hb⟩ := revolve_double le_rfl vC vC' hR hM' hk' (by
      show QuarterKnots C.knots
      rw [hk]; exact knotsCircle_quarter) prof hw tol ns.clear ns.clear
  obtain ⟨S, es, -, heq⟩ := torus_equation tol (Real.mul_self_sqrt (by norm_num : (0 : ℝ) ≤ 2)) (Real.sqrt_pos.2 (by norm_num)) major minor ns
  have es' : createTorus tol (Real.sqrt 2) major minor ns = some s := by
    simp only [createTorus, e, f, Option.bind_eq_bind, Option.bind_some]
  obtain rfl : S = s := Option.some_inj.1 (es.symm.trans es')
  refine ⟨s', by simp only [createTorusRounded, e', f', Option.bind_eq_bind, Option.bind_some], vs', fun a b a0 a1 b0 b1 => ?_⟩
  obtain ⟨P, P', g, g', h⟩ := ha a b a0 a1 b0 b1
  obtain ⟨P1, P2, g1, g2, h2⟩ := hb a b a0 a1 b0 b1
  obtain ⟨Q, hQ, onS⟩ := heq a b
  obtain rfl : P = Q := Option.some_inj.1 (g.symm.trans hQ)
  rw [mirrorY_at vs, g, Option.map_some, Option.some_inj] at g1
  subst g1
  exact ⟨P, P', by rw [es, Option.bind_some, g], onS, g', h, P2, g2, h2⟩

/-! ### disk and cylinder -/

theorem disk_off {r : ℝ} (hr : 2 ^ (-400 : ℤ) ≤ r) (tol : ℝ) (ns ns' : Surface ℝ) :
    ∃ s s', createDisk tol (Real.sqrt 2) r ns = some s ∧ createDiskRounded double tol r ns' = some s' ∧ s.Valid 2 1 9 2 ∧ s'.Valid 2 1 9 2 ∧
      s.knotsU = knotsCircle ∧ s.knotsV = knots01 ∧ SurfOff (8 * (2 ^ (-53 : ℤ) * r)) (6 * 2 ^ (-53 : ℤ)) 9 2 s s' ∧
      (∀ i < 9, ∀ j < 2, 1 / 2 ≤ s.wt 9 i j ∧ s.wt 9 i j ≤ 1) ∧ (∀ i < 9, ∀ j < 2, Box r (s.pt 9 i j)) ∧
      s.closedU = true ∧ s'.closedU = true ∧ ∃ c : Curve ℝ, c.points = [⟨0, 0, 0⟩, ⟨r, 0, 0⟩] ∧ c.isClosed tol = some s.closedV ∧
        c.isClosedRounded double tol = some s'.closedV := by
  have r0 := small_off hr
  obtain ⟨tp, tw, e, l1, l2⟩ := setDegree_curve (Curve.new : Curve ℝ) 1
  obtain ⟨c', e', h, h1, h2, h3, -⟩ := line_curve (⟨0, 0, 0⟩ : P3 ℝ) ⟨r, 0, 0⟩
    { (Curve.new : Curve ℝ) with degree := ((1 : Nat) : Int), tempPoints := tp, tempWeights := tw } rfl l1.ge l2.ge
  simp only [Nat.cast_one] at e e'
  obtain ⟨s, s', f, f', vs, vs', ku, kv, ⟨cu, cu', cv, cv'⟩, a, b, c⟩ := revolve_off h h hr rfl (by
      intro i hi
      have self : ∀ p : P3 ℝ, Within (3 * (2 ^ (-53 : ℤ) * r)) p p := fun p => by
        unfold Within; simp only [sub_self, abs_zero]; exact ⟨by positivity, by positivity, by positivity⟩
      refine ⟨self _, ?_⟩
      rw [h3]
      obtain rfl | rfl : i = 0 ∨ i = 1 := by omega
      · simp [r0.le]
      · simp [abs_of_pos r0, r0.le]) (by
      intro i hi
      rw [h2, sub_self, abs_zero]
      obtain rfl | rfl : i = 0 ∨ i = 1 := by omega
      all_goals exact ⟨root_half.1, le_rfl, by simp only [List.getD, List.getElem?_cons_zero, List.getElem?_cons_succ, Option.getD_some]; positivity⟩)
    tol ns.clear ns'.clear
  refine ⟨s, s', ?_, ?_, vs, vs', ku, kv.trans h1, a, b, c, cu, cu', _, h3, cv, cv'⟩
  · simp only [createDisk, Option.bind_eq_bind, e, Option.bind_some, e', f]
  · simp only [createDiskRounded, Option.bind_eq_bind, e, Option.bind_some, e', f']

/-- **C130** disk -/
theorem disk_double {r : ℝ} (hr : 2 ^ (-400 : ℤ) ≤ r) (hr' : r ≤ 2 ^ (400 : ℤ)) (tol : ℝ) (ns : Surface ℝ) :
    ∃ S', createDiskRounded double tol r ns = some S' ∧ S'.Valid 2 1 9 2 ∧ ∀ a b, 0 ≤ a → a ≤ 1 → 0 ≤ b → b ≤ 1 → ∃ P P',
      (createDisk tol (Real.sqrt 2) r ns).bind (·.at a b) = some P ∧ P.x ^ 2 + P.y ^ 2 ≤ r ^ 2 ∧ P.z = 0 ∧
      S'.atRounded double a b = some P' ∧ Within (400 * 2 ^ (-53 : ℤ) * r) P P' := by
  obtain ⟨s, s', e, e', hv, hv', ku, kv, ho, hw, hp, -⟩ := disk_off hr tol ns ns
  obtain ⟨S, es, -, hits⟩ := disk_exact tol r ns
  obtain rfl : S = s := Option.some_inj.1 (es.symm.trans e)
  have r0 := small_off hr
  have ur : 0 < 2 ^ (-53 : ℤ) * r := by positivity
  refine ⟨s', e', hv', fun a b a0 a1 b0 b1 => ?_⟩
  obtain ⟨P, P', g, g', h⟩ := surface_off_double (by norm_num) hv hv' hr hr'
    ⟨ho.knotsU, ho.knotsV, fun i hi j hj => (ho.points i hi j hj).mono (by linarith), ho.weights⟩ hw hp
    (by rw [ku]; exact knotsCircle_quarter) (by rw [kv]; exact knots01_quarter) a0 a1 b0 b1
  obtain ⟨z, xy⟩ := (hits P).1 ⟨a, b, a0, a1, b0, b1, g⟩
  exact ⟨P, P', by rw [e, Option.bind_some, g], xy, z, g', h⟩

/-- moving a rounded disk by half of the height -/
theorem lift_off {r h k : ℝ} (hr : 2 ^ (-400 : ℤ) ≤ r) (hh : 0 ≤ h) (hk : |k| = h / 2) {p p' : P3 ℝ} (hb : Box r p)
    (ho : Within (8 * (2 ^ (-53 : ℤ) * r)) p p') : |double (p'.z + double k) - (p.z + k)| ≤ 10 * (2 ^ (-53 : ℤ) * (r + h)) ∧ |p.z + k| ≤ r + h := by
  have r0 := small_off hr
  have u1 : (2 : ℝ) ^ (-53 : ℤ) ≤ 1 / 10 ^ 10 := by norm_num
  have u0 : (0 : ℝ) < 2 ^ (-53 : ℤ) := by positivity
  have z1 := ho.2.2
  have z2 := hb.2.2
  have k1 : |double k - k| ≤ 2 ^ (-53 : ℤ) * (r / 1000 + h / 2) := by
    have a := Rounded.double_err k
    have b := eta_le hr
    rw [hk] at a
    generalize (2 : ℝ) ^ (-53 : ℤ) = u at *
    linarith
  have d : |p'.z + double k - (p.z + k)| ≤ 8 * (2 ^ (-53 : ℤ) * r) + 2 ^ (-53 : ℤ) * (r / 1000 + h / 2) := by
    rw [show p'.z + double k - (p.z + k) = (p'.z - p.z) + (double k - k) by ring]
    exact (abs_add_le _ _).trans (add_le_add z1 k1)
  have b : |p.z + k| ≤ r + h / 2 := (abs_add_le _ _).trans (by rw [hk]; linarith)
  have b' : |p'.z + double k| ≤ 1.001 * (r + h / 2) := by
    have := abs_add_le (p'.z + double k - (p.z + k)) (p.z + k)
    rw [sub_add_cancel] at this
    generalize (2 : ℝ) ^ (-53 : ℤ) = u at *
    nlinarith
  have f := double_off (x := p'.z + double k) (R := 1.001 * (r + h / 2)) (by linarith) b'
  refine ⟨?_, by linarith⟩
  rw [show double (p'.z + double k) - (p.z + k) = (double (p'.z + double k) - (p'.z + double k)) + (p'.z + double k - (p.z + k)) by ring]
  refine (abs_add_le _ _).trans ?_
  have ur := mul_pos u0 r0
  have uh := mul_nonneg u0.le hh
  generalize (2 : ℝ) ^ (-53 : ℤ) = u at *
  nlinarith

/-- the profile of the side -/
theorem sideProfile_off {r h : ℝ} (hr : 2 ^ (-400 : ℤ) ≤ r) (hh : 0 ≤ h) {c c' : Curve ℝ} (p1 : c.points = [⟨r, 0, -h / 2⟩, ⟨r, 0, h / 2⟩])
    (p1' : c'.points = [⟨r, 0, double (-h / 2)⟩, ⟨r, 0, double (h / 2)⟩]) :
    ∀ i < 2, Profile (r + h) (c.points.getD i ⟨0, 0, 0⟩) (c'.points.getD i ⟨0, 0, 0⟩) := by
  have r0 := small_off hr
  have R0 : 0 < r + h := by linarith
  have hR : 2 ^ (-400 : ℤ) ≤ r + h := by linarith
  have uR : 0 < 2 ^ (-53 : ℤ) * (r + h) := by positivity
  have H : ∀ k : ℝ, |k| = h / 2 → Profile (r + h) ⟨r, 0, k⟩ ⟨r, 0, double k⟩ := fun k hk => by
    refine ⟨⟨?_, ?_, ?_⟩, ?_, ?_⟩
    · simp only [sub_self, abs_zero]; positivity
    · simp only [sub_self, abs_zero]; positivity
    · have := double_off (x := k) hR (by rw [hk]; linarith)
      simp only
      generalize (2 : ℝ) ^ (-53 : ℤ) * (r + h) = v at *
      linarith
    · simp only [abs_zero, add_zero, abs_of_pos r0]; linarith
    · simp only [hk]; linarith
  intro i hi
  rw [p1, p1']
  obtain rfl | rfl : i = 0 ∨ i = 1 := by omega
  · exact H _ (by rw [abs_of_nonpos (by linarith)]; ring)
  · exact H _ (abs_of_nonneg (by linarith))

/-- **C130** cylinder.  `create_cylinder` in `double` makes three surfaces; evaluated in `double` at any
parameters they are within `400 · 2⁻⁵³ (r + h)` in each coordinate of the points of the exact
surfaces at the same parameters, which are on the bottom disk, on the side and on the top disk of the
cylinder of radius `r` and height `h`. -/
theorem cylinder_double {r h : ℝ} (hr : 2 ^ (-400 : ℤ) ≤ r) (hh : 0 ≤ h) (hR' : r + h ≤ 2 ^ (400 : ℤ)) (tol : ℝ) :
    ∃ S1 S2 S3 S1' S2' S3', createCylinder tol (Real.sqrt 2) r h = some [S1, S2, S3] ∧
      createCylinderRounded double tol r h = some [S1', S2', S3'] ∧
      ∀ a b, 0 ≤ a → a ≤ 1 → 0 ≤ b → b ≤ 1 → ∃ P1 P2 P3 P1' P2' P3',
        (S1.at a b = some P1 ∧ S1'.atRounded double a b = some P1' ∧ P1.z = -(h / 2) ∧ P1.x ^ 2 + P1.y ^ 2 ≤ r ^ 2 ∧
          Within (400 * 2 ^ (-53 : ℤ) * (r + h)) P1 P1') ∧
        (S2.at a b = some P2 ∧ S2'.atRounded double a b = some P2' ∧ (-(h / 2) ≤ P2.z ∧ P2.z ≤ h / 2) ∧ P2.x ^ 2 + P2.y ^ 2 = r ^ 2 ∧
          Within (400 * 2 ^ (-53 : ℤ) * (r + h)) P2 P2') ∧
        (S3.at a b = some P3 ∧ S3'.atRounded double a b = some P3' ∧ P3.z = h / 2 ∧ P3.x ^ 2 + P3.y ^ 2 ≤ r ^ 2 ∧
          Within (400 * 2 ^ (-53 : ℤ) * (r + h)) P3 P3') := by
  have r0 := small_off hr
  have R0 : 0 < r + h := by linarith
  have hR : 2 ^ (-400 : ℤ) ≤ r + h := by linarith
  have u0 : (0 : ℝ) < 2 ^ (-53 : ℤ) := by positivity
  have uR : 0 < 2 ^ (-53 : ℤ) * (r + h) := by positivity
  have ur : 2 ^ (-53 : ℤ) * r ≤ 2 ^ (-53 : ℤ) * (r + h) := mul_le_mul_of_nonneg_left (by linarith) u0.le
  obtain ⟨D, D', e, e', hv, hv', ku, kv, ho, hw, hp, -⟩ := disk_off hr tol Surface.new Surface.new
  have qu : QuarterKnots D.knotsU := by rw [ku]; exact knotsCircle_quarter
  have qv : QuarterKnots D.knotsV := by rw [kv]; exact knots01_quarter
  -- the side
  obtain ⟨c, ec, vc, k1, w1, p1, -⟩ := createCurveFromPoints_two (⟨r, 0, -h / 2⟩ : P3 ℝ) ⟨r, 0, h / 2⟩ Curve.new
  obtain ⟨c', ec', vc', k1', w1', p1', -⟩ := createCurveFromPoints_two (⟨r, 0, double (-h / 2)⟩ : P3 ℝ) ⟨r, 0, double (h / 2)⟩ Curve.new
  have prof := sideProfile_off hr hh p1 p1'
  obtain ⟨s, s', f, f', vs, vs', -, hm⟩ := revolve_double (by norm_num) vc vc' hR hR' (k1'.trans k1.symm) (by rw [k1]; exact knots01_quarter) prof (by
      intro i hi
      rw [w1, w1', sub_self, abs_zero]
      obtain rfl | rfl : i = 0 ∨ i = 1 := by omega
      all_goals exact ⟨root_half.1, le_rfl, by simp only [List.getD, List.getElem?_cons_zero, List.getElem?_cons_succ, Option.getD_some]; positivity⟩)
    tol Surface.new Surface.new
  -- the disks
  have low := fun a b (a0 : 0 ≤ a) (a1 : a ≤ 1) (b0 : 0 ≤ b) (b1 : b ≤ 1) => surface_off_double (by norm_num)
    (mapPoints_valid hv fun p => ⟨p.x, -p.y, p.z - h / 2⟩) (mapPoints_valid hv' fun p => ⟨p.x, -p.y, double (p.z - double (h / 2))⟩) hR hR'
    (ho.map hv hv' fun i hi j hj => by
      obtain ⟨o1, o2, o3⟩ := (ho.points i hi j hj).mirror
      have l := (lift_off (k := -(h / 2)) hr hh (by rw [abs_neg, abs_of_nonneg (by linarith)]) (hp i hi j hj) (ho.points i hi j hj)).1
      rw [show double (-(h / 2)) = -double (h / 2) from ieee_neg _, ← sub_eq_add_neg, ← sub_eq_add_neg] at l
      exact ⟨o1.trans (by linarith), o2.trans (by linarith), l⟩) hw
    (fun i hi j hj => by
      rw [mapPoints_pt hv _ hi hj]
      obtain ⟨b1, b2, b3⟩ := (hp i hi j hj).mirror
      have l := (lift_off (k := -(h / 2)) hr hh (by rw [abs_neg, abs_of_nonneg (by linarith)]) (hp i hi j hj) (ho.points i hi j hj)).2
      exact ⟨b1.trans (by linarith), b2.trans (by linarith), by simpa [sub_eq_add_neg] using l⟩) qu qv a0 a1 b0 b1
  have high := fun a b (a0 : 0 ≤ a) (a1 : a ≤ 1) (b0 : 0 ≤ b) (b1 : b ≤ 1) => surface_off_double (by norm_num)
    (mapPoints_valid hv fun p => ⟨p.x, p.y, p.z + h / 2⟩) (mapPoints_valid hv' fun p => ⟨p.x, p.y, double (p.z + double (h / 2))⟩) hR hR'
    (ho.map hv hv' fun i hi j hj => by
      obtain ⟨o1, o2, o3⟩ := ho.points i hi j hj
      have l := (lift_off (k := h / 2) hr hh (abs_of_nonneg (by linarith)) (hp i hi j hj) (ho.points i hi j hj)).1
      exact ⟨o1.trans (by linarith), o2.trans (by linarith), l⟩) hw
    (fun i hi j hj => by
      rw [mapPoints_pt hv _ hi hj]
      obtain ⟨b1, b2, b3⟩ := hp i hi j hj
      have l := (lift_off (k := h / 2) hr hh (abs_of_nonneg (by linarith)) (hp i hi j hj) (ho.points i hi j hj)).2
      exact ⟨b1.trans (by linarith), b2.trans (by linarith), l⟩) qu qv a0 a1 b0 b1
  obtain ⟨S1, S2, S3, E, h1, h2, h3⟩ := cylinder_exact tol r h hh
  have E1 : createCylinder tol (Real.sqrt 2) r h = some [D.mapPoints fun p => ⟨p.x, -p.y, p.z - h / 2⟩, s.mapPoints mirrorY,
      D.mapPoints fun p => ⟨p.x, p.y, p.z + h / 2⟩] := by
    simp only [createCylinder, e, ec, f, Option.bind_eq_bind, Option.bind_some, Option.pure_def, Solid.add, List.nil_append,
      List.singleton_append, List.cons_append]
  have E2 := Option.some_inj.1 (E.symm.trans E1)
  simp only [List.cons.injEq, and_true] at E2
  obtain ⟨rfl, rfl, rfl⟩ := E2
  refine ⟨_, _, _, D'.mapPoints fun p => ⟨p.x, -p.y, double (p.z - double (h / 2))⟩, s'.mapPoints mirrorY,
    D'.mapPoints fun p => ⟨p.x, p.y, double (p.z + double (h / 2))⟩, E1, ?_, fun a b a0 a1 b0 b1 => ?_⟩
  · simp only [createCylinderRounded, e', ec', f', Option.bind_eq_bind, Option.bind_some, Option.pure_def, Solid.add, List.nil_append,
      List.singleton_append, List.cons_append]
  · obtain ⟨P1, P1', g1, g1', i1⟩ := low a b a0 a1 b0 b1
    obtain ⟨P2, P2', g2, g2', i2⟩ := hm a b a0 a1 b0 b1
    obtain ⟨P3, P3', g3, g3', i3⟩ := high a b a0 a1 b0 b1
    have j1 := (h1 P1).1 ⟨a, b, a0, a1, b0, b1, g1⟩
    have j2 := (h2 P2).1 ⟨a, b, a0, a1, b0, b1, g2⟩
    have j3 := (h3 P3).1 ⟨a, b, a0, a1, b0, b1, g3⟩
    exact ⟨P1, P2, P3, P1', P2', P3', ⟨g1, g1', j1.1, j1.2, i1⟩, ⟨g2, g2', j2.1, j2.2, i2⟩, ⟨g3, g3', j3.1, j3.2, i3⟩⟩

/-- a sphere of radius 1000 (say millimetres) is a sphere to within `1e-10` -/
example (tol : ℝ) : ∃ S', createSphereRounded double tol 1000 Surface.new = some S' ∧ ∀ a b, 0 ≤ a → a ≤ 1 → 0 ≤ b → b ≤ 1 → ∃ P',
    S'.atRounded double a b = some P' ∧ |P'.norm - 1000| ≤ 1 / 10 ^ 10 := by
  have l : (2 : ℝ) ^ (-400 : ℤ) ≤ 1000 := (zpow_le_one_of_nonpos₀ (by norm_num) (by norm_num)).trans (by norm_num)
  have u : (1000 : ℝ) ≤ 2 ^ (400 : ℤ) := le_trans (by norm_num : (1000 : ℝ) ≤ 2 ^ (10 : ℤ)) (zpow_le_zpow_right₀ (by norm_num) (by norm_num))
  obtain ⟨S', e, -, H⟩ := sphere_double l u tol Surface.new
  refine ⟨S', e, fun a b a0 a1 b0 b1 => ?_⟩
  obtain ⟨P, P', -, -, g, -, h⟩ := H a b a0 a1 b0 b1
  exact ⟨P', g, h.trans (by norm_num)⟩

/-! ### the rounded model without rounding -/

theorem isClosedRounded_id (c : Curve ℝ) (tol : ℝ) : c.isClosedRounded id tol = c.isClosed tol := by
  unfold Curve.isClosedRounded Curve.isClosed
  by_cases h : c.points.length ≤ 1
  · simp [h]
  · simp only [h, if_false]
    rfl

theorem revolveRounded_id (tol : ℝ) (nc : Curve ℝ) (ns : Surface ℝ) : revolveRounded id tol nc ns = revolve tol (Real.sqrt 2) nc ns := by
  unfold revolveRounded revolve
  simp only [isClosedRounded_id]
  rfl

/-- with exact arithmetic the functions of this model are those of the exact one -/
theorem shapes_id (tol r h : ℝ) (nc : Curve ℝ) (ns : Surface ℝ) : createCircleRounded id r nc = createCircle (Real.sqrt 2) r nc ∧
    createDiskRounded id tol r ns = createDisk tol (Real.sqrt 2) r ns ∧ createSphereRounded id tol r ns = createSphere tol (Real.sqrt 2) r ns ∧
    createTorusRounded id tol h r ns = createTorus tol (Real.sqrt 2) h r ns ∧ createCylinderRounded id tol r h = createCylinder tol (Real.sqrt 2) r h := by
  refine ⟨rfl, ?_, ?_, ?_, ?_⟩
  · simp only [createDiskRounded, createDisk, revolveRounded_id]
  · unfold createSphereRounded createSphere
    simp only [revolveRounded_id]
    rfl
  · unfold createTorusRounded createTorus
    simp only [revolveRounded_id]
    rfl
  · unfold createCylinderRounded createCylinder
    simp only [revolveRounded_id, createDiskRounded, createDisk]
    rfl
end Nurbs
end CAD
