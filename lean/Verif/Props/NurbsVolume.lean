import Mathlib.Analysis.SpecialFunctions.Trigonometric.Bounds
import Mathlib.Analysis.SpecialFunctions.Trigonometric.Inverse
import Mathlib.Analysis.Real.Pi.Bounds
import Verif.Props.NurbsSpread

/-! C134: the meshes of the NURBS sphere, torus and cylinder face outwards, and their volume
tends to that of the solid as the number of segments grows. -/

namespace CAD
namespace Nurbs
open BSpline Mesh MeshUtil Real

/-! ### the angle of a direction -/

/-- the angle on the rational arc -/
noncomputable def arcA (x : ℝ) : ℝ := arcsin (arcS x)

theorem arcA_spec {x : ℝ} (h0 : 0 ≤ x) (h1 : x ≤ 1) :
    cos (arcA x) = arcC x ∧ sin (arcA x) = arcS x ∧ 0 ≤ arcA x ∧ arcA x ≤ π / 2 := by
  obtain ⟨c, s⟩ := arc_bounds h0 h1
  have u := arc_unit x
  have s1 : arcS x ≤ 1 := by nlinarith [sq_nonneg (arcC x)]
  refine ⟨?_, sin_arcsin (by linarith) s1, arcsin_nonneg.2 (by linarith), arcsin_le_pi_div_two _⟩
  unfold arcA
  rw [cos_arcsin, show 1 - arcS x ^ 2 = arcC x ^ 2 by linarith, Real.sqrt_sq (by linarith)]

theorem arcA_ends : arcA 0 = 0 ∧ arcA 1 = π / 2 := by
  obtain ⟨-, b, -, d⟩ := arc_ends
  exact ⟨by simp [arcA, b], by simp [arcA, d]⟩

/-- the angle grows with the parameter, at most `π` times as fast -/
theorem arcA_step {x y : ℝ} (hx : 0 ≤ x) (hxy : x ≤ y) (hy : y ≤ 1) : arcA x ≤ arcA y ∧ arcA y - arcA x ≤ π * (y - x) := by
  obtain ⟨cx, sx, a0, a1⟩ := arcA_spec hx (hxy.trans hy)
  obtain ⟨cy, sy, b0, b1⟩ := arcA_spec (hx.trans hxy) hy
  have dx := arc_pos _ x root_sq root_pos
  have dy := arc_pos _ y root_sq root_pos
  have r2 : Real.sqrt 2 ≤ 142 / 100 := by nlinarith [root_sq, root_pos]
  have r1 : 7 / 5 ≤ Real.sqrt 2 := by nlinarith [root_sq, root_pos]
  have e : sin (arcA y - arcA x) = (y - x) * (Real.sqrt 2 * ((1 - x) * (1 - y) + x * y) + (x * (1 - y) + y * (1 - x))) /
      (((1 - y) ^ 2 + Real.sqrt 2 * y * (1 - y) + y ^ 2) * ((1 - x) ^ 2 + Real.sqrt 2 * x * (1 - x) + x ^ 2)) := by
    rw [sin_sub, cx, sx, cy, sy]
    unfold arcC arcS
    rw [div_mul_div_comm, div_mul_div_comm, ← sub_div]
    congr 1
    ring
  have x1 := sub_nonneg.2 (hxy.trans hy)
  have y1 := sub_nonneg.2 hy
  have y0 := hx.trans hxy
  have B0 : 0 ≤ Real.sqrt 2 * ((1 - x) * (1 - y) + x * y) + (x * (1 - y) + y * (1 - x)) := by positivity
  have s0 : 0 ≤ sin (arcA y - arcA x) := by
    rw [e]
    exact div_nonneg (mul_nonneg (sub_nonneg.2 hxy) B0) (mul_pos dy dx).le
  have mono : arcA x ≤ arcA y := by
    by_contra h
    push Not at h
    have := sin_pos_of_pos_of_lt_pi (x := arcA x - arcA y) (by linarith) (by linarith [pi_pos])
    rw [← neg_sub, sin_neg] at this
    linarith
  refine ⟨mono, ?_⟩
  have j := mul_le_sin (x := arcA y - arcA x) (by linarith) (by linarith)
  have le2 : sin (arcA y - arcA x) ≤ 2 * (y - x) := by
    rw [e, div_le_iff₀ (mul_pos dy dx)]
    have B1 : Real.sqrt 2 * ((1 - x) * (1 - y) + x * y) + (x * (1 - y) + y * (1 - x)) ≤
        2 * (((1 - y) ^ 2 + Real.sqrt 2 * y * (1 - y) + y ^ 2) * ((1 - x) ^ 2 + Real.sqrt 2 * x * (1 - x) + x ^ 2)) := by
      have w : ∀ x : ℝ, 85 / 100 ≤ (1 - x) ^ 2 + Real.sqrt 2 * x * (1 - x) + x ^ 2 ∨ x * (1 - x) < 0 := by
        intro x
        rcases le_or_gt 0 (x * (1 - x)) with h | h
        · left
          nlinarith [mul_le_mul_of_nonneg_right r1 h, sq_nonneg (2 * x - 1)]
        · exact Or.inr h
      have wx := (w x).resolve_right (not_lt.2 (mul_nonneg hx x1))
      have wy := (w y).resolve_right (not_lt.2 (mul_nonneg y0 y1))
      have ww := mul_le_mul wy wx (by norm_num) dy.le
      have q : (1 - x) * (1 - y) + x * y ≤ 1 := by nlinarith
      nlinarith [mul_le_mul_of_nonneg_left q (show 0 ≤ Real.sqrt 2 - 1 by linarith)]
    have := mul_le_mul_of_nonneg_left B1 (sub_nonneg.2 hxy)
    linarith
  have := mul_le_mul_of_nonneg_left (j.trans le2) pi_pos.le
  rw [show π * (2 / π * (arcA y - arcA x)) = 2 * (arcA y - arcA x) by field_simp] at this
  linarith

/-- the angle of a direction of the turn -/
noncomputable def ang (u : ℝ) : ℝ := quad4 u * (π / 2) + arcA (4 * u - quad4 u)

theorem dir_ang {u : ℝ} (h0 : 0 ≤ u) (h1 : u ≤ 1) : dir u = (cos (ang u), sin (ang u)) := by
  obtain ⟨a, b, c, -⟩ := quarter_spec h0 h1
  obtain ⟨hc, hs, -, -⟩ := arcA_spec b c
  unfold dir ang
  generalize 4 * u - (quad4 u : ℝ) = x at *
  generalize quad4 u = j at *
  obtain rfl | rfl | rfl | rfl : j = 0 ∨ j = 1 ∨ j = 2 ∨ j = 3 := by omega
  · simp [dirAt, hc, hs]
  · rw [show ((1 : ℕ) : ℝ) * (π / 2) + arcA x = arcA x + π / 2 by push_cast; ring, cos_add_pi_div_two, sin_add_pi_div_two]
    simp [dirAt, hc, hs]
  · rw [show ((2 : ℕ) : ℝ) * (π / 2) + arcA x = arcA x + π by push_cast; ring, cos_add_pi, sin_add_pi]
    simp [dirAt, hc, hs]
  · rw [show ((3 : ℕ) : ℝ) * (π / 2) + arcA x = arcA x + π / 2 + π by push_cast; ring, cos_add_pi, sin_add_pi, cos_add_pi_div_two,
      sin_add_pi_div_two]
    simp [dirAt, hc, hs]

theorem ang_ends : ang 0 = 0 ∧ ang (1 / 2) = π ∧ ang 1 = 2 * π := by
  obtain ⟨a, b⟩ := arcA_ends
  refine ⟨?_, ?_, ?_⟩
  · norm_num [ang, quad4, a]
  · norm_num [ang, quad4, a]
    ring
  · norm_num [ang, quad4, b]
    ring

theorem quad4_mono {u v : ℝ} (h : u ≤ v) : quad4 u ≤ quad4 v := by
  unfold quad4
  split_ifs <;> first | omega | (exfalso; linarith)

theorem ang_step {u v : ℝ} (h0 : 0 ≤ u) (huv : u ≤ v) (h1 : v ≤ 1) : ang u ≤ ang v ∧ ang v - ang u ≤ 4 * π * (v - u) := by
  obtain ⟨-, u0, u1, -⟩ := quarter_spec h0 (huv.trans h1)
  obtain ⟨-, v0, v1, -⟩ := quarter_spec (h0.trans huv) h1
  have p := pi_pos
  unfold ang
  rcases (quad4_mono huv).eq_or_lt with e | l
  · rw [← e] at v0 v1 ⊢
    obtain ⟨a, b⟩ := arcA_step u0 (show 4 * u - (quad4 u : ℝ) ≤ 4 * v - quad4 u by linarith) v1
    constructor <;> linarith
  · obtain ⟨e0, e1⟩ := arcA_ends
    have l' : (quad4 u : ℝ) + 1 ≤ quad4 v := by exact_mod_cast l
    obtain ⟨a, b⟩ := arcA_step u0 u1 le_rfl
    obtain ⟨c, d⟩ := arcA_step le_rfl v0 v1
    rw [e0] at c d
    rw [e1] at a b
    have := mul_le_mul_of_nonneg_right l' (show 0 ≤ π / 2 by positivity)
    constructor
    · linarith
    · linarith

/-! ### sums over the steps of a subdivision -/

/-- sines of small steps -/
theorem sum_sin {n : Nat} {t : Nat → ℝ} {d : ℝ} (h : ∀ i < n, 0 ≤ t (i + 1) - t i ∧ t (i + 1) - t i ≤ d) :
    (t n - t 0) * (1 - d ^ 2 / 6) ≤ ∑ i ∈ Finset.range n, sin (t (i + 1) - t i) ∧
      ∑ i ∈ Finset.range n, sin (t (i + 1) - t i) ≤ t n - t 0 := by
  rw [← Finset.sum_range_sub t n, Finset.sum_mul]
  constructor
  · refine Finset.sum_le_sum fun i hi => ?_
    obtain ⟨a, b⟩ := h i (Finset.mem_range.1 hi)
    have c := sin_ge_sub_cube a
    generalize t (i + 1) - t i = x at *
    have : x ^ 2 ≤ d ^ 2 := pow_le_pow_left₀ a b 2
    have := mul_le_mul_of_nonneg_left this a
    nlinarith
  · exact Finset.sum_le_sum fun i hi => sin_le (h i (Finset.mem_range.1 hi)).1

/-- the sum over the profile of the sphere -/
theorem sum_profile {n : Nat} {t : Nat → ℝ} {d : ℝ} (h0 : t 0 = 0) (hn : t n = π)
    (h : ∀ i < n, 0 ≤ t (i + 1) - t i ∧ t (i + 1) - t i ≤ d) :
    4 * (1 - d ^ 2 / 4) ≤ ∑ i ∈ Finset.range n, sin (t (i + 1) - t i) * (sin (t i) + sin (t (i + 1))) ∧
      ∑ i ∈ Finset.range n, sin (t (i + 1) - t i) * (sin (t i) + sin (t (i + 1))) ≤ 4 := by
  have tel : ∑ i ∈ Finset.range n, (cos (t i) - cos (t (i + 1))) = 2 := by
    rw [Finset.sum_range_sub' (fun i => cos (t i)), h0, hn]
    simp
    norm_num
  have mono : ∀ i ≤ n, 0 ≤ t i := by
    intro i
    induction i with
    | zero => exact fun _ => h0.ge
    | succ i ih => intro hi; linarith [ih (by omega), (h i (by omega)).1]
  have mono' : ∀ j, ∀ i, i + j = n → t i ≤ π := by
    intro j
    induction j with
    | zero => intro i hi; rw [← hn, ← hi]; simp
    | succ j ih => intro i hi; linarith [ih (i + 1) (by omega), (h i (by omega)).1]
  have key : ∀ i, sin (t (i + 1) - t i) * (sin (t i) + sin (t (i + 1))) = (1 + cos (t (i + 1) - t i)) * (cos (t i) - cos (t (i + 1))) := by
    intro i
    rw [sin_sub, cos_sub]
    have u := sin_sq_add_cos_sq (t i)
    have v := sin_sq_add_cos_sq (t (i + 1))
    linear_combination cos (t i) * v - cos (t (i + 1)) * u
  have pos : ∀ i < n, 0 ≤ cos (t i) - cos (t (i + 1)) := fun i hi => by
    have := cos_le_cos_of_nonneg_of_le_pi (mono i (by omega)) (mono' (n - (i + 1)) (i + 1) (by omega)) (by linarith [(h i hi).1])
    linarith
  simp only [key]
  constructor
  · have e4 : 4 * (1 - d ^ 2 / 4) = ∑ i ∈ Finset.range n, (2 - d ^ 2 / 2) * (cos (t i) - cos (t (i + 1))) := by
      rw [← Finset.mul_sum, tel]
      ring
    rw [e4]
    refine Finset.sum_le_sum fun i hi => ?_
    have hi := Finset.mem_range.1 hi
    obtain ⟨a, b⟩ := h i hi
    have c := one_sub_sq_div_two_le_cos (x := t (i + 1) - t i)
    have : (t (i + 1) - t i) ^ 2 ≤ d ^ 2 := pow_le_pow_left₀ a b 2
    exact mul_le_mul_of_nonneg_right (by linarith) (pos i hi)
  · have e4 : (4 : ℝ) = ∑ i ∈ Finset.range n, 2 * (cos (t i) - cos (t (i + 1))) := by
      rw [← Finset.mul_sum, tel]
      norm_num
    rw [e4]
    refine Finset.sum_le_sum fun i hi => ?_
    exact mul_le_mul_of_nonneg_right (by linarith [cos_le_one (t (i + 1) - t i)]) (pos i (Finset.mem_range.1 hi))

/-- the sum over the circle of the torus -/
theorem sum_circle {n : Nat} {t : Nat → ℝ} {d : ℝ} (h0 : t 0 = 0) (hn : t n = 2 * π)
    (h : ∀ i < n, 0 ≤ t (i + 1) - t i ∧ t (i + 1) - t i ≤ d) :
    |∑ i ∈ Finset.range n, sin (t (i + 1) - t i) * (cos (t i) + cos (t (i + 1)))| ≤ π * d ^ 2 := by
  have tel : ∑ i ∈ Finset.range n, (sin (t (i + 1)) - sin (t i)) = 0 := by
    rw [Finset.sum_range_sub (fun i => sin (t i)), h0, hn]
    simp
  have key : ∀ i, sin (t (i + 1) - t i) * (cos (t i) + cos (t (i + 1))) =
      2 * (sin (t (i + 1)) - sin (t i)) - (1 - cos (t (i + 1) - t i)) * (sin (t (i + 1)) - sin (t i)) := by
    intro i
    rw [sin_sub, cos_sub]
    have u := sin_sq_add_cos_sq (t i)
    have v := sin_sq_add_cos_sq (t (i + 1))
    linear_combination sin (t (i + 1)) * u - sin (t i) * v
  simp only [key]
  rw [Finset.sum_sub_distrib, ← Finset.mul_sum, tel, mul_zero, zero_sub, abs_neg]
  refine (Finset.abs_sum_le_sum_abs _ _).trans ?_
  have : π * d ^ 2 = ∑ i ∈ Finset.range n, d ^ 2 / 2 * (t (i + 1) - t i) := by
    rw [← Finset.mul_sum, Finset.sum_range_sub, h0, hn]
    ring
  rw [this]
  refine Finset.sum_le_sum fun i hi => ?_
  obtain ⟨a, b⟩ := h i (Finset.mem_range.1 hi)
  have c := one_sub_sq_div_two_le_cos (x := t (i + 1) - t i)
  have e : (t (i + 1) - t i) ^ 2 ≤ d ^ 2 := pow_le_pow_left₀ a b 2
  rw [abs_mul, abs_of_nonneg (by linarith [cos_le_one (t (i + 1) - t i)])]
  refine mul_le_mul (by linarith) ?_ (abs_nonneg _) (by positivity)
  rw [show sin (t (i + 1)) - sin (t i) = 2 * sin ((t (i + 1) - t i) / 2) * cos ((t (i + 1) + t i) / 2) from sin_sub_sin _ _]
  rw [abs_mul, abs_mul]
  have f := abs_sin_le_abs (x := (t (i + 1) - t i) / 2)
  have g := abs_cos_le_one ((t (i + 1) + t i) / 2)
  rw [abs_of_nonneg (show 0 ≤ (t (i + 1) - t i) / 2 by linarith)] at f
  rw [abs_two]
  have := mul_le_mul f g (abs_nonneg _) (by linarith)
  linarith

/-! ### the volume under a turned surface -/

/-- the sum of anything over the triangles of the mesh of a surface whose closed ends meet -/
theorem sum_surfaceSoup {G : Type*} [AddCommMonoid G] {s : Surface ℝ} {U V : Nat}
    (hu : s.closedU = true → ∀ j : Nat, j ≤ V → samplePos s U V (0, j) = samplePos s U V (U, j))
    (hv : s.closedV = true → ∀ i : Nat, i ≤ U → samplePos s U V (i, 0) = samplePos s U V (i, V)) (f : Tri3 ℝ → G) :
    ((surfaceSoup s U V).map f).sum = ∑ j ∈ Finset.range V, ∑ i ∈ Finset.range U,
      (f ⟨samplePos s U V (i, j), samplePos s U V ((i + 1 : Nat), j), samplePos s U V ((i + 1 : Nat), (j + 1 : Nat))⟩ +
       f ⟨samplePos s U V ((i + 1 : Nat), (j + 1 : Nat)), samplePos s U V (i, (j + 1 : Nat)), samplePos s U V (i, j)⟩) := by
  rw [← sum_product_range V U (fun c => f ⟨samplePos s U V (c.2, c.1), samplePos s U V ((c.2 + 1 : Nat), c.1),
      samplePos s U V ((c.2 + 1 : Nat), (c.1 + 1 : Nat))⟩ +
       f ⟨samplePos s U V ((c.2 + 1 : Nat), (c.1 + 1 : Nat)), samplePos s U V (c.2, (c.1 + 1 : Nat)), samplePos s U V (c.2, c.1)⟩)]
  unfold surfaceSoup
  have mem : ∀ c ∈ meshCells U V, c.1 < V ∧ c.2 < U := fun c hc => by
    obtain ⟨a, b⟩ := c
    simpa [meshCells] using hc
  have wu : ∀ i j : Nat, i < U → j ≤ V → samplePos s U V (wrap s.closedU i U, j) = samplePos s U V ((i + 1 : Nat), j) := by
    intro i j hi hj
    unfold wrap
    split_ifs with h
    · rw [hu h.1 j hj, show (U : Int) = ((i + 1 : Nat) : Int) by push_cast; linarith [h.2]]
    · rfl
  have wv : ∀ i j : Nat, i ≤ U → j < V → samplePos s U V (i, wrap s.closedV j V) = samplePos s U V (i, (j + 1 : Nat)) := by
    intro i j hi hj
    unfold wrap
    split_ifs with h
    · rw [hv h.1 i hi, show (V : Int) = ((j + 1 : Nat) : Int) by push_cast; linarith [h.2]]
    · rfl
  have wuv : ∀ i j : Nat, i < U → j < V →
      samplePos s U V (wrap s.closedU i U, wrap s.closedV j V) = samplePos s U V ((i + 1 : Nat), (j + 1 : Nat)) := by
    intro i j hi hj
    obtain ⟨a, ha, ha'⟩ : ∃ a : Nat, wrap s.closedU i U = a ∧ a ≤ U := by
      unfold wrap
      split_ifs
      · exact ⟨0, rfl, by omega⟩
      · exact ⟨i + 1, by push_cast; rfl, by omega⟩
    rw [ha, wv a j ha' hj, ← ha, wu i (j + 1) hi (by omega)]
  revert mem
  induction meshCells U V with
  | nil => intro _; rfl
  | cons c l ih =>
    intro mem
    rw [List.flatMap_cons, List.map_append, List.map_append, List.sum_append, ih fun c hc => mem c (List.mem_cons_of_mem _ hc), List.map_cons,
      List.sum_cons]
    congr 1
    obtain ⟨h1, h2⟩ := mem c List.mem_cons_self
    simp only [meshCell, List.map_cons, List.map_nil, List.sum_cons, List.sum_nil, add_zero, wu _ _ h2 h1.le, wv _ _ h2.le h1, wuv _ _ h2 h1]

/-- Six times the volume under a turned surface: one factor for the turn, one for the profile. -/
theorem turned_volume {S : Surface ℝ} {U V : Nat} {a b ρ z : Nat → ℝ}
    (hs : ∀ i j : Nat, i ≤ U → j ≤ V → samplePos S U V (i, j) = ⟨ρ j * a i, ρ j * b i, z j⟩)
    (hu : a 0 = a U ∧ b 0 = b U) (hv : S.closedV = true → ρ 0 = ρ V ∧ z 0 = z V) :
    ((surfaceSoup S U V).map fun t => det3 t.p1 t.p2 t.p3).sum =
      (∑ i ∈ Finset.range U, (a i * b (i + 1) - b i * a (i + 1))) *
        ∑ j ∈ Finset.range V, (ρ j * z (j + 1) - z j * ρ (j + 1)) * (ρ j + ρ (j + 1)) := by
  rw [sum_surfaceSoup (fun _ j hj => ?_) (fun h i hi => ?_), Finset.sum_comm, Finset.sum_mul_sum]
  · refine Finset.sum_congr rfl fun i hi => Finset.sum_congr rfl fun j hj => ?_
    have hi := Finset.mem_range.1 hi
    have hj := Finset.mem_range.1 hj
    rw [hs i j hi.le hj.le, hs (i + 1) j hi hj.le, hs (i + 1) (j + 1) hi hj, hs i (j + 1) hi.le hj]
    simp only [det3]
    ring
  · have := hs 0 j (Nat.zero_le _) hj
    rw [Nat.cast_zero] at this
    rw [this, hs U j le_rfl hj, hu.1, hu.2]
  · have := hs i 0 hi (Nat.zero_le _)
    rw [Nat.cast_zero] at this
    rw [this, hs i V hi le_rfl, (hv h).1, (hv h).2]

/-- every triangle of a turned surface faces away from the origin -/
theorem turned_outward {S : Surface ℝ} {U V : Nat} {a b ρ z : Nat → ℝ}
    (hs : ∀ i j : Nat, i ≤ U → j ≤ V → samplePos S U V (i, j) = ⟨ρ j * a i, ρ j * b i, z j⟩)
    (hu : a 0 = a U ∧ b 0 = b U) (hv : S.closedV = true → ρ 0 = ρ V ∧ z 0 = z V) (hρ : ∀ j ≤ V, 0 ≤ ρ j)
    (h : ∀ i < U, ∀ j < V, 0 ≤ (a i * b (i + 1) - b i * a (i + 1)) * (ρ j * z (j + 1) - z j * ρ (j + 1))) :
    ∀ t ∈ surfaceSoup S U V, 0 ≤ det3 t.p1 t.p2 t.p3 := by
  classical
  have sum0 : ((surfaceSoup S U V).map fun t => if 0 ≤ det3 t.p1 t.p2 t.p3 then 0 else 1).sum = 0 := by
    rw [sum_surfaceSoup (fun _ j hj => ?_) (fun h i hi => ?_)]
    · refine Finset.sum_eq_zero fun j hj => Finset.sum_eq_zero fun i hi => ?_
      have hi := Finset.mem_range.1 hi
      have hj := Finset.mem_range.1 hj
      rw [hs i j hi.le hj.le, hs (i + 1) j hi hj.le, hs (i + 1) (j + 1) hi hj, hs i (j + 1) hi.le hj]
      have p := mul_nonneg (hρ j hj.le) (h i hi j hj)
      have q := mul_nonneg (hρ (j + 1) hj) (h i hi j hj)
      rw [if_pos (by simp only [det3]; linarith), if_pos (by simp only [det3]; linarith), add_zero]
    · have := hs 0 j (Nat.zero_le _) hj
      rw [Nat.cast_zero] at this
      rw [this, hs U j le_rfl hj, hu.1, hu.2]
    · have := hs i 0 hi (Nat.zero_le _)
      rw [Nat.cast_zero] at this
      rw [this, hs i V hi le_rfl, (hv h).1, (hv h).2]
  intro t ht
  have := List.sum_eq_zero_iff.1 sum0 _ (List.mem_map_of_mem ht)
  by_contra hn
  rw [if_neg hn] at this
  exact one_ne_zero this

/-- the steps of the turn -/
theorem turn_steps {U : Nat} (hU : 0 < U) : ∀ i < U, 0 ≤ ang ((i + 1 : Nat) / U) - ang (i / U) ∧
    ang ((i + 1 : Nat) / U) - ang (i / U) ≤ 4 * π / U := by
  intro i hi
  have U0 : (0 : ℝ) < U := by exact_mod_cast hU
  obtain ⟨a, -⟩ := frac_mem (K := ℝ) (show i ≤ U by omega) hU
  obtain ⟨-, b⟩ := frac_mem (K := ℝ) (show i + 1 ≤ U by omega) hU
  have d : ((i + 1 : Nat) : ℝ) / U - i / U = 1 / U := by push_cast; ring
  obtain ⟨c, e⟩ := ang_step a (by linarith [show (0 : ℝ) < 1 / U by positivity]) b
  rw [d, mul_one_div] at e
  exact ⟨by linarith, e⟩

theorem sin_step {U : Nat} (hU : 0 < U) (h4 : 4 ≤ U) {i : Nat} (hi : i < U) : 0 ≤ sin (ang ((i + 1 : Nat) / U) - ang (i / U)) := by
  obtain ⟨a, b⟩ := turn_steps hU i hi
  refine sin_nonneg_of_nonneg_of_le_pi a (b.trans ?_)
  rw [div_le_iff₀ (by exact_mod_cast hU)]
  have : (4 : ℝ) ≤ U := by exact_mod_cast h4
  nlinarith [pi_pos]

/-- the steps of half the turn -/
theorem half_steps {U : Nat} (hU : 0 < U) : ∀ i < U, 0 ≤ ang ((i + 1 : Nat) / U / 2) - ang (i / U / 2) ∧
    ang ((i + 1 : Nat) / U / 2) - ang (i / U / 2) ≤ 2 * π / U := by
  intro i hi
  have U0 : (0 : ℝ) < U := by exact_mod_cast hU
  obtain ⟨a, -⟩ := frac_mem (K := ℝ) (show i ≤ U by omega) hU
  obtain ⟨-, b⟩ := frac_mem (K := ℝ) (show i + 1 ≤ U by omega) hU
  have d : ((i + 1 : Nat) : ℝ) / U / 2 - i / U / 2 = 1 / U / 2 := by push_cast; ring
  obtain ⟨c, e⟩ := ang_step (u := (i : ℝ) / U / 2) (v := ((i + 1 : Nat) : ℝ) / U / 2) (by linarith)
    (by linarith [show (0 : ℝ) < 1 / U / 2 by positivity]) (by linarith)
  rw [d] at e
  refine ⟨by linarith, e.trans (le_of_eq ?_)⟩
  ring

/-- the area of the polygon of directions, twice: between `2 π (1 - 1 / (3 k²))` and `2 π` -/
theorem turn_area {k : Nat} (hk : 0 < k) :
    2 * π * (1 - 1 / (3 * k ^ 2)) ≤ ∑ i ∈ Finset.range (k * 9), sin (ang ((i + 1 : Nat) / (k * 9 : Nat)) - ang (i / (k * 9 : Nat))) ∧
      ∑ i ∈ Finset.range (k * 9), sin (ang ((i + 1 : Nat) / (k * 9 : Nat)) - ang (i / (k * 9 : Nat))) ≤ 2 * π := by
  have k0 : (0 : ℝ) < k := by exact_mod_cast hk
  have U0 : 0 < k * 9 := by omega
  have U1 : (0 : ℝ) < (k * 9 : Nat) := by exact_mod_cast U0
  obtain ⟨a, b⟩ := sum_sin (n := k * 9) (t := fun i : Nat => ang ((i : ℝ) / (k * 9 : Nat))) (d := 4 * π / (k * 9 : Nat))
    (turn_steps U0)
  simp only [Nat.cast_zero, zero_div, div_self U1.ne', ang_ends.1, ang_ends.2.2, sub_zero] at a b
  refine ⟨le_trans ?_ a, b⟩
  refine mul_le_mul_of_nonneg_left ?_ (by positivity)
  have : (4 * π / (k * 9 : Nat)) ^ 2 / 6 ≤ 1 / (3 * (k : ℝ) ^ 2) := by
    push_cast
    rw [div_pow, div_div, div_le_div_iff₀ (by positivity) (by positivity)]
    have p2 : π ^ 2 ≤ 3.15 ^ 2 := pow_le_pow_left₀ pi_pos.le pi_lt_d2.le 2
    have := mul_le_mul_of_nonneg_right p2 (sq_nonneg (k : ℝ))
    nlinarith [sq_nonneg (k : ℝ)]
  linarith

/-- the samples of the sphere -/
theorem sphere_samples {r tol : ℝ} (ht : 0 ≤ tol) (r0 : 0 < r) (htr : tol ≤ 2 * r) {k : Nat} (hk : 0 < k) (m : Mesh ℝ) :
    ∃ S M, createSphereSolid tol (Real.sqrt 2) r = some [S] ∧ toMeshSolid [S] m k = some M ∧ M.OK ∧
      M.triangles = surfaceSoup S (k * 9) (k * 5) ∧ S.closedV = false ∧
      ∀ i j : Nat, i ≤ k * 9 → j ≤ k * 5 → samplePos S (k * 9) (k * 5) (i, j) =
        ⟨r * sin (ang ((j : ℝ) / (k * 5 : Nat) / 2)) * sin (ang ((i : ℝ) / (k * 9 : Nat))),
         r * sin (ang ((j : ℝ) / (k * 5 : Nat) / 2)) * -cos (ang ((i : ℝ) / (k * 9 : Nat))),
         -(r * cos (ang ((j : ℝ) / (k * 5 : Nat) / 2)))⟩ := by
  obtain ⟨tp, tw, e, l1, l2⟩ := setDegree_curve (Curve.new : Curve ℝ) 2
  simp only [Nat.cast_ofNat] at e
  obtain ⟨C, eC, hC, hC2⟩ : ∃ c : Curve ℝ, sphereProfile (Real.sqrt 2) r = some c ∧ c.Valid 2 5 ∧
      c.weights = [1, 1 / Real.sqrt 2, 1, 1 / Real.sqrt 2, 1] := by
    refine ⟨_, by simp only [sphereProfile, e, Option.bind_eq_bind, Option.bind_some, Curve.setKnots,
      scaleKnots_self knotsHalf_clamped, Option.pure_def]; rfl,
      ⟨rfl, rfl, rfl, rfl, knotsHalf_clamped, l1.ge, l2.ge⟩, rfl⟩
  obtain ⟨C', eC', -, hat⟩ := sphereProfile_dir r
  obtain rfl : C = C' := Option.some_inj.1 (eC.symm.trans eC')
  obtain ⟨S, eS, hv, -, cv, hw, -⟩ := revolve_full hC (by rw [hC2]; simp) tol root_sq root_pos Surface.new.clear
  obtain ⟨S', eS', -, hS⟩ := revolve_dir hC tol Surface.new.clear
  obtain rfl : S = S' := Option.some_inj.1 (eS.symm.trans eS')
  have hv' := mapPoints_valid hv (mirrorY : P3 ℝ → P3 ℝ)
  have hcv : S.closedV = false := by
    obtain ⟨l, hl⟩ := sphere_points eC
    rw [isClosed_ends hl, Option.some.injEq] at cv
    rw [← cv, decide_eq_false_iff_not, not_lt]
    simp [P3.normSq]
    nlinarith
  have eB : createSphereSolid tol (Real.sqrt 2) r = some [S.mapPoints mirrorY] := by
    simp [createSphereSolid, createSphere, eC, eS, Solid.add]
  obtain ⟨M, e', hok, hT⟩ := to_mesh_solid [S.mapPoints mirrorY] (fun s hs => by
      rw [List.mem_singleton] at hs; rw [hs]; exact ⟨_, _, _, _, hv'⟩) (fun s hs => by
      rw [List.mem_singleton] at hs; rw [hs]; exact hw) hk m
  have hT' : M.triangles = surfaceSoup (S.mapPoints mirrorY) (k * 9) (k * 5) := by
    rw [hT, List.flatMap_singleton, hv'.nbU, hv'.nbV]
    rfl
  refine ⟨_, M, eB, e', hok, hT', hcv, ?_⟩
  intro i j hi hj
  obtain ⟨a0, a1⟩ := frac_mem (K := ℝ) hi (show 0 < k * 9 by omega)
  obtain ⟨b0, b1⟩ := frac_mem (K := ℝ) hj (show 0 < k * 5 by omega)
  rw [samplePos_at, mirrorY_at hv, hS _ a0 a1, hat _ b0 b1, dir_ang a0 a1,
    dir_ang (u := (j : ℝ) / (k * 5 : Nat) / 2) (by linarith) (by linarith)]
  ext <;> simp [mirrorY, spin] <;> ring

/-- **C134** sphere.  The mesh of the NURBS sphere encloses at most the volume of the ball and, with `k` segments for each
control point, at least `(1 - 1 / (3 k²)) (1 - 2 / (5 k²))` of it; `is_oriented_outside` is true and each triangle faces away
from the centre. -/
theorem sphere_volume {r tol : ℝ} (ht : 0 ≤ tol) (r0 : 0 < r) (htr : tol ≤ 2 * r) {k : Nat} (hk : 0 < k) (m : Mesh ℝ) :
    ∃ B M V, createSphereSolid tol (Real.sqrt 2) r = some B ∧ toMeshSolid B m k = some M ∧ Measure.volume M = some V ∧
      (1 - 1 / (3 * k ^ 2)) * (1 - 2 / (5 * k ^ 2)) * (4 / 3 * π * r ^ 3) ≤ V ∧ V ≤ 4 / 3 * π * r ^ 3 ∧
      Measure.isOrientedOutside M = some true ∧ ∀ t ∈ M.triangles, 0 ≤ det3 t.p1 t.p2 t.p3 := by
  obtain ⟨S, M, eB, e', hok, hT', hcv, hs⟩ := sphere_samples ht r0 htr hk m
  have U0 : 0 < k * 9 := by omega
  have V0 : 0 < k * 5 := by omega
  have k0 : (0 : ℝ) < k := by exact_mod_cast hk
  have U1 : (0 : ℝ) < (k * 9 : Nat) := by exact_mod_cast U0
  have V1 : (0 : ℝ) < (k * 5 : Nat) := by exact_mod_cast V0
  set θ : Nat → ℝ := fun i => ang ((i : ℝ) / (k * 9 : Nat)) with hθ
  set φ : Nat → ℝ := fun j => ang ((j : ℝ) / (k * 5 : Nat) / 2) with hφ
  have θ0 : θ 0 = 0 := by simp [hθ, ang_ends.1]
  have θ1 : θ (k * 9) = 2 * π := by simp only [hθ]; rw [div_self U1.ne', ang_ends.2.2]
  have φ0 : φ 0 = 0 := by simp [hφ, ang_ends.1]
  have φ1 : φ (k * 5) = π := by simp only [hφ]; rw [div_self V1.ne', ang_ends.2.1]
  have vol := turned_volume (S := S) (U := k * 9) (V := k * 5) (a := fun i => sin (θ i)) (b := fun i => -cos (θ i))
    (ρ := fun j => r * sin (φ j)) (z := fun j => -(r * cos (φ j))) hs
    (by simp [θ0, θ1]) (fun h => absurd h (by rw [hcv]; simp))
  have w : ∀ i, sin (θ i) * -cos (θ (i + 1)) - -cos (θ i) * sin (θ (i + 1)) = sin (θ (i + 1) - θ i) := fun i => by rw [sin_sub]; ring
  have φr : ∀ j ≤ k * 5, 0 ≤ φ j ∧ φ j ≤ π := fun j hj => by
    obtain ⟨b0, b1⟩ := frac_mem (K := ℝ) hj V0
    have a := (ang_step (u := 0) (v := (j : ℝ) / (k * 5 : Nat) / 2) le_rfl (by linarith) (by linarith)).1
    have b := (ang_step (u := (j : ℝ) / (k * 5 : Nat) / 2) (v := 1 / 2) (by linarith) (by linarith) (by norm_num)).1
    rw [ang_ends.1] at a
    rw [ang_ends.2.1] at b
    exact ⟨a, b⟩
  have out := turned_outward (S := S) (U := k * 9) (V := k * 5) (a := fun i => sin (θ i)) (b := fun i => -cos (θ i))
    (ρ := fun j => r * sin (φ j)) (z := fun j => -(r * cos (φ j))) hs
    (by simp [θ0, θ1]) (fun h => absurd h (by rw [hcv]; simp))
    (fun j hj => mul_nonneg r0.le (sin_nonneg_of_nonneg_of_le_pi (φr j hj).1 (φr j hj).2))
    (fun i hi j hj => by
      have s1 : 0 ≤ sin (θ (i + 1) - θ i) := sin_step U0 (by omega) hi
      have s2 : 0 ≤ sin (φ (j + 1) - φ j) :=
        sin_nonneg_of_nonneg_of_le_pi (half_steps V0 j hj).1 (by linarith [(φr (j + 1) hj).2, (φr j hj.le).1])
      have := mul_nonneg (mul_nonneg s1 s2) (sq_nonneg r)
      refine this.trans (le_of_eq ?_)
      rw [sin_sub, sin_sub]
      ring)
  have c : ∀ j, (r * sin (φ j) * -(r * cos (φ (j + 1))) - -(r * cos (φ j)) * (r * sin (φ (j + 1)))) * (r * sin (φ j) + r * sin (φ (j + 1))) =
      r ^ 3 * (sin (φ (j + 1) - φ j) * (sin (φ j) + sin (φ (j + 1)))) := fun j => by rw [sin_sub]; ring
  simp only [w, c, ← Finset.mul_sum] at vol
  obtain ⟨w1, w2⟩ := turn_area hk
  obtain ⟨z1, z2⟩ := sum_profile (n := k * 5) (t := φ) (d := 2 * π / (k * 5 : Nat)) φ0 φ1 (half_steps V0)
  have d2 : (2 * π / (k * 5 : Nat)) ^ 2 / 4 ≤ 2 / (5 * (k : ℝ) ^ 2) := by
    push_cast
    rw [div_pow, div_div, div_le_div_iff₀ (by positivity) (by positivity)]
    have p2 : π ^ 2 ≤ 3.15 ^ 2 := pow_le_pow_left₀ pi_pos.le pi_lt_d2.le 2
    have := mul_le_mul_of_nonneg_right p2 (sq_nonneg (k : ℝ))
    nlinarith [sq_nonneg (k : ℝ)]
  have kk : 1 / (k : ℝ) ^ 2 ≤ 1 := by
    rw [div_le_one (by positivity)]
    exact one_le_pow₀ (by exact_mod_cast hk)
  have f1 : 1 / (3 * (k : ℝ) ^ 2) = 1 / 3 * (1 / k ^ 2) := by ring
  have f2 : 2 / (5 * (k : ℝ) ^ 2) = 2 / 5 * (1 / k ^ 2) := by ring
  have p := pi_pos
  have g1 : 0 ≤ 2 * π * (1 - 1 / (3 * (k : ℝ) ^ 2)) := mul_nonneg (by positivity) (by rw [f1]; linarith)
  have g2 : 0 ≤ 4 * (1 - 2 / (5 * (k : ℝ) ^ 2)) := by rw [f2]; linarith
  have hW := measures_are_sums M hok
  rw [hT', vol] at hW
  change _ ≤ ∑ i ∈ Finset.range (k * 9), sin (θ (i + 1) - θ i) at w1
  change ∑ i ∈ Finset.range (k * 9), sin (θ (i + 1) - θ i) ≤ _ at w2
  generalize ∑ i ∈ Finset.range (k * 9), sin (θ (i + 1) - θ i) = W at *
  generalize ∑ i ∈ Finset.range (k * 5), sin (φ (i + 1) - φ i) * (sin (φ i) + sin (φ (i + 1))) = Z at *
  have z1' : 4 * (1 - 2 / (5 * (k : ℝ) ^ 2)) ≤ Z := le_trans (by linarith) z1
  have r3 : 0 < r ^ 3 := by positivity
  have lo := mul_le_mul_of_nonneg_right (mul_le_mul w1 z1' g2 (g1.trans w1)) r3.le
  have hi := mul_le_mul_of_nonneg_right (mul_le_mul w2 z2 (g2.trans z1') (by positivity)) r3.le
  have pos : 0 ≤ W * (r ^ 3 * Z) / 6 := by
    have := mul_nonneg (mul_nonneg (g1.trans w1) (g2.trans z1')) r3.le
    linarith
  refine ⟨_, M, _, eB, e', hW, by linarith, by linarith, ?_, by rw [hT']; exact out⟩
  simp [Measure.isOrientedOutside, hW, pos]

/-- the samples of the torus -/
theorem torus_samples {major minor : ℝ} (tol : ℝ) {k : Nat} (hk : 0 < k) (m : Mesh ℝ) :
    ∃ S M, createTorusSolid tol (Real.sqrt 2) major minor = some [S] ∧ toMeshSolid [S] m k = some M ∧ M.OK ∧
      M.triangles = surfaceSoup S (k * 9) (k * 9) ∧
      ∀ i j : Nat, i ≤ k * 9 → j ≤ k * 9 → samplePos S (k * 9) (k * 9) (i, j) =
        ⟨(minor * cos (ang ((j : ℝ) / (k * 9 : Nat))) + major) * cos (ang ((i : ℝ) / (k * 9 : Nat))),
         (minor * cos (ang ((j : ℝ) / (k * 9 : Nat))) + major) * sin (ang ((i : ℝ) / (k * 9 : Nat))),
         minor * sin (ang ((j : ℝ) / (k * 9 : Nat)))⟩ := by
  obtain ⟨C, eC, -, hat⟩ := circle_dir minor Curve.new
  obtain ⟨tp, tw, e, l1, l2⟩ := setDegree_curve (Curve.new : Curve ℝ).clear 2
  simp only [Nat.cast_ofNat] at e
  obtain ⟨C', eC', hw0⟩ : ∃ C : Curve ℝ, createCircle (Real.sqrt 2) minor Curve.new = some C ∧
      C.weights = [1, 1 / Real.sqrt 2, 1, 1 / Real.sqrt 2, 1, 1 / Real.sqrt 2, 1, 1 / Real.sqrt 2, 1] := by
    refine ⟨_, by simp only [createCircle, e, Option.bind_eq_bind, Option.bind_some, Curve.setKnots,
      scaleKnots_self knotsCircle_clamped, Option.pure_def]; rfl, rfl⟩
  obtain rfl : C = C' := Option.some_inj.1 (eC.symm.trans eC')
  obtain ⟨C', eC', vC', hC', -⟩ := torusProfile root_sq root_pos major minor
  obtain rfl : C = C' := Option.some_inj.1 (eC.symm.trans eC')
  obtain ⟨S, eS, hv, -, -, hw, -⟩ := revolve_full vC' (by
    show ∀ w ∈ C.weights, 0 < w
    rw [hw0]; simp) tol root_sq root_pos Surface.new.clear
  obtain ⟨S', eS', -, hS⟩ := revolve_dir vC' tol Surface.new.clear
  obtain rfl : S = S' := Option.some_inj.1 (eS.symm.trans eS')
  have hv' := mapPoints_valid hv (mirrorY : P3 ℝ → P3 ℝ)
  have eB : createTorusSolid tol (Real.sqrt 2) major minor = some [S.mapPoints mirrorY] := by
    simp [createTorusSolid, createTorus, eC, eS, Solid.add]
  obtain ⟨M, e', hok, hT⟩ := to_mesh_solid [S.mapPoints mirrorY] (fun s hs => by
      rw [List.mem_singleton] at hs; rw [hs]; exact ⟨_, _, _, _, hv'⟩) (fun s hs => by
      rw [List.mem_singleton] at hs; rw [hs]; exact hw) hk m
  have hT' : M.triangles = surfaceSoup (S.mapPoints mirrorY) (k * 9) (k * 9) := by
    rw [hT, List.flatMap_singleton, hv'.nbU, hv'.nbV]
    rfl
  refine ⟨_, M, eB, e', hok, hT', ?_⟩
  intro i j hi hj
  obtain ⟨a0, a1⟩ := frac_mem (K := ℝ) hi (show 0 < k * 9 by omega)
  obtain ⟨b0, b1⟩ := frac_mem (K := ℝ) hj (show 0 < k * 9 by omega)
  rw [samplePos_at, mirrorY_at hv, hS _ a0 a1, hC', hat _ b0 b1, dir_ang a0 a1, dir_ang b0 b1]
  ext <;> simp [mirrorY, spin] <;> ring

/-- **C134** torus.  The volume of the mesh of the NURBS torus tends to `2 π² major minor²`. -/
theorem torus_volume {major minor : ℝ} (tol : ℝ) (m0 : 0 < minor) (hM : minor ≤ major) {k : Nat} (hk : 0 < k) (m : Mesh ℝ) :
    ∃ B M V, createTorusSolid tol (Real.sqrt 2) major minor = some B ∧ toMeshSolid B m k = some M ∧ Measure.volume M = some V ∧
      (1 - 1 / (3 * k ^ 2)) * (1 - 2 / (3 * k ^ 2)) * (2 * π ^ 2 * major * minor ^ 2) ≤ V ∧
      V ≤ (1 + 1 / (3 * k ^ 2)) * (2 * π ^ 2 * major * minor ^ 2) ∧ Measure.isOrientedOutside M = some true := by
  obtain ⟨S, M, eB, e', hok, hT', hs⟩ := torus_samples (major := major) (minor := minor) tol hk m
  have U0 : 0 < k * 9 := by omega
  have k0 : (0 : ℝ) < k := by exact_mod_cast hk
  have U1 : (0 : ℝ) < (k * 9 : Nat) := by exact_mod_cast U0
  set θ : Nat → ℝ := fun i => ang ((i : ℝ) / (k * 9 : Nat)) with hθ
  have θ0 : θ 0 = 0 := by simp [hθ, ang_ends.1]
  have θ1 : θ (k * 9) = 2 * π := by simp only [hθ]; rw [div_self U1.ne', ang_ends.2.2]
  have vol := turned_volume (S := S) (U := k * 9) (V := k * 9) (a := fun i => cos (θ i)) (b := fun i => sin (θ i))
    (ρ := fun j => minor * cos (θ j) + major) (z := fun j => minor * sin (θ j))
    hs
    (by simp [θ0, θ1]) (fun _ => by simp [θ0, θ1])
  have w : ∀ i, cos (θ i) * sin (θ (i + 1)) - sin (θ i) * cos (θ (i + 1)) = sin (θ (i + 1) - θ i) := fun i => by rw [sin_sub]; ring
  have c : ∀ j, ((minor * cos (θ j) + major) * (minor * sin (θ (j + 1))) - minor * sin (θ j) * (minor * cos (θ (j + 1)) + major)) *
        (minor * cos (θ j) + major + (minor * cos (θ (j + 1)) + major)) =
      3 * major * minor ^ 2 * sin (θ (j + 1) - θ j) + minor ^ 3 * (sin (θ (j + 1) - θ j) * (cos (θ j) + cos (θ (j + 1)))) +
        ((2 * major ^ 2 * minor * sin (θ (j + 1)) + major * minor ^ 2 * (sin (θ (j + 1)) * cos (θ (j + 1)))) -
         (2 * major ^ 2 * minor * sin (θ j) + major * minor ^ 2 * (sin (θ j) * cos (θ j)))) := fun j => by rw [sin_sub]; ring
  simp only [w, c, Finset.sum_add_distrib, ← Finset.mul_sum] at vol
  rw [Finset.sum_range_sub (fun j => 2 * major ^ 2 * minor * sin (θ j) + major * minor ^ 2 * (sin (θ j) * cos (θ j))), θ0, θ1] at vol
  simp only [sin_two_pi, sin_zero, mul_zero, zero_mul, add_zero, sub_zero] at vol
  obtain ⟨w1, w2⟩ := turn_area hk
  have z := sum_circle (n := k * 9) (t := θ) (d := 4 * π / (k * 9 : Nat)) θ0 θ1 (turn_steps U0)
  have p := pi_pos
  have M0 : 0 < major := m0.trans_le hM
  have d2 : π * (4 * π / (k * 9 : Nat)) ^ 2 ≤ 2 * π * (1 / (k : ℝ) ^ 2) := by
    have : (4 * π / (k * 9 : Nat)) ^ 2 ≤ 2 / (k : ℝ) ^ 2 := by
      push_cast
      rw [div_pow, div_le_div_iff₀ (by positivity) (by positivity)]
      have p2 : π ^ 2 ≤ 3.15 ^ 2 := pow_le_pow_left₀ pi_pos.le pi_lt_d2.le 2
      have := mul_le_mul_of_nonneg_right p2 (sq_nonneg (k : ℝ))
      nlinarith [sq_nonneg (k : ℝ)]
    refine (mul_le_mul_of_nonneg_left this p.le).trans (le_of_eq ?_)
    ring
  have kk : 1 / (k : ℝ) ^ 2 ≤ 1 := by
    rw [div_le_one (by positivity)]
    exact one_le_pow₀ (by exact_mod_cast hk)
  have kk0 : 0 < 1 / (k : ℝ) ^ 2 := by positivity
  have f1 : 1 / (3 * (k : ℝ) ^ 2) = 1 / 3 * (1 / k ^ 2) := by ring
  have f2 : 2 / (3 * (k : ℝ) ^ 2) = 2 / 3 * (1 / k ^ 2) := by ring
  have hW := measures_are_sums M hok
  rw [hT', vol] at hW
  change _ ≤ ∑ i ∈ Finset.range (k * 9), sin (θ (i + 1) - θ i) at w1
  change ∑ i ∈ Finset.range (k * 9), sin (θ (i + 1) - θ i) ≤ _ at w2
  have z' := abs_le.1 (z.trans d2)
  rw [f1] at w1
  rw [f1, f2]
  clear vol z d2 w c hT' hs
  generalize ∑ i ∈ Finset.range (k * 9), sin (θ (i + 1) - θ i) = W at *
  generalize ∑ i ∈ Finset.range (k * 9), sin (θ (i + 1) - θ i) * (cos (θ i) + cos (θ (i + 1))) = Z at *
  generalize 1 / (k : ℝ) ^ 2 = q at *
  obtain ⟨z1, z2⟩ := z'
  have m3 : minor ^ 3 ≤ major * minor ^ 2 := by
    have := mul_le_mul_of_nonneg_right hM (sq_nonneg minor)
    linarith [show minor ^ 3 = minor * minor ^ 2 by ring]
  have m3' : 0 < minor ^ 3 := by positivity
  have A0 : 0 < major * minor ^ 2 := by positivity
  have zz : |minor ^ 3 * Z| ≤ major * minor ^ 2 * (2 * π * q) := by
    rw [abs_mul, abs_of_pos m3']
    exact mul_le_mul m3 (abs_le.2 ⟨z1, z2⟩) (abs_nonneg _) A0.le
  obtain ⟨y1, y2⟩ := abs_le.1 zz
  generalize minor ^ 3 * Z = Y at *
  have lo : 6 * π * (major * minor ^ 2) * (1 - 2 / 3 * q) ≤ 3 * major * minor ^ 2 * W + Y := by
    have := mul_le_mul_of_nonneg_left w1 A0.le
    linarith
  have hi : 3 * major * minor ^ 2 * W + Y ≤ 6 * π * (major * minor ^ 2) * (1 + 1 / 3 * q) := by
    have := mul_le_mul_of_nonneg_left w2 A0.le
    linarith
  have g1 : 0 ≤ 2 * π * (1 - 1 / 3 * q) := mul_nonneg (by positivity) (by linarith)
  have g2 : 0 ≤ 6 * π * (major * minor ^ 2) * (1 - 2 / 3 * q) := mul_nonneg (by positivity) (by linarith)
  have a := mul_le_mul w1 lo g2 (g1.trans w1)
  have b := mul_le_mul w2 hi (g2.trans lo) (by positivity)
  have pos : 0 ≤ W * (3 * major * minor ^ 2 * W + Y) / 6 := by
    have := mul_nonneg (g1.trans w1) (g2.trans lo)
    linarith
  refine ⟨_, M, _, eB, e', hW, by linarith, by linarith, ?_⟩
  simp [Measure.isOrientedOutside, hW, pos]

/-- the samples of the cylinder -/
theorem cylinder_samples {r h tol : ℝ} (ht : 0 < tol) (htr : tol ≤ r) (hth : tol ≤ h) {k : Nat} (hk : 0 < k) (m : Mesh ℝ) :
    ∃ S1 S2 S3 M, createCylinder tol (Real.sqrt 2) r h = some [S1, S2, S3] ∧ toMeshSolid [S1, S2, S3] m k = some M ∧ M.OK ∧
      M.triangles = surfaceSoup S1 (k * 9) (k * 2) ++ (surfaceSoup S2 (k * 9) (k * 2) ++ surfaceSoup S3 (k * 9) (k * 2)) ∧
      S1.closedV = false ∧ S2.closedV = false ∧ S3.closedV = false ∧
      (∀ i j : Nat, i ≤ k * 9 → j ≤ k * 2 → samplePos S1 (k * 9) (k * 2) (i, j) =
        ⟨(r * ((j : ℝ) / (k * 2 : Nat))) * cos (ang ((i : ℝ) / (k * 9 : Nat))), (r * ((j : ℝ) / (k * 2 : Nat))) * sin (ang ((i : ℝ) / (k * 9 : Nat))), -(h / 2)⟩) ∧
      (∀ i j : Nat, i ≤ k * 9 → j ≤ k * 2 → samplePos S2 (k * 9) (k * 2) (i, j) =
        ⟨r * cos (ang ((i : ℝ) / (k * 9 : Nat))), r * sin (ang ((i : ℝ) / (k * 9 : Nat))), h * ((j : ℝ) / (k * 2 : Nat)) - h / 2⟩) ∧
      ∀ i j : Nat, i ≤ k * 9 → j ≤ k * 2 → samplePos S3 (k * 9) (k * 2) (i, j) =
        ⟨(r * ((j : ℝ) / (k * 2 : Nat))) * cos (ang ((i : ℝ) / (k * 9 : Nat))), (r * ((j : ℝ) / (k * 2 : Nat))) * -sin (ang ((i : ℝ) / (k * 9 : Nat))), h / 2⟩ := by
  have r0 := ht.trans_le htr
  have h0 := ht.trans_le hth
  obtain ⟨tp, tw, e, l1, l2⟩ := setDegree_curve (Curve.new : Curve ℝ) 1
  obtain ⟨c', e1, hc, -, hcw, hcp, hca⟩ := line_curve (⟨0, 0, 0⟩ : P3 ℝ) ⟨r, 0, 0⟩
    { (Curve.new : Curve ℝ) with degree := ((1 : Nat) : Int), tempPoints := tp, tempWeights := tw } rfl l1.ge l2.ge
  simp only [Nat.cast_one] at e e1
  obtain ⟨D, eD, hD, -, cvD, hwD, -⟩ := revolve_full hc (by rw [hcw]; simp) tol root_sq root_pos Surface.new.clear
  obtain ⟨D', eD', -, hDa⟩ := revolve_dir hc tol Surface.new.clear
  obtain rfl : D = D' := Option.some_inj.1 (eD.symm.trans eD')
  have eDisk : createDisk tol (Real.sqrt 2) r Surface.new = some D := by
    simp only [createDisk, e, Option.bind_eq_bind, Option.bind_some, e1]
    exact eD
  have cvD' : D.closedV = false := by
    rw [isClosed_two _ tol _ _ hcp, Option.some_inj] at cvD
    rw [← cvD, decide_eq_false_iff_not, not_lt]
    simp [P3.normSq]
    exact mul_self_le_mul_self ht.le htr
  obtain ⟨L, eL, hL, -, hLw, hLp, hLa⟩ := createCurveFromPoints_two (⟨r, 0, -h / 2⟩ : P3 ℝ) ⟨r, 0, h / 2⟩ Curve.new
  obtain ⟨S, eS, hS, -, cvS, hwS, -⟩ := revolve_full hL (by rw [hLw]; simp) tol root_sq root_pos Surface.new
  obtain ⟨S', eS', -, hSa⟩ := revolve_dir hL tol Surface.new
  obtain rfl : S = S' := Option.some_inj.1 (eS.symm.trans eS')
  have cvS' : S.closedV = false := by
    rw [isClosed_two _ tol _ _ hLp, Option.some_inj] at cvS
    rw [← cvS, decide_eq_false_iff_not, not_lt]
    have : ((⟨r, 0, -h / 2⟩ : P3 ℝ) - ⟨r, 0, h / 2⟩).normSq = h * h := by simp [P3.normSq]; ring
    rw [this]
    exact mul_self_le_mul_self ht.le hth
  have hmap1 := mapPoints_at hD (fun p => ⟨p.x, -p.y, p.z - h / 2⟩) ⟨1, 0, 0⟩ ⟨0, -1, 0⟩ ⟨0, 0, 1⟩ ⟨0, 0, -(h / 2)⟩
      (fun P => by ext <;> simp [affine, P3.dot]; ring)
  have hmap3 := mapPoints_at hD (fun p => ⟨p.x, p.y, p.z + h / 2⟩) ⟨1, 0, 0⟩ ⟨0, 1, 0⟩ ⟨0, 0, 1⟩ ⟨0, 0, h / 2⟩
      (fun P => by ext <;> simp [affine, P3.dot])
  have hmap2 := mirrorY_at hS
  have hv1 := mapPoints_valid hD (fun p => (⟨p.x, -p.y, p.z - h / 2⟩ : P3 ℝ))
  have hv2 := mapPoints_valid hS (mirrorY : P3 ℝ → P3 ℝ)
  have hv3 := mapPoints_valid hD (fun p => (⟨p.x, p.y, p.z + h / 2⟩ : P3 ℝ))
  have c1 : (D.mapPoints (fun p => (⟨p.x, -p.y, p.z - h / 2⟩ : P3 ℝ))).closedV = false := cvD'
  have c2 : (S.mapPoints (mirrorY : P3 ℝ → P3 ℝ)).closedV = false := cvS'
  have c3 : (D.mapPoints (fun p => (⟨p.x, p.y, p.z + h / 2⟩ : P3 ℝ))).closedV = false := cvD'
  have w1 : ∀ w ∈ (D.mapPoints (fun p => (⟨p.x, -p.y, p.z - h / 2⟩ : P3 ℝ))).weights, 0 < w := hwD
  have w2 : ∀ w ∈ (S.mapPoints (mirrorY : P3 ℝ → P3 ℝ)).weights, 0 < w := hwS
  have w3 : ∀ w ∈ (D.mapPoints (fun p => (⟨p.x, p.y, p.z + h / 2⟩ : P3 ℝ))).weights, 0 < w := hwD
  generalize hS1 : D.mapPoints (fun p => (⟨p.x, -p.y, p.z - h / 2⟩ : P3 ℝ)) = S1 at *
  generalize hS2 : S.mapPoints (mirrorY : P3 ℝ → P3 ℝ) = S2 at *
  generalize hS3 : D.mapPoints (fun p => (⟨p.x, p.y, p.z + h / 2⟩ : P3 ℝ)) = S3 at *
  have eB : createCylinder tol (Real.sqrt 2) r h = some [S1, S2, S3] := by
    simp only [createCylinder, eDisk, eL, eS, Option.bind_eq_bind, Option.bind_some, Option.pure_def, Solid.add,
      List.nil_append, List.singleton_append, List.cons_append, hS1, hS2, hS3]
  have hB : ∀ s ∈ ([S1, S2, S3] : Solid ℝ), s.Valid 2 1 9 2 ∧ ∀ w ∈ s.weights, 0 < w := by
    intro s hs
    simp only [List.mem_cons, List.not_mem_nil, or_false] at hs
    rcases hs with rfl | rfl | rfl
    · exact ⟨hv1, w1⟩
    · exact ⟨hv2, w2⟩
    · exact ⟨hv3, w3⟩
  obtain ⟨M, e', hok, hT⟩ := to_mesh_solid [S1, S2, S3] (fun s hs => ⟨_, _, _, _, (hB s hs).1⟩) (fun s hs => (hB s hs).2) hk m
  have hT' : M.triangles = surfaceSoup S1 (k * 9) (k * 2) ++ (surfaceSoup S2 (k * 9) (k * 2) ++ surfaceSoup S3 (k * 9) (k * 2)) := by
    rw [hT]
    simp only [List.flatMap_cons, List.flatMap_nil, List.append_nil, hv1.nbU, hv1.nbV, hv2.nbU, hv2.nbV, hv3.nbU, hv3.nbV]
    rfl
  refine ⟨S1, S2, S3, M, eB, e', hok, hT', c1, c2, c3, fun i j hi hj => ?_, fun i j hi hj => ?_, fun i j hi hj => ?_⟩
  · obtain ⟨a0, a1⟩ := frac_mem (K := ℝ) hi (show 0 < k * 9 by omega)
    rw [samplePos_at, hmap1, hDa _ a0 a1, hca, dir_ang a0 a1]
    ext <;> simp [spin] <;> ring
  · obtain ⟨a0, a1⟩ := frac_mem (K := ℝ) hi (show 0 < k * 9 by omega)
    rw [samplePos_at, hmap2, hSa _ a0 a1, hLa, dir_ang a0 a1]
    ext <;> simp [spin, mirrorY] <;> ring
  · obtain ⟨a0, a1⟩ := frac_mem (K := ℝ) hi (show 0 < k * 9 by omega)
    rw [samplePos_at, hmap3, hDa _ a0 a1, hca, dir_ang a0 a1]
    ext <;> simp [spin] <;> ring

/-- **C134** cylinder.  The mesh of the NURBS cylinder encloses at most `π r² h` and at least
`1 - 1 / (3 k²)` of it; each triangle faces away from the centre. -/
theorem cylinder_volume {r h tol : ℝ} (ht : 0 < tol) (htr : tol ≤ r) (hth : tol ≤ h) {k : Nat} (hk : 0 < k) (m : Mesh ℝ) :
    ∃ B M V, createCylinder tol (Real.sqrt 2) r h = some B ∧ toMeshSolid B m k = some M ∧ Measure.volume M = some V ∧
      (1 - 1 / (3 * k ^ 2)) * (π * r ^ 2 * h) ≤ V ∧ V ≤ π * r ^ 2 * h ∧ Measure.isOrientedOutside M = some true ∧
      ∀ t ∈ M.triangles, 0 ≤ det3 t.p1 t.p2 t.p3 := by
  have r0 := ht.trans_le htr
  have h0 := ht.trans_le hth
  obtain ⟨S1, S2, S3, M, eB, e', hok, hT', c1, c2, c3, hs1, hs2, hs3⟩ := cylinder_samples ht htr hth hk m
  have U0 : 0 < k * 9 := by omega
  have V0 : 0 < k * 2 := by omega
  have k0 : (0 : ℝ) < k := by exact_mod_cast hk
  have U1 : (0 : ℝ) < (k * 9 : Nat) := by exact_mod_cast U0
  have V1 : (0 : ℝ) < (k * 2 : Nat) := by exact_mod_cast V0
  set θ : Nat → ℝ := fun i => ang ((i : ℝ) / (k * 9 : Nat)) with hθ
  have θ0 : θ 0 = 0 := by simp [hθ, ang_ends.1]
  have θ1 : θ (k * 9) = 2 * π := by simp only [hθ]; rw [div_self U1.ne', ang_ends.2.2]
  set ν : Nat → ℝ := fun j => (j : ℝ) / (k * 2 : Nat) with hν
  have ν0 : ν 0 = 0 := by simp [hν]
  have ν1 : ν (k * 2) = 1 := by simp only [hν]; rw [div_self V1.ne']
  have νn : ∀ j, 0 ≤ ν j := fun j => by simp only [hν]; positivity
  have νd : ∀ j, 0 ≤ ν (j + 1) - ν j := fun j => by
    have : ν (j + 1) - ν j = 1 / (k * 2 : Nat) := by simp only [hν]; push_cast; ring
    rw [this]
    positivity
  have vol1 := turned_volume (S := S1) (U := k * 9) (V := k * 2) (a := fun i => cos (θ i)) (b := fun i => sin (θ i))
    (ρ := fun j => r * ν j) (z := fun _ => -(h / 2)) hs1
    (by simp [θ0, θ1]) (fun h => absurd h (by rw [c1]; simp))
  have out1 := turned_outward (S := S1) (U := k * 9) (V := k * 2) (a := fun i => cos (θ i)) (b := fun i => sin (θ i))
    (ρ := fun j => r * ν j) (z := fun _ => -(h / 2)) hs1
    (by simp [θ0, θ1]) (fun h => absurd h (by rw [c1]; simp))
    (fun j _ => mul_nonneg r0.le (νn j))
    (fun i hi j hj => by
      have s1 : 0 ≤ sin (θ (i + 1) - θ i) := sin_step U0 (by omega) hi
      have := mul_nonneg s1 (mul_nonneg (show 0 ≤ r * h / 2 by positivity) (νd j))
      refine this.trans (le_of_eq ?_)
      rw [sin_sub]
      ring)
  have vol2 := turned_volume (S := S2) (U := k * 9) (V := k * 2) (a := fun i => cos (θ i)) (b := fun i => sin (θ i))
    (ρ := fun _ => r) (z := fun j => h * ν j - h / 2) hs2
    (by simp [θ0, θ1]) (fun h => absurd h (by rw [c2]; simp))
  have out2 := turned_outward (S := S2) (U := k * 9) (V := k * 2) (a := fun i => cos (θ i)) (b := fun i => sin (θ i))
    (ρ := fun _ => r) (z := fun j => h * ν j - h / 2) hs2
    (by simp [θ0, θ1]) (fun h => absurd h (by rw [c2]; simp))
    (fun _ _ => r0.le)
    (fun i hi j hj => by
      have s1 : 0 ≤ sin (θ (i + 1) - θ i) := sin_step U0 (by omega) hi
      have := mul_nonneg s1 (mul_nonneg (show 0 ≤ r * h by positivity) (νd j))
      refine this.trans (le_of_eq ?_)
      rw [sin_sub]
      ring)
  have vol3 := turned_volume (S := S3) (U := k * 9) (V := k * 2) (a := fun i => cos (θ i)) (b := fun i => -sin (θ i))
    (ρ := fun j => r * ν j) (z := fun _ => h / 2) hs3
    (by simp [θ0, θ1]) (fun h => absurd h (by rw [c3]; simp))
  have out3 := turned_outward (S := S3) (U := k * 9) (V := k * 2) (a := fun i => cos (θ i)) (b := fun i => -sin (θ i))
    (ρ := fun j => r * ν j) (z := fun _ => h / 2) hs3
    (by simp [θ0, θ1]) (fun h => absurd h (by rw [c3]; simp))
    (fun j _ => mul_nonneg r0.le (νn j))
    (fun i hi j hj => by
      have s1 : 0 ≤ sin (θ (i + 1) - θ i) := sin_step U0 (by omega) hi
      have := mul_nonneg s1 (mul_nonneg (show 0 ≤ r * h / 2 by positivity) (νd j))
      refine this.trans (le_of_eq ?_)
      rw [sin_sub]
      ring)
  have w : ∀ i, cos (θ i) * sin (θ (i + 1)) - sin (θ i) * cos (θ (i + 1)) = sin (θ (i + 1) - θ i) := fun i => by rw [sin_sub]; ring
  have w' : ∀ i, cos (θ i) * -sin (θ (i + 1)) - -sin (θ i) * cos (θ (i + 1)) = -1 * sin (θ (i + 1) - θ i) := fun i => by rw [sin_sub]; ring
  have q1 : ∀ j, (r * ν j * -(h / 2) - -(h / 2) * (r * ν (j + 1))) * (r * ν j + r * ν (j + 1)) =
      r ^ 2 * h / 2 * (ν (j + 1) ^ 2 - ν j ^ 2) := fun j => by ring
  have q2 : ∀ j, (r * (h * ν (j + 1) - h / 2) - (h * ν j - h / 2) * r) * (r + r) = 2 * r ^ 2 * h * (ν (j + 1) - ν j) := fun j => by ring
  have q3 : ∀ j, (r * ν j * (h / 2) - h / 2 * (r * ν (j + 1))) * (r * ν j + r * ν (j + 1)) =
      -(r ^ 2 * h / 2) * (ν (j + 1) ^ 2 - ν j ^ 2) := fun j => by ring
  simp only [w, w', q1, q2, q3, ← Finset.mul_sum, Finset.sum_range_sub ν, Finset.sum_range_sub (fun j => ν j ^ 2), ν0, ν1] at vol1 vol2 vol3
  obtain ⟨t1, t2⟩ := turn_area hk
  have hW := measures_are_sums M hok
  rw [hT', List.map_append, List.map_append, List.sum_append, List.sum_append, vol1, vol2, vol3] at hW
  change _ ≤ ∑ i ∈ Finset.range (k * 9), sin (θ (i + 1) - θ i) at t1
  change ∑ i ∈ Finset.range (k * 9), sin (θ (i + 1) - θ i) ≤ _ at t2
  generalize ∑ i ∈ Finset.range (k * 9), sin (θ (i + 1) - θ i) = W at *
  have A0 : 0 < r ^ 2 * h := by positivity
  have a := mul_le_mul_of_nonneg_right t1 A0.le
  have b := mul_le_mul_of_nonneg_right t2 A0.le
  have kk : 1 / (k : ℝ) ^ 2 ≤ 1 := by
    rw [div_le_one (by positivity)]
    exact one_le_pow₀ (by exact_mod_cast hk)
  have f1 : 1 / (3 * (k : ℝ) ^ 2) = 1 / 3 * (1 / k ^ 2) := by ring
  have g1 : 0 ≤ 2 * π * (1 - 1 / (3 * (k : ℝ) ^ 2)) := mul_nonneg (by positivity) (by rw [f1]; linarith)
  have c := mul_nonneg (g1.trans t1) A0.le
  have hV : (W * (r ^ 2 * h / 2 * (1 ^ 2 - 0 ^ 2)) + (W * (2 * r ^ 2 * h * (1 - 0)) + -1 * W * (-(r ^ 2 * h / 2) * (1 ^ 2 - 0 ^ 2)))) / 6 =
      W * (r ^ 2 * h) / 2 := by ring
  rw [hV] at hW
  refine ⟨_, M, _, eB, e', hW, by linarith, by linarith, ?_, fun t ht => ?_⟩
  rotate_left
  · rw [hT', List.mem_append, List.mem_append] at ht
    rcases ht with ht | ht | ht
    exacts [out1 t ht, out2 t ht, out3 t ht]
  simp only [Measure.isOrientedOutside, hW, Option.bind_eq_bind, Option.bind_some, Option.pure_def, Option.some.injEq, decide_eq_true_eq]
  linarith

/-! ### in `double` -/

theorem range_one {x : ℝ} (h : 1 ≤ x) : (2 : ℝ) ^ (-400 : ℤ) ≤ x :=
  le_trans (zpow_le_one_of_nonpos₀ (by norm_num) (by norm_num)) h

theorem range_199 {x : ℝ} (h : x ≤ 2 ^ 199) : x ≤ (2 : ℝ) ^ (400 : ℤ) := by
  rw [← zpow_natCast] at h
  exact h.trans (zpow_le_zpow_right₀ (by norm_num) (by norm_num))

/-- the rounding error of the measured volume for `c k²` triangles -/
theorem volume_noise {c E R : ℝ} {k : Nat} (hk : 0 < k) (c0 : 0 ≤ c) (R0 : 0 ≤ R) (h : (c + 760) * c * 1.003004 * 2 ^ (-53 : ℤ) ≤ E) :
    (c * k ^ 2 + 760) * (c * k ^ 2) * (1.001 * R) ^ 3 * 2 ^ (-53 : ℤ) ≤ E * k ^ 4 * R ^ 3 := by
  have k1 : (1 : ℝ) ≤ (k : ℝ) ^ 2 := one_le_pow₀ (by exact_mod_cast hk)
  have u0 : (0 : ℝ) < 2 ^ (-53 : ℤ) := by positivity
  generalize (2 : ℝ) ^ (-53 : ℤ) = u at *
  have a : c * (k : ℝ) ^ 2 + 760 ≤ (c + 760) * k ^ 2 := by nlinarith
  have b : (c * (k : ℝ) ^ 2 + 760) * (c * k ^ 2) ≤ (c + 760) * k ^ 2 * (c * k ^ 2) := mul_le_mul_of_nonneg_right a (by positivity)
  have d : (1.001 * R) ^ 3 ≤ 1.003004 * R ^ 3 := by
    rw [mul_pow]
    exact mul_le_mul_of_nonneg_right (by norm_num) (by positivity)
  have e := mul_le_mul_of_nonneg_right (mul_le_mul b d (by positivity) (by positivity)) u0.le
  have f := mul_le_mul_of_nonneg_right h (show 0 ≤ (k : ℝ) ^ 4 * R ^ 3 by positivity)
  refine e.trans (le_trans (le_of_eq ?_) (f.trans (le_of_eq ?_))) <;> ring

/-- **C134** sphere in `double`.  Made, meshed and measured in `double`, the NURBS sphere has the volume of the ball up to
`16 r³ / (5 k²)` for the segments and `10⁻¹¹ k⁴ r³` for rounding; up to 500 segments for each control point
`is_oriented_outside` answers true. -/
theorem sphere_volume_double {r tol : ℝ} (hr : 1 ≤ r) (hr' : r ≤ 2 ^ 199) (ht : 2 ^ (-400 : ℤ) ≤ tol) (htr : tol ≤ r) {k : Nat} (hk : 0 < k)
    (hk' : k ≤ 500) (m : Mesh ℝ) :
    ∃ B M W, createSphereSolidRounded double tol r = some B ∧ toMeshSolidRounded double B m k = some M ∧ Rounded.volume double M = some W ∧
      |W - 4 / 3 * π * r ^ 3| ≤ (16 / (5 * k ^ 2) + 1 / 10 ^ 11 * k ^ 4) * r ^ 3 ∧ Rounded.isOrientedOutside double M = some true := by
  have r0 : 0 < r := by linarith
  obtain ⟨B, B', M, M', e, e', f, f', -, -, -, -, -, g⟩ := sphere_mesh_double (range_one hr) (range_199 hr') ht htr hk m m
  obtain ⟨V, W, S, T, hV, hW, -, -, d, -, o⟩ := g hr hr' (hk'.trans (by norm_num))
  obtain ⟨B1, M1, V1, e1, f1, hV1, lo, hi, -, -⟩ := sphere_volume (small_off ht).le r0 (by linarith) hk m
  obtain rfl : B = B1 := Option.some_inj.1 (e.symm.trans e1)
  obtain rfl : M = M1 := Option.some_inj.1 (f.symm.trans f1)
  obtain rfl : V = V1 := Option.some_inj.1 (hV.symm.trans hV1)
  have n := volume_noise (c := 90) (E := 1 / 10 ^ 11) (R := r) hk (by norm_num) r0.le (by norm_num)
  have r3 : 0 < r ^ 3 := by positivity
  have k0 : (0 : ℝ) < k := by exact_mod_cast hk
  have kk : 1 / (k : ℝ) ^ 2 ≤ 1 := by
    rw [div_le_one (by positivity)]
    exact one_le_pow₀ (by exact_mod_cast hk)
  have kk0 : 0 < 1 / (k : ℝ) ^ 2 := by positivity
  have k4 : (k : ℝ) ^ 4 ≤ 500 ^ 4 := pow_le_pow_left₀ k0.le (by exact_mod_cast hk') 4
  rw [show 1 / (3 * (k : ℝ) ^ 2) = 1 / 3 * (1 / k ^ 2) by ring, show 2 / (5 * (k : ℝ) ^ 2) = 2 / 5 * (1 / k ^ 2) by ring] at lo
  rw [show 16 / (5 * (k : ℝ) ^ 2) = 16 / 5 * (1 / k ^ 2) by ring]
  generalize 1 / (k : ℝ) ^ 2 = q at *
  have p1 := pi_gt_d2
  have p2 := pi_lt_d2
  have lo1 : (1 - 11 / 15 * q) * (4 / 3 * π * r ^ 3) ≤ V := by
    refine le_trans (mul_le_mul_of_nonneg_right ?_ (by positivity)) lo
    nlinarith [sq_nonneg q]
  have pr : 4 / 3 * π * r ^ 3 ≤ 4.2 * r ^ 3 := mul_le_mul_of_nonneg_right (by linarith) r3.le
  have pr' : 4 * r ^ 3 ≤ 4 / 3 * π * r ^ 3 := mul_le_mul_of_nonneg_right (by linarith) r3.le
  have lo2 : 4 / 3 * π * r ^ 3 - 16 / 5 * q * r ^ 3 ≤ V := by
    have := mul_le_mul_of_nonneg_left pr (show 0 ≤ 11 / 15 * q by linarith)
    have : 0 < q * r ^ 3 := by positivity
    linarith
  have lo3 : r ^ 3 ≤ V := by
    have := mul_le_mul_of_nonneg_right (show 4 / 15 ≤ 1 - 11 / 15 * q by linarith) (show 0 ≤ 4 / 3 * π * r ^ 3 by positivity)
    linarith
  refine ⟨B', M', W, e', f', hW, ?_, o (n.trans ?_)⟩
  · obtain ⟨d1, d2⟩ := abs_le.1 (d.trans n)
    have : 0 < q * r ^ 3 := by positivity
    rw [abs_le]
    constructor <;> linarith
  · have := mul_le_mul_of_nonneg_right k4 r3.le
    linarith

/-- **C134** torus in `double`. -/
theorem torus_volume_double {major minor tol : ℝ} (hm : 2 ^ (-400 : ℤ) ≤ minor) (hM : minor ≤ major) (h1 : 1 ≤ major + minor)
    (hM' : major + minor ≤ 2 ^ 199) (ht : 2 ^ (-400 : ℤ) ≤ tol) {k : Nat} (hk : 0 < k) (hk' : k ≤ 2 ^ 16) (m : Mesh ℝ) :
    ∃ B M W, createTorusSolidRounded double tol major minor = some B ∧ toMeshSolidRounded double B m k = some M ∧
      Rounded.volume double M = some W ∧
      |W - 2 * π ^ 2 * major * minor ^ 2| ≤ 1 / k ^ 2 * (2 * π ^ 2 * major * minor ^ 2) + 2 / 10 ^ 11 * k ^ 4 * (major + minor) ^ 3 ∧
      (2 / 10 ^ 11 * k ^ 4 * (major + minor) ^ 3 ≤ 4 * major * minor ^ 2 → Rounded.isOrientedOutside double M = some true) := by
  have m0 := small_off hm
  have M0 : 0 < major := m0.trans_le hM
  obtain ⟨B, B', M, M', e, e', f, f', -, -, -, -, -, g⟩ := torus_mesh_double hm M0.le (range_199 hM') ht hk m m
  obtain ⟨V, W, S, T, hV, hW, -, -, d, -, o⟩ := g h1 hM' hk'
  obtain ⟨B1, M1, V1, e1, f1, hV1, lo, hi, -⟩ := torus_volume tol m0 hM hk m
  obtain rfl : B = B1 := Option.some_inj.1 (e.symm.trans e1)
  obtain rfl : M = M1 := Option.some_inj.1 (f.symm.trans f1)
  obtain rfl : V = V1 := Option.some_inj.1 (hV.symm.trans hV1)
  have n := volume_noise (c := 162) (E := 2 / 10 ^ 11) (R := major + minor) hk (by norm_num) (by linarith) (by norm_num)
  have A0 : 0 < major * minor ^ 2 := by positivity
  have k0 : (0 : ℝ) < k := by exact_mod_cast hk
  have kk : 1 / (k : ℝ) ^ 2 ≤ 1 := by
    rw [div_le_one (by positivity)]
    exact one_le_pow₀ (by exact_mod_cast hk)
  have kk0 : 0 < 1 / (k : ℝ) ^ 2 := by positivity
  rw [show 1 / (3 * (k : ℝ) ^ 2) = 1 / 3 * (1 / k ^ 2) by ring] at lo hi
  rw [show 2 / (3 * (k : ℝ) ^ 2) = 2 / 3 * (1 / k ^ 2) by ring] at lo
  generalize 1 / (k : ℝ) ^ 2 = q at *
  have p2 : 3.14 ^ 2 ≤ π ^ 2 := pow_le_pow_left₀ (by norm_num) pi_gt_d2.le 2
  have X0 : 19 * (major * minor ^ 2) ≤ 2 * π ^ 2 * major * minor ^ 2 := by
    have := mul_le_mul_of_nonneg_right p2 A0.le
    linarith
  generalize 2 * π ^ 2 * major * minor ^ 2 = X at *
  have X1 : 0 < X := by linarith
  have lo1 : (1 - q) * X ≤ V := by
    refine le_trans (mul_le_mul_of_nonneg_right ?_ X1.le) lo
    nlinarith [sq_nonneg q]
  have lo2 : 2 / 9 * X ≤ V := by
    refine le_trans (mul_le_mul_of_nonneg_right ?_ X1.le) lo
    nlinarith
  refine ⟨B', M', W, e', f', hW, ?_, fun h => o (n.trans (h.trans ?_))⟩
  · obtain ⟨d1, d2⟩ := abs_le.1 (d.trans n)
    have : 0 < q * X := by positivity
    rw [abs_le]
    constructor <;> linarith
  · linarith

/-- **C134** cylinder in `double`. -/
theorem cylinder_volume_double {r h tol : ℝ} (hr : 2 ^ (-400 : ℤ) ≤ r) (htr : 2 * tol ≤ r) (hth : 2 * tol ≤ h) (h1 : 1 ≤ r + h)
    (hR : r + h ≤ 2 ^ 199) (ht : 2 ^ (-400 : ℤ) ≤ tol) {k : Nat} (hk : 0 < k) (hk' : k ≤ 2 ^ 16) (m : Mesh ℝ) :
    ∃ B M W, createCylinderRounded double tol r h = some B ∧ toMeshSolidRounded double B m k = some M ∧ Rounded.volume double M = some W ∧
      |W - π * r ^ 2 * h| ≤ 1 / (3 * k ^ 2) * (π * r ^ 2 * h) + 2 / 10 ^ 11 * k ^ 4 * (r + h) ^ 3 ∧
      (2 / 10 ^ 11 * k ^ 4 * (r + h) ^ 3 ≤ 2 * r ^ 2 * h → Rounded.isOrientedOutside double M = some true) := by
  have t0 := small_off ht
  have r0 : 0 < r := by linarith
  have h0 : 0 < h := by linarith
  obtain ⟨B, B', M, M', e, e', f, f', -, -, -, -, -, g⟩ := cylinder_mesh_double hr hth (range_199 hR) ht htr hk m m
  obtain ⟨V, W, S, T, hV, hW, -, -, d, -, o⟩ := g h1 hR hk'
  obtain ⟨B1, M1, V1, e1, f1, hV1, lo, hi, -, -⟩ := cylinder_volume (r := r) (h := h) t0 (by linarith) (by linarith) hk m
  obtain rfl : B = B1 := Option.some_inj.1 (e.symm.trans e1)
  obtain rfl : M = M1 := Option.some_inj.1 (f.symm.trans f1)
  obtain rfl : V = V1 := Option.some_inj.1 (hV.symm.trans hV1)
  have n := volume_noise (c := 108) (E := 2 / 10 ^ 11) (R := r + h) hk (by norm_num) (by linarith) (by norm_num)
  have A0 : 0 < r ^ 2 * h := by positivity
  have k0 : (0 : ℝ) < k := by exact_mod_cast hk
  have kk : 1 / (k : ℝ) ^ 2 ≤ 1 := by
    rw [div_le_one (by positivity)]
    exact one_le_pow₀ (by exact_mod_cast hk)
  have kk0 : 0 < 1 / (k : ℝ) ^ 2 := by positivity
  rw [show 1 / (3 * (k : ℝ) ^ 2) = 1 / 3 * (1 / k ^ 2) by ring] at lo ⊢
  generalize 1 / (k : ℝ) ^ 2 = q at *
  have X0 : 3.14 * (r ^ 2 * h) ≤ π * r ^ 2 * h := by
    have := mul_le_mul_of_nonneg_right pi_gt_d2.le A0.le
    linarith
  generalize π * r ^ 2 * h = X at *
  have X1 : 0 < X := by linarith
  have lo2 : 2 / 3 * X ≤ V := le_trans (mul_le_mul_of_nonneg_right (by linarith) X1.le) lo
  refine ⟨B', M', W, e', f', hW, ?_, fun h => o (n.trans (h.trans ?_))⟩
  · obtain ⟨d1, d2⟩ := abs_le.1 (d.trans n)
    have : 0 < q * X := by positivity
    rw [abs_le]
    constructor <;> linarith
  · linarith

/-- a sphere of radius 2 with a hundred segments for each control point: within a thousandth of the ball -/
example : ∃ B M W, createSphereSolidRounded double (1 / 1000000) 2 = some B ∧ toMeshSolidRounded double B Mesh.new (100 : Nat) = some M ∧
    Rounded.volume double M = some W ∧ |W - 4 / 3 * π * 2 ^ 3| ≤ 12 / 1000 ∧ Rounded.isOrientedOutside double M = some true := by
  obtain ⟨B, M, W, a, b, c, d, e⟩ := sphere_volume_double (r := 2) (tol := 1 / 1000000) (k := 100) (by norm_num) (by norm_num) tol_ok (by norm_num)
    (by norm_num) (by norm_num) Mesh.new
  exact ⟨B, M, W, a, b, c, d.trans (by norm_num), e⟩

/-- a torus and a cylinder -/
example : ∃ B M W, createTorusSolidRounded double (1 / 1000000) 3 1 = some B ∧ toMeshSolidRounded double B Mesh.new (4 : Nat) = some M ∧
    Rounded.volume double M = some W ∧ Rounded.isOrientedOutside double M = some true := by
  obtain ⟨B, M, W, a, b, c, -, e⟩ := torus_volume_double (major := 3) (minor := 1) (tol := 1 / 1000000) (k := 4)
    (range_one (by norm_num)) (by norm_num) (by norm_num) (by norm_num) tol_ok (by norm_num) (by norm_num) Mesh.new
  exact ⟨B, M, W, a, b, c, e (by norm_num)⟩

example : ∃ B M W, createCylinderRounded double (1 / 1000000) 2 5 = some B ∧ toMeshSolidRounded double B Mesh.new (4 : Nat) = some M ∧
    Rounded.volume double M = some W ∧ Rounded.isOrientedOutside double M = some true := by
  obtain ⟨B, M, W, a, b, c, -, e⟩ := cylinder_volume_double (r := 2) (h := 5) (tol := 1 / 1000000) (k := 4)
    (range_one (by norm_num)) (by norm_num) (by norm_num) (by norm_num) (by norm_num) tol_ok (by norm_num) (by norm_num) Mesh.new
  exact ⟨B, M, W, a, b, c, e (by norm_num)⟩

end Nurbs
end CAD
