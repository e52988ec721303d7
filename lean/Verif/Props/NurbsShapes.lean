import Verif.Props.NurbsRevolve
import Verif.Model.NurbsFactory

/-! C55: circle, disk, sphere, torus and cylinder are exact. -/

set_option linter.unusedSimpArgs false

namespace CAD
namespace Nurbs
open BSpline
variable {K : Type} [Field K] [LinearOrder K] [IsStrictOrderedRing K]

/-! ### the circle -/

/-- `p.y() = -p.y()` as a linear map -/
def mirrorL : P3 K →ₗ[K] P3 K where
  toFun := mirrorY
  map_add' p q := by ext <;> simp [mirrorY]; ring
  map_smul' a p := by ext <;> simp [mirrorY]

theorem setDegree_curve (c : Curve K) (p : Nat) : ∃ tp tw, c.setDegree p = some { c with degree := p, tempPoints := tp, tempWeights := tw } ∧
    tp.length = p + 1 ∧ tw.length = p + 1 := by
  obtain ⟨tp, e1, l1⟩ := resize_some c.tempPoints (p + 1) ⟨0, 0, 0⟩
  obtain ⟨tw, e2, l2⟩ := resize_some c.tempWeights (p + 1) 0
  push_cast at e1 e2
  exact ⟨tp, tw, by simp [Curve.setDegree, e1, e2], l1, l2⟩

theorem createCircle_valid (r2 r : K) (nc : Curve K) :
    ∃ c, createCircle r2 r nc = some c ∧ c.Valid 2 9 ∧ c.knots = knotsCircle ∧
      ∀ i < 9, c.pairs i = LinearMap.prodMap mirrorL LinearMap.id (ringMap r2 i (⟨r, 0, 0⟩, 1)) := by
  obtain ⟨tp, tw, e, l1, l2⟩ := setDegree_curve nc.clear 2
  simp only [Nat.cast_ofNat] at e
  refine ⟨_, by simp only [createCircle, e, Option.bind_eq_bind, Option.bind_some, Curve.setKnots,
    scaleKnots_self knotsCircle_clamped, Option.pure_def]; rfl,
    ⟨rfl, rfl, rfl, rfl, knotsCircle_clamped, l1.ge, l2.ge⟩, rfl, ?_⟩
  intro i hi
  have := circle_pair r2 1 (⟨r, 0, 0⟩ : P3 K) hi
  rw [one_smul] at this
  rw [← this]
  obtain rfl | rfl | rfl | rfl | rfl | rfl | rfl | rfl | rfl :
      i = 0 ∨ i = 1 ∨ i = 2 ∨ i = 3 ∨ i = 4 ∨ i = 5 ∨ i = 6 ∨ i = 7 ∨ i = 8 := by omega
  all_goals
    refine Prod.ext (P3.ext ?_ ?_ ?_) ?_ <;>
      simp [Curve.pairs, Curve.hp, Curve.hw, Curve.setPoints, Curve.setWeights, circleWts, circlePts, turn, diag, mirrorL, mirrorY]

theorem circle_arc {r2 : K} (hr : r2 * r2 = 2) (h2 : 0 < r2) {r : K} {c : Curve K} (hv : c.Valid 2 9)
    (hk : c.knots = knotsCircle)
    (hp : ∀ i < 9, c.pairs i = LinearMap.prodMap mirrorL LinearMap.id (ringMap r2 i (⟨r, 0, 0⟩, 1))) (u : K) (j : Nat)
    (hj : j < 4) (hs : InSpan (knotsCircle : List K) (clamp u) (2 * j + 2)) :
    let x := 4 * u - j
    let D := (1 - x) ^ 2 + r2 * x * (1 - x) + x ^ 2
    c.at u = (fun t : P3 K → P3 K => some (mirrorY (t ⟨r, 0, 0⟩))) fun P =>
      turn^[j] (spin (((1 - x) ^ 2 + r2 * x * (1 - x)) / D) ((x ^ 2 + r2 * x * (1 - x)) / D) P) := by
  intro x D
  obtain ⟨hpk, hkn⟩ := hs.range knotsCircle_clamped
  have hD : D ≠ 0 := (arc_pos r2 x hr h2).ne'
  rw [at_pair hv (by rw [hk]; exact hs), hk, deB_congr _ _ hpk fun i h1 _ => hp i (by omega), deB_map, knotsCircle_deB u hj,
    ring_arc hr h2.ne' _ _ hj]
  change project (mirrorY (turn^[j] ⟨_ * r + _ * 0, _, D * 0⟩), D * 1) = _
  simp only [project, mul_one, if_neg hD, Option.some_inj]
  obtain rfl | rfl | rfl | rfl : j = 0 ∨ j = 1 ∨ j = 2 ∨ j = 3 := by omega
  all_goals
    simp only [Function.iterate_succ, Function.iterate_zero, id, Function.comp, turn, spin, P3.ext_iff, P3.smul_x,
      P3.smul_y, P3.smul_z, mirrorY]
    refine ⟨?_, ?_, ?_⟩ <;> field_simp <;> (try ring)

/-- C55, circle.  Every point of the curve is `(r c, r s, 0)` with `c² + s² = 1`; the
first quarter of the parameter range is in the first quadrant, a quarter of the range
is a counter-clockwise quarter turn, and the curve starts and ends at `(r, 0, 0)`. -/
theorem circle_exact {r2 : K} (hr : r2 * r2 = 2) (h2 : 0 < r2) (r : K) (nc : Curve K) :
    ∃ C, createCircle r2 r nc = some C ∧ C.Valid 2 9 ∧
      (∀ u, ∃ c s : K, c ^ 2 + s ^ 2 = 1 ∧ (0 ≤ u → u ≤ 1 / 4 → 0 ≤ c ∧ 0 ≤ s) ∧ C.at u = some ⟨r * c, r * s, 0⟩) ∧
      (∀ u, 0 ≤ u → u ≤ 3 / 4 → C.at (u + 1 / 4) = (C.at u).map fun P => ⟨-P.y, P.x, P.z⟩) ∧
      C.at 0 = some ⟨r, 0, 0⟩ ∧ C.at 1 = some ⟨r, 0, 0⟩ := by
  obtain ⟨C, e, hv, hk, hp⟩ := createCircle_valid r2 r nc
  obtain ⟨f1, f2, f3, f4, f5, f6⟩ := arc_family hr h2 (fun u => C.at u) (fun t => some (mirrorY (t ⟨r, 0, 0⟩)))
    (fun u j hj hs => circle_arc hr h2 hv hk hp u j hj hs)
  refine ⟨C, e, hv, ?_, ?_, ?_, ?_⟩
  · intro u
    obtain ⟨c, s, h1, h2, h3⟩ := f1 u
    refine ⟨c, s, h1, h2, h3.trans ?_⟩
    simp [spin, mirrorY, mul_comm]
  · intro u h0 h4
    obtain ⟨t, e1, e2⟩ := f2 u h0 h4
    rw [show C.at u = _ from e1, show C.at (u + 1 / 4) = _ from e2]
    simp [turn, mirrorY]
  · exact f3.trans (by simp [mirrorY])
  · exact f4.trans (by simp [mirrorY])

/-- C55, circle, completeness over the reals: the curve is the whole circle. -/
theorem circle_covers (r : ℝ) (nc : Curve ℝ) :
    ∃ C, createCircle (Real.sqrt 2) r nc = some C ∧ ∀ P : P3 ℝ,
      (∃ u, 0 ≤ u ∧ u ≤ 1 ∧ C.at u = some P) ↔ P.x ^ 2 + P.y ^ 2 = r ^ 2 ∧ P.z = 0 := by
  have hr : Real.sqrt 2 * Real.sqrt 2 = 2 := Real.mul_self_sqrt (by norm_num)
  have h2 : 0 < Real.sqrt 2 := Real.sqrt_pos.2 (by norm_num)
  obtain ⟨C, e, hv, hk, hp⟩ := createCircle_valid (Real.sqrt 2) r nc
  refine ⟨C, e, fun P => ⟨?_, ?_⟩⟩
  · rintro ⟨u, -, -, hu⟩
    obtain ⟨C', e', -, h1, -⟩ := circle_exact hr h2 r nc
    obtain rfl : C = C' := Option.some_inj.1 (e.symm.trans e')
    obtain ⟨c, s, h3, -, h4⟩ := h1 u
    rw [hu, Option.some_inj] at h4
    subst h4
    exact ⟨by linear_combination r ^ 2 * h3, rfl⟩
  · rintro ⟨h1, h3⟩
    obtain ⟨c, s, hcs, hx, hy⟩ : ∃ c s : ℝ, c ^ 2 + s ^ 2 = 1 ∧ P.x = r * c ∧ P.y = r * s := by
      by_cases hr0 : r = 0
      · subst hr0
        have hx : P.x = 0 := by nlinarith [sq_nonneg P.x, sq_nonneg P.y]
        have hy : P.y = 0 := by nlinarith [sq_nonneg P.x, sq_nonneg P.y]
        exact ⟨1, 0, by norm_num, by simp [hx], by simp [hy]⟩
      · refine ⟨P.x / r, P.y / r, ?_, by field_simp, by field_simp⟩
        field_simp
        exact h1
    obtain ⟨u, u0, u1, hu⟩ := arc_family_onto hr h2 (fun u => C.at u) (fun t => some (mirrorY (t ⟨r, 0, 0⟩)))
      (fun u j hj hs => circle_arc hr h2 hv hk hp u j hj hs) c s hcs
    refine ⟨u, u0, u1, hu.trans ?_⟩
    rw [Option.some_inj]
    ext <;> simp [spin, mirrorY, hx, hy, h3, mul_comm]

/-! ### segments as profiles -/

theorem line_curve (p q : P3 K) (c : Curve K) (hd : c.degree = 1) (l1 : 2 ≤ c.tempPoints.length)
    (l2 : 2 ≤ c.tempWeights.length) :
    ∃ c', (c.setPoints [p, q]).setUniform = some c' ∧ c'.setEqualsWeights.Valid 1 2 ∧ c'.setEqualsWeights.knots = knots01 ∧
      c'.setEqualsWeights.weights = [1, 1] ∧ c'.setEqualsWeights.points = [p, q] ∧
      ∀ u, c'.setEqualsWeights.at u = some ((1 - u) • p + u • q) := by
  have e : scaleKnots (uniformKnots 1 2 : List K) = some knots01 := by
    have : (uniformKnots 1 2 : List K) = knots01 := by
      simp [uniformKnots, knots01, loopN]
    rw [this]; exact scaleKnots_self knots01_clamped
  have hv : (({ c.setPoints [p, q] with knots := knots01 } : Curve K).setEqualsWeights).Valid 1 2 :=
    ⟨hd, rfl, rfl, rfl, knots01_clamped, l1, l2⟩
  refine ⟨{ c.setPoints [p, q] with knots := knots01 }, ?_, hv, rfl, rfl, rfl, ?_⟩
  · simp [Curve.setUniform, Curve.setPoints, Curve.setKnots, hd, e]
  · intro u
    rw [at_pair hv (k := 1) (knots01_span (clamp_nonneg u) (clamp_le_one u))]
    rw [show (({ c.setPoints [p, q] with knots := knots01 } : Curve K).setEqualsWeights).knots = knots01 from rfl, knots01_deB]
    simp [Curve.pairs, Curve.hp, Curve.hw, Curve.setEqualsWeights, Curve.setPoints, project]

theorem createCurveFromPoints_two (p q : P3 K) (nc : Curve K) :
    ∃ c, createCurveFromPoints [p, q] 1 nc = some c ∧ c.Valid 1 2 ∧ c.knots = knots01 ∧ c.weights = [1, 1] ∧
      c.points = [p, q] ∧ ∀ u, c.at u = some ((1 - u) • p + u • q) := by
  obtain ⟨tp, tw, e, l1, l2⟩ := setDegree_curve nc.clear 1
  obtain ⟨c', e', h⟩ := line_curve p q { nc.clear with degree := ((1 : Nat) : Int), tempPoints := tp, tempWeights := tw } rfl l1.ge l2.ge
  refine ⟨_, ?_, h⟩
  simp only [Nat.cast_one] at e e'
  simp only [createCurveFromPoints, e, Option.bind_eq_bind, Option.bind_some, e', Option.pure_def]

end Nurbs
end CAD
