import Verif.Lemmas.NurbsBuild

/-! C51-C53: extrusion, ruled surfaces, and what they leave of the old content of the
target. -/

set_option linter.unusedSimpArgs false

namespace CAD
namespace Nurbs
open BSpline
variable {K : Type} [Field K] [LinearOrder K] [IsStrictOrderedRing K]

theorem setDegree_some (s : Surface K) (p q : Nat) :
    ∃ pu pv wu wv, s.setDegree p q = some ⟨p, q, s.nbU, s.nbV, s.closedU, s.closedV, s.knotsU, s.knotsV, s.weights,
      s.points, pu, pv, wu, wv⟩ ∧ pu.length = p + 1 ∧ pv.length = q + 1 ∧ wu.length = p + 1 ∧ wv.length = q + 1 := by
  obtain ⟨pu, e1, l1⟩ := resize_some s.tempPointsU (p + 1) ⟨0, 0, 0⟩
  obtain ⟨pv, e2, l2⟩ := resize_some s.tempPointsV (q + 1) ⟨0, 0, 0⟩
  obtain ⟨wu, e3, l3⟩ := resize_some s.tempWeightsU (p + 1) 0
  obtain ⟨wv, e4, l4⟩ := resize_some s.tempWeightsV (q + 1) 0
  push_cast at e1 e2 e3 e4
  exact ⟨pu, pv, wu, wv, by simp [Surface.setDegree, e1, e2, e3, e4], l1, l2, l3, l4⟩

theorem extrude_eq {nc : Curve K} {p n : Nat} (h : nc.Valid p n) (tol : K) (dir : P3 K) (ns : Surface K) :
    ∃ b pu pv wu wv, nc.isClosed tol = some b ∧ extrude tol nc dir ns = some ⟨p, 1, n, 2, b, ns.closedV, nc.knots, knots01,
      nc.weights ++ nc.weights, nc.points ++ nc.points.map (· + dir), pu, pv, wu, wv⟩ ∧
      pu.length = p + 1 ∧ pv.length = 2 ∧ wu.length = p + 1 ∧ wv.length = 2 := by
  obtain ⟨b, hb⟩ := isClosed_some nc tol
  obtain ⟨pu, pv, wu, wv, e, l1, l2, l3, l4⟩ := setDegree_some ns.clear p 1
  refine ⟨b, pu, pv, wu, wv, hb, ?_, l1, l2, l3, l4⟩
  have a1 : nc.points.length ≤ nc.weights.length := by rw [h.points, h.weights]
  have a2 : nc.weights.take n = nc.weights := by rw [List.take_of_length_le (by rw [h.weights])]
  have a3 : n ≤ nc.weights.length := by rw [h.weights]
  push_cast at e
  simp only [Surface.clear] at e
  simp [extrude, assert, a1, a3, h.degree, e, Surface.setKnotsU, Surface.setKnotsV, scaleKnots_self h.knots,
    scaleKnots_self knots01_clamped, hb, Surface.setWeights, Surface.setPoints, Surface.setClosedU, h.points, a2,
    Surface.clear]

theorem ruled_eq {c1 c2 : Curve K} {p n : Nat} (h1 : c1.Valid p n) (tol : K) (ns : Surface K) :
    ∃ b1 b2 pu pv wu wv, c1.isClosed tol = some b1 ∧ c2.isClosed tol = some b2 ∧
      createRuled tol c1 c2 ns = some ⟨p, 1, n, 2, b1 && b2, ns.closedV, c1.knots, knots01,
      c1.weights ++ c2.weights, c1.points ++ c2.points, pu, pv, wu, wv⟩ ∧
      pu.length = p + 1 ∧ pv.length = 2 ∧ wu.length = p + 1 ∧ wv.length = 2 := by
  obtain ⟨b1, hb1⟩ := isClosed_some c1 tol
  obtain ⟨b2, hb2⟩ := isClosed_some c2 tol
  obtain ⟨pu, pv, wu, wv, e, l1, l2, l3, l4⟩ := setDegree_some ns.clear p 1
  refine ⟨b1, b2, pu, pv, wu, wv, hb1, hb2, ?_, l1, l2, l3, l4⟩
  push_cast at e
  simp only [Surface.clear] at e
  simp [createRuled, h1.degree, e, Surface.setKnotsU, Surface.setKnotsV, scaleKnots_self h1.knots,
    scaleKnots_self knots01_clamped, hb1, hb2, Surface.setWeights, Surface.setPoints, Surface.setClosedU, h1.points,
    Surface.clear]

theorem append_pair {s : Surface K} {n : Nat} {w1 w2 : List K} {p1 p2 : List (P3 K)} (hw : s.weights = w1 ++ w2)
    (hp : s.points = p1 ++ p2) (l1 : w1.length = n) (l2 : p1.length = n) {i : Nat} (hi : i < n) :
    s.pair n i 0 = (w1.getD i 0 • p1.getD i ⟨0, 0, 0⟩, w1.getD i 0) ∧
    s.pair n i 1 = (w2.getD i 0 • p2.getD i ⟨0, 0, 0⟩, w2.getD i 0) := by
  have e1 : (w1 ++ w2)[i]? = w1[i]? := List.getElem?_append_left (by omega)
  have e2 : (p1 ++ p2)[i]? = p1[i]? := List.getElem?_append_left (by omega)
  have e3 : (w1 ++ w2)[i + n]? = w2[i]? := by
    rw [List.getElem?_append_right (by omega)]; congr 1; omega
  have e4 : (p1 ++ p2)[i + n]? = p2[i]? := by
    rw [List.getElem?_append_right (by omega)]; congr 1; omega
  simp only [Surface.pair, Surface.hp, Surface.wt, Surface.pt, hw, hp, List.getD, Nat.mul_zero, Nat.mul_one, Nat.add_zero,
    e1, e2, e3, e4, and_self]

/-! ### C51 -/

theorem project_shift (x : P3 K × K) (v : K) (d : P3 K) :
    project (x.1 + (v * x.2) • d, x.2) = (project x).map (· + v • d) := by
  unfold project
  simp only
  split_ifs with h
  · rfl
  · rw [Option.map_some, smul_add, smul_smul]
    congr 3
    field_simp

/-- C51.  Extruding a curve gives a consistent surface of degree 1 in `v`, whatever
the target held, and its point at `(u, v)` is the point of the curve at `u` moved by
`v` times the direction; one is undefined exactly when the other is. -/
theorem extrude_spec {nc : Curve K} {p n : Nat} (h : nc.Valid p n) (tol : K) (dir : P3 K) (ns : Surface K) :
    ∃ s, extrude tol nc dir ns = some s ∧ s.Valid p 1 n 2 ∧ ∀ u v, s.at u v = (nc.at u).map (· + v • dir) := by
  obtain ⟨b, pu, pv, wu, wv, hb, e, l1, l2, l3, l4⟩ := extrude_eq h tol dir ns
  refine ⟨_, e, ?_, ?_⟩
  · refine ⟨rfl, rfl, rfl, rfl, ?_, ?_, h.knots, knots01_clamped, l1.ge, l2.ge, l3.ge, l4.ge⟩
    · simp [h.points]; ring
    · simp [h.weights]; ring
  · intro u v
    obtain ⟨k, hk⟩ := exists_inSpan h.knots (clamp_nonneg u) (clamp_le_one u)
    obtain ⟨hpk, hkn⟩ := hk.range h.knots
    have key := fun i (hi : i < n) => append_pair (s := ⟨p, 1, n, 2, b, ns.closedV, nc.knots, knots01,
      nc.weights ++ nc.weights, nc.points ++ nc.points.map (· + dir), pu, pv, wu, wv⟩) rfl rfl h.weights h.points hi
    rw [two_rows_at (p := p) (nu := n) ?_ rfl nc.pairs (fun i => nc.pairs i + (nc.hw i • dir, 0))
      (fun i hi => (key i hi).1) ?_ (k := k) hk v]
    · have hadd : deB (kn nc.knots) u p (fun i => nc.pairs i + (nc.hw i • dir, 0)) k =
          deB (kn nc.knots) u p nc.pairs k + ((deB (kn nc.knots) u p nc.pairs k).2 • dir, 0) := by
        have hd := den_ne h.knots.mono hk.1
        rw [deB_eq_sum _ u hpk hkn hd, deB_eq_sum _ u hpk hkn hd]
        ext1
        · simp [Curve.pairs, Prod.fst_sum, Prod.snd_sum, Finset.sum_add_distrib, Finset.sum_smul, smul_smul]
        · simp [Curve.pairs, Prod.fst_sum, Prod.snd_sum]
      rw [at_pair h hk]
      simp only [hadd]
      rw [← project_shift]
      congr 1
      ext1
      · simp; module
      · simp; ring
    · refine ⟨rfl, rfl, rfl, rfl, ?_, ?_, h.knots, knots01_clamped, l1.ge, l2.ge, l3.ge, l4.ge⟩
      · simp [h.points]; ring
      · simp [h.weights]; ring
    · intro i hi
      rw [(key i hi).2]
      have : i < nc.points.length := by rw [h.points]; exact hi
      simp [Curve.pairs, Curve.hp, Curve.hw, List.getD, this, smul_add]

/-! ### C52 -/

/-- C52.  The ruled surface between two curves of the same degree, number of points
and knots: at `v = 0` it is the first curve, at `v = 1` the second, whatever the
target held. -/
theorem ruled_spec {c1 c2 : Curve K} {p n : Nat} (h1 : c1.Valid p n) (h2 : c2.Valid p n) (hk : c2.knots = c1.knots)
    (tol : K) (ns : Surface K) :
    ∃ s, createRuled tol c1 c2 ns = some s ∧ s.Valid p 1 n 2 ∧ (∀ u, s.at u 0 = c1.at u) ∧ (∀ u, s.at u 1 = c2.at u) ∧
      ∀ u v k, InSpan c1.knots (clamp u) k → s.at u v =
        let a := (1 - v) * c1.denom p n k u
        let b := v * c2.denom p n k u
        if a + b = 0 then none else some ((1 / (a + b)) • ((1 - v) • c1.numer p n k u + v • c2.numer p n k u)) := by
  obtain ⟨b1, b2, pu, pv, wu, wv, hb1, hb2, e, l1, l2, l3, l4⟩ := ruled_eq (c2 := c2) h1 tol ns
  have hv : (⟨p, 1, n, 2, b1 && b2, ns.closedV, c1.knots, knots01, c1.weights ++ c2.weights, c1.points ++ c2.points,
      pu, pv, wu, wv⟩ : Surface K).Valid p 1 n 2 := by
    refine ⟨rfl, rfl, rfl, rfl, ?_, ?_, h1.knots, knots01_clamped, l1.ge, l2.ge, l3.ge, l4.ge⟩
    · simp [h1.points, h2.points]; ring
    · simp [h1.weights, h2.weights]; ring
  have key := fun i (hi : i < n) => append_pair (s := ⟨p, 1, n, 2, b1 && b2, ns.closedV, c1.knots, knots01,
    c1.weights ++ c2.weights, c1.points ++ c2.points, pu, pv, wu, wv⟩) rfl rfl h1.weights h1.points hi
  have main : ∀ u v k, InSpan c1.knots (clamp u) k → _ := fun u v k hs =>
    two_rows_at hv rfl c1.pairs c2.pairs (fun i hi => (key i hi).1) (fun i hi => (key i hi).2) (u := u) (k := k) hs v
  refine ⟨_, e, hv, ?_, ?_, ?_⟩
  · intro u
    obtain ⟨k, hs⟩ := exists_inSpan h1.knots (clamp_nonneg u) (clamp_le_one u)
    rw [main u 0 k hs, at_pair h1 hs]
    simp
  · intro u
    obtain ⟨k, hs⟩ := exists_inSpan h1.knots (clamp_nonneg u) (clamp_le_one u)
    rw [main u 1 k hs, at_pair h2 (by rw [hk]; exact hs)]
    simp [hk]
  · intro u v k hs
    have hs2 : InSpan c2.knots (clamp u) k := by rw [hk]; exact hs
    rw [main u v k hs]
    have d1 : (deB (kn c1.knots) u p c1.pairs k) = (c1.numer p n k u, c1.denom p n k u) := by
      ext1
      · rw [← deB_fst]; exact deB_hp h1 hs
      · rw [← deB_snd]; exact deB_hw h1 hs
    have d2 : (deB (kn c1.knots) u p c2.pairs k) = (c2.numer p n k u, c2.denom p n k u) := by
      rw [← hk]
      ext1
      · rw [← deB_fst]; exact deB_hp h2 hs2
      · rw [← deB_snd]; exact deB_hw h2 hs2
    simp only [d1, d2, project, Prod.smul_mk, Prod.mk_add_mk, smul_eq_mul]

/-- C52, in between: with positive weights the point at `(u, v)` lies on the segment
between the points of the two curves at `u`. -/
theorem ruled_segment {c1 c2 : Curve K} {p n : Nat} (h1 : c1.Valid p n) (h2 : c2.Valid p n) (hk : c2.knots = c1.knots)
    (w1 : ∀ w ∈ c1.weights, 0 < w) (w2 : ∀ w ∈ c2.weights, 0 < w) (tol : K) (ns : Surface K) :
    ∃ s, createRuled tol c1 c2 ns = some s ∧ ∀ u v, 0 ≤ u → u ≤ 1 → 0 ≤ v → v ≤ 1 → ∃ (P Q : P3 K) (lam : K),
      c1.at u = some P ∧ c2.at u = some Q ∧ 0 ≤ lam ∧ lam ≤ 1 ∧ s.at u v = some ((1 - lam) • P + lam • Q) := by
  obtain ⟨s, e, -, -, -, hs⟩ := ruled_spec h1 h2 hk tol ns
  refine ⟨s, e, fun u v hu0 hu1 hv0 hv1 => ?_⟩
  obtain ⟨k, hsp⟩ := exists_inSpan h1.knots hu0 hu1
  have hsp2 : InSpan c2.knots u k := by rw [hk]; exact hsp
  have d1 := denom_pos h1 w1 hsp
  have d2 := denom_pos h2 w2 hsp2
  have hc : clamp u = u := clamp_of_mem hu0 hu1
  have a1 := at_eq h1 (u := u) (k := k) (by rw [hc]; exact hsp)
  have a2 := at_eq h2 (u := u) (k := k) (by rw [hc]; exact hsp2)
  rw [deB_hw h1 hsp, if_neg d1.ne', deB_hp h1 hsp] at a1
  rw [deB_hw h2 hsp2, if_neg d2.ne', deB_hp h2 hsp2] at a2
  have hpos : 0 < (1 - v) * c1.denom p n k u + v * c2.denom p n k u := by
    rcases hv0.eq_or_lt with rfl | hv
    · simpa using d1
    · have := mul_pos hv d2
      have := mul_nonneg (sub_nonneg.2 hv1) d1.le
      linarith
  refine ⟨_, _, v * c2.denom p n k u / ((1 - v) * c1.denom p n k u + v * c2.denom p n k u), a1, a2, ?_, ?_, ?_⟩
  · exact div_nonneg (mul_nonneg hv0 d2.le) hpos.le
  · rw [div_le_one hpos]
    have := mul_nonneg (sub_nonneg.2 hv1) d1.le
    linarith
  · rw [hs u v k (by rw [hc]; exact hsp)]
    simp only [if_neg hpos.ne', Option.some_inj]
    have g1 := d1.ne'
    have g2 := d2.ne'
    have g3 := hpos.ne'
    generalize c1.denom p n k u = A at *
    generalize c2.denom p n k u = B at *
    generalize hD : (1 - v) * A + v * B = D at *
    have e1 : (1 - v * B / D) * (1 / A) = (1 - v) / D := by
      field_simp
      linear_combination -hD
    have e2 : v * B / D * (1 / B) = v / D := by field_simp
    rw [smul_smul, smul_smul, e1, e2, smul_add, smul_smul, smul_smul]
    congr 2 <;> ring

/-- C52 needs equal knots: only those of the first curve are used, so the side `v = 1`
need not be the second curve. -/
theorem ruled_needs_equal_knots :
    let c1 : Curve ℚ := ⟨1, [0, 0, 1 / 2, 1, 1], [1, 1, 1], [⟨0, 0, 0⟩, ⟨1, 0, 0⟩, ⟨2, 0, 0⟩], 3,
      [⟨0, 0, 0⟩, ⟨0, 0, 0⟩], [0, 0]⟩
    let c2 : Curve ℚ := { c1 with knots := [0, 0, 1 / 4, 1, 1] }
    c2.at (1 / 2) = some ⟨4 / 3, 0, 0⟩ ∧ (createRuled (1 / 1000000) c1 c2 Surface.new).bind (·.at (1 / 2) 1) = some ⟨1, 0, 0⟩ := by
  decide +kernel

/-! ### C53 -/

/-- C53.  Extruding or ruling into two targets with the same flag "closed in v" gives
the same surface (up to scratch storage), whatever else they held. -/
theorem extrude_ruled_independent_partial {nc c1 c2 : Curve K} {p n : Nat} (h : nc.Valid p n) (h1 : c1.Valid p n) (tol : K)
    (dir : P3 K) (ns ns' : Surface K) (hc : ns.closedV = ns'.closedV) :
    (∃ s s', extrude tol nc dir ns = some s ∧ extrude tol nc dir ns' = some s' ∧ s.SameShape s') ∧
    (∃ s s', createRuled tol c1 c2 ns = some s ∧ createRuled tol c1 c2 ns' = some s' ∧ s.SameShape s') := by
  obtain ⟨b, pu, pv, wu, wv, hb, e, -⟩ := extrude_eq h tol dir ns
  obtain ⟨b', pu', pv', wu', wv', hb', e', -⟩ := extrude_eq h tol dir ns'
  obtain ⟨c, d, qu, qv, xu, xv, hc1, hd1, f, -⟩ := ruled_eq (c2 := c2) h1 tol ns
  obtain ⟨c', d', qu', qv', xu', xv', hc2, hd2, f', -⟩ := ruled_eq (c2 := c2) h1 tol ns'
  rw [hb, Option.some_inj] at hb'
  rw [hc1, Option.some_inj] at hc2
  rw [hd1, Option.some_inj] at hd2
  subst hb' hc2 hd2
  exact ⟨⟨_, _, e, e', rfl, rfl, rfl, rfl, rfl, hc.symm, rfl, rfl, rfl, rfl⟩,
    ⟨_, _, f, f', rfl, rfl, rfl, rfl, rfl, hc.symm, rfl, rfl, rfl, rfl⟩⟩

/-- C53, the negation for extrusion: the flag "closed in v" of the target survives, so
extruding a segment into the object of an earlier torus gives a surface that claims to
be closed. -/
theorem extrude_keeps_closed_flag :
    let c : Curve ℚ := ⟨1, [0, 0, 1, 1], [1, 1], [⟨0, 0, 0⟩, ⟨1, 0, 0⟩], 2, [⟨0, 0, 0⟩, ⟨0, 0, 0⟩], [0, 0]⟩
    ((extrude (1 / 1000000) c ⟨0, 0, 1⟩ Surface.new).map (·.closedV) = some false) ∧
    ((extrude (1 / 1000000) c ⟨0, 0, 1⟩ (Surface.new.setClosedV true)).map (·.closedV) = some true) ∧
    ((createRuled (1 / 1000000) c c (Surface.new.setClosedV true)).map (·.closedV) = some true) := by
  decide +kernel

/-- C53: `set_equals_weights` on a surface whose weights are already there changes
nothing. -/
theorem set_equals_weights_keeps (s : Surface K) (h : s.weights.length = s.points.length) :
    s.setEqualsWeights = some s := by
  have : ¬ ((s.weights.length : Int) < 0) := by omega
  simp [Surface.setEqualsWeights, resize, this, ← h]

/-- C53: it gives equal weights when there are none yet, as after `clear`. -/
theorem set_equals_weights_fresh (s : Surface K) (h : s.weights = []) :
    s.setEqualsWeights = some { s with weights := List.replicate s.points.length 1 } := by
  have : ¬ ((s.points.length : Int) < 0) := by omega
  simp [Surface.setEqualsWeights, resize, this, h]

/-- the extrusion of the example curve: the point above the middle -/
example : ((extrude (1 / 1000) quarter (⟨0, 0, 4⟩ : P3 ℚ) Surface.new).bind fun S => S.at (1 / 2) (1 / 2)) =
    (quarter.at (1 / 2)).map (· + ⟨0, 0, 2⟩) ∧ (quarter.at (1 / 2)).isSome = true := by decide +kernel

end Nurbs
end CAD
