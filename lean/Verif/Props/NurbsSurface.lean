import Verif.Lemmas.NurbsNet

/-! C46-C50 for surfaces. -/

set_option linter.unusedSimpArgs false

namespace CAD
namespace Nurbs
open BSpline
variable {K : Type} [Field K] [LinearOrder K] [IsStrictOrderedRing K]

/-! ### C50: evaluation is the tensor product -/

/-- C50.  A valid surface evaluates, at all parameters, to the rational tensor product
`Σ N_i(u) N_j(v) w_ij P_ij / Σ N_i(u) N_j(v) w_ij`; only a zero denominator is a
failure. -/
theorem surface_evaluate_spec {s : Surface K} {p q nu nv k l : Nat} (h : s.Valid p q nu nv) (u v : K)
    (hk : InSpan s.knotsU (clamp u) k) (hl : InSpan s.knotsV (clamp v) l) :
    s.at u v = if s.denom p q nu nv k l u v = 0 then none else
      some ((1 / s.denom p q nu nv k l u v) • s.numer p q nu nv k l u v) := by
  obtain ⟨hpk, hkn⟩ := hk.range h.knotsU
  obtain ⟨hql, hln⟩ := hl.range h.knotsV
  have dU := den_ne h.knotsU.mono hk.1
  have dV := den_ne h.knotsV.mono hl.1
  have e1 : deB (kn s.knotsV) v q (fun j => deB (kn s.knotsU) u p (fun i => s.wt nu i j) k) l =
      s.denom p q nu nv k l u v := by
    simp only [deB_eq_sum _ u hpk hkn dU, deB_eq_sum _ v hql hln dV, Finset.mul_sum, Surface.denom, smul_eq_mul]
    refine Finset.sum_congr rfl fun j _ => Finset.sum_congr rfl fun i _ => ?_
    ring
  have e2 : deB (kn s.knotsV) v q (fun j => deB (kn s.knotsU) u p (fun i => s.hp nu i j) k) l =
      s.numer p q nu nv k l u v := by
    simp only [deB_eq_sum _ u hpk hkn dU, deB_eq_sum _ v hql hln dV, Finset.smul_sum, Surface.numer, Surface.hp, smul_smul]
    refine Finset.sum_congr rfl fun j _ => Finset.sum_congr rfl fun i _ => ?_
    congr 1; ring
  rw [surface_at_eq h hk hl, e1, e2]

/-- C50: with positive weights the denominator is positive. -/
theorem surface_denom_pos {s : Surface K} {p q nu nv k l : Nat} (h : s.Valid p q nu nv) (hw : ∀ w ∈ s.weights, 0 < w)
    {u v : K} (hk : InSpan s.knotsU u k) (hl : InSpan s.knotsV v l) : 0 < s.denom p q nu nv k l u v := by
  obtain ⟨hpk, hkn⟩ := hk.range h.knotsU
  obtain ⟨hql, hln⟩ := hl.range h.knotsV
  have nU : ∀ i, 0 ≤ basis (kn s.knotsU) k u p i := fun i => basis_nonneg h.knotsU.mono hk.2.1 hk.2.2.1 p i
  have nV : ∀ i, 0 ≤ basis (kn s.knotsV) l v q i := fun i => basis_nonneg h.knotsV.mono hl.2.1 hl.2.2.1 q i
  have sU := sum_basis_eq_one (kn s.knotsU) u hpk hkn (den_ne h.knotsU.mono hk.1)
  have sV := sum_basis_eq_one (kn s.knotsV) v hql hln (den_ne h.knotsV.mono hl.1)
  obtain ⟨i, hi, hin⟩ : ∃ i ∈ Finset.range nu, basis (kn s.knotsU) k u p i ≠ 0 := by
    by_contra hc
    push Not at hc
    rw [Finset.sum_eq_zero hc] at sU
    exact zero_ne_one sU
  obtain ⟨j, hj, hjn⟩ : ∃ j ∈ Finset.range nv, basis (kn s.knotsV) l v q j ≠ 0 := by
    by_contra hc
    push Not at hc
    rw [Finset.sum_eq_zero hc] at sV
    exact zero_ne_one sV
  rw [Finset.mem_range] at hi hj
  have hnn : ∀ j < nv, ∀ i < nu, 0 ≤ basis (kn s.knotsU) k u p i * basis (kn s.knotsV) l v q j * s.wt nu i j :=
    fun j hj i hi => mul_nonneg (mul_nonneg (nU i) (nV j)) (wt_pos h hw hi hj).le
  refine Finset.sum_pos' (fun j' hj' => Finset.sum_nonneg fun i' hi' => hnn j' (Finset.mem_range.1 hj') i' (Finset.mem_range.1 hi'))
    ⟨j, Finset.mem_range.2 hj, ?_⟩
  refine Finset.sum_pos' (fun i' hi' => hnn j hj i' (Finset.mem_range.1 hi')) ⟨i, Finset.mem_range.2 hi, ?_⟩
  exact mul_pos (mul_pos (lt_of_le_of_ne (nU i) (Ne.symm hin)) (lt_of_le_of_ne (nV j) (Ne.symm hjn))) (wt_pos h hw hi hj)

/-- C50: with positive weights evaluation succeeds on the whole domain. -/
theorem surface_evaluate_defined {s : Surface K} {p q nu nv : Nat} (h : s.Valid p q nu nv) (hw : ∀ w ∈ s.weights, 0 < w)
    {u v : K} (hu0 : 0 ≤ u) (hu1 : u ≤ 1) (hv0 : 0 ≤ v) (hv1 : v ≤ 1) : (s.at u v).isSome := by
  obtain ⟨k, hk⟩ := exists_inSpan h.knotsU hu0 hu1
  obtain ⟨l, hl⟩ := exists_inSpan h.knotsV hv0 hv1
  rw [surface_evaluate_spec h u v (k := k) (l := l) (by rw [clamp_of_mem hu0 hu1]; exact hk)
    (by rw [clamp_of_mem hv0 hv1]; exact hl), if_neg (surface_denom_pos h hw hk hl).ne']
  rfl

/-- C50: the result does not depend on the scratch vectors left by earlier
evaluations. -/
theorem surface_evaluate_history_free {s s' : Surface K} {p q nu nv : Nat} (h : s.Valid p q nu nv)
    (h' : s'.Valid p q nu nv) (hs : s.SameShape s') (u v : K) : s'.at u v = s.at u v := by
  obtain ⟨k, hk⟩ := exists_inSpan h.knotsU (clamp_nonneg u) (clamp_le_one u)
  obtain ⟨l, hl⟩ := exists_inSpan h.knotsV (clamp_nonneg v) (clamp_le_one v)
  obtain ⟨_, _, _, _, _, _, e7, e8, e9, e10⟩ := hs
  have d1 : s'.denom p q nu nv k l u v = s.denom p q nu nv k l u v := by
    simp only [Surface.denom, Surface.wt, e7, e8, e9]
  have d2 : s'.numer p q nu nv k l u v = s.numer p q nu nv k l u v := by
    simp only [Surface.numer, Surface.wt, Surface.pt, e7, e8, e9, e10]
  rw [surface_evaluate_spec h u v hk hl, surface_evaluate_spec h' u v (by rw [e7]; exact hk) (by rw [e8]; exact hl),
    d1, d2]

/-- C50: an evaluation changes only the scratch vectors. -/
theorem surface_evaluate_keeps {s s' : Surface K} {p q nu nv : Nat} (h : s.Valid p q nu nv) {u v : K} {x : P3 K}
    (he : s.evaluate u v = some (s', x)) : s'.Valid p q nu nv ∧ s.SameShape s' := by
  obtain ⟨k, hk⟩ := exists_inSpan h.knotsU (clamp_nonneg u) (clamp_le_one u)
  obtain ⟨l, hl⟩ := exists_inSpan h.knotsV (clamp_nonneg v) (clamp_le_one v)
  obtain ⟨pu, wu, pv, wv, l1, l2, l3, l4, e⟩ := surface_evaluate_eq h hk hl
  rw [e] at he
  split_ifs at he with hw
  obtain ⟨rfl, _⟩ := Prod.mk.inj (Option.some.inj he)
  refine ⟨⟨h.degreeU, h.degreeV, h.nbU, h.nbV, h.points, h.weights, h.knotsU, h.knotsV, ?_, ?_, ?_, ?_⟩,
    rfl, rfl, rfl, rfl, rfl, rfl, rfl, rfl, rfl, rfl⟩
  · have := h.tempPointsU; simp only; omega
  · have := h.tempPointsV; simp only; omega
  · have := h.tempWeightsU; simp only; omega
  · have := h.tempWeightsV; simp only; omega

/-- what a rational curve is made of at a parameter -/
theorem at_some_pair {c : Curve K} {p n k : Nat} (h : c.Valid p n) {u : K} (hs : InSpan c.knots (clamp u) k) {x : P3 K}
    (hx : c.at u = some x) : deB (kn c.knots) u p c.pairs k = (c.denom p n k u • x, c.denom p n k u) := by
  have hd : (deB (kn c.knots) u p c.pairs k).2 = c.denom p n k u := by rw [← deB_snd, ← deB_hw h hs]; rfl
  rw [at_pair h hs, project] at hx
  split_ifs at hx with h0
  rw [← Option.some.inj hx, ← hd, smul_smul, mul_one_div, div_self h0, one_smul]

/-- C50.  First along the rows, then across: if a curve over the `v` knots has as its
points the points at `u` of the row curves (those of `create_u_curves`) and as its
weights their denominators, it evaluates at `v` to the surface point. -/
theorem surface_evaluate_rows {s : Surface K} {p q nu nv k : Nat} (h : s.Valid p q nu nv) {u : K}
    (hk : InSpan s.knotsU (clamp u) k) {c : Curve K} (hc : c.Valid q nv) (hcK : c.knots = s.knotsV)
    (hp : ∀ j < nv, ∃ r x, s.uCurve j = some r ∧ r.at u = some x ∧ c.points[j]? = some x ∧
      c.weights[j]? = some (r.denom p nu k u)) (v : K) : s.at u v = c.at v := by
  obtain ⟨l, hl⟩ := exists_inSpan h.knotsV (clamp_nonneg v) (clamp_le_one v)
  obtain ⟨hpk, hkn⟩ := hk.range h.knotsU
  obtain ⟨hql, hln⟩ := hl.range h.knotsV
  rw [surface_at_pair h hk hl, at_pair hc (by rw [hcK]; exact hl), hcK]
  congr 1
  refine deB_congr _ v hql fun j hj _ => ?_
  obtain ⟨r, x, hr, hx, h1, h2⟩ := hp j (by omega)
  rw [uCurve_eq h (by omega)] at hr
  obtain rfl := Option.some.inj hr
  have hpair := at_some_pair (row_valid h j) (show InSpan (s.row p nu j).knots (clamp u) k from hk) hx
  rw [Curve.pairs, Curve.hp, Curve.hw, List.getD, List.getD, h1, h2]
  simp only [Option.getD_some]
  rw [← hpair]
  exact deB_congr _ u hpk fun i hi _ => (row_pairs j (by omega)).symm

/-- C50.  And the other way round: first the column curves of `create_v_curves` at
`v`, then across at `u`. -/
theorem surface_evaluate_columns {s : Surface K} {p q nu nv l : Nat} (h : s.Valid p q nu nv) {v : K}
    (hl : InSpan s.knotsV (clamp v) l) {c : Curve K} (hc : c.Valid p nu) (hcK : c.knots = s.knotsU)
    (hp : ∀ i < nu, ∃ r x, s.vCurve i = some r ∧ r.at v = some x ∧ c.points[i]? = some x ∧
      c.weights[i]? = some (r.denom q nv l v)) (u : K) : s.at u v = c.at u := by
  obtain ⟨k, hk⟩ := exists_inSpan h.knotsU (clamp_nonneg u) (clamp_le_one u)
  obtain ⟨hpk, hkn⟩ := hk.range h.knotsU
  obtain ⟨hql, hln⟩ := hl.range h.knotsV
  rw [surface_at_pair h hk hl, at_pair hc (by rw [hcK]; exact hk), hcK,
    deB_comm _ _ u v hpk hkn (den_ne h.knotsU.mono hk.1) hql hln (den_ne h.knotsV.mono hl.1)]
  congr 1
  refine deB_congr _ u hpk fun i hi _ => ?_
  obtain ⟨r, x, hr, hx, h1, h2⟩ := hp i (by omega)
  rw [vCurve_eq h (by omega)] at hr
  obtain rfl := Option.some.inj hr
  have hpair := at_some_pair (col_valid h i) (show InSpan (s.col q nu nv i).knots (clamp v) l from hl) hx
  rw [Curve.pairs, Curve.hp, Curve.hw, List.getD, List.getD, h1, h2]
  simp only [Option.getD_some]
  rw [← hpair]
  exact deB_congr _ v hql fun j hj _ => (col_pairs i (by omega)).symm

/-! ### C50: cutting into curves and putting together again -/

theorem list_eq_of_idx {α : Type} {l l' : List α} {n m : Nat} (h : l.length = n * m) (h' : l'.length = n * m)
    (he : ∀ i j, i < n → j < m → l[i + n * j]? = l'[i + n * j]?) : l = l' := by
  refine List.ext_getElem? fun i => ?_
  by_cases hi : i < n * m
  · obtain ⟨a, b, ha, hb, rfl⟩ := idx_surj hi
    exact he a b ha hb
  · rw [List.getElem?_eq_none (by omega), List.getElem?_eq_none (by omega)]

/-- C50.  The row curves of a surface put together again give that surface. -/
theorem from_create_u {s : Surface K} {p q nu nv : Nat} (h : s.Valid p q nu nv) :
    ∃ vu s', s.createUCurves = some vu ∧ vu.length = nv ∧ (∀ c ∈ vu, c.Valid p nu) ∧
      s.fromUCurves vu = some s' ∧ s'.Valid p q nu nv ∧ s.SameShape s' := by
  have hv : ∀ c ∈ (List.range nv).map (s.row p nu), c.Valid p nu ∧ c.knots = s.knotsU := by
    intro c hc
    obtain ⟨j, _, rfl⟩ := List.mem_map.1 hc
    exact ⟨row_valid h j, rfl⟩
  obtain ⟨s', e1, e2, e3, e4, e5, e6, e7, e8⟩ := fromUCurves_spec h _ (by simp) hv
  have hpair := fun i j (hi : i < nu) (hj : j < nv) => pair_of_rows (s' := s') (vu := (List.range nv).map (s.row p nu))
    (fun c hc => (hv c hc).1) e7 e8 hi (j := j) (c := s.row p nu j) (by simp [hj])
  refine ⟨_, s', createUCurves_eq h, by simp, fun c hc => (hv c hc).1, e1, e2, e2.degreeU.trans h.degreeU.symm,
    e2.degreeV.trans h.degreeV.symm, e2.nbU.trans h.nbU.symm, e2.nbV.trans h.nbV.symm, e5, e6, e3, e4, ?_, ?_⟩
  · refine list_eq_of_idx e2.weights h.weights fun i j hi hj => ?_
    have := (hpair i j hi hj).2
    rw [getD_of_lt s'.weights 0 (by rw [e2.weights]; exact idx_lt hi hj),
      getD_of_lt s.weights 0 (by rw [h.weights]; exact idx_lt hi hj)]
    simp only [Surface.wt] at this
    rw [this]; simp [Surface.row, List.getD, hi, Surface.wt]
  · refine list_eq_of_idx e2.points h.points fun i j hi hj => ?_
    have := (hpair i j hi hj).1
    rw [getD_of_lt s'.points ⟨0, 0, 0⟩ (by rw [e2.points]; exact idx_lt hi hj),
      getD_of_lt s.points ⟨0, 0, 0⟩ (by rw [h.points]; exact idx_lt hi hj)]
    simp only [Surface.pt] at this
    rw [this]; simp [Surface.row, List.getD, hi, Surface.pt]

/-- C50.  The column curves of a surface put together again give that surface. -/
theorem from_create_v {s : Surface K} {p q nu nv : Nat} (h : s.Valid p q nu nv) :
    ∃ vv s', s.createVCurves = some vv ∧ vv.length = nu ∧ (∀ c ∈ vv, c.Valid q nv) ∧
      s.fromVCurves vv = some s' ∧ s'.Valid p q nu nv ∧ s.SameShape s' := by
  have hv : ∀ c ∈ (List.range nu).map (s.col q nu nv), c.Valid q nv ∧ c.knots = s.knotsV := by
    intro c hc
    obtain ⟨j, _, rfl⟩ := List.mem_map.1 hc
    exact ⟨col_valid h j, rfl⟩
  obtain ⟨s', e1, e2, e3, e4, e5, e6, e7⟩ := fromVCurves_spec h _ (by simp) hv
  have hpair := fun i j (hi : i < nu) (hj : j < nv) => e7 i j (s.col q nu nv i) hi hj (by simp [hi])
  refine ⟨_, s', createVCurves_eq h, by simp, fun c hc => (hv c hc).1, e1, e2, e2.degreeU.trans h.degreeU.symm,
    e2.degreeV.trans h.degreeV.symm, e2.nbU.trans h.nbU.symm, e2.nbV.trans h.nbV.symm, e5, e6, e3, e4, ?_, ?_⟩
  · refine list_eq_of_idx e2.weights h.weights fun i j hi hj => ?_
    have := (hpair i j hi hj).2
    rw [getD_of_lt s'.weights 0 (by rw [e2.weights]; exact idx_lt hi hj),
      getD_of_lt s.weights 0 (by rw [h.weights]; exact idx_lt hi hj)]
    simp only [Surface.wt] at this
    rw [this]; simp [Surface.col, List.getD, hj, Surface.wt]
  · refine list_eq_of_idx e2.points h.points fun i j hi hj => ?_
    have := (hpair i j hi hj).1
    rw [getD_of_lt s'.points ⟨0, 0, 0⟩ (by rw [e2.points]; exact idx_lt hi hj),
      getD_of_lt s.points ⟨0, 0, 0⟩ (by rw [h.points]; exact idx_lt hi hj)]
    simp only [Surface.pt] at this
    rw [this]; simp [Surface.col, List.getD, hj, Surface.pt]

theorem map_range_getD {α : Type} (l : List α) (d : α) {n : Nat} (h : l.length = n) :
    (List.range n).map (fun i => l.getD i d) = l := by
  refine List.ext_getElem? fun i => ?_
  by_cases hi : i < n
  · rw [getD_of_lt l d (by omega)]; simp [hi]
  · rw [List.getElem?_eq_none (by simp; omega), List.getElem?_eq_none (by omega)]

/-- C50.  And conversely: rows put into a surface are the rows it is cut into. -/
theorem create_from_u {s : Surface K} {p q nu nv p' n' : Nat} (h : s.Valid p q nu nv) (vu : List (Curve K))
    (hl : vu.length = nv) {K' : List K} (hv : ∀ c ∈ vu, c.Valid p' n' ∧ c.knots = K') :
    ∃ s' vu', s.fromUCurves vu = some s' ∧ s'.createUCurves = some vu' ∧ List.Forall₂ Curve.SameShape vu vu' := by
  obtain ⟨s', e1, e2, e3, e4, e5, e6, e7, e8⟩ := fromUCurves_spec h vu hl hv
  refine ⟨s', _, e1, createUCurves_eq e2, ?_⟩
  rw [List.forall₂_iff_get]
  refine ⟨by simp [hl], fun j h1 h2 => ?_⟩
  have hj : vu[j]? = some (vu.get ⟨j, h1⟩) := List.getElem?_eq_getElem h1
  obtain ⟨hc, hcK⟩ := hv (vu.get ⟨j, h1⟩) (List.get_mem _ _)
  have hpair := fun i (hi : i < n') => pair_of_rows (s' := s') (fun c hc => (hv c hc).1) e7 e8 hi hj
  have ew : (List.range n').map (fun i => s'.wt n' i j) = (vu.get ⟨j, h1⟩).weights := by
    rw [← map_range_getD _ 0 hc.weights]
    exact List.map_congr_left fun i hi => (hpair i (List.mem_range.1 hi)).2
  have ep : (List.range n').map (fun i => s'.pt n' i j) = (vu.get ⟨j, h1⟩).points := by
    rw [← map_range_getD _ ⟨0, 0, 0⟩ hc.points]
    exact List.map_congr_left fun i hi => (hpair i (List.mem_range.1 hi)).1
  simp only [List.get_eq_getElem, List.getElem_map, List.getElem_range] at *
  exact ⟨hc.degree.symm, e3.trans hcK.symm, ew, ep, hc.nbPoints.symm⟩

/-- C50.  The same for columns. -/
theorem create_from_v {s : Surface K} {p q nu nv q' n' : Nat} (h : s.Valid p q nu nv) (vv : List (Curve K))
    (hl : vv.length = nu) {K' : List K} (hv : ∀ c ∈ vv, c.Valid q' n' ∧ c.knots = K') :
    ∃ s' vv', s.fromVCurves vv = some s' ∧ s'.createVCurves = some vv' ∧ List.Forall₂ Curve.SameShape vv vv' := by
  obtain ⟨s', e1, e2, e3, e4, e5, e6, e7⟩ := fromVCurves_spec h vv hl hv
  refine ⟨s', _, e1, createVCurves_eq e2, ?_⟩
  rw [List.forall₂_iff_get]
  refine ⟨by simp [hl], fun i h1 h2 => ?_⟩
  have hi : vv[i]? = some (vv.get ⟨i, h1⟩) := List.getElem?_eq_getElem h1
  obtain ⟨hc, hcK⟩ := hv (vv.get ⟨i, h1⟩) (List.get_mem _ _)
  have hpair := fun j (hj : j < n') => e7 i j _ (by omega) hj hi
  have ew : (List.range n').map (fun j => s'.wt nu i j) = (vv.get ⟨i, h1⟩).weights := by
    rw [← map_range_getD _ 0 hc.weights]
    exact List.map_congr_left fun i hi => (hpair i (List.mem_range.1 hi)).2
  have ep : (List.range n').map (fun j => s'.pt nu i j) = (vv.get ⟨i, h1⟩).points := by
    rw [← map_range_getD _ ⟨0, 0, 0⟩ hc.points]
    exact List.map_congr_left fun i hi => (hpair i (List.mem_range.1 hi)).1
  simp only [List.get_eq_getElem, List.getElem_map, List.getElem_range] at *
  exact ⟨hc.degree.symm, e4.trans hcK.symm, ew, ep, hc.nbPoints.symm⟩

/-! ### C48, C49: curve operations on all rows or all columns -/

theorem row_pos {s : Surface K} {p q nu nv j : Nat} (h : s.Valid p q nu nv) (hw : ∀ w ∈ s.weights, 0 < w) (hj : j < nv) :
    ∀ w ∈ (s.row p nu j).weights, 0 < w := by
  intro w hw'
  obtain ⟨i, hi, rfl⟩ := List.mem_map.1 hw'
  exact wt_pos h hw (List.mem_range.1 hi) hj

theorem col_pos {s : Surface K} {p q nu nv i : Nat} (h : s.Valid p q nu nv) (hw : ∀ w ∈ s.weights, 0 < w) (hi : i < nu) :
    ∀ w ∈ (s.col q nu nv i).weights, 0 < w := by
  intro w hw'
  obtain ⟨j, hj, rfl⟩ := List.mem_map.1 hw'
  exact wt_pos h hw hi (List.mem_range.1 hj)

theorem mapU {α : Type} {s : Surface K} {p q nu nv p' n' : Nat} (h : s.Valid p q nu nv) (hw : ∀ w ∈ s.weights, 0 < w)
    {K' : List K} (op : Curve K → Res α) (f : α → Curve K)
    (hop : ∀ c : Curve K, c.Valid p nu → (∀ w ∈ c.weights, 0 < w) → c.knots = s.knotsU →
      ∃ a, op c = some a ∧ (f a).Valid p' n' ∧ (∀ w ∈ (f a).weights, 0 < w) ∧ (f a).knots = K' ∧
        c.Refines (f a) p p') :
    ∃ vu vu' s', s.createUCurves = some vu ∧ vu.mapM op = some vu' ∧ s.fromUCurves (vu'.map f) = some s' ∧
      s'.Valid p' q n' nv ∧ (∀ w ∈ s'.weights, 0 < w) ∧ s'.knotsU = K' ∧ s'.knotsV = s.knotsV ∧
      s'.closedU = s.closedU ∧ s'.closedV = s.closedV ∧ ∀ u v, s'.at u v = s.at u v := by
  obtain ⟨l, hl, hf⟩ := mapM_forall₂ (f := op) (P := fun c a => (f a).Valid p' n' ∧ (∀ w ∈ (f a).weights, 0 < w) ∧
    (f a).knots = K' ∧ c.Refines (f a) p p') ((List.range nv).map (s.row p nu)) (by
      intro c hc
      obtain ⟨j, hj, rfl⟩ := List.mem_map.1 hc
      exact hop _ (row_valid h j) (row_pos h hw (List.mem_range.1 hj)) rfl)
  have hf' := List.forall₂_iff_get.1 hf
  obtain ⟨hlen, hget⟩ := hf'
  simp only [List.length_map, List.length_range] at hlen
  have hP : ∀ c ∈ l.map f, c.Valid p' n' ∧ (∀ w ∈ c.weights, 0 < w) ∧ c.knots = K' := by
    intro c hc
    obtain ⟨a, ha, rfl⟩ := List.mem_map.1 hc
    obtain ⟨j, hj, rfl⟩ := List.getElem_of_mem ha
    have := hget j (by simp; omega) hj
    exact ⟨this.1, this.2.1, this.2.2.1⟩
  obtain ⟨s', e1, e2, e3, e4, e5, e6, e7, e8⟩ := fromUCurves_spec h (l.map f) (by simp [hlen]) (K' := K')
    fun c hc => ⟨(hP c hc).1, (hP c hc).2.2⟩
  refine ⟨_, l, s', createUCurves_eq h, hl, e1, e2, ?_, e3, e4, e5, e6, ?_⟩
  · intro w hw'
    rw [e8] at hw'
    obtain ⟨c, hc, hwc⟩ := List.mem_flatMap.1 hw'
    exact (hP c hc).2.1 w hwc
  · intro u v
    obtain ⟨k, hk⟩ := exists_inSpan h.knotsU (clamp_nonneg u) (clamp_le_one u)
    obtain ⟨k', hk'⟩ := exists_inSpan e2.knotsU (clamp_nonneg u) (clamp_le_one u)
    obtain ⟨l', hl'⟩ := exists_inSpan h.knotsV (clamp_nonneg v) (clamp_le_one v)
    obtain ⟨hpk, hkn⟩ := hk.range h.knotsU
    obtain ⟨hpk', hkn'⟩ := hk'.range e2.knotsU
    obtain ⟨hql, hln⟩ := hl'.range h.knotsV
    rw [surface_at_pair h hk hl', surface_at_pair e2 hk' (by rw [e4]; exact hl'), e4]
    congr 1
    refine deB_congr _ v hql fun j hj _ => ?_
    have hjn : j < nv := by omega
    have hjl : j < l.length := by omega
    obtain ⟨r1, r2, r3, r4⟩ := hget j (by simpa using hjn) hjl
    simp only [List.get_eq_getElem, List.getElem_map, List.getElem_range] at r1 r2 r3 r4
    have hpair := fun i (hi : i < n') => pair_of_rows (s' := s') (fun c hc => (hP c hc).1) e7 e8 hi (j := j)
      (c := f l[j]) (by simp [hjl])
    have := r4 (clamp u) k k' hk (by rw [r3, ← e3]; exact hk') u
    rw [deB_congr _ u hpk (fun i hi _ => (row_pairs (s := s) (p := p) j (show i < nu by omega)).symm)]
    refine Eq.trans ?_ this
    rw [r3, e3]
    refine deB_congr _ u hpk' fun i hi _ => ?_
    obtain ⟨g1, g2⟩ := hpair i (by omega)
    simp only [Surface.pair, Surface.hp, g1, g2, Curve.pairs, Curve.hp, Curve.hw]

theorem mapV {α : Type} {s : Surface K} {p q nu nv q' n' : Nat} (h : s.Valid p q nu nv) (hw : ∀ w ∈ s.weights, 0 < w)
    {K' : List K} (op : Curve K → Res α) (f : α → Curve K)
    (hop : ∀ c : Curve K, c.Valid q nv → (∀ w ∈ c.weights, 0 < w) → c.knots = s.knotsV →
      ∃ a, op c = some a ∧ (f a).Valid q' n' ∧ (∀ w ∈ (f a).weights, 0 < w) ∧ (f a).knots = K' ∧
        c.Refines (f a) q q') :
    ∃ vv vv' s', s.createVCurves = some vv ∧ vv.mapM op = some vv' ∧ s.fromVCurves (vv'.map f) = some s' ∧
      s'.Valid p q' nu n' ∧ (∀ w ∈ s'.weights, 0 < w) ∧ s'.knotsU = s.knotsU ∧ s'.knotsV = K' ∧
      s'.closedU = s.closedU ∧ s'.closedV = s.closedV ∧ ∀ u v, s'.at u v = s.at u v := by
  obtain ⟨l, hl, hf⟩ := mapM_forall₂ (f := op) (P := fun c a => (f a).Valid q' n' ∧ (∀ w ∈ (f a).weights, 0 < w) ∧
    (f a).knots = K' ∧ c.Refines (f a) q q') ((List.range nu).map (s.col q nu nv)) (by
      intro c hc
      obtain ⟨i, hi, rfl⟩ := List.mem_map.1 hc
      exact hop _ (col_valid h i) (col_pos h hw (List.mem_range.1 hi)) rfl)
  have hf' := List.forall₂_iff_get.1 hf
  obtain ⟨hlen, hget⟩ := hf'
  simp only [List.length_map, List.length_range] at hlen
  have hP : ∀ c ∈ l.map f, c.Valid q' n' ∧ (∀ w ∈ c.weights, 0 < w) ∧ c.knots = K' := by
    intro c hc
    obtain ⟨a, ha, rfl⟩ := List.mem_map.1 hc
    obtain ⟨j, hj, rfl⟩ := List.getElem_of_mem ha
    have := hget j (by simp; omega) hj
    exact ⟨this.1, this.2.1, this.2.2.1⟩
  obtain ⟨s', e1, e2, e3, e4, e5, e6, e7⟩ := fromVCurves_spec h (l.map f) (by simp [hlen]) (K' := K')
    fun c hc => ⟨(hP c hc).1, (hP c hc).2.2⟩
  have hpair : ∀ i j, (hi : i < nu) → j < n' → s'.pt nu i j = (f (l[i]'(by omega))).points.getD j ⟨0, 0, 0⟩ ∧
      s'.wt nu i j = (f (l[i]'(by omega))).weights.getD j 0 := fun i j hi hj => e7 i j _ hi hj (by
        rw [List.getElem?_map, List.getElem?_eq_getElem (by omega)]; rfl)
  refine ⟨_, l, s', createVCurves_eq h, hl, e1, e2, ?_, e3, e4, e5, e6, ?_⟩
  · intro w hw'
    obtain ⟨m, hm, rfl⟩ := List.getElem_of_mem hw'
    rw [e2.weights] at hm
    obtain ⟨i, j, hi, hj, rfl⟩ := idx_surj hm
    have hil : i < l.length := by omega
    have hc := hP (f l[i]) (List.mem_map_of_mem (List.getElem_mem hil))
    have g := (hpair i j hi hj).2
    simp only [Surface.wt, List.getD, List.getElem?_eq_getElem (show i + nu * j < s'.weights.length by rw [e2.weights]; omega),
      Option.getD_some] at g
    rw [g]
    exact weights_pos hc.1 hc.2.1 hj
  · intro u v
    obtain ⟨k, hk⟩ := exists_inSpan h.knotsU (clamp_nonneg u) (clamp_le_one u)
    obtain ⟨m, hm⟩ := exists_inSpan h.knotsV (clamp_nonneg v) (clamp_le_one v)
    obtain ⟨m', hm'⟩ := exists_inSpan e2.knotsV (clamp_nonneg v) (clamp_le_one v)
    obtain ⟨hpk, hkn⟩ := hk.range h.knotsU
    obtain ⟨hql, hln⟩ := hm.range h.knotsV
    obtain ⟨hql', hln'⟩ := hm'.range e2.knotsV
    rw [surface_at_pair h hk hm, surface_at_pair e2 (by rw [e3]; exact hk) hm', e3,
      deB_comm _ _ u v hpk hkn (den_ne h.knotsU.mono hk.1) hql hln (den_ne h.knotsV.mono hm.1),
      deB_comm _ _ u v hpk hkn (den_ne h.knotsU.mono hk.1) hql' hln' (den_ne e2.knotsV.mono hm'.1)]
    congr 1
    refine deB_congr _ u hpk fun i hi _ => ?_
    have hin : i < nu := by omega
    have hil : i < l.length := by omega
    obtain ⟨r1, r2, r3, r4⟩ := hget i (by simpa using hin) hil
    simp only [List.get_eq_getElem, List.getElem_map, List.getElem_range] at r1 r2 r3 r4
    have := r4 (clamp v) m m' hm (by rw [r3, ← e4]; exact hm') v
    rw [deB_congr _ v hql (fun j hj _ => (col_pairs (s := s) (q := q) i (show j < nv by omega)).symm)]
    refine Eq.trans ?_ this
    rw [r3, e4]
    refine deB_congr _ v hql' fun j hj _ => ?_
    obtain ⟨g1, g2⟩ := hpair i j hin (by omega)
    simp only [Surface.pair, Surface.hp, g1, g2, Curve.pairs, Curve.hp, Curve.hw]

/-- C48.  Inserting a `u` knot anywhere in `[0, 1]` into a surface with positive
weights does not move it. -/
theorem surface_insert_knot_u {s : Surface K} {p q nu nv : Nat} (h : s.Valid p q nu nv) (hw : ∀ w ∈ s.weights, 0 < w)
    {t : K} (h0 : 0 ≤ t) (h1 : t ≤ 1) :
    ∃ s', s.insertKnotU t = some s' ∧ s'.Valid p q (nu + 1) nv ∧ (∀ w ∈ s'.weights, 0 < w) ∧
      s'.knotsU.Perm (t :: s.knotsU) ∧ s'.knotsV = s.knotsV ∧ ∀ u v, s'.at u v = s.at u v := by
  obtain ⟨l, hl⟩ := exists_inSpan h.knotsU h0 h1
  obtain ⟨vu, vu', s', e1, e2, e3, e4, e5, e6, e7, _, _, e8⟩ := mapU h hw (K' := s.knotsU.take (l + 1) ++ t :: s.knotsU.drop (l + 1))
    (fun c => c.insertKnot t) id (by
      intro c hc hcw hcK
      obtain ⟨c', a1, a2, a3, a4, a5⟩ := insert_knot_refines hc hcw (u := t) (l := l) (by rw [hcK]; exact hl)
      exact ⟨c', a1, a2, a3, by rw [← hcK]; exact a4, a5⟩)
  rw [List.map_id] at e3
  refine ⟨s', ?_, e4, e5, ?_, e7, e8⟩
  · simp only [Surface.insertKnotU, e1, e2, e3, Option.bind_eq_bind, Option.bind_some]
  · rw [e6]
    refine List.perm_middle.trans ?_
    rw [List.take_append_drop]

/-- C48.  The same for a `v` knot. -/
theorem surface_insert_knot_v {s : Surface K} {p q nu nv : Nat} (h : s.Valid p q nu nv) (hw : ∀ w ∈ s.weights, 0 < w)
    {t : K} (h0 : 0 ≤ t) (h1 : t ≤ 1) :
    ∃ s', s.insertKnotV t = some s' ∧ s'.Valid p q nu (nv + 1) ∧ (∀ w ∈ s'.weights, 0 < w) ∧
      s'.knotsU = s.knotsU ∧ s'.knotsV.Perm (t :: s.knotsV) ∧ ∀ u v, s'.at u v = s.at u v := by
  obtain ⟨l, hl⟩ := exists_inSpan h.knotsV h0 h1
  obtain ⟨vv, vv', s', e1, e2, e3, e4, e5, e6, e7, _, _, e8⟩ := mapV h hw (K' := s.knotsV.take (l + 1) ++ t :: s.knotsV.drop (l + 1))
    (fun c => c.insertKnot t) id (by
      intro c hc hcw hcK
      obtain ⟨c', a1, a2, a3, a4, a5⟩ := insert_knot_refines hc hcw (u := t) (l := l) (by rw [hcK]; exact hl)
      exact ⟨c', a1, a2, a3, by rw [← hcK]; exact a4, a5⟩)
  rw [List.map_id] at e3
  refine ⟨s', ?_, e4, e5, e6, ?_, e8⟩
  · simp only [Surface.insertKnotV, e1, e2, e3, Option.bind_eq_bind, Option.bind_some]
  · rw [e7]
    refine List.perm_middle.trans ?_
    rw [List.take_append_drop]

/-- Knot vectors whose degree can be raised by `degree_elevation`: degree 1 with all
interior knots different, or degree 2 with exactly triple ends and at most double
interior knots. -/
def Elevable (knots : List K) (p n : Nat) : Prop :=
  (p = 1 ∧ ∀ i, 1 ≤ i → i < n → kn knots i < kn knots (i + 1)) ∨ (p = 2 ∧ Simple2 knots n)

/-- C49 for curves in one statement. -/
theorem elevate_refines {knots : List K} {p n : Nat} (hcl : ClampedKnots knots p n) (he : Elevable knots p n) :
    ∃ K' n', ∀ c : Curve K, c.Valid p n → (∀ w ∈ c.weights, 0 < w) → c.knots = knots →
      ∃ c', c.degreeElevation = some (c', true) ∧ c'.Valid (p + 1) n' ∧ (∀ w ∈ c'.weights, 0 < w) ∧ c'.knots = K' ∧
        c.Refines c' p (p + 1) := by
  rcases he with ⟨rfl, hk⟩ | ⟨rfl, hs⟩
  · obtain ⟨kn', mult, e, _⟩ := elevateKnots_clamped hcl
    refine ⟨kn', 2 * n - 1, fun c hc hw hcK => ?_⟩
    subst hcK
    obtain ⟨c', e1, e2, e3, e4, e5⟩ := degree_elevation_1_refines hc hw hk
    rw [e] at e4
    exact ⟨c', e1, e2, e3, Option.some.inj e4, e5⟩
  · obtain ⟨kn', mult, e, hcl', _⟩ := elevateKnots_clamped hcl
    refine ⟨kn', n + dch (kn knots) (n + 2), fun c hc hw hcK => ?_⟩
    subst hcK
    obtain ⟨c', n', e1, e2, e3, e4, e5⟩ := degree_elevation_2_refines hc hw hs
    rw [e] at e4
    have e6 := Option.some.inj e4
    simp only at e6
    have : n' = n + dch (kn c.knots) (n + 2) := by
      have a := e2.knots.length
      have b := hcl'.length
      rw [e6] at a
      omega
    exact ⟨c', e1, this ▸ e2, e3, e6, e5⟩

/-- C49.  Raising the `u` degree of a surface. -/
theorem surface_degree_elevation_u {s : Surface K} {p q nu nv : Nat} (h : s.Valid p q nu nv)
    (hw : ∀ w ∈ s.weights, 0 < w) (he : Elevable s.knotsU p nu) :
    ∃ s' n', s.degreeElevationU = some (s', true) ∧ s'.Valid (p + 1) q n' nv ∧ (∀ w ∈ s'.weights, 0 < w) ∧
      ∀ u v, s'.at u v = s.at u v := by
  obtain ⟨K', n', hop⟩ := elevate_refines h.knotsU he
  obtain ⟨vu, vu', s', e1, e2, e3, e4, e5, e6, e7, _, _, e8⟩ := mapU h hw (K' := K') (n' := n')
    (fun c => c.degreeElevation) Prod.fst (by
      intro c hc hcw hcK
      obtain ⟨c', a1, a2, a3, a4, a5⟩ := hop c hc hcw hcK
      exact ⟨(c', true), a1, a2, a3, a4, a5⟩)
  have hp : ¬ (3 ≤ s.degreeU) := by
    rw [h.degreeU]; rcases he with ⟨rfl, _⟩ | ⟨rfl, _⟩ <;> simp
  refine ⟨s', n', ?_, e4, e5, e8⟩
  simp only [Surface.degreeElevationU, if_neg hp, e1, e2, e3, Option.bind_eq_bind, Option.bind_some, Option.pure_def]

/-- C49.  Raising the `v` degree of a surface. -/
theorem surface_degree_elevation_v {s : Surface K} {p q nu nv : Nat} (h : s.Valid p q nu nv)
    (hw : ∀ w ∈ s.weights, 0 < w) (he : Elevable s.knotsV q nv) :
    ∃ s' n', s.degreeElevationV = some (s', true) ∧ s'.Valid p (q + 1) nu n' ∧ (∀ w ∈ s'.weights, 0 < w) ∧
      ∀ u v, s'.at u v = s.at u v := by
  obtain ⟨K', n', hop⟩ := elevate_refines h.knotsV he
  obtain ⟨vu, vu', s', e1, e2, e3, e4, e5, e6, e7, _, _, e8⟩ := mapV h hw (K' := K') (n' := n')
    (fun c => c.degreeElevation) Prod.fst (by
      intro c hc hcw hcK
      obtain ⟨c', a1, a2, a3, a4, a5⟩ := hop c hc hcw hcK
      exact ⟨(c', true), a1, a2, a3, a4, a5⟩)
  have hp : ¬ (3 ≤ s.degreeV) := by
    rw [h.degreeV]; rcases he with ⟨rfl, _⟩ | ⟨rfl, _⟩ <;> simp
  refine ⟨s', n', ?_, e4, e5, e8⟩
  simp only [Surface.degreeElevationV, if_neg hp, e1, e2, e3, Option.bind_eq_bind, Option.bind_some, Option.pure_def]

/-- C49: from degree 3 on nothing happens. -/
theorem surface_degree_elevation_3 {s : Surface K} :
    (3 ≤ s.degreeU → s.degreeElevationU = some (s, false)) ∧ (3 ≤ s.degreeV → s.degreeElevationV = some (s, false)) := by
  constructor <;> intro h
  · simp [Surface.degreeElevationU, h]
  · simp [Surface.degreeElevationV, h]

/-! ### C46, C47 -/

/-- C46.  Transforming the control points by an affine map transforms every point of
the surface by it. -/
theorem surface_evaluate_affine {s : Surface K} {p q nu nv : Nat} (h : s.Valid p q nu nv) (r1 r2 r3 t : P3 K) (u v : K) :
    (s.mapPoints (affine r1 r2 r3 t)).at u v = (s.at u v).map (affine r1 r2 r3 t) := by
  obtain ⟨k, hk⟩ := exists_inSpan h.knotsU (clamp_nonneg u) (clamp_le_one u)
  obtain ⟨l, hl⟩ := exists_inSpan h.knotsV (clamp_nonneg v) (clamp_le_one v)
  have h' : (s.mapPoints (affine r1 r2 r3 t)).Valid p q nu nv :=
    ⟨h.degreeU, h.degreeV, h.nbU, h.nbV, by simpa [Surface.mapPoints] using h.points, h.weights, h.knotsU, h.knotsV,
      h.tempPointsU, h.tempPointsV, h.tempWeightsU, h.tempWeightsV⟩
  rw [surface_evaluate_spec h u v hk hl, surface_evaluate_spec h' u v (by exact hk) (by exact hl)]
  have ew : (s.mapPoints (affine r1 r2 r3 t)).denom p q nu nv k l u v = s.denom p q nu nv k l u v := rfl
  have ep : (s.mapPoints (affine r1 r2 r3 t)).numer p q nu nv k l u v =
      affine r1 r2 r3 ⟨0, 0, 0⟩ (s.numer p q nu nv k l u v) + s.denom p q nu nv k l u v • t := by
    rw [Surface.numer, Surface.numer, Surface.denom, Finset.sum_smul, ← linAff_apply, map_sum, ← Finset.sum_add_distrib]
    refine Finset.sum_congr rfl fun j hj => ?_
    rw [Finset.sum_smul, map_sum, ← Finset.sum_add_distrib]
    refine Finset.sum_congr rfl fun i hi => ?_
    rw [Finset.mem_range] at hi hj
    have hg : (s.mapPoints (affine r1 r2 r3 t)).pt nu i j = affine r1 r2 r3 t (s.pt nu i j) := by
      have hi' : i + nu * j < s.points.length := by rw [h.points]; exact idx_lt hi hj
      simp [Surface.mapPoints, Surface.pt, List.getD, hi']
    rw [map_smul, linAff_apply, hg]
    change (basis (kn s.knotsU) k u p i * basis (kn s.knotsV) l v q j * s.wt nu i j) • _ = _
    ext <;> simp [affine, P3.dot] <;> ring
  rw [ew, ep]
  by_cases hw : s.denom p q nu nv k l u v = 0
  · rw [if_pos hw, if_pos hw]; rfl
  · rw [if_neg hw, if_neg hw, Option.map_some]
    congr 1
    generalize s.denom p q nu nv k l u v = W at hw ⊢
    generalize s.numer p q nu nv k l u v = S
    ext <;> simp [affine, P3.dot] <;> field_simp

/-- C47.  With positive weights every point of the surface is a convex combination of
the control points active on the two spans. -/
theorem surface_evaluate_hull {s : Surface K} {p q nu nv : Nat} (h : s.Valid p q nu nv) (hw : ∀ w ∈ s.weights, 0 < w)
    {u v : K} (hu0 : 0 ≤ u) (hu1 : u ≤ 1) (hv0 : 0 ≤ v) (hv1 : v ≤ 1) :
    ∃ (k l : Nat) (lam : Nat → Nat → K), InSpan s.knotsU u k ∧ InSpan s.knotsV v l ∧
      (∀ i < nu, ∀ j < nv, 0 ≤ lam i j) ∧
      (∀ i j, ¬ (i ≤ k ∧ k ≤ i + p ∧ j ≤ l ∧ l ≤ j + q) → lam i j = 0) ∧
      ∑ j ∈ Finset.range nv, ∑ i ∈ Finset.range nu, lam i j = 1 ∧
      s.at u v = some (∑ j ∈ Finset.range nv, ∑ i ∈ Finset.range nu, lam i j • s.pt nu i j) := by
  obtain ⟨k, hk⟩ := exists_inSpan h.knotsU hu0 hu1
  obtain ⟨l, hl⟩ := exists_inSpan h.knotsV hv0 hv1
  have hW := surface_denom_pos h hw hk hl
  refine ⟨k, l, fun i j => basis (kn s.knotsU) k u p i * basis (kn s.knotsV) l v q j * s.wt nu i j /
    s.denom p q nu nv k l u v, hk, hl, ?_, ?_, ?_, ?_⟩
  · intro i hi j hj
    exact div_nonneg (mul_nonneg (mul_nonneg (basis_nonneg h.knotsU.mono hk.2.1 hk.2.2.1 p i)
      (basis_nonneg h.knotsV.mono hl.2.1 hl.2.2.1 q j)) (wt_pos h hw hi hj).le) hW.le
  · intro i j hij
    by_cases h1 : i ≤ k ∧ k ≤ i + p
    · have h2 : ¬ (j ≤ l ∧ l ≤ j + q) := fun h2 => hij ⟨h1.1, h1.2, h2.1, h2.2⟩
      simp [basis_support _ _ _ _ _ h2]
    · simp [basis_support _ _ _ _ _ h1]
  · simp only [← Finset.sum_div]; exact div_self hW.ne'
  · rw [surface_evaluate_spec h u v (k := k) (l := l) (by rw [clamp_of_mem hu0 hu1]; exact hk)
      (by rw [clamp_of_mem hv0 hv1]; exact hl), if_neg hW.ne', Surface.numer]
    simp only [Finset.smul_sum]
    congr 1
    refine Finset.sum_congr rfl fun j _ => Finset.sum_congr rfl fun i _ => ?_
    rw [smul_smul]
    congr 1
    ring

/-- C47.  One non-zero factor on all weights changes nothing. -/
theorem surface_weight_scale {s : Surface K} {p q nu nv : Nat} (h : s.Valid p q nu nv) {a : K} (ha : a ≠ 0) (u v : K) :
    (s.setWeights (s.weights.map (a * ·))).at u v = s.at u v := by
  obtain ⟨k, hk⟩ := exists_inSpan h.knotsU (clamp_nonneg u) (clamp_le_one u)
  obtain ⟨l, hl⟩ := exists_inSpan h.knotsV (clamp_nonneg v) (clamp_le_one v)
  have h' : (s.setWeights (s.weights.map (a * ·))).Valid p q nu nv :=
    ⟨h.degreeU, h.degreeV, h.nbU, h.nbV, h.points, by simpa [Surface.setWeights] using h.weights, h.knotsU, h.knotsV,
      h.tempPointsU, h.tempPointsV, h.tempWeightsU, h.tempWeightsV⟩
  have hg : ∀ i j, (s.setWeights (s.weights.map (a * ·))).wt nu i j = a * s.wt nu i j := by
    intro i j
    simp only [Surface.wt, Surface.setWeights, List.getD, List.getElem?_map]
    cases s.weights[i + nu * j]? <;> simp
  have ew : (s.setWeights (s.weights.map (a * ·))).denom p q nu nv k l u v = a * s.denom p q nu nv k l u v := by
    simp only [Surface.denom, hg, Finset.mul_sum]
    refine Finset.sum_congr rfl fun j _ => Finset.sum_congr rfl fun i _ => ?_
    change basis (kn s.knotsU) k u p i * basis (kn s.knotsV) l v q j * _ = _
    ring
  have ep : (s.setWeights (s.weights.map (a * ·))).numer p q nu nv k l u v = a • s.numer p q nu nv k l u v := by
    simp only [Surface.numer, hg, Finset.smul_sum, smul_smul]
    refine Finset.sum_congr rfl fun j _ => Finset.sum_congr rfl fun i _ => ?_
    change (basis (kn s.knotsU) k u p i * basis (kn s.knotsV) l v q j * _) • s.pt nu i j = _
    congr 1
    ring
  rw [surface_evaluate_spec h u v hk hl, surface_evaluate_spec h' u v (by exact hk) (by exact hl), ew, ep]
  by_cases hw : s.denom p q nu nv k l u v = 0
  · rw [if_pos hw, if_pos (by rw [hw, mul_zero])]
  · rw [if_neg hw, if_neg (mul_ne_zero ha hw), smul_smul]
    congr 2
    field_simp

/-! ### An example -/

/-- a surface of degrees 2 and 1, used in the examples -/
def patch : Surface ℚ := ⟨2, 1, 3, 2, false, false, [0, 0, 0, 1, 1, 1], [0, 0, 1, 1], [1, 1, 2, 1, 3, 1],
  [⟨0, 0, 0⟩, ⟨1, 0, 0⟩, ⟨2, 0, 1⟩, ⟨0, 1, 0⟩, ⟨1, 1, 2⟩, ⟨2, 1, 0⟩],
  [⟨9, 9, 9⟩, ⟨0, 0, 0⟩, ⟨0, 0, 0⟩], [⟨0, 0, 0⟩, ⟨0, 0, 0⟩], [0, 4, 0], [0, 0]⟩

theorem patch_valid : patch.Valid 2 1 3 2 :=
  ⟨rfl, rfl, rfl, rfl, rfl, rfl,
    ⟨rfl, by decide +kernel, by decide +kernel, by
      intro i h1 h2
      obtain rfl | rfl | rfl : i = 3 ∨ i = 4 ∨ i = 5 := by omega
      all_goals decide +kernel⟩,
    ⟨rfl, by decide +kernel, by decide +kernel, by
      intro i h1 h2
      obtain rfl | rfl : i = 2 ∨ i = 3 := by omega
      all_goals decide +kernel⟩, by decide, by decide, by decide, by decide⟩

example : ∀ w ∈ patch.weights, 0 < w := by decide +kernel
example : patch.at (1 / 2) (1 / 3) = some ⟨10 / 9, 4 / 9, 8 / 9⟩ := by decide +kernel
example : (patch.insertKnotU (1 / 2)).map (fun s => (s.nbU, s.points.length, s.at (1 / 2) (1 / 3))) =
    some (4, 8, patch.at (1 / 2) (1 / 3)) := by decide +kernel
example : (patch.degreeElevationV).map (fun s => (s.1.degreeV, s.1.points.length, s.1.at (1 / 2) (1 / 3), s.2)) =
    some (2, 9, patch.at (1 / 2) (1 / 3), true) := by decide +kernel
example : Elevable patch.knotsU 2 3 :=
  Or.inr ⟨rfl, by decide +kernel, by decide +kernel, fun i h1 h2 => by omega⟩
example : Elevable patch.knotsV 1 2 := Or.inl ⟨rfl, fun i h1 h2 => by
  obtain rfl : i = 1 := by omega
  decide +kernel⟩

end Nurbs
end CAD
