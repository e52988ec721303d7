import Verif.Lemmas.NurbsSurface

/-! Rows and columns of the control net as curves, and back. -/

set_option linter.unusedSimpArgs false

namespace CAD
namespace Nurbs
open BSpline
variable {K : Type} [Field K] [LinearOrder K]

theorem getElem?_flatMap_uniform {α β : Type} (f : α → List β) {n : Nat} (l : List α) (h : ∀ x ∈ l, (f x).length = n)
    {i : Nat} (hi : i < n) (j : Nat) : (l.flatMap f)[i + n * j]? = l[j]?.bind fun x => (f x)[i]? := by
  induction l generalizing j with
  | nil => simp
  | cons x l ih =>
    have hx := h x (by simp)
    rw [List.flatMap_cons]
    cases j with
    | zero => rw [Nat.mul_zero, Nat.add_zero, List.getElem?_append_left (by omega)]; rfl
    | succ j =>
      rw [List.getElem?_append_right (by rw [hx, Nat.mul_succ]; omega), hx,
        show i + n * (j + 1) - n = i + n * j by rw [Nat.mul_succ]; omega,
        ih (fun y hy => h y (by simp [hy])) j, List.getElem?_cons_succ]

theorem length_flatMap_uniform {α β : Type} (f : α → List β) {n : Nat} (l : List α) (h : ∀ x ∈ l, (f x).length = n) :
    (l.flatMap f).length = n * l.length := by
  induction l with
  | nil => simp
  | cons x l ih =>
    rw [List.flatMap_cons, List.length_append, ih fun y hy => h y (by simp [hy]), h x (by simp), List.length_cons,
      Nat.mul_succ]
    omega

theorem idx_inj {n i i' j j' : Nat} (hi : i < n) (hi' : i' < n) (h : i + n * j = i' + n * j') : i = i' ∧ j = j' := by
  have hn : 0 < n := by omega
  have e1 : (i + n * j) % n = i := by rw [Nat.add_mul_mod_self_left, Nat.mod_eq_of_lt hi]
  have e2 : (i' + n * j') % n = i' := by rw [Nat.add_mul_mod_self_left, Nat.mod_eq_of_lt hi']
  have e3 : i = i' := by rw [← e1, ← e2, h]
  refine ⟨e3, ?_⟩
  subst e3
  exact Nat.eq_of_mul_eq_mul_left hn (by omega)

theorem idx_surj {n i m : Nat} (h : i < n * m) : ∃ a b, a < n ∧ b < m ∧ i = a + n * b := by
  have hn : 0 < n := by
    rcases Nat.eq_zero_or_pos n with rfl | hn
    · simp at h
    · exact hn
  refine ⟨i % n, i / n, Nat.mod_lt _ hn, ?_, (Nat.mod_add_div i n).symm⟩
  exact Nat.div_lt_of_lt_mul h

theorem mapM_forall₂ {α β : Type} {f : α → Res β} {P : α → β → Prop} (l : List α)
    (h : ∀ x ∈ l, ∃ y, f x = some y ∧ P x y) : ∃ l', l.mapM f = some l' ∧ List.Forall₂ P l l' := by
  induction l with
  | nil => exact ⟨[], rfl, List.Forall₂.nil⟩
  | cons x l ih =>
    obtain ⟨y, e, hy⟩ := h x (by simp)
    obtain ⟨l', e', hl⟩ := ih fun z hz => h z (by simp [hz])
    refine ⟨y :: l', ?_, List.Forall₂.cons hy hl⟩
    rw [List.mapM_cons, e, e']; rfl

theorem loopN_collect {α : Type} (f : Nat → Res α) (g : Nat → α) (n : Nat) (h : ∀ i < n, f i = some (g i)) :
    loopN n (fun i l => do
      let c ← f i
      return l ++ [c]) [] = some ((List.range n).map g) := by
  obtain ⟨s, e, rfl⟩ := loopN_inv (n := n) (s := ([] : List α)) (f := fun i l => do
      let c ← f i
      return l ++ [c]) (I := fun i l => l = (List.range i).map g) rfl (by
    rintro i hi l rfl
    refine ⟨_, ?_, rfl⟩
    rw [h i hi, List.range_succ]
    simp)
  exact e

theorem gather_eq {s : Surface K} {m n : Nat} (hp : s.points.length = m) (hw : s.weights.length = m) (f : Nat → Int)
    (g : Nat → Nat) (hf : ∀ i < n, f i = (g i : Int)) (hg : ∀ i < n, g i < m) :
    s.gather n f = some ((List.range n).map fun i => s.points.getD (g i) ⟨0, 0, 0⟩,
      (List.range n).map fun i => s.weights.getD (g i) 0) := by
  unfold Surface.gather
  obtain ⟨a, e, rfl⟩ := loopN_inv (n := n) (s := (([], []) : List (P3 K) × List K))
    (f := fun i (a : List (P3 K) × List K) => do
      let p ← getI s.points (f i)
      let w ← getI s.weights (f i)
      return (a.1 ++ [p], a.2 ++ [w]))
    (I := fun r a => a = ((List.range r).map fun i => s.points.getD (g i) ⟨0, 0, 0⟩,
      (List.range r).map fun i => s.weights.getD (g i) 0)) rfl (by
    rintro i hi a rfl
    refine ⟨_, ?_, rfl⟩
    have := hg i hi
    rw [hf i hi, getI_natCast, getI_natCast, getD_of_lt s.points ⟨0, 0, 0⟩ (by omega),
      getD_of_lt s.weights 0 (by omega), List.range_succ]
    simp)
  exact e

variable [IsStrictOrderedRing K]

/-- row `j` of the net as a curve -/
def Surface.row (s : Surface K) (p nu j : Nat) : Curve K :=
  ⟨p, s.knotsU, (List.range nu).map fun i => s.wt nu i j, (List.range nu).map fun i => s.pt nu i j, nu,
    List.replicate (p + 1) ⟨0, 0, 0⟩, List.replicate (p + 1) 0⟩

/-- column `i` of the net as a curve -/
def Surface.col (s : Surface K) (q nu nv i : Nat) : Curve K :=
  ⟨q, s.knotsV, (List.range nv).map fun j => s.wt nu i j, (List.range nv).map fun j => s.pt nu i j, nv,
    List.replicate (q + 1) ⟨0, 0, 0⟩, List.replicate (q + 1) 0⟩

theorem new_setDegree (p : Nat) : (Curve.new : Curve K).setDegree p =
    some ⟨p, [], [], [], 0, List.replicate (p + 1) ⟨0, 0, 0⟩, List.replicate (p + 1) 0⟩ := by
  have h1 : ¬ ((p : Int) + 1 < 0) := by omega
  have h2 : ((p : Int) + 1).toNat = p + 1 := by omega
  simp [Curve.setDegree, Curve.new, resize, h1, h2]

theorem uCurve_eq {s : Surface K} {p q nu nv j : Nat} (h : s.Valid p q nu nv) (hj : j < nv) :
    s.uCurve j = some (s.row p nu j) := by
  unfold Surface.uCurve
  rw [h.degreeU, new_setDegree, h.nbU, Int.toNat_natCast,
    gather_eq h.points h.weights _ (fun i => i + nu * j) (fun i _ => by push_cast; ring) (fun i hi => idx_lt hi hj)]
  simp only [Option.bind_eq_bind, Option.bind_some, Option.pure_def, Curve.setKnots, scaleKnots_self h.knotsU]
  simp [Curve.setPoints, Curve.setWeights, Surface.row, Surface.pt, Surface.wt]

theorem vCurve_eq {s : Surface K} {p q nu nv i : Nat} (h : s.Valid p q nu nv) (hi : i < nu) :
    s.vCurve i = some (s.col q nu nv i) := by
  unfold Surface.vCurve
  rw [h.degreeV, new_setDegree, h.nbU, h.nbV, Int.toNat_natCast,
    gather_eq h.points h.weights _ (fun j => i + nu * j) (fun j _ => by push_cast; ring) (fun j hj => idx_lt hi hj)]
  simp only [Option.bind_eq_bind, Option.bind_some, Option.pure_def, Curve.setKnots, scaleKnots_self h.knotsV]
  simp [Curve.setPoints, Curve.setWeights, Surface.col, Surface.pt, Surface.wt]

theorem createUCurves_eq {s : Surface K} {p q nu nv : Nat} (h : s.Valid p q nu nv) :
    s.createUCurves = some ((List.range nv).map (s.row p nu)) := by
  unfold Surface.createUCurves
  rw [h.nbV, Int.toNat_natCast]
  exact loopN_collect _ _ _ fun j hj => uCurve_eq h hj

theorem createVCurves_eq {s : Surface K} {p q nu nv : Nat} (h : s.Valid p q nu nv) :
    s.createVCurves = some ((List.range nu).map (s.col q nu nv)) := by
  unfold Surface.createVCurves
  rw [h.nbU, Int.toNat_natCast]
  exact loopN_collect _ _ _ fun i hi => vCurve_eq h hi

omit [IsStrictOrderedRing K] in
theorem row_valid {s : Surface K} {p q nu nv : Nat} (h : s.Valid p q nu nv) (j : Nat) : (s.row p nu j).Valid p nu :=
  ⟨rfl, by simp [Surface.row], rfl, by simp [Surface.row], h.knotsU, by simp [Surface.row], by simp [Surface.row]⟩

omit [IsStrictOrderedRing K] in
theorem col_valid {s : Surface K} {p q nu nv : Nat} (h : s.Valid p q nu nv) (i : Nat) :
    (s.col q nu nv i).Valid q nv :=
  ⟨rfl, by simp [Surface.col], rfl, by simp [Surface.col], h.knotsV, by simp [Surface.col], by simp [Surface.col]⟩

omit [IsStrictOrderedRing K] in
theorem row_pairs {s : Surface K} {p nu i : Nat} (j : Nat) (hi : i < nu) : (s.row p nu j).pairs i = s.pair nu i j := by
  simp [Curve.pairs, Curve.hp, Curve.hw, Surface.row, Surface.pair, Surface.hp, List.getD, hi]

omit [IsStrictOrderedRing K] in
theorem col_pairs {s : Surface K} {q nu nv j : Nat} (i : Nat) (hj : j < nv) :
    (s.col q nu nv i).pairs j = s.pair nu i j := by
  simp [Curve.pairs, Curve.hp, Curve.hw, Surface.col, Surface.pair, Surface.hp, List.getD, hj]

omit [IsStrictOrderedRing K] in
theorem wt_pos {s : Surface K} {p q nu nv : Nat} (h : s.Valid p q nu nv) (hw : ∀ w ∈ s.weights, 0 < w) {i j : Nat}
    (hi : i < nu) (hj : j < nv) : 0 < s.wt nu i j := by
  have hi' : i + nu * j < s.weights.length := by rw [h.weights]; exact idx_lt hi hj
  simp only [Surface.wt, List.getD, List.getElem?_eq_getElem hi', Option.getD_some]
  exact hw _ (List.getElem_mem hi')

/-- Building a surface from rows. -/
theorem fromUCurves_spec {s : Surface K} {p q nu nv p' n' : Nat} (h : s.Valid p q nu nv) (vu : List (Curve K))
    (hl : vu.length = nv) {K' : List K} (hv : ∀ c ∈ vu, c.Valid p' n' ∧ c.knots = K') :
    ∃ s', s.fromUCurves vu = some s' ∧ s'.Valid p' q n' nv ∧ s'.knotsU = K' ∧ s'.knotsV = s.knotsV ∧
      s'.closedU = s.closedU ∧ s'.closedV = s.closedV ∧ s'.points = vu.flatMap Curve.points ∧
      s'.weights = vu.flatMap Curve.weights := by
  have hnv := h.knotsV.p_lt_n
  obtain ⟨c0, l, rfl⟩ : ∃ c0 l, vu = c0 :: l := by
    cases vu with
    | nil => simp at hl; omega
    | cons a l => exact ⟨a, l, rfl⟩
  obtain ⟨v0, k0⟩ := hv c0 (by simp)
  have hK : scaleKnots K' = some K' := by rw [← k0]; exact scaleKnots_self v0.knots
  obtain ⟨pu, a1, a2⟩ := resize_some s.tempPointsU (p' + 1) (⟨0, 0, 0⟩ : P3 K)
  obtain ⟨pv, a3, a4⟩ := resize_some s.tempPointsV (q + 1) (⟨0, 0, 0⟩ : P3 K)
  obtain ⟨wu, a5, a6⟩ := resize_some s.tempWeightsU (p' + 1) (0 : K)
  obtain ⟨wv, a7, a8⟩ := resize_some s.tempWeightsV (q + 1) (0 : K)
  rw [Nat.cast_succ] at a1 a3 a5 a7
  refine ⟨⟨p', q, n', nv, s.closedU, s.closedV, K', s.knotsV, (c0 :: l).flatMap Curve.weights,
    (c0 :: l).flatMap Curve.points, pu, pv, wu, wv⟩, ?_, ⟨rfl, rfl, rfl, rfl, ?_, ?_, ?_, h.knotsV, ?_, ?_, ?_, ?_⟩,
    rfl, rfl, rfl, rfl, rfl, rfl⟩
  · simp only [Surface.fromUCurves, Surface.setKnotsU, hK, Option.bind_eq_bind, Option.bind_some,
      Option.pure_def, Surface.setPoints, Surface.setWeights, Surface.setDegree, v0.degree, h.degreeV, a1, a3, a5, a7,
      Curve.nb, v0.points, h.nbV, k0]
  · simp only; rw [length_flatMap_uniform _ _ fun c hc => (hv c hc).1.points, hl]
  · simp only; rw [length_flatMap_uniform _ _ fun c hc => (hv c hc).1.weights, hl]
  · rw [← k0]; exact v0.knots
  all_goals simp only; omega

omit [IsStrictOrderedRing K] in
theorem pair_of_rows {s' : Surface K} {vu : List (Curve K)} {p' n' : Nat} (hv : ∀ c ∈ vu, c.Valid p' n')
    (hp : s'.points = vu.flatMap Curve.points) (hw : s'.weights = vu.flatMap Curve.weights) {i j : Nat} (hi : i < n')
    {c : Curve K} (hj : vu[j]? = some c) :
    s'.pt n' i j = c.points.getD i ⟨0, 0, 0⟩ ∧ s'.wt n' i j = c.weights.getD i 0 := by
  have e1 := getElem?_flatMap_uniform Curve.points vu (fun c hc => (hv c hc).points) hi j
  have e2 := getElem?_flatMap_uniform Curve.weights vu (fun c hc => (hv c hc).weights) hi j
  rw [hj] at e1 e2
  simp only [Surface.pt, Surface.wt, List.getD, hp, hw, e1, e2, Option.bind_some, and_self]

/-- The loops of `from_v_curves`. -/
theorem scatter_eq {vv : List (Curve K)} {nu nv q : Nat} (hl : vv.length = nu) (hv : ∀ c ∈ vv, c.Valid q nv)
    (a : List (P3 K) × List K) (l1 : a.1.length = nu * nv) (l2 : a.2.length = nu * nv) :
    ∃ a', Surface.scatter vv nu nv a = some a' ∧ a'.1.length = nu * nv ∧ a'.2.length = nu * nv ∧
      ∀ i j c, i < nu → j < nv → vv[i]? = some c → a'.1[i + nu * j]? = some (c.points.getD j ⟨0, 0, 0⟩) ∧
        a'.2[i + nu * j]? = some (c.weights.getD j 0) := by
  unfold Surface.scatter
  rw [Int.toNat_natCast, Int.toNat_natCast]
  obtain ⟨s', e, b1, b2, b3⟩ := loopN_inv (n := nu) (s := a)
    (f := fun u a => do
      let c ← getI vv u
      loopN nv (fun v (a : List (P3 K) × List K) => do
        let p ← getI c.points v
        let ps ← setI a.1 (u + v * nu) p
        let w ← getI c.weights v
        let ws ← setI a.2 (u + v * nu) w
        return (ps, ws)) a)
    (I := fun r a => a.1.length = nu * nv ∧ a.2.length = nu * nv ∧
      ∀ i j c, i < nu → j < nv → vv[i]? = some c → i < r → a.1[i + nu * j]? = some (c.points.getD j ⟨0, 0, 0⟩) ∧
        a.2[i + nu * j]? = some (c.weights.getD j 0))
    ⟨l1, l2, by intro i j c _ _ _ h; omega⟩
    (by
      rintro u hu a ⟨m1, m2, m3⟩
      obtain ⟨c, hc⟩ : ∃ c, vv[u]? = some c := ⟨_, List.getElem?_eq_getElem (by omega)⟩
      have hcv := hv c (List.mem_of_getElem? hc)
      rw [getI_natCast, hc]
      simp only [Option.bind_eq_bind, Option.bind_some]
      obtain ⟨a', e, n1, n2, n3⟩ := loopN_inv (n := nv) (s := a)
        (f := fun v (a : List (P3 K) × List K) => do
          let p ← getI c.points v
          let ps ← setI a.1 (u + v * nu) p
          let w ← getI c.weights v
          let ws ← setI a.2 (u + v * nu) w
          return (ps, ws))
        (I := fun r a => a.1.length = nu * nv ∧ a.2.length = nu * nv ∧
          ∀ i j c, i < nu → j < nv → vv[i]? = some c → (i < u ∨ (i = u ∧ j < r)) →
            a.1[i + nu * j]? = some (c.points.getD j ⟨0, 0, 0⟩) ∧ a.2[i + nu * j]? = some (c.weights.getD j 0))
        ⟨m1, m2, by
          intro i j c h1 h2 h3 h4
          exact m3 i j c h1 h2 h3 (by omega)⟩
        (by
          rintro v hv' a ⟨o1, o2, o3⟩
          have hlt := idx_lt hu hv'
          have e1 : (u : Int) + (v : Int) * (nu : Int) = ((u + nu * v : Nat) : Int) := by push_cast; ring
          have g1 := getD_of_lt c.points ⟨0, 0, 0⟩ (i := v) (by rw [hcv.points]; omega)
          have g2 := getD_of_lt c.weights 0 (i := v) (by rw [hcv.weights]; omega)
          simp only [e1, getI_natCast, g1, g2, Option.bind_eq_bind, Option.bind_some, Option.pure_def,
            setI_of_inRange (l := a.1) (i := ((u + nu * v : Nat) : Int)) _ ⟨by omega, by omega⟩,
            setI_of_inRange (l := a.2) (i := ((u + nu * v : Nat) : Int)) _ ⟨by omega, by omega⟩, Int.toNat_natCast]
          refine ⟨_, rfl, by simpa using o1, by simpa using o2, ?_⟩
          intro i j c' hi hj hc' hor
          simp only [List.getElem?_set]
          by_cases heq : u + nu * v = i + nu * j
          · obtain ⟨rfl, rfl⟩ := idx_inj hu hi heq
            rw [hc] at hc'
            obtain rfl := Option.some.inj hc'
            rw [if_pos rfl, if_pos rfl, if_pos (by omega), if_pos (by omega)]
            exact ⟨rfl, rfl⟩
          · rw [if_neg heq, if_neg heq]
            refine o3 i j c' hi hj hc' ?_
            rcases hor with hor | ⟨rfl, hor⟩
            · exact Or.inl hor
            · refine Or.inr ⟨rfl, ?_⟩
              rcases Nat.lt_succ_iff_lt_or_eq.1 hor with h | rfl
              · exact h
              · exact absurd rfl heq)
      refine ⟨a', e, n1, n2, fun i j c h1 h2 h3 h4 => n3 i j c h1 h2 h3 (by omega)⟩)
  exact ⟨s', e, b1, b2, fun i j c h1 h2 h3 => b3 i j c h1 h2 h3 h1⟩

/-- Building a surface from columns. -/
theorem fromVCurves_spec {s : Surface K} {p q nu nv q' n' : Nat} (h : s.Valid p q nu nv) (vv : List (Curve K))
    (hl : vv.length = nu) {K' : List K} (hv : ∀ c ∈ vv, c.Valid q' n' ∧ c.knots = K') :
    ∃ s', s.fromVCurves vv = some s' ∧ s'.Valid p q' nu n' ∧ s'.knotsU = s.knotsU ∧ s'.knotsV = K' ∧
      s'.closedU = s.closedU ∧ s'.closedV = s.closedV ∧
      ∀ i j c, i < nu → j < n' → vv[i]? = some c →
        s'.pt nu i j = c.points.getD j ⟨0, 0, 0⟩ ∧ s'.wt nu i j = c.weights.getD j 0 := by
  have hnu := h.knotsU.p_lt_n
  obtain ⟨c0, l, rfl⟩ : ∃ c0 l, vv = c0 :: l := by
    cases vv with
    | nil => simp at hl; omega
    | cons a l => exact ⟨a, l, rfl⟩
  obtain ⟨v0, k0⟩ := hv c0 (by simp)
  have hK : scaleKnots K' = some K' := by rw [← k0]; exact scaleKnots_self v0.knots
  obtain ⟨pu, a1, a2⟩ := resize_some s.tempPointsU (p + 1) (⟨0, 0, 0⟩ : P3 K)
  obtain ⟨pv, a3, a4⟩ := resize_some s.tempPointsV (q' + 1) (⟨0, 0, 0⟩ : P3 K)
  obtain ⟨wu, a5, a6⟩ := resize_some s.tempWeightsU (p + 1) (0 : K)
  obtain ⟨wv, a7, a8⟩ := resize_some s.tempWeightsV (q' + 1) (0 : K)
  obtain ⟨ps, a9, a10⟩ := resize_some ([] : List (P3 K)) (nu * n') (⟨0, 0, 0⟩ : P3 K)
  obtain ⟨ws, a11, a12⟩ := resize_some ([] : List K) (nu * n') (0 : K)
  rw [Nat.cast_mul] at a9 a11
  rw [Nat.cast_succ] at a1 a3 a5 a7
  obtain ⟨a', b1, b2, b3, b4⟩ := scatter_eq hl (fun c hc => (hv c hc).1) (ps, ws) a10 a12
  refine ⟨⟨p, q', nu, n', s.closedU, s.closedV, s.knotsU, K', a'.2,
    a'.1, pu, pv, wu, wv⟩, ?_, ⟨rfl, rfl, rfl, rfl, ?_, ?_, h.knotsU, ?_, ?_, ?_, ?_, ?_⟩,
    rfl, rfl, rfl, rfl, ?_⟩
  · simp only [Surface.fromVCurves, Surface.setKnotsV, hK, Option.bind_eq_bind, Option.bind_some,
      Option.pure_def, Surface.setPoints, Surface.setWeights, Surface.setDegree, v0.degree, h.degreeU, a1, a3, a5, a7,
      Curve.nb, v0.points, h.nbU, k0, a9, a11, b1]
  · exact b2
  · exact b3
  · rw [← k0]; exact v0.knots
  · simp only; omega
  · simp only; omega
  · simp only; omega
  · simp only; omega
  · intro i j c hi hj hc
    obtain ⟨d1, d2⟩ := b4 i j c hi hj hc
    simp only [Surface.pt, Surface.wt, List.getD, d1, d2, Option.getD_some, and_self]

end Nurbs
end CAD
