import Verif.Props.NurbsSurface

/-! Influence of one control point (C100) and the border of a surface (C101). -/

namespace CAD
namespace Nurbs
open BSpline
variable {K : Type} [Field K] [LinearOrder K] [IsStrictOrderedRing K]

/-! ### Basis functions are positive inside their support -/

theorem basis_pos_first {τ : Nat → K} (hτ : Monotone τ) {k : Nat} {t : K} (h1 : τ k ≤ t) (h2 : t < τ (k + 1)) (q i : Nat) (hi : i + q = k) :
    0 < basis τ k t q i := by
  induction q generalizing i with
  | zero => simp only [basis]; rw [if_pos (by omega)]; exact one_pos
  | succ q ih =>
    unfold basis
    have e : i + 1 + (q + 1) = k + 1 := by omega
    refine add_pos_of_nonneg_of_pos (mul_nonneg (div_nonneg ?_ ?_) (basis_nonneg hτ h1 h2.le q i)) (mul_pos (div_pos ?_ ?_) (ih (i + 1) (by omega)))
    · linarith [hτ (show i ≤ k by omega)]
    · linarith [hτ (show i ≤ i + (q + 1) by omega)]
    · rw [e]; linarith
    · rw [e]; linarith [hτ (show i + 1 ≤ k by omega)]

theorem basis_pos {τ : Nat → K} (hτ : Monotone τ) {k : Nat} {t : K} (h1 : τ k ≤ t) (h2 : t < τ (k + 1)) (q i : Nat) (hi : i ≤ k) (hk : k ≤ i + q)
    (ht : τ i < t) : 0 < basis τ k t q i := by
  induction q with
  | zero => simp only [basis]; rw [if_pos (by omega)]; exact one_pos
  | succ q ih =>
    by_cases h : k ≤ i + q
    · unfold basis
      refine add_pos_of_pos_of_nonneg (mul_pos (div_pos ?_ ?_) (ih h)) ?_
      · linarith
      · linarith [hτ (show k + 1 ≤ i + (q + 1) by omega)]
      · by_cases h' : i + 1 ≤ k ∧ k ≤ i + 1 + q
        · refine mul_nonneg (div_nonneg ?_ ?_) (basis_nonneg hτ h1 h2.le q _)
          · linarith [hτ (show k + 1 ≤ i + 1 + (q + 1) by omega)]
          · linarith [hτ (show i + 1 ≤ i + 1 + (q + 1) by omega)]
        · rw [basis_support τ k t q (i + 1) h']; simp
    · exact basis_pos_first hτ h1 h2 (q + 1) i (by omega)

/-! ### C100 -/

/-- C100.  Moving control point `i` by `d` moves the point of the curve at `u` by a part `a`
of `d`: none of it when `u` is outside the knot intervals number `i` to `i + p`, some of it
inside, never more than `d` itself. -/
theorem move_point {c : Curve K} {p n i : Nat} (h : c.Valid p n) (hw : ∀ w ∈ c.weights, 0 < w) (hi : i < n) (d : P3 K) {u : K} (h0 : 0 ≤ u) (h1 : u ≤ 1) :
    ∃ (a : K) (P : P3 K), 0 ≤ a ∧ a ≤ 1 ∧ c.at u = some P ∧
      ({ c with points := c.points.set i (c.points.getD i ⟨0, 0, 0⟩ + d) } : Curve K).at u = some (P + a • d) ∧
      (u < kn c.knots i ∨ kn c.knots (i + p + 1) < u → a = 0) ∧ (kn c.knots i < u → u < kn c.knots (i + p + 1) → 0 < a) := by
  obtain ⟨k, hk⟩ := exists_inSpan h.knots h0 h1
  have hk' : InSpan c.knots (clamp u) k := by rw [clamp_of_mem h0 h1]; exact hk
  have hv : ({ c with points := c.points.set i (c.points.getD i ⟨0, 0, 0⟩ + d) } : Curve K).Valid p n :=
    ⟨h.degree, by simp [h.points], h.nbPoints, h.weights, h.knots, h.tempPoints, h.tempWeights⟩
  have hd := denom_pos h hw hk
  have hb : ∀ j, 0 ≤ basis (kn c.knots) k u p j := fun j => basis_nonneg h.knots.mono hk.2.1 hk.2.2.1 p j
  have hwi := weights_pos h hw hi
  refine ⟨basis (kn c.knots) k u p i * c.weights.getD i 0 / c.denom p n k u, (1 / c.denom p n k u) • c.numer p n k u, ?_, ?_, ?_, ?_, ?_, ?_⟩
  · exact div_nonneg (mul_nonneg (hb i) hwi.le) hd.le
  · rw [div_le_one hd]
    exact Finset.single_le_sum (f := fun j => basis (kn c.knots) k u p j * c.weights.getD j 0)
      (fun j hj => mul_nonneg (hb j) (weights_pos h hw (Finset.mem_range.1 hj)).le) (Finset.mem_range.2 hi)
  · rw [evaluate_spec h u hk', if_neg hd.ne']
  · have e1 : ({ c with points := c.points.set i (c.points.getD i ⟨0, 0, 0⟩ + d) } : Curve K).denom p n k u = c.denom p n k u := rfl
    have e2 : ({ c with points := c.points.set i (c.points.getD i ⟨0, 0, 0⟩ + d) } : Curve K).numer p n k u =
        c.numer p n k u + (basis (kn c.knots) k u p i * c.weights.getD i 0) • d := by
      have hm := Finset.mem_range.2 hi
      unfold Curve.numer
      rw [← Finset.sum_erase_add _ _ hm, ← Finset.sum_erase_add (Finset.range n) _ hm, add_assoc]
      congr 1
      · refine Finset.sum_congr rfl fun j hj => ?_
        have hne : i ≠ j := fun e => (Finset.mem_erase.1 hj).1 e.symm
        simp only [List.getD_eq_getElem?_getD, List.getElem?_set_ne hne]
      · simp only [List.getD_eq_getElem?_getD, List.getElem?_set_self (show i < c.points.length by rw [h.points]; exact hi), Option.getD_some, smul_add, smul_smul]
    rw [evaluate_spec hv u hk', e1, if_neg hd.ne', e2, smul_add, smul_smul]
    congr 3
    ring
  · intro ho
    have : basis (kn c.knots) k u p i = 0 := by
      apply basis_support
      rintro ⟨a1, a2⟩
      rcases ho with ho | ho
      · exact absurd (ho.trans_le (h.knots.mono a1)) (not_lt.2 hk.2.1)
      · exact absurd ((h.knots.mono (show k + 1 ≤ i + p + 1 by omega)).trans_lt ho) (not_lt.2 hk.2.2.1)
    rw [this]; simp
  · intro a1 a2
    have hlt := hk.2.2.2 (a2.trans_le (h.knots.le_one _))
    refine div_pos (mul_pos (basis_pos h.knots.mono hk.2.1 hlt p i ?_ ?_ a1) hwi) hd
    · by_contra hc
      exact absurd (a1.trans hlt) (not_lt.2 (h.knots.mono (by omega)))
    · by_contra hc
      exact absurd (hk.2.1.trans_lt a2) (not_lt.2 (h.knots.mono (by omega)))

/-- C100.  Also at the right end of its support a point has no influence, unless that is
the end of the curve: whatever it is replaced by, and whatever the weights are. -/
theorem move_point_right {c : Curve K} {p n i : Nat} (h : c.Valid p n) (q : P3 K) {u : K} (h0 : 0 ≤ u) (h1 : u < 1) (hu : kn c.knots (i + p + 1) ≤ u) :
    ({ c with points := c.points.set i q } : Curve K).at u = c.at u := by
  obtain ⟨k, hk⟩ := exists_inSpan h.knots h0 h1.le
  have hk' : InSpan c.knots (clamp u) k := by rw [clamp_of_mem h0 h1.le]; exact hk
  have hv : ({ c with points := c.points.set i q } : Curve K).Valid p n :=
    ⟨h.degree, by simp [h.points], h.nbPoints, h.weights, h.knots, h.tempPoints, h.tempWeights⟩
  have hki : i + p < k := by
    by_contra hc
    exact absurd (hk.2.2.2 h1) (not_lt.2 ((h.knots.mono (show k + 1 ≤ i + p + 1 by omega)).trans hu))
  have e : ({ c with points := c.points.set i q } : Curve K).numer p n k u = c.numer p n k u := by
    unfold Curve.numer
    refine Finset.sum_congr rfl fun j _ => ?_
    by_cases hj : i = j
    · subst hj
      simp only [basis_support (kn c.knots) k u p i (by omega), zero_smul]
    · simp only [List.getD_eq_getElem?_getD, List.getElem?_set_ne hj]
  rw [evaluate_spec hv u hk', evaluate_spec h u hk', e]
  rfl

/-- C100.  Moving the control point in column `i` and row `j` of a net by `d` moves the point
of the surface at `u`, `v` by a part of `d`: none of it outside the rectangle of knot intervals
`i` to `i + p` and `j` to `j + q`, some of it inside. -/
theorem surface_move_point {s : Surface K} {p q nu nv i j : Nat} (h : s.Valid p q nu nv) (hw : ∀ w ∈ s.weights, 0 < w) (hi : i < nu) (hj : j < nv)
    (d : P3 K) {u v : K} (u0 : 0 ≤ u) (u1 : u ≤ 1) (v0 : 0 ≤ v) (v1 : v ≤ 1) :
    ∃ (a : K) (P : P3 K), 0 ≤ a ∧ a ≤ 1 ∧ s.at u v = some P ∧
      ({ s with points := s.points.set (i + nu * j) (s.points.getD (i + nu * j) ⟨0, 0, 0⟩ + d) } : Surface K).at u v = some (P + a • d) ∧
      (u < kn s.knotsU i ∨ kn s.knotsU (i + p + 1) < u ∨ v < kn s.knotsV j ∨ kn s.knotsV (j + q + 1) < v → a = 0) ∧
      (kn s.knotsU i < u → u < kn s.knotsU (i + p + 1) → kn s.knotsV j < v → v < kn s.knotsV (j + q + 1) → 0 < a) := by
  obtain ⟨k, hk⟩ := exists_inSpan h.knotsU u0 u1
  obtain ⟨l, hl⟩ := exists_inSpan h.knotsV v0 v1
  have hk' : InSpan s.knotsU (clamp u) k := by rw [clamp_of_mem u0 u1]; exact hk
  have hl' : InSpan s.knotsV (clamp v) l := by rw [clamp_of_mem v0 v1]; exact hl
  have hv : ({ s with points := s.points.set (i + nu * j) (s.points.getD (i + nu * j) ⟨0, 0, 0⟩ + d) } : Surface K).Valid p q nu nv :=
    ⟨h.degreeU, h.degreeV, h.nbU, h.nbV, by simp [h.points], h.weights, h.knotsU, h.knotsV, h.tempPointsU, h.tempPointsV, h.tempWeightsU, h.tempWeightsV⟩
  have hd := surface_denom_pos h hw hk hl
  have hbu : ∀ i, 0 ≤ basis (kn s.knotsU) k u p i := fun i => basis_nonneg h.knotsU.mono hk.2.1 hk.2.2.1 p i
  have hbv : ∀ j, 0 ≤ basis (kn s.knotsV) l v q j := fun j => basis_nonneg h.knotsV.mono hl.2.1 hl.2.2.1 q j
  have hwij := wt_pos h hw hi hj
  refine ⟨basis (kn s.knotsU) k u p i * basis (kn s.knotsV) l v q j * s.wt nu i j / s.denom p q nu nv k l u v,
    (1 / s.denom p q nu nv k l u v) • s.numer p q nu nv k l u v, ?_, ?_, ?_, ?_, ?_, ?_⟩
  · exact div_nonneg (mul_nonneg (mul_nonneg (hbu i) (hbv j)) hwij.le) hd.le
  · have hn : ∀ j < nv, ∀ i < nu, 0 ≤ basis (kn s.knotsU) k u p i * basis (kn s.knotsV) l v q j * s.wt nu i j :=
      fun j hj i hi => mul_nonneg (mul_nonneg (hbu i) (hbv j)) (wt_pos h hw hi hj).le
    rw [div_le_one hd]
    refine le_trans ?_ (Finset.single_le_sum (f := fun j => ∑ i ∈ Finset.range nu, basis (kn s.knotsU) k u p i * basis (kn s.knotsV) l v q j * s.wt nu i j)
      (fun j' hj' => Finset.sum_nonneg fun i' hi' => hn j' (Finset.mem_range.1 hj') i' (Finset.mem_range.1 hi')) (Finset.mem_range.2 hj))
    exact Finset.single_le_sum (f := fun i => basis (kn s.knotsU) k u p i * basis (kn s.knotsV) l v q j * s.wt nu i j)
      (fun i' hi' => hn j hj i' (Finset.mem_range.1 hi')) (Finset.mem_range.2 hi)
  · rw [surface_evaluate_spec h u v hk' hl', if_neg hd.ne']
  · have e2 : ({ s with points := s.points.set (i + nu * j) (s.points.getD (i + nu * j) ⟨0, 0, 0⟩ + d) } : Surface K).numer p q nu nv k l u v =
        s.numer p q nu nv k l u v + (basis (kn s.knotsU) k u p i * basis (kn s.knotsV) l v q j * s.wt nu i j) • d := by
      have hp : ∀ i' < nu, ∀ j', ({ s with points := s.points.set (i + nu * j) (s.points.getD (i + nu * j) ⟨0, 0, 0⟩ + d) } : Surface K).pt nu i' j' =
          s.pt nu i' j' + if i' = i ∧ j' = j then d else 0 := by
        intro i' hi' j'
        unfold Surface.pt
        by_cases hc : i' = i ∧ j' = j
        · obtain ⟨rfl, rfl⟩ := hc
          have : i' + nu * j' < s.points.length := by rw [h.points]; exact idx_lt hi hj
          simp [List.getD_eq_getElem?_getD, this]
        · have hne : i + nu * j ≠ i' + nu * j' := by
            intro e
            apply hc
            have e1 := congrArg (· % nu) e
            simp only [Nat.add_mul_mod_self_left, Nat.mod_eq_of_lt hi, Nat.mod_eq_of_lt hi'] at e1
            refine ⟨e1.symm, ?_⟩
            rw [e1] at e
            exact (Nat.eq_of_mul_eq_mul_left (by omega) (Nat.add_left_cancel e)).symm
          simp only [List.getD_eq_getElem?_getD, List.getElem?_set_ne hne]
          rw [if_neg hc, add_zero]
      unfold Surface.numer
      have e3 : ∀ j' ∈ Finset.range nv, ∑ i' ∈ Finset.range nu, (basis (kn s.knotsU) k u p i' * basis (kn s.knotsV) l v q j' * s.wt nu i' j') •
          ({ s with points := s.points.set (i + nu * j) (s.points.getD (i + nu * j) ⟨0, 0, 0⟩ + d) } : Surface K).pt nu i' j' =
          ∑ i' ∈ Finset.range nu, (basis (kn s.knotsU) k u p i' * basis (kn s.knotsV) l v q j' * s.wt nu i' j') • s.pt nu i' j' +
          if j' = j then (basis (kn s.knotsU) k u p i * basis (kn s.knotsV) l v q j * s.wt nu i j) • d else 0 := by
        intro j' _
        rw [Finset.sum_congr rfl fun i' hi' => by rw [hp i' (Finset.mem_range.1 hi') j', smul_add], Finset.sum_add_distrib]
        congr 1
        by_cases hc : j' = j
        · subst hc
          rw [if_pos rfl, Finset.sum_eq_single_of_mem i (Finset.mem_range.2 hi)]
          · rw [if_pos ⟨rfl, rfl⟩]
          · intro i' _ hne
            rw [if_neg (fun hh => hne hh.1), smul_zero]
        · rw [if_neg hc]
          refine Finset.sum_eq_zero fun i' _ => ?_
          rw [if_neg (fun hh => hc hh.2), smul_zero]
      refine (Finset.sum_congr rfl e3).trans ?_
      rw [Finset.sum_add_distrib, Finset.sum_ite_eq' , if_pos (Finset.mem_range.2 hj)]
    rw [surface_evaluate_spec hv u v hk' hl', e2]
    have e1 : ({ s with points := s.points.set (i + nu * j) (s.points.getD (i + nu * j) ⟨0, 0, 0⟩ + d) } : Surface K).denom p q nu nv k l u v = s.denom p q nu nv k l u v := rfl
    rw [e1, if_neg hd.ne', smul_add, smul_smul]
    congr 3
    ring
  · intro ho
    have : basis (kn s.knotsU) k u p i * basis (kn s.knotsV) l v q j = 0 := by
      rcases ho with ho | ho | ho | ho
      · rw [basis_support, zero_mul]
        rintro ⟨a1, a2⟩
        exact absurd (ho.trans_le (h.knotsU.mono a1)) (not_lt.2 hk.2.1)
      · rw [basis_support, zero_mul]
        rintro ⟨a1, a2⟩
        exact absurd ((h.knotsU.mono (show k + 1 ≤ i + p + 1 by omega)).trans_lt ho) (not_lt.2 hk.2.2.1)
      · rw [mul_comm, basis_support, zero_mul]
        rintro ⟨a1, a2⟩
        exact absurd (ho.trans_le (h.knotsV.mono a1)) (not_lt.2 hl.2.1)
      · rw [mul_comm, basis_support, zero_mul]
        rintro ⟨a1, a2⟩
        exact absurd ((h.knotsV.mono (show l + 1 ≤ j + q + 1 by omega)).trans_lt ho) (not_lt.2 hl.2.2.1)
    rw [this]; simp
  · intro a1 a2 b1 b2
    have hlt := hk.2.2.2 (a2.trans_le (h.knotsU.le_one _))
    have hlt' := hl.2.2.2 (b2.trans_le (h.knotsV.le_one _))
    refine div_pos (mul_pos (mul_pos (basis_pos h.knotsU.mono hk.2.1 hlt p i ?_ ?_ a1) (basis_pos h.knotsV.mono hl.2.1 hlt' q j ?_ ?_ b1)) hwij) hd
    · by_contra hc
      exact absurd (a1.trans hlt) (not_lt.2 (h.knotsU.mono (by omega)))
    · by_contra hc
      exact absurd (hk.2.1.trans_lt a2) (not_lt.2 (h.knotsU.mono (by omega)))
    · by_contra hc
      exact absurd (b1.trans hlt') (not_lt.2 (h.knotsV.mono (by omega)))
    · by_contra hc
      exact absurd (hl.2.1.trans_lt b2) (not_lt.2 (h.knotsV.mono (by omega)))

/-- a curve of degree 1 with three spans, used in the examples -/
def bend : Curve ℚ := ⟨1, [0, 0, 1 / 3, 2 / 3, 1, 1], [1, 2, 1, 1], [⟨0, 0, 0⟩, ⟨1, 0, 0⟩, ⟨1, 1, 0⟩, ⟨2, 1, 0⟩], 4, [⟨0, 0, 0⟩, ⟨0, 0, 0⟩], [0, 0]⟩

theorem bend_valid : bend.Valid 1 4 :=
  ⟨rfl, rfl, rfl, rfl, ⟨rfl, by decide +kernel, by decide +kernel, by
    intro i h1 h2
    obtain rfl | rfl : i = 4 ∨ i = 5 := by omega
    all_goals decide +kernel⟩, by decide, by decide⟩

example : ∀ w ∈ bend.weights, 0 < w := by decide +kernel
example : bend.at (1 / 2) = some ⟨1, 1 / 3, 0⟩ ∧
    ({ bend with points := bend.points.set 1 (bend.points.getD 1 ⟨0, 0, 0⟩ + ⟨0, 0, 3⟩) } : Curve ℚ).at (1 / 2) = some ⟨1, 1 / 3, 2⟩ ∧
    ({ bend with points := bend.points.set 0 ⟨9, 9, 9⟩ } : Curve ℚ).at (1 / 2) = some ⟨1, 1 / 3, 0⟩ := by decide +kernel
example : kn bend.knots 1 < 1 / 2 ∧ (1 / 2 : ℚ) < kn bend.knots 3 ∧ kn bend.knots 2 < 1 / 2 := by decide +kernel
example : ({ patch with points := patch.points.set (1 + 3 * 1) (patch.points.getD (1 + 3 * 1) ⟨0, 0, 0⟩ + ⟨0, 0, 12⟩) } : Surface ℚ).at (1 / 2) (1 / 3) ≠ patch.at (1 / 2) (1 / 3) := by
  decide +kernel

/-! ### C101 -/

/-- the column `i` of the net as a curve: knots of the second direction -/
def IsColumn (s : Surface K) (c : Curve K) (q nu nv i : Nat) : Prop :=
  c.Valid q nv ∧ c.knots = s.knotsV ∧ c.points = (List.range nv).map (fun j => s.pt nu i j) ∧ c.weights = (List.range nv).map fun j => s.wt nu i j

/-- the row `j` of the net as a curve: knots of the first direction -/
def IsRow (s : Surface K) (c : Curve K) (p nu j : Nat) : Prop :=
  c.Valid p nu ∧ c.knots = s.knotsU ∧ c.points = (List.range nu).map (fun i => s.pt nu i j) ∧ c.weights = (List.range nu).map fun i => s.wt nu i j

theorem IsColumn.at {s : Surface K} {c : Curve K} {p q nu nv i : Nat} (h : s.Valid p q nu nv) (hc : IsColumn s c q nu nv i) (v : K) :
    c.at v = (s.col q nu nv i).at v := by
  obtain ⟨h1, h2, h3, h4⟩ := hc
  refine evaluate_history_free (col_valid h i) h1 ⟨?_, h2, h4, h3, ?_⟩ v
  · rw [h1.degree]; rfl
  · rw [h1.nbPoints]; rfl

theorem IsRow.at {s : Surface K} {c : Curve K} {p q nu nv j : Nat} (h : s.Valid p q nu nv) (hc : IsRow s c p nu j) (u : K) :
    c.at u = (s.row p nu j).at u := by
  obtain ⟨h1, h2, h3, h4⟩ := hc
  refine evaluate_history_free (row_valid h j) h1 ⟨?_, h2, h4, h3, ?_⟩ u
  · rw [h1.degree]; rfl
  · rw [h1.nbPoints]; rfl

theorem col_at {s : Surface K} {p q nu nv i l : Nat} (h : s.Valid p q nu nv) {v : K} (hl : InSpan s.knotsV (clamp v) l) :
    (s.col q nu nv i).at v = project (deB (kn s.knotsV) v q (fun j => s.pair nu i j) l) := by
  obtain ⟨hql, hln⟩ := hl.range h.knotsV
  rw [at_pair (col_valid h i) (by exact hl)]
  congr 1
  exact deB_congr _ _ hql fun j h1 _ => col_pairs i (by omega)

theorem row_at {s : Surface K} {p q nu nv j k : Nat} (h : s.Valid p q nu nv) {u : K} (hk : InSpan s.knotsU (clamp u) k) :
    (s.row p nu j).at u = project (deB (kn s.knotsU) u p (fun i => s.pair nu i j) k) := by
  obtain ⟨hpk, hkn⟩ := hk.range h.knotsU
  rw [at_pair (row_valid h j) (by exact hk)]
  congr 1
  exact deB_congr _ _ hpk fun i h1 _ => row_pairs j (by omega)

theorem span_zero {ks : List K} {p n : Nat} (h : ClampedKnots ks p n) (h1 : 0 < kn ks (p + 1)) : InSpan ks (clamp 0) p := by
  rw [clamp_of_mem le_rfl zero_le_one, InSpan, h.kn_first le_rfl]
  exact ⟨h1, le_rfl, h1.le, fun _ => h1⟩

theorem span_one {ks : List K} {p n : Nat} (h : ClampedKnots ks p n) (h1 : kn ks (n - 1) < 1) : InSpan ks (clamp 1) (n - 1) := by
  have hn := h.p_lt_n
  rw [clamp_of_mem zero_le_one le_rfl, InSpan, h.kn_last (show n ≤ n - 1 + 1 by omega)]
  exact ⟨h1, h1.le, le_rfl, fun hh => absurd hh (lt_irrefl _)⟩

omit [IsStrictOrderedRing K] in
theorem deB_zero {ks : List K} {p n : Nat} (h : ClampedKnots ks p n) {M : Type} [AddCommGroup M] [Module K M] (f : Nat → M) : deB (kn ks) 0 p f p = f 0 := by
  rw [deB_left le_rfl (fun i hi _ => h.kn_first hi) f, Nat.sub_self]

theorem deB_one {ks : List K} {p n : Nat} (h : ClampedKnots ks p n) (h1 : kn ks (n - 1) < 1) {M : Type} [AddCommGroup M] [Module K M] (f : Nat → M) :
    deB (kn ks) 1 p f (n - 1) = f (n - 1) := by
  have hn := h.p_lt_n
  exact deB_right (by omega) (fun i hi _ => h.kn_last (by omega)) (den_ne h.mono (span_one h h1).1) f

/-- C101.  The four sides of a surface are the curves of the first and last columns and rows
of its net (when no end knot is repeated more often than the degree plus one). -/
theorem surface_sides {s : Surface K} {p q nu nv : Nat} (h : s.Valid p q nu nv) :
    (0 < kn s.knotsU (p + 1) → ∀ c, IsColumn s c q nu nv 0 → ∀ v, s.at 0 v = c.at v) ∧
    (kn s.knotsU (nu - 1) < 1 → ∀ c, IsColumn s c q nu nv (nu - 1) → ∀ v, s.at 1 v = c.at v) ∧
    (0 < kn s.knotsV (q + 1) → ∀ c, IsRow s c p nu 0 → ∀ u, s.at u 0 = c.at u) ∧
    (kn s.knotsV (nv - 1) < 1 → ∀ c, IsRow s c p nu (nv - 1) → ∀ u, s.at u 1 = c.at u) := by
  have pu := h.knotsU.p_lt_n
  have pv := h.knotsV.p_lt_n
  refine ⟨fun h1 c hc v => ?_, fun h1 c hc v => ?_, fun h1 c hc u => ?_, fun h1 c hc u => ?_⟩
  · obtain ⟨l, hl⟩ := exists_inSpan h.knotsV (clamp_nonneg v) (clamp_le_one v)
    rw [hc.at h, col_at h hl, surface_at_pair h (span_zero h.knotsU h1) hl]
    simp only [deB_zero h.knotsU]
  · obtain ⟨l, hl⟩ := exists_inSpan h.knotsV (clamp_nonneg v) (clamp_le_one v)
    rw [hc.at h, col_at h hl, surface_at_pair h (span_one h.knotsU h1) hl]
    simp only [deB_one h.knotsU h1]
  · obtain ⟨k, hk⟩ := exists_inSpan h.knotsU (clamp_nonneg u) (clamp_le_one u)
    rw [hc.at h, row_at h hk, surface_at_pair h hk (span_zero h.knotsV h1)]
    simp only [deB_zero h.knotsV]
  · obtain ⟨k, hk⟩ := exists_inSpan h.knotsU (clamp_nonneg u) (clamp_le_one u)
    rw [hc.at h, row_at h hk, surface_at_pair h hk (span_one h.knotsV h1)]
    simp only [deB_one h.knotsV h1]

/-- C101.  If the last row of one net is the first row of another one, with the same weights,
degree and knots, the surfaces have that side in common, whatever the rest is. -/
theorem surfaces_join {s s' : Surface K} {p q q' nu nv nv' : Nat} (h : s.Valid p q nu nv) (h' : s'.Valid p q' nu nv')
    (hk : s.knotsU = s'.knotsU) (h1 : kn s.knotsV (nv - 1) < 1) (h2 : 0 < kn s'.knotsV (q' + 1))
    (hpt : ∀ i < nu, s.pt nu i (nv - 1) = s'.pt nu i 0 ∧ s.wt nu i (nv - 1) = s'.wt nu i 0) (u : K) : s.at u 1 = s'.at u 0 := by
  have hr : IsRow s (s.row p nu (nv - 1)) p nu (nv - 1) := ⟨row_valid h _, rfl, rfl, rfl⟩
  have hr' : IsRow s' (s.row p nu (nv - 1)) p nu 0 := by
    refine ⟨row_valid h _, hk, ?_, ?_⟩
    · exact List.map_congr_left fun i hi => (hpt i (List.mem_range.1 hi)).1
    · exact List.map_congr_left fun i hi => (hpt i (List.mem_range.1 hi)).2
  rw [(surface_sides h).2.2.2 h1 _ hr u, (surface_sides h').2.2.1 h2 _ hr' u]

/-- C101.  The corners of the net are on the surface. -/
theorem surface_corners {s : Surface K} {p q nu nv : Nat} (h : s.Valid p q nu nv) (hw : ∀ w ∈ s.weights, w ≠ 0)
    (hu0 : 0 < kn s.knotsU (p + 1)) (hu1 : kn s.knotsU (nu - 1) < 1) (hv0 : 0 < kn s.knotsV (q + 1)) (hv1 : kn s.knotsV (nv - 1) < 1) :
    s.at 0 0 = some (s.pt nu 0 0) ∧ s.at 1 0 = some (s.pt nu (nu - 1) 0) ∧
    s.at 0 1 = some (s.pt nu 0 (nv - 1)) ∧ s.at 1 1 = some (s.pt nu (nu - 1) (nv - 1)) := by
  have pu := h.knotsU.p_lt_n
  have pv := h.knotsV.p_lt_n
  have key : ∀ i j, i < nu → j < nv → project (s.pair nu i j) = some (s.pt nu i j) := by
    intro i j hi hj
    have hlt : i + nu * j < s.weights.length := by rw [h.weights]; exact idx_lt hi hj
    have hne : s.wt nu i j ≠ 0 := by
      simp only [Surface.wt, List.getD_eq_getElem?_getD, List.getElem?_eq_getElem hlt, Option.getD_some]
      exact hw _ (List.getElem_mem hlt)
    unfold project Surface.pair
    simp only
    rw [if_neg hne, Surface.hp, smul_smul, one_div, inv_mul_cancel₀ hne, one_smul]
  refine ⟨?_, ?_, ?_, ?_⟩
  · rw [surface_at_pair h (span_zero h.knotsU hu0) (span_zero h.knotsV hv0)]
    simp only [deB_zero h.knotsU, deB_zero h.knotsV]
    exact key _ _ (by omega) (by omega)
  · rw [surface_at_pair h (span_one h.knotsU hu1) (span_zero h.knotsV hv0)]
    simp only [deB_one h.knotsU hu1, deB_zero h.knotsV]
    exact key _ _ (by omega) (by omega)
  · rw [surface_at_pair h (span_zero h.knotsU hu0) (span_one h.knotsV hv1)]
    simp only [deB_zero h.knotsU, deB_one h.knotsV hv1]
    exact key _ _ (by omega) (by omega)
  · rw [surface_at_pair h (span_one h.knotsU hu1) (span_one h.knotsV hv1)]
    simp only [deB_one h.knotsU hu1, deB_one h.knotsV hv1]
    exact key _ _ (by omega) (by omega)

example : ∀ w ∈ patch.weights, w ≠ 0 := by decide +kernel
example : 0 < kn patch.knotsU 3 ∧ kn patch.knotsU 2 < 1 ∧ 0 < kn patch.knotsV 2 ∧ kn patch.knotsV 1 < 1 := by decide +kernel
example : patch.at 0 0 = some ⟨0, 0, 0⟩ ∧ patch.at 1 0 = some ⟨2, 0, 1⟩ ∧ patch.at 0 1 = some ⟨0, 1, 0⟩ ∧ patch.at 1 1 = some ⟨2, 1, 0⟩ := by decide +kernel

/-- a second surface that continues `patch` beyond its last row -/
def patchNext : Surface ℚ := ⟨2, 1, 3, 2, false, false, [0, 0, 0, 1, 1, 1], [0, 0, 1, 1], [1, 3, 1, 1, 1, 1],
  [⟨0, 1, 0⟩, ⟨1, 1, 2⟩, ⟨2, 1, 0⟩, ⟨0, 5, 0⟩, ⟨1, 5, 0⟩, ⟨2, 5, 0⟩],
  [⟨0, 0, 0⟩, ⟨0, 0, 0⟩, ⟨0, 0, 0⟩], [⟨0, 0, 0⟩, ⟨0, 0, 0⟩], [0, 0, 0], [0, 0]⟩

example : ∀ i < 3, patch.pt 3 i (2 - 1) = patchNext.pt 3 i 0 ∧ patch.wt 3 i (2 - 1) = patchNext.wt 3 i 0 := by decide +kernel
example : patch.at (1 / 2) 1 = patchNext.at (1 / 2) 0 ∧ patch.at (1 / 2) 1 ≠ none := by decide +kernel

/-- C101, the negation without equal weights: the same row of points is not enough. -/
theorem surfaces_join_weights : (∀ i < 3, patch.pt 3 i (2 - 1) = ({ patchNext with weights := [1, 1, 1, 1, 1, 1] } : Surface ℚ).pt 3 i 0) ∧
    patch.at (1 / 2) 1 ≠ ({ patchNext with weights := [1, 1, 1, 1, 1, 1] } : Surface ℚ).at (1 / 2) 0 := by decide +kernel

end Nurbs
end CAD
