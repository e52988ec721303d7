import Verif.Lemmas.Elevate
import Mathlib.Algebra.Module.Prod
import Mathlib.LinearAlgebra.Prod

/-! C49: degree elevation. -/

set_option linter.unusedSimpArgs false

namespace CAD
namespace Nurbs
open BSpline
variable {K : Type} [Field K] [LinearOrder K] [IsStrictOrderedRing K]

theorem resize_length {α : Type} {l r : List α} {n : Nat} {a : α} (h : resize l (n : Int) a = some r) :
    r.length = n := by
  unfold resize at h
  rw [if_neg (by omega), Option.some_inj] at h
  rw [← h]; simp; omega

theorem resize_some {α : Type} (l : List α) (n : Nat) (a : α) : ∃ r, resize l (n : Int) a = some r ∧ r.length = n := by
  refine ⟨_, if_neg (by omega), ?_⟩
  simp; omega

/-- From the elevated knots and homogeneous points to the curve. -/
theorem elevate_finish {c : Curve K} {p n n' : Nat} (h : c.Valid p n) {kn' : List K} {mult : List Int}
    {q : List (P3 K × K)} (he : Curve.elevateKnots c.knots = some (kn', mult))
    (hq : (c.degree = 1 ∧ c.elevate1 = some q) ∨ (c.degree = 2 ∧ c.elevate2 mult = some q))
    (hk : ClampedKnots kn' (p + 1) n') (hl : q.length = n') (hpos : ∀ x ∈ q, 0 < x.2)
    (hsp : ∀ t k, InSpan c.knots t k → ∃ k', InSpan kn' t k' ∧
      ∀ u, deB (kn kn') u (p + 1) (fun i => q.getD i 0) k' = deB (kn c.knots) u p c.pairs k) :
    ∃ c', c.degreeElevation = some (c', true) ∧ c'.Valid (p + 1) n' ∧ (∀ w ∈ c'.weights, 0 < w) ∧
      c'.knots = kn' ∧ c.Refines c' p (p + 1) := by
  obtain ⟨tp, t1, t2⟩ := resize_some c.tempPoints (p + 1 + 1) (⟨0, 0, 0⟩ : P3 K)
  obtain ⟨tw, t3, t4⟩ := resize_some c.tempWeights (p + 1 + 1) (0 : K)
  set c' : Curve K := ⟨(p : Int) + 1, kn', q.map Prod.snd, q.map fun x => (1 / x.2) • x.1, (n' : Int), tp, tw⟩ with hc'
  have hv : c'.Valid (p + 1) n' := ⟨by simp [hc'], by simp [hc', hl], rfl, by simp [hc', hl], hk, by simp [hc', t2],
    by simp [hc', t4]⟩
  refine ⟨c', ?_, hv, ?_, rfl, ?_⟩
  · unfold Curve.degreeElevation
    have h3 : ¬ (3 ≤ c.degree) := by rcases hq with hq | hq <;> omega
    have ed : (p : Int) + 1 + 1 = ((p + 1 + 1 : Nat) : Int) := by push_cast; ring
    rw [if_neg h3, he]
    have fin : (do
        let p ← q.mapM fun x => divP x.1 x.2
        let c' ← c.setKnots kn'
        let c' := (c'.setPoints p).setWeights (q.map Prod.snd)
        let c' ← c'.setDegree (c.degree + 1)
        return (c', true) : Res (Curve K × Bool)) = some (c', true) := by
      rw [mapM_divP _ fun x hx => (hpos x hx).ne']
      simp only [Option.bind_some, Curve.setKnots, scaleKnots_self hk, Option.bind_eq_bind, Option.pure_def,
        Curve.setPoints, Curve.setWeights, Curve.setDegree, ed, t1, t3, List.length_map, hl, h.degree]
      rfl
    rcases hq with ⟨hd, hq⟩ | ⟨hd, hq⟩
    · simp only [Option.bind_eq_bind, Option.bind_some, Option.pure_def, if_pos hd, hq] at fin ⊢
      exact fin
    · have hd1 : ¬ c.degree = 1 := by omega
      simp only [Option.bind_eq_bind, Option.bind_some, Option.pure_def, if_pos hd, if_neg hd1, hq] at fin ⊢
      exact fin
  · intro w hw
    obtain ⟨x, hx, rfl⟩ := List.mem_map.1 hw
    exact hpos x hx
  · intro t k k' hs hs' u
    have ht := hs.mem h.knots
    obtain ⟨k2, hs2, hd⟩ := hsp _ k hs
    obtain rfl : k' = k2 := inSpan_unique hk ht.1 ht.2 hs' hs2
    obtain ⟨hpk, hkn⟩ := hs2.range hk
    rw [← hd u]
    refine deB_congr _ u hpk fun i hi _ => ?_
    have hi2 : i < q.length := by omega
    have hne := (hpos _ (List.getElem_mem hi2)).ne'
    have e1 : c'.weights.getD i 0 = q[i].2 := by simp [hc', List.getD, hi2]
    have e2 : c'.points.getD i ⟨0, 0, 0⟩ = (1 / q[i].2) • q[i].1 := by simp [hc', List.getD, hi2]
    have e3 : q.getD i 0 = q[i] := by simp [List.getD, hi2]
    rw [Curve.pairs, Curve.hp, Curve.hw, e1, e2, e3, smul_smul, mul_one_div, div_self hne, one_smul]

theorem homog_eq {c : Curve K} {p n : Nat} (h : c.Valid p n) {i : Nat} (hi : i < n) :
    c.homog (i : Int) = some (c.pairs i) := by
  unfold Curve.homog
  rw [getI_natCast, getI_natCast, getD_of_lt c.points ⟨0, 0, 0⟩ (by rw [h.points]; exact hi),
    getD_of_lt c.weights 0 (by rw [h.weights]; exact hi)]
  rfl

/-! ### Degree 1 -/

/-- the new points: the old ones and the middles -/
def elev1 {M : Type} [AddCommGroup M] [Module K M] (P : Nat → M) (j : Nat) : M :=
  if j % 2 = 0 then P (j / 2) else (1 / 2 : K) • (P (j / 2) + P (j / 2 + 1))

theorem elevate1_eq {c : Curve K} {n : Nat} (h : c.Valid 1 n) :
    c.elevate1 = some ((List.range (2 * n - 1)).map (elev1 (K := K) c.pairs)) := by
  have hn := h.knots.p_lt_n
  obtain ⟨s, e, rfl⟩ := loopN_inv (n := n - 1) (s := ([] : List (P3 K × K)))
    (f := fun i (l : List (P3 K × K)) => do
      let a ← c.homog i
      let b ← c.homog (i + 1)
      return l ++ [a, ((a.1 + b.1).div 2, (a.2 + b.2) / 2)])
    (I := fun i l => l = (List.range (2 * i)).map (elev1 (K := K) c.pairs)) rfl
    (by
      rintro i hi l rfl
      refine ⟨_, ?_, rfl⟩
      rw [show (i : Int) + 1 = ((i + 1 : Nat) : Int) by omega, homog_eq h (by omega), homog_eq h (by omega)]
      simp only [Option.bind_eq_bind, Option.bind_some, Option.pure_def, Option.some_inj]
      rw [show 2 * (i + 1) = 2 * i + 1 + 1 by omega, List.range_succ, List.range_succ]
      simp only [List.map_append, List.map_cons, List.map_nil, List.append_assoc, List.cons_append, List.nil_append]
      have e0 : elev1 (K := K) c.pairs (2 * i) = c.pairs i := by
        rw [elev1, if_pos (by omega), show 2 * i / 2 = i by omega]
      have e1 : elev1 (K := K) c.pairs (2 * i + 1) = (((c.pairs i).1 + (c.pairs (i + 1)).1).div 2,
          ((c.pairs i).2 + (c.pairs (i + 1)).2) / 2) := by
        rw [elev1, if_neg (by omega), show (2 * i + 1) / 2 = i by omega, div_eq_smul]
        ext1
        · simp
        · simp; ring
      rw [e0, e1])
  unfold Curve.elevate1
  have e1 : ((n : Int) - 1) = ((n - 1 : Nat) : Int) := by omega
  simp only [h.nbPoints, e1, Int.toNat_natCast]
  rw [e, homog_eq h (by omega)]
  simp only [Option.bind_eq_bind, Option.bind_some, Option.pure_def, Option.some_inj]
  rw [show 2 * n - 1 = 2 * (n - 1) + 1 by omega, List.range_succ, List.map_append, List.map_cons, List.map_nil]
  rw [show elev1 (K := K) c.pairs (2 * (n - 1)) = c.pairs (n - 1) by
    rw [elev1, if_pos (by omega), show 2 * (n - 1) / 2 = n - 1 by omega]]

theorem dch_simple {τ : Nat → K} {n : Nat} (h0 : τ 0 = τ 1) (h : ∀ i, 1 ≤ i → i < n → τ i < τ (i + 1)) {k : Nat}
    (h1 : 1 ≤ k) (h2 : k ≤ n) : dch τ k = k - 1 := by
  induction k with
  | zero => omega
  | succ k ih =>
    rcases Nat.eq_zero_or_pos k with rfl | hk
    · rw [dch_same h0]; rfl
    · rw [dch_change (h k hk (by omega)).ne, ih hk (by omega)]; omega

theorem degree_elevation_1_refines {c : Curve K} {n : Nat} (h : c.Valid 1 n) (hw : ∀ w ∈ c.weights, 0 < w)
    (hk : ∀ i, 1 ≤ i → i < n → kn c.knots i < kn c.knots (i + 1)) :
    ∃ c', c.degreeElevation = some (c', true) ∧ c'.Valid 2 (2 * n - 1) ∧ (∀ w ∈ c'.weights, 0 < w) ∧
      some c'.knots = (Curve.elevateKnots c.knots).map Prod.fst ∧ c.Refines c' 1 2 := by
  obtain ⟨kn', mult, e, hcl, _, k1, k2⟩ := elevateKnots_clamped h.knots
  have hn := h.knots.p_lt_n
  have h01 : kn c.knots 0 = kn c.knots 1 := by rw [h.knots.kn_first (by omega), h.knots.kn_first (by omega)]
  have hd : ∀ k, 1 ≤ k → k ≤ n → dch (kn c.knots) k = k - 1 := fun k => dch_simple h01 hk
  have hD : dch (kn c.knots) (n + 1) = n - 1 := by
    rw [dch_same (by rw [h.knots.kn_last le_rfl, h.knots.kn_last (by omega)]), hd n (by omega) le_rfl]
  rw [hD, show n + (n - 1) = 2 * n - 1 by omega] at hcl
  have hwp : ∀ i < n, 0 < c.hw i := fun i hi => weights_pos h hw hi
  have hpos : ∀ x ∈ (List.range (2 * n - 1)).map (elev1 (K := K) c.pairs), 0 < x.2 := by
    intro x hx
    obtain ⟨j, hj, rfl⟩ := List.mem_map.1 hx
    rw [List.mem_range] at hj
    unfold elev1
    split_ifs with h2
    · exact hwp _ (by omega)
    · have a := hwp (j / 2) (by omega)
      have b := hwp (j / 2 + 1) (by omega)
      simp only [Curve.pairs, Prod.smul_snd, Prod.snd_add, smul_eq_mul]
      linarith
  obtain ⟨c', e1, e2, e3, e4, e5⟩ := elevate_finish h e
    (Or.inl ⟨h.degree, elevate1_eq h⟩) hcl (by simp) hpos (by
    intro t k hs
    obtain ⟨hs', m1, m2, m3⟩ := elevated_span h.knots k1 (fun j hj hc => (k2 j hj hc).1) hs
    obtain ⟨hpk, hkn⟩ := hs.range h.knots
    rw [hd k hpk (by omega)] at hs' m1 m2 m3
    obtain ⟨j, rfl⟩ : ∃ j, k = j + 1 := ⟨k - 1, by omega⟩
    have x1 : j + 1 + (j + 1 - 1) + 1 = 2 * j + 2 := by omega
    have x0 : j + 1 + (j + 1 - 1) = 2 * j + 1 := by omega
    have x2 : j + 1 + (j + 1 - 1) + 2 = 2 * j + 3 := by omega
    rw [x1] at hs' m2
    rw [x0] at m1
    rw [x2] at m3
    have m4 : kn kn' (2 * j + 4) = kn c.knots (j + 2) := by
      rcases Nat.lt_or_eq_of_le (show j + 2 ≤ n by omega) with hlt | heq
      · have := (k2 (j + 2) (by omega) (Or.inr (hk (j + 2) (by omega) hlt).ne)).1
        rw [hd (j + 2) (by omega) (by omega)] at this
        rw [← this]; congr 1; omega
      · have := k1 (n + 1) le_rfl
        rw [hD, h.knots.kn_last (by omega)] at this
        rw [heq, h.knots.kn_last le_rfl, ← this]; congr 1; omega
    refine ⟨2 * j + 2, hs', fun u => ?_⟩
    have q0 : ∀ i, i < 2 * n - 1 → ((List.range (2 * n - 1)).map (elev1 (K := K) c.pairs)).getD i 0 =
        elev1 (K := K) c.pairs i := by
      intro i hi; simp [List.getD, hi]
    have g0 : elev1 (K := K) c.pairs (2 * j) = c.pairs j := by
      rw [elev1, if_pos (by omega), show 2 * j / 2 = j by omega]
    have g1 : elev1 (K := K) c.pairs (2 * j + 1) = (1 / 2 : K) • (c.pairs j + c.pairs (j + 1)) := by
      rw [elev1, if_neg (by omega), show (2 * j + 1) / 2 = j by omega]
    have g2 : elev1 (K := K) c.pairs (2 * j + 2) = c.pairs (j + 1) := by
      rw [elev1, if_pos (by omega), show (2 * j + 2) / 2 = j + 1 by omega]
    have hne : kn c.knots (j + 2) - kn c.knots (j + 1) ≠ 0 := den_ne h.knots.mono hs.1 _ _ le_rfl (by omega)
    simp only [deB, step, alpha]
    simp only [show 2 * j + 2 - 1 = 2 * j + 1 by omega, show 2 * j + 1 - 1 = 2 * j by omega,
      show j + 1 - 1 = j by omega, show 2 * j + 2 + 1 = 2 * j + 3 by omega,
      show 2 * j + 1 + (1 + 1) = 2 * j + 3 by omega, show 2 * j + 2 + (1 + 1) = 2 * j + 4 by omega,
      show 2 * j + 2 + (0 + 1) = 2 * j + 3 by omega, show 2 * j + 1 + (0 + 1 + 1) = 2 * j + 3 by omega,
      show 2 * j + 2 + (0 + 1 + 1) = 2 * j + 4 by omega, show j + 1 + (0 + 1) = j + 2 by omega,
      m1, m2, m3, m4, show j + 1 + 1 = j + 2 by omega]
    rw [q0 _ (by omega), q0 _ (by omega), q0 _ (by omega), g0, g1, g2]
    match_scalars <;> field_simp <;> ring)
  exact ⟨c', e1, e2, e3, by rw [e, e4]; rfl, e5⟩

/-- C49.  A polyline (degree 1) whose interior knots are all different is elevated to
degree 2 without moving. -/
theorem degree_elevation_1 {c : Curve K} {n : Nat} (h : c.Valid 1 n) (hw : ∀ w ∈ c.weights, 0 < w)
    (hk : ∀ i, 1 ≤ i → i < n → kn c.knots i < kn c.knots (i + 1)) :
    ∃ c', c.degreeElevation = some (c', true) ∧ c'.Valid 2 (2 * n - 1) ∧ (∀ w ∈ c'.weights, 0 < w) ∧
      ∀ t, c'.at t = c.at t := by
  obtain ⟨c', e1, e2, e3, _, e5⟩ := degree_elevation_1_refines h hw hk
  exact ⟨c', e1, e2, e3, fun t => e5.at h e2 t⟩

/-! ### Degree 2 -/

section deg2
variable {M : Type} [AddCommGroup M] [Module K M]

/-- blossom of the span at its beginning, twice -/
def faa (τ : Nat → K) (P : Nat → M) (k : Nat) : M :=
  ((τ (k + 1) - τ k) / (τ (k + 1) - τ (k - 1))) • P (k - 2) +
    ((τ k - τ (k - 1)) / (τ (k + 1) - τ (k - 1))) • P (k - 1)

/-- at its end, twice -/
def fbb (τ : Nat → K) (P : Nat → M) (k : Nat) : M :=
  ((τ (k + 2) - τ (k + 1)) / (τ (k + 2) - τ k)) • P (k - 1) +
    ((τ (k + 1) - τ k) / (τ (k + 2) - τ k)) • P k

/-- the four cubic control points of the span -/
def elev2 (τ : Nat → K) (P : Nat → M) (k : Nat) : Nat → M
  | 0 => (2 / 3 : K) • P (k - 2) + (1 / 3 : K) • faa τ P k
  | 1 => (1 / 3 : K) • faa τ P k + (2 / 3 : K) • P (k - 1)
  | 2 => (2 / 3 : K) • P (k - 1) + (1 / 3 : K) • fbb τ P k
  | _ => (1 / 3 : K) • fbb τ P k + (2 / 3 : K) • P k

theorem faa_eq {τ : Nat → K} {P : Nat → M} {k : Nat} (h : τ (k - 1) = τ k) (hk : τ k < τ (k + 1)) :
    faa τ P k = P (k - 2) := by
  have : τ (k + 1) - τ k ≠ 0 := (sub_pos.2 hk).ne'
  rw [faa, h, div_self this, sub_self, zero_div, one_smul, zero_smul, add_zero]

theorem fbb_eq {τ : Nat → K} {P : Nat → M} {k : Nat} (h : τ (k + 1) = τ (k + 2)) (hk : τ k < τ (k + 1)) :
    fbb τ P k = P k := by
  have : τ (k + 1) - τ k ≠ 0 := (sub_pos.2 hk).ne'
  rw [fbb, ← h, div_self this, sub_self, zero_div, one_smul, zero_smul, zero_add]

/-- The four points give the span of degree 2 as a cubic. -/
theorem deB_elev2 {τ τ' : Nat → K} {P Q : Nat → M} {k j : Nat} (hk : 2 ≤ k) (t : K)
    (h0 : τ' (j + 1) = τ (k - 1)) (h1 : τ' (j + 2) = τ k) (h2 : τ' (j + 3) = τ k) (h3 : τ' (j + 4) = τ (k + 1))
    (h4 : τ' (j + 5) = τ (k + 1)) (h5 : τ' (j + 6) = τ (k + 2)) (hτ : Monotone τ) (hlt : τ k < τ (k + 1))
    (q0 : Q j = elev2 τ P k 0) (q1 : Q (j + 1) = elev2 τ P k 1) (q2 : Q (j + 2) = elev2 τ P k 2)
    (q3 : Q (j + 3) = elev2 τ P k 3) : deB τ' t 3 Q (j + 3) = deB τ t 2 P k := by
  have d1 : τ (k + 1) - τ k ≠ 0 := (sub_pos.2 hlt).ne'
  have d2 : τ (k + 1) - τ (k - 1) ≠ 0 := den_ne hτ hlt _ _ (by omega) (by omega)
  have d3 : τ (k + 2) - τ k ≠ 0 := den_ne hτ hlt _ _ le_rfl (by omega)
  obtain ⟨i, rfl⟩ : ∃ i, k = i + 2 := ⟨k - 2, by omega⟩
  simp only [show i + 2 - 1 = i + 1 by omega] at h0 d2
  simp only [deB, step, alpha]
  simp only [Nat.zero_add, Nat.reduceAdd, show j + 3 - 1 = j + 2 by omega, show j + 2 - 1 = j + 1 by omega,
    show j + 1 - 1 = j by omega, show j + 1 + 3 = j + 4 by omega, show j + 2 + 3 = j + 5 by omega,
    show j + 3 + 3 = j + 6 by omega, show j + 2 + 2 = j + 4 by omega, show j + 3 + 2 = j + 5 by omega,
    show j + 3 + 1 = j + 4 by omega, show i + 2 - 1 = i + 1 by omega, show i + 1 - 1 = i by omega,
    show i + 1 + 2 = i + 2 + 1 by omega, q0, q1, q2, q3, elev2, faa, fbb, show i + 2 - 2 = i by omega, h0, h1, h2, h3, h4, h5]
  generalize τ (i + 1) = x0 at *
  generalize τ (i + 2) = a at *
  generalize τ (i + 2 + 1) = b at *
  generalize τ (i + 2 + 2) = x1 at *
  match_scalars <;> field_simp <;> ring

end deg2

theorem elev2_pos {τ : Nat → K} (hτ : Monotone τ) {w : Nat → K} {n k : Nat} (hw : ∀ i < n, 0 < w i) (hk : 2 ≤ k) (hn : k < n)
    (hlt : τ k < τ (k + 1)) (m : Nat) : 0 < elev2 τ w k m := by
  have a0 := hw (k - 2) (by omega)
  have a1 := hw (k - 1) (by omega)
  have a2 := hw k hn
  have b0 := hτ (show k - 1 ≤ k by omega)
  have b1 := hτ (show k + 1 ≤ k + 2 by omega)
  have f0 : 0 ≤ faa τ w k := by
    unfold faa
    refine add_nonneg (mul_nonneg (div_nonneg ?_ ?_) a0.le) (mul_nonneg (div_nonneg ?_ ?_) a1.le) <;> linarith
  have f1 : 0 ≤ fbb τ w k := by
    unfold fbb
    refine add_nonneg (mul_nonneg (div_nonneg ?_ ?_) a1.le) (mul_nonneg (div_nonneg ?_ ?_) a2.le) <;> linarith
  rcases m with _ | _ | _ | m <;> simp only [elev2, smul_eq_mul] <;> linarith

theorem elev2_snd (τ : Nat → K) (P : Nat → P3 K × K) (k m : Nat) :
    (elev2 τ P k m).2 = elev2 τ (fun i => (P i).2) k m := by
  rcases m with _ | _ | _ | m <;> simp [elev2, faa, fbb] <;> ring

/-- degree 2 knots: the ends exactly triple, no interior value more than double -/
structure Simple2 (knots : List K) (n : Nat) : Prop where
  first : 0 < kn knots 3
  last : kn knots (n - 1) < 1
  mid : ∀ i, 3 ≤ i → i + 2 < n → kn knots i < kn knots (i + 2)

/-- What has been pushed when the loop of `degree_elevation` reaches the span `k`,
number `l` of the spans. -/
structure Inv2 (τ : Nat → K) (P : Nat → P3 K × K) (n D l : Nat) (s : List (P3 K × K) × Int) : Prop where
  pos : ∀ x ∈ s.1, 0 < x.2
  old : ∀ κ, τ κ ≠ τ (κ + 1) → κ < n → dch τ κ < l → ∀ m < 4, s.1[κ + dch τ κ - 2 + m]? = some (elev2 τ P κ m)
  final : l = D → s.1.length = n + D
  span : l < D → ∃ k : Nat, s.2 = k ∧ 2 ≤ k ∧ k < n ∧ τ k ≠ τ (k + 1) ∧ dch τ k = l ∧
    s.1[k + l - 2]? = some (elev2 τ P k 0) ∧
    (τ (k - 1) = τ k → s.1.length = k + l - 1) ∧
    (τ (k - 1) ≠ τ k → s.1.length = k + l ∧ s.1[k + l - 1]? = some (elev2 τ P k 1))

theorem dch_lt {τ : Nat → K} {i j : Nat} (hi : τ i ≠ τ (i + 1)) (hij : i < j) : dch τ i < dch τ j := by
  have := dch_mono τ (show i + 1 ≤ j from hij)
  rw [dch_change hi] at this
  omega

theorem elevate2_spec {c : Curve K} {n : Nat} (h : c.Valid 2 n) (hw : ∀ w ∈ c.weights, 0 < w) (hs : Simple2 c.knots n)
    {mult : List Int} (hl : mult.length = dch (kn c.knots) (n + 2) + 1)
    (hmult : ∀ j ≤ n + 2, (j = n + 2 ∨ kn c.knots j ≠ kn c.knots (j + 1)) →
      mult[dch (kn c.knots) j]? = some (runLen (kn c.knots) j : Int)) :
    ∃ q, c.elevate2 mult = some q ∧ q.length = n + dch (kn c.knots) (n + 2) ∧ (∀ x ∈ q, 0 < x.2) ∧
      ∀ κ, kn c.knots κ ≠ kn c.knots (κ + 1) → κ < n → ∀ m < 4,
        q[κ + dch (kn c.knots) κ - 2 + m]? = some (elev2 (kn c.knots) c.pairs κ m) := by
  set τ := kn c.knots with hτ
  set D := dch τ (n + 2) with hD
  have hm : Monotone τ := h.knots.mono
  have hn := h.knots.p_lt_n
  have hone : ∀ i, n ≤ i → τ i = 1 := fun i hi => h.knots.kn_last hi
  have hzero : ∀ i, i ≤ 2 → τ i = 0 := fun i hi => h.knots.kn_first hi
  have hwp : ∀ i < n, 0 < c.hw i := fun i hi => weights_pos h hw hi
  have hEpos : ∀ k m, 2 ≤ k → k < n → τ k ≠ τ (k + 1) → 0 < (elev2 τ c.pairs k m).2 := by
    intro k m h1 h2 h3
    rw [elev2_snd]
    exact elev2_pos hm hwp h1 h2 (lt_of_le_of_ne (hm (Nat.le_succ k)) h3) m
  have hDn : D = dch τ n := dch_const (by omega) fun m h1 _ => by rw [hone m h1, hone (m + 1) (by omega)]
  have hlastne : τ (n - 1) ≠ τ n := by
    have := hs.last
    rw [hone n le_rfl]; exact this.ne
  have hlastne' : τ (n - 1) ≠ τ (n - 1 + 1) := by rw [show n - 1 + 1 = n by omega]; exact hlastne
  have hDlast : D = dch τ (n - 1) + 1 := by
    rw [hDn, show n = n - 1 + 1 by omega, dch_change hlastne']; simp
  have hd2 : dch τ 2 = 0 := dch_const (Nat.zero_le 2) fun m _ h2 => by rw [hzero m (by omega), hzero (m + 1) (by omega)]
  have hne2 : τ 2 ≠ τ 3 := by rw [hzero 2 le_rfl]; exact hs.first.ne
  have hDpos : 0 < D := by
    have := dch_lt (τ := τ) (i := 2) (j := n + 2) hne2 (by omega)
    omega
  have g : ∀ j, j < n → c.homog (j : Int) = some (c.pairs j) := fun j hj => homog_eq h hj
  obtain ⟨s, e, hI⟩ := loopN_inv (n := mult.length - 1) (s := (([c.pairs 0], 2) : List (P3 K × K) × Int))
    (f := c.elevBody mult)
    (I := Inv2 τ c.pairs n D)
    { pos := by
        intro x hx
        simp only [List.mem_singleton] at hx
        rw [hx]; exact hwp 0 (by omega)
      old := by intro κ _ _ h3; omega
      final := by intro h3; omega
      span := by
        intro _
        have e21 : τ (2 - 1) = τ 2 := by rw [hzero _ (by omega), hzero 2 le_rfl]
        refine ⟨2, rfl, le_rfl, hn, hne2, hd2, ?_, fun _ => rfl, fun hc => absurd e21 hc⟩
        have : elev2 τ c.pairs 2 0 = c.pairs 0 := by
          rw [elev2, faa_eq e21 (lt_of_le_of_ne (hm (by omega)) hne2)]
          simp only [show 2 - 2 = 0 from rfl]
          match_scalars; norm_num
        simp [this] }
    (by
      intro l hlD s hI
      have hlD : l < D := by omega
      obtain ⟨k, hk, hk2, hkn, hkne, hkd, hq0, hqa, hqb⟩ := hI.span hlD
      have hklt : τ k < τ (k + 1) := lt_of_le_of_ne (hm (Nat.le_succ k)) hkne
      have i1 : (l : Int) + 1 - 1 = (l : Int) := by omega
      have i2 : (l : Int) + 1 = ((l + 1 : Nat) : Int) := by omega
      have gm0 : getI mult (l : Int) = some (runLen τ k : Int) := by
        rw [getI_natCast, ← hkd]; exact hmult k (by omega) (Or.inr hkne)
      have rk : runLen τ k = if τ (k - 1) ≠ τ k then 1 else runLen τ (k - 1) + 1 := by
        conv_lhs => rw [show k = k - 1 + 1 by omega]
        rw [runLen, show k - 1 + 1 = k by omega]
      have rpos : ∀ i, 1 ≤ runLen τ i := by
        intro i; cases i with
        | zero => exact le_rfl
        | succ i => rw [runLen]; split_ifs <;> omega
      have c1 : ((1 : Int) < (runLen τ k : Int)) ↔ τ (k - 1) = τ k := by
        rw [rk]
        have := rpos (k - 1)
        split_ifs with h3
        · simp only [Nat.cast_one, lt_irrefl, false_iff]; exact h3
        · simp only [not_not.1 h3, iff_true]; push_cast; omega
      -- the first conditional point
      have first : c.elevFirst s.2 (runLen τ k : Int) s.1 =
          some (if τ (k - 1) = τ k then s.1 ++ [elev2 τ c.pairs k 1] else s.1) := by
        unfold Curve.elevFirst
        rw [hk]
        by_cases hc : τ (k - 1) = τ k
        · rw [if_pos (c1.2 hc), if_pos hc, show (k : Int) - 1 = ((k - 1 : Nat) : Int) by omega,
            show (k : Int) - 2 = ((k - 2 : Nat) : Int) by omega, g (k - 1) (by omega), g (k - 2) (by omega)]
          simp only [Option.bind_eq_bind, Option.bind_some, Option.pure_def]
          rw [elev2, faa_eq hc hklt, add_comm ((1 / 3 : K) • c.pairs (k - 2))]
          congr 3
          ext1
          · rfl
          · simp only [Prod.snd_add, Prod.smul_snd, smul_eq_mul]; ring
        · rw [if_neg (fun hh => hc (c1.1 hh)), if_neg hc]
      -- the list after the first point
      obtain ⟨q, hqdef⟩ : ∃ q, q = if τ (k - 1) = τ k then s.1 ++ [elev2 τ c.pairs k 1] else s.1 := ⟨_, rfl⟩
      have hqlen : q.length = k + l := by
        rw [hqdef]; split_ifs with hc
        · rw [List.length_append, hqa hc]; simp; omega
        · exact (hqb hc).1
      have hqpre : ∀ (i : Nat) (x : P3 K × K), s.1[i]? = some x → q[i]? = some x := by
        intro i x hx
        rw [hqdef]; split_ifs with hc
        · rw [List.getElem?_append_left]; exact hx
          by_contra hcon
          rw [List.getElem?_eq_none (by omega)] at hx; simp at hx
        · exact hx
      have hq1 : q[k + l - 1]? = some (elev2 τ c.pairs k 1) := by
        rw [hqdef]; split_ifs with hc
        · rw [List.getElem?_append_right (by rw [hqa hc]), hqa hc]; simp
        · exact (hqb hc).2
      have hqpos : ∀ x ∈ q, 0 < x.2 := by
        intro x hx
        rw [hqdef] at hx
        split_ifs at hx
        · rcases List.mem_append.1 hx with h3 | h3
          · exact hI.pos x h3
          · rw [List.mem_singleton] at h3; rw [h3]; exact hEpos k 1 hk2 hkn hkne
        · exact hI.pos x hx
      -- the second pair of points
      have gk0 : getI c.knots (k : Int) = some (τ k) := by
        rw [getI_natCast]; exact kn_of_lt (by rw [h.knots.length]; omega)
      have gk1 : getI c.knots ((k : Int) + 1) = some (τ (k + 1)) := by
        rw [show (k : Int) + 1 = ((k + 1 : Nat) : Int) by omega, getI_natCast]
        exact kn_of_lt (by rw [h.knots.length]; omega)
      have gk2 : getI c.knots ((k : Int) + 2) = some (τ (k + 2)) := by
        rw [show (k : Int) + 2 = ((k + 2 : Nat) : Int) by omega, getI_natCast]
        exact kn_of_lt (by rw [h.knots.length]; omega)
      have hd3 : τ (k + 2) - τ k ≠ 0 := den_ne hm hklt _ _ le_rfl (by omega)
      have hd3' : ¬ (3 * (τ (k + 2) - τ k) = 0) := mul_ne_zero (by norm_num) hd3
      have second : ∀ m1 : Int, (1 < m1 ↔ τ (k + 1) = τ (k + 2)) →
          c.elevSecond s.2 m1 q = some (q ++ [elev2 τ c.pairs k 2, elev2 τ c.pairs k 3]) := by
        unfold Curve.elevSecond
        rw [hk, show (k : Int) - 1 = ((k - 1 : Nat) : Int) by omega, g k hkn, g (k - 1) (by omega)]
        simp only [Option.bind_eq_bind, Option.bind_some, Option.pure_def]
        intro m1 hm1
        by_cases hc : τ (k + 1) = τ (k + 2)
        · rw [if_pos (hm1.2 hc)]
          simp only [elev2, fbb_eq hc hklt]
          congr 3
          · rw [add_comm]
            ext1
            · rfl
            · simp only [Prod.snd_add, Prod.smul_snd, smul_eq_mul]; ring
          · congr 1
            match_scalars; norm_num
        · rw [if_neg (fun hh => hc (hm1.1 hh)), gk0, gk1, gk2]
          simp only [Option.bind_eq_bind, Option.bind_some, divR, if_neg hd3', elev2, fbb]
          congr 3
          · ext1
            · simp only [Prod.fst_add, Prod.smul_fst]
              match_scalars <;> field_simp <;> ring
            · simp only [Prod.snd_add, Prod.smul_snd, smul_eq_mul]
              field_simp; ring
          · congr 1
            ext1
            · simp only [Prod.fst_add, Prod.smul_fst]
              match_scalars <;> field_simp <;> ring
            · simp only [Prod.snd_add, Prod.smul_snd, smul_eq_mul]
              field_simp; ring
      -- the whole body, once the multiplicity is known
      have body : ∀ m1 : Int, mult[l + 1]? = some m1 → (1 < m1 ↔ τ (k + 1) = τ (k + 2)) →
          Inv2 τ c.pairs n D (l + 1) (q ++ [elev2 τ c.pairs k 2, elev2 τ c.pairs k 3], (k : Int) + m1) →
          ∃ s', c.elevBody mult l s = some s' ∧ Inv2 τ c.pairs n D (l + 1) s' := by
        intro m1 hm1 hc hinv
        refine ⟨_, ?_, hinv⟩
        have gm1 : getI mult ((l : Int) + 1) = some m1 := by rw [i2, getI_natCast]; exact hm1
        unfold Curve.elevBody
        simp only [i1, gm0, gm1, first, ← hqdef, second m1 hc, Option.bind_eq_bind, Option.bind_some, Option.pure_def]
        rw [hk]
      have hq4 : ∀ m < 4, (q ++ [elev2 τ c.pairs k 2, elev2 τ c.pairs k 3])[k + dch τ k - 2 + m]? =
          some (elev2 τ c.pairs k m) := by
        intro m hm4
        rw [hkd]
        obtain rfl | rfl | rfl | rfl : m = 0 ∨ m = 1 ∨ m = 2 ∨ m = 3 := by omega
        · rw [List.getElem?_append_left (by omega)]; exact hqpre _ _ hq0
        · rw [show k + l - 2 + 1 = k + l - 1 by omega, List.getElem?_append_left (by omega)]; exact hq1
        · rw [show k + l - 2 + 2 = k + l by omega, List.getElem?_append_right (by omega), hqlen]; simp
        · rw [show k + l - 2 + 3 = k + l + 1 by omega, List.getElem?_append_right (by omega), hqlen]; simp
      have hpos' : ∀ x ∈ q ++ [elev2 τ c.pairs k 2, elev2 τ c.pairs k 3], 0 < x.2 := by
        intro x hx
        rcases List.mem_append.1 hx with h3 | h3
        · exact hqpos x h3
        · simp only [List.mem_cons, List.not_mem_nil, or_false] at h3
          rcases h3 with rfl | rfl <;> exact hEpos k _ hk2 hkn hkne
      have hlen' : (q ++ [elev2 τ c.pairs k 2, elev2 τ c.pairs k 3]).length = k + l + 2 := by
        rw [List.length_append, hqlen]; rfl
      have hold' : ∀ κ, τ κ ≠ τ (κ + 1) → κ < n → dch τ κ < l + 1 → ∀ m < 4,
          (q ++ [elev2 τ c.pairs k 2, elev2 τ c.pairs k 3])[κ + dch τ κ - 2 + m]? = some (elev2 τ c.pairs κ m) := by
        intro κ h1 h2 h3 m hm4
        rcases Nat.lt_succ_iff_lt_or_eq.1 h3 with h4 | h4
        · have := hqpre _ _ (hI.old κ h1 h2 h4 m hm4)
          rw [List.getElem?_append_left]; exact this
          by_contra hcon
          rw [List.getElem?_eq_none (by omega)] at this; simp at this
        · have : κ = k := by
            rcases Nat.lt_trichotomy κ k with h5 | h5 | h5
            · have := dch_lt h1 h5; omega
            · exact h5
            · have := dch_lt hkne h5; omega
          subst this
          exact hq4 m hm4
      rcases Nat.lt_or_eq_of_le (show k ≤ n - 1 by omega) with hlast | hlast
      · -- not the last span
        have hk1 : τ (k + 1) ≠ 1 := ((hm (show k + 1 ≤ n - 1 by omega)).trans_lt hs.last).ne
        by_cases hc : τ (k + 1) = τ (k + 2)
        · -- a double knot
          have hk3 : τ (k + 2) ≠ τ (k + 2 + 1) := by
            intro h4
            rcases Nat.lt_or_ge (k + 3) n with h5 | h5
            · have := hs.mid (k + 1) (by omega) (by omega)
              rw [show k + 1 + 2 = k + 2 + 1 by omega] at this
              rw [← hτ] at this
              rw [hc, h4] at this; exact lt_irrefl _ this
            · rw [hone (k + 2 + 1) (by omega)] at h4
              exact hk1 (hc.trans h4)
          have hkn2 : k + 2 < n := by
            by_contra h5
            rw [hone (k + 2) (by omega)] at hc
            exact hk1 hc
          have hdk : dch τ (k + 2) = l + 1 := by rw [dch_same hc, dch_change hkne, hkd]
          have hr : runLen τ (k + 2) = 2 := by
            rw [runLen, if_neg (not_not.2 hc), runLen, if_pos hkne]
          have hm1 := hmult (k + 2) (by omega) (Or.inr hk3)
          rw [hdk, hr] at hm1
          refine body _ hm1 (by simp [hc]) ⟨hpos', hold', ?_, ?_⟩
          · intro h5
            have := dch_lt hk3 (show k + 2 < n + 2 by omega)
            omega
          · intro _
            have e1 : τ (k + 2 - 1) = τ (k + 2) := hc
            refine ⟨k + 2, by push_cast; rfl, by omega, hkn2, hk3, hdk, ?_, ?_, ?_⟩
            · have hE : elev2 τ c.pairs (k + 2) 0 = elev2 τ c.pairs k 3 := by
                simp only [elev2]
                rw [faa_eq e1 (lt_of_le_of_ne (hm (by omega)) hk3), fbb_eq hc hklt]
                simp only [Nat.add_sub_cancel]
                match_scalars; norm_num
              have := hq4 3 (by omega)
              rw [hE, ← this, hkd]; congr 1; omega
            · intro _; rw [hlen']; omega
            · intro h5; exact absurd e1 h5
        · -- a simple knot
          have hdk : dch τ (k + 1) = l + 1 := by rw [dch_change hkne, hkd]
          have hr : runLen τ (k + 1) = 1 := by rw [runLen, if_pos hkne]
          have hm1 := hmult (k + 1) (by omega) (Or.inr hc)
          rw [hdk, hr] at hm1
          refine body _ hm1 (by simp [hc]) ⟨hpos', hold', ?_, ?_⟩
          · intro h5
            have := dch_lt hc (show k + 1 < n + 2 by omega)
            omega
          · intro _
            have e1 : τ (k + 1 - 1) ≠ τ (k + 1) := hkne
            refine ⟨k + 1, by push_cast; rfl, by omega, by omega, hc, hdk, ?_, ?_, ?_⟩
            · have := hq4 2 (by omega)
              have hE : elev2 τ c.pairs (k + 1) 0 = elev2 τ c.pairs k 2 := rfl
              rw [hE, ← this, hkd]; congr 1; omega
            · intro h5; exact absurd h5 e1
            · intro _
              refine ⟨by rw [hlen']; omega, ?_⟩
              have := hq4 3 (by omega)
              have hE : elev2 τ c.pairs (k + 1) 1 = elev2 τ c.pairs k 3 := rfl
              rw [hE, ← this, hkd]; congr 1; omega
      · -- the last span
        have hl1 : l + 1 = D := by rw [hDlast, ← hlast, hkd]
        have hc : τ (k + 1) = τ (k + 2) := by rw [hone (k + 1) (by omega), hone (k + 2) (by omega)]
        have hr : runLen τ (n + 2) = 3 := by
          rw [runLen, if_neg (by rw [hone (n + 1) (by omega), hone (n + 1 + 1) (by omega)]; simp), runLen,
            if_neg (by rw [hone n le_rfl, hone (n + 1) (by omega)]; simp)]
          conv_lhs => rw [show n = n - 1 + 1 by omega]
          rw [runLen, if_pos hlastne']
        have hm1 := hmult (n + 2) le_rfl (Or.inl rfl)
        rw [hr, ← hD, ← hl1] at hm1
        refine body _ hm1 (by simp [hc]) ⟨hpos', hold', ?_, ?_⟩
        · intro _; rw [hlen']; omega
        · intro h5; omega)
  refine ⟨s.1, ?_, ?_, hI.pos, ?_⟩
  · unfold Curve.elevate2
    have g0 := g 0 (by omega)
    rw [Nat.cast_zero] at g0
    rw [g0]
    simp only [Option.bind_eq_bind, Option.bind_some]
    rw [e]; rfl
  · exact hI.final (by omega)
  · intro κ h1 h2 m hm4
    refine hI.old κ h1 h2 ?_ m hm4
    have := dch_lt h1 (show κ < n + 2 by omega)
    omega

theorem degree_elevation_2_refines {c : Curve K} {n : Nat} (h : c.Valid 2 n) (hw : ∀ w ∈ c.weights, 0 < w)
    (hs : Simple2 c.knots n) :
    ∃ c' n', c.degreeElevation = some (c', true) ∧ c'.Valid 3 n' ∧ (∀ w ∈ c'.weights, 0 < w) ∧
      some c'.knots = (Curve.elevateKnots c.knots).map Prod.fst ∧ c.Refines c' 2 3 := by
  obtain ⟨kn', mult, e, hcl, hl, k1, k2⟩ := elevateKnots_clamped h.knots
  obtain ⟨q, hq, hql, hqpos, hqE⟩ := elevate2_spec h hw hs hl fun j hj hc => (k2 j hj hc).2
  have hn := h.knots.p_lt_n
  obtain ⟨c', e1, e2, e3, e4, e5⟩ := elevate_finish h e (Or.inr ⟨h.degree, hq⟩) hcl hql hqpos (by
    intro t k hsp
    obtain ⟨hs', m1, m2, m3⟩ := elevated_span h.knots k1 (fun j hj hc => (k2 j hj hc).1) hsp
    obtain ⟨hpk, hkn⟩ := hsp.range h.knots
    refine ⟨_, hs', fun u => ?_⟩
    have hone : ∀ i, n ≤ i → kn c.knots i = 1 := fun i hi => h.knots.kn_last hi
    have hne := hsp.1.ne
    obtain ⟨d, hd⟩ : ∃ d, dch (kn c.knots) k = d := ⟨_, rfl⟩
    have hd1 : dch (kn c.knots) (k + 1) = d + 1 := by rw [dch_change hne, hd]
    have hE := hqE k hne hkn
    rw [hd] at m1 m2 m3 hE ⊢
    obtain ⟨i, rfl⟩ : ∃ i, k = i + 2 := ⟨k - 2, by omega⟩
    rw [show i + 2 + d + 1 = i + d + 3 by omega] at m2 ⊢
    rw [show i + 2 + d = i + d + 2 by omega] at m1
    rw [show i + 2 + d + 2 = i + d + 4 by omega] at m3
    -- the remaining knots
    have m0 : kn kn' (i + d + 1) = kn c.knots (i + 2 - 1) := by
      rw [show i + 2 - 1 = i + 1 by omega]
      by_cases hc : kn c.knots (i + 1) = kn c.knots (i + 1 + 1)
      · have := k1 (i + 1) (by omega)
        rw [← dch_same hc, show i + 1 + 1 = i + 2 by omega, hd] at this
        rw [← this]; congr 1; omega
      · have := (k2 (i + 1) (by omega) (Or.inr hc)).1
        have hdd := dch_change hc
        rw [show i + 1 + 1 = i + 2 by omega, hd] at hdd
        rw [← this]; congr 1; omega
    have m4 : kn kn' (i + d + 5) = kn c.knots (i + 2 + 1) := by
      by_cases hc : kn c.knots (i + 2 + 1) = kn c.knots (i + 2 + 1 + 1)
      · have := k1 (i + 2 + 1 + 1) (by omega)
        rw [dch_same hc, hd1] at this
        rw [hc, ← this]; congr 1; omega
      · have := (k2 (i + 2 + 1) (by omega) (Or.inr hc)).1
        rw [hd1] at this
        rw [← this]; congr 1; omega
    have m5 : kn kn' (i + d + 6) = kn c.knots (i + 2 + 2) := by
      by_cases hc : kn c.knots (i + 2 + 1) = kn c.knots (i + 2 + 1 + 1)
      · have hdd : dch (kn c.knots) (i + 2 + 2) = d + 1 := by
          rw [show i + 2 + 2 = i + 2 + 1 + 1 by omega, dch_same hc, hd1]
        by_cases hc2 : kn c.knots (i + 2 + 2) = kn c.knots (i + 2 + 2 + 1)
        · have hin : i + 3 ≤ n := by omega
          by_cases hl3 : i + 2 + 2 + 1 ≤ n + 2
          · have := k1 (i + 2 + 2 + 1) hl3
            rw [dch_same hc2, hdd] at this
            rw [hc2, ← this]; congr 1; omega
          · have := (k2 (i + 2 + 2) (by omega) (Or.inl (by omega))).1
            rw [hdd] at this
            rw [← this]; congr 1; omega
        · have := (k2 (i + 2 + 2) (by omega) (Or.inr hc2)).1
          rw [hdd] at this
          rw [← this]; congr 1; omega
      · have hdd : dch (kn c.knots) (i + 2 + 2) = d + 2 := by
          rw [show i + 2 + 2 = i + 2 + 1 + 1 by omega, dch_change hc, hd1]
        have := k1 (i + 2 + 2) (by omega)
        rw [hdd] at this
        rw [← this]; congr 1; omega
    have hQ : ∀ m < 4, q.getD (i + d + m) 0 = elev2 (kn c.knots) c.pairs (i + 2) m := by
      intro m hm4
      have := hE m hm4
      rw [show i + 2 + d - 2 + m = i + d + m by omega] at this
      simp [List.getD, this]
    exact deB_elev2 (P := c.pairs) (by omega) u m0 m1 m2 m3 m4 m5 h.knots.mono hsp.1
      (hQ 0 (by omega)) (hQ 1 (by omega)) (hQ 2 (by omega)) (hQ 3 (by omega)))
  exact ⟨c', _, e1, e2, e3, by rw [e, e4]; rfl, e5⟩

/-- C49.  A curve of degree 2 whose ends are exactly triple knots and whose interior
knots are at most double is elevated to degree 3 without moving. -/
theorem degree_elevation_2 {c : Curve K} {n : Nat} (h : c.Valid 2 n) (hw : ∀ w ∈ c.weights, 0 < w)
    (hs : Simple2 c.knots n) :
    ∃ c' n', c.degreeElevation = some (c', true) ∧ c'.Valid 3 n' ∧ (∀ w ∈ c'.weights, 0 < w) ∧
      ∀ t, c'.at t = c.at t := by
  obtain ⟨c', n', e1, e2, e3, _, e5⟩ := degree_elevation_2_refines h hw hs
  exact ⟨c', n', e1, e2, e3, fun t => e5.at h e2 t⟩

/-- C49.  From degree 3 on nothing happens and `false` is returned. -/
theorem degree_elevation_3 {c : Curve K} (h : 3 ≤ c.degree) : c.degreeElevation = some (c, false) := by
  unfold Curve.degreeElevation
  rw [if_pos h]; rfl

example : (quarter.degreeElevation).map (fun r => (r.1.knots, r.1.points.length, r.1.at (1 / 3), r.2)) =
    some ([0, 0, 0, 0, 1, 1, 1, 1], 4, quarter.at (1 / 3), true) := by decide +kernel

/-- a degree 2 curve with one double and one simple interior knot -/
example : Simple2 ([0, 0, 0, 1 / 4, 1 / 2, 1 / 2, 1, 1, 1] : List ℚ) 6 :=
  ⟨by decide +kernel, by decide +kernel, fun i h1 h2 => by obtain rfl : i = 3 := by omega
                                                           decide +kernel⟩

/-- C49, the negation for degree 0: `degree_elevation` returns true, but the curve has
lost all its points and can no longer be evaluated. -/
theorem degree_elevation_0_loses :
    let c : Curve ℚ := ⟨0, [0, 1 / 2, 1], [1, 1], [⟨1, 0, 0⟩, ⟨2, 0, 0⟩], 2, [⟨0, 0, 0⟩], [0]⟩
    c.at 0 = some ⟨1, 0, 0⟩ ∧
      c.degreeElevation.map (fun r => (r.1.points, r.1.at 0, r.2)) = some ([], none, true) := by
  decide +kernel

/-- C49, the negation for degree 1 with a double interior knot (a polyline with a
gap): `true` is returned, and every later evaluation fails its assert. -/
theorem degree_elevation_1_double :
    let c : Curve ℚ := ⟨1, [0, 0, 1 / 2, 1 / 2, 1, 1], [1, 1, 1, 1],
      [⟨0, 0, 0⟩, ⟨1, 0, 0⟩, ⟨1, 1, 0⟩, ⟨2, 1, 0⟩], 4, [⟨0, 0, 0⟩, ⟨0, 0, 0⟩], [0, 0]⟩
    c.at (1 / 4) = some ⟨1 / 2, 0, 0⟩ ∧
      c.degreeElevation.map (fun r => (r.1.at (1 / 4), r.2)) = some (none, true) := by
  decide +kernel

/-- C49, the negation for degree 2 with a triple interior knot. -/
theorem degree_elevation_2_triple :
    let c : Curve ℚ := ⟨2, [0, 0, 0, 1 / 2, 1 / 2, 1 / 2, 1, 1, 1], [1, 1, 1, 1, 1, 1],
      [⟨0, 0, 0⟩, ⟨1, 0, 0⟩, ⟨2, 0, 0⟩, ⟨2, 1, 0⟩, ⟨2, 2, 0⟩, ⟨2, 3, 0⟩], 6,
      [⟨0, 0, 0⟩, ⟨0, 0, 0⟩, ⟨0, 0, 0⟩], [0, 0, 0]⟩
    c.at (1 / 4) = some ⟨1, 0, 0⟩ ∧
      c.degreeElevation.map (fun r => (r.1.at (1 / 4), r.2)) = some (none, true) := by
  decide +kernel

end Nurbs
end CAD
