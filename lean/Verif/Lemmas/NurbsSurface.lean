import Verif.Spec.NurbsSurface
import Verif.Props.NurbsElevate

/-! The loops of `NurbsSurface::evaluate` compute de Boor's triangle in both
directions. -/

set_option linter.unusedSimpArgs false

namespace CAD
namespace Nurbs
open BSpline
variable {K : Type} [Field K] [LinearOrder K]

/-- homogeneous control point -/
def Surface.hp (s : Surface K) (nu i j : Nat) : P3 K := s.wt nu i j • s.pt nu i j

/-- homogeneous control point and weight -/
def Surface.pair (s : Surface K) (nu i j : Nat) : P3 K × K := (s.hp nu i j, s.wt nu i j)

theorem idx_lt {nu nv i j : Nat} (hi : i < nu) (hj : j < nv) : i + nu * j < nu * nv := by
  have : nu * (j + 1) ≤ nu * nv := Nat.mul_le_mul_left _ hj
  rw [Nat.mul_succ] at this
  omega

theorem fillRow_eq (o : EvalOps K) {s : Surface K} {p q nu nv k jv : Nat} (h : s.Valid p q nu nv) (hpk : p ≤ k) (hkn : k < nu)
    (hj : jv < nv) (t : List (P3 K) × List K) (l1 : p + 1 ≤ t.1.length) (l2 : p + 1 ≤ t.2.length) :
    ∃ t', s.fillRow o k jv t = some t' ∧ t'.1.length = t.1.length ∧ t'.2.length = t.2.length ∧
      (∀ j ≤ p, t'.1[j]? = some (o.weigh (s.wt nu (k - p + j) jv) (s.pt nu (k - p + j) jv))) ∧ (∀ j ≤ p, t'.2[j]? = some (s.wt nu (k - p + j) jv)) := by
  obtain ⟨s1, f1, f2, f3, f4, f5⟩ := loopN_inv (n := p + 1) (s := t)
    (f := fun ui (t : List (P3 K) × List K) => do
      let idxU := (ui : Int) + k - p
      assert (0 ≤ idxU)
      assert (idxU < (nu : Int))
      let w ← getI s.weights (idxU + nu * jv)
      let tw ← setI t.2 ui w
      let p ← getI s.points (idxU + nu * jv)
      let tp ← setI t.1 ui (o.weigh w p)
      return (tp, tw))
    (I := fun r (t' : List (P3 K) × List K) => t'.1.length = t.1.length ∧ t'.2.length = t.2.length ∧
      (∀ j < r, t'.1[j]? = some (o.weigh (s.wt nu (k - p + j) jv) (s.pt nu (k - p + j) jv))) ∧ (∀ j < r, t'.2[j]? = some (s.wt nu (k - p + j) jv)))
    ⟨rfl, rfl, by simp, by simp⟩
    (by
      rintro j hj' t' ⟨a1, a2, a3, a4⟩
      have e1 : (j : Int) + k - p = ((k - p + j : Nat) : Int) := by omega
      have e2 : ((k - p + j : Nat) : Int) + (nu : Int) * (jv : Int) = ((k - p + j + nu * jv : Nat) : Int) := by push_cast; ring
      have hlt : k - p + j + nu * jv < nu * nv := idx_lt (by omega) hj
      have g1 := getD_of_lt s.weights 0 (i := k - p + j + nu * jv) (by rw [h.weights]; omega)
      have g2 := getD_of_lt s.points ⟨0, 0, 0⟩ (i := k - p + j + nu * jv) (by rw [h.points]; omega)
      have t1 : (0 : Int) ≤ ((k - p + j : Nat) : Int) := by omega
      have t2 : ((k - p + j : Nat) : Int) < (nu : Int) := by omega
      simp only [e1, e2, assert, t1, t2, if_true, getI_natCast, g1, g2, Option.bind_eq_bind, Option.bind_some,
        Option.pure_def,
        setI_of_inRange (l := t'.1) (i := ((j : Nat) : Int)) _ ⟨by omega, by omega⟩,
        setI_of_inRange (l := t'.2) (i := ((j : Nat) : Int)) _ ⟨by omega, by omega⟩, Int.toNat_natCast]
      refine ⟨_, rfl, by simpa using a1, by simpa using a2, ?_, ?_⟩
      · intro i hi
        rw [List.getElem?_set]
        by_cases hij : j = i
        · subst hij; rw [if_pos rfl, if_pos (by omega)]; rfl
        · rw [if_neg hij]; exact a3 i (by omega)
      · intro i hi
        rw [List.getElem?_set]
        by_cases hij : j = i
        · subst hij; rw [if_pos rfl, if_pos (by omega)]; rfl
        · rw [if_neg hij]; exact a4 i (by omega))
  refine ⟨s1, ?_, f2, f3, fun j hj => f4 j (by omega), fun j hj => f5 j (by omega)⟩
  unfold Surface.fillRow
  simp only [h.degreeU, h.nbU, show ((p : Int) + 1).toNat = p + 1 by omega]
  exact f1

variable [IsStrictOrderedRing K]

/-- `evaluate` computes de Boor's triangles, whatever the arithmetic. -/
theorem surface_evaluateBy_eq (o : EvalOps K) {s : Surface K} {p q nu nv k l : Nat} (h : s.Valid p q nu nv) {u v : K}
    (hk : InSpan s.knotsU (clamp u) k) (hl : InSpan s.knotsV (clamp v) l) (A B : Nat → Nat → K)
    (hA : ∀ i j, i ≤ k → k < j → o.alpha u (kn s.knotsU i) (kn s.knotsU j) = some (A i j))
    (hB : ∀ i j, i ≤ l → l < j → o.alpha v (kn s.knotsV i) (kn s.knotsV j) = some (B i j)) :
    ∃ pu wu pv wv, pu.length = s.tempPointsU.length ∧ wu.length = s.tempWeightsU.length ∧
      pv.length = s.tempPointsV.length ∧ wv.length = s.tempWeightsV.length ∧
      s.evaluateBy o u v = (o.divide
          (levBy (fun i j => o.blendP (B i j)) q (fun j =>
            levBy (fun i j => o.blendP (A i j)) p (fun i => o.weigh (s.wt nu i j) (s.pt nu i j)) p k) q l)
          (levBy (fun i j => o.blendW (B i j)) q (fun j =>
            levBy (fun i j => o.blendW (A i j)) p (fun i => s.wt nu i j) p k) q l)).map
        fun x => ({ s with tempPointsU := pu, tempWeightsU := wu, tempPointsV := pv, tempWeightsV := wv }, x) := by
  obtain ⟨hpk, hkn⟩ := hk.range h.knotsU
  obtain ⟨hql, hln⟩ := hl.range h.knotsV
  have hspU := findKnotSpan_eq h.knotsU hk
  have hspV := findKnotSpan_eq h.knotsV hl
  have hlenU := h.knotsU.length
  have hlenV := h.knotsV.length
  obtain ⟨t, f1, f2, f3, f4, f5, f6, f7⟩ := loopN_inv (n := q + 1)
    (s := ((s.tempPointsU, s.tempWeightsU), (s.tempPointsV, s.tempWeightsV)))
    (f := s.evalRow o k l u)
    (I := fun r t => t.1.1.length = s.tempPointsU.length ∧ t.1.2.length = s.tempWeightsU.length ∧
      t.2.1.length = s.tempPointsV.length ∧ t.2.2.length = s.tempWeightsV.length ∧
      (∀ j < r, t.2.1[j]? = some (levBy (fun i j => o.blendP (A i j)) p
        (fun i => o.weigh (s.wt nu i (l - q + j)) (s.pt nu i (l - q + j))) p k)) ∧
      (∀ j < r, t.2.2[j]? = some (levBy (fun i j => o.blendW (A i j)) p (fun i => s.wt nu i (l - q + j)) p k)))
    ⟨rfl, rfl, rfl, rfl, by simp, by simp⟩
    (by
      rintro j hj t ⟨a1, a2, a3, a4, a5, a6⟩
      have m1 := h.tempPointsU
      have m2 := h.tempWeightsU
      have m3 := h.tempPointsV
      have m4 := h.tempWeightsV
      obtain ⟨t1, b1, b2, b3, b4, b5⟩ := fillRow_eq o h hpk hkn (show l - q + j < nv by omega) t.1 (by omega) (by omega)
      obtain ⟨t2, c1, c2, c3, c4, c5⟩ := deBoorLoopsBy_spec o hpk (by omega) u A hA
        (fun i => o.weigh (s.wt nu i (l - q + j)) (s.pt nu i (l - q + j))) (fun i => s.wt nu i (l - q + j)) t1 b4 b5
      have e1 : (j : Int) + l - q = ((l - q + j : Nat) : Int) := by omega
      have d1 : (0 : Int) ≤ ((l - q + j : Nat) : Int) := by omega
      have d2 : ((l - q + j : Nat) : Int) < (nv : Int) := by omega
      unfold Surface.evalRow
      simp only [h.degreeU, h.degreeV, h.nbV, e1, assert, d1, d2, if_true, Option.bind_eq_bind, Option.bind_some,
        Option.pure_def, b1, c1, getI_natCast, c4, c5,
        setI_of_inRange (l := t.2.1) (i := ((j : Nat) : Int)) _ ⟨by omega, by omega⟩,
        setI_of_inRange (l := t.2.2) (i := ((j : Nat) : Int)) _ ⟨by omega, by omega⟩, Int.toNat_natCast]
      refine ⟨_, rfl, by simp only; omega, by simp only; omega, by simpa using a3, by simpa using a4, ?_, ?_⟩
      · intro i hi
        rw [List.getElem?_set]
        by_cases hij : j = i
        · subst hij; rw [if_pos rfl, if_pos (by omega)]
        · rw [if_neg hij]; exact a5 i (by omega)
      · intro i hi
        rw [List.getElem?_set]
        by_cases hij : j = i
        · subst hij; rw [if_pos rfl, if_pos (by omega)]
        · rw [if_neg hij]; exact a6 i (by omega))
  obtain ⟨t2, g1, g2, g3, g4, g5⟩ := deBoorLoopsBy_spec o hql (by omega) v B hB
    (fun j => levBy (fun i j => o.blendP (A i j)) p (fun i => o.weigh (s.wt nu i j) (s.pt nu i j)) p k)
    (fun j => levBy (fun i j => o.blendW (A i j)) p (fun i => s.wt nu i j) p k) t.2
    (fun j hj => f6 j (by omega)) (fun j hj => f7 j (by omega))
  refine ⟨t.1.1, t.1.2, t2.1, t2.2, f2, f3, by omega, by omega, ?_⟩
  unfold Surface.evaluateBy
  have b1 : s.points.length = s.weights.length := by rw [h.points, h.weights]
  have b2 : ((nu : Nat) : Int) = (s.knotsU.length : Int) - (p : Int) - 1 := by rw [hlenU]; push_cast; ring
  have b3 : ((nv : Nat) : Int) = (s.knotsV.length : Int) - (q : Int) - 1 := by rw [hlenV]; push_cast; ring
  have b4 : ((nu : Nat) : Int) * (nv : Int) = (s.points.length : Int) := by rw [h.points]; push_cast; ring
  have b5 : ((q : Int) + 1).toNat = q + 1 := by omega
  simp only [h.nbU, h.nbV, h.degreeU, h.degreeV, hspU, hspV, b5]
  rw [assert, if_pos b1, assert, if_pos b2, assert, if_pos b3, assert, if_pos b4]
  simp only [Option.bind_eq_bind, Option.bind_some, Option.pure_def, f1, g1, getI_natCast, g4, g5]
  cases o.divide _ _ <;> simp [h.degreeU, h.degreeV, h.nbU, h.nbV]

theorem surface_evaluate_eq {s : Surface K} {p q nu nv k l : Nat} (h : s.Valid p q nu nv) {u v : K}
    (hk : InSpan s.knotsU (clamp u) k) (hl : InSpan s.knotsV (clamp v) l) :
    ∃ pu wu pv wv, pu.length = s.tempPointsU.length ∧ wu.length = s.tempWeightsU.length ∧
      pv.length = s.tempPointsV.length ∧ wv.length = s.tempWeightsV.length ∧
      s.evaluate u v =
        if deB (kn s.knotsV) v q (fun j => deB (kn s.knotsU) u p (fun i => s.wt nu i j) k) l = 0 then none else
        some ({ s with tempPointsU := pu, tempWeightsU := wu, tempPointsV := pv, tempWeightsV := wv },
          (1 / deB (kn s.knotsV) v q (fun j => deB (kn s.knotsU) u p (fun i => s.wt nu i j) k) l) •
            deB (kn s.knotsV) v q (fun j => deB (kn s.knotsU) u p (fun i => s.hp nu i j) k) l) := by
  obtain ⟨pu, wu, pv, wv, l1, l2, l3, l4, e⟩ := surface_evaluateBy_eq exactOps h hk hl _ _
    (exactOps_alpha (den_ne h.knotsU.mono hk.1) u) (exactOps_alpha (den_ne h.knotsV.mono hl.1) v)
  refine ⟨pu, wu, pv, wv, l1, l2, l3, l4, ?_⟩
  rw [Surface.evaluate, e]
  simp only [levBy_exactP, levBy_exactW]
  simp only [exactOps, divP]
  by_cases hw : deB (kn s.knotsV) v q (fun j => deB (kn s.knotsU) u p (fun i => s.wt nu i j) k) l = 0
  · rw [if_pos hw, if_pos hw]; rfl
  · rw [if_neg hw, if_neg hw, div_eq_smul]; rfl

theorem surface_at_eq {s : Surface K} {p q nu nv k l : Nat} (h : s.Valid p q nu nv) {u v : K}
    (hk : InSpan s.knotsU (clamp u) k) (hl : InSpan s.knotsV (clamp v) l) :
    s.at u v =
      if deB (kn s.knotsV) v q (fun j => deB (kn s.knotsU) u p (fun i => s.wt nu i j) k) l = 0 then none else
      some ((1 / deB (kn s.knotsV) v q (fun j => deB (kn s.knotsU) u p (fun i => s.wt nu i j) k) l) •
        deB (kn s.knotsV) v q (fun j => deB (kn s.knotsU) u p (fun i => s.hp nu i j) k) l) := by
  obtain ⟨_, _, _, _, _, _, _, _, e⟩ := surface_evaluate_eq h hk hl
  rw [Surface.at, e]
  split_ifs <;> rfl

theorem surface_at_pair {s : Surface K} {p q nu nv k l : Nat} (h : s.Valid p q nu nv) {u v : K}
    (hk : InSpan s.knotsU (clamp u) k) (hl : InSpan s.knotsV (clamp v) l) :
    s.at u v = project (deB (kn s.knotsV) v q (fun j => deB (kn s.knotsU) u p (fun i => s.pair nu i j) k) l) := by
  have e1 : ∀ j, deB (kn s.knotsU) u p (fun i => s.hp nu i j) k = (deB (kn s.knotsU) u p (fun i => s.pair nu i j) k).1 :=
    fun j => deB_fst _ u p (fun i => s.pair nu i j) k
  have e2 : ∀ j, deB (kn s.knotsU) u p (fun i => s.wt nu i j) k = (deB (kn s.knotsU) u p (fun i => s.pair nu i j) k).2 :=
    fun j => deB_snd _ u p (fun i => s.pair nu i j) k
  rw [surface_at_eq h hk hl]
  simp only [e1, e2, deB_fst, deB_snd, project]

omit [IsStrictOrderedRing K] in
/-- de Boor's triangles in the two directions commute -/
theorem deB_comm {M : Type} [AddCommGroup M] [Module K M] (τ σ : Nat → K) {k l n m p q : Nat} (u v : K)
    (hp : p ≤ k) (hn : k < n) (hd : ∀ i j, i ≤ k → k < j → τ j - τ i ≠ 0)
    (hq : q ≤ l) (hm : l < m) (hd' : ∀ i j, i ≤ l → l < j → σ j - σ i ≠ 0) (c : Nat → Nat → M) :
    deB σ v q (fun j => deB τ u p (fun i => c i j) k) l = deB τ u p (fun i => deB σ v q (fun j => c i j) l) k := by
  simp only [deB_eq_sum τ u hp hn hd, deB_eq_sum σ v hq hm hd', Finset.smul_sum]
  rw [Finset.sum_comm]
  refine Finset.sum_congr rfl fun i _ => Finset.sum_congr rfl fun j _ => ?_
  rw [smul_comm]

end Nurbs
end CAD
