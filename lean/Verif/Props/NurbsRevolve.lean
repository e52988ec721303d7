import Verif.Props.NurbsBuild
import Mathlib.LinearAlgebra.Prod
import Mathlib.Topology.Order.IntermediateValue
import Mathlib.Analysis.SpecialFunctions.Sqrt
import Mathlib.Algebra.Module.LinearMap.End

/-! C54: surfaces of revolution. -/

set_option linter.unusedSimpArgs false

namespace CAD
namespace Nurbs
open BSpline
variable {K : Type} [Field K]

/-- rotation about the z axis (clockwise seen from above) with cosine `c` and sine `s` -/
def spin (c s : K) (p : P3 K) : P3 K := ⟨c * p.x + s * p.y, c * p.y - s * p.x, p.z⟩

/-- quarter turn as a linear map -/
def turnL : P3 K →ₗ[K] P3 K where
  toFun := turn
  map_add' p q := by ext <;> simp [turn] <;> ring
  map_smul' a p := by ext <;> simp [turn]

/-- diagonal point as a linear map -/
def diagL : P3 K →ₗ[K] P3 K where
  toFun := diag
  map_add' p q := by ext <;> simp [diag, turn] <;> ring
  map_smul' a p := by ext <;> simp [diag, turn] <;> ring

/-- the homogeneous control point number `i` of the circle of a homogeneous point -/
def ringMap (r2 : K) (i : Nat) : (P3 K × K) →ₗ[K] (P3 K × K) :=
  if i % 2 = 0 then LinearMap.prodMap (turnL ^ (i / 2)) LinearMap.id
  else (1 / r2) • LinearMap.prodMap (diagL ∘ₗ (turnL ^ (i / 2))) LinearMap.id

theorem ringMap_even (r2 : K) (j : Nat) (H : P3 K × K) : ringMap r2 (2 * j) H = (turn^[j] H.1, H.2) := by
  rw [ringMap, if_pos (by omega), show 2 * j / 2 = j by omega]
  exact Prod.ext (Module.End.pow_apply _ _ _) rfl

theorem ringMap_odd (r2 : K) (j : Nat) (H : P3 K × K) :
    ringMap r2 (2 * j + 1) H = ((1 / r2) • diag (turn^[j] H.1), (1 / r2) * H.2) := by
  rw [ringMap, if_neg (by omega), show (2 * j + 1) / 2 = j by omega]
  refine Prod.ext ?_ rfl
  change (1 / r2) • diag ((turnL ^ j) H.1) = _
  rw [Module.End.pow_apply]
  rfl

theorem circle_pair (r2 w : K) (p : P3 K) {i : Nat} (hi : i < 9) :
    ((circleWts r2 w).getD i 0 • (circlePts p).getD i ⟨0, 0, 0⟩, (circleWts r2 w).getD i 0) =
      ringMap r2 i (w • p, w) := by
  obtain ⟨j, rfl | rfl⟩ : ∃ j, i = 2 * j ∨ i = 2 * j + 1 := ⟨i / 2, by omega⟩
  · rw [ringMap_even]
    obtain rfl | rfl | rfl | rfl | rfl : j = 0 ∨ j = 1 ∨ j = 2 ∨ j = 3 ∨ j = 4 := by omega
    all_goals
      simp only [circleWts, circlePts, Function.iterate_succ, Function.iterate_zero, id, Function.comp, turn]
      simp [P3.ext_iff]
  · rw [ringMap_odd]
    obtain rfl | rfl | rfl | rfl : j = 0 ∨ j = 1 ∨ j = 2 ∨ j = 3 := by omega
    all_goals
      simp only [circleWts, circlePts, Function.iterate_succ, Function.iterate_zero, id, Function.comp, turn, diag]
      simp [P3.ext_iff]
      refine ⟨⟨?_, ?_, ?_⟩, ?_⟩ <;> ring

/-- what `ringMap` does on an arc: the rational quadratic arc is a rotation -/
theorem ring_arc {r2 : K} (hr : r2 * r2 = 2) (h2 : r2 ≠ 0) (x : K) (j : Nat) (hj : j < 4) (H : P3 K × K) :
    (1 - x) ^ 2 • ringMap r2 (2 * j) H + (2 * x * (1 - x)) • ringMap r2 (2 * j + 1) H + x ^ 2 • ringMap r2 (2 * j + 2) H =
      (turn^[j] ⟨((1 - x) ^ 2 + r2 * x * (1 - x)) * H.1.x + (x ^ 2 + r2 * x * (1 - x)) * H.1.y,
          ((1 - x) ^ 2 + r2 * x * (1 - x)) * H.1.y - (x ^ 2 + r2 * x * (1 - x)) * H.1.x,
          ((1 - x) ^ 2 + r2 * x * (1 - x) + x ^ 2) * H.1.z⟩,
        ((1 - x) ^ 2 + r2 * x * (1 - x) + x ^ 2) * H.2) := by
  have hs : 2 * x * (1 - x) * (1 / r2) = r2 * x * (1 - x) := by
    field_simp
    linear_combination -x * (1 - x) * hr
  rw [ringMap_even, ringMap_odd, show 2 * j + 2 = 2 * (j + 1) by ring, ringMap_even]
  generalize 1 / r2 = i2 at *
  obtain rfl | rfl | rfl | rfl : j = 0 ∨ j = 1 ∨ j = 2 ∨ j = 3 := by omega
  all_goals
    simp only [Function.iterate_succ, Function.iterate_zero, id, Function.comp, turn, diag]
    refine Prod.ext (P3.ext ?_ ?_ ?_) ?_ <;> simp <;> simp only [← mul_assoc, hs] <;> ring

variable [LinearOrder K] [IsStrictOrderedRing K]

theorem revolve_loop {nc : Curve K} {q n : Nat} (h : nc.Valid q n) (r2 : K) :
    ∃ a : List (P3 K) × List K, loopN nc.points.length (fun i (a : List (P3 K) × List K) => do
      let w ← getI nc.weights i
      let p ← getI nc.points i
      return (a.1 ++ circlePts p, a.2 ++ circleWts r2 w)) ([], []) = some a ∧
      a.1 = (List.range n).flatMap (fun i => circlePts (nc.points.getD i ⟨0, 0, 0⟩)) ∧
      a.2 = (List.range n).flatMap (fun i => circleWts r2 (nc.weights.getD i 0)) := by
  obtain ⟨a, e, h1, h2⟩ := loopN_inv (n := nc.points.length) (s := (([], []) : List (P3 K) × List K))
    (f := fun i (a : List (P3 K) × List K) => do
      let w ← getI nc.weights i
      let p ← getI nc.points i
      return (a.1 ++ circlePts p, a.2 ++ circleWts r2 w))
    (I := fun r (a : List (P3 K) × List K) =>
      a.1 = (List.range r).flatMap (fun i => circlePts (nc.points.getD i ⟨0, 0, 0⟩)) ∧
      a.2 = (List.range r).flatMap (fun i => circleWts r2 (nc.weights.getD i 0))) ⟨rfl, rfl⟩ (by
      rintro i hi a ⟨e1, e2⟩
      simp only [getI_natCast, getD_of_lt nc.weights 0 (show i < _ by rw [h.weights, ← h.points]; exact hi),
        getD_of_lt nc.points ⟨0, 0, 0⟩ hi]
      refine ⟨_, rfl, ?_, ?_⟩ <;> simp [List.range_succ, e1, e2])
  rw [h.points] at h1 h2
  exact ⟨a, e, h1, h2⟩

theorem revolve_eq {nc : Curve K} {q n : Nat} (h : nc.Valid q n) (tol r2 : K) (ns : Surface K) :
    ∃ b pu pv wu wv, nc.isClosed tol = some b ∧ revolve tol r2 nc ns = some ⟨2, q, 9, n, true, b, knotsCircle, nc.knots,
      (List.range n).flatMap (fun i => circleWts r2 (nc.weights.getD i 0)),
      (List.range n).flatMap (fun i => circlePts (nc.points.getD i ⟨0, 0, 0⟩)), pu, pv, wu, wv⟩ ∧
      pu.length = 3 ∧ pv.length = q + 1 ∧ wu.length = 3 ∧ wv.length = q + 1 := by
  obtain ⟨b, hb⟩ := isClosed_some nc tol
  obtain ⟨a, ha, ha1, ha2⟩ := revolve_loop h r2
  obtain ⟨pu, pv, wu, wv, e, l1, l2, l3, l4⟩ := setDegree_some ns.clear.clear 2 q
  refine ⟨b, pu, pv, wu, wv, hb, ?_, l1, l2, l3, l4⟩
  unfold revolve
  rw [ha]
  simp only [Nat.cast_ofNat] at e
  simp only [h.degree]
  simp only [e, Option.bind_some, Surface.setKnotsU, Surface.setKnotsV, scaleKnots_self h.knots,
    scaleKnots_self knotsCircle_clamped, hb, Surface.setWeights, Surface.setPoints, Surface.setClosedU, Surface.setClosedV,
    Option.bind_eq_bind, Option.pure_def, Curve.nb, h.points, ha1, ha2]

theorem revolve_valid {nc : Curve K} {q n : Nat} (h : nc.Valid q n) (tol r2 : K) (ns : Surface K) :
    ∃ s, revolve tol r2 nc ns = some s ∧ s.Valid 2 q 9 n ∧ s.knotsU = knotsCircle ∧ s.knotsV = nc.knots ∧
      s.closedU = true ∧ nc.isClosed tol = some s.closedV ∧ ∀ i < 9, ∀ j < n, s.pair 9 i j = ringMap r2 i (nc.pairs j) := by
  obtain ⟨b, pu, pv, wu, wv, hb, e, l1, l2, l3, l4⟩ := revolve_eq h tol r2 ns
  have c1 : ∀ x ∈ List.range n, (circleWts r2 (nc.weights.getD x 0)).length = 9 := fun _ _ => rfl
  have c2 : ∀ x ∈ List.range n, (circlePts (nc.points.getD x ⟨0, 0, 0⟩)).length = 9 := fun _ _ => rfl
  refine ⟨_, e, ⟨rfl, rfl, rfl, rfl, ?_, ?_, knotsCircle_clamped, h.knots, l1.ge, l2.ge, l3.ge, l4.ge⟩, rfl, rfl, rfl,
    hb, ?_⟩
  · simp only [length_flatMap_uniform _ _ c2, List.length_range]
  · simp only [length_flatMap_uniform _ _ c1, List.length_range]
  · intro i hi j hj
    have f1 := getElem?_flatMap_uniform (fun i => circleWts r2 (nc.weights.getD i 0)) (List.range n) c1 hi j
    have f2 := getElem?_flatMap_uniform (fun i => circlePts (nc.points.getD i ⟨0, 0, 0⟩)) (List.range n) c2 hi j
    rw [List.getElem?_range hj, Option.bind_some] at f1 f2
    have := circle_pair r2 (nc.weights.getD j 0) (nc.points.getD j ⟨0, 0, 0⟩) hi
    have g1 := congrArg (Option.getD · 0) f1
    have g2 := congrArg (Option.getD · (⟨0, 0, 0⟩ : P3 K)) f2
    refine Eq.trans ?_ this
    exact Prod.ext (congrArg₂ (· • ·) g1 g2) g1

/-- the point of the surface of revolution on arc `j` -/
theorem revolve_arc {nc : Curve K} {q n : Nat} (h : nc.Valid q n) {r2 : K} (hr : r2 * r2 = 2) (h2 : 0 < r2)
    {s : Surface K} (hs : s.Valid 2 q 9 n) (hU : s.knotsU = knotsCircle) (hV : s.knotsV = nc.knots)
    (hpair : ∀ i < 9, ∀ j < n, s.pair 9 i j = ringMap r2 i (nc.pairs j)) {u : K} {j : Nat} (hj : j < 4)
    (hk : InSpan (knotsCircle : List K) (clamp u) (2 * j + 2)) (v : K) :
    let x := 4 * u - j
    let D := (1 - x) ^ 2 + r2 * x * (1 - x) + x ^ 2
    s.at u v = (nc.at v).map fun P =>
      turn^[j] (spin (((1 - x) ^ 2 + r2 * x * (1 - x)) / D) ((x ^ 2 + r2 * x * (1 - x)) / D) P) := by
  intro x D
  obtain ⟨l, hl⟩ := exists_inSpan h.knots (clamp_nonneg v) (clamp_le_one v)
  obtain ⟨hpk, hkn⟩ := hk.range knotsCircle_clamped
  obtain ⟨hql, hln⟩ := hl.range h.knots
  have hd := den_ne (knotsCircle_clamped (K := K)).mono hk.1
  have hd' := den_ne h.knots.mono hl.1
  have hD : D ≠ 0 := (arc_pos r2 x hr h2).ne'
  rw [surface_at_pair hs (by rw [hU]; exact hk) (by rw [hV]; exact hl), at_pair h hl, hU, hV]
  rw [deB_congr (c' := fun j' => deB (kn knotsCircle) u 2 (fun i => ringMap r2 i (nc.pairs j')) (2 * j + 2)) _ _ hql ?_,
    deB_comm _ _ u v hpk hkn hd hql hln hd' (fun i j' => ringMap r2 i (nc.pairs j')), knotsCircle_deB u hj]
  · simp only [deB_map]
    rw [ring_arc hr h2.ne' _ _ hj]
    generalize deB (kn nc.knots) v q nc.pairs l = H
    obtain ⟨⟨a, b, c⟩, w⟩ := H
    change project (turn^[j] ⟨_ * a + _ * b, _, D * c⟩, D * w) = _
    simp only [project]
    by_cases hw : w = 0
    · simp [hw]
    · rw [if_neg (mul_ne_zero hD hw), if_neg hw, Option.map_some, Option.some_inj]
      obtain rfl | rfl | rfl | rfl : j = 0 ∨ j = 1 ∨ j = 2 ∨ j = 3 := by omega
      all_goals
        simp only [Function.iterate_succ, Function.iterate_zero, id, Function.comp, turn, spin, P3.ext_iff, P3.smul_x,
          P3.smul_y, P3.smul_z]
        refine ⟨?_, ?_, ?_⟩ <;> field_simp <;> (try ring)
  · intro i h1 _
    exact deB_congr _ _ hpk fun i' h1' _ => hpair i' (by omega) i (by omega)

theorem turn_spin (c s : K) (p : P3 K) : turn (spin c s p) = spin (-s) c p := by
  ext <;> simp [turn, spin] <;> ring

/-- Anything that is on arc `j` the `j`-th quarter turn of the rational arc: it makes
one whole turn over `[0, 1]`. -/
theorem arc_family {r2 : K} (hr : r2 * r2 = 2) (h2 : 0 < r2) {T : Type} (f : K → T) (g : (P3 K → P3 K) → T)
    (main : ∀ (u : K) (j : Nat), j < 4 → InSpan (knotsCircle : List K) (clamp u) (2 * j + 2) →
      let x := 4 * u - j
      let D := (1 - x) ^ 2 + r2 * x * (1 - x) + x ^ 2
      f u = g fun P => turn^[j] (spin (((1 - x) ^ 2 + r2 * x * (1 - x)) / D) ((x ^ 2 + r2 * x * (1 - x)) / D) P)) :
    (∀ u, ∃ c s : K, c ^ 2 + s ^ 2 = 1 ∧ (0 ≤ u → u ≤ 1 / 4 → 0 ≤ c ∧ 0 ≤ s) ∧ f u = g (spin c s)) ∧
    (∀ u, 0 ≤ u → u ≤ 3 / 4 → ∃ h, f u = g h ∧ f (u + 1 / 4) = g (turn ∘ h)) ∧
    f 0 = g id ∧ f 1 = g id ∧ f (1 / 4) = g turn ∧ f (1 / 2) = g (turn ∘ turn) := by
  have c0 : clamp (0 : K) = 0 := clamp_of_mem le_rfl zero_le_one
  have c1 : clamp (1 : K) = 1 := clamp_of_mem zero_le_one le_rfl
  have c4 : clamp (1 / 4 : K) = 1 / 4 := clamp_of_mem (by norm_num) (by norm_num)
  have c2 : clamp (1 / 2 : K) = 1 / 2 := clamp_of_mem (by norm_num) (by norm_num)
  have s0 : InSpan (knotsCircle : List K) 0 (2 * 0 + 2) := by
    refine ⟨?_, ?_, ?_, ?_⟩ <;> simp [kn, knotsCircle]
  have s1 : InSpan (knotsCircle : List K) 1 (2 * 3 + 2) := by
    refine ⟨?_, ?_, ?_, ?_⟩ <;> simp [kn, knotsCircle] <;> norm_num
  have s4 : InSpan (knotsCircle : List K) (1 / 4) (2 * 1 + 2) := by
    refine ⟨?_, ?_, ?_, ?_⟩ <;> simp [kn, knotsCircle] <;> norm_num
  have s2 : InSpan (knotsCircle : List K) (1 / 2) (2 * 2 + 2) := by
    refine ⟨?_, ?_, ?_, ?_⟩ <;> simp [kn, knotsCircle] <;> norm_num
  refine ⟨?_, ?_, ?_, ?_, ?_, ?_⟩
  · intro u
    obtain ⟨k, hk⟩ := exists_inSpan (knotsCircle_clamped (K := K)) (clamp_nonneg u) (clamp_le_one u)
    obtain ⟨j, hj, rfl⟩ := knotsCircle_span hk
    have hm := main u j hj hk
    have hid := arc_identity r2 (4 * u - j) hr
    have hpos := arc_pos r2 (4 * u - j) hr h2
    have hq : 0 ≤ u → u ≤ 1 / 4 → j = 0 ∨ (j = 1 ∧ u = 1 / 4) := by
      intro h0 h4
      rw [clamp_of_mem h0 (h4.trans (by norm_num))] at hk
      have hk2 := hk.2.1
      obtain rfl | rfl | rfl | rfl : j = 0 ∨ j = 1 ∨ j = 2 ∨ j = 3 := by omega
      · exact Or.inl rfl
      · refine Or.inr ⟨rfl, le_antisymm h4 ?_⟩
        simpa [kn, knotsCircle] using hk2
      · simp [kn, knotsCircle] at hk2
        linarith
      · simp [kn, knotsCircle] at hk2
        linarith
    simp only at hm
    have hA : j = 0 → 0 ≤ u → u ≤ 1 / 4 → 0 ≤ (1 - (4 * u - j)) ^ 2 + r2 * (4 * u - j) * (1 - (4 * u - j)) ∧
        0 ≤ (4 * u - j) ^ 2 + r2 * (4 * u - j) * (1 - (4 * u - j)) := by
      rintro rfl h0 h4
      have : 0 ≤ r2 * (4 * u - ((0 : Nat) : K)) * (1 - (4 * u - ((0 : Nat) : K))) := by
        apply mul_nonneg (mul_nonneg h2.le _) _ <;> push_cast <;> linarith
      exact ⟨add_nonneg (sq_nonneg _) this, add_nonneg (sq_nonneg _) this⟩
    have hB : j = 1 ∧ u = 1 / 4 → (4 * u - j) ^ 2 + r2 * (4 * u - j) * (1 - (4 * u - j)) = 0 ∧
        (1 - (4 * u - j)) ^ 2 + r2 * (4 * u - j) * (1 - (4 * u - j)) = 1 := by
      rintro ⟨rfl, rfl⟩
      norm_num
    generalize (1 - (4 * u - j)) ^ 2 + r2 * (4 * u - j) * (1 - (4 * u - j)) = A at *
    generalize (4 * u - j) ^ 2 + r2 * (4 * u - j) * (1 - (4 * u - j)) = B at *
    generalize A + (4 * u - (j : K)) ^ 2 = D at *
    have hne := hpos.ne'
    have huni : (A / D) ^ 2 + (B / D) ^ 2 = 1 := by
      field_simp
      exact hid
    obtain rfl | rfl | rfl | rfl : j = 0 ∨ j = 1 ∨ j = 2 ∨ j = 3 := by omega
    · exact ⟨_, _, huni, fun h0 h4 => ⟨div_nonneg (hA rfl h0 h4).1 hpos.le, div_nonneg (hA rfl h0 h4).2 hpos.le⟩, hm⟩
    · refine ⟨-(B / D), A / D, by linear_combination huni, fun h0 h4 => ?_, by
        rw [hm]; congr 1; funext P; exact turn_spin _ _ _⟩
      obtain ⟨b0, a1⟩ := hB ((hq h0 h4).resolve_left (by omega))
      rw [b0, a1]
      exact ⟨by simp, div_nonneg zero_le_one hpos.le⟩
    · exact ⟨-(A / D), -(B / D), by linear_combination huni, fun h0 h4 => absurd (hq h0 h4) (by omega), by
        rw [hm]; congr 1; funext P
        simp only [Function.iterate_succ, Function.iterate_zero, id, Function.comp, turn_spin]⟩
    · exact ⟨-(-(B / D)), -(A / D), by linear_combination huni, fun h0 h4 => absurd (hq h0 h4) (by omega), by
        rw [hm]; congr 1; funext P
        simp only [Function.iterate_succ, Function.iterate_zero, id, Function.comp, turn_spin]⟩
  · intro u h0 h4
    have hcu : clamp u = u := clamp_of_mem h0 (h4.trans (by norm_num))
    have hcu' : clamp (u + 1 / 4) = u + 1 / 4 := clamp_of_mem (by linarith) (by linarith)
    obtain ⟨k, hk⟩ := exists_inSpan (knotsCircle_clamped (K := K)) (clamp_nonneg u) (clamp_le_one u)
    obtain ⟨j, hj, rfl⟩ := knotsCircle_span hk
    refine ⟨_, main u j hj hk, ?_⟩
    rw [hcu] at hk
    by_cases hj3 : j = 3
    · subst hj3
      have hk2 := hk.2.1
      simp [kn, knotsCircle] at hk2
      obtain rfl : u = 3 / 4 := le_antisymm h4 hk2
      rw [show (3 / 4 + 1 / 4 : K) = 1 by norm_num, main 1 3 (by omega) (by rw [c1]; exact s1)]
      congr 1; funext P; norm_num [spin, turn]
    · have hs' : InSpan (knotsCircle : List K) (u + 1 / 4) (2 * (j + 1) + 2) := by
        obtain ⟨a1, a2, a3, a4⟩ := hk
        have a4 := a4 (by linarith)
        obtain rfl | rfl | rfl : j = 0 ∨ j = 1 ∨ j = 2 := by omega
        all_goals
          simp [kn, knotsCircle] at a2 a3 a4
          refine ⟨?_, ?_, ?_, fun _ => ?_⟩ <;> simp [kn, knotsCircle] <;> linarith
      rw [main (u + 1 / 4) (j + 1) (by omega) (by rw [hcu']; exact hs')]
      have : 4 * (u + 1 / 4) - ((j + 1 : Nat) : K) = 4 * u - j := by push_cast; ring
      simp only [this]
      congr 1; funext P
      exact Function.iterate_succ_apply' _ _ _
  · rw [main 0 0 (by omega) (by rw [c0]; exact s0)]
    congr 1; funext P; simp [spin]
  · rw [main 1 3 (by omega) (by rw [c1]; exact s1)]
    congr 1; funext P; norm_num [spin, turn]
  · rw [main _ 1 (by omega) (by rw [c4]; exact s4)]
    congr 1; funext P; norm_num [spin, turn]
  · rw [main _ 2 (by omega) (by rw [c2]; exact s2)]
    congr 1; funext P; norm_num [spin, turn]

/-- On the first arc every angle of the first quadrant is reached. -/
theorem arc_onto {r2 : ℝ} (hr : r2 * r2 = 2) (h2 : 0 < r2) {c s : ℝ} (hc : 0 ≤ c) (hs : 0 ≤ s) (h1 : c ^ 2 + s ^ 2 = 1) :
    ∃ x, 0 ≤ x ∧ x ≤ 1 ∧ ((1 - x) ^ 2 + r2 * x * (1 - x)) / ((1 - x) ^ 2 + r2 * x * (1 - x) + x ^ 2) = c ∧
      (x ^ 2 + r2 * x * (1 - x)) / ((1 - x) ^ 2 + r2 * x * (1 - x) + x ^ 2) = s := by
  have hcont : ContinuousOn (fun x : ℝ => (2 * x - 1) / ((1 - x) ^ 2 + r2 * x * (1 - x) + x ^ 2)) (Set.Icc 0 1) := by
    apply ContinuousOn.div
    · fun_prop
    · fun_prop
    · intro x _
      exact (arc_pos r2 x hr h2).ne'
  have hmem : s - c ∈ Set.Icc ((fun x : ℝ => (2 * x - 1) / ((1 - x) ^ 2 + r2 * x * (1 - x) + x ^ 2)) 0)
      ((fun x : ℝ => (2 * x - 1) / ((1 - x) ^ 2 + r2 * x * (1 - x) + x ^ 2)) 1) := by
    constructor
    · norm_num
      nlinarith
    · norm_num
      nlinarith
  obtain ⟨x, ⟨hx0, hx1⟩, hx⟩ := intermediate_value_Icc (by norm_num) hcont hmem
  refine ⟨x, hx0, hx1, ?_⟩
  have hid := arc_identity r2 x hr
  have hpos := arc_pos r2 x hr h2
  have hne := hpos.ne'
  have hm : 0 ≤ r2 * x * (1 - x) := mul_nonneg (mul_nonneg h2.le hx0) (sub_nonneg.2 hx1)
  simp only at hx
  have ha : 0 ≤ ((1 - x) ^ 2 + r2 * x * (1 - x)) / ((1 - x) ^ 2 + r2 * x * (1 - x) + x ^ 2) :=
    div_nonneg (add_nonneg (sq_nonneg _) hm) hpos.le
  have hb : 0 ≤ (x ^ 2 + r2 * x * (1 - x)) / ((1 - x) ^ 2 + r2 * x * (1 - x) + x ^ 2) :=
    div_nonneg (add_nonneg (sq_nonneg _) hm) hpos.le
  have hd : (x ^ 2 + r2 * x * (1 - x)) / ((1 - x) ^ 2 + r2 * x * (1 - x) + x ^ 2) -
      ((1 - x) ^ 2 + r2 * x * (1 - x)) / ((1 - x) ^ 2 + r2 * x * (1 - x) + x ^ 2) = s - c := by
    rw [← hx, ← sub_div]; congr 1; ring
  have hu : (((1 - x) ^ 2 + r2 * x * (1 - x)) / ((1 - x) ^ 2 + r2 * x * (1 - x) + x ^ 2)) ^ 2 +
      ((x ^ 2 + r2 * x * (1 - x)) / ((1 - x) ^ 2 + r2 * x * (1 - x) + x ^ 2)) ^ 2 = 1 := by
    rw [div_pow, div_pow, ← add_div, hid, div_self (pow_ne_zero 2 hne)]
  generalize ((1 - x) ^ 2 + r2 * x * (1 - x)) / ((1 - x) ^ 2 + r2 * x * (1 - x) + x ^ 2) = a at *
  generalize (x ^ 2 + r2 * x * (1 - x)) / ((1 - x) ^ 2 + r2 * x * (1 - x) + x ^ 2) = b at *
  have hsum : (a + b) ^ 2 = (c + s) ^ 2 := by
    have e1 : (a + b) ^ 2 = 2 * (a ^ 2 + b ^ 2) - (b - a) ^ 2 := by ring
    have e2 : (c + s) ^ 2 = 2 * (c ^ 2 + s ^ 2) - (s - c) ^ 2 := by ring
    rw [e1, e2, hu, h1, hd]
  have hsum' : a + b = c + s := by
    have := abs_eq_abs.2 (sq_eq_sq_iff_eq_or_eq_neg.1 hsum)
    rwa [abs_of_nonneg (by linarith), abs_of_nonneg (by linarith)] at this
  constructor <;> linarith

/-- Over the reals the family goes through every rotation. -/
theorem arc_family_onto {r2 : ℝ} (hr : r2 * r2 = 2) (h2 : 0 < r2) {T : Type} (f : ℝ → T) (g : (P3 ℝ → P3 ℝ) → T)
    (main : ∀ (u : ℝ) (j : Nat), j < 4 → InSpan (knotsCircle : List ℝ) (clamp u) (2 * j + 2) →
      let x := 4 * u - j
      let D := (1 - x) ^ 2 + r2 * x * (1 - x) + x ^ 2
      f u = g fun P => turn^[j] (spin (((1 - x) ^ 2 + r2 * x * (1 - x)) / D) ((x ^ 2 + r2 * x * (1 - x)) / D) P))
    (c s : ℝ) (h1 : c ^ 2 + s ^ 2 = 1) : ∃ u, 0 ≤ u ∧ u ≤ 1 ∧ f u = g (spin c s) := by
  have base : ∀ (j : Nat), j < 4 → ∀ c s : ℝ, 0 ≤ c → 0 ≤ s → c ^ 2 + s ^ 2 = 1 →
      ∃ u, 0 ≤ u ∧ u ≤ 1 ∧ f u = g fun P => turn^[j] (spin c s P) := by
    intro j hj c s hc hs h1
    obtain ⟨x, x0, x1, hxc, hxs⟩ := arc_onto hr h2 hc hs h1
    have hj3 : (j : ℝ) ≤ 3 := by exact_mod_cast (show j ≤ 3 by omega)
    have hj0 : (0 : ℝ) ≤ j := Nat.cast_nonneg j
    have hu0 : 0 ≤ (x + j) / 4 := by linarith
    have hu1 : (x + j) / 4 ≤ 1 := by linarith
    refine ⟨(x + j) / 4, hu0, hu1, ?_⟩
    rcases x1.eq_or_lt with rfl | x1
    · norm_num at hxc hxs
      subst hxc hxs
      by_cases hj' : j = 3
      · subst hj'
        rw [main _ 3 (by omega)]
        · congr 1; funext P; norm_num [spin, turn]
        · rw [clamp_of_mem hu0 hu1]
          refine ⟨?_, ?_, ?_, ?_⟩ <;> simp [kn, knotsCircle] <;> norm_num
      · rw [main _ (j + 1) (by omega)]
        · have : 4 * ((1 + (j : ℝ)) / 4) - ((j + 1 : Nat) : ℝ) = 0 := by push_cast; ring
          simp only [this]
          congr 1; funext P
          rw [Function.iterate_succ_apply]
          congr 1
          norm_num [spin, turn]
        · rw [clamp_of_mem hu0 hu1]
          obtain rfl | rfl | rfl : j = 0 ∨ j = 1 ∨ j = 2 := by omega
          all_goals refine ⟨?_, ?_, ?_, ?_⟩ <;> simp [kn, knotsCircle] <;> norm_num
    · rw [main _ j hj]
      · have : 4 * ((x + (j : ℝ)) / 4) - (j : ℝ) = x := by ring
        simp only [this, hxc, hxs]
      · rw [clamp_of_mem hu0 hu1]
        obtain rfl | rfl | rfl | rfl : j = 0 ∨ j = 1 ∨ j = 2 ∨ j = 3 := by omega
        all_goals refine ⟨?_, ?_, ?_, fun _ => ?_⟩ <;> simp [kn, knotsCircle] <;> linarith
  rcases le_total 0 c with hc | hc <;> rcases le_total 0 s with hs | hs
  · obtain ⟨u, u0, u1, hu⟩ := base 0 (by omega) c s hc hs h1
    exact ⟨u, u0, u1, hu⟩
  · obtain ⟨u, u0, u1, hu⟩ := base 3 (by omega) (-s) c (by linarith) hc (by linarith)
    refine ⟨u, u0, u1, hu.trans ?_⟩
    congr 1; funext P
    simp only [Function.iterate_succ, Function.iterate_zero, id, Function.comp, turn_spin, neg_neg]
  · obtain ⟨u, u0, u1, hu⟩ := base 1 (by omega) s (-c) hs (by linarith) (by linarith)
    refine ⟨u, u0, u1, hu.trans ?_⟩
    congr 1; funext P
    simp only [Function.iterate_succ, Function.iterate_zero, id, Function.comp, turn_spin, neg_neg]
  · obtain ⟨u, u0, u1, hu⟩ := base 2 (by omega) (-c) (-s) (by linarith) (by linarith) (by linarith)
    refine ⟨u, u0, u1, hu.trans ?_⟩
    congr 1; funext P
    simp only [Function.iterate_succ, Function.iterate_zero, id, Function.comp, turn_spin, neg_neg]

/-- C54.  The surface of revolution is consistent, and its point at `(u, v)` is the
point of the profile at `v` turned about the z axis by an angle that depends on `u`
only: `c² + s² = 1`.  So the height and the distance from the axis are those of the
profile, and the sides `u = 0` and `u = 1` are the profile itself.  The first quarter
of the parameter range stays in the first quadrant of angles, and a quarter of the
range is a quarter turn.  The only assumption on the constant `r2` is that it is the
positive square root of 2. -/
theorem revolve_spec {nc : Curve K} {q n : Nat} (h : nc.Valid q n) (tol : K) {r2 : K} (hr : r2 * r2 = 2) (h2 : 0 < r2)
    (ns : Surface K) :
    ∃ S, revolve tol r2 nc ns = some S ∧ S.Valid 2 q 9 n ∧ S.closedU = true ∧
      (∀ u, ∃ c s : K, c ^ 2 + s ^ 2 = 1 ∧ (0 ≤ u → u ≤ 1 / 4 → 0 ≤ c ∧ 0 ≤ s) ∧
        ∀ v, S.at u v = (nc.at v).map (spin c s)) ∧
      (∀ u v, 0 ≤ u → u ≤ 3 / 4 → S.at (u + 1 / 4) v = (S.at u v).map turn) ∧
      (∀ v, S.at 0 v = nc.at v) ∧ (∀ v, S.at 1 v = nc.at v) ∧
      (∀ v, S.at (1 / 4) v = (nc.at v).map turn) ∧ (∀ v, S.at (1 / 2) v = (nc.at v).map (turn ∘ turn)) := by
  obtain ⟨S, e, hv, hU, hV, hc, -, hpair⟩ := revolve_valid h tol r2 ns
  obtain ⟨f1, f2, f3, f4, f5, f6⟩ := arc_family hr h2 (fun u v => S.at u v) (fun t v => (nc.at v).map t)
    (fun u j hj hk => funext fun v => revolve_arc h hr h2 hv hU hV hpair hj hk v)
  refine ⟨S, e, hv, hc, ?_, ?_, fun v => ?_, fun v => ?_, fun v => congrFun f5 v, fun v => congrFun f6 v⟩
  · intro u
    obtain ⟨c, s, h1, h2, h3⟩ := f1 u
    exact ⟨c, s, h1, h2, fun v => congrFun h3 v⟩
  · intro u v h0 h4
    obtain ⟨t, e1, e2⟩ := f2 u h0 h4
    have e1 : S.at u v = (nc.at v).map t := congrFun e1 v
    have e2 : S.at (u + 1 / 4) v = (nc.at v).map (turn ∘ t) := congrFun e2 v
    rw [e1, e2, Option.map_map]
  · exact (congrFun f3 v).trans (by simp)
  · exact (congrFun f4 v).trans (by simp)

/-- C53 for revolution: the result does not depend on the target at all. -/
theorem revolve_independent {nc : Curve K} {q n : Nat} (h : nc.Valid q n) (tol r2 : K) (ns ns' : Surface K) :
    ∃ s s', revolve tol r2 nc ns = some s ∧ revolve tol r2 nc ns' = some s' ∧ s.SameShape s' := by
  obtain ⟨b, pu, pv, wu, wv, hb, e, -⟩ := revolve_eq h tol r2 ns
  obtain ⟨b', pu', pv', wu', wv', hb', e', -⟩ := revolve_eq h tol r2 ns'
  rw [hb, Option.some_inj] at hb'
  subst hb'
  exact ⟨_, _, e, e', rfl, rfl, rfl, rfl, rfl, rfl, rfl, rfl, rfl, rfl⟩

/-- C54, completeness (over the reals): the parameter range `[0, 1]` makes a whole
turn, every rotation of the profile is on the surface. -/
theorem revolve_covers {nc : Curve ℝ} {q n : Nat} (h : nc.Valid q n) (tol : ℝ) (ns : Surface ℝ) :
    ∃ S, revolve tol (Real.sqrt 2) nc ns = some S ∧ ∀ c s : ℝ, c ^ 2 + s ^ 2 = 1 →
      ∃ u, 0 ≤ u ∧ u ≤ 1 ∧ ∀ v, S.at u v = (nc.at v).map (spin c s) := by
  have hr : Real.sqrt 2 * Real.sqrt 2 = 2 := Real.mul_self_sqrt (by norm_num)
  have h2 : 0 < Real.sqrt 2 := Real.sqrt_pos.2 (by norm_num)
  obtain ⟨S, e, hv, hU, hV, hc, -, hpair⟩ := revolve_valid h tol (Real.sqrt 2) ns
  refine ⟨S, e, fun c s h1 => ?_⟩
  obtain ⟨u, u0, u1, hu⟩ := arc_family_onto hr h2 (fun u v => S.at u v) (fun t v => (nc.at v).map t)
    (fun u j hj hk => funext fun v => revolve_arc h hr h2 hv hU hV hpair hj hk v) c s h1
  exact ⟨u, u0, u1, fun v => congrFun hu v⟩

end Nurbs
end CAD
