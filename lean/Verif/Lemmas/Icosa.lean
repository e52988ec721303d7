import Verif.Lemmas.Point
import Verif.Model.Geometry
import Mathlib.Algebra.BigOperators.Fin
import Mathlib.Algebra.BigOperators.Field
import Mathlib.Algebra.Order.BigOperators.Group.Finset
import Mathlib.Data.Real.Sqrt
import Mathlib.Tactic.Linarith
import Mathlib.Tactic.FinCases
import Mathlib.Tactic.NormNum
import Mathlib.Tactic.Positivity
import Mathlib.Tactic.FieldSimp

/-! The icosahedron as a simplicial complex: its corner weights depend on the point in a Lipschitz
way, on the surface and after the central projection.  Used for C108. -/

namespace CAD
namespace Icosa

/-! ### Numbers `a + b·τ` with `τ = (√5 - 1)/2` -/

/-- `a + b·τ` with integers `a`, `b` -/
abbrev Zt := ℤ × ℤ
/-- product, by `τ² = 1 - τ` -/
def mulT (x y : Zt) : Zt := (x.1 * y.1 + x.2 * y.2, x.1 * y.2 + x.2 * y.1 - x.2 * y.2)
def addT (x y : Zt) : Zt := (x.1 + y.1, x.2 + y.2)
def subT (x y : Zt) : Zt := (x.1 - y.1, x.2 - y.2)
/-- sufficient for `0 ≤ a + b·τ` -/
abbrev nnT (x : Zt) : Prop := 0 ≤ 1000 * x.1 + 618 * x.2 ∧ 0 ≤ 1000 * x.1 + 619 * x.2

/-- vectors of such numbers -/
abbrev Vt := Zt × Zt × Zt
def dotT (a b : Vt) : Zt := addT (addT (mulT a.1 b.1) (mulT a.2.1 b.2.1)) (mulT a.2.2 b.2.2)
def crossT (a b : Vt) : Vt :=
  (subT (mulT a.2.1 b.2.2) (mulT a.2.2 b.2.1), subT (mulT a.2.2 b.1) (mulT a.1 b.2.2), subT (mulT a.1 b.2.1) (mulT a.2.1 b.1))
def scaleT (c : Zt) (a : Vt) : Vt := (mulT c a.1, mulT c a.2.1, mulT c a.2.2)

/-- the number `τ` -/
noncomputable def tau : ℝ := (Real.sqrt 5 - 1) / 2

theorem tau_sq : tau * tau = 1 - tau := by
  have h5 : Real.sqrt 5 ^ 2 = 5 := Real.sq_sqrt (by norm_num)
  unfold tau; nlinarith

theorem tau_bounds : 0.618 < tau ∧ tau < 0.619 := by
  have h5 : Real.sqrt 5 ^ 2 = 5 := Real.sq_sqrt (by norm_num)
  have h0 := Real.sqrt_nonneg 5
  unfold tau
  constructor <;> nlinarith

noncomputable def ev (x : Zt) : ℝ := x.1 + x.2 * tau

theorem ev_mul (x y : Zt) : ev (mulT x y) = ev x * ev y := by
  simp only [ev, mulT]; push_cast; linear_combination (-(x.2 * y.2 : ℝ)) * tau_sq
theorem ev_add (x y : Zt) : ev (addT x y) = ev x + ev y := by simp only [ev, addT]; push_cast; ring
theorem ev_sub (x y : Zt) : ev (subT x y) = ev x - ev y := by simp only [ev, subT]; push_cast; ring
theorem ev_nonneg {x : Zt} (h : nnT x) : 0 ≤ ev x := by
  obtain ⟨h1, h2⟩ := h
  have h1' : (0 : ℝ) ≤ 1000 * x.1 + 618 * x.2 := by exact_mod_cast h1
  have h2' : (0 : ℝ) ≤ 1000 * x.1 + 619 * x.2 := by exact_mod_cast h2
  obtain ⟨b1, b2⟩ := tau_bounds
  unfold ev
  rcases le_or_gt (0 : ℝ) x.2 with h | h
  · nlinarith
  · nlinarith

noncomputable def evV (a : Vt) : P3 ℝ := ⟨ev a.1, ev a.2.1, ev a.2.2⟩

theorem ev_dot (a b : Vt) : ev (dotT a b) = (evV a).dot (evV b) := by
  simp only [dotT, ev_add, ev_mul, evV, P3.dot]

/-! ### The icosahedron of `create_icosahedron(1)` -/

/-- its twelve corners -/
def corner : Fin 12 → Vt := ![
  ((1, 0), (0, 0), (0, 1)), ((1, 0), (0, 0), (0, -1)), ((-1, 0), (0, 0), (0, 1)), ((-1, 0), (0, 0), (0, -1)),
  ((0, 0), (0, 1), (1, 0)), ((0, 0), (0, -1), (1, 0)), ((0, 0), (0, 1), (-1, 0)), ((0, 0), (0, -1), (-1, 0)),
  ((0, 1), (1, 0), (0, 0)), ((0, -1), (1, 0), (0, 0)), ((0, 1), (-1, 0), (0, 0)), ((0, -1), (-1, 0), (0, 0))]

/-- its twenty faces -/
def faces : List (Fin 12 × Fin 12 × Fin 12) := [(0, 1, 8), (0, 10, 1), (2, 3, 11), (2, 9, 3),
    (4, 5, 0), (4, 2, 5), (6, 7, 3), (6, 1, 7),
    (8, 9, 4), (8, 6, 9), (10, 11, 7), (10, 5, 11),
    (0, 8, 4), (3, 7, 11), (10, 0, 5), (9, 6, 3), (1, 6, 8), (2, 11, 5), (2, 4, 9), (1, 10, 7)]

abbrev Face := Fin 12 × Fin 12 × Fin 12

/-- the three ways to write a face -/
def rots (F : Face) : List Face := [F, (F.2.1, F.2.2, F.1), (F.2.2, F.1, F.2.1)]

def corners (F : Face) : List (Fin 12) := [F.1, F.2.1, F.2.2]

/-- twice the linear form that is 1 on the first corner of a face and 0 on the others -/
def form (F : Face) : Vt := scaleT (1, 1) (crossT (corner F.2.1) (corner F.2.2))

set_option synthInstance.maxSize 2000 in
set_option synthInstance.maxHeartbeats 200000 in
/-- for each face `G` and corner `v` a linear form that majorises the weight of `v` around `v` and
minorises it on `G` -/
theorem form_table : ∀ G ∈ faces, ∀ v : Fin 12, ∃ F ∈ faces.flatMap rots, F.1 = v ∧
    (∀ w ∈ corners G, w ≠ v → nnT (subT (0, 0) (dotT (form F) (corner w)))) ∧
    dotT (form F) (corner v) = (2, 0) ∧ dotT (form F) (form F) = (4, 0) ∧
    (∀ F' ∈ faces.flatMap rots, F'.1 = v → ∀ w ∈ corners F', nnT (dotT (form F) (corner w))) := by
  decide +kernel

/-- corners as points -/
noncomputable def vec (v : Fin 12) : P3 ℝ := evV (corner v)

/-- the point with given corner weights -/
noncomputable def comb (w : Fin 12 → ℝ) : P3 ℝ :=
  ⟨∑ v, w v * (vec v).x, ∑ v, w v * (vec v).y, ∑ v, w v * (vec v).z⟩

theorem dot_comb (g : P3 ℝ) (w : Fin 12 → ℝ) : g.dot (comb w) = ∑ v, w v * g.dot (vec v) := by
  simp only [P3.dot, comb, Finset.mul_sum, ← Finset.sum_add_distrib]
  exact Finset.sum_congr rfl fun v _ => by ring

theorem dot_le (a b : P3 ℝ) : a.dot b ≤ a.norm * b.norm := by
  have h1 := P3.norm_sq a
  have h2 := P3.norm_sq b
  have h3 := P3.norm_nonneg a
  have h4 := P3.norm_nonneg b
  refine abs_le_of_sq_le_sq' ?_ (by positivity) |>.2
  have : (a.norm * b.norm) ^ 2 = a.normSq * b.normSq := by rw [← h1, ← h2]; ring
  rw [this]
  simp only [P3.dot, P3.normSq]
  nlinarith [sq_nonneg (a.x * b.y - a.y * b.x), sq_nonneg (a.x * b.z - a.z * b.x), sq_nonneg (a.y * b.z - a.z * b.y)]

/-- non-negative weights on the corners of one face -/
structure OnFace (F : Face) (w : Fin 12 → ℝ) : Prop where
  nonneg : ∀ v, 0 ≤ w v
  support : ∀ v, v ∉ corners F → w v = 0

theorem mem_rots {F : Face} {v : Fin 12} (h : v ∈ corners F) : ∃ F' ∈ rots F, F'.1 = v ∧ ∀ w, w ∈ corners F' ↔ w ∈ corners F := by
  obtain ⟨a, b, c⟩ := F
  simp only [corners, List.mem_cons, List.not_mem_nil, or_false] at h
  rcases h with rfl | rfl | rfl
  · exact ⟨_, List.mem_cons_self, rfl, fun w => Iff.rfl⟩
  · refine ⟨_, List.mem_cons_of_mem _ List.mem_cons_self, rfl, fun w => ?_⟩
    simp only [corners, List.mem_cons, List.not_mem_nil, or_false]; tauto
  · refine ⟨_, List.mem_cons_of_mem _ (List.mem_cons_of_mem _ List.mem_cons_self), rfl, fun w => ?_⟩
    simp only [corners, List.mem_cons, List.not_mem_nil, or_false]; tauto

/-- weights are Lipschitz functions of the point -/
theorem weight_lipschitz {F G : Face} (hF : F ∈ faces) (hG : G ∈ faces) {a b : Fin 12 → ℝ} (ha : OnFace F a)
    (hb : OnFace G b) (v : Fin 12) : a v - b v ≤ (comb a - comb b).norm := by
  by_cases hv : v ∈ corners F
  · obtain ⟨H, -, -, h4, h1, h2, h3⟩ := form_table G hG v
    set g := evV (form H) with hg
    have e1 : g.dot (vec v) = 2 := by
      rw [hg, vec, ← ev_dot, h1]; simp [ev]
    have e2 : g.norm = 2 := by
      have : g.normSq = 4 := by
        have := congrArg ev h2
        rw [ev_dot] at this
        simp only [ev, P3.dot] at this
        simp only [P3.normSq, hg]
        push_cast at this
        linarith
      have h := P3.norm_sq g
      have h0 := P3.norm_nonneg g
      rw [this] at h
      nlinarith
    obtain ⟨F', hF', hFv, hFc⟩ := mem_rots hv
    have la : 2 * a v ≤ g.dot (comb a) := by
      rw [dot_comb, ← Finset.add_sum_erase _ _ (Finset.mem_univ v), e1]
      have : 0 ≤ ∑ w ∈ Finset.univ.erase v, a w * g.dot (vec w) := by
        refine Finset.sum_nonneg fun w hw => ?_
        by_cases hwF : w ∈ corners F
        · refine mul_nonneg (ha.nonneg w) ?_
          rw [hg, vec, ← ev_dot]
          exact ev_nonneg (h3 F' (List.mem_flatMap.2 ⟨F, hF, hF'⟩) hFv w ((hFc w).2 hwF))
        · rw [ha.support w hwF, zero_mul]
      linarith
    have lb : g.dot (comb b) ≤ 2 * b v := by
      rw [dot_comb, ← Finset.add_sum_erase _ _ (Finset.mem_univ v), e1]
      have : ∑ w ∈ Finset.univ.erase v, b w * g.dot (vec w) ≤ 0 := by
        refine Finset.sum_nonpos fun w hw => ?_
        by_cases hwG : w ∈ corners G
        · refine mul_nonpos_of_nonneg_of_nonpos (hb.nonneg w) ?_
          have := ev_nonneg (h4 w hwG (Finset.ne_of_mem_erase hw))
          rw [ev_sub] at this
          rw [hg, vec, ← ev_dot]
          simp [ev] at this ⊢
          linarith
        · rw [hb.support w hwG, zero_mul]
      linarith
    have lc := dot_le g (comb a - comb b)
    rw [e2] at lc
    have : g.dot (comb a - comb b) = g.dot (comb a) - g.dot (comb b) := by
      simp only [P3.dot, P3.sub_x, P3.sub_y, P3.sub_z]; ring
    linarith
  · rw [ha.support v hv]
    have := hb.nonneg v
    have := P3.norm_nonneg (comb a - comb b)
    linarith

theorem comb_smul (c : ℝ) (w : Fin 12 → ℝ) : comb (fun v => c * w v) = c • comb w := by
  ext <;> simp only [comb, P3.smul_x, P3.smul_y, P3.smul_z, Finset.mul_sum, mul_assoc]

theorem vec_normSq (v : Fin 12) : (vec v).normSq = 2 - tau := by
  have h : dotT (corner v) (corner v) = (2, -1) := by revert v; decide
  have := congrArg ev h
  rw [ev_dot] at this
  simp only [ev, P3.dot] at this
  simp only [P3.normSq, vec]
  push_cast at this
  linarith

/-- points of the faces are at most as far out as the corners -/
theorem comb_norm_le {w : Fin 12 → ℝ} (h0 : ∀ v, 0 ≤ w v) (h1 : ∑ v, w v = 1) : (comb w).norm ≤ 1.2 := by
  have hv : ∀ v, (vec v).norm ≤ 1.2 := by
    intro v
    have a := P3.norm_sq (vec v)
    rw [vec_normSq] at a
    have := P3.norm_nonneg (vec v)
    have := tau_bounds.1
    nlinarith
  by_cases hz : comb w = 0
  · rw [hz, P3.norm_eq_zero.2 rfl]; norm_num
  · have hp := P3.norm_pos hz
    have hs := P3.norm_sq (comb w)
    have : (comb w).normSq = (comb w).dot (comb w) := by simp [P3.normSq, P3.dot]
    rw [this, dot_comb] at hs
    have : ∑ v, w v * (comb w).dot (vec v) ≤ ∑ v, w v * ((comb w).norm * 1.2) := by
      refine Finset.sum_le_sum fun v _ => mul_le_mul_of_nonneg_left ?_ (h0 v)
      exact (dot_le _ _).trans (mul_le_mul_of_nonneg_left (hv v) hp.le)
    rw [← Finset.sum_mul, h1, one_mul, ← hs] at this
    exact le_of_mul_le_mul_left this hp

theorem comb_ne_zero {F : Face} (hF : F ∈ faces) {w : Fin 12 → ℝ} (hw : OnFace F w) (h1 : ∑ v, w v = 1) : comb w ≠ 0 := by
  intro h
  have h0 : OnFace F (fun _ => (0 : ℝ)) := ⟨fun _ => le_rfl, fun _ _ => rfl⟩
  have hc : comb (fun _ => (0 : ℝ)) = 0 := by ext <;> simp [comb]
  have : ∀ v, w v ≤ 0 := by
    intro v
    have := weight_lipschitz hF hF hw h0 v
    rw [h, hc, sub_self, P3.norm_eq_zero.2 rfl] at this
    simpa using this
  have := Finset.sum_nonpos (s := Finset.univ) fun v _ => this v
  linarith

/-- after the central projection the weights still depend on the point in a Lipschitz way -/
theorem weight_projected {F G : Face} (hF : F ∈ faces) (hG : G ∈ faces) {a b : Fin 12 → ℝ} (ha : OnFace F a)
    (hb : OnFace G b) (ha1 : ∑ v, a v = 1) (hb1 : ∑ v, b v = 1) (v : Fin 12) :
    a v - b v ≤ 4.8 * ((1 / (comb a).norm) • comb a - (1 / (comb b).norm) • comb b).norm := by
  have pa := P3.norm_pos (comb_ne_zero hF ha ha1)
  have pb := P3.norm_pos (comb_ne_zero hG hb hb1)
  have la := comb_norm_le ha.nonneg ha1
  set A := (comb a).norm with hA
  set B := (comb b).norm with hB
  rw [← comb_smul, ← comb_smul]
  have ha' : OnFace F fun v => 1 / A * a v := ⟨fun v => mul_nonneg (by positivity) (ha.nonneg v), fun v h => by rw [ha.support v h, mul_zero]⟩
  have hb' : OnFace G fun v => 1 / B * b v := ⟨fun v => mul_nonneg (by positivity) (hb.nonneg v), fun v h => by rw [hb.support v h, mul_zero]⟩
  set d := (comb (fun v => 1 / A * a v) - comb (fun v => 1 / B * b v)).norm with hd
  have hd0 : 0 ≤ d := P3.norm_nonneg _
  have key : ∀ v, 1 / A * a v - 1 / B * b v ≤ d := fun v => weight_lipschitz hF hG ha' hb' v
  have hds : (comb (fun v => 1 / B * b v) - comb (fun v => 1 / A * a v)).norm = d := by
    rw [hd]
    unfold P3.norm
    congr 1
    simp only [P3.sub_x, P3.sub_y, P3.sub_z]; ring
  have key' : ∀ v, 1 / B * b v - 1 / A * a v ≤ d := fun v => by
    have := weight_lipschitz hG hF hb' ha' v
    rwa [hds] at this
  have hsum : 1 / B - 1 / A ≤ 3 * d := by
    have e : 1 / B - 1 / A = ∑ v, (1 / B * b v - 1 / A * a v) := by
      rw [Finset.sum_sub_distrib, ← Finset.mul_sum, ← Finset.mul_sum, ha1, hb1, mul_one, mul_one]
    rw [e]
    have : ∀ v, 1 / B * b v - 1 / A * a v ≤ if v ∈ corners G then d else 0 := by
      intro v
      split
      · exact key' v
      · next h =>
        rw [hb.support v h]
        have : 0 ≤ 1 / A * a v := ha'.nonneg v
        linarith
    refine (Finset.sum_le_sum fun v _ => this v).trans ?_
    rw [Finset.sum_ite, Finset.sum_const, Finset.sum_const_zero, add_zero, nsmul_eq_mul]
    refine mul_le_mul_of_nonneg_right ?_ hd0
    have : (Finset.univ.filter fun v => v ∈ corners G) = (corners G).toFinset := by
      ext; simp
    rw [this]
    have := (corners G).toFinset_card_le
    simp only [corners, List.length_cons, List.length_nil] at this
    exact_mod_cast this
  have hbv : b v ≤ 1 := by
    rw [← hb1]
    exact Finset.single_le_sum (fun w _ => hb.nonneg w) (Finset.mem_univ v)
  have k := key v
  have e1 : a v - b v = A * (1 / A * a v - 1 / B * b v) + b v * (A * (1 / B - 1 / A)) := by
    field_simp; ring
  rw [e1]
  have t1 : A * (1 / A * a v - 1 / B * b v) ≤ A * d := mul_le_mul_of_nonneg_left k pa.le
  have t2 : b v * (A * (1 / B - 1 / A)) ≤ A * (3 * d) := by
    have hX : A * (1 / B - 1 / A) ≤ A * (3 * d) := mul_le_mul_of_nonneg_left hsum pa.le
    have h0 : 0 ≤ A * (3 * d) := by positivity
    calc b v * (A * (1 / B - 1 / A)) ≤ b v * (A * (3 * d)) := mul_le_mul_of_nonneg_left hX (hb.nonneg v)
      _ ≤ 1 * (A * (3 * d)) := mul_le_mul_of_nonneg_right hbv h0
      _ = _ := one_mul _
  nlinarith

end Icosa
end CAD
