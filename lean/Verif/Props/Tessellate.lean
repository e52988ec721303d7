import Verif.Lemmas.Build
import Verif.Lemmas.Closed
import Verif.Model.Tessellate
import Verif.Props.Measure
import Verif.Spec.Geometry
import Mathlib.Algebra.BigOperators.Intervals
import Mathlib.Algebra.Order.Floor.Ring
import Mathlib.Tactic.FieldSimp
import Mathlib.Tactic.Linarith

/-! C17, C18: `MeshTessellate::compute`. -/

set_option linter.unusedSimpArgs false
set_option linter.unusedSectionVars false

namespace CAD
namespace Tessellate
open Mesh
variable {K : Type} [Field K]

/-- triangles produced for one input triangle, for any way of computing the points -/
def tessBy (J : P3 K → P3 K → P3 K → Int → Int → Int → P3 K) (n : Int) (t : Tri3 K) : List (Tri3 K) :=
  let I := fun u v => J t.p1 t.p2 t.p3 u v n
  (List.range n.toNat).flatMap fun (s : Nat) =>
    [⟨I s 0, I (s + 1) 0, I s 1⟩] ++ (List.range s).flatMap fun (j : Nat) =>
      [⟨I (s - j) j, I (s - j) (j + 1), I (s - j - 1) (j + 1)⟩,
       ⟨I (s - j - 1) (j + 1), I (s - j) (j + 1), I (s - j - 1) (j + 2)⟩]

theorem computeBy_eq (I : P3 K → P3 K → P3 K → Int → Int → Int → P3 K) {m : Mesh K} (hm : m.OK) (n : Int)
    (out : Mesh K) : computeBy I m n out = some (out.clear.addSoup (m.triangles.flatMap (tessBy I n))) := by
  unfold computeBy
  simp only
  rw [loop_soup hm _ (fun t s => some (s.addSoup (tessBy I n t)))]
  · exact foldlM_addSoup _ _ _
  · intro i s h; simp [h]
  · intro i t s h ht
    obtain ⟨a, b, c, h1, h2, h3, h4⟩ := getTriangle_split ht
    simp only [h, h1, h2, h3, h4, Option.bind_eq_bind, Option.bind_some, Bool.false_eq_true, if_false]
    refine loopN_addSoup (fun s _ m => ?_) s
    unfold stripe
    simp only [addTrianglePts_soup, Option.bind_eq_bind, Option.bind_some]
    rw [loopN_addSoup (g := fun j => _) (fun j _ m => by
      unfold stripeQuad
      simp only [addTrianglePts_soup, Option.bind_eq_bind, Option.bind_some, addSoup_append]
      rfl), addSoup_append]
    rfl

/-- triangles produced for one input triangle -/
def tess (n : Int) (t : Tri3 K) : List (Tri3 K) :=
  let I := fun u v => interpolate t.p1 t.p2 t.p3 u v n
  (List.range n.toNat).flatMap fun (s : Nat) =>
    [⟨I s 0, I (s + 1) 0, I s 1⟩] ++ (List.range s).flatMap fun (j : Nat) =>
      [⟨I (s - j) j, I (s - j) (j + 1), I (s - j - 1) (j + 1)⟩,
       ⟨I (s - j - 1) (j + 1), I (s - j) (j + 1), I (s - j - 1) (j + 2)⟩]

theorem compute_eq {m : Mesh K} (hm : m.OK) (n : Int) (out : Mesh K) :
    compute m n out = some (out.clear.addSoup (m.triangles.flatMap (tess n))) :=
  computeBy_eq interpolate hm n out

/-- sum over the pieces -/
theorem tess_sum {A : Type} [AddCommMonoid A] (n : Int) (t : Tri3 K) (g : Tri3 K → A) :
    ((tess n t).map g).sum =
      let I := fun u v => interpolate t.p1 t.p2 t.p3 u v n
      ∑ s ∈ Finset.range n.toNat, (g ⟨I s 0, I (s + 1) 0, I s 1⟩ +
        ∑ j ∈ Finset.range s,
          (g ⟨I (s - j) j, I (s - j) (j + 1), I (s - j - 1) (j + 1)⟩ +
           g ⟨I (s - j - 1) (j + 1), I (s - j) (j + 1), I (s - j - 1) (j + 2)⟩)) := by
  have key : ∀ (N : Nat) (f : Nat → List (Tri3 K)), (((List.range N).flatMap f).map g).sum =
      ∑ s ∈ Finset.range N, ((f s).map g).sum := by
    intro N f
    induction N with
    | zero => simp
    | succ N ih => rw [List.range_succ, Finset.sum_range_succ, ← ih]; simp
  unfold tess
  simp only [key, List.map_append, List.sum_append, List.map_cons, List.map_nil, List.sum_cons,
    List.sum_nil, add_zero]

theorem sum_odd {A : Type} [AddCommMonoid A] (c : A) (n : Nat) :
    ∑ s ∈ Finset.range n, (c + ∑ _j ∈ Finset.range s, (c + c)) = (n ^ 2) • c := by
  induction n with
  | zero => simp
  | succ n ih =>
    rw [Finset.sum_range_succ, ih, Finset.sum_const, Finset.card_range, ← two_nsmul, ← mul_nsmul,
      add_comm c, ← add_assoc, ← add_nsmul, ← succ_nsmul]
    congr 1; ring

theorem tess_length (n : Int) (t : Tri3 K) : (tess n t).length = n.toNat ^ 2 := by
  have h := tess_sum n t (fun _ => 1)
  simp only [List.map_const', List.sum_replicate, smul_eq_mul, mul_one] at h
  rw [h, sum_odd]; simp

/-- a quantity that takes the same value on all small triangles -/
theorem tess_sum_const {A : Type} [AddCommMonoid A] (n : Int) (t : Tri3 K) (g : Tri3 K → A) (c : A)
    (h1 : ∀ u v : Int, g ⟨interpolate t.p1 t.p2 t.p3 u v n, interpolate t.p1 t.p2 t.p3 (u + 1) v n,
      interpolate t.p1 t.p2 t.p3 u (v + 1) n⟩ = c)
    (h2 : ∀ u v : Int, g ⟨interpolate t.p1 t.p2 t.p3 (u + 1) v n,
      interpolate t.p1 t.p2 t.p3 (u + 1) (v + 1) n, interpolate t.p1 t.p2 t.p3 u (v + 1) n⟩ = c) :
    ((tess n t).map g).sum = (n.toNat ^ 2) • c := by
  rw [tess_sum, ← sum_odd]
  refine Finset.sum_congr rfl fun s _ => ?_
  congr 1
  · simpa using h1 s 0
  · refine Finset.sum_congr rfl fun j _ => ?_
    congr 1
    · have := h2 (s - j - 1) j
      rwa [sub_add_cancel] at this
    · have := h1 (s - j - 1) (j + 1)
      rwa [sub_add_cancel, add_assoc] at this

section
variable [LinearOrder K] [IsStrictOrderedRing K]

theorem det3_small (n : Int) (hn : 1 ≤ n) (t : Tri3 K) :
    ((tess n t).map fun t => det3 t.p1 t.p2 t.p3).sum = det3 t.p1 t.p2 t.p3 := by
  have hn' : (n : K) ≠ 0 := by have : (0 : K) < n := by exact_mod_cast hn
                               exact this.ne'
  have hN : ((n.toNat : Nat) : K) = (n : K) := by
    have : ((n.toNat : Nat) : Int) = n := by omega
    exact_mod_cast this
  rw [tess_sum_const n t _ (det3 t.p1 t.p2 t.p3 / (n : K) ^ 2)]
  · rw [nsmul_eq_mul]; push_cast; rw [hN]; field_simp
  · intro u v
    simp only [interpolate, det3, P3.add_x, P3.add_y, P3.add_z, P3.smul_x, P3.smul_y, P3.smul_z,
      P3.sub_x, P3.sub_y, P3.sub_z]
    push_cast
    field_simp
    ring
  · intro u v
    simp only [interpolate, det3, P3.add_x, P3.add_y, P3.add_z, P3.smul_x, P3.smul_y, P3.smul_z,
      P3.sub_x, P3.sub_y, P3.sub_z]
    push_cast
    field_simp
    ring

end

theorem surface_small (n : Int) (hn : 1 ≤ n) (t : Tri3 ℝ) :
    ((tess n t).map Tri3.surface).sum = t.surface := by
  have hp : (0 : ℝ) < n := by exact_mod_cast hn
  have hn' : (n : ℝ) ≠ 0 := hp.ne'
  have hN : ((n.toNat : Nat) : ℝ) = (n : ℝ) := by
    have : ((n.toNat : Nat) : Int) = n := by omega
    exact_mod_cast this
  have key : ∀ t' : Tri3 ℝ, t'.orthogonal = (1 / (n : ℝ) ^ 2) • t.orthogonal →
      t'.surface = t.surface / (n : ℝ) ^ 2 := by
    intro t' h
    unfold Tri3.surface
    rw [h, P3.norm_smul, abs_of_pos (by positivity)]
    ring
  rw [tess_sum_const n t _ (t.surface / (n : ℝ) ^ 2)]
  · rw [nsmul_eq_mul]; push_cast; rw [hN]; field_simp
  · intro u v
    apply key
    simp only [interpolate, Tri3.orthogonal, P3.ext_iff, P3.cross_x, P3.cross_y, P3.cross_z,
      P3.add_x, P3.add_y, P3.add_z, P3.smul_x, P3.smul_y, P3.smul_z,
      P3.sub_x, P3.sub_y, P3.sub_z]
    push_cast
    refine ⟨?_, ?_, ?_⟩ <;> field_simp <;> ring
  · intro u v
    apply key
    simp only [interpolate, Tri3.orthogonal, P3.ext_iff, P3.cross_x, P3.cross_y, P3.cross_z,
      P3.add_x, P3.add_y, P3.add_z, P3.smul_x, P3.smul_y, P3.smul_z,
      P3.sub_x, P3.sub_y, P3.sub_z]
    push_cast
    refine ⟨?_, ?_, ?_⟩ <;> field_simp <;> ring

/-- the members of `tess`: small triangles placed like `t` and small triangles
pointing the other way -/
theorem mem_tess {n : Int} {t x : Tri3 K} : x ∈ tess n t ↔
    let I := fun u v => interpolate t.p1 t.p2 t.p3 u v n
    (∃ u v : Int, 0 ≤ u ∧ 0 ≤ v ∧ u + v + 1 ≤ n ∧ x = ⟨I u v, I (u + 1) v, I u (v + 1)⟩) ∨
    (∃ u v : Int, 0 ≤ u ∧ 0 ≤ v ∧ u + v + 2 ≤ n ∧
      x = ⟨I (u + 1) v, I (u + 1) (v + 1), I u (v + 1)⟩) := by
  unfold tess
  simp only [List.mem_flatMap, List.mem_range, List.mem_append, List.mem_cons, List.not_mem_nil,
    or_false]
  constructor
  · rintro ⟨s, hs, rfl | ⟨j, hj, rfl | rfl⟩⟩
    · exact Or.inl ⟨s, 0, by omega, by omega, by omega, by simp⟩
    · refine Or.inr ⟨s - j - 1, j, by omega, by omega, by omega, ?_⟩
      rw [sub_add_cancel]
    · refine Or.inl ⟨s - j - 1, j + 1, by omega, by omega, by omega, ?_⟩
      rw [sub_add_cancel, add_assoc]; rfl
  · rintro (⟨u, v, hu, hv, hn, rfl⟩ | ⟨u, v, hu, hv, hn, rfl⟩)
    · lift u to Nat using hu
      lift v to Nat using hv
      rcases Nat.eq_zero_or_pos v with rfl | hv
      · exact ⟨u, by omega, Or.inl (by simp)⟩
      · refine ⟨u + v, by omega, Or.inr ⟨v - 1, by omega, Or.inr ?_⟩⟩
        obtain ⟨w, rfl⟩ : ∃ w, v = w + 1 := ⟨v - 1, by omega⟩
        congr 2 <;> push_cast <;> omega
    · lift u to Nat using hu
      lift v to Nat using hv
      refine ⟨u + v + 1, by omega, Or.inr ⟨v, by omega, Or.inl ?_⟩⟩
      congr 2 <;> push_cast <;> omega

/-- Sum of an antisymmetric edge quantity over the directed edges of the first
`n` stripes of a triangular grid: only the boundary remains. -/
theorem stripes_boundary (g : Int × Int → Int × Int → Int) (hg : ∀ p q, g p q = - g q p) (n : Nat) :
    ∑ s ∈ Finset.range n,
      ((g (s, 0) (s + 1, 0) + g (s + 1, 0) (s, 1) + g (s, 1) (s, 0)) +
        ∑ j ∈ Finset.range s,
          ((g (s - j, j) (s - j, j + 1) + g (s - j, j + 1) (s - j - 1, j + 1) +
              g (s - j - 1, j + 1) (s - j, j)) +
           (g (s - j - 1, j + 1) (s - j, j + 1) + g (s - j, j + 1) (s - j - 1, j + 2) +
              g (s - j - 1, j + 2) (s - j - 1, j + 1)))) =
    ∑ k ∈ Finset.range n, g (k, 0) (k + 1, 0) +
    ∑ k ∈ Finset.range n, g (n - k, k) (n - k - 1, k + 1) +
    ∑ k ∈ Finset.range n, g (0, k + 1) (0, k) := by
  induction n with
  | zero => simp
  | succ n ih =>
    rw [Finset.sum_range_succ, ih]
    rw [Finset.sum_range_succ (fun k : Nat => g (k, 0) (k + 1, 0)),
      Finset.sum_range_succ (fun k : Nat => g (0, (k : Int) + 1) (0, k)),
      Finset.sum_range_succ' (fun k : Nat =>
        g (((n + 1 : Nat) : Int) - k, k) (((n + 1 : Nat) : Int) - k - 1, k + 1))]
    have tele : ∑ j ∈ Finset.range n, (g ((n : Int) - j, j) (n - j, j + 1) -
        g ((n : Int) - (j + 1 : Nat), ((j + 1 : Nat) : Int)) (n - (j + 1 : Nat), ((j + 1 : Nat) : Int) + 1)) =
        g (n, 0) (n, 1) - g (0, n) (0, n + 1) := by
      have := Finset.sum_range_sub' (fun j : Nat => g ((n : Int) - j, j) (n - j, j + 1)) n
      simpa using this
    have inner : ∑ j ∈ Finset.range n,
          ((g ((n : Int) - j, j) (n - j, j + 1) + g (n - j, j + 1) (n - j - 1, j + 1) +
              g (n - j - 1, j + 1) (n - j, j)) +
           (g (n - j - 1, j + 1) (n - j, j + 1) + g (n - j, j + 1) (n - j - 1, j + 2) +
              g (n - j - 1, j + 2) (n - j - 1, j + 1))) =
        (g (n, 0) (n, 1) - g (0, n) (0, n + 1)) -
        ∑ k ∈ Finset.range n, g ((n : Int) - k, k) (n - k - 1, k + 1) +
        ∑ k ∈ Finset.range n, g (((n + 1 : Nat) : Int) - (k + 1 : Nat), ((k + 1 : Nat) : Int))
          (((n + 1 : Nat) : Int) - (k + 1 : Nat) - 1, ((k + 1 : Nat) : Int) + 1) := by
      rw [← tele, ← Finset.sum_sub_distrib, ← Finset.sum_add_distrib]
      refine Finset.sum_congr rfl fun j _ => ?_
      rw [hg ((n : Int) - j, (j : Int) + 1) (n - j - 1, j + 1), hg ((n : Int) - j - 1, (j : Int) + 1) (n - j, j),
        hg ((n : Int) - j - 1, (j : Int) + 2) _]
      have e1 : (n : Int) - ((j + 1 : Nat) : Int) = n - j - 1 := by push_cast; ring
      have e2 : ((j + 1 : Nat) : Int) = j + 1 := by push_cast; ring
      have e3 : ((n + 1 : Nat) : Int) - ((j + 1 : Nat) : Int) = n - j := by push_cast; ring
      have e4 : (j : Int) + 1 + 1 = j + 2 := by ring
      rw [e3, e1, e2, e4]
      ring
    rw [inner, hg (0, (n : Int) + 1) (0, n), hg ((n : Int), 1) (n, 0)]
    simp only [Nat.cast_zero, sub_zero, Nat.cast_add, Nat.cast_one, zero_add, add_sub_cancel_right]
    ring

section
variable [LinearOrder K] [IsStrictOrderedRing K]

/-- **C17** tessellating with `n ≥ 1` keeps volume and (see `tessellate_surface`)
surface. -/
theorem tessellate_volume (m out : Mesh K) (hm : m.OK) (n : Int) (hn : 1 ≤ n) :
    ∃ r, compute m n out = some r ∧ r.OK ∧ Measure.volume r = Measure.volume m := by
  refine ⟨_, compute_eq hm n out, (clear_ok out).addSoup _, ?_⟩
  rw [measures_are_sums _ ((clear_ok out).addSoup _), measures_are_sums _ hm, triangles_eq,
    soup_addSoup (clear_ok out), clear_soup, List.nil_append]
  congr 2
  induction m.triangles with
  | nil => rfl
  | cons t l ih => simp only [List.flatMap_cons, List.map_append, List.sum_append, ih,
      det3_small n hn, List.map_cons, List.sum_cons]

end

theorem tessellate_surface (m out : Mesh ℝ) (hm : m.OK) (n : Int) (hn : 1 ≤ n) :
    ∃ r, compute m n out = some r ∧ r.OK ∧ Measure.surface r = Measure.surface m := by
  refine ⟨_, compute_eq hm n out, (clear_ok out).addSoup _, ?_⟩
  rw [surface_is_sum _ ((clear_ok out).addSoup _), surface_is_sum _ hm, triangles_eq,
    soup_addSoup (clear_ok out), clear_soup, List.nil_append]
  congr 1
  induction m.triangles with
  | nil => rfl
  | cons t l ih => simp only [List.flatMap_cons, List.map_append, List.sum_append, ih,
      surface_small n hn, List.map_cons, List.sum_cons]

/-- antisymmetric edge sums over the pieces of one triangle: only the pieces of
its three sides remain -/
theorem tess_edgeSum (g : P3 K × P3 K → Int) (hg : ∀ e, g e = - g e.swap) (n : Nat) (t : Tri3 K) :
    edgeSum g (tess n t) =
      let I := fun u v => interpolate t.p1 t.p2 t.p3 u v n
      ∑ k ∈ Finset.range n, g (I k 0, I (k + 1) 0) +
      ∑ k ∈ Finset.range n, g (I (n - k) k, I (n - k - 1) (k + 1)) +
      ∑ k ∈ Finset.range n, g (I 0 (k + 1), I 0 k) := by
  rw [edgeSum_eq, tess_sum]
  exact stripes_boundary (fun p q => g (interpolate t.p1 t.p2 t.p3 p.1 p.2 n,
    interpolate t.p1 t.p2 t.p3 q.1 q.2 n)) (fun p q => hg _) n

section
variable [LinearOrder K] [IsStrictOrderedRing K]

/-- one side of a triangle cut into `n` pieces -/
def sideSum (g : P3 K × P3 K → Int) (n : Nat) (e : P3 K × P3 K) : Int :=
  ∑ k ∈ Finset.range n, g (e.1 + ((k : K) / n) • (e.2 - e.1), e.1 + (((k : K) + 1) / n) • (e.2 - e.1))

theorem sideSum_swap (g : P3 K × P3 K → Int) (hg : ∀ e, g e = - g e.swap) (n : Nat) (e) :
    sideSum g n e = - sideSum g n e.swap := by
  unfold sideSum
  rw [← Finset.sum_range_reflect, ← Finset.sum_neg_distrib]
  refine Finset.sum_congr rfl fun k hk => ?_
  have hk' : k < n := Finset.mem_range.1 hk
  have hn : (n : K) ≠ 0 := by
    have : (0 : K) < n := by exact_mod_cast (by omega : 0 < n)
    exact this.ne'
  have hc : ((n - 1 - k : Nat) : K) = n - 1 - k := by
    rw [Nat.cast_sub (by omega), Nat.cast_sub (by omega)]; simp
  rw [hg, hc]
  simp only [Prod.swap]
  refine congrArg (fun x => - g x) (Prod.ext ?_ ?_)
  · simp only [Prod.swap, P3.ext_iff, P3.add_x, P3.add_y, P3.add_z, P3.smul_x, P3.smul_y, P3.smul_z,
      P3.sub_x, P3.sub_y, P3.sub_z]
    refine ⟨?_, ?_, ?_⟩ <;> field_simp <;> ring
  · simp only [Prod.swap, P3.ext_iff, P3.add_x, P3.add_y, P3.add_z, P3.smul_x, P3.smul_y, P3.smul_z,
      P3.sub_x, P3.sub_y, P3.sub_z]
    refine ⟨?_, ?_, ?_⟩ <;> field_simp <;> ring

theorem tess_sides (g : P3 K × P3 K → Int) (hg : ∀ e, g e = - g e.swap) (n : Nat) (t : Tri3 K) :
    edgeSum g (tess n t) =
      sideSum g n (t.p1, t.p2) + sideSum g n (t.p2, t.p3) + sideSum g n (t.p3, t.p1) := by
  rw [tess_edgeSum g hg, sideSum_swap g hg n (t.p3, t.p1)]
  unfold sideSum
  simp only
  rw [← Finset.sum_neg_distrib]
  have hn : ∀ k ∈ Finset.range n, (n : K) ≠ 0 := fun k hk => by
    have hk' : k < n := Finset.mem_range.1 hk
    have : (0 : K) < n := by exact_mod_cast (by omega : 0 < n)
    exact this.ne'
  congr 1
  · congr 1
    · refine Finset.sum_congr rfl fun k hk => ?_
      have := hn k hk
      congr 2 <;>
      · simp only [interpolate, P3.ext_iff, P3.add_x, P3.add_y, P3.add_z, P3.smul_x, P3.smul_y,
          P3.smul_z, P3.sub_x, P3.sub_y, P3.sub_z]
        push_cast
        refine ⟨?_, ?_, ?_⟩ <;> field_simp <;> ring
    · refine Finset.sum_congr rfl fun k hk => ?_
      have := hn k hk
      congr 2 <;>
      · simp only [interpolate, P3.ext_iff, P3.add_x, P3.add_y, P3.add_z, P3.smul_x, P3.smul_y,
          P3.smul_z, P3.sub_x, P3.sub_y, P3.sub_z]
        push_cast
        refine ⟨?_, ?_, ?_⟩ <;> field_simp <;> ring
  · refine Finset.sum_congr rfl fun k hk => ?_
    have := hn k hk
    rw [hg]
    simp only [Prod.swap]
    refine congrArg (fun x => - g x) (Prod.ext ?_ ?_) <;>
    · simp only [interpolate, P3.ext_iff, P3.add_x, P3.add_y, P3.add_z, P3.smul_x, P3.smul_y,
        P3.smul_z, P3.sub_x, P3.sub_y, P3.sub_z, Prod.swap]
      push_cast
      refine ⟨?_, ?_, ?_⟩ <;> field_simp <;> ring

/-- **C17** tessellating a closed mesh gives a closed mesh -/
theorem tessellate_closed (m out r : Mesh K) (hm : m.OK) (n : Int) (h : compute m n out = some r)
    (hc : ClosedSoup m.triangles) : ClosedSoup r.triangles := by
  rw [compute_eq hm, Option.some.injEq] at h
  subst h
  rw [triangles_eq, soup_addSoup (clear_ok out), clear_soup, List.nil_append, closed_iff_edgeSum]
  intro g hg
  have key : ∀ l : List (Tri3 K), edgeSum g (l.flatMap (tess n)) = edgeSum (sideSum g n.toNat) l := by
    intro l
    induction l with
    | nil => rfl
    | cons t l ih =>
      rw [edgeSum_cons, ← ih, ← tess_sides g hg, List.flatMap_cons]
      by_cases hn : 0 ≤ n
      · rw [Int.toNat_of_nonneg hn]; simp [edgeSum]
      · have e : n.toNat = 0 := by omega
        rw [e]
        have e1 : tess n t = [] := by unfold tess; rw [e]; rfl
        have e2 : tess ((0 : Nat) : Int) t = [] := rfl
        rw [e1, e2, List.nil_append]
        exact (zero_add _).symm
  rw [key]
  exact (closed_iff_edgeSum _).1 hc _ (sideSum_swap g hg n.toNat)

theorem inTriangle_interpolate {n : Int} (hn : 1 ≤ n) (t : Tri3 K) {u v : Int} (hu : 0 ≤ u)
    (hv : 0 ≤ v) (h : u + v ≤ n) : InTriangle t (interpolate t.p1 t.p2 t.p3 u v n) := by
  have hp : (0 : K) < n := by exact_mod_cast hn
  have hu' : (0 : K) ≤ u := by exact_mod_cast hu
  have hv' : (0 : K) ≤ v := by exact_mod_cast hv
  have h' : (u : K) + v ≤ n := by exact_mod_cast h
  refine ⟨1 - u / n - v / n, u / n, v / n, ?_, by positivity, by positivity, by ring, ?_⟩
  · have : (1 : K) - u / n - v / n = (n - u - v) / n := by field_simp
    rw [this]; exact div_nonneg (by linarith) hp.le
  · simp only [interpolate, P3.ext_iff, P3.add_x, P3.add_y, P3.add_z, P3.smul_x, P3.smul_y,
        P3.smul_z, P3.sub_x, P3.sub_y, P3.sub_z]
    refine ⟨?_, ?_, ?_⟩ <;> ring

omit [IsStrictOrderedRing K] in
/-- convex combinations of points of a triangle are in the triangle -/
theorem inTriangle_convex [IsStrictOrderedRing K] {t x : Tri3 K} (h1 : InTriangle t x.p1)
    (h2 : InTriangle t x.p2) (h3 : InTriangle t x.p3) {q} (hq : InTriangle x q) : InTriangle t q := by
  obtain ⟨a, b, c, ha, hb, hc, hs, rfl⟩ := hq
  obtain ⟨a1, b1, c1, ha1, hb1, hc1, hs1, e1⟩ := h1
  obtain ⟨a2, b2, c2, ha2, hb2, hc2, hs2, e2⟩ := h2
  obtain ⟨a3, b3, c3, ha3, hb3, hc3, hs3, e3⟩ := h3
  refine ⟨a * a1 + b * a2 + c * a3, a * b1 + b * b2 + c * b3, a * c1 + b * c2 + c * c3,
    by positivity, by positivity, by positivity, ?_, ?_⟩
  · linear_combination a * hs1 + b * hs2 + c * hs3 + hs
  · rw [e1, e2, e3]
    simp only [P3.ext_iff, P3.add_x, P3.add_y, P3.add_z, P3.smul_x, P3.smul_y, P3.smul_z]
    refine ⟨?_, ?_, ?_⟩ <;> ring

theorem tess_inside {n : Int} {t x : Tri3 K} (hx : x ∈ tess n t) :
    InTriangle t x.p1 ∧ InTriangle t x.p2 ∧ InTriangle t x.p3 := by
  rcases mem_tess.1 hx with ⟨u, v, hu, hv, hn, rfl⟩ | ⟨u, v, hu, hv, hn, rfl⟩
  · exact ⟨inTriangle_interpolate (by omega) t hu hv (by omega),
      inTriangle_interpolate (by omega) t (by omega) hv (by omega),
      inTriangle_interpolate (by omega) t hu (by omega) (by omega)⟩
  · exact ⟨inTriangle_interpolate (by omega) t (by omega) hv (by omega),
      inTriangle_interpolate (by omega) t (by omega) (by omega) (by omega),
      inTriangle_interpolate (by omega) t hu (by omega) (by omega)⟩

/-- a combination of three grid points -/
theorem combo (t : Tri3 K) {n : Int} (hn : (n : K) ≠ 0) (a b c : K) (hs : a + b + c = 1)
    (u1 v1 u2 v2 u3 v3 : Int) (X Y : K) (hX : X * n = a * u1 + b * u2 + c * u3)
    (hY : Y * n = a * v1 + b * v2 + c * v3) :
    (1 - X - Y) • t.p1 + X • t.p2 + Y • t.p3 =
      a • interpolate t.p1 t.p2 t.p3 u1 v1 n + b • interpolate t.p1 t.p2 t.p3 u2 v2 n +
        c • interpolate t.p1 t.p2 t.p3 u3 v3 n := by
  have ha : a = 1 - b - c := by linear_combination hs
  have hX' : X = (a * u1 + b * u2 + c * u3) / n := by rw [← hX]; field_simp
  have hY' : Y = (a * v1 + b * v2 + c * v3) / n := by rw [← hY]; field_simp
  subst hX' hY' ha
  simp only [interpolate, P3.ext_iff, P3.add_x, P3.add_y, P3.add_z, P3.smul_x, P3.smul_y,
        P3.smul_z, P3.sub_x, P3.sub_y, P3.sub_z]
  refine ⟨?_, ?_, ?_⟩ <;> field_simp <;> ring

/-- the pieces cover the triangle -/
theorem tess_cover [FloorRing K] {n : Int} (hn : 1 ≤ n) {t : Tri3 K} {q} (hq : InTriangle t q) :
    ∃ x ∈ tess n t, InTriangle x q := by
  obtain ⟨w, X, Y, hw, hX, hY, hs, rfl⟩ := hq
  have hp : (0 : K) < n := by exact_mod_cast hn
  have hw' : w = 1 - X - Y := by linear_combination hs
  subst hw'
  set i := ⌊X * n⌋ with hi
  set j := ⌊Y * n⌋ with hj
  have hi0 : 0 ≤ i := Int.floor_nonneg.2 (by positivity)
  have hj0 : 0 ≤ j := Int.floor_nonneg.2 (by positivity)
  have i1 : (i : K) ≤ X * n := Int.floor_le _
  have i2 : X * n < i + 1 := Int.lt_floor_add_one _
  have j1 : (j : K) ≤ Y * n := Int.floor_le _
  have j2 : Y * n < j + 1 := Int.lt_floor_add_one _
  have hXY : X * n + Y * n ≤ n := by nlinarith
  set x := X * n - i with hx
  set y := Y * n - j with hy
  by_cases hxy : x + y ≤ 1
  · by_cases hij : i + j + 1 ≤ n
    · refine ⟨_, mem_tess.2 (Or.inl ⟨i, j, hi0, hj0, hij, rfl⟩), 1 - x - y, x, y, by linarith,
        by linarith, by linarith, by ring, ?_⟩
      exact combo t hp.ne' _ _ _ (by ring) i j (i + 1) j i (j + 1) X Y
        (by push_cast; rw [hx, hy]; ring) (by push_cast; rw [hx, hy]; ring)
    · have h1 : n ≤ i + j := by omega
      have h1' : (n : K) ≤ i + j := by exact_mod_cast h1
      have hx0 : X * n = i := by linarith
      have hy0 : Y * n = j := by linarith
      have h2 : i + j = n := by
        have : (i : K) + j = n := by linarith
        exact_mod_cast this
      by_cases hi' : 1 ≤ i
      · refine ⟨_, mem_tess.2 (Or.inl ⟨i - 1, j, by omega, hj0, by omega, rfl⟩), 0, 1, 0, by simp,
          by simp, by simp, by simp, ?_⟩
        exact combo t hp.ne' _ _ _ (by ring) (i - 1) j (i - 1 + 1) j (i - 1) (j + 1) X Y
          (by push_cast; rw [hx0]; ring) (by push_cast; rw [hy0]; ring)
      · refine ⟨_, mem_tess.2 (Or.inl ⟨i, j - 1, by omega, by omega, by omega, rfl⟩), 0, 0, 1,
          by simp, by simp, by simp, by simp, ?_⟩
        exact combo t hp.ne' _ _ _ (by ring) i (j - 1) (i + 1) (j - 1) i (j - 1 + 1) X Y
          (by push_cast; rw [hx0]; ring) (by push_cast; rw [hy0]; ring)
  · have hlt : (i : K) + j + 1 < n := by linarith
    have hlt' : i + j + 1 < n := by exact_mod_cast hlt
    refine ⟨_, mem_tess.2 (Or.inr ⟨i, j, hi0, hj0, by omega, rfl⟩), 1 - y, x + y - 1, 1 - x,
      by linarith, by linarith, by linarith, by ring, ?_⟩
    exact combo t hp.ne' _ _ _ (by ring) (i + 1) j (i + 1) (j + 1) i (j + 1) X Y
      (by push_cast; rw [hx, hy]; ring) (by push_cast; rw [hx, hy]; ring)

/-- **C17** The tessellated mesh occupies exactly the same points of space as the
input, and each of its triangles lies in one input triangle. -/
theorem tessellate_same_shape [FloorRing K] (m out r : Mesh K) (hm : m.OK) (n : Int) (hn : 1 ≤ n)
    (h : compute m n out = some r) :
    (∀ q, (∃ t ∈ r.triangles, InTriangle t q) ↔ ∃ t ∈ m.triangles, InTriangle t q) ∧
    (∀ x ∈ r.triangles, ∃ t ∈ m.triangles, ∀ q, InTriangle x q → InTriangle t q) := by
  rw [compute_eq hm, Option.some.injEq] at h
  subst h
  rw [triangles_eq, soup_addSoup (clear_ok out), clear_soup, List.nil_append]
  have h2 : ∀ x ∈ m.triangles.flatMap (tess n), ∃ t ∈ m.triangles, ∀ q, InTriangle x q → InTriangle t q := by
    intro x hx
    obtain ⟨t, ht, hx⟩ := List.mem_flatMap.1 hx
    obtain ⟨a, b, c⟩ := tess_inside hx
    exact ⟨t, ht, fun q hq => inTriangle_convex a b c hq⟩
  refine ⟨fun q => ⟨?_, ?_⟩, h2⟩
  · rintro ⟨x, hx, hq⟩
    obtain ⟨t, ht, h⟩ := h2 x hx
    exact ⟨t, ht, h q hq⟩
  · rintro ⟨t, ht, hq⟩
    obtain ⟨x, hx, h⟩ := tess_cover hn hq
    exact ⟨x, List.mem_flatMap.2 ⟨t, ht, hx⟩, h⟩

/-- **C17** every new vertex lies in an input triangle -/
theorem tessellate_vertices (m out r : Mesh K) (hm : m.OK) (n : Int)
    (h : compute m n out = some r) (i : Int) (p : P3 K) (hp : r.getVertex i = some p) :
    ∃ t ∈ m.triangles, InTriangle t p := by
  rw [compute_eq hm, Option.some.injEq] at h
  subst h
  rw [(answers_view _).getVertex] at hp
  obtain ⟨k, _, hk⟩ := getI_eq_some_iff.1 hp
  have hmem : p ∈ (m.triangles.flatMap (tess n)).flatMap Tri3.pts := List.mem_of_getElem? hk
  obtain ⟨x, hx, hpx⟩ := List.mem_flatMap.1 hmem
  obtain ⟨t, ht, hx⟩ := List.mem_flatMap.1 hx
  obtain ⟨a, b, c⟩ := tess_inside hx
  refine ⟨t, ht, ?_⟩
  simp only [Tri3.pts, List.mem_cons, List.not_mem_nil, or_false] at hpx
  rcases hpx with rfl | rfl | rfl
  exacts [a, b, c]

end

/-- **C18** number of triangles and vertices; triangle `k` is linked and has
corners `3k`, `3k+1`, `3k+2`; nothing else depends on the previous content of
the output mesh, which keeps its colour.  For `n ≤ 0` the output is empty. -/
theorem tessellate_counts (m out : Mesh K) (hm : m.OK) (n : Int) :
    ∃ r, compute m n out = some r ∧
      r.nbTriangles = m.triangles.length * (max n 0) ^ 2 ∧
      r.nbVertices = 3 * r.nbTriangles ∧
      (∀ i, 0 ≤ i → i < r.nbTriangles → r.isTriangleUnlinked i = some false ∧
        r.getTriangleVertices i = some (3 * i, 3 * i + 1, 3 * i + 2)) ∧
      r.getColor = out.getColor := by
  refine ⟨_, compute_eq hm n out, ?_⟩
  set ts := m.triangles.flatMap (tess n) with hts
  have hlen : ts.length = m.triangles.length * n.toNat ^ 2 := by
    rw [hts]
    induction m.triangles with
    | nil => simp
    | cons t l ih => rw [List.flatMap_cons, List.length_append, ih, tess_length, List.length_cons]; ring
  have hn : max n 0 = (n.toNat : Int) := by omega
  have h0 : out.clear.nbTriangles = 0 := rfl
  have h0' : out.clear.nbVertices = 0 := rfl
  refine ⟨?_, ?_, ?_, rfl⟩
  · rw [nbTriangles_addSoup, h0, hlen, hn]; push_cast; ring
  · rw [nbTriangles_addSoup, nbVertices_addSoup, h0, h0']; ring
  · intro i h1 h2
    rw [nbTriangles_addSoup, h0] at h2
    lift i to Nat using h1
    have hi : i < ts.length := by omega
    have hf : getI (out.clear.addSoup ts).view.faces (i : Int) =
        some ⟨(3 * i, 3 * i + 1, 3 * i + 2), true⟩ := by
      unfold addSoup
      rw [view_pushTris, getI_natCast]
      have : (out.clear.pushPts (ts.flatMap Tri3.pts)).view.faces = [] := rfl
      rw [this, List.nil_append]
      have h3 : out.clear.kern.verts.length = 0 := rfl
      simp [freshCorners, h3, hi]
    rw [(answers_view _).unlinked, (answers_view _).corners, hf]
    simp

/-- **C18** tessellating a mesh into itself empties it: `clear` also empties the
input. -/
theorem tessellate_self_empties (m : Mesh K) (n : Int) (fuel : Nat) :
    computeSelf fuel m n = .done m.clear := by
  unfold computeSelf
  cases fuel <;> simp [loopFuel, Mesh.nbTriangles, KernLT.nbTriangles, Mesh.clear, KernLT.clear]

/-- The hypotheses are met: two triangles tessellated with `n = 3`, and a closed
tetrahedron with `n = 2`. -/
example : ((Mesh.run hinge).bind fun r => (compute r.1 3 Mesh.new).map fun r =>
    (r.nbTriangles, r.nbVertices)) = some (18, 54) := by decide +kernel
example : ((Mesh.run tetraOps).bind fun r => (compute r.1 2 Mesh.new).map fun r =>
    (r.nbTriangles, decide (ClosedSoup r.triangles))) = some (16, true) := by decide +kernel

end Tessellate
end CAD
