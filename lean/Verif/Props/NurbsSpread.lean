import Verif.Props.NurbsShapesMesh
import Verif.Props.NurbsWatertight
import Verif.Props.NurbsSolidRounded
import Verif.Props.MergeDouble

/-! C132: the meshes of the NURBS sphere, torus and cylinder made in `double` can be welded by
`merge_vertices` in `double`.  Different samples of these surfaces have a known minimal
distance. -/

namespace CAD
namespace Nurbs
open BSpline Mesh MeshUtil Set

/-! ### the rational arc -/

/-- cosine and sine on the rational arc -/
noncomputable def arcC (x : ℝ) : ℝ :=
  ((1 - x) ^ 2 + Real.sqrt 2 * x * (1 - x)) / ((1 - x) ^ 2 + Real.sqrt 2 * x * (1 - x) + x ^ 2)

noncomputable def arcS (x : ℝ) : ℝ :=
  (x ^ 2 + Real.sqrt 2 * x * (1 - x)) / ((1 - x) ^ 2 + Real.sqrt 2 * x * (1 - x) + x ^ 2)

theorem root_sq : Real.sqrt 2 * Real.sqrt 2 = 2 := Real.mul_self_sqrt (by norm_num)

theorem root_pos : 0 < Real.sqrt 2 := Real.sqrt_pos.2 (by norm_num)

theorem arc_swap (x : ℝ) : arcC (1 - x) = arcS x ∧ arcS (1 - x) = arcC x := by
  unfold arcC arcS
  constructor <;> congr 1 <;> ring

theorem arc_ends : arcC 0 = 1 ∧ arcS 0 = 0 ∧ arcC 1 = 0 ∧ arcS 1 = 1 := by
  unfold arcC arcS
  norm_num

theorem arc_unit (x : ℝ) : arcC x ^ 2 + arcS x ^ 2 = 1 := by
  unfold arcC arcS
  rw [div_pow, div_pow, ← add_div, arc_identity _ _ root_sq, div_self (pow_ne_zero 2 (arc_pos _ x root_sq root_pos).ne')]

theorem arc_den_le {x : ℝ} (h0 : 0 ≤ x) (h1 : x ≤ 1) : (1 - x) ^ 2 + Real.sqrt 2 * x * (1 - x) + x ^ 2 ≤ 1 := by
  have r2 : Real.sqrt 2 ≤ 2 := by nlinarith [root_sq, root_pos]
  nlinarith [mul_nonneg (mul_nonneg (sub_nonneg.2 r2) h0) (sub_nonneg.2 h1)]

theorem arc_bounds {x : ℝ} (h0 : 0 ≤ x) (h1 : x ≤ 1) : 1 - x ≤ arcC x ∧ x ≤ arcS x := by
  have d := arc_pos _ x root_sq root_pos
  have d1 := arc_den_le h0 h1
  have r1 : 1 ≤ Real.sqrt 2 := by nlinarith [root_sq, root_pos]
  unfold arcC arcS
  rw [le_div_iff₀ d, le_div_iff₀ d]
  have a := mul_le_mul_of_nonneg_left d1 (sub_nonneg.2 h1)
  have b := mul_le_mul_of_nonneg_left d1 h0
  have c := mul_nonneg (mul_nonneg (sub_nonneg.2 r1) h0) (sub_nonneg.2 h1)
  constructor <;> nlinarith

theorem arc_grow {x y : ℝ} (hy : 0 ≤ y) (hyx : y ≤ x) (h1 : x ≤ 1) : Real.sqrt 2 * (x - y) ≤ arcS x - arcC x - (arcS y - arcC y) := by
  have dx := arc_pos _ x root_sq root_pos
  have dy := arc_pos _ y root_sq root_pos
  have dx1 := arc_den_le (hy.trans hyx) h1
  have dy1 := arc_den_le hy (hyx.trans h1)
  have r2 : Real.sqrt 2 ≤ 2 := by nlinarith [root_sq, root_pos]
  have e : arcS x - arcC x - (arcS y - arcC y) = (x - y) * (2 - (2 - Real.sqrt 2) * ((1 - x) * (1 - y) + x * y)) /
      (((1 - x) ^ 2 + Real.sqrt 2 * x * (1 - x) + x ^ 2) * ((1 - y) ^ 2 + Real.sqrt 2 * y * (1 - y) + y ^ 2)) := by
    unfold arcC arcS
    rw [← sub_div, ← sub_div, div_sub_div _ _ dx.ne' dy.ne']
    congr 1
    ring
  rw [e, le_div_iff₀ (mul_pos dx dy)]
  have m1 : ((1 - x) ^ 2 + Real.sqrt 2 * x * (1 - x) + x ^ 2) * ((1 - y) ^ 2 + Real.sqrt 2 * y * (1 - y) + y ^ 2) ≤ 1 :=
    mul_le_one₀ dx1 dy.le dy1
  have k0 : 0 ≤ Real.sqrt 2 * (x - y) := mul_nonneg root_pos.le (sub_nonneg.2 hyx)
  refine (mul_le_mul_of_nonneg_left m1 k0).trans ?_
  have k1 : (1 - x) * (1 - y) + x * y ≤ 1 := by nlinarith
  have k2 := mul_le_mul_of_nonneg_left k1 (sub_nonneg.2 r2)
  have := mul_le_mul_of_nonneg_left (show Real.sqrt 2 ≤ 2 - (2 - Real.sqrt 2) * ((1 - x) * (1 - y) + x * y) by linarith)
    (sub_nonneg.2 hyx)
  linarith

theorem arc_gap {x y : ℝ} (hx : 0 ≤ x) (hx1 : x ≤ 1) (hy : 0 ≤ y) (hy1 : y ≤ 1) :
    (x - y) ^ 2 ≤ (arcC x - arcC y) ^ 2 + (arcS x - arcS y) ^ 2 := by
  wlog h : y ≤ x generalizing x y
  · have := this hy hy1 hx hx1 (le_of_not_ge h)
    nlinarith
  have g := arc_grow hy h hx1
  have k0 : 0 ≤ Real.sqrt 2 * (x - y) := mul_nonneg root_pos.le (sub_nonneg.2 h)
  have s := mul_self_le_mul_self k0 g
  have : Real.sqrt 2 * (x - y) * (Real.sqrt 2 * (x - y)) = 2 * (x - y) ^ 2 := by linear_combination (x - y) ^ 2 * root_sq
  nlinarith [sq_nonneg (arcS x - arcS y + (arcC x - arcC y))]

/-! ### the whole turn -/

/-- the direction at the parameter `(x + j) / 4` -/
noncomputable def dirAt (j : Nat) (x : ℝ) : ℝ × ℝ :=
  if j = 0 then (arcC x, arcS x) else if j = 1 then (-arcS x, arcC x) else if j = 2 then (-arcC x, -arcS x) else (arcS x, -arcC x)

/-- which quarter -/
noncomputable def quad4 (u : ℝ) : Nat := if u < 1 / 4 then 0 else if u < 1 / 2 then 1 else if u < 3 / 4 then 2 else 3

noncomputable def dir (u : ℝ) : ℝ × ℝ := dirAt (quad4 u) (4 * u - quad4 u)

theorem quarter_spec {u : ℝ} (h0 : 0 ≤ u) (h1 : u ≤ 1) :
    quad4 u < 4 ∧ 0 ≤ 4 * u - quad4 u ∧ 4 * u - quad4 u ≤ 1 ∧ InSpan (knotsCircle : List ℝ) (clamp u) (2 * quad4 u + 2) := by
  rw [clamp_of_mem h0 h1]
  unfold quad4
  split_ifs with a b c
  · refine ⟨by norm_num, by push_cast; linarith, by push_cast; linarith, ?_, ?_, ?_, fun _ => ?_⟩ <;> simp [kn, knotsCircle] <;> linarith
  · refine ⟨by norm_num, by push_cast; linarith, by push_cast; linarith, ?_, ?_, ?_, fun _ => ?_⟩ <;> simp [kn, knotsCircle] <;> linarith
  · refine ⟨by norm_num, by push_cast; linarith, by push_cast; linarith, ?_, ?_, ?_, fun _ => ?_⟩ <;> simp [kn, knotsCircle] <;> linarith
  · refine ⟨by norm_num, by push_cast; linarith, by push_cast; linarith, ?_, ?_, ?_, fun h => ?_⟩ <;> simp [kn, knotsCircle] <;> linarith

theorem dirAt_unit (j : Nat) (x : ℝ) : (dirAt j x).1 ^ 2 + (dirAt j x).2 ^ 2 = 1 := by
  have := arc_unit x
  unfold dirAt
  split_ifs <;> simp only [] <;> linarith

theorem dir_unit (u : ℝ) : (dir u).1 ^ 2 + (dir u).2 ^ 2 = 1 := dirAt_unit _ _

theorem dir_ends : dir 0 = (1, 0) ∧ dir 1 = (1, 0) ∧ dir (1 / 2) = (-1, 0) := by
  obtain ⟨a, b, c, d⟩ := arc_ends
  refine ⟨?_, ?_, ?_⟩ <;> norm_num [dir, dirAt, quad4, a, b, c, d]

/-- the turn is symmetric -/
theorem dir_flip {u : ℝ} (h0 : 0 ≤ u) (h1 : u ≤ 1) : dir (1 - u) = ((dir u).1, -(dir u).2) := by
  obtain ⟨a, b, c, d⟩ := arc_ends
  have key : ∀ j i x, (j, i) ∈ [(0, 3), (1, 2), (2, 1), (3, 0)] → dirAt i (1 - x) = ((dirAt j x).1, -(dirAt j x).2) := by
    intro j i x h
    obtain ⟨s1, s2⟩ := arc_swap x
    simp only [List.mem_cons, Prod.mk.injEq, List.not_mem_nil, or_false] at h
    rcases h with ⟨rfl, rfl⟩ | ⟨rfl, rfl⟩ | ⟨rfl, rfl⟩ | ⟨rfl, rfl⟩ <;> simp [dirAt, s1, s2]
  rcases lt_trichotomy u (1 / 4) with h | rfl | h
  · rcases h0.eq_or_lt with rfl | h0
    · rw [sub_zero, dir_ends.1, dir_ends.2.1]; simp
    · have q : quad4 u = 0 := by simp only [quad4]; rw [if_pos h]
      have q' : quad4 (1 - u) = 3 := by
        simp only [quad4]; rw [if_neg (by linarith), if_neg (by linarith), if_neg (by linarith)]
      unfold dir
      rw [q, q', ← key 0 3 _ (by simp)]
      congr 1; push_cast; ring
  · norm_num [dir, dirAt, quad4, a, b, c, d]
  rcases lt_trichotomy u (1 / 2) with h' | rfl | h'
  · have q : quad4 u = 1 := by simp only [quad4]; rw [if_neg (by linarith), if_pos h']
    have q' : quad4 (1 - u) = 2 := by
      simp only [quad4]; rw [if_neg (by linarith), if_neg (by linarith), if_pos (by linarith)]
    unfold dir
    rw [q, q', ← key 1 2 _ (by simp)]
    congr 1; push_cast; ring
  · norm_num [dir, dirAt, quad4, a, b, c, d]
  rcases lt_trichotomy u (3 / 4) with h'' | rfl | h''
  · have q : quad4 u = 2 := by simp only [quad4]; rw [if_neg (by linarith), if_neg (by linarith), if_pos h'']
    have q' : quad4 (1 - u) = 1 := by
      simp only [quad4]; rw [if_neg (by linarith), if_pos (by linarith)]
    unfold dir
    rw [q, q', ← key 2 1 _ (by simp)]
    congr 1; push_cast; ring
  · norm_num [dir, dirAt, quad4, a, b, c, d]
  · have q : quad4 u = 3 := by simp only [quad4]; rw [if_neg (by linarith), if_neg (by linarith), if_neg (by linarith)]
    have q' : quad4 (1 - u) = 0 := by
      simp only [quad4]; rw [if_pos (by linarith)]
    unfold dir
    rw [q, q', ← key 3 0 _ (by simp)]
    congr 1; push_cast; ring

theorem sq_le_of_coord {e a b c d : ℝ} (he : 0 ≤ e) (h : e ≤ |a - b| ∨ e ≤ |c - d|) : e ^ 2 ≤ (a - b) ^ 2 + (c - d) ^ 2 := by
  rcases h with h | h
  · have := pow_le_pow_left₀ he h 2
    rw [sq_abs] at this
    nlinarith [sq_nonneg (c - d)]
  · have := pow_le_pow_left₀ he h 2
    rw [sq_abs] at this
    nlinarith [sq_nonneg (a - b)]

theorem dirAt_gap {j i : Nat} (hji : j ≤ i) (hi : i < 4) {x y : ℝ} (hx : 0 ≤ x) (hx1 : x ≤ 1) (hy : 0 ≤ y) (hy1 : y ≤ 1) {e : ℝ}
    (he : 0 ≤ e) (he1 : e ≤ 1) (h1 : e ≤ |y + i - (x + j)|) (h2 : e ≤ 4 - |y + i - (x + j)|) :
    e ^ 2 ≤ ((dirAt j x).1 - (dirAt i y).1) ^ 2 + ((dirAt j x).2 - (dirAt i y).2) ^ 2 := by
  obtain ⟨cx, sx⟩ := arc_bounds hx hx1
  obtain ⟨cy, sy⟩ := arc_bounds hy hy1
  rcases hji.eq_or_lt with rfl | hlt
  · have g := arc_gap hx hx1 hy hy1
    have h : e ^ 2 ≤ (x - y) ^ 2 := by
      rw [add_sub_add_right_eq_sub] at h1
      have := pow_le_pow_left₀ he h1 2
      rw [sq_abs] at this
      linarith [sq_nonneg (x - y), show (y - x) ^ 2 = (x - y) ^ 2 by ring]
    refine h.trans (g.trans (le_of_eq ?_))
    unfold dirAt
    split_ifs <;> simp only [] <;> ring
  · have n : 0 ≤ y + i - (x + j) := by
      have : (j : ℝ) + 1 ≤ i := by exact_mod_cast hlt
      linarith
    rw [abs_of_nonneg n] at h1 h2
    refine sq_le_of_coord he ?_
    obtain ⟨rfl, rfl⟩ | ⟨rfl, rfl⟩ | ⟨rfl, rfl⟩ | ⟨rfl, rfl⟩ | ⟨rfl, rfl⟩ | ⟨rfl, rfl⟩ :
      j = 0 ∧ i = 1 ∨ j = 0 ∧ i = 2 ∨ j = 0 ∧ i = 3 ∨ j = 1 ∧ i = 2 ∨ j = 1 ∧ i = 3 ∨ j = 2 ∧ i = 3 := by omega
    all_goals push_cast at h1 h2; simp [dirAt]
    · left; exact le_trans (by linarith) (le_abs_self _)
    · rcases le_total (1 / 2) (arcC x + arcC y) with h | h
      · rcases le_total 1 (arcC x + arcC y) with h' | h'
        · left; exact le_trans (by linarith) (le_abs_self _)
        · right; exact le_trans (by linarith) (le_abs_self _)
      · right; exact le_trans (by linarith) (le_abs_self _)
    · right; exact le_trans (by linarith) (le_abs_self _)
    · right; exact le_trans (by linarith) (le_abs_self _)
    · rcases le_total 1 (arcC x + arcC y) with h' | h'
      · right; exact le_trans (by linarith) (le_abs_self _)
      · left; exact le_trans (by linarith) (neg_le_abs _)
    · left; exact le_trans (by linarith) (neg_le_abs _)

/-- Directions of different parameters differ, by four times the difference of the parameters
(taken around the closed circle), but at most by 1. -/
theorem dir_gap {u v : ℝ} (hu : 0 ≤ u) (hu1 : u ≤ 1) (hv : 0 ≤ v) (hv1 : v ≤ 1) {e : ℝ} (he : 0 ≤ e) (he1 : e ≤ 1)
    (h1 : e ≤ 4 * |u - v|) (h2 : e ≤ 4 * (1 - |u - v|)) : e ^ 2 ≤ ((dir u).1 - (dir v).1) ^ 2 + ((dir u).2 - (dir v).2) ^ 2 := by
  obtain ⟨a1, a2, a3, -⟩ := quarter_spec hu hu1
  obtain ⟨b1, b2, b3, -⟩ := quarter_spec hv hv1
  have k : ∀ a b c d : ℝ, |4 * a - c + c - (4 * b - d + d)| = 4 * |a - b| := fun a b c d => by
    rw [show 4 * a - c + c - (4 * b - d + d) = 4 * (a - b) by ring, abs_mul, abs_of_pos (by norm_num : (0 : ℝ) < 4)]
  rcases le_total (quad4 u) (quad4 v) with h | h
  · refine dirAt_gap h b1 a2 a3 b2 b3 he he1 ?_ ?_ <;> rw [k, abs_sub_comm] <;> linarith
  · have := dirAt_gap h a1 b2 b3 a2 a3 he he1 (by rw [k]; linarith) (by rw [k]; linarith)
    refine this.trans (le_of_eq ?_)
    unfold dir
    ring

/-! ### lattices of parameters -/

/-- directions that are equal or at least `e` apart -/
def Spread (e : ℝ) (D : Set (ℝ × ℝ)) : Prop :=
  ∀ d ∈ D, d.1 ^ 2 + d.2 ^ 2 = 1 ∧ ∀ d' ∈ D, d = d' ∨ e ^ 2 ≤ (d.1 - d'.1) ^ 2 + (d.2 - d'.2) ^ 2

/-- the directions of the samples -/
def dirs (U : Nat) : Set (ℝ × ℝ) := {d | ∃ i : Nat, i ≤ U ∧ d = dir (i / U)}

theorem dirs_flip {U : Nat} (hU : 0 < U) {d : ℝ × ℝ} (h : d ∈ dirs U) : (d.1, -d.2) ∈ dirs U := by
  obtain ⟨i, hi, rfl⟩ := h
  obtain ⟨a, b⟩ := frac_mem (K := ℝ) hi hU
  refine ⟨U - i, by omega, ?_⟩
  rw [← dir_flip a b, Nat.cast_sub hi, sub_div, div_self (by positivity)]

theorem dirs_spread {U : Nat} (hU : 4 ≤ U) : Spread (4 / U) (dirs U) := by
  have U0 : (0 : ℝ) < U := by exact_mod_cast (by omega : 0 < U)
  have U4 : (4 : ℝ) ≤ U := by exact_mod_cast hU
  rintro _ ⟨i, hi, rfl⟩
  refine ⟨dir_unit _, ?_⟩
  rintro _ ⟨j, hj, rfl⟩
  obtain ⟨a, b⟩ := frac_mem (K := ℝ) hi (by omega : 0 < U)
  obtain ⟨c, d⟩ := frac_mem (K := ℝ) hj (by omega : 0 < U)
  have main : ∀ i j : Nat, i ≤ U → j ≤ U → i < j → dir (i / U) = dir (j / U) ∨
      (4 / U) ^ 2 ≤ ((dir (i / U)).1 - (dir (j / U)).1) ^ 2 + ((dir (i / U)).2 - (dir (j / U)).2) ^ 2 := by
    intro i j hi hj hij
    obtain ⟨a, b⟩ := frac_mem (K := ℝ) hi (by omega : 0 < U)
    obtain ⟨c, d⟩ := frac_mem (K := ℝ) hj (by omega : 0 < U)
    by_cases hs : j - i = U
    · left
      obtain rfl : i = 0 := by omega
      obtain rfl : j = U := by omega
      rw [Nat.cast_zero, zero_div, div_self U0.ne', dir_ends.1, dir_ends.2.1]
    · right
      have e1 : (i : ℝ) + 1 ≤ j := by exact_mod_cast hij
      have e2 : (j : ℝ) + 1 ≤ i + U := by exact_mod_cast (by omega : j + 1 ≤ i + U)
      have ab : |(i : ℝ) / U - j / U| = (j - i) / U := by
        rw [← sub_div, abs_div, abs_of_pos U0, abs_sub_comm, abs_of_nonneg (by linarith)]
      refine dir_gap a b c d (by positivity) ((div_le_one U0).2 U4) ?_ ?_
      · rw [ab, ← mul_div_assoc]
        exact div_le_div_of_nonneg_right (by linarith) U0.le
      · rw [ab, one_sub_div U0.ne', ← mul_div_assoc]
        exact div_le_div_of_nonneg_right (by linarith) U0.le
  rcases lt_trichotomy i j with h | rfl | h
  · exact main i j hi hj h
  · exact Or.inl rfl
  · rcases main j i hj hi h with h' | h'
    · exact Or.inl h'.symm
    · right
      refine h'.trans (le_of_eq ?_)
      ring

/-- Points on circles about the z axis: radius and height from the profile, direction from the
samples.  Equal, or not nearer than `g`. -/
theorem turned_gap {e g : ℝ} (he : 0 ≤ e) (hg : 0 ≤ g) {D : Set (ℝ × ℝ)} (hD : Spread e D) {ρ z ρ' z' : ℝ} {d d' : ℝ × ℝ} (hd : d ∈ D)
    (hd' : d' ∈ D) (h0 : 0 ≤ ρ) (h0' : 0 ≤ ρ') (hp : ρ = ρ' ∧ z = z' ∨ g ^ 2 ≤ (ρ - ρ') ^ 2 + (z - z') ^ 2)
    (hρ : ρ = 0 ∨ g ≤ ρ * e) : (⟨ρ * d.1, ρ * d.2, z⟩ : P3 ℝ) = ⟨ρ' * d'.1, ρ' * d'.2, z'⟩ ∨
      g ≤ ((⟨ρ * d.1, ρ * d.2, z⟩ : P3 ℝ) - ⟨ρ' * d'.1, ρ' * d'.2, z'⟩).norm := by
  obtain ⟨u, hd2⟩ := hD d hd
  have u' := (hD d' hd').1
  have norm : ∀ P : P3 ℝ, g ^ 2 ≤ P.x ^ 2 + P.y ^ 2 + P.z ^ 2 → g ≤ P.norm := fun P h => by
    unfold P3.norm
    exact Real.le_sqrt_of_sq_le (by linarith [sq P.x, sq P.y, sq P.z])
  rcases hp with ⟨rfl, rfl⟩ | hp
  · rcases hρ with rfl | hρ
    · left; simp
    · rcases hd2 d' hd' with rfl | h
      · exact Or.inl rfl
      · right
        refine norm _ ?_
        simp only [P3.sub_x, P3.sub_y, P3.sub_z]
        have := pow_le_pow_left₀ hg hρ 2
        have k := mul_le_mul_of_nonneg_left h (sq_nonneg ρ)
        nlinarith
  · right
    refine norm _ ?_
    simp only [P3.sub_x, P3.sub_y, P3.sub_z]
    have cs : d.1 * d'.1 + d.2 * d'.2 ≤ 1 := by nlinarith [sq_nonneg (d.1 - d'.1), sq_nonneg (d.2 - d'.2)]
    have := mul_le_mul_of_nonneg_left cs (mul_nonneg h0 h0')
    have x1 : (ρ * d.1 - ρ' * d'.1) ^ 2 + (ρ * d.2 - ρ' * d'.2) ^ 2 =
        ρ ^ 2 + ρ' ^ 2 - 2 * (ρ * ρ' * (d.1 * d'.1 + d.2 * d'.2)) := by
      linear_combination ρ ^ 2 * u + ρ' ^ 2 * u'
    nlinarith

/-! ### the surfaces -/

theorem turn_dir {j : Nat} (hj : j < 4) (x : ℝ) (P : P3 ℝ) :
    turn^[j] (spin (arcC x) (arcS x) P) = spin (dirAt j x).1 (dirAt j x).2 P := by
  obtain rfl | rfl | rfl | rfl : j = 0 ∨ j = 1 ∨ j = 2 ∨ j = 3 := by omega
  all_goals simp [dirAt, Function.iterate_succ, turn_spin]

theorem revolve_dir {nc : Curve ℝ} {q n : Nat} (h : nc.Valid q n) (tol : ℝ) (ns : Surface ℝ) :
    ∃ S, revolve tol (Real.sqrt 2) nc ns = some S ∧ S.Valid 2 q 9 n ∧
      ∀ u, 0 ≤ u → u ≤ 1 → ∀ v, S.at u v = (nc.at v).map (spin (dir u).1 (dir u).2) := by
  obtain ⟨S, e, hv, hU, hV, -, -, hpair⟩ := revolve_valid h tol (Real.sqrt 2) ns
  refine ⟨S, e, hv, fun u h0 h1 v => ?_⟩
  obtain ⟨a, -, -, b⟩ := quarter_spec h0 h1
  rw [revolve_arc h root_sq root_pos hv hU hV hpair a b v]
  congr 1
  funext P
  exact turn_dir a _ P

theorem circle_dir (r : ℝ) (nc : Curve ℝ) : ∃ C, createCircle (Real.sqrt 2) r nc = some C ∧ C.Valid 2 9 ∧
    ∀ u, 0 ≤ u → u ≤ 1 → C.at u = some ⟨r * (dir u).1, r * (dir u).2, 0⟩ := by
  obtain ⟨C, e, hv, hk, hp⟩ := createCircle_valid (Real.sqrt 2) r nc
  refine ⟨C, e, hv, fun u h0 h1 => ?_⟩
  obtain ⟨a, -, -, b⟩ := quarter_spec h0 h1
  rw [circle_arc root_sq root_pos hv hk hp u _ a b]
  have := turn_dir a (4 * u - quad4 u) ⟨r, 0, 0⟩
  unfold arcC arcS at this
  simp only [this, Option.some.injEq]
  ext <;> simp [mirrorY, spin, dir, mul_comm]

theorem sphereProfile_dir (r : ℝ) : ∃ C, sphereProfile (Real.sqrt 2) r = some C ∧ C.Valid 2 5 ∧
    ∀ v, 0 ≤ v → v ≤ 1 → C.at v = some ⟨0, r * (dir (v / 2)).2, -(r * (dir (v / 2)).1)⟩ := by
  obtain ⟨C, e, hv, hk, hp⟩ := sphereProfile_valid (Real.sqrt 2) r
  refine ⟨C, e, hv, fun v h0 h1 => ?_⟩
  have cl : clamp v = v := clamp_of_mem h0 h1
  obtain ⟨e1, e2, e3, e4⟩ := arc_ends
  rcases lt_or_ge v (1 / 2) with h | h
  · have q : quad4 (v / 2) = 0 := by simp only [quad4]; rw [if_pos (by linarith)]
    rw [sphereProfile_arc root_sq root_pos hv hk hp v 0 (by norm_num) (by
      rw [cl]; refine ⟨?_, ?_, ?_, fun _ => ?_⟩ <;> simp [kn, knotsHalf] <;> linarith)]
    simp only [dir, q, dirAt, if_true, arcC, arcS, Option.some.injEq, show 4 * (v / 2) - ((0 : ℕ) : ℝ) = 2 * v - ((0 : ℕ) : ℝ) by ring]
    ext <;> simp
  · rw [sphereProfile_arc root_sq root_pos hv hk hp v 1 (by norm_num) (by
      rw [cl]; refine ⟨?_, ?_, ?_, fun _ => ?_⟩ <;> simp [kn, knotsHalf] <;> linarith)]
    rcases h1.eq_or_lt with rfl | h1
    · rw [dir_ends.2.2]
      norm_num
    · have q : quad4 (v / 2) = 1 := by simp only [quad4]; rw [if_neg (by linarith), if_pos (by linarith)]
      simp only [dir, q, dirAt, arcC, arcS, Option.some.injEq, one_ne_zero, if_false, if_true,
        show 4 * (v / 2) - ((1 : ℕ) : ℝ) = 2 * v - ((1 : ℕ) : ℝ) by ring]
      ext <;> simp

theorem dir_half {v : ℝ} (h0 : 0 ≤ v) (h1 : v ≤ 1) : min (2 * v) (2 * (1 - v)) ≤ (dir (v / 2)).2 := by
  rcases lt_or_ge v (1 / 2) with h | h
  · have q : quad4 (v / 2) = 0 := by simp only [quad4]; rw [if_pos (by linarith)]
    have := (arc_bounds (x := 4 * (v / 2) - ((0 : ℕ) : ℝ)) (by push_cast; linarith) (by push_cast; linarith)).2
    simp only [dir, q, dirAt, if_true]
    refine (min_le_left _ _).trans (le_trans (le_of_eq ?_) this)
    push_cast; ring
  · rcases h1.eq_or_lt with rfl | h1
    · rw [dir_ends.2.2]
      norm_num
    · have q : quad4 (v / 2) = 1 := by simp only [quad4]; rw [if_neg (by linarith), if_pos (by linarith)]
      have := (arc_bounds (x := 4 * (v / 2) - ((1 : ℕ) : ℝ)) (by push_cast; linarith) (by push_cast; linarith)).1
      simp only [dir, q, dirAt, one_ne_zero, if_false, if_true]
      refine (min_le_right _ _).trans (le_trans (le_of_eq ?_) this)
      push_cast; ring

/-- the directions of the samples of the sphere -/
theorem Spread.quarterTurn {e : ℝ} {D : Set (ℝ × ℝ)} (h : Spread e D) : Spread e {d | ∃ c ∈ D, d = (c.2, -c.1)} := by
  rintro _ ⟨c, hc, rfl⟩
  obtain ⟨a, b⟩ := h c hc
  refine ⟨by simp only []; linarith, ?_⟩
  rintro _ ⟨c', hc', rfl⟩
  rcases b c' hc' with rfl | g
  · exact Or.inl rfl
  · right
    refine g.trans (le_of_eq ?_)
    simp only []
    ring

/-- the vertices of the mesh are the samples -/
theorem vertex_at {ns : Solid ℝ} {q n : Nat} (hv : ∀ s ∈ ns, s.Valid 2 q 9 n) (hw : ∀ s ∈ ns, ∀ w ∈ s.weights, 0 < w) {k : Nat} (hk : 0 < k)
    {m M : Mesh ℝ} (h : toMeshSolid ns m k = some M) {i : Int} {P : P3 ℝ} (hP : M.getVertex i = some P) (hn : 0 < n) :
    ∃ s ∈ ns, ∃ i j : Nat, i ≤ 9 * k ∧ j ≤ n * k ∧ s.at ((i : ℝ) / (9 * k : Nat)) ((j : ℝ) / (n * k : Nat)) = some P := by
  obtain ⟨M', e, g⟩ := toMeshSolid_vertex ns (fun s hs => ⟨_, _, _, _, hv s hs⟩) hw hk m
  obtain rfl : M = M' := Option.some_inj.1 (h.symm.trans e)
  obtain ⟨s, hs, a, b, ha, hb, rfl⟩ := g i P hP
  have v := hv s hs
  have e1 : s.nbU.toNat = 9 := by rw [v.nbU]; rfl
  have e2 : s.nbV.toNat = n := by rw [v.nbV]; rfl
  rw [e1, mul_comm] at ha
  rw [e2, mul_comm] at hb
  refine ⟨s, hs, a, b, ha, hb, ?_⟩
  rw [e1, e2, mul_comm k 9, mul_comm k n]
  exact sample_eq v (hw s hs) (by omega) (Nat.mul_pos hn hk) ha hb

theorem shape_weights {R : ℝ} {q n : Nat} {s s' : Surface ℝ} (H : ShapeOff R q n s s') : ∀ w ∈ s.weights, 0 < w :=
  fun x hx => by linarith [(surf_weight_pos H.valid H.wt x hx).1]

theorem one_le_diff {a b : Nat} (h : a ≠ b) : (1 : ℝ) ≤ |(a : ℝ) - b| := by
  have : (1 : ℤ) ≤ |(a : ℤ) - b| := Int.one_le_abs (sub_ne_zero.2 (by exact_mod_cast h))
  exact_mod_cast this

/-- different samples of the sphere -/
theorem sphere_gap {r tol : ℝ} (r0 : 0 < r) {s : Surface ℝ} (e : createSphereSolid tol (Real.sqrt 2) r = some [s])
    (hv : s.Valid 2 2 9 5) (hw : ∀ w ∈ s.weights, 0 < w) {k : Nat} (hk : 0 < k) {m M : Mesh ℝ} (hM : toMeshSolid [s] m k = some M) {i j : Int} {P Q : P3 ℝ}
    (hP : M.getVertex i = some P) (hQ : M.getVertex j = some Q) (h : P ≠ Q) : 8 * r / (45 * k ^ 2) ≤ (P - Q).norm := by
  obtain ⟨C, eC, vC, hC⟩ := sphereProfile_dir r
  obtain ⟨S, eS, vS, hS⟩ := revolve_dir vC tol Surface.new.clear
  obtain rfl : S.mapPoints mirrorY = s := by
    have : createSphereSolid tol (Real.sqrt 2) r = some [S.mapPoints mirrorY] := by
      simp only [createSphereSolid, createSphere, eC, eS, Option.bind_eq_bind, Option.bind_some, Option.pure_def, Solid.add, List.nil_append]
    simpa using this.symm.trans e
  have k1 : (1 : ℝ) ≤ k := by exact_mod_cast hk
  have U0 : 0 < 9 * k := by omega
  have V0 : 0 < 5 * k := by omega
  have sp := (dirs_spread (show 4 ≤ 9 * k by omega)).quarterTurn
  have U1 : (0 : ℝ) < (9 * k : ℕ) := by exact_mod_cast U0
  have V1 : (0 : ℝ) < (5 * k : ℕ) := by exact_mod_cast V0
  -- the form of a sample
  have form : ∀ (i : Int) (P : P3 ℝ), M.getVertex i = some P → ∃ b : Nat, b ≤ 5 * k ∧ ∃ d ∈ {d : ℝ × ℝ | ∃ c ∈ dirs (9 * k), d = (c.2, -c.1)},
      P = ⟨r * (dir ((b : ℝ) / (5 * k : ℕ) / 2)).2 * d.1, r * (dir ((b : ℝ) / (5 * k : ℕ) / 2)).2 * d.2,
        -(r * (dir ((b : ℝ) / (5 * k : ℕ) / 2)).1)⟩ := by
    intro i P hP
    obtain ⟨s, hs, a, b, ha, hb, hat⟩ := vertex_at (by simpa using hv) (by simpa using hw) hk hM hP (by norm_num)
    rw [List.mem_singleton] at hs
    subst hs
    obtain ⟨a0, a1⟩ := frac_mem (K := ℝ) ha U0
    obtain ⟨b0, b1⟩ := frac_mem (K := ℝ) hb V0
    rw [mirrorY_at vS, hS _ a0 a1, hC _ b0 b1, Option.map_some, Option.map_some, Option.some.injEq] at hat
    refine ⟨b, hb, _, ⟨_, ⟨a, ha, rfl⟩, rfl⟩, ?_⟩
    rw [← hat]
    ext <;> simp [mirrorY, spin] <;> ring
  obtain ⟨b, hb, d, hd, rfl⟩ := form i P hP
  obtain ⟨b', hb', d', hd', rfl⟩ := form j Q hQ
  obtain ⟨b0, b1⟩ := frac_mem (K := ℝ) hb V0
  obtain ⟨b0', b1'⟩ := frac_mem (K := ℝ) hb' V0
  have g0 : 8 * r / (45 * k ^ 2) = r * (2 / (5 * k : ℕ)) * (4 / (9 * k : ℕ)) := by
    push_cast
    field_simp
    norm_num
  have s0 : ∀ v : ℝ, 0 ≤ v → v ≤ 1 → 0 ≤ r * (dir (v / 2)).2 := fun v v0 v1 =>
    mul_nonneg r0.le (le_trans (le_min (by linarith) (by linarith)) (dir_half v0 v1))
  refine (turned_gap (e := 4 / (9 * k : ℕ)) (g := 8 * r / (45 * k ^ 2)) (by positivity) (by positivity) sp hd hd' (s0 _ b0 b1) (s0 _ b0' b1') ?_ ?_).resolve_left h
  · by_cases hbb : b = b'
    · subst hbb
      exact Or.inl ⟨rfl, rfl⟩
    · right
      have V5 : (5 : ℝ) ≤ (5 * k : ℕ) := by push_cast; linarith
      have ab : |(b : ℝ) / (5 * k : ℕ) / 2 - b' / (5 * k : ℕ) / 2| = |(b : ℝ) - b'| / (5 * k : ℕ) / 2 := by
        rw [← sub_div, ← sub_div, abs_div, abs_div, abs_of_pos V1, abs_of_pos (by norm_num : (0 : ℝ) < 2)]
      have n1 : (1 : ℝ) ≤ |(b : ℝ) - b'| := by
        exact one_le_diff hbb
      have n2 : |(b : ℝ) / (5 * k : ℕ) / 2 - b' / (5 * k : ℕ) / 2| ≤ 1 / 2 := by
        rw [abs_le]; constructor <;> linarith
      have g := dir_gap (u := (b : ℝ) / (5 * k : ℕ) / 2) (v := (b' : ℝ) / (5 * k : ℕ) / 2) (by linarith) (by linarith) (by linarith) (by linarith)
        (e := 2 / (5 * k : ℕ)) (by positivity) ((div_le_one V1).2 (by linarith)) (by
          rw [ab, show 4 * (|(b : ℝ) - b'| / (5 * k : ℕ) / 2) = 2 * |(b : ℝ) - b'| / (5 * k : ℕ) by ring]
          exact div_le_div_of_nonneg_right (by linarith) V1.le) (by
          have : 2 / ((5 * k : ℕ) : ℝ) ≤ 1 := (div_le_one V1).2 (by linarith)
          linarith)
      have g1 : 8 * r / (45 * k ^ 2) ≤ r * (2 / (5 * k : ℕ)) := by
        rw [g0]
        refine mul_le_of_le_one_right (by positivity) ((div_le_one U1).2 ?_)
        push_cast
        linarith
      have g2 := pow_le_pow_left₀ (by positivity) g1 2
      have g3 := mul_le_mul_of_nonneg_left g (sq_nonneg r)
      refine g2.trans (le_trans (le_of_eq (by ring)) (g3.trans (le_of_eq ?_)))
      ring
  · by_cases hb0 : b = 0
    · left
      subst hb0
      rw [Nat.cast_zero, zero_div, zero_div, dir_ends.1]
      simp
    by_cases hbV : b = 5 * k
    · left
      rw [hbV, div_self V1.ne', dir_ends.2.2]
      simp
    right
    rw [g0]
    refine mul_le_mul_of_nonneg_right (mul_le_mul_of_nonneg_left (le_trans (le_min ?_ ?_) (dir_half b0 b1)) r0.le) (by positivity)
    · rw [← mul_div_assoc]
      refine div_le_div_of_nonneg_right ?_ V1.le
      have : (1 : ℝ) ≤ b := by exact_mod_cast Nat.one_le_iff_ne_zero.2 hb0
      linarith
    · rw [one_sub_div V1.ne', ← mul_div_assoc]
      refine div_le_div_of_nonneg_right ?_ V1.le
      have : (b : ℝ) + 1 ≤ (5 * k : ℕ) := by exact_mod_cast (by omega : b + 1 ≤ 5 * k)
      linarith

/-- different samples of the torus -/
theorem torus_gap {major minor tol : ℝ} (m0 : 0 < minor) (hM : minor < major) {s : Surface ℝ}
    (e : createTorusSolid tol (Real.sqrt 2) major minor = some [s]) (hv : s.Valid 2 2 9 9) (hw : ∀ w ∈ s.weights, 0 < w) {k : Nat} (hk : 0 < k)
    {m M : Mesh ℝ} (hM' : toMeshSolid [s] m k = some M) {i j : Int} {P Q : P3 ℝ} (hP : M.getVertex i = some P) (hQ : M.getVertex j = some Q)
    (h : P ≠ Q) : 4 * min minor (major - minor) / (9 * k) ≤ (P - Q).norm := by
  obtain ⟨C, eC, vC, hC⟩ := circle_dir minor Curve.new
  obtain ⟨C', eC', vC', hC', -⟩ := torusProfile root_sq root_pos major minor
  obtain rfl : C = C' := Option.some_inj.1 (eC.symm.trans eC')
  obtain ⟨S, eS, vS, hS⟩ := revolve_dir vC' tol Surface.new.clear
  obtain rfl : S.mapPoints mirrorY = s := by
    have : createTorusSolid tol (Real.sqrt 2) major minor = some [S.mapPoints mirrorY] := by
      simp only [createTorusSolid, createTorus, eC, eS, Option.bind_eq_bind, Option.bind_some, Option.pure_def, Solid.add, List.nil_append]
    simpa using this.symm.trans e
  have k1 : (1 : ℝ) ≤ k := by exact_mod_cast hk
  have U0 : 0 < 9 * k := by omega
  have sp := dirs_spread (show 4 ≤ 9 * k by omega)
  have U1 : (0 : ℝ) < (9 * k : ℕ) := by exact_mod_cast U0
  have form : ∀ (i : Int) (P : P3 ℝ), M.getVertex i = some P → ∃ d ∈ dirs (9 * k), ∃ c ∈ dirs (9 * k),
      P = ⟨(minor * c.1 + major) * d.1, (minor * c.1 + major) * d.2, minor * c.2⟩ := by
    intro i P hP
    obtain ⟨s, hs, a, b, ha, hb, hat⟩ := vertex_at (by simpa using hv) (by simpa using hw) hk hM' hP (by norm_num)
    rw [List.mem_singleton] at hs
    subst hs
    obtain ⟨a0, a1⟩ := frac_mem (K := ℝ) ha U0
    obtain ⟨b0, b1⟩ := frac_mem (K := ℝ) hb U0
    rw [mirrorY_at vS, hS _ a0 a1, hC', hC _ b0 b1, Option.map_some, Option.map_some, Option.map_some, Option.some.injEq] at hat
    refine ⟨_, ⟨a, ha, rfl⟩, _, ⟨b, hb, rfl⟩, ?_⟩
    rw [← hat]
    ext <;> simp [mirrorY, spin] <;> ring
  obtain ⟨d, hd, c, hc, rfl⟩ := form i P hP
  obtain ⟨d', hd', c', hc', rfl⟩ := form j Q hQ
  have g0 : 4 * min minor (major - minor) / (9 * k) = min minor (major - minor) * (4 / (9 * k : ℕ)) := by
    push_cast
    ring
  have mm : 0 < min minor (major - minor) := lt_min m0 (by linarith)
  have ge : ∀ c ∈ dirs (9 * k), major - minor ≤ minor * c.1 + major := fun c hc => by
    have := (sp c hc).1
    have : -1 ≤ c.1 := by nlinarith [sq_nonneg c.2]
    nlinarith
  refine (turned_gap (e := 4 / (9 * k : ℕ)) (g := 4 * min minor (major - minor) / (9 * k)) (by positivity) (by positivity) sp hd hd'
    (by linarith [ge c hc]) (by linarith [ge c' hc']) ?_ (Or.inr ?_)).resolve_left h
  · rcases (sp c hc).2 c' hc' with rfl | g
    · exact Or.inl ⟨rfl, rfl⟩
    · right
      have g1 : 4 * min minor (major - minor) / (9 * k) ≤ minor * (4 / (9 * k : ℕ)) := by
        rw [g0]
        exact mul_le_mul_of_nonneg_right (min_le_left _ _) (by positivity)
      have g2 := pow_le_pow_left₀ (by positivity) g1 2
      have g3 := mul_le_mul_of_nonneg_left g (sq_nonneg minor)
      refine g2.trans (le_trans (le_of_eq (by ring)) (g3.trans (le_of_eq ?_)))
      ring
  · rw [g0]
    exact mul_le_mul_of_nonneg_right ((min_le_right _ _).trans (ge c hc)) (by positivity)

/-- different samples of the cylinder, on one or on two of its three surfaces -/
theorem cylinder_gap {r h tol : ℝ} (r0 : 0 < r) (h0 : 0 < h) {B : Solid ℝ} (e : createCylinder tol (Real.sqrt 2) r h = some B)
    (hv : ∀ s ∈ B, s.Valid 2 1 9 2) (hw : ∀ s ∈ B, ∀ w ∈ s.weights, 0 < w) {k : Nat} (hk : 0 < k)
    {m M : Mesh ℝ} (hM : toMeshSolid B m k = some M) {i j : Int} {P Q : P3 ℝ} (hP : M.getVertex i = some P) (hQ : M.getVertex j = some Q)
    (hne : P ≠ Q) : min (2 * r / (9 * k ^ 2)) (h / (2 * k)) ≤ (P - Q).norm := by
  obtain ⟨c, e1, vc, hc⟩ := diskProfile r
  obtain ⟨D, eD, vD, hD⟩ := revolve_dir vc tol Surface.new.clear
  have eD' : createDisk tol (Real.sqrt 2) r Surface.new = some D := by
    unfold createDisk
    simp only [Option.bind_eq_bind]
    rw [← Option.bind_assoc, e1, Option.bind_some]
    exact eD
  obtain ⟨C, ec, vC, -, -, -, hC⟩ := createCurveFromPoints_two (⟨r, 0, -h / 2⟩ : P3 ℝ) ⟨r, 0, h / 2⟩ Curve.new
  obtain ⟨S, eS, vS, hS⟩ := revolve_dir vC tol Surface.new
  obtain rfl : [D.mapPoints fun p => ⟨p.x, -p.y, p.z - h / 2⟩, S.mapPoints mirrorY, D.mapPoints fun p => ⟨p.x, p.y, p.z + h / 2⟩] = B := by
    have : createCylinder tol (Real.sqrt 2) r h = some [D.mapPoints fun p => ⟨p.x, -p.y, p.z - h / 2⟩, S.mapPoints mirrorY,
        D.mapPoints fun p => ⟨p.x, p.y, p.z + h / 2⟩] := by
      simp only [createCylinder, eD', ec, eS, Option.bind_eq_bind, Option.bind_some, Option.pure_def, Solid.add,
        List.nil_append, List.singleton_append, List.cons_append]
    exact Option.some_inj.1 (this.symm.trans e)
  have k1 : (1 : ℝ) ≤ k := by exact_mod_cast hk
  have U0 : 0 < 9 * k := by omega
  have V0 : 0 < 2 * k := by omega
  have sp := dirs_spread (show 4 ≤ 9 * k by omega)
  have U1 : (0 : ℝ) < (9 * k : ℕ) := by exact_mod_cast U0
  have V1 : (0 : ℝ) < (2 * k : ℕ) := by exact_mod_cast V0
  -- every sample: radius and height are multiples of `r / V` and `h / V`
  have form : ∀ (i : Int) (P : P3 ℝ), M.getVertex i = some P → ∃ a b : Nat, ∃ d ∈ dirs (9 * k),
      P = ⟨r * (a / (2 * k : ℕ)) * d.1, r * (a / (2 * k : ℕ)) * d.2, h * (b / (2 * k : ℕ)) - h / 2⟩ := by
    intro i P hP
    obtain ⟨s, hs, a, b, ha, hb, hat⟩ := vertex_at hv hw hk hM hP (by norm_num)
    obtain ⟨a0, a1⟩ := frac_mem (K := ℝ) ha U0
    obtain ⟨b0, b1⟩ := frac_mem (K := ℝ) hb V0
    simp only [List.mem_cons, List.not_mem_nil, or_false] at hs
    rcases hs with rfl | rfl | rfl
    · rw [mapPoints_at vD _ ⟨1, 0, 0⟩ ⟨0, -1, 0⟩ ⟨0, 0, 1⟩ ⟨0, 0, -(h / 2)⟩ (fun P => by ext <;> simp [affine, P3.dot]; ring),
        hD _ a0 a1, hc, Option.map_some, Option.map_some, Option.some.injEq] at hat
      refine ⟨b, 0, _, ⟨a, ha, rfl⟩, ?_⟩
      rw [← hat]
      ext <;> simp [spin] <;> ring
    · rw [mirrorY_at vS, hS _ a0 a1, hC, Option.map_some, Option.map_some, Option.some.injEq] at hat
      refine ⟨2 * k, b, _, ⟨a, ha, rfl⟩, ?_⟩
      rw [← hat, div_self V1.ne']
      ext <;> simp [spin, mirrorY] <;> ring
    · rw [mapPoints_at vD _ ⟨1, 0, 0⟩ ⟨0, 1, 0⟩ ⟨0, 0, 1⟩ ⟨0, 0, h / 2⟩ (fun P => by ext <;> simp [affine, P3.dot]),
        hD _ a0 a1, hc, Option.map_some, Option.map_some, Option.some.injEq] at hat
      refine ⟨b, 2 * k, _, dirs_flip U0 ⟨a, ha, rfl⟩, ?_⟩
      rw [← hat, div_self V1.ne']
      ext <;> simp [spin] <;> ring
  obtain ⟨a, b, d, hd, rfl⟩ := form i P hP
  obtain ⟨a', b', d', hd', rfl⟩ := form j Q hQ
  have g1 : 2 * r / (9 * k ^ 2) = r * (1 / (2 * k : ℕ)) * (4 / (9 * k : ℕ)) := by
    push_cast
    field_simp
    norm_num
  have g2 : h / (2 * k) = h * (1 / (2 * k : ℕ)) := by
    push_cast
    ring
  have g0 : 0 < min (2 * r / (9 * (k : ℝ) ^ 2)) (h / (2 * k)) := lt_min (by positivity) (by positivity)
  have step : ∀ {x : ℝ}, 0 < x → ∀ {a b : Nat}, a ≠ b → x * (1 / (2 * k : ℕ)) ≤ |x * (a / (2 * k : ℕ)) - x * (b / (2 * k : ℕ))| := by
    intro x x0 a b hab
    rw [← mul_sub, ← sub_div, abs_mul, abs_div, abs_of_pos x0, abs_of_pos V1]
    exact mul_le_mul_of_nonneg_left (div_le_div_of_nonneg_right (one_le_diff hab) V1.le) x0.le
  refine (turned_gap (e := 4 / (9 * k : ℕ)) (g := min (2 * r / (9 * k ^ 2)) (h / (2 * k))) (by positivity) g0.le sp hd hd'
    (by positivity) (by positivity) ?_ ?_).resolve_left hne
  · by_cases haa : a = a'
    · by_cases hbb : b = b'
      · subst haa hbb
        exact Or.inl ⟨rfl, rfl⟩
      · right
        refine sq_le_of_coord g0.le (Or.inr ?_)
        rw [sub_sub_sub_cancel_right]
        exact (min_le_right _ _).trans (g2.le.trans (step h0 hbb))
    · right
      refine sq_le_of_coord g0.le (Or.inl ?_)
      refine (min_le_left _ _).trans (le_trans ?_ (step r0 haa))
      rw [g1]
      refine mul_le_of_le_one_right (by positivity) ((div_le_one U1).2 ?_)
      push_cast
      linarith
  · by_cases ha : a = 0
    · left
      rw [ha]
      simp
    · right
      refine (min_le_left _ _).trans ?_
      rw [g1]
      refine mul_le_mul_of_nonneg_right (mul_le_mul_of_nonneg_left (div_le_div_of_nonneg_right ?_ V1.le) r0.le) (by positivity)
      exact_mod_cast Nat.one_le_iff_ne_zero.2 ha

/-! ### welding -/

/-- welding of a mesh that is off by the rounding error of C131 -/
theorem weld_shape {R t g : ℝ} (hR : 2 ^ (-400 : ℤ) ≤ R) {M M' : Mesh ℝ} (o : M.OK) (o' : M'.OK) (hn : MeshNear (700 * 2 ^ (-53 : ℤ) * R) M M')
    (cl : ClosedSoup M.triangles) (h0 : R * 2 ^ (-41 : ℤ) ≤ t) (h1 : t * (1 + 2 ^ (-49 : ℤ)) + R * 2 ^ (-41 : ℤ) ≤ g)
    (hg : ∀ i j P Q, M.getVertex i = some P → M.getVertex j = some Q → P ≠ Q → g ≤ (P - Q).norm) :
    ∃ w, mergeVerticesBy (Rounded.nearTol double t) 0 M' = some w ∧ w.OK ∧ w.nbTriangles = M.triangles.length ∧ BalancedIds w.cornerList ∧
      (∀ i P, w.getVertex i = some P → ∃ j Q, M.getVertex j = some Q ∧ (P - Q).norm ≤ R * 2 ^ (-42 : ℤ)) ∧
      (∀ j Q, M.getVertex j = some Q → ∃ i P, w.getVertex i = some P ∧ (P - Q).norm ≤ R * 2 ^ (-42 : ℤ)) ∧
      (∀ i j P Q, w.getVertex i = some P → w.getVertex j = some Q → i ≠ j → t * (1 - 2 ^ (-49 : ℤ)) ≤ (P - Q).norm) := by
  have R0 := small_off hR
  have e1 : (2 : ℝ) ^ (-41 : ℤ) = 4096 * 2 ^ (-53 : ℤ) := by norm_num
  have e2 : (2 : ℝ) ^ (-42 : ℤ) = 2048 * 2 ^ (-53 : ℤ) := by norm_num
  have e3 : (2 : ℝ) ^ (-49 : ℤ) = 16 * 2 ^ (-53 : ℤ) := by norm_num
  have u0 : (0 : ℝ) < 2 ^ (-53 : ℤ) := by positivity
  have u1 : (2 : ℝ) ^ (-53 : ℤ) ≤ 1 / 10 ^ 10 := by norm_num
  have t5 : (2 : ℝ) ^ (-500 : ℤ) ≤ t := by
    refine le_trans ?_ h0
    refine le_trans ?_ (mul_le_mul_of_nonneg_right hR (by positivity))
    rw [← zpow_add₀ (by norm_num)]
    exact zpow_le_zpow_right₀ (by norm_num) (by norm_num)
  have t0 : 0 < t := lt_of_lt_of_le (by positivity) t5
  rw [e1] at h0 h1
  rw [e3] at h1
  have uR : 0 < 2 ^ (-53 : ℤ) * R := by positivity
  have ut : 2 ^ (-53 : ℤ) * t ≤ 1 / 10 ^ 10 * t := mul_le_mul_of_nonneg_right u1 t0.le
  obtain ⟨w, a1, a2, a3, a4, a5, a6, a7⟩ := Rounded.weld_double t5 M M' o o' hn (by positivity) (by
    rw [e3]
    generalize (2 : ℝ) ^ (-53 : ℤ) = u at *
    nlinarith) (fun i j p q hp hq hpq => by
    refine le_trans ?_ (h1.trans (hg i j p q hp hq hpq))
    rw [e3]
    generalize (2 : ℝ) ^ (-53 : ℤ) = u at *
    nlinarith)
  have two : 2 * (700 * 2 ^ (-53 : ℤ) * R) ≤ R * 2 ^ (-42 : ℤ) := by
    rw [e2]
    generalize (2 : ℝ) ^ (-53 : ℤ) = u at *
    nlinarith
  refine ⟨w, a1, a2, a3, a7 cl, fun i P hP => ?_, fun j Q hQ => ?_, fun i j P Q hP hQ hij => ?_⟩
  · obtain ⟨j, Q, hQ, n⟩ := a5 i P hP
    exact ⟨j, Q, hQ, n.trans two⟩
  · obtain ⟨i, P, hP, n⟩ := a4 Q ⟨j, hQ⟩
    exact ⟨i, P, hP, n.trans two⟩
  · have := a6 i j P Q hP hQ hij
    linarith

/-- **C132** sphere.  Made, meshed and welded in `double` with a tolerance `t` above the rounding
error and below the distance of different samples: the mesh is closed by vertex numbers, its
vertices are on the sphere up to the rounding error, and no two of them are nearer than the
tolerance. -/
theorem sphere_weld_double {r tol t : ℝ} (hr : 2 ^ (-400 : ℤ) ≤ r) (hr' : r ≤ 2 ^ (400 : ℤ)) (ht : 2 ^ (-400 : ℤ) ≤ tol) (htr : tol ≤ r)
    {k : Nat} (hk : 0 < k) (m : Mesh ℝ) (h0 : r * 2 ^ (-41 : ℤ) ≤ t) (h1 : t * (1 + 2 ^ (-49 : ℤ)) + r * 2 ^ (-41 : ℤ) ≤ 8 * r / (45 * k ^ 2)) :
    ∃ B M w, createSphereSolidRounded double tol r = some B ∧ toMeshSolidRounded double B m k = some M ∧
      mergeVerticesBy (Rounded.nearTol double t) 0 M = some w ∧ w.OK ∧ w.nbTriangles = 90 * k ^ 2 ∧ BalancedIds w.cornerList ∧
      (∀ i P, w.getVertex i = some P → |P.norm - r| ≤ r * 2 ^ (-42 : ℤ)) ∧
      (∀ i j P Q, w.getVertex i = some P → w.getVertex j = some Q → i ≠ j → t * (1 - 2 ^ (-49 : ℤ)) ≤ (P - Q).norm) := by
  obtain ⟨s, s', e, e', H⟩ := sphere_shape hr hr' ht htr
  obtain ⟨B, B', M, M', f1, f2, f3, f4, f5, f6, f7, f8, -⟩ := sphere_mesh_double hr hr' ht htr hk m m
  obtain rfl : [s] = B := Option.some_inj.1 (e.symm.trans f1)
  have r0 := small_off hr
  obtain ⟨B, M1, g, g', o, -⟩ := sphere_mesh_watertight tol root_sq root_pos r hk m
  obtain rfl : [s] = B := Option.some_inj.1 (e.symm.trans g)
  obtain rfl : M = M1 := Option.some_inj.1 (f3.symm.trans g')
  obtain ⟨w, a1, a2, a3, a4, a5, -, a7⟩ := weld_shape hr o f5 f8 f6 h0 h1
    (fun i j P Q hP hQ hPQ => sphere_gap r0 e H.valid (shape_weights H) hk f3 hP hQ hPQ)
  refine ⟨B', M', w, f2, f4, a1, a2, by rw [a3, f7]; push_cast; ring, a4, fun i P hP => ?_, a7⟩
  obtain ⟨j, Q, hQ, n⟩ := a5 i P hP
  obtain ⟨S, es, -, heq⟩ := sphere_equation tol root_sq root_pos r Surface.new
  obtain rfl : S = s := by
    have : createSphereSolid tol (Real.sqrt 2) r = some [S] := by simp [createSphereSolid, es, Solid.add]
    simpa using this.symm.trans e
  obtain ⟨s, hs, a, b, -, -, hat⟩ := vertex_at (by simpa using H.valid) (by simpa using shape_weights H) hk f3 hQ (by norm_num)
  rw [List.mem_singleton] at hs
  subst hs
  obtain ⟨Q', hQ', q⟩ := heq ((a : ℝ) / (9 * k : Nat)) ((b : ℝ) / (5 * k : Nat))
  obtain rfl : Q = Q' := Option.some_inj.1 (hat.symm.trans hQ')
  have nQ := norm_of_sq r0.le q
  have n1 := Rounded.norm_add_le (P - Q) Q
  have n2 := Rounded.norm_sub_le P (P - Q)
  rw [sub_add_cancel] at n1
  rw [sub_sub_cancel] at n2
  generalize r * 2 ^ (-42 : ℤ) = z at *
  rw [nQ] at n1
  rw [nQ] at n2
  rw [abs_le]
  constructor <;> linarith only [n, n1, n2]

/-- **C132** torus.  The exact samples `Q` are points of the torus. -/
theorem torus_weld_double {major minor tol t : ℝ} (hm : 2 ^ (-400 : ℤ) ≤ minor) (hM : minor < major) (hM' : major + minor ≤ 2 ^ (400 : ℤ))
    (ht : 2 ^ (-400 : ℤ) ≤ tol) {k : Nat} (hk : 0 < k) (m : Mesh ℝ) (h0 : (major + minor) * 2 ^ (-41 : ℤ) ≤ t)
    (h1 : t * (1 + 2 ^ (-49 : ℤ)) + (major + minor) * 2 ^ (-41 : ℤ) ≤ 4 * min minor (major - minor) / (9 * k)) :
    ∃ B M w, createTorusSolidRounded double tol major minor = some B ∧ toMeshSolidRounded double B m k = some M ∧
      mergeVerticesBy (Rounded.nearTol double t) 0 M = some w ∧ w.OK ∧ w.nbTriangles = 162 * k ^ 2 ∧ BalancedIds w.cornerList ∧
      (∀ i P, w.getVertex i = some P → ∃ Q : P3 ℝ, (P - Q).norm ≤ (major + minor) * 2 ^ (-42 : ℤ) ∧
        (Q.x ^ 2 + Q.y ^ 2 + Q.z ^ 2 + major ^ 2 - minor ^ 2) ^ 2 = 4 * major ^ 2 * (Q.x ^ 2 + Q.y ^ 2)) ∧
      (∀ i j P Q, w.getVertex i = some P → w.getVertex j = some Q → i ≠ j → t * (1 - 2 ^ (-49 : ℤ)) ≤ (P - Q).norm) := by
  have m0 := small_off hm
  have M0 : 0 ≤ major := by linarith
  obtain ⟨s, s', e, e', H⟩ := torus_shape hm M0 hM' ht
  obtain ⟨B, B', M, M', f1, f2, f3, f4, f5, f6, f7, f8, f9, -⟩ := torus_mesh_double hm M0 hM' ht hk m m
  obtain rfl : [s] = B := Option.some_inj.1 (e.symm.trans f1)
  obtain ⟨B, M1, g, g', o, -⟩ := torus_mesh_watertight (small_off ht) root_sq root_pos major minor hk m
  obtain rfl : [s] = B := Option.some_inj.1 (e.symm.trans g)
  obtain rfl : M = M1 := Option.some_inj.1 (f3.symm.trans g')
  obtain ⟨w, a1, a2, a3, a4, a5, -, a7⟩ := weld_shape (by linarith) o f5 f8 f6 h0 h1
    (fun i j P Q hP hQ hPQ => torus_gap m0 hM e H.valid (shape_weights H) hk f3 hP hQ hPQ)
  refine ⟨B', M', w, f2, f4, a1, a2, by rw [a3, f7]; push_cast; ring, a4, fun i P hP => ?_, a7⟩
  obtain ⟨j, Q, hQ, n⟩ := a5 i P hP
  exact ⟨Q, n, f9 j Q hQ⟩

/-- **C132** cylinder.  The three surfaces of the solid are joined along the two circles. -/
theorem cylinder_weld_double {r h tol t : ℝ} (hr : 2 ^ (-400 : ℤ) ≤ r) (hh : 2 * tol ≤ h) (hR' : r + h ≤ 2 ^ (400 : ℤ))
    (ht : 2 ^ (-400 : ℤ) ≤ tol) (htr : 2 * tol ≤ r) {k : Nat} (hk : 0 < k) (m : Mesh ℝ) (h0 : (r + h) * 2 ^ (-41 : ℤ) ≤ t)
    (h1 : t * (1 + 2 ^ (-49 : ℤ)) + (r + h) * 2 ^ (-41 : ℤ) ≤ min (2 * r / (9 * k ^ 2)) (h / (2 * k))) :
    ∃ B M w, createCylinderRounded double tol r h = some B ∧ toMeshSolidRounded double B m k = some M ∧
      mergeVerticesBy (Rounded.nearTol double t) 0 M = some w ∧ w.OK ∧ w.nbTriangles = 108 * k ^ 2 ∧ BalancedIds w.cornerList ∧
      (∀ i P, w.getVertex i = some P → ∃ Q : P3 ℝ, (P - Q).norm ≤ (r + h) * 2 ^ (-42 : ℤ) ∧
        Q.x ^ 2 + Q.y ^ 2 ≤ r ^ 2 ∧ |Q.z| ≤ h / 2 ∧ (Q.x ^ 2 + Q.y ^ 2 = r ^ 2 ∨ |Q.z| = h / 2)) ∧
      (∀ i j P Q, w.getVertex i = some P → w.getVertex j = some Q → i ≠ j → t * (1 - 2 ^ (-49 : ℤ)) ≤ (P - Q).norm) := by
  have r0 := small_off hr
  have t0 := small_off ht
  have hp : 0 < h := by linarith
  obtain ⟨s1, s2, s3, s1', s2', s3', e, e', H1, H2, H3⟩ := cylinder_shape hr hh hR' ht htr
  obtain ⟨B, B', M, M', f1, f2, f3, f4, f5, f6, f7, f8, f9, -⟩ := cylinder_mesh_double hr hh hR' ht htr hk m m
  obtain rfl : [s1, s2, s3] = B := Option.some_inj.1 (e.symm.trans f1)
  obtain ⟨B, M1, g, g', o, -⟩ := cylinder_mesh_watertight t0 root_sq root_pos (r := r) (h := h) (by rw [abs_of_pos r0]; linarith)
    (by rw [abs_of_pos hp]; linarith) hk m
  obtain rfl : [s1, s2, s3] = B := Option.some_inj.1 (e.symm.trans g)
  obtain rfl : M = M1 := Option.some_inj.1 (f3.symm.trans g')
  obtain ⟨w, a1, a2, a3, a4, a5, -, a7⟩ := weld_shape (by linarith) o f5 f8 f6 h0 h1
    (fun i j P Q hP hQ hPQ => cylinder_gap r0 hp e (by simpa using ⟨H1.valid, H2.valid, H3.valid⟩)
      (by simpa using ⟨shape_weights H1, shape_weights H2, shape_weights H3⟩) hk f3 hP hQ hPQ)
  refine ⟨B', M', w, f2, f4, a1, a2, by rw [a3, f7]; push_cast; ring, a4, fun i P hP => ?_, a7⟩
  obtain ⟨j, Q, hQ, n⟩ := a5 i P hP
  exact ⟨Q, n, f9 j Q hQ⟩

theorem tol_ok : (2 : ℝ) ^ (-400 : ℤ) ≤ 1 / 1000000 :=
  le_trans (zpow_le_zpow_right₀ (by norm_num) (by norm_num : (-400 : ℤ) ≤ -20)) (by norm_num)

theorem range_ok {x : ℝ} (h : x ≤ 1024) : x ≤ 2 ^ (400 : ℤ) :=
  le_trans (h.trans (by norm_num : (1024 : ℝ) ≤ 2 ^ (10 : ℤ))) (zpow_le_zpow_right₀ (by norm_num) (by norm_num))

/-- with the library's tolerance `1e-6`, welded with `1e-3`: a sphere of radius 100 with 8 segments
per control point, and a cylinder -/
example (m : Mesh ℝ) : (∃ B M w, createSphereSolidRounded double (1 / 1000000) 100 = some B ∧ toMeshSolidRounded double B m 8 = some M ∧
      mergeVerticesBy (Rounded.nearTol double (1 / 1000)) 0 M = some w ∧ w.nbTriangles = 5760 ∧ BalancedIds w.cornerList) ∧
    ∃ B M w, createCylinderRounded double (1 / 1000000) 100 50 = some B ∧ toMeshSolidRounded double B m 8 = some M ∧
      mergeVerticesBy (Rounded.nearTol double (1 / 1000)) 0 M = some w ∧ w.nbTriangles = 6912 ∧ BalancedIds w.cornerList := by
  obtain ⟨B, M, w, a, b, c, -, d, e, -⟩ := sphere_weld_double (r := 100) (t := 1 / 1000) (k := 8) (tol_ok.trans (by norm_num))
    (range_ok (by norm_num)) tol_ok (by norm_num) (by norm_num) m (by norm_num) (by norm_num)
  obtain ⟨B', M', w', a', b', c', -, d', e', -⟩ := cylinder_weld_double (r := 100) (h := 50) (t := 1 / 1000) (k := 8)
    (tol_ok.trans (by norm_num)) (by norm_num) (range_ok (by norm_num)) tol_ok (by norm_num) (by norm_num) m (by norm_num) (by norm_num)
  exact ⟨⟨B, M, w, a, b, c, by rw [d]; norm_num, e⟩, B', M', w', a', b', c', by rw [d']; norm_num, e'⟩

end Nurbs
end CAD
