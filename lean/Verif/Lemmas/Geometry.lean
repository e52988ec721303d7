import Verif.Spec.Geometry
import Mathlib.Tactic.Positivity

/-! Helper lemmas for the geometry properties. -/

namespace CAD
variable {K : Type*} [Field K]

namespace P3

theorem lagrange (a b : P3 K) :
    (a.cross b).normSq = a.normSq * b.normSq - a.dot b * a.dot b := by
  simp [normSq, dot]; ring

end P3

namespace Tri3

/-- the three sub-areas `u, v, w` of `contains` add up to the triangle's orthogonal -/
theorem uvw_sum (t : Tri3 K) (q : P3 K) :
    (t.p2 - q).cross (t.p3 - q) + (t.p3 - q).cross (t.p1 - q) + (t.p1 - q).cross (t.p2 - q)
      = t.orthogonal := by
  ext <;> simp [orthogonal] <;> ring

theorem uvw_of_bary (t : Tri3 K) {a b c : K} (h : a + b + c = 1) {q : P3 K}
    (hq : q = a • t.p1 + b • t.p2 + c • t.p3) :
    (t.p2 - q).cross (t.p3 - q) = a • t.orthogonal ∧
    (t.p3 - q).cross (t.p1 - q) = b • t.orthogonal ∧
    (t.p1 - q).cross (t.p2 - q) = c • t.orthogonal := by
  have hc : c = 1 - a - b := by linear_combination h
  subst hq hc
  refine ⟨?_, ?_, ?_⟩ <;> ext <;> simp [orthogonal] <;> ring

theorem bary_of_coplanar (t : Tri3 K) (q : P3 K) :
    t.orthogonal.normSq • q =
      (((t.p2 - q).cross (t.p3 - q)).dot t.orthogonal) • t.p1 +
      (((t.p3 - q).cross (t.p1 - q)).dot t.orthogonal) • t.p2 +
      (((t.p1 - q).cross (t.p2 - q)).dot t.orthogonal) • t.p3 +
      (t.orthogonal.dot (q - t.p1)) • t.orthogonal := by
  ext <;> simp [orthogonal, P3.normSq, P3.dot] <;> ring

theorem dot_orthogonal_of_inPlane (t : Tri3 K) {q : P3 K} (h : InPlaneOf t q) :
    t.orthogonal.dot (q - t.p1) = 0 := by
  obtain ⟨a, b, c, h, rfl⟩ := h
  have hc : c = 1 - a - b := by linear_combination h
  subst hc
  simp [orthogonal, P3.dot]; ring

theorem inPlane_iff [LinearOrder K] [IsStrictOrderedRing K] (t : Tri3 K)
    (h0 : t.orthogonal ≠ 0) (q : P3 K) :
    InPlaneOf t q ↔ t.orthogonal.dot (q - t.p1) = 0 := by
  refine ⟨dot_orthogonal_of_inPlane t, fun h => ?_⟩
  have hN : t.orthogonal.normSq ≠ 0 := fun e => h0 (P3.normSq_eq_zero.1 e)
  have key := bary_of_coplanar t q
  have hs := congrArg (fun v => v.dot t.orthogonal) (uvw_sum t q)
  set N := t.orthogonal with hNdef
  set u := ((t.p2 - q).cross (t.p3 - q)) with hu
  set v := ((t.p3 - q).cross (t.p1 - q)) with hv
  set w := ((t.p1 - q).cross (t.p2 - q)) with hw
  rw [h, zero_smul, add_zero] at key
  refine ⟨u.dot N / N.normSq, v.dot N / N.normSq, w.dot N / N.normSq, ?_, ?_⟩
  · have : u.dot N + v.dot N + w.dot N = N.normSq := by
      have e : (u + v + w).dot N = u.dot N + v.dot N + w.dot N := by simp [P3.dot]; ring
      rw [← e, hs]; rfl
    field_simp
    linarith
  · have : q = (1 / N.normSq) • (N.normSq • q) := by
      rw [← mul_smul, one_div, inv_mul_cancel₀ hN, one_smul]
    rw [this, key]
    simp only [smul_add, ← mul_smul, div_eq_mul_inv, one_mul]
    congr 2 <;> rw [mul_comm]

theorem orthogonal_eq_zero_iff (t : Tri3 K) :
    t.orthogonal = 0 ↔ Collinear3 t.p1 t.p2 t.p3 := by
  constructor
  · intro h
    by_cases hd : t.p2 = t.p1
    · refine ⟨t.p1, t.p3 - t.p1, 0, 0, 1, ?_, ?_, ?_⟩
      · simp
      · simp [hd]
      · rw [one_smul]; abel
    · have hx := congrArg P3.x h
      have hy := congrArg P3.y h
      have hz := congrArg P3.z h
      simp [orthogonal] at hx hy hz
      have hne : t.p2.x - t.p1.x ≠ 0 ∨ t.p2.y - t.p1.y ≠ 0 ∨ t.p2.z - t.p1.z ≠ 0 := by
        by_contra hc
        push Not at hc
        apply hd
        ext
        · exact sub_eq_zero.1 hc.1
        · exact sub_eq_zero.1 hc.2.1
        · exact sub_eq_zero.1 hc.2.2
      rcases hne with h1 | h1 | h1
      · refine ⟨t.p1, t.p2 - t.p1, 0, 1, (t.p3.x - t.p1.x) / (t.p2.x - t.p1.x), by simp, by simp, ?_⟩
        ext <;> simp <;> field_simp
        · ring
        · linear_combination hz
        · linear_combination -hy
      · refine ⟨t.p1, t.p2 - t.p1, 0, 1, (t.p3.y - t.p1.y) / (t.p2.y - t.p1.y), by simp, by simp, ?_⟩
        ext <;> simp <;> field_simp
        · linear_combination -hz
        · ring
        · linear_combination hx
      · refine ⟨t.p1, t.p2 - t.p1, 0, 1, (t.p3.z - t.p1.z) / (t.p2.z - t.p1.z), by simp, by simp, ?_⟩
        ext <;> simp <;> field_simp
        · linear_combination hy
        · linear_combination -hx
        · ring
  · rintro ⟨o, d, a, b, c, h1, h2, h3⟩
    ext <;> simp [orthogonal, h1, h2, h3] <;> ring

end Tri3

/-! ### bounding boxes -/
namespace BBox
variable {K : Type*} [LinearOrder K]

theorem grow_lo {x lo hi : K} (_ : lo ≤ hi) : (grow x lo hi).1 = min lo x := by
  unfold grow; split_ifs with h1 h2
  · exact (min_eq_right h1.le).symm
  · exact (min_eq_left (not_lt.1 h1)).symm
  · exact (min_eq_left (not_lt.1 h1)).symm

theorem grow_hi {x lo hi : K} (h : lo ≤ hi) : (grow x lo hi).2 = max hi x := by
  unfold grow; split_ifs with h1 h2
  · exact (max_eq_left (h1.le.trans h)).symm
  · exact (max_eq_right (le_of_lt h2)).symm
  · exact (max_eq_left (not_lt.1 h2)).symm

/-- a box that has been given at least one point -/
def Valid (b : BBox K) : Prop :=
  b.init = true ∧ b.lo.x ≤ b.hi.x ∧ b.lo.y ≤ b.hi.y ∧ b.lo.z ≤ b.hi.z

theorem add_valid {b : BBox K} (h : b.init = false ∨ b.Valid) (p : P3 K) : (b.add p).Valid := by
  unfold add
  rcases h with h | ⟨hi, hx, hy, hz⟩
  · simp [h, Valid]
  · simp only [hi, Bool.true_eq_false, if_false]
    refine ⟨rfl, ?_, ?_, ?_⟩ <;> simp only
    · rw [grow_lo hx, grow_hi hx]; exact (min_le_left _ _).trans (hx.trans (le_max_left _ _))
    · rw [grow_lo hy, grow_hi hy]; exact (min_le_left _ _).trans (hy.trans (le_max_left _ _))
    · rw [grow_lo hz, grow_hi hz]; exact (min_le_left _ _).trans (hz.trans (le_max_left _ _))

theorem add_of_valid {b : BBox K} (h : b.Valid) (p : P3 K) :
    b.add p = ⟨true, ⟨min b.lo.x p.x, min b.lo.y p.y, min b.lo.z p.z⟩,
      ⟨max b.hi.x p.x, max b.hi.y p.y, max b.hi.z p.z⟩⟩ := by
  obtain ⟨hi, hx, hy, hz⟩ := h
  unfold add
  simp only [hi, Bool.true_eq_false, if_false]
  rw [grow_lo hx, grow_hi hx, grow_lo hy, grow_hi hy, grow_lo hz, grow_hi hz]

theorem foldl_valid (ps : List (P3 K)) {b : BBox K} (h : b.Valid) : (ps.foldl add b).Valid := by
  induction ps generalizing b with
  | nil => exact h
  | cons p ps ih => exact ih (add_valid (Or.inr h) p)

end BBox
end CAD
