import Verif.Props.NurbsSolidRounded
import Verif.Props.GeodesicRounded

/-! C128: `merge_vertices` in `double`. -/

namespace CAD
namespace MeshUtil
open Mesh

section
variable {K : Type} [Field K] [LinearOrder K]

/-- `merge_vertices` with any comparison: two remaining vertices were found apart in at least one
order, remaining vertices are vertices of the input, and corners go to points found near -/
theorem merge_by_spec (near : P3 K → P3 K → Bool) (m : Mesh K) (hm : m.OK) :
    ∃ r, mergeVerticesBy near 0 m = some r ∧ r.OK ∧ r.getColor = m.getColor ∧ r.nbTriangles = m.triangles.length ∧
      (∀ i, 0 ≤ i → i < r.nbTriangles → r.isTriangleUnlinked i = some false) ∧
      (∀ i j p q, i ≠ j → r.getVertex i = some p → r.getVertex j = some q → near p q = false ∨ near q p = false) ∧
      (∀ i p, r.getVertex i = some p → ∃ j, m.getVertex j = some p) ∧
      List.Forall₂ (fun t t' => (t'.p1 = t.p1 ∨ near t.p1 t'.p1 = true) ∧ (t'.p2 = t.p2 ∨ near t.p2 t'.p2 = true) ∧
        (t'.p3 = t.p3 ∨ near t.p3 t'.p3 = true)) m.triangles r.triangles := by
  obtain ⟨r, r2, e1, e2, hok, hun, -, -, hnt, -⟩ := mergeBy_stable (near := near) (near' := near) hm hm rfl rfl
    (fun i j p q p' q' h1 h2 h3 h4 => by
      rw [h1, Option.some.injEq] at h3
      rw [h2, Option.some.injEq] at h4
      rw [h3, h4]) 0 0
  rw [e1, Option.some.injEq] at e2
  subst e2
  obtain ⟨al, -, hA, h⟩ := mergeBy_eq near 0 hm
  rw [h, Option.some.injEq] at e1
  have hval : ∀ f ∈ m.view.linkedCorners, CornersIn m.kern.verts.length f := linkedCorners_valid ((ok_iff m).1 hm).valid
  have hF : List.Forall₂ (fun t t' => (t'.p1 = t.p1 ∨ near t.p1 t'.p1 = true) ∧ (t'.p2 = t.p2 ∨ near t.p2 t'.p2 = true) ∧
        (t'.p3 = t.p3 ∨ near t.p3 t'.p3 = true)) m.triangles r.triangles := by
    rw [← e1, triangles_eq, triangles_eq, soup_pushTris]
    set M := m.clear.pushPts (keptPts m.kern.verts al m.kern.verts.length) with hM
    have h0 : M.soup = [] := rfl
    rw [h0, List.nil_append]
    unfold soup
    generalize m.view.linkedCorners = l at hval
    induction l with
    | nil => simp
    | cons f l ih =>
      obtain ⟨f1, f2, f3⟩ := f
      obtain ⟨c1, c2, c3⟩ := hval (f1, f2, f3) (by simp)
      obtain ⟨k1, rfl, hk1⟩ := c1.exists
      obtain ⟨k2, rfl, hk2⟩ := c2.exists
      obtain ⟨k3, rfl, hk3⟩ := c3.exists
      obtain ⟨j1, e1, l1, q1, g1, d1⟩ := newId_spec hA hk1
      obtain ⟨j2, e2, l2, q2, g2, d2⟩ := newId_spec hA hk2
      obtain ⟨j3, e3, l3, q3, g3, d3⟩ := newId_spec hA hk3
      have t1 : m.view.tri ((k1 : Int), (k2 : Int), (k3 : Int)) =
          some ⟨m.kern.verts[k1], m.kern.verts[k2], m.kern.verts[k3]⟩ := by
        simp [AMesh.tri, hk1, hk2, hk3]
      have t2 : M.view.tri (mapCorners (fun i => newId al i.toNat) ((k1 : Int), (k2 : Int), (k3 : Int))) =
          some ⟨q1, q2, q3⟩ := by
        have hMv : M.view.points = keptPts m.kern.verts al m.kern.verts.length := rfl
        simp [AMesh.tri, mapCorners, e1, e2, e3, hMv, g1, g2, g3, -view_points]
      simp only [List.map_cons, List.filterMap_cons, t1, t2]
      exact List.Forall₂.cons ⟨d1, d2, d3⟩ (ih (fun f hf => hval f (by simp [hf])))
  refine ⟨r, e1 ▸ h, hok, by rw [← e1]; rfl, ?_, hun, ?_, ?_, hF⟩
  · have hlen : m.triangles.length = m.view.linkedCorners.length := by
      rw [(triangles_pos hm).1, List.length_map, cornerList_eq m]
    rw [hlen, ← e1]
    simp [Mesh.nbTriangles, KernLT.nbTriangles, pushTris, pushPts, Mesh.clear, KernLT.clear]
  · intro i j p q hij hp hq
    rw [← e1, (answers_view _).getVertex] at hp hq
    obtain ⟨i', rfl, hi⟩ := getI_eq_some_iff.1 hp
    obtain ⟨j', rfl, hj⟩ := getI_eq_some_iff.1 hq
    obtain ⟨k, hk, hka, hkp, rfl⟩ := keptPts_index hA.len le_rfl hi
    obtain ⟨l, hl, hla, hlq, rfl⟩ := keptPts_index hA.len le_rfl hj
    have hne : k ≠ l := fun e => hij (by rw [e])
    rcases lt_or_gt_of_ne hne with hlt | hlt
    · obtain ⟨a, ha, hat⟩ := hA.at' l hl
      rw [hla] at ha
      simp only [Option.some.injEq] at ha
      subst ha
      rcases hat with ⟨_, h2⟩ | ⟨x, _, hx, _⟩
      · right
        by_contra hc
        exact h2 k hlt hka ⟨q, p, hlq, hkp, by simpa using hc⟩
      · omega
    · obtain ⟨a, ha, hat⟩ := hA.at' k hk
      rw [hka] at ha
      simp only [Option.some.injEq] at ha
      subst ha
      rcases hat with ⟨_, h2⟩ | ⟨x, _, hx, _⟩
      · left
        by_contra hc
        exact h2 l hlt hla ⟨p, q, hkp, hlq, by simpa using hc⟩
      · omega
  · intro i p hp
    rw [← e1, (answers_view _).getVertex] at hp
    obtain ⟨i', rfl, hi⟩ := getI_eq_some_iff.1 hp
    obtain ⟨k, hk, _, hkp, _⟩ := keptPts_index hA.len le_rfl hi
    exact ⟨k, by rw [(answers_view m).getVertex, getI_natCast]; exact hkp⟩

end
end MeshUtil

namespace Rounded
open MeshUtil

theorem double_err (x : ℝ) : |double x - x| ≤ 2 ^ (-53 : ℤ) * |x| + 2 ^ (-1075 : ℤ) := by
  have := ieee_err (p := 53) (emin := -1074) x
  norm_num at this ⊢
  exact this

/-- the rounded square of a rounded difference -/
theorem squared_double (x : ℝ) : |squared double (double x) - x ^ 2| ≤ 4 * 2 ^ (-53 : ℤ) * x ^ 2 + 6 * 2 ^ (-1075 : ℤ) ∧
    0 ≤ x ^ 2 := by
  have h1 := double_err x
  have h2 := double_err (double x * double x)
  unfold squared
  generalize double (double x * double x) = s at *
  generalize double x = a at *
  have hu : (2 : ℝ) ^ (-53 : ℤ) ≤ 1 / 1000000 := by norm_num
  have hu0 : (0 : ℝ) < 2 ^ (-53 : ℤ) := by positivity
  have he0 : (0 : ℝ) < 2 ^ (-1075 : ℤ) := by positivity
  have he : (2 : ℝ) ^ (-1075 : ℤ) ≤ 2 ^ (-53 : ℤ) / 1000000 := by
    have e : (2 : ℝ) ^ (-1075 : ℤ) ≤ 2 ^ (-53 - 20 : ℤ) := zpow_le_zpow_right₀ (by norm_num) (by norm_num)
    rw [zpow_sub₀ (by norm_num)] at e
    refine e.trans ?_
    refine div_le_div_of_nonneg_left hu0.le (by norm_num) (by norm_num)
  generalize (2 : ℝ) ^ (-53 : ℤ) = u at *
  generalize (2 : ℝ) ^ (-1075 : ℤ) = w at *
  refine ⟨?_, sq_nonneg x⟩
  have x0 := abs_nonneg x
  have xx : |x| ^ 2 = x ^ 2 := sq_abs x
  have lin : 2 * |x| ≤ 1 + x ^ 2 := by nlinarith [sq_nonneg (|x| - 1)]
  have ab : |a| ≤ |x| + (u * |x| + w) := by
    have := abs_sub_abs_le_abs_sub a x
    linarith
  have d : |a * a - x ^ 2| ≤ (u * |x| + w) * (2 * |x| + (u * |x| + w)) := by
    rw [show a * a - x ^ 2 = (a - x) * (a + x) by ring, abs_mul]
    have := abs_add_le a x
    exact mul_le_mul h1 (by linarith) (abs_nonneg _) (by positivity)
  have d' : (u * |x| + w) * (2 * |x| + (u * |x| + w)) ≤ 2.1 * u * x ^ 2 + 1.5 * w := by
    have e : (u * |x| + w) * (2 * |x| + (u * |x| + w)) = (2 * u + u * u) * |x| ^ 2 + (2 + 2 * u) * (w * |x|) + w * w := by ring
    rw [e, xx]
    have f1 : w * |x| ≤ w / 2 + w * x ^ 2 / 2 := by nlinarith
    have f2 : w * x ^ 2 ≤ u / 1000000 * x ^ 2 := mul_le_mul_of_nonneg_right he (sq_nonneg x)
    have f3 : w * w ≤ w / 1000000 := by nlinarith
    have f4 : u * u * x ^ 2 ≤ u / 1000000 * x ^ 2 := by
      refine mul_le_mul_of_nonneg_right ?_ (sq_nonneg x)
      nlinarith
    have f5 : 2 * u * (w * |x|) ≤ 2 / 1000000 * (w * |x|) := by
      refine mul_le_mul_of_nonneg_right (by linarith) (by positivity)
    have f6 := mul_nonneg hu0.le (sq_nonneg x)
    nlinarith
  have aa : |a * a| ≤ x ^ 2 + (2.1 * u * x ^ 2 + 1.5 * w) := by
    have := abs_sub_abs_le_abs_sub (a * a) (x ^ 2)
    rw [abs_of_nonneg (sq_nonneg x)] at this
    linarith
  have t := abs_sub_le s (a * a) (x ^ 2)
  have g : u * |a * a| ≤ u * (x ^ 2 + (2.1 * u * x ^ 2 + 1.5 * w)) := mul_le_mul_of_nonneg_left aa hu0.le
  have g2 : u * (x ^ 2 + (2.1 * u * x ^ 2 + 1.5 * w)) ≤ 1.1 * u * x ^ 2 + w := by
    have f4 : u * (u * x ^ 2) ≤ 1 / 1000000 * (u * x ^ 2) := mul_le_mul_of_nonneg_right hu (mul_nonneg hu0.le (sq_nonneg x))
    have f5 : u * w ≤ 1 / 1000000 * w := mul_le_mul_of_nonneg_right hu he0.le
    nlinarith [mul_nonneg hu0.le (sq_nonneg x)]
  nlinarith [mul_nonneg hu0.le (sq_nonneg x)]

/-- `distance_square` in `double` -/
theorem distSq_double (p q : P3 ℝ) : |distSq double p q - (p - q).norm ^ 2| ≤ 7 * 2 ^ (-53 : ℤ) * (p - q).norm ^ 2 + 30 * 2 ^ (-1075 : ℤ) := by
  have hN : (p - q).norm ^ 2 = (p.x - q.x) ^ 2 + (p.y - q.y) ^ 2 + (p.z - q.z) ^ 2 := by
    rw [sq, P3.norm_sq]
    simp only [P3.normSq, P3.sub_x, P3.sub_y, P3.sub_z]
    ring
  obtain ⟨a, a0⟩ := squared_double (p.x - q.x)
  obtain ⟨b, b0⟩ := squared_double (p.y - q.y)
  obtain ⟨c, c0⟩ := squared_double (p.z - q.z)
  unfold distSq
  rw [hN]
  generalize squared double (double (p.x - q.x)) = x at *
  generalize squared double (double (p.y - q.y)) = y at *
  generalize squared double (double (p.z - q.z)) = z at *
  have d := double_err (x + y)
  have e := double_err (double (x + y) + z)
  generalize double (double (x + y) + z) = s at *
  generalize double (x + y) = t at *
  generalize (p.x - q.x) ^ 2 = X at *
  generalize (p.y - q.y) ^ 2 = Y at *
  generalize (p.z - q.z) ^ 2 = Z at *
  have hu : (2 : ℝ) ^ (-53 : ℤ) ≤ 1 / 1000000 := by norm_num
  have hu0 : (0 : ℝ) < 2 ^ (-53 : ℤ) := by positivity
  have he0 : (0 : ℝ) < 2 ^ (-1075 : ℤ) := by positivity
  generalize (2 : ℝ) ^ (-53 : ℤ) = u at *
  generalize (2 : ℝ) ^ (-1075 : ℤ) = w at *
  have hXY : |x + y - (X + Y)| ≤ 4 * u * (X + Y) + 12 * w := by
    have := abs_add_le (x - X) (y - Y)
    rw [show x + y - (X + Y) = (x - X) + (y - Y) by ring]
    linarith
  have bXY : |x + y| ≤ X + Y + (4 * u * (X + Y) + 12 * w) := by
    have := abs_sub_abs_le_abs_sub (x + y) (X + Y)
    rw [abs_of_nonneg (add_nonneg a0 b0)] at this
    linarith
  have s1 : 0 ≤ X + Y := add_nonneg a0 b0
  have q1 : u * |x + y| ≤ 1.1 * u * (X + Y) + w := by
    have f1 := mul_le_mul_of_nonneg_left bXY hu0.le
    have f4 : u * (u * (X + Y)) ≤ 1 / 1000000 * (u * (X + Y)) := mul_le_mul_of_nonneg_right hu (mul_nonneg hu0.le s1)
    have f5 : u * w ≤ 1 / 1000000 * w := mul_le_mul_of_nonneg_right hu he0.le
    nlinarith [mul_nonneg hu0.le s1]
  have ht : |t - (X + Y)| ≤ 5.1 * u * (X + Y) + 14 * w := by
    have := abs_sub_le t (x + y) (X + Y)
    nlinarith
  have htz : |t + z - (X + Y + Z)| ≤ 5.1 * u * (X + Y + Z) + 20 * w := by
    have := abs_add_le (t - (X + Y)) (z - Z)
    rw [show t + z - (X + Y + Z) = (t - (X + Y)) + (z - Z) by ring]
    nlinarith [mul_nonneg hu0.le c0]
  have s2 : 0 ≤ X + Y + Z := add_nonneg s1 c0
  have btz : |t + z| ≤ X + Y + Z + (5.1 * u * (X + Y + Z) + 20 * w) := by
    have := abs_sub_abs_le_abs_sub (t + z) (X + Y + Z)
    rw [abs_of_nonneg s2] at this
    linarith
  have q2 : u * |t + z| ≤ 1.1 * u * (X + Y + Z) + w := by
    have f1 := mul_le_mul_of_nonneg_left btz hu0.le
    have f4 : u * (u * (X + Y + Z)) ≤ 1 / 1000000 * (u * (X + Y + Z)) := mul_le_mul_of_nonneg_right hu (mul_nonneg hu0.le s2)
    have f5 : u * w ≤ 1 / 1000000 * w := mul_le_mul_of_nonneg_right hu he0.le
    nlinarith [mul_nonneg hu0.le s2]
  have := abs_sub_le s (t + z) (X + Y + Z)
  nlinarith [mul_nonneg hu0.le s2]

/-- C128.  The comparison of `merge_vertices` in `double` is right for distances that differ from the
tolerance by one part in `2^49`. -/
theorem compare_double {tol : ℝ} (h0 : 2 ^ (-500 : ℤ) ≤ tol) :
    (∀ p q : P3 ℝ, (p - q).norm < tol - tol * 2 ^ (-49 : ℤ) → nearTol double tol p q = true) ∧
    (∀ p q : P3 ℝ, tol + tol * 2 ^ (-49 : ℤ) ≤ (p - q).norm → nearTol double tol p q = false) := by
  have t0 : 0 < tol := lt_of_lt_of_le (by positivity) h0
  have hw : (2 : ℝ) ^ (-1075 : ℤ) ≤ 2 ^ (-53 : ℤ) * (tol ^ 2) / 1000 := by
    have a : (2 : ℝ) ^ (-500 : ℤ) * 2 ^ (-500 : ℤ) ≤ tol ^ 2 := by
      rw [sq]; exact mul_le_mul h0 h0 (by positivity) t0.le
    have b : (2 : ℝ) ^ (-1075 : ℤ) ≤ 2 ^ (-53 : ℤ) * (2 ^ (-500 : ℤ) * 2 ^ (-500 : ℤ)) / 1024 := by
      rw [show (1024 : ℝ) = 2 ^ (10 : ℤ) by norm_num, ← zpow_add₀ (by norm_num), ← zpow_add₀ (by norm_num), ← zpow_sub₀ (by norm_num)]
      exact zpow_le_zpow_right₀ (by norm_num) (by norm_num)
    have c : (2 : ℝ) ^ (-53 : ℤ) * (2 ^ (-500 : ℤ) * 2 ^ (-500 : ℤ)) ≤ 2 ^ (-53 : ℤ) * tol ^ 2 := mul_le_mul_of_nonneg_left a (by positivity)
    have d : (0 : ℝ) ≤ 2 ^ (-53 : ℤ) * tol ^ 2 := by positivity
    refine b.trans ?_
    generalize (2 : ℝ) ^ (-53 : ℤ) * (2 ^ (-500 : ℤ) * 2 ^ (-500 : ℤ)) = x at *
    generalize (2 : ℝ) ^ (-53 : ℤ) * tol ^ 2 = y at *
    linarith
  have e49 : (2 : ℝ) ^ (-49 : ℤ) = 16 * 2 ^ (-53 : ℤ) := by
    rw [show (16 : ℝ) = 2 ^ (4 : ℤ) by norm_num, ← zpow_add₀ (by norm_num)]; norm_num
  have T := double_err (tol * tol)
  rw [abs_of_pos (mul_pos t0 t0)] at T
  rw [e49]
  have hu : (2 : ℝ) ^ (-53 : ℤ) ≤ 1 / 1000000 := by norm_num
  have hu0 : (0 : ℝ) < 2 ^ (-53 : ℤ) := by positivity
  have D := fun p q : P3 ℝ => distSq_double p q
  have n0 := fun p q : P3 ℝ => P3.norm_nonneg (p - q)
  unfold nearTol
  simp only [decide_eq_true_eq, decide_eq_false_iff_not, not_lt]
  generalize double (tol * tol) = T' at *
  have tt : 0 < tol ^ 2 := by positivity
  constructor
  · intro p q h
    have D := D p q
    have n0 := n0 p q
    generalize distSq double p q = d at *
    generalize (p - q).norm = n at *
    generalize (2 : ℝ) ^ (-53 : ℤ) = u at *
    generalize (2 : ℝ) ^ (-1075 : ℤ) = w at *
    have hn : n ^ 2 ≤ tol ^ 2 * (1 - 31 * u) := by
      have : n ≤ tol * (1 - 16 * u) := by linarith
      calc n ^ 2 ≤ (tol * (1 - 16 * u)) ^ 2 := by gcongr
        _ = tol ^ 2 * (1 - 32 * u + 256 * (u * u)) := by ring
        _ ≤ _ := by gcongr; nlinarith
    have a := (abs_le.1 D).2
    have b := (abs_le.1 T).1
    have c : u * n ^ 2 ≤ u * tol ^ 2 := by
      refine mul_le_mul_of_nonneg_left (hn.trans ?_) hu0.le
      nlinarith [mul_pos hu0 tt]
    nlinarith [mul_pos hu0 tt]
  · intro p q h
    have D := D p q
    have n0 := n0 p q
    generalize distSq double p q = d at *
    generalize (p - q).norm = n at *
    generalize (2 : ℝ) ^ (-53 : ℤ) = u at *
    generalize (2 : ℝ) ^ (-1075 : ℤ) = w at *
    have hn : tol ^ 2 * (1 + 32 * u) ≤ n ^ 2 := by
      have : tol * (1 + 16 * u) ≤ n := by linarith
      calc tol ^ 2 * (1 + 32 * u) ≤ (tol * (1 + 16 * u)) ^ 2 := by nlinarith [mul_pos tt (mul_pos hu0 hu0)]
        _ ≤ _ := by gcongr
    have a := (abs_le.1 D).1
    have b := (abs_le.1 T).2
    have c : tol ^ 2 * (1 + 32 * u) * (1 - 7 * u) ≤ n ^ 2 * (1 - 7 * u) := mul_le_mul_of_nonneg_right hn (by linarith)
    have e : tol ^ 2 * (1 + 24 * u) ≤ tol ^ 2 * (1 + 32 * u) * (1 - 7 * u) := by
      have : (1 + 24 * u) ≤ (1 + 32 * u) * (1 - 7 * u) := by nlinarith
      calc _ ≤ tol ^ 2 * ((1 + 32 * u) * (1 - 7 * u)) := mul_le_mul_of_nonneg_left this tt.le
        _ = _ := by ring
    nlinarith [mul_pos hu0 tt]

/-- C128.  `merge_vertices` as it runs, in `double`: it succeeds, keeps all linked triangles in order
and the colour; different remaining vertices are at least the tolerance apart, up to one part in `2^49`;
they are vertices of the input; no corner moves by more than the tolerance, up to one part in `2^49`. -/
theorem merge_double {tol : ℝ} (h0 : 2 ^ (-500 : ℤ) ≤ tol) (m : Mesh ℝ) (hm : m.OK) :
    ∃ r, mergeVerticesBy (nearTol double tol) 0 m = some r ∧ r.OK ∧ r.getColor = m.getColor ∧ r.nbTriangles = m.triangles.length ∧
      (∀ i, 0 ≤ i → i < r.nbTriangles → r.isTriangleUnlinked i = some false) ∧
      (∀ i j p q, i ≠ j → r.getVertex i = some p → r.getVertex j = some q → tol - tol * 2 ^ (-49 : ℤ) ≤ (p - q).norm) ∧
      (∀ i p, r.getVertex i = some p → ∃ j, m.getVertex j = some p) ∧
      List.Forall₂ (fun t t' => (t'.p1 - t.p1).norm < tol + tol * 2 ^ (-49 : ℤ) ∧ (t'.p2 - t.p2).norm < tol + tol * 2 ^ (-49 : ℤ) ∧
        (t'.p3 - t.p3).norm < tol + tol * 2 ^ (-49 : ℤ)) m.triangles r.triangles := by
  have t0 : 0 < tol := lt_of_lt_of_le (by positivity) h0
  obtain ⟨hlt, hge⟩ := compare_double h0
  obtain ⟨r, e, h1, h2, h3, h4, h5, h6, h7⟩ := merge_by_spec (nearTol double tol) m hm
  have sw : ∀ p q : P3 ℝ, (p - q).norm = (q - p).norm := fun p q => by
    rw [P3.norm, P3.norm]; congr 1; simp; ring
  have mv : ∀ {p p' : P3 ℝ}, p' = p ∨ nearTol double tol p p' = true → (p' - p).norm < tol + tol * 2 ^ (-49 : ℤ) := by
    rintro p p' (rfl | h)
    · rw [sub_self, P3.norm_eq_zero.2 rfl]; positivity
    · by_contra hc
      rw [not_lt, sw] at hc
      rw [hge p p' hc] at h
      cases h
  refine ⟨r, e, h1, h2, h3, h4, ?_, h6, h7.imp fun t t' h => ⟨mv h.1, mv h.2.1, mv h.2.2⟩⟩
  intro i j p q hij hp hq
  by_contra hc
  rw [not_le] at hc
  rcases h5 i j p q hij hp hq with h | h
  · rw [hlt p q hc] at h; cases h
  · rw [hlt q p (by rw [sw]; exact hc)] at h; cases h

/-- welding in `double`, the two meshes given by their corners and vertices -/
theorem weld_near {tol E : ℝ} (h0 : 2 ^ (-500 : ℤ) ≤ tol) (m m' : Mesh ℝ) (hm : m.OK) (hm' : m'.OK) 
    (hc' : m'.cornerList = m.cornerList) (hv' : m'.nbVertices = m.nbVertices)
    (hn : ∀ i p, m.getVertex i = some p → ∃ p', m'.getVertex i = some p' ∧ Nurbs.Near E p p')
    (hE : 0 ≤ E) (hE' : 4 * E + tol * 2 ^ (-49 : ℤ) < tol)
    (hgap : ∀ i j p q, m.getVertex i = some p → m.getVertex j = some q → p ≠ q → tol + tol * 2 ^ (-49 : ℤ) + 4 * E ≤ (p - q).norm) :
    ∃ r, mergeVerticesBy (nearTol double tol) 0 m' = some r ∧ r.OK ∧ r.nbTriangles = m.triangles.length ∧
      (∀ p, (∃ i, m.getVertex i = some p) → ∃ k p', r.getVertex k = some p' ∧ (p' - p).norm ≤ 2 * E) ∧
      (∀ k p', r.getVertex k = some p' → ∃ i p, m.getVertex i = some p ∧ (p' - p).norm ≤ 2 * E) ∧
      (∀ k l p p', r.getVertex k = some p → r.getVertex l = some p' → k ≠ l → tol - tol * 2 ^ (-49 : ℤ) ≤ (p - p').norm) ∧
      (ClosedSoup m.triangles → BalancedIds r.cornerList) := by
  have t0 : 0 < tol := lt_of_lt_of_le (by positivity) h0
  have ε0 : 0 ≤ tol * 2 ^ (-49 : ℤ) := by positivity
  obtain ⟨hlt, hge⟩ := compare_double h0
  obtain ⟨r, r', f1, f2, f3, f4, f5, f6⟩ := merge_rounding m m' hm hm' hc' hv' tol (2 * E) (tol * 2 ^ (-49 : ℤ)) t0.le
    (fun i p p' hp hp' => by
      obtain ⟨q, hq, n⟩ := hn i p hp
      rw [hp', Option.some.injEq] at hq
      subst hq
      exact n.norm) _ hlt hge (fun i j p q hp hq => by
      by_cases hpq : p = q
      · left
        rw [hpq, sub_self, P3.norm_eq_zero.2 rfl]
        linarith
      · right
        have := hgap i j p q hp hq hpq
        linarith) ε0
  obtain ⟨r2, g1, g2, g3, g4, g5, -⟩ := merge_welds m hm tol t0.ne' (fun i j p q hp hq hpq => by
    have := hgap i j p q hp hq hpq
    by_contra hlt'
    rw [not_le, distSq_lt_iff t0.le] at hlt'
    linarith)
  rw [f1, Option.some.injEq] at g1
  subst g1
  obtain ⟨r2, k1, -, -, k2, -, k3, -⟩ := merge_double h0 m' hm'
  rw [f2, Option.some.injEq] at k1
  subst k1
  have get : ∀ {A B : Mesh ℝ}, B.nbVertices = A.nbVertices → ∀ {k p}, A.getVertex k = some p → ∃ p', B.getVertex k = some p' := by
    intro A B h k p hp
    obtain ⟨n, hn', hl⟩ := (Mesh.inRange_of_getVertex hp).exists
    subst hn'
    have hv : B.kern.verts.length = A.kern.verts.length := by
      simpa [Mesh.nbVertices, KernLT.nbVertices] using h
    exact Mesh.getVertex_isSome (m := B) (a := (n : Int)) ⟨by omega, by omega⟩
  refine ⟨r', f2, f3, ?_, ?_, ?_, fun k l p p' hp hp' hkl => k3 k l p p' hkl hp hp', fun hc => ?_⟩
  · rw [k2, (triangles_pos hm').1, (triangles_pos hm).1, hc', List.length_map, List.length_map]
  · intro p hp
    obtain ⟨k, hk⟩ := (g5 p).2 hp
    obtain ⟨p', hp'⟩ := get f5 hk
    exact ⟨k, p', hp', f6 k p p' hk hp'⟩
  · intro k p' hp'
    obtain ⟨p, hp⟩ := get f5.symm hp'
    obtain ⟨i, hi⟩ := (g5 p).1 ⟨k, hp⟩
    exact ⟨i, p, hi, f6 k p p' hp hp'⟩
  · rw [f4]
    exact balancedIds_of_soup g2 g4 (by rw [g3]; exact hc)

/-- C128.  Welding in `double`: when the exact positions behind the computed ones are either equal or
clearly farther apart than the tolerance, and the computed ones are off by at most `E`, clearly below
the tolerance, then the result of `merge_vertices` in `double` has one vertex for each position and is
closed by vertex numbers when the exact surface is closed. -/
theorem weld_double {tol E : ℝ} (h0 : 2 ^ (-500 : ℤ) ≤ tol) (m m' : Mesh ℝ) (hm : m.OK) (hm' : m'.OK) (hn : Nurbs.MeshNear E m m')
    (hE : 0 ≤ E) (hE' : 4 * E + tol * 2 ^ (-49 : ℤ) < tol)
    (hgap : ∀ i j p q, m.getVertex i = some p → m.getVertex j = some q → p ≠ q → tol + tol * 2 ^ (-49 : ℤ) + 4 * E ≤ (p - q).norm) :
    ∃ r, mergeVerticesBy (nearTol double tol) 0 m' = some r ∧ r.OK ∧ r.nbTriangles = m.triangles.length ∧
      (∀ p, (∃ i, m.getVertex i = some p) → ∃ k p', r.getVertex k = some p' ∧ (p' - p).norm ≤ 2 * E) ∧
      (∀ k p', r.getVertex k = some p' → ∃ i p, m.getVertex i = some p ∧ (p' - p).norm ≤ 2 * E) ∧
      (∀ k l p p', r.getVertex k = some p → r.getVertex l = some p' → k ≠ l → tol - tol * 2 ^ (-49 : ℤ) ≤ (p - p').norm) ∧
      (ClosedSoup m.triangles → BalancedIds r.cornerList) :=
  weld_near h0 m m' hm hm' hn.cornerList hn.nbVertices hn.vertex hE hE' hgap

end Rounded
end CAD
