import Verif.Lemmas.Geometry
import Mathlib.Tactic.NormNum

/-! Property C35: segment/segment intersection. -/

namespace CAD
variable {K : Type*} [Field K] [LinearOrder K] [IsStrictOrderedRing K]

/-- the numerical guards of `Segment3::intersect` (lines 260, 265, 273): neither
segment is shorter than 1e-10 and the squared parallelogram area is at least 1e-10 -/
def SegGuards (s t : Seg3 K) : Prop :=
  ((1 / 10 ^ 10) ^ 2 ≤ (t.p2 - t.p1).normSq) ∧ ((1 / 10 ^ 10) ^ 2 ≤ (s.p2 - s.p1).normSq) ∧
  (1 / 10 ^ 10 ≤ ((s.p2 - s.p1).cross (t.p2 - t.p1)).normSq)

theorem Seg3.eps_val : (Seg3.EPS : K) = 1 / 10 ^ 10 := by unfold Seg3.EPS; norm_num

/-- the guards in terms of the constant of the code -/
theorem Seg3.guards_iff (s t : Seg3 K) : SegGuards s t ↔
    (Seg3.EPS * Seg3.EPS ≤ (t.p2 - t.p1).normSq) ∧ (Seg3.EPS * Seg3.EPS ≤ (s.p2 - s.p1).normSq) ∧
    (Seg3.EPS ≤ ((s.p2 - s.p1).cross (t.p2 - t.p1)).normSq) := by
  rw [Seg3.eps_val, ← pow_two]; rfl

theorem Seg3.eps_pos : (0 : K) < Seg3.EPS := by unfold Seg3.EPS; norm_num

theorem Seg3.denom_eq (s t : Seg3 K) :
    (s.p2 - s.p1).dot (s.p2 - s.p1) * (t.p2 - t.p1).dot (t.p2 - t.p1) -
      (t.p2 - t.p1).dot (s.p2 - s.p1) * (t.p2 - t.p1).dot (s.p2 - s.p1)
      = ((s.p2 - s.p1).cross (t.p2 - t.p1)).normSq := by
  rw [P3.lagrange]; simp [P3.normSq, P3.dot]; ring

/-- what the code computes once the guards pass -/
theorem Seg3.intersect_eq (s t : Seg3 K) (hg : SegGuards s t) :
    s.intersect t =
      (let mua := ((s.p1 - t.p1).dot (t.p2 - t.p1) * (t.p2 - t.p1).dot (s.p2 - s.p1) -
          (s.p1 - t.p1).dot (s.p2 - s.p1) * (t.p2 - t.p1).dot (t.p2 - t.p1)) /
          ((s.p2 - s.p1).cross (t.p2 - t.p1)).normSq
       if mua < 0 ∨ mua > 1 then none else some (s.p1 + mua • (s.p2 - s.p1))) := by
  obtain ⟨h1, h2, h3⟩ := (Seg3.guards_iff s t).1 hg
  unfold Seg3.intersect
  simp only [Seg3.denom_eq]
  rw [if_neg (not_lt.2 h1), if_neg (not_lt.2 h2), if_neg]
  rw [not_lt, abs_of_nonneg (P3.normSq_nonneg _)]
  exact h3

/-- the code never answers true when a guard fails -/
theorem Seg3.intersect_guards (s t : Seg3 K) (h : (s.intersect t).isSome = true) :
    SegGuards s t := by
  unfold Seg3.intersect at h
  simp only [Seg3.denom_eq] at h
  split_ifs at h with h1 h2 h3 h4 <;> simp at h
  refine (Seg3.guards_iff s t).2 ⟨not_lt.1 h1, not_lt.1 h2, ?_⟩
  rw [abs_of_nonneg (P3.normSq_nonneg _)] at h3
  exact not_lt.1 h3

/-- C35 (partial soundness): a reported point lies on the first segment and is the foot of
the common perpendicular on it — there is a point `r` of the *infinite line* of the
second segment with `q - r` orthogonal to both.  Missing (false in the code): `r`
lies on the second segment, and `q = r`. -/
theorem segment_intersect_sound_partial (s t : Seg3 K) (q : P3 K) (h : s.intersect t = some q) :
    OnSegment s q ∧ ∃ k : K, let r := t.p1 + k • (t.p2 - t.p1)
      (q - r).dot (s.p2 - s.p1) = 0 ∧ (q - r).dot (t.p2 - t.p1) = 0 := by
  have hg := Seg3.intersect_guards s t (by rw [h]; rfl)
  rw [Seg3.intersect_eq s t hg] at h
  obtain ⟨h1, h2, h3⟩ := (Seg3.guards_iff s t).1 hg
  have hD : ((s.p2 - s.p1).cross (t.p2 - t.p1)).normSq ≠ 0 := (lt_of_lt_of_le Seg3.eps_pos h3).ne'
  have hT : (t.p2 - t.p1).dot (t.p2 - t.p1) ≠ 0 :=
    (lt_of_lt_of_le (mul_pos Seg3.eps_pos Seg3.eps_pos) h1).ne'
  have hde := Seg3.denom_eq s t
  set D := ((s.p2 - s.p1).cross (t.p2 - t.p1)).normSq with hDdef
  set mua := ((s.p1 - t.p1).dot (t.p2 - t.p1) * (t.p2 - t.p1).dot (s.p2 - s.p1) -
          (s.p1 - t.p1).dot (s.p2 - s.p1) * (t.p2 - t.p1).dot (t.p2 - t.p1)) / D with hmua
  simp only at h
  split_ifs at h with hm
  push Not at hm
  obtain rfl := Option.some.inj h
  refine ⟨⟨mua, hm.1, hm.2, rfl⟩, ?_⟩
  refine ⟨((s.p1 - t.p1).dot (t.p2 - t.p1) + (t.p2 - t.p1).dot (s.p2 - s.p1) * mua) /
    (t.p2 - t.p1).dot (t.p2 - t.p1), ?_⟩
  have hmD : mua * D = (s.p1 - t.p1).dot (t.p2 - t.p1) * (t.p2 - t.p1).dot (s.p2 - s.p1) -
          (s.p1 - t.p1).dot (s.p2 - s.p1) * (t.p2 - t.p1).dot (t.p2 - t.p1) := by
    rw [hmua]; field_simp
  have hlin : ∀ (k : K) (v : P3 K), (s.p1 + mua • (s.p2 - s.p1) - (t.p1 + k • (t.p2 - t.p1))).dot v
      = (s.p1 - t.p1).dot v + mua * (s.p2 - s.p1).dot v - k * (t.p2 - t.p1).dot v := by
    intro k v; simp [P3.dot]; ring
  have hc : (s.p2 - s.p1).dot (t.p2 - t.p1) = (t.p2 - t.p1).dot (s.p2 - s.p1) := by
    simp [P3.dot]; ring
  simp only [hlin, hc]
  generalize (s.p1 - t.p1).dot (t.p2 - t.p1) = x at *
  generalize (t.p2 - t.p1).dot (s.p2 - s.p1) = y at *
  generalize (s.p1 - t.p1).dot (s.p2 - s.p1) = z at *
  generalize (t.p2 - t.p1).dot (t.p2 - t.p1) = w at *
  generalize (s.p2 - s.p1).dot (s.p2 - s.p1) = a at *
  constructor
  · field_simp
    rw [← hde] at hmD
    linear_combination hmD
  · field_simp
    ring

/-- C35 (completeness): segments that really meet in `q` are reported with exactly that
point, provided the numerical guards pass. -/
theorem segment_intersect_complete (s t : Seg3 K) (q : P3 K) (hg : SegGuards s t)
    (h1 : OnSegment s q) (h2 : OnSegment t q) : s.intersect t = some q := by
  rw [Seg3.intersect_eq s t hg]
  obtain ⟨g1, g2, h3⟩ := (Seg3.guards_iff s t).1 hg
  have hD : ((s.p2 - s.p1).cross (t.p2 - t.p1)).normSq ≠ 0 := (lt_of_lt_of_le Seg3.eps_pos h3).ne'
  obtain ⟨a, ha0, ha1, hqa⟩ := h1
  obtain ⟨b, hb0, hb1, hqb⟩ := h2
  have hde := Seg3.denom_eq s t
  have hp : s.p1 - t.p1 = b • (t.p2 - t.p1) - a • (s.p2 - s.p1) := by
    rw [hqa] at hqb
    rw [eq_sub_iff_add_eq, sub_add_eq_add_sub, hqb]; abel
  have hmua : ((s.p1 - t.p1).dot (t.p2 - t.p1) * (t.p2 - t.p1).dot (s.p2 - s.p1) -
          (s.p1 - t.p1).dot (s.p2 - s.p1) * (t.p2 - t.p1).dot (t.p2 - t.p1)) /
          ((s.p2 - s.p1).cross (t.p2 - t.p1)).normSq = a := by
    rw [div_eq_iff hD, ← hde, hp]
    simp [P3.dot]; ring
  simp only [hmua]
  rw [if_neg (by push Not; exact ⟨ha0, ha1⟩), ← hqa]

/-- C35: exactly when the code reports `q`: the guards pass, `q` is on the first segment and is
the foot of the common perpendicular with the *line* of the second. -/
theorem segment_intersect_iff (s t : Seg3 K) (q : P3 K) : s.intersect t = some q ↔
    SegGuards s t ∧ OnSegment s q ∧ ∃ k : K, let r := t.p1 + k • (t.p2 - t.p1)
      (q - r).dot (s.p2 - s.p1) = 0 ∧ (q - r).dot (t.p2 - t.p1) = 0 := by
  constructor
  · exact fun h => ⟨Seg3.intersect_guards s t (by rw [h]; rfl), segment_intersect_sound_partial s t q h⟩
  · rintro ⟨hg, ⟨a, ha0, ha1, rfl⟩, k, e1, e2⟩
    rw [Seg3.intersect_eq s t hg]
    obtain ⟨g1, g2, h3⟩ := (Seg3.guards_iff s t).1 hg
    have hD : ((s.p2 - s.p1).cross (t.p2 - t.p1)).normSq ≠ 0 := (lt_of_lt_of_le Seg3.eps_pos h3).ne'
    have hde := Seg3.denom_eq s t
    have hmua : ((s.p1 - t.p1).dot (t.p2 - t.p1) * (t.p2 - t.p1).dot (s.p2 - s.p1) -
            (s.p1 - t.p1).dot (s.p2 - s.p1) * (t.p2 - t.p1).dot (t.p2 - t.p1)) /
            ((s.p2 - s.p1).cross (t.p2 - t.p1)).normSq = a := by
      rw [div_eq_iff hD, ← hde]
      have hlin : ∀ (v : P3 K), (s.p1 + a • (s.p2 - s.p1) - (t.p1 + k • (t.p2 - t.p1))).dot v
          = (s.p1 - t.p1).dot v + a * (s.p2 - s.p1).dot v - k * (t.p2 - t.p1).dot v := by
        intro v; simp [P3.dot]; ring
      have hc : (s.p2 - s.p1).dot (t.p2 - t.p1) = (t.p2 - t.p1).dot (s.p2 - s.p1) := by
        simp [P3.dot]; ring
      simp only [hlin, hc] at e1 e2
      linear_combination (t.p2 - t.p1).dot (s.p2 - s.p1) * e2 - (t.p2 - t.p1).dot (t.p2 - t.p1) * e1
    simp only [hmua]
    rw [if_neg (by push Not; exact ⟨ha0, ha1⟩)]

/-- C35, the code violates the property: it answers true for segments without a
common point, in each of two ways: the second parameter is out of range, and the lines
are skew at distance 5. -/
theorem segment_intersect_false_positive :
    (∃ s t : Seg3 ℚ, s.intersect t = some ⟨1, 0, 0⟩ ∧ ∀ q, ¬ (OnSegment s q ∧ OnSegment t q)) ∧
    (∃ s t : Seg3 ℚ, s.intersect t = some ⟨1, 0, 0⟩ ∧
      ∀ q r, OnSegment s q → OnSegment t r → 25 ≤ q.distSq r) := by
  constructor
  · refine ⟨⟨⟨0, 0, 0⟩, ⟨2, 0, 0⟩⟩, ⟨⟨1, 1, 0⟩, ⟨1, 2, 0⟩⟩, by decide +kernel, ?_⟩
    rintro q ⟨⟨a, _, _, rfl⟩, ⟨b, hb0, _, hq⟩⟩
    have := congrArg P3.y hq
    simp at this
    linarith
  · refine ⟨⟨⟨0, 0, 0⟩, ⟨2, 0, 0⟩⟩, ⟨⟨1, -1, 5⟩, ⟨1, 1, 5⟩⟩, by decide +kernel, ?_⟩
    rintro q r ⟨a, _, _, rfl⟩ ⟨b, hb0, _, rfl⟩
    simp [P3.distSq]
    nlinarith [mul_self_nonneg (a * 2 - 1), mul_self_nonneg (1 - b * (1 + 1))]

/-- C35, the code violates the property: the answer depends on the argument order. -/
theorem segment_intersect_not_symmetric :
    ∃ s t : Seg3 ℚ, (s.intersect t).isSome = true ∧ (t.intersect s).isSome = false :=
  ⟨⟨⟨0, 0, 0⟩, ⟨2, 0, 0⟩⟩, ⟨⟨1, 1, 0⟩, ⟨1, 2, 0⟩⟩, by decide +kernel, by decide +kernel⟩

-- non-vacuity: two crossing segments satisfy all hypotheses of the completeness theorem
example : SegGuards (⟨⟨0, 0, 0⟩, ⟨2, 0, 0⟩⟩ : Seg3 ℚ) ⟨⟨1, -1, 0⟩, ⟨1, 1, 0⟩⟩ := by
  refine ⟨?_, ?_, ?_⟩ <;> norm_num [Seg3.EPS, P3.normSq]
example : OnSegment (⟨⟨0, 0, 0⟩, ⟨2, 0, 0⟩⟩ : Seg3 ℚ) ⟨1, 0, 0⟩ ∧
    OnSegment (⟨⟨1, -1, 0⟩, ⟨1, 1, 0⟩⟩ : Seg3 ℚ) ⟨1, 0, 0⟩ := by
  constructor
  · exact ⟨1/2, by norm_num, by norm_num, by ext <;> norm_num⟩
  · exact ⟨1/2, by norm_num, by norm_num, by ext <;> norm_num⟩

end CAD
