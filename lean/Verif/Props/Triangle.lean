import Verif.Props.Plane
import Verif.Props.BoundingBox

/-! Properties C32, C33: point-in-triangle and triangle/segment intersection. -/

namespace CAD
variable {K : Type*} [Field K] [LinearOrder K] [IsStrictOrderedRing K]

theorem Tri3.contains_of_bary (t : Tri3 K) {a b c : K} (h : a + b + c = 1) {q : P3 K}
    (hq : q = a • t.p1 + b • t.p2 + c • t.p3) :
    t.contains q = true ↔
      0 ≤ a * b * t.orthogonal.normSq ∧ 0 ≤ a * c * t.orthogonal.normSq := by
  obtain ⟨hu, hv, hw⟩ := Tri3.uvw_of_bary t h hq
  unfold Tri3.contains
  simp only [hu, hv, hw]
  have e1 : (a • t.orthogonal).dot (b • t.orthogonal) = a * b * t.orthogonal.normSq := by
    simp [P3.dot, P3.normSq]; ring
  have e2 : (a • t.orthogonal).dot (c • t.orthogonal) = a * c * t.orthogonal.normSq := by
    simp [P3.dot, P3.normSq]; ring
  rw [e1, e2]
  split_ifs with h1 h2
  · simp; intro h; exact absurd h1 (not_lt.2 h)
  · simp; intro _; exact h2
  · simp [not_lt.1 h1, not_lt.1 h2]

/-- C32 (completeness): every point of a triangle, degenerate or not, is reported. -/
theorem contains_complete (t : Tri3 K) (q : P3 K) (h : InTriangle t q) : t.contains q = true := by
  obtain ⟨a, b, c, ha, hb, hc, hs, hq⟩ := h
  rw [Tri3.contains_of_bary t hs hq]
  have := P3.normSq_nonneg t.orthogonal
  constructor <;> positivity

/-- C32: exact characterisation for coplanar points of a proper triangle: `contains`
answers true on the triangle *and on the whole line through the second and third
corners*. -/
theorem contains_iff_partial (t : Tri3 K) (hnd : ¬ Collinear3 t.p1 t.p2 t.p3) (q : P3 K)
    (hq : InPlaneOf t q) :
    t.contains q = true ↔ InTriangle t q ∨ OnLine t.p2 t.p3 q := by
  rw [← Tri3.orthogonal_eq_zero_iff] at hnd
  have hN : 0 < t.orthogonal.normSq :=
    lt_of_le_of_ne (P3.normSq_nonneg _) (fun e => hnd (P3.normSq_eq_zero.1 e.symm))
  constructor
  · intro h
    obtain ⟨a, b, c, hs, hq⟩ := hq
    rw [Tri3.contains_of_bary t hs hq] at h
    obtain ⟨h1, h2⟩ := h
    have h1 : 0 ≤ a * b := nonneg_of_mul_nonneg_left h1 hN
    have h2 : 0 ≤ a * c := nonneg_of_mul_nonneg_left h2 hN
    rcases lt_trichotomy a 0 with ha | ha | ha
    · exfalso
      have hb : b ≤ 0 := by by_contra hb; push Not at hb; nlinarith
      have hc : c ≤ 0 := by by_contra hc; push Not at hc; nlinarith
      linarith
    · right
      subst ha
      exact ⟨b, c, by linarith, by rw [hq]; simp⟩
    · left
      have hb : 0 ≤ b := by by_contra hb; push Not at hb; nlinarith
      have hc : 0 ≤ c := by by_contra hc; push Not at hc; nlinarith
      exact ⟨a, b, c, ha.le, hb, hc, hs, hq⟩
  · rintro (h | ⟨b, c, hs, hq⟩)
    · exact contains_complete t q h
    · have : q = (0 : K) • t.p1 + b • t.p2 + c • t.p3 := by rw [hq]; simp
      rw [Tri3.contains_of_bary t (by rw [zero_add]; exact hs) this]
      simp

/-- C32: hence membership is decided correctly off the line through corners 2 and 3. -/
theorem contains_iff_off_line (t : Tri3 K) (hnd : ¬ Collinear3 t.p1 t.p2 t.p3) (q : P3 K)
    (hq : InPlaneOf t q) (hoff : ¬ OnLine t.p2 t.p3 q) :
    t.contains q = true ↔ InTriangle t q := by
  rw [contains_iff_partial t hnd q hq]; simp [hoff]

/-- C32, the code violates the property: *every* proper triangle "contains" a
coplanar point outside of it (here the reflection of corner 3 through corner 2). -/
theorem contains_false_positive (t : Tri3 K) (hnd : ¬ Collinear3 t.p1 t.p2 t.p3) :
    ∃ q, InPlaneOf t q ∧ t.contains q = true ∧ ¬ InTriangle t q := by
  have hN0 : t.orthogonal ≠ 0 := fun e => hnd ((Tri3.orthogonal_eq_zero_iff t).1 e)
  refine ⟨(2 : K) • t.p2 + (-1 : K) • t.p3, ⟨0, 2, -1, by norm_num, by simp⟩, ?_, ?_⟩
  · rw [contains_iff_partial t hnd _ ⟨0, 2, -1, by norm_num, by simp⟩]
    right; exact ⟨2, -1, by norm_num, rfl⟩
  · rintro ⟨a, b, c, ha, hb, hc, hs, hq⟩
    have h1 := (Tri3.uvw_of_bary t hs hq).2.2
    have h2 := (Tri3.uvw_of_bary t (a := 0) (b := 2) (c := -1) (by norm_num)
      (q := (2 : K) • t.p2 + (-1 : K) • t.p3) (by simp)).2.2
    rw [h2] at h1
    have h3 : (c + 1) • t.orthogonal = 0 := by
      rw [add_smul, ← h1, one_smul]; ext <;> simp
    have hN : t.orthogonal.normSq ≠ 0 := fun e => hN0 (P3.normSq_eq_zero.1 e)
    apply hN
    have hx := congrArg P3.x h3
    have hy := congrArg P3.y h3
    have hz := congrArg P3.z h3
    simp only [P3.smul_x, P3.smul_y, P3.smul_z, P3.zero_x, P3.zero_y, P3.zero_z] at hx hy hz
    have hc1 : c + 1 ≠ 0 := by linarith
    rw [P3.normSq, (mul_eq_zero.1 hx).resolve_left hc1, (mul_eq_zero.1 hy).resolve_left hc1,
      (mul_eq_zero.1 hz).resolve_left hc1]; ring

-- non-vacuity: a proper triangle, a point inside, a point outside, a wrongly accepted one
example : (⟨⟨0, 0, 0⟩, ⟨1, 0, 0⟩, ⟨0, 1, 0⟩⟩ : Tri3 ℚ).contains ⟨1/4, 1/4, 0⟩ = true := by decide +kernel
example : (⟨⟨0, 0, 0⟩, ⟨1, 0, 0⟩, ⟨0, 1, 0⟩⟩ : Tri3 ℚ).contains ⟨1, 1, 0⟩ = false := by decide +kernel
example : (⟨⟨0, 0, 0⟩, ⟨1, 0, 0⟩, ⟨0, 1, 0⟩⟩ : Tri3 ℚ).contains ⟨2, -1, 0⟩ = true := by decide +kernel
theorem unit_triangle_not_collinear :
    ¬ Collinear3 (⟨0, 0, 0⟩ : P3 K) ⟨1, 0, 0⟩ ⟨0, 1, 0⟩ := by
  have := Tri3.orthogonal_eq_zero_iff (⟨⟨0, 0, 0⟩, ⟨1, 0, 0⟩, ⟨0, 1, 0⟩⟩ : Tri3 K)
  simp only at this
  rw [← this]
  intro h
  have := congrArg P3.z h
  simp [Tri3.orthogonal] at this

/-- a point of the plane computed by the code is an affine combination of the corners -/
theorem Tri3.inPlane_of_onPlane {t : Tri3 ℝ} {p : Plane3 ℝ} (h : t.plane = some p) {q : P3 ℝ} :
    OnPlane p q ↔ InPlaneOf t q := by
  obtain ⟨h0, hpos, hn, hd⟩ := Tri3.plane_distance h
  rw [Tri3.inPlane_iff t h0]
  have : OnPlane p q ↔ p.distanceTo q = 0 := Iff.rfl
  rw [this, hd]
  have : 1 / t.orthogonal.norm ≠ 0 := by positivity
  simp [hpos.ne']

/-- the plane of a triangle exists exactly when the corners are not collinear -/
theorem Tri3.plane_isSome_iff (t : Tri3 ℝ) :
    (∃ p, t.plane = some p) ↔ ¬ Collinear3 t.p1 t.p2 t.p3 := by
  rw [← Option.ne_none_iff_exists', Ne, Tri3.plane, plane_defined_iff]

/-- C33 (soundness): a reported intersection lies strictly inside the segment, in
the triangle's plane, and in the triangle — or on the line through corners 2 and 3
(the gap of `contains`). -/
theorem tri_segment_sound_partial (t : Tri3 ℝ) (s : Seg3 ℝ) (q : P3 ℝ)
    (h : t.intersectSeg s = some (some q)) :
    InsideSegment s q ∧ InPlaneOf t q ∧ (InTriangle t q ∨ OnLine t.p2 t.p3 q) := by
  unfold Tri3.intersectSeg at h
  split at h
  · exact absurd h (by simp)
  · rename_i p hp
    have hnd := (Tri3.plane_isSome_iff t).1 ⟨p, hp⟩
    split at h
    · exact absurd h (by simp)
    · rename_i r hr
      split_ifs at h with hc
      · simp only [Option.some.injEq] at h
        subst h
        obtain ⟨h1, h2, _⟩ := plane_segment_point p s r hr
        have h3 := (Tri3.inPlane_of_onPlane hp).1 h1
        exact ⟨h2, h3, (contains_iff_partial t hnd r h3).1 hc⟩
      · exact absurd h (by simp)

/-- C33 (completeness): if the end points are strictly on opposite sides of a proper
triangle's plane and the segment meets the triangle in `q`, the code reports
exactly `q`. -/
theorem tri_segment_complete (t : Tri3 ℝ) (s : Seg3 ℝ) (q : P3 ℝ)
    (hnd : ¬ Collinear3 t.p1 t.p2 t.p3)
    (hside : t.orthogonal.dot (s.p1 - t.p1) * t.orthogonal.dot (s.p2 - t.p1) < 0)
    (h1 : OnSegment s q) (h2 : InTriangle t q) : t.intersectSeg s = some (some q) := by
  obtain ⟨p, hp⟩ := (Tri3.plane_isSome_iff t).2 hnd
  obtain ⟨h0, hpos, hn, hd⟩ := Tri3.plane_distance hp
  have hs : (p.intersectSeg s).isSome = true := by
    rw [plane_segment_iff, hd, hd]
    have : 0 < 1 / t.orthogonal.norm := by positivity
    have h2 : 0 < 1 / t.orthogonal.norm * (1 / t.orthogonal.norm) := by positivity
    nlinarith
  obtain ⟨r, hr⟩ := Option.isSome_iff_exists.1 hs
  have hin : InPlaneOf t q := by
    obtain ⟨a, b, c, _, _, _, hs, hq⟩ := h2
    exact ⟨a, b, c, hs, hq⟩
  have hqr : q = r := (plane_segment_point p s r hr).2.2 q h1 ((Tri3.inPlane_of_onPlane hp).2 hin)
  unfold Tri3.intersectSeg
  rw [hp]
  simp only [hr]
  subst hqr
  rw [if_pos (contains_complete t q h2)]

/-- C33: segments that do not cross the plane strictly are never reported. -/
theorem tri_segment_not_crossing (t : Tri3 ℝ) (s : Seg3 ℝ) (hnd : ¬ Collinear3 t.p1 t.p2 t.p3)
    (hside : 0 ≤ t.orthogonal.dot (s.p1 - t.p1) * t.orthogonal.dot (s.p2 - t.p1)) :
    t.intersectSeg s = some none := by
  obtain ⟨p, hp⟩ := (Tri3.plane_isSome_iff t).2 hnd
  obtain ⟨h0, hpos, hn, hd⟩ := Tri3.plane_distance hp
  have hs : ¬ (p.intersectSeg s).isSome = true := by
    rw [plane_segment_iff, hd, hd, not_lt]
    have h2 : 0 < 1 / t.orthogonal.norm * (1 / t.orthogonal.norm) := by positivity
    nlinarith
  rw [Bool.not_eq_true, Option.isSome_eq_false_iff, Option.isNone_iff_eq_none] at hs
  unfold Tri3.intersectSeg
  simp only [hp, hs]

/-- C33, the code violates soundness: a segment that misses the triangle is reported. -/
theorem tri_segment_false_positive :
    ∃ (t : Tri3 ℝ) (s : Seg3 ℝ) (q : P3 ℝ), t.intersectSeg s = some (some q) ∧
      ∀ r, OnSegment s r → ¬ InTriangle t r := by
  set t : Tri3 ℝ := ⟨⟨0, 0, 0⟩, ⟨1, 0, 0⟩, ⟨0, 1, 0⟩⟩ with ht
  refine ⟨t, ⟨⟨2, -1, -1⟩, ⟨2, -1, 1⟩⟩, ⟨2, -1, 0⟩, ?_, ?_⟩
  · have hnd : ¬ Collinear3 t.p1 t.p2 t.p3 := unit_triangle_not_collinear
    obtain ⟨p, hp⟩ := (Tri3.plane_isSome_iff t).2 hnd
    obtain ⟨h0, hpos, hn, hd⟩ := Tri3.plane_distance hp
    have hs : (p.intersectSeg ⟨⟨2, -1, -1⟩, ⟨2, -1, 1⟩⟩).isSome = true := by
      rw [plane_segment_iff, hd, hd]
      have h2 : 0 < 1 / t.orthogonal.norm * (1 / t.orthogonal.norm) := by positivity
      have e1 : t.orthogonal.dot (⟨2, -1, -1⟩ - t.p1) = -1 := by
        simp [ht, Tri3.orthogonal, P3.dot]
      have e2 : t.orthogonal.dot (⟨2, -1, 1⟩ - t.p1) = 1 := by
        simp [ht, Tri3.orthogonal, P3.dot]
      simp only [e1, e2]
      nlinarith
    obtain ⟨r, hr⟩ := Option.isSome_iff_exists.1 hs
    have hin : InPlaneOf t ⟨2, -1, 0⟩ := ⟨0, 2, -1, by norm_num, by ext <;> simp [ht]⟩
    have hqr : ⟨2, -1, 0⟩ = r := (plane_segment_point p _ r hr).2.2 ⟨2, -1, 0⟩
      ⟨1/2, by norm_num, by norm_num, by ext <;> norm_num⟩ ((Tri3.inPlane_of_onPlane hp).2 hin)
    unfold Tri3.intersectSeg
    simp only [hp, hr]
    rw [← hqr, if_pos]
    rw [contains_iff_partial t hnd _ hin]
    right; exact ⟨2, -1, by norm_num, by ext <;> simp [ht]⟩
  · rintro r ⟨k, _, _, rfl⟩ ⟨a, b, c, ha, hb, hc, hs, hq⟩
    have := congrArg P3.y hq
    simp [ht] at this
    linarith

-- non-vacuity of the completeness hypotheses
example : OnSegment (⟨⟨1/4, 1/4, -1⟩, ⟨1/4, 1/4, 1⟩⟩ : Seg3 ℝ) ⟨1/4, 1/4, 0⟩ ∧
    InTriangle (⟨⟨0, 0, 0⟩, ⟨1, 0, 0⟩, ⟨0, 1, 0⟩⟩ : Tri3 ℝ) ⟨1/4, 1/4, 0⟩ := by
  refine ⟨⟨1/2, by norm_num, by norm_num, by ext <;> norm_num⟩,
    ⟨1/2, 1/4, 1/4, by norm_num, by norm_num, by norm_num, by norm_num, ?_⟩⟩
  ext <;> norm_num

end CAD
