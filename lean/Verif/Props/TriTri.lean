import Verif.Props.Triangle

/-! Property C34: triangle/triangle intersection. -/

namespace CAD

namespace Tri3

/-- the three edges as tested by the code -/
def edges {K : Type*} (t : Tri3 K) : List (Seg3 K) := [⟨t.p1, t.p2⟩, ⟨t.p1, t.p3⟩, ⟨t.p2, t.p3⟩]

theorem firstTrue_some (l : List Bool) : firstTrue (l.map some) = some (l.any id) := by
  induction l with
  | nil => rfl
  | cons b l ih => cases b <;> simp [firstTrue, ih]

/-- boolean of the segment test for a proper triangle -/
theorem hitsSeg_isSome {t : Tri3 ℝ} (h : ¬ Collinear3 t.p1 t.p2 t.p3) (s : Seg3 ℝ) :
    ∃ b, t.hitsSeg s = some b := by
  obtain ⟨p, hp⟩ := (Tri3.plane_isSome_iff t).2 h
  unfold hitsSeg intersectSeg
  simp only [hp]
  cases p.intersectSeg s with
  | none => exact ⟨_, rfl⟩
  | some q => exact ⟨_, rfl⟩

theorem hitsSeg_true {t : Tri3 ℝ} {s : Seg3 ℝ} (h : t.hitsSeg s = some true) :
    ∃ q, t.intersectSeg s = some (some q) := by
  unfold hitsSeg at h
  cases he : t.intersectSeg s with
  | none => rw [he] at h; exact absurd h (by simp)
  | some o =>
    cases o with
    | none => rw [he] at h; exact absurd h (by simp)
    | some q => exact ⟨q, rfl⟩

/-- sides of the plane, in terms of the triangle -/
theorem cuttedBy_iff {K : Type*} [Field K] [LinearOrder K] (t : Tri3 K) (p : Plane3 K) :
    t.cuttedBy p = true ↔
      (∃ q ∈ [t.p1, t.p2, t.p3], 0 < p.distanceTo q) ∧
      (∃ q ∈ [t.p1, t.p2, t.p3], p.distanceTo q < 0) := by
  unfold cuttedBy countSides
  simp only [List.mem_cons, List.not_mem_nil, or_false, exists_eq_or_imp, exists_eq_left,
    Bool.and_eq_true, decide_eq_true_eq, gt_iff_lt]
  constructor
  · rintro ⟨h1, h2⟩
    constructor
    · by_contra hc
      push Not at hc
      obtain ⟨a, b, c⟩ := hc
      rw [if_neg (not_lt.2 a), if_neg (not_lt.2 b), if_neg (not_lt.2 c)] at h1
      exact absurd h1 (lt_irrefl _)
    · by_contra hc
      push Not at hc
      obtain ⟨a, b, c⟩ := hc
      rw [if_neg (not_lt.2 a), if_neg (not_lt.2 b), if_neg (not_lt.2 c)] at h2
      exact absurd h2 (lt_irrefl _)
  · rintro ⟨h1, h2⟩
    constructor
    · rcases h1 with h | h | h <;> simp only [h, if_true] <;> split_ifs <;> omega
    · rcases h2 with h | h | h <;> simp only [h, if_true] <;> split_ifs <;> omega

/-- for proper triangles the test is a plain boolean formula -/
theorem intersectTri_eq {s t : Tri3 ℝ} (hs : ¬ Collinear3 s.p1 s.p2 s.p3)
    (ht : ¬ Collinear3 t.p1 t.p2 t.p3) {pa pb : Plane3 ℝ} (ha : s.plane = some pa)
    (hb : t.plane = some pb) :
    ∃ b, s.intersectTri t = some b ∧ (b = true ↔
      (BBox.ofTri s).intersectWith (BBox.ofTri t) = true ∧ s.cuttedBy pb = true ∧
      t.cuttedBy pa = true ∧
      ((∃ e ∈ t.edges, s.hitsSeg e = some true) ∨ (∃ e ∈ s.edges, t.hitsSeg e = some true))) := by
  unfold intersectTri
  split_ifs with h1
  · exact ⟨false, rfl, by simp [h1]⟩
  simp only [hb]
  split_ifs with h2
  · exact ⟨false, rfl, by simp [h2]⟩
  simp only [ha]
  split_ifs with h3
  · exact ⟨false, rfl, by simp [h3]⟩
  obtain ⟨b1, e1⟩ := hitsSeg_isSome hs ⟨t.p1, t.p2⟩
  obtain ⟨b2, e2⟩ := hitsSeg_isSome hs ⟨t.p1, t.p3⟩
  obtain ⟨b3, e3⟩ := hitsSeg_isSome hs ⟨t.p2, t.p3⟩
  obtain ⟨b4, e4⟩ := hitsSeg_isSome ht ⟨s.p1, s.p2⟩
  obtain ⟨b5, e5⟩ := hitsSeg_isSome ht ⟨s.p1, s.p3⟩
  obtain ⟨b6, e6⟩ := hitsSeg_isSome ht ⟨s.p2, s.p3⟩
  rw [e1, e2, e3, e4, e5, e6]
  refine ⟨_, firstTrue_some [b1, b2, b3, b4, b5, b6], ?_⟩
  simp only [edges, List.mem_cons, List.not_mem_nil, or_false, exists_eq_or_imp, exists_eq_left,
    e1, e2, e3, e4, e5, e6, List.any_cons, List.any_nil, id, Option.some.injEq]
  simp [h1, h2, h3, or_assoc]

end Tri3

/-- C34: for proper triangles the test always gives an answer and is symmetric. -/
theorem tri_tri_symm (s t : Tri3 ℝ) (hs : ¬ Collinear3 s.p1 s.p2 s.p3)
    (ht : ¬ Collinear3 t.p1 t.p2 t.p3) :
    s.intersectTri t = t.intersectTri s ∧ s.intersectTri t ≠ none := by
  obtain ⟨pa, ha⟩ := (Tri3.plane_isSome_iff s).2 hs
  obtain ⟨pb, hb⟩ := (Tri3.plane_isSome_iff t).2 ht
  obtain ⟨b, e, hbt⟩ := Tri3.intersectTri_eq hs ht ha hb
  obtain ⟨b', e', hbt'⟩ := Tri3.intersectTri_eq ht hs hb ha
  rw [bbox_overlap_symm] at hbt'
  refine ⟨?_, by rw [e]; simp⟩
  rw [e, e', Option.some.injEq, Bool.eq_iff_iff, hbt, hbt']
  constructor
  · rintro ⟨h1, h2, h3, h4⟩; exact ⟨h1, h3, h2, h4.symm⟩
  · rintro ⟨h1, h2, h3, h4⟩; exact ⟨h1, h3, h2, h4.symm⟩

/-- C34 (partial soundness): when the answer is true, an edge of one triangle crosses the plane of
the other strictly, in a point which is in that other triangle or on the line
through its second and third corners. Missing (false in the code): the point is always in
the other triangle. -/
theorem tri_tri_sound_partial (s t : Tri3 ℝ) (h : s.intersectTri t = some true) :
    (∃ e ∈ t.edges, ∃ q, InsideSegment e q ∧ (InTriangle s q ∨ OnLine s.p2 s.p3 q)) ∨
    (∃ e ∈ s.edges, ∃ q, InsideSegment e q ∧ (InTriangle t q ∨ OnLine t.p2 t.p3 q)) := by
  have hb : ∃ pb, t.plane = some pb := by
    unfold Tri3.intersectTri at h
    split_ifs at h
    · exact absurd h (by simp)
    cases hb : t.plane with
    | none => rw [hb] at h; exact absurd h (by simp)
    | some pb => exact ⟨pb, rfl⟩
  obtain ⟨pb, hb⟩ := hb
  have ha : ∃ pa, s.plane = some pa := by
    unfold Tri3.intersectTri at h
    simp only [hb] at h
    split_ifs at h
    · exact absurd h (by simp)
    · exact absurd h (by simp)
    cases ha : s.plane with
    | none => rw [ha] at h; exact absurd h (by simp)
    | some pb => exact ⟨pb, rfl⟩
  obtain ⟨pa, ha⟩ := ha
  have hs := (Tri3.plane_isSome_iff s).1 ⟨pa, ha⟩
  have ht := (Tri3.plane_isSome_iff t).1 ⟨pb, hb⟩
  obtain ⟨b, e, hbt⟩ := Tri3.intersectTri_eq hs ht ha hb
  rw [e, Option.some.injEq] at h
  obtain ⟨_, _, _, h5⟩ := hbt.1 h
  rcases h5 with ⟨e, he, hh⟩ | ⟨e, he, hh⟩
  · obtain ⟨q, hq⟩ := Tri3.hitsSeg_true hh
    obtain ⟨q1, _, q3⟩ := tri_segment_sound_partial s e q hq
    exact Or.inl ⟨e, he, q, q1, q3⟩
  · obtain ⟨q, hq⟩ := Tri3.hitsSeg_true hh
    obtain ⟨q1, _, q3⟩ := tri_segment_sound_partial t e q hq
    exact Or.inr ⟨e, he, q, q1, q3⟩

/-- C34: the early rejections are correct: boxes apart, or all corners of one
triangle strictly on one side of the other's plane, implies the answer false *and*
that the triangles have no common point. -/
theorem tri_tri_reject_sound (s t : Tri3 ℝ) (ht : ¬ Collinear3 t.p1 t.p2 t.p3)
    (h : (BBox.ofTri s).intersectWith (BBox.ofTri t) = false ∨
      (∀ q ∈ [s.p1, s.p2, s.p3], 0 < t.orthogonal.dot (q - t.p1)) ∨
      (∀ q ∈ [s.p1, s.p2, s.p3], t.orthogonal.dot (q - t.p1) < 0)) :
    s.intersectTri t = some false ∧ ∀ q, ¬ (InTriangle s q ∧ InTriangle t q) := by
  rcases h with h | h
  · exact ⟨by unfold Tri3.intersectTri; rw [if_pos h], bbox_tri_disjoint s t h⟩
  obtain ⟨pb, hb⟩ := (Tri3.plane_isSome_iff t).2 ht
  obtain ⟨h0, hpos, hn, hd⟩ := Tri3.plane_distance hb
  have hinv : 0 < 1 / t.orthogonal.norm := by positivity
  constructor
  · have hcut : s.cuttedBy pb = false := by
      rw [← Bool.not_eq_true, Tri3.cuttedBy_iff]
      rintro ⟨⟨q, hq, hq'⟩, ⟨r, hr, hr'⟩⟩
      rw [hd] at hq' hr'
      rcases h with h | h
      · have := h r hr
        nlinarith
      · have := h q hq
        nlinarith
    unfold Tri3.intersectTri
    split_ifs with h1
    · rfl
    · simp only [hb]
      rw [if_pos hcut]
  · rintro q ⟨⟨a, b, c, ha, hb', hc, hs, rfl⟩, hq⟩
    obtain ⟨a', b', c', _, _, _, hs', hq'⟩ := hq
    have hz := Tri3.dot_orthogonal_of_inPlane t ⟨a', b', c', hs', hq'⟩
    have hlin : t.orthogonal.dot (a • s.p1 + b • s.p2 + c • s.p3 - t.p1) =
        a * t.orthogonal.dot (s.p1 - t.p1) + b * t.orthogonal.dot (s.p2 - t.p1) +
          c * t.orthogonal.dot (s.p3 - t.p1) := by
      have hc' : c = 1 - a - b := by linarith
      subst hc'
      simp [P3.dot]; ring
    rw [hlin] at hz
    simp only [List.mem_cons, List.not_mem_nil, or_false, forall_eq_or_imp, forall_eq] at h
    rcases h with ⟨h1, h2, h3⟩ | ⟨h1, h2, h3⟩
    · have e1 := mul_nonneg ha h1.le
      have e2 := mul_nonneg hb' h2.le
      have e3 := mul_nonneg hc h3.le
      have z1 : a * t.orthogonal.dot (s.p1 - t.p1) = 0 := by linarith
      have z2 : b * t.orthogonal.dot (s.p2 - t.p1) = 0 := by linarith
      have z3 : c * t.orthogonal.dot (s.p3 - t.p1) = 0 := by linarith
      have := (mul_eq_zero.1 z1).resolve_right h1.ne'
      have := (mul_eq_zero.1 z2).resolve_right h2.ne'
      have := (mul_eq_zero.1 z3).resolve_right h3.ne'
      linarith
    · have e1 := mul_nonneg ha (neg_nonneg.2 h1.le)
      have e2 := mul_nonneg hb' (neg_nonneg.2 h2.le)
      have e3 := mul_nonneg hc (neg_nonneg.2 h3.le)
      have z1 : a * t.orthogonal.dot (s.p1 - t.p1) = 0 := by linarith
      have z2 : b * t.orthogonal.dot (s.p2 - t.p1) = 0 := by linarith
      have z3 : c * t.orthogonal.dot (s.p3 - t.p1) = 0 := by linarith
      have := (mul_eq_zero.1 z1).resolve_right h1.ne
      have := (mul_eq_zero.1 z2).resolve_right h2.ne
      have := (mul_eq_zero.1 z3).resolve_right h3.ne
      linarith

/-! ### completeness in general position -/

/-- crossing point of an edge, whichever way the edge is oriented -/
theorem plane_edge_point (p : Plane3 ℝ) (x y : P3 ℝ) (h : p.distanceTo x * p.distanceTo y < 0) :
    let a := x + (p.distanceTo x / (p.distanceTo x - p.distanceTo y)) • (y - x)
    p.intersectSeg ⟨x, y⟩ = some a ∧ p.intersectSeg ⟨y, x⟩ = some a := by
  have hne : p.distanceTo x - p.distanceTo y ≠ 0 := by
    intro e
    have : p.distanceTo x = p.distanceTo y := sub_eq_zero.1 e
    rw [this] at h
    nlinarith [mul_self_nonneg (p.distanceTo y)]
  have hk : 0 ≤ p.distanceTo x / (p.distanceTo x - p.distanceTo y) ∧
      p.distanceTo x / (p.distanceTo x - p.distanceTo y) ≤ 1 := by
    rcases lt_or_gt_of_ne hne with hn | hn
    · rw [le_div_iff_of_neg hn, div_le_iff_of_neg hn]
      constructor <;> nlinarith
    · rw [le_div_iff₀ hn, div_le_iff₀ hn]
      constructor <;> nlinarith
  set k := p.distanceTo x / (p.distanceTo x - p.distanceTo y) with hkdef
  have hkm : k * (p.distanceTo x - p.distanceTo y) = p.distanceTo x := by
    rw [hkdef]; field_simp
  intro a
  have haP : OnPlane p a := by
    change p.distanceTo a = 0
    have : p.distanceTo a = p.distanceTo x - k * (p.distanceTo x - p.distanceTo y) := by
      simp only [a, Plane3.distanceTo, P3.add_x, P3.add_y, P3.add_z, P3.smul_x, P3.smul_y, P3.smul_z,
        P3.sub_x, P3.sub_y, P3.sub_z]; ring
    rw [this, hkm]; ring
  constructor
  · obtain ⟨r, hr⟩ := Option.isSome_iff_exists.1 ((plane_segment_iff p ⟨x, y⟩).2 h)
    rw [hr, (plane_segment_point p _ r hr).2.2 a ⟨k, hk.1, hk.2, rfl⟩ haP]
  · obtain ⟨r, hr⟩ := Option.isSome_iff_exists.1 ((plane_segment_iff p ⟨y, x⟩).2
      (by rw [mul_comm]; exact h))
    rw [hr, (plane_segment_point p _ r hr).2.2 a ⟨1 - k, by linarith, by linarith, ?_⟩ haP]
    simp only [a]
    ext <;> simp <;> ring

theorem lone_corner (p : Plane3 ℝ) (x y z : P3 ℝ) (h1 : p.distanceTo x * p.distanceTo y < 0)
    (h2 : p.distanceTo x * p.distanceTo z < 0) {α β γ : ℝ} (_ha : 0 ≤ α) (hb : 0 ≤ β) (hc : 0 ≤ γ)
    (hs : α + β + γ = 1) (hr : p.distanceTo (α • x + β • y + γ • z) = 0) :
    ∃ k : ℝ, 0 ≤ k ∧ k ≤ 1 ∧ α • x + β • y + γ • z =
      (x + (p.distanceTo x / (p.distanceTo x - p.distanceTo y)) • (y - x)) + k •
      ((x + (p.distanceTo x / (p.distanceTo x - p.distanceTo z)) • (z - x)) -
       (x + (p.distanceTo x / (p.distanceTo x - p.distanceTo y)) • (y - x))) := by
  have hα : α = 1 - β - γ := by linarith
  have hlin : p.distanceTo (α • x + β • y + γ • z) =
      α * p.distanceTo x + β * p.distanceTo y + γ * p.distanceTo z := by
    subst hα
    simp only [Plane3.distanceTo, P3.add_x, P3.add_y, P3.add_z, P3.smul_x, P3.smul_y, P3.smul_z]
    ring
  rw [hlin] at hr
  generalize p.distanceTo x = X at *
  generalize p.distanceTo y = Y at *
  generalize p.distanceTo z = Z at *
  have hX : X ≠ 0 := by rintro rfl; simp at h1
  have hXY : X - Y ≠ 0 := by
    intro e; rw [sub_eq_zero.1 e] at h1; nlinarith [mul_self_nonneg Y]
  have hXZ : X - Z ≠ 0 := by
    intro e; rw [sub_eq_zero.1 e] at h2; nlinarith [mul_self_nonneg Z]
  have hYX : Y / X < 0 := by
    have : Y / X = X * Y / (X * X) := by field_simp
    rw [this]; exact div_neg_of_neg_of_pos h1 (mul_self_pos.2 hX)
  have hZX : Z / X < 0 := by
    have : Z / X = X * Z / (X * X) := by field_simp
    rw [this]; exact div_neg_of_neg_of_pos h2 (mul_self_pos.2 hX)
  have hsum : 1 - β - γ + β * (Y / X) + γ * (Z / X) = 0 := by
    rw [← hα]; field_simp; linarith
  refine ⟨γ * (1 - Z / X), by nlinarith, by nlinarith, ?_⟩
  -- coefficients of y and z
  have hy : (1 - γ * (1 - Z / X)) * (X / (X - Y)) = β := by
    have e : 1 - γ * (1 - Z / X) = β * (1 - Y / X) := by linarith
    rw [e]; field_simp
  have hz : γ * (1 - Z / X) * (X / (X - Z)) = γ := by
    field_simp
  generalize X / (X - Y) = u at *
  generalize X / (X - Z) = w at *
  generalize γ * (1 - Z / X) = k at *
  subst hα
  have expand : ∀ x' y' z' : ℝ, (1 - β - γ) * x' + β * y' + γ * z' = x' + u * (y' - x') +
      k * (x' + w * (z' - x') - (x' + u * (y' - x'))) := by
    intro x' y' z'
    linear_combination (x' - y') * hy + (x' - z') * hz
  ext <;> simp only [P3.add_x, P3.add_y, P3.add_z, P3.smul_x, P3.smul_y, P3.smul_z, P3.sub_x, P3.sub_y,
    P3.sub_z] <;> apply expand

/-- a triangle in general position with respect to a plane meets it in a segment whose
end points are reported for two of its edges, and the triangle has corners on both sides -/
theorem tri_plane_section (t : Tri3 ℝ) (p : Plane3 ℝ)
    (hg : ∀ q ∈ [t.p1, t.p2, t.p3], p.distanceTo q ≠ 0) (r : P3 ℝ) (hr : InTriangle t r)
    (hrp : OnPlane p r) :
    t.cuttedBy p = true ∧
    ∃ e ∈ t.edges, ∃ e' ∈ t.edges, ∃ a a', p.intersectSeg e = some a ∧ p.intersectSeg e' = some a' ∧
      ∃ k : ℝ, 0 ≤ k ∧ k ≤ 1 ∧ r = a + k • (a' - a) := by
  obtain ⟨α, β, γ, ha, hb, hc, hs, rfl⟩ := hr
  rw [Tri3.cuttedBy_iff]
  have hrp' : p.distanceTo (α • t.p1 + β • t.p2 + γ • t.p3) = 0 := hrp
  have hlin : p.distanceTo (α • t.p1 + β • t.p2 + γ • t.p3) =
      α * p.distanceTo t.p1 + β * p.distanceTo t.p2 + γ * p.distanceTo t.p3 := by
    have hα : α = 1 - β - γ := by linarith
    subst hα
    simp only [Plane3.distanceTo, P3.add_x, P3.add_y, P3.add_z, P3.smul_x, P3.smul_y, P3.smul_z]
    ring
  have hz := hlin.symm.trans hrp'
  simp only [List.mem_cons, List.not_mem_nil, or_false, forall_eq_or_imp, forall_eq] at hg
  simp only [List.mem_cons, List.not_mem_nil, or_false, exists_eq_or_imp, exists_eq_left, Tri3.edges]
  obtain ⟨g1, g2, g3⟩ := hg
  have c1 : p.distanceTo t.p1 * p.distanceTo t.p2 < 0 → p.distanceTo t.p1 * p.distanceTo t.p3 < 0 →
      ∃ k : ℝ, 0 ≤ k ∧ k ≤ 1 ∧ _ := fun h1 h2 => lone_corner p t.p1 t.p2 t.p3 h1 h2 ha hb hc hs hrp'
  have c2 : p.distanceTo t.p2 * p.distanceTo t.p1 < 0 → p.distanceTo t.p2 * p.distanceTo t.p3 < 0 →
      ∃ k : ℝ, 0 ≤ k ∧ k ≤ 1 ∧ _ := fun h1 h2 => lone_corner p t.p2 t.p1 t.p3 h1 h2 hb ha hc
        (by linarith) (by rw [← hrp']; congr 1; abel)
  have c3 : p.distanceTo t.p3 * p.distanceTo t.p1 < 0 → p.distanceTo t.p3 * p.distanceTo t.p2 < 0 →
      ∃ k : ℝ, 0 ≤ k ∧ k ≤ 1 ∧ _ := fun h1 h2 => lone_corner p t.p3 t.p1 t.p2 h1 h2 hc ha hb
        (by linarith) (by rw [← hrp']; congr 1; abel)
  have f1 : p.distanceTo t.p1 * p.distanceTo t.p2 < 0 → p.distanceTo t.p1 * p.distanceTo t.p3 < 0 →
      ∃ a a', p.intersectSeg ⟨t.p1, t.p2⟩ = some a ∧ p.intersectSeg ⟨t.p1, t.p3⟩ = some a' ∧
      ∃ k : ℝ, 0 ≤ k ∧ k ≤ 1 ∧ α • t.p1 + β • t.p2 + γ • t.p3 = a + k • (a' - a) := fun h1 h2 => by
    obtain ⟨k, k0, k1, e⟩ := c1 h1 h2
    exact ⟨_, _, (plane_edge_point p _ _ h1).1, (plane_edge_point p _ _ h2).1, k, k0, k1, e⟩
  have f2 : p.distanceTo t.p2 * p.distanceTo t.p1 < 0 → p.distanceTo t.p2 * p.distanceTo t.p3 < 0 →
      ∃ a a', p.intersectSeg ⟨t.p1, t.p2⟩ = some a ∧ p.intersectSeg ⟨t.p2, t.p3⟩ = some a' ∧
      ∃ k : ℝ, 0 ≤ k ∧ k ≤ 1 ∧ α • t.p1 + β • t.p2 + γ • t.p3 = a + k • (a' - a) := fun h1 h2 => by
    obtain ⟨k, k0, k1, e⟩ := c2 h1 h2
    exact ⟨_, _, (plane_edge_point p _ _ h1).2, (plane_edge_point p _ _ h2).1, k, k0, k1,
      by rw [← e]; abel⟩
  have f3 : p.distanceTo t.p3 * p.distanceTo t.p1 < 0 → p.distanceTo t.p3 * p.distanceTo t.p2 < 0 →
      ∃ a a', p.intersectSeg ⟨t.p1, t.p3⟩ = some a ∧ p.intersectSeg ⟨t.p2, t.p3⟩ = some a' ∧
      ∃ k : ℝ, 0 ≤ k ∧ k ≤ 1 ∧ α • t.p1 + β • t.p2 + γ • t.p3 = a + k • (a' - a) := fun h1 h2 => by
    obtain ⟨k, k0, k1, e⟩ := c3 h1 h2
    exact ⟨_, _, (plane_edge_point p _ _ h1).2, (plane_edge_point p _ _ h2).2, k, k0, k1,
      by rw [← e]; abel⟩
  clear c1 c2 c3
  generalize p.distanceTo t.p1 = X at *
  generalize p.distanceTo t.p2 = Y at *
  generalize p.distanceTo t.p3 = Z at *
  rcases lt_or_gt_of_ne g1 with hX | hX <;> rcases lt_or_gt_of_ne g2 with hY | hY <;>
    rcases lt_or_gt_of_ne g3 with hZ | hZ
  · exfalso
    have e1 := mul_nonneg ha (neg_nonneg.2 hX.le)
    have e2 := mul_nonneg hb (neg_nonneg.2 hY.le)
    have e3 := mul_nonneg hc (neg_nonneg.2 hZ.le)
    have := (mul_eq_zero.1 (by linarith : α * X = 0)).resolve_right hX.ne
    have := (mul_eq_zero.1 (by linarith : β * Y = 0)).resolve_right hY.ne
    have := (mul_eq_zero.1 (by linarith : γ * Z = 0)).resolve_right hZ.ne
    linarith
  · exact ⟨⟨by simp [hZ], by simp [hX]⟩, Or.inr (Or.inl (Or.inr (Or.inr
      (f3 (mul_neg_of_pos_of_neg hZ hX) (mul_neg_of_pos_of_neg hZ hY)))))⟩
  · exact ⟨⟨by simp [hY], by simp [hX]⟩, Or.inl (Or.inr (Or.inr
      (f2 (mul_neg_of_pos_of_neg hY hX) (mul_neg_of_pos_of_neg hY hZ))))⟩
  · exact ⟨⟨by simp [hY], by simp [hX]⟩, Or.inl (Or.inr (Or.inl
      (f1 (mul_neg_of_neg_of_pos hX hY) (mul_neg_of_neg_of_pos hX hZ))))⟩
  · exact ⟨⟨by simp [hX], by simp [hY]⟩, Or.inl (Or.inr (Or.inl
      (f1 (mul_neg_of_pos_of_neg hX hY) (mul_neg_of_pos_of_neg hX hZ))))⟩
  · exact ⟨⟨by simp [hX], by simp [hY]⟩, Or.inl (Or.inr (Or.inr
      (f2 (mul_neg_of_neg_of_pos hY hX) (mul_neg_of_neg_of_pos hY hZ))))⟩
  · exact ⟨⟨by simp [hX], by simp [hZ]⟩, Or.inr (Or.inl (Or.inr (Or.inr
      (f3 (mul_neg_of_neg_of_pos hZ hX) (mul_neg_of_neg_of_pos hZ hY)))))⟩
  · exfalso
    have e1 := mul_nonneg ha hX.le
    have e2 := mul_nonneg hb hY.le
    have e3 := mul_nonneg hc hZ.le
    have := (mul_eq_zero.1 (by linarith : α * X = 0)).resolve_right hX.ne'
    have := (mul_eq_zero.1 (by linarith : β * Y = 0)).resolve_right hY.ne'
    have := (mul_eq_zero.1 (by linarith : γ * Z = 0)).resolve_right hZ.ne'
    linarith

/-- one-dimensional fact: two intervals with a common point -/
theorem interval_overlap (A A' B B' r k l : ℝ) (hk0 : 0 ≤ k) (hk1 : k ≤ 1) (hl0 : 0 ≤ l) (hl1 : l ≤ 1)
    (h1 : r = A + k * (A' - A)) (h2 : r = B + l * (B' - B)) :
    (∃ m, 0 ≤ m ∧ m ≤ 1 ∧ A = B + m * (B' - B)) ∨ (∃ m, 0 ≤ m ∧ m ≤ 1 ∧ A' = B + m * (B' - B)) ∨
    (∃ m, 0 ≤ m ∧ m ≤ 1 ∧ B = A + m * (A' - A)) ∨ (∃ m, 0 ≤ m ∧ m ≤ 1 ∧ B' = A + m * (A' - A)) := by
  have conv : ∀ (x y z : ℝ), (x ≤ z ∧ z ≤ y) ∨ (y ≤ z ∧ z ≤ x) →
      ∃ m, 0 ≤ m ∧ m ≤ 1 ∧ z = x + m * (y - x) := by
    intro x y z h
    by_cases hxy : x = y
    · exact ⟨0, le_refl _, zero_le_one, by rcases h with h | h <;> subst hxy <;> linarith⟩
    have hne : y - x ≠ 0 := fun e => hxy (sub_eq_zero.1 e).symm
    refine ⟨(z - x) / (y - x), ?_, ?_, by field_simp; ring⟩
    · rcases h with ⟨a, b⟩ | ⟨a, b⟩
      · exact div_nonneg (by linarith) (by linarith)
      · exact div_nonneg_of_nonpos (by linarith) (by linarith)
    · rcases lt_or_gt_of_ne hne with hn | hn
      · rw [div_le_iff_of_neg hn]; rcases h with ⟨a, b⟩ | ⟨a, b⟩ <;> linarith
      · rw [div_le_iff₀ hn]; rcases h with ⟨a, b⟩ | ⟨a, b⟩ <;> linarith
  have hA : (A ≤ r ∧ r ≤ A') ∨ (A' ≤ r ∧ r ≤ A) := by
    rcases le_total A A' with h | h
    · left; constructor <;> nlinarith
    · right; constructor <;> nlinarith
  have hB : (B ≤ r ∧ r ≤ B') ∨ (B' ≤ r ∧ r ≤ B) := by
    rcases le_total B B' with h | h
    · left; constructor <;> nlinarith
    · right; constructor <;> nlinarith
  rcases hA with ⟨a1, a2⟩ | ⟨a1, a2⟩ <;> rcases hB with ⟨b1, b2⟩ | ⟨b1, b2⟩
  · rcases le_total A B with h | h
    · exact Or.inr (Or.inr (Or.inl (conv _ _ _ (Or.inl ⟨h, by linarith⟩))))
    · exact Or.inl (conv _ _ _ (Or.inl ⟨h, by linarith⟩))
  · rcases le_total A B' with h | h
    · exact Or.inr (Or.inr (Or.inr (conv _ _ _ (Or.inl ⟨h, by linarith⟩))))
    · exact Or.inl (conv _ _ _ (Or.inr ⟨h, by linarith⟩))
  · rcases le_total A' B with h | h
    · exact Or.inr (Or.inr (Or.inl (conv _ _ _ (Or.inr ⟨h, by linarith⟩))))
    · exact Or.inr (Or.inl (conv _ _ _ (Or.inl ⟨h, by linarith⟩)))
  · rcases le_total A' B' with h | h
    · exact Or.inr (Or.inr (Or.inr (conv _ _ _ (Or.inr ⟨h, by linarith⟩))))
    · exact Or.inr (Or.inl (conv _ _ _ (Or.inr ⟨h, by linarith⟩)))

theorem inTriangle_convex (t : Tri3 ℝ) {a b : P3 ℝ} (ha : InTriangle t a) (hb : InTriangle t b)
    {m : ℝ} (h0 : 0 ≤ m) (h1 : m ≤ 1) : InTriangle t (a + m • (b - a)) := by
  obtain ⟨x, y, z, hx, hy, hz, hs, rfl⟩ := ha
  obtain ⟨x', y', z', hx', hy', hz', hs', rfl⟩ := hb
  refine ⟨(1 - m) * x + m * x', (1 - m) * y + m * y', (1 - m) * z + m * z', ?_, ?_, ?_, ?_, ?_⟩
  · have := sub_nonneg.2 h1; positivity
  · have := sub_nonneg.2 h1; positivity
  · have := sub_nonneg.2 h1; positivity
  · linear_combination (1 - m) * hs + m * hs'
  · ext <;> simp <;> ring

theorem inTriangle_edge (t : Tri3 ℝ) {e : Seg3 ℝ} (he : e ∈ t.edges) {q : P3 ℝ}
    (hq : InsideSegment e q) : InTriangle t q := by
  obtain ⟨k, h0, h1, rfl⟩ := hq
  simp only [Tri3.edges, List.mem_cons, List.not_mem_nil, or_false] at he
  rcases he with rfl | rfl | rfl
  · exact ⟨1 - k, k, 0, by linarith, h0.le, le_refl _, by ring, by ext <;> simp <;> ring⟩
  · exact ⟨1 - k, 0, k, by linarith, le_refl _, h0.le, by ring, by ext <;> simp <;> ring⟩
  · exact ⟨0, 1 - k, k, le_refl _, by linarith, h0.le, by ring, by ext <;> simp <;> ring⟩

/-- points on two non-parallel planes are determined by their coordinate along the common line -/
theorem line_inj (n m v : P3 ℝ) (hd : n.cross m ≠ 0) (h1 : n.dot v = 0) (h2 : m.dot v = 0)
    (h3 : (n.cross m).dot v = 0) : v = 0 := by
  have e : v.cross (n.cross m) = 0 := by
    have : v.cross (n.cross m) = (m.dot v) • n - (n.dot v) • m := by
      ext <;> simp [P3.dot] <;> ring
    rw [this, h1, h2]; simp
  have hl := P3.lagrange v (n.cross m)
  rw [e] at hl
  have h3' : v.dot (n.cross m) = 0 := by rw [← h3]; simp [P3.dot]; ring
  rw [h3'] at hl
  have hz : (0 : P3 ℝ).normSq = 0 := by simp [P3.normSq]
  rw [hz] at hl
  have : v.normSq * (n.cross m).normSq = 0 := by linarith
  rcases mul_eq_zero.1 this with h | h
  · exact P3.normSq_eq_zero.1 h
  · exact absurd (P3.normSq_eq_zero.1 h) hd

/-- C34 (completeness in general position): two proper triangles with a common point, such
that no corner of one lies in the plane of the other, are reported as intersecting. -/
theorem tri_tri_complete_general (s t : Tri3 ℝ) (hs : ¬ Collinear3 s.p1 s.p2 s.p3)
    (ht : ¬ Collinear3 t.p1 t.p2 t.p3)
    (hgs : ∀ q ∈ [s.p1, s.p2, s.p3], ¬ InPlaneOf t q)
    (hgt : ∀ q ∈ [t.p1, t.p2, t.p3], ¬ InPlaneOf s q)
    (r : P3 ℝ) (hrs : InTriangle s r) (hrt : InTriangle t r) :
    s.intersectTri t = some true := by
  obtain ⟨pa, ha⟩ := (Tri3.plane_isSome_iff s).2 hs
  obtain ⟨pb, hb⟩ := (Tri3.plane_isSome_iff t).2 ht
  obtain ⟨b, e, hbt⟩ := Tri3.intersectTri_eq hs ht ha hb
  rw [e, Option.some.injEq, hbt]
  have plane_of : ∀ {t : Tri3 ℝ} {p : Plane3 ℝ}, t.plane = some p → InTriangle t r → OnPlane p r := by
    intro t p hp h
    obtain ⟨a, b, c, _, _, _, hs, hq⟩ := h
    exact (Tri3.inPlane_of_onPlane hp).2 ⟨a, b, c, hs, hq⟩
  have gs : ∀ q ∈ [s.p1, s.p2, s.p3], pb.distanceTo q ≠ 0 := fun q hq h0 =>
    hgs q hq ((Tri3.inPlane_of_onPlane hb).1 h0)
  have gt : ∀ q ∈ [t.p1, t.p2, t.p3], pa.distanceTo q ≠ 0 := fun q hq h0 =>
    hgt q hq ((Tri3.inPlane_of_onPlane ha).1 h0)
  have hra := plane_of ha hrs
  have hrb := plane_of hb hrt
  obtain ⟨cs, es, hes, es', hes', b1, b2, hb1, hb2, l, l0, l1, hl⟩ := tri_plane_section s pb gs r hrs hrb
  obtain ⟨ct, et, het, et', het', a1, a2, ha1, ha2, k, k0, k1, hk⟩ := tri_plane_section t pa gt r hrt hra
  refine ⟨?_, cs, ct, ?_⟩
  · by_contra hc
    rw [Bool.not_eq_true] at hc
    exact bbox_tri_disjoint s t hc r ⟨hrs, hrt⟩
  obtain ⟨hA0, hApos, hAn, hAd⟩ := Tri3.plane_distance ha
  obtain ⟨hB0, hBpos, hBn, hBd⟩ := Tri3.plane_distance hb
  set N := s.orthogonal with hN
  set M := t.orthogonal with hM
  have onA : ∀ {q}, OnPlane pa q → N.dot (q - s.p1) = 0 := fun {q} h =>
    Tri3.dot_orthogonal_of_inPlane s ((Tri3.inPlane_of_onPlane ha).1 h)
  have onB : ∀ {q}, OnPlane pb q → M.dot (q - t.p1) = 0 := fun {q} h =>
    Tri3.dot_orthogonal_of_inPlane t ((Tri3.inPlane_of_onPlane hb).1 h)
  obtain ⟨pb1, ib1, _⟩ := plane_segment_point pb es b1 hb1
  obtain ⟨pb2, ib2, _⟩ := plane_segment_point pb es' b2 hb2
  obtain ⟨pa1, ia1, _⟩ := plane_segment_point pa et a1 ha1
  obtain ⟨pa2, ia2, _⟩ := plane_segment_point pa et' a2 ha2
  have tb1 := inTriangle_edge s hes ib1
  have tb2 := inTriangle_edge s hes' ib2
  have ta1 := inTriangle_edge t het ia1
  have ta2 := inTriangle_edge t het' ia2
  -- the b's are also on plane A, the a's on plane B
  have inP : ∀ {t : Tri3 ℝ} {q}, InTriangle t q → InPlaneOf t q := by
    rintro t q ⟨a, b, c, _, _, _, hs, hq⟩; exact ⟨a, b, c, hs, hq⟩
  have Nb1 := Tri3.dot_orthogonal_of_inPlane s (inP tb1)
  have Nb2 := Tri3.dot_orthogonal_of_inPlane s (inP tb2)
  have Ma1 := Tri3.dot_orthogonal_of_inPlane t (inP ta1)
  have Ma2 := Tri3.dot_orthogonal_of_inPlane t (inP ta2)
  have Na1 := onA pa1
  have Na2 := onA pa2
  have Mb1 := onB pb1
  have Mb2 := onB pb2
  rw [← hN] at Nb1 Nb2
  rw [← hM] at Ma1 Ma2
  -- the planes are not parallel
  have hd : N.cross M ≠ 0 := by
    intro h0
    have hMN : M.normSq • N = (N.dot M) • M := by
      have : M.normSq • N - (N.dot M) • M = M.cross (N.cross M) := by
        ext <;> simp [P3.dot, P3.normSq] <;> ring
      rw [h0] at this
      rw [← sub_eq_zero, this]; ext <;> simp
    have hMs : M.normSq ≠ 0 := fun e => hB0 (P3.normSq_eq_zero.1 e)
    have g1 := gt t.p1 (by simp)
    have : N.dot (a1 - t.p1) = 0 := by
      have h1 : M.normSq * N.dot (a1 - t.p1) = (N.dot M) * M.dot (a1 - t.p1) := by
        have := congrArg (fun v => P3.dot v (a1 - t.p1)) hMN
        have e1 : (M.normSq • N).dot (a1 - t.p1) = M.normSq * N.dot (a1 - t.p1) := by
          simp [P3.dot]; ring
        have e2 : ((N.dot M) • M).dot (a1 - t.p1) = (N.dot M) * M.dot (a1 - t.p1) := by
          simp [P3.dot]; ring
        rw [← e1, ← e2, this]
      rw [Ma1, mul_zero] at h1
      exact (mul_eq_zero.1 h1).resolve_left hMs
    apply g1
    rw [hAd]
    have e3 : N.dot (t.p1 - s.p1) = N.dot (a1 - s.p1) - N.dot (a1 - t.p1) := by
      simp [P3.dot]; ring
    rw [e3, Na1, this]; ring
  set d := N.cross M with hdd
  have hA : d.dot r = d.dot a1 + k * (d.dot a2 - d.dot a1) := by
    rw [hk]; simp [P3.dot]; ring
  have hB : d.dot r = d.dot b1 + l * (d.dot b2 - d.dot b1) := by
    rw [hl]; simp [P3.dot]; ring
  -- a point of the common line between two others
  have between : ∀ (x y z : P3 ℝ) (m : ℝ), N.dot (x - s.p1) = 0 → N.dot (y - s.p1) = 0 →
      N.dot (z - s.p1) = 0 → M.dot (x - t.p1) = 0 → M.dot (y - t.p1) = 0 → M.dot (z - t.p1) = 0 →
      d.dot z = d.dot x + m * (d.dot y - d.dot x) → z = x + m • (y - x) := by
    intro x y z m n1 n2 n3 m1 m2 m3 hz
    have := line_inj N M (z - (x + m • (y - x))) hd ?_ ?_ ?_
    · exact sub_eq_zero.1 this
    · simp [P3.dot] at n1 n2 n3 ⊢; linear_combination n3 - n1 - m * (n2 - n1)
    · simp [P3.dot] at m1 m2 m3 ⊢; linear_combination m3 - m1 - m * (m2 - m1)
    · change d.dot _ = 0
      simp only [P3.dot, P3.sub_x, P3.sub_y, P3.sub_z, P3.add_x, P3.add_y, P3.add_z, P3.smul_x,
        P3.smul_y, P3.smul_z] at hz ⊢
      linear_combination hz
  have hit : ∀ {s t : Tri3 ℝ} {p : Plane3 ℝ} {e : Seg3 ℝ} {a : P3 ℝ}, s.plane = some p →
      p.intersectSeg e = some a → InTriangle s a → s.hitsSeg e = some true := by
    intro s t p e a hp hpa hin
    unfold Tri3.hitsSeg Tri3.intersectSeg
    simp only [hp, hpa]
    rw [if_pos (contains_complete s a hin)]; rfl
  rcases interval_overlap _ _ _ _ _ k l k0 k1 l0 l1 hA hB with ⟨m, m0, m1, hm⟩ | ⟨m, m0, m1, hm⟩ |
    ⟨m, m0, m1, hm⟩ | ⟨m, m0, m1, hm⟩
  · have := between b1 b2 a1 m Nb1 Nb2 Na1 Mb1 Mb2 Ma1 hm
    exact Or.inl ⟨et, het, hit (t := t) ha ha1 (by rw [this]; exact inTriangle_convex s tb1 tb2 m0 m1)⟩
  · have := between b1 b2 a2 m Nb1 Nb2 Na2 Mb1 Mb2 Ma2 hm
    exact Or.inl ⟨et', het', hit (t := t) ha ha2 (by rw [this]; exact inTriangle_convex s tb1 tb2 m0 m1)⟩
  · have := between a1 a2 b1 m Na1 Na2 Nb1 Ma1 Ma2 Mb1 hm
    exact Or.inr ⟨es, hes, hit (t := t) hb hb1 (by rw [this]; exact inTriangle_convex t ta1 ta2 m0 m1)⟩
  · have := between a1 a2 b2 m Na1 Na2 Nb2 Ma1 Ma2 Mb2 hm
    exact Or.inr ⟨es', hes', hit (t := t) hb hb2 (by rw [this]; exact inTriangle_convex t ta1 ta2 m0 m1)⟩

/-- C34, the code violates soundness: two disjoint proper triangles are reported as
intersecting (through the gap of `contains`). -/
theorem tri_tri_false_positive :
    ∃ s t : Tri3 ℝ, s.intersectTri t = some true ∧ ∀ q, ¬ (InTriangle s q ∧ InTriangle t q) := by
  set s : Tri3 ℝ := ⟨⟨0, 0, 0⟩, ⟨1, 0, 0⟩, ⟨0, 1, 0⟩⟩ with hs
  set t : Tri3 ℝ := ⟨⟨2, -1, 1⟩, ⟨2, -1, -1⟩, ⟨2/5, 0, 10⟩⟩ with ht
  have hns : ¬ Collinear3 s.p1 s.p2 s.p3 := unit_triangle_not_collinear
  have hot : t.orthogonal = ⟨2, 16/5, 0⟩ := by
    ext <;> norm_num [ht, Tri3.orthogonal]
  have hos : s.orthogonal = ⟨0, 0, 1⟩ := by
    ext <;> norm_num [hs, Tri3.orthogonal]
  have hnt : ¬ Collinear3 t.p1 t.p2 t.p3 := by
    rw [← Tri3.orthogonal_eq_zero_iff, hot]
    intro h
    have := congrArg P3.x h
    norm_num at this
  obtain ⟨pa, ha⟩ := (Tri3.plane_isSome_iff s).2 hns
  obtain ⟨pb, hb⟩ := (Tri3.plane_isSome_iff t).2 hnt
  obtain ⟨b, e, hbt⟩ := Tri3.intersectTri_eq hns hnt ha hb
  obtain ⟨_, hApos, _, hAd⟩ := Tri3.plane_distance ha
  obtain ⟨_, hBpos, _, hBd⟩ := Tri3.plane_distance hb
  have hA' : 0 < 1 / s.orthogonal.norm := by positivity
  have hB' : 0 < 1 / t.orthogonal.norm := by positivity
  refine ⟨s, t, ?_, ?_⟩
  · rw [e, Option.some.injEq, hbt]
    refine ⟨?_, ?_, ?_, Or.inl ⟨⟨t.p1, t.p2⟩, by simp [Tri3.edges], ?_⟩⟩
    · norm_num [BBox.intersectWith, BBox.ofTri, BBox.add, BBox.empty, BBox.grow, hs, ht]
    · rw [Tri3.cuttedBy_iff]
      refine ⟨⟨s.p2, by simp, ?_⟩, ⟨s.p1, by simp, ?_⟩⟩
      · rw [hBd]
        refine mul_pos hB' ?_
        rw [hot]; norm_num [hs, ht, P3.dot]
      · rw [hBd]
        refine mul_neg_of_pos_of_neg hB' ?_
        rw [hot]; norm_num [hs, ht, P3.dot]
    · rw [Tri3.cuttedBy_iff]
      refine ⟨⟨t.p1, by simp, ?_⟩, ⟨t.p2, by simp, ?_⟩⟩
      · rw [hAd]
        refine mul_pos hA' ?_
        rw [hos]; norm_num [hs, ht, P3.dot]
      · rw [hAd]
        refine mul_neg_of_pos_of_neg hA' ?_
        rw [hos]; norm_num [hs, ht, P3.dot]
    · have hc : pa.distanceTo t.p1 * pa.distanceTo t.p2 < 0 := by
        rw [hAd, hAd, hos]
        rw [hos] at hA'
        have e1 : (⟨0, 0, 1⟩ : P3 ℝ).dot (t.p1 - s.p1) = 1 := by norm_num [hs, ht, P3.dot]
        have e2 : (⟨0, 0, 1⟩ : P3 ℝ).dot (t.p2 - s.p1) = -1 := by norm_num [hs, ht, P3.dot]
        rw [e1, e2]; nlinarith
      obtain ⟨q, hq⟩ := Option.isSome_iff_exists.1 ((plane_segment_iff pa ⟨t.p1, t.p2⟩).2 hc)
      have hin : InPlaneOf s ⟨2, -1, 0⟩ := ⟨0, 2, -1, by norm_num, by ext <;> simp [hs]⟩
      have hqr : ⟨2, -1, 0⟩ = q := (plane_segment_point pa _ q hq).2.2 ⟨2, -1, 0⟩
        ⟨1/2, by norm_num, by norm_num, by ext <;> norm_num [ht]⟩ ((Tri3.inPlane_of_onPlane ha).2 hin)
      unfold Tri3.hitsSeg Tri3.intersectSeg
      simp only [ha, hq]
      rw [← hqr, if_pos]
      · rfl
      rw [contains_iff_partial s hns _ hin]
      right; exact ⟨2, -1, by norm_num, by ext <;> simp [hs]⟩
  · rintro q ⟨⟨a, b, c, h1, h2, h3, h4, rfl⟩, ⟨a', b', c', h1', h2', h3', h4', hq⟩⟩
    have hy := congrArg P3.y hq
    have hz := congrArg P3.z hq
    simp [hs, ht] at hy hz
    linarith

-- non-vacuity of `tri_tri_complete_general`: two triangles meeting in (1/4,1/4,0)
example : ∃ s t : Tri3 ℝ, ¬ Collinear3 s.p1 s.p2 s.p3 ∧ ¬ Collinear3 t.p1 t.p2 t.p3 ∧
    (∀ q ∈ [s.p1, s.p2, s.p3], ¬ InPlaneOf t q) ∧ (∀ q ∈ [t.p1, t.p2, t.p3], ¬ InPlaneOf s q) ∧
    ∃ r, InTriangle s r ∧ InTriangle t r := by
  set s : Tri3 ℝ := ⟨⟨0, 0, 0⟩, ⟨1, 0, 0⟩, ⟨0, 1, 0⟩⟩ with hs
  set t : Tri3 ℝ := ⟨⟨1/4, 1/4, -1⟩, ⟨1/4, 1/4, 1⟩, ⟨5, 6, 1⟩⟩ with ht
  have hot : t.orthogonal = ⟨-23/2, 19/2, 0⟩ := by ext <;> norm_num [ht, Tri3.orthogonal]
  have hos : s.orthogonal = ⟨0, 0, 1⟩ := by ext <;> norm_num [hs, Tri3.orthogonal]
  have hot0 : t.orthogonal ≠ 0 := by
    rw [hot]; intro h; have := congrArg P3.x h; norm_num at this
  have hos0 : s.orthogonal ≠ 0 := by
    rw [hos]; intro h; have := congrArg P3.z h; norm_num at this
  refine ⟨s, t, ?_, ?_, ?_, ?_, ⟨1/4, 1/4, 0⟩, ?_, ?_⟩
  · rw [← Tri3.orthogonal_eq_zero_iff]; exact hos0
  · rw [← Tri3.orthogonal_eq_zero_iff]; exact hot0
  · intro q hq
    rw [Tri3.inPlane_iff t hot0, hot]
    simp only [List.mem_cons, List.not_mem_nil, or_false] at hq
    rcases hq with rfl | rfl | rfl <;> norm_num [hs, ht, P3.dot]
  · intro q hq
    rw [Tri3.inPlane_iff s hos0, hos]
    simp only [List.mem_cons, List.not_mem_nil, or_false] at hq
    rcases hq with rfl | rfl | rfl <;> norm_num [hs, ht, P3.dot]
  · exact ⟨1/2, 1/4, 1/4, by norm_num, by norm_num, by norm_num, by norm_num, by ext <;> norm_num [hs]⟩
  · exact ⟨1/2, 1/2, 0, by norm_num, by norm_num, by norm_num, by norm_num, by ext <;> norm_num [ht]⟩

-- non-vacuity of `tri_tri_reject_sound`: a triangle strictly above the plane of another
example : ∀ q ∈ [(⟨0, 0, 1⟩ : P3 ℝ), ⟨1, 0, 2⟩, ⟨0, 1, 3⟩],
    0 < (⟨⟨0, 0, 0⟩, ⟨1, 0, 0⟩, ⟨0, 1, 0⟩⟩ : Tri3 ℝ).orthogonal.dot (q - ⟨0, 0, 0⟩) := by
  intro q hq
  simp only [List.mem_cons, List.not_mem_nil, or_false] at hq
  rcases hq with rfl | rfl | rfl <;> norm_num [Tri3.orthogonal, P3.dot]

end CAD
