import Verif.Props.Vector

/-! Properties C30, C31: planes. -/

namespace CAD
variable {K : Type*} [Field K]

/-- signed distance to a triangle's plane, in terms of the triangle -/
theorem Tri3.plane_distance {t : Tri3 ℝ} {p : Plane3 ℝ} (h : t.plane = some p) :
    t.orthogonal ≠ 0 ∧ 0 < t.orthogonal.norm ∧ p.normal = (1 / t.orthogonal.norm) • t.orthogonal ∧
    ∀ q, p.distanceTo q = (1 / t.orthogonal.norm) * t.orthogonal.dot (q - t.p1) := by
  unfold Tri3.plane Plane3.computeUsing at h
  change (match t.orthogonal.normalized with | none => none | some pn => _) = _ at h
  by_cases h0 : t.orthogonal = 0
  · rw [h0, P3.normalized_zero] at h; exact absurd h (by simp)
  rw [P3.normalized_of_ne h0] at h
  simp only [Option.some.injEq] at h
  subst h
  refine ⟨h0, P3.norm_pos h0, rfl, fun q => ?_⟩
  simp only [Plane3.distanceTo, P3.dot, P3.smul_x, P3.smul_y, P3.smul_z, P3.sub_x, P3.sub_y, P3.sub_z]
  ring

/-- C30: the plane through three points exists exactly when they are not collinear. -/
theorem plane_defined_iff (p1 p2 p3 : P3 ℝ) :
    Plane3.computeUsing p1 p2 p3 = none ↔ Collinear3 p1 p2 p3 := by
  have h := Tri3.orthogonal_eq_zero_iff (⟨p1, p2, p3⟩ : Tri3 ℝ)
  simp only at h
  rw [← h]
  unfold Plane3.computeUsing
  change (match (Tri3.mk p1 p2 p3).orthogonal.normalized with | none => none | some pn => _) = _ ↔ _
  by_cases h0 : (Tri3.mk p1 p2 p3).orthogonal = 0
  · simp [h0, P3.normalized_zero]
  · simp [P3.normalized_of_ne h0, h0]

/-- C30: it has a unit normal and passes through the three points. -/
theorem plane_through_points {p1 p2 p3 : P3 ℝ} {p : Plane3 ℝ}
    (h : Plane3.computeUsing p1 p2 p3 = some p) :
    p.normal.norm = 1 ∧ OnPlane p p1 ∧ OnPlane p p2 ∧ OnPlane p p3 := by
  obtain ⟨h0, hpos, hn, hd⟩ := Tri3.plane_distance (t := ⟨p1, p2, p3⟩) h
  refine ⟨?_, ?_, ?_, ?_⟩
  · rw [hn, P3.norm_smul, abs_of_pos (by positivity)]; field_simp
  · have := hd p1
    change p.distanceTo p1 = 0
    rw [this]; simp [P3.dot]
  · have := hd p2
    change p.distanceTo p2 = 0
    rw [this]; simp [P3.dot, Tri3.orthogonal]; right; ring
  · have := hd p3
    change p.distanceTo p3 = 0
    rw [this]; simp [P3.dot, Tri3.orthogonal]; right; ring

/-- C30: for every plane with a unit normal, `project_point` lands on the plane
and `|distance_to|` is the Euclidean distance to the plane: it is attained by the
projection and no point of the plane is nearer. -/
theorem plane_projection (p : Plane3 ℝ) (hn : p.normal.norm = 1) (q : P3 ℝ) :
    OnPlane p (p.projectPoint q) ∧
    (q - p.projectPoint q).norm = |p.distanceTo q| ∧
    (∀ r, OnPlane p r → |p.distanceTo q| ≤ (q - r).norm) ∧
    (∀ r, OnPlane p r → (q - r).norm = |p.distanceTo q| → r = p.projectPoint q) := by
  have h1 : p.normal.normSq = 1 := by rw [← P3.norm_sq, hn]; ring
  have h1' : p.a * p.a + p.b * p.b + p.c * p.c = 1 := h1
  have hdist : p.normal.dot q + p.d = p.distanceTo q := by
    simp [Plane3.normal, P3.dot, Plane3.distanceTo]
  have hproj : p.projectPoint q = q - p.distanceTo q • p.normal := by
    rw [Plane3.projectPoint, hdist]
  have hsq : ∀ r, OnPlane p r → (q - r).normSq =
      p.distanceTo q * p.distanceTo q + (p.projectPoint q - r).normSq := by
    intro r hr
    have hr' : p.a * r.x + p.b * r.y + p.c * r.z + p.d = 0 := hr
    rw [hproj]
    have hD : p.distanceTo q = p.a * (q.x - r.x) + p.b * (q.y - r.y) + p.c * (q.z - r.z) := by
      unfold Plane3.distanceTo; linear_combination hr'
    generalize p.distanceTo q = D at *
    simp [P3.normSq, Plane3.normal]
    linear_combination (-2 * D) * hD - D * D * h1'
  refine ⟨?_, ?_, ?_, ?_⟩
  · unfold OnPlane
    rw [hproj]
    have hD : p.distanceTo q = p.a * q.x + p.b * q.y + p.c * q.z + p.d := rfl
    simp only [P3.sub_x, P3.sub_y, P3.sub_z, P3.smul_x, P3.smul_y, P3.smul_z, Plane3.normal]
    linear_combination -hD - (p.distanceTo q) * h1'
  · rw [hproj]
    have : q - (q - p.distanceTo q • p.normal) = p.distanceTo q • p.normal := by abel
    rw [this, P3.norm_smul, hn, mul_one]
  · intro r hr
    have := hsq r hr
    rw [P3.norm_eq]
    apply Real.abs_le_sqrt
    have := P3.normSq_nonneg (p.projectPoint q - r)
    nlinarith
  · intro r hr he
    have h2 := hsq r hr
    have h3 : (q - r).normSq = p.distanceTo q * p.distanceTo q := by
      rw [← P3.norm_sq, he, abs_mul_abs_self]
    have : (p.projectPoint q - r).normSq = 0 := by linarith
    exact (sub_eq_zero.1 (P3.normSq_eq_zero.1 this)).symm

/-- C30: projection is idempotent. -/
theorem plane_projection_idem (p : Plane3 ℝ) (hn : p.normal.norm = 1) (q : P3 ℝ) :
    p.projectPoint (p.projectPoint q) = p.projectPoint q := by
  have h := (plane_projection p hn q).1
  generalize p.projectPoint q = r at *
  have : p.normal.dot r + p.d = 0 := h
  rw [Plane3.projectPoint, this]; simp

-- non-vacuity: the hypotheses above are met by the plane of any proper triangle
example : ∃ p, Plane3.computeUsing ⟨0, 0, 1⟩ ⟨2, 0, 1⟩ ⟨0, 3, 1⟩ = some p ∧ p.normal.norm = 1 := by
  have h : Plane3.computeUsing ⟨0, 0, 1⟩ ⟨2, 0, 1⟩ ⟨0, 3, 1⟩ ≠ none := by
    rw [Ne, plane_defined_iff]
    have := Tri3.orthogonal_eq_zero_iff (⟨⟨0, 0, 1⟩, ⟨2, 0, 1⟩, ⟨0, 3, 1⟩⟩ : Tri3 ℝ)
    rw [← this]
    intro h
    have := congrArg P3.z h
    norm_num [Tri3.orthogonal] at this
  obtain ⟨p, hp⟩ := Option.ne_none_iff_exists'.1 h
  exact ⟨p, hp, (plane_through_points hp).1⟩

/-- C31: the plane/segment test answers true exactly when the end points are
strictly on opposite sides. -/
theorem plane_segment_iff [LinearOrder K] [IsStrictOrderedRing K] (p : Plane3 K) (s : Seg3 K) :
    (p.intersectSeg s).isSome = true ↔ p.distanceTo s.p1 * p.distanceTo s.p2 < 0 := by
  set k := p.distanceTo s.p1 with hk
  have hu : p.a * (s.p2.x - s.p1.x) + p.b * (s.p2.y - s.p1.y) + p.c * (s.p2.z - s.p1.z)
      = p.distanceTo s.p2 - k := by rw [hk]; simp only [Plane3.distanceTo]; ring
  set l := p.distanceTo s.p2 with hl
  have hkk : p.a * s.p1.x + p.b * s.p1.y + p.c * s.p1.z + p.d = k := rfl
  unfold Plane3.intersectSeg
  rw [hu, hkk]
  simp only
  split_ifs with h1 h2
  · simp only [Option.isSome_none, Bool.false_eq_true, false_iff, not_lt]
    have : l = k := sub_eq_zero.1 h1
    rw [this]; exact mul_self_nonneg k
  · simp only [Option.isSome_none, Bool.false_eq_true, false_iff, not_lt]
    rcases lt_or_gt_of_ne h1 with hneg | hpos
    · rcases h2 with h2 | h2
      · rw [div_nonpos_iff] at h2
        rcases h2 with ⟨a, b⟩ | ⟨a, b⟩
        · nlinarith
        · linarith
      · rw [ge_iff_le, le_div_iff_of_neg hneg] at h2
        nlinarith
    · rcases h2 with h2 | h2
      · rw [div_le_iff₀ hpos] at h2
        nlinarith
      · rw [ge_iff_le, le_div_iff₀ hpos] at h2
        nlinarith
  · simp only [Option.isSome_some, true_iff]
    push Not at h2
    obtain ⟨a, b⟩ := h2
    rcases lt_or_gt_of_ne h1 with hneg | hpos
    · rw [lt_div_iff_of_neg hneg] at a
      rw [div_lt_iff_of_neg hneg] at b
      nlinarith
    · rw [lt_div_iff₀ hpos] at a
      rw [div_lt_iff₀ hpos] at b
      nlinarith

/-- C31: the reported point is on the plane and strictly inside the segment; and it is the
only common point of the segment and the plane. -/
theorem plane_segment_point [LinearOrder K] [IsStrictOrderedRing K] (p : Plane3 K) (s : Seg3 K)
    (q : P3 K) (h : p.intersectSeg s = some q) :
    OnPlane p q ∧ InsideSegment s q ∧ ∀ r, OnSegment s r → OnPlane p r → r = q := by
  unfold Plane3.intersectSeg at h
  simp only at h
  split_ifs at h with h1 h2
  push Not at h2
  simp only [Option.some.injEq] at h
  subst h
  refine ⟨?_, ⟨_, h2.1, h2.2, ?_⟩, ?_⟩
  · unfold OnPlane
    simp only
    field_simp
    ring
  · ext <;> simp
  · rintro r ⟨t, _, _, rfl⟩ hr
    unfold OnPlane at hr
    simp only [P3.add_x, P3.add_y, P3.add_z, P3.smul_x, P3.smul_y, P3.smul_z, P3.sub_x, P3.sub_y,
      P3.sub_z] at hr
    have ht : t = -(p.a * s.p1.x + p.b * s.p1.y + p.c * s.p1.z + p.d) /
        (p.a * (s.p2.x - s.p1.x) + p.b * (s.p2.y - s.p1.y) + p.c * (s.p2.z - s.p1.z)) := by
      rw [eq_div_iff h1]; linear_combination hr
    rw [ht]
    ext <;> simp

-- non-vacuity
example : (⟨0, 0, 1, 0⟩ : Plane3 ℚ).intersectSeg ⟨⟨1, 1, -1⟩, ⟨1, 3, 1⟩⟩ = some ⟨1, 2, 0⟩ := by
  decide +kernel
-- touching end points are not reported
example : (⟨0, 0, 1, 0⟩ : Plane3 ℚ).intersectSeg ⟨⟨1, 1, 0⟩, ⟨1, 3, 1⟩⟩ = none := by decide +kernel

/-- C31: plane/plane: the code answers true exactly when the normals' cross product is not
(numerically) zero; it is symmetric. -/
theorem plane_plane_symm [LinearOrder K] (p q : Plane3 K) : p.intersectPlane q = q.intersectPlane p := by
  unfold Plane3.intersectPlane
  have : (p.normal.cross q.normal).normSq = (q.normal.cross p.normal).normSq := by
    simp [P3.normSq]; ring
  rw [this]

end CAD
