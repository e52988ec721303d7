import Verif.Lemmas.Geometry

/-! Property C36: vector algebra of `Point3` and triangle area. -/

namespace CAD
variable {K : Type*} [Field K]

/-- C36: the cross product is orthogonal to both factors and anti-commutative. -/
theorem cross_orthogonal (a b : P3 K) :
    (a.cross b).dot a = 0 ∧ (a.cross b).dot b = 0 ∧ a.cross b = -(b.cross a) := by
  refine ⟨?_, ?_, ?_⟩
  · simp [P3.dot]; ring
  · simp [P3.dot]; ring
  · ext <;> simp <;> ring

/-- C36: Lagrange's identity. -/
theorem cross_norm_square (a b : P3 K) :
    (a.cross b).normSq = a.normSq * b.normSq - a.dot b * a.dot b := P3.lagrange a b

/-- C36: bilinearity of the cross product. -/
theorem cross_bilinear (a b c : P3 K) (k : K) :
    (a + k • b).cross c = a.cross c + k • b.cross c ∧
    c.cross (a + k • b) = c.cross a + k • c.cross b := by
  constructor <;> ext <;> simp <;> ring

/-- C36: `normalized` succeeds exactly on non-zero vectors, and then the result
has norm one and is a positive multiple of the argument. -/
theorem normalized_spec (p : P3 ℝ) :
    (p.normalized = none ↔ p = 0) ∧
    ∀ n, p.normalized = some n → n.norm = 1 ∧ ∃ k : ℝ, 0 < k ∧ p = k • n := by
  constructor
  · constructor
    · intro h
      by_contra hp
      rw [P3.normalized_of_ne hp] at h
      exact absurd h (by simp)
    · rintro rfl; exact P3.normalized_zero
  · intro n hn
    by_cases hp : p = 0
    · subst hp; rw [P3.normalized_zero] at hn; exact absurd hn (by simp)
    · rw [P3.normalized_of_ne hp] at hn
      have hpos := P3.norm_pos hp
      obtain rfl := Option.some.inj hn
      constructor
      · rw [P3.norm_smul, abs_of_pos (by positivity)]; field_simp
      · refine ⟨p.norm, hpos, ?_⟩
        rw [← mul_smul]; field_simp; simp

/-- C36: `distance_square` vanishes only on equal points and is symmetric. -/
theorem distance_square_spec [LinearOrder K] [IsStrictOrderedRing K] (p q : P3 K) :
    0 ≤ p.distSq q ∧ (p.distSq q = 0 ↔ p = q) ∧ p.distSq q = q.distSq p :=
  ⟨P3.distSq_nonneg p q, P3.distSq_eq_zero, P3.distSq_comm p q⟩

/-- C36: triangle inequality for `norm`. -/
theorem norm_triangle_ineq (a b : P3 ℝ) : (a + b).norm ≤ a.norm + b.norm := by
  have h1 := P3.norm_sq (a + b)
  have h2 := P3.norm_sq a
  have h3 := P3.norm_sq b
  have n1 := P3.norm_nonneg a
  have n2 := P3.norm_nonneg b
  have hl := P3.lagrange a b
  have hcs : a.dot b * a.dot b ≤ (a.norm * b.norm) * (a.norm * b.norm) := by
    have := P3.normSq_nonneg (a.cross b)
    have e : (a.norm * b.norm) * (a.norm * b.norm) = a.normSq * b.normSq := by
      rw [← h2, ← h3]; ring
    rw [e]; linarith
  have hdot : a.dot b ≤ a.norm * b.norm := by
    have := abs_le_of_sq_le_sq' (a := a.dot b) (b := a.norm * b.norm)
      (by nlinarith) (by positivity)
    exact this.2
  have he : (a + b).normSq = a.normSq + b.normSq + 2 * a.dot b := by
    simp [P3.normSq, P3.dot]; ring
  have n3 := P3.norm_nonneg (a + b)
  by_contra hc
  push Not at hc
  nlinarith

/-- C36: `Segment3::norm` is the distance of the two ends: the root of the sum of the squared
differences, zero only when the ends agree, the same in both directions, and `norm_square` is its square. -/
theorem segment_norm_spec (p q : P3 ℝ) :
    (⟨p, q⟩ : Seg3 ℝ).norm = Real.sqrt ((q.x - p.x) ^ 2 + (q.y - p.y) ^ 2 + (q.z - p.z) ^ 2) ∧
    ((⟨p, q⟩ : Seg3 ℝ).norm = 0 ↔ p = q) ∧ (⟨q, p⟩ : Seg3 ℝ).norm = (⟨p, q⟩ : Seg3 ℝ).norm ∧
    (⟨p, q⟩ : Seg3 ℝ).normSq = (⟨p, q⟩ : Seg3 ℝ).norm ^ 2 := by
  have key : ∀ p q : P3 ℝ, (⟨p, q⟩ : Seg3 ℝ).norm = Real.sqrt ((q.x - p.x) ^ 2 + (q.y - p.y) ^ 2 + (q.z - p.z) ^ 2) := by
    intro p q
    unfold Seg3.norm P3.norm
    congr 1
    simp
    ring
  have sq : ∀ p q : P3 ℝ, (⟨p, q⟩ : Seg3 ℝ).normSq = (q.x - p.x) ^ 2 + (q.y - p.y) ^ 2 + (q.z - p.z) ^ 2 := by
    intro p q
    unfold Seg3.normSq P3.normSq
    simp
    ring
  refine ⟨key p q, ?_, ?_, ?_⟩
  · rw [key, Real.sqrt_eq_zero (by positivity)]
    constructor
    · intro h
      have a := sq_nonneg (q.x - p.x)
      have b := sq_nonneg (q.y - p.y)
      have c := sq_nonneg (q.z - p.z)
      ext
      · have : (q.x - p.x) ^ 2 = 0 := by linarith
        linarith [pow_eq_zero_iff (two_ne_zero) |>.1 this]
      · have : (q.y - p.y) ^ 2 = 0 := by linarith
        linarith [pow_eq_zero_iff (two_ne_zero) |>.1 this]
      · have : (q.z - p.z) ^ 2 = 0 := by linarith
        linarith [pow_eq_zero_iff (two_ne_zero) |>.1 this]
    · rintro rfl
      ring
  · rw [key, key]
    congr 1
    ring
  · rw [key, sq, Real.sq_sqrt (by positivity)]

/-- C36: the area is half the norm of the parallelogram spanned by two edges, it
is non-negative, and it does not depend on the order of the corners. -/
theorem triangle_surface_symm (a b c : P3 ℝ) :
    (⟨a, b, c⟩ : Tri3 ℝ).surface = ((b - a).cross (c - a)).norm / 2 ∧
    0 ≤ (⟨a, b, c⟩ : Tri3 ℝ).surface ∧
    (⟨b, c, a⟩ : Tri3 ℝ).surface = (⟨a, b, c⟩ : Tri3 ℝ).surface ∧
    (⟨b, a, c⟩ : Tri3 ℝ).surface = (⟨a, b, c⟩ : Tri3 ℝ).surface := by
  refine ⟨?_, ?_, ?_, ?_⟩
  · have : (⟨a, b, c⟩ : Tri3 ℝ).orthogonal = (b - a).cross (c - a) := by
      ext <;> simp [Tri3.orthogonal] <;> ring
    rw [Tri3.surface, this]; ring
  · have := P3.norm_nonneg (⟨a, b, c⟩ : Tri3 ℝ).orthogonal
    unfold Tri3.surface; positivity
  · have : (⟨b, c, a⟩ : Tri3 ℝ).orthogonal = (⟨a, b, c⟩ : Tri3 ℝ).orthogonal := by
      ext <;> simp [Tri3.orthogonal] <;> ring
    rw [Tri3.surface, this, Tri3.surface]
  · have : (⟨b, a, c⟩ : Tri3 ℝ).orthogonal = (-1 : ℝ) • (⟨a, b, c⟩ : Tri3 ℝ).orthogonal := by
      ext <;> simp [Tri3.orthogonal] <;> ring
    rw [Tri3.surface, this, P3.norm_smul, Tri3.surface]; simp

/-- C36: a triangle has zero area exactly when its corners are on one line. -/
theorem triangle_surface_zero_iff (t : Tri3 ℝ) :
    t.surface = 0 ↔ Collinear3 t.p1 t.p2 t.p3 := by
  rw [← Tri3.orthogonal_eq_zero_iff, ← P3.norm_eq_zero, Tri3.surface]
  constructor
  · intro h; linarith
  · intro h; rw [h]; ring

/-- C36: `Triangle3::normal` is defined exactly for non-degenerate triangles, has
norm one and is orthogonal to the three edges. -/
theorem triangle_normal_spec (t : Tri3 ℝ) :
    (t.normal = none ↔ Collinear3 t.p1 t.p2 t.p3) ∧
    ∀ n, t.normal = some n → n.norm = 1 ∧ n.dot (t.p2 - t.p1) = 0 ∧ n.dot (t.p3 - t.p1) = 0 := by
  obtain ⟨h1, h2⟩ := normalized_spec t.orthogonal
  refine ⟨by rw [← Tri3.orthogonal_eq_zero_iff]; exact h1, fun n hn => ?_⟩
  obtain ⟨hn1, k, hk, e⟩ := h2 n hn
  refine ⟨hn1, ?_, ?_⟩
  · have : t.orthogonal.dot (t.p2 - t.p1) = 0 := by simp [Tri3.orthogonal, P3.dot]; ring
    rw [e] at this
    have e2 : (k • n).dot (t.p2 - t.p1) = k * n.dot (t.p2 - t.p1) := by simp [P3.dot]; ring
    rw [e2] at this
    exact (mul_eq_zero.1 this).resolve_left hk.ne'
  · have : t.orthogonal.dot (t.p3 - t.p1) = 0 := by simp [Tri3.orthogonal, P3.dot]; ring
    rw [e] at this
    have e2 : (k • n).dot (t.p3 - t.p1) = k * n.dot (t.p3 - t.p1) := by simp [P3.dot]; ring
    rw [e2] at this
    exact (mul_eq_zero.1 this).resolve_left hk.ne'

-- non-vacuity: a non-degenerate triangle has a normal
example : (⟨⟨0, 0, 0⟩, ⟨2, 0, 0⟩, ⟨0, 3, 0⟩⟩ : Tri3 ℝ).normal ≠ none := by
  rw [Ne, (triangle_normal_spec _).1, ← Tri3.orthogonal_eq_zero_iff]
  intro h
  have := congrArg P3.z h
  norm_num [Tri3.orthogonal] at this

end CAD
