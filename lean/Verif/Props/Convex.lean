import Verif.Props.Volumes
import Verif.Spec.Geometry

/-! C121: the solids of `MeshFactory` are convex and face outward. -/

set_option linter.unusedSimpArgs false

namespace CAD

section
variable {K : Type*} [Field K] [LinearOrder K] [IsStrictOrderedRing K]

/-- no point of the surface is in front of a triangle: the surface bounds a convex solid and all
its triangles face outward -/
def ConvexOutward (ts : List (Tri3 K)) : Prop :=
  ∀ t ∈ ts, ∀ t' ∈ ts, ∀ q, InTriangle t' q → (q - t.p1).dot t.orthogonal ≤ 0

/-- the origin is strictly behind every triangle -/
def AroundOrigin (ts : List (Tri3 K)) : Prop := ∀ t ∈ ts, 0 < t.p1.dot t.orthogonal

/-- a plane that touches the solid along the triangle -/
structure Supports (n : P3 K) (d : K) (t : Tri3 K) : Prop where
  on1 : n.dot t.p1 = d
  on2 : n.dot t.p2 = d
  on3 : n.dot t.p3 = d

omit [LinearOrder K] [IsStrictOrderedRing K] in
/-- the normal of the triangle is a multiple of the normal of the plane -/
theorem Supports.parallel {n : P3 K} {d : K} {t : Tri3 K} (h : Supports n d t) (q : P3 K) :
    n.normSq * (q - t.p1).dot t.orthogonal = (n.dot q - d) * n.dot t.orthogonal := by
  obtain ⟨h1, h2, h3⟩ := h
  simp only [P3.normSq, P3.dot, Tri3.orthogonal, P3.cross, P3.sub_x, P3.sub_y, P3.sub_z] at *
  have e2 : n.x * (t.p1.x - t.p2.x) + n.y * (t.p1.y - t.p2.y) + n.z * (t.p1.z - t.p2.z) = 0 := by linear_combination h1 - h2
  have e3 : n.x * (t.p1.x - t.p3.x) + n.y * (t.p1.y - t.p3.y) + n.z * (t.p1.z - t.p3.z) = 0 := by linear_combination h1 - h3
  rw [← h1]
  generalize t.p1.x - t.p2.x = ax at *
  generalize t.p1.y - t.p2.y = ay at *
  generalize t.p1.z - t.p2.z = az at *
  generalize t.p1.x - t.p3.x = bx at *
  generalize t.p1.y - t.p3.y = by' at *
  generalize t.p1.z - t.p3.z = bz at *
  have c1 : n.y * (ax * by' - ay * bx) - n.z * (az * bx - ax * bz) = 0 := by linear_combination ax * e3 - bx * e2
  have c2 : n.z * (ay * bz - az * by') - n.x * (ax * by' - ay * bx) = 0 := by linear_combination ay * e3 - by' * e2
  have c3 : n.x * (az * bx - ax * bz) - n.y * (ay * bz - az * by') = 0 := by linear_combination az * e3 - bz * e2
  generalize ay * bz - az * by' = ox at *
  generalize az * bx - ax * bz = oy at *
  generalize ax * by' - ay * bx = oz at *
  generalize ex : q.x - t.p1.x = x
  generalize ey : q.y - t.p1.y = y
  generalize ez : q.z - t.p1.z = z
  have : n.x * q.x + n.y * q.y + n.z * q.z - (n.x * t.p1.x + n.y * t.p1.y + n.z * t.p1.z) = n.x * x + n.y * y + n.z * z := by
    rw [← ex, ← ey, ← ez]; ring
  rw [this]
  linear_combination (n.y * z - n.z * y) * c1 + (n.z * x - n.x * z) * c2 + (n.x * y - n.y * x) * c3

/-- a triangle that faces away from the origin and lies in a plane that has all points on the side
of the origin has all points behind it -/
theorem Supports.behind {n : P3 K} {d : K} {t : Tri3 K} (h : Supports n d t) (hd : 0 < d)
    (ho : 0 < t.p1.dot t.orthogonal) {q : P3 K} (hq : n.dot q ≤ d) : (q - t.p1).dot t.orthogonal ≤ 0 := by
  have h0 := h.parallel 0
  have hq' := h.parallel q
  have e0 : ((0 : P3 K) - t.p1).dot t.orthogonal = - t.p1.dot t.orthogonal := by
    simp only [P3.dot, P3.sub_x, P3.sub_y, P3.sub_z, P3.zero_x, P3.zero_y, P3.zero_z]; ring
  have e1 : n.dot (0 : P3 K) = 0 := by simp [P3.dot]
  rw [e0, e1] at h0
  have hn : 0 < n.normSq := by
    have : 0 ≤ n.normSq := by simp only [P3.normSq]; nlinarith [mul_self_nonneg n.x, mul_self_nonneg n.y, mul_self_nonneg n.z]
    rcases this.lt_or_eq with h' | h'
    · exact h'
    · exfalso
      have hz : n.x = 0 ∧ n.y = 0 ∧ n.z = 0 := by
        simp only [P3.normSq] at h'
        refine ⟨?_, ?_, ?_⟩ <;> refine mul_self_eq_zero.1 ?_ <;> nlinarith [mul_self_nonneg n.x, mul_self_nonneg n.y, mul_self_nonneg n.z]
      have := h.on1
      simp only [P3.dot, hz.1, hz.2.1, hz.2.2, zero_mul, add_zero] at this
      exact hd.ne this
  have hno : 0 < n.dot t.orthogonal := by
    by_contra hc
    nlinarith [mul_pos hn ho]
  by_contra hc
  push Not at hc
  nlinarith [mul_pos hn hc]

theorem convex_of_corners {ts : List (Tri3 K)}
    (h : ∀ t ∈ ts, ∀ t' ∈ ts, (t'.p1 - t.p1).dot t.orthogonal ≤ 0 ∧ (t'.p2 - t.p1).dot t.orthogonal ≤ 0 ∧
      (t'.p3 - t.p1).dot t.orthogonal ≤ 0) : ConvexOutward ts := by
  rintro t ht t' ht' q ⟨a, b, c, ha, hb, hc, hs, rfl⟩
  obtain ⟨h1, h2, h3⟩ := h t ht t' ht'
  have e : (a • t'.p1 + b • t'.p2 + c • t'.p3 - t.p1).dot t.orthogonal =
      a * (t'.p1 - t.p1).dot t.orthogonal + b * (t'.p2 - t.p1).dot t.orthogonal + c * (t'.p3 - t.p1).dot t.orthogonal := by
    simp only [P3.dot, P3.sub_x, P3.sub_y, P3.sub_z, P3.add_x, P3.add_y, P3.add_z, P3.smul_x, P3.smul_y, P3.smul_z]
    linear_combination (t.p1.x * t.orthogonal.x + t.p1.y * t.orthogonal.y + t.p1.z * t.orthogonal.z) * hs
  rw [e]
  nlinarith [mul_nonneg ha (neg_nonneg.2 h1), mul_nonneg hb (neg_nonneg.2 h2), mul_nonneg hc (neg_nonneg.2 h3)]

/-- supporting planes for all triangles -/
theorem convex_of_planes {ts : List (Tri3 K)} (ho : ∀ t ∈ ts, 0 < t.p1.dot t.orthogonal)
    (h : ∀ t ∈ ts, ∃ n d, 0 < d ∧ Supports n d t ∧ ∀ t' ∈ ts, n.dot t'.p1 ≤ d ∧ n.dot t'.p2 ≤ d ∧ n.dot t'.p3 ≤ d) :
    ConvexOutward ts := by
  refine convex_of_corners fun t ht t' ht' => ?_
  obtain ⟨n, d, hd, hs, hb⟩ := h t ht
  obtain ⟨b1, b2, b3⟩ := hb t' ht'
  have := ho t ht
  exact ⟨hs.behind hd this b1, hs.behind hd this b2, hs.behind hd this b3⟩

end

namespace Factory
open Mesh MeshUtil Real

section
variable {K : Type} [Field K] [LinearOrder K] [IsStrictOrderedRing K]

/-- **C121** tetrahedron -/
theorem tetrahedron_convex {s : K} (hs : 0 < s) (m : Mesh K) :
    ∃ r, createTetrahedron s m = some r ∧ ConvexOutward r.triangles ∧ AroundOrigin r.triangles := by
  obtain ⟨r, hr, -, ht⟩ := tetra_tris s m
  obtain ⟨r', hr', -, -, -, ho, -⟩ := tetrahedron_spec s m
  obtain rfl : r' = r := Option.some.inj (hr'.symm.trans hr)
  have h3 : 0 < s ^ 3 := by positivity
  refine ⟨r', hr, convex_of_corners ?_, fun t h => by rw [ho t h]; positivity⟩
  rw [ht]
  simp only [List.mem_cons, List.not_mem_nil, or_false, forall_eq_or_imp, forall_eq, Tri3.orthogonal,
    P3.dot, P3.cross, P3.sub_x, P3.sub_y, P3.sub_z]
  refine ⟨?_, ?_, ?_, ?_⟩ <;> refine ⟨?_, ?_, ?_, ?_⟩ <;> refine ⟨?_, ?_, ?_⟩ <;> nlinarith

/-- **C121** box -/
theorem box_convex {x y z : K} (hx : 0 < x) (hy : 0 < y) (hz : 0 < z) (m : Mesh K) :
    ∃ r, createBox x y z m = some r ∧ ConvexOutward r.triangles ∧ AroundOrigin r.triangles := by
  obtain ⟨r, hr, -, ht⟩ := box_tris x y z m
  obtain ⟨r', hr', -, hc, ho, -⟩ := box_spec x y z m
  obtain rfl : r' = r := Option.some.inj (hr'.symm.trans hr)
  have hor : AroundOrigin r'.triangles := fun t h => by rw [ho t h]; positivity
  refine ⟨r', hr, convex_of_planes hor ?_, hor⟩
  have hb : ∀ n : P3 K, ∀ d, (∀ a b c : K, (a = x / 2 ∨ a = -(x / 2)) → (b = y / 2 ∨ b = -(y / 2)) → (c = z / 2 ∨ c = -(z / 2)) →
      n.dot ⟨a, b, c⟩ ≤ d) → ∀ t ∈ r'.triangles, n.dot t.p1 ≤ d ∧ n.dot t.p2 ≤ d ∧ n.dot t.p3 ≤ d := by
    intro n d h t ht'
    have g := hc t ht'
    simp only [Tri3.dirEdges, List.mem_cons, List.not_mem_nil, or_false, forall_eq_or_imp, forall_eq] at g
    obtain ⟨⟨a1, b1, c1⟩, ⟨a2, b2, c2⟩, ⟨a3, b3, c3⟩⟩ := g
    exact ⟨h _ _ _ a1 b1 c1, h _ _ _ a2 b2 c2, h _ _ _ a3 b3 c3⟩
  have x1 := hb ⟨1, 0, 0⟩ (x / 2) (by rintro a b c (rfl | rfl) - - <;> simp only [P3.dot] <;> linarith)
  have x2 := hb ⟨-1, 0, 0⟩ (x / 2) (by rintro a b c (rfl | rfl) - - <;> simp only [P3.dot] <;> linarith)
  have y1 := hb ⟨0, 1, 0⟩ (y / 2) (by rintro a b c - (rfl | rfl) - <;> simp only [P3.dot] <;> linarith)
  have y2 := hb ⟨0, -1, 0⟩ (y / 2) (by rintro a b c - (rfl | rfl) - <;> simp only [P3.dot] <;> linarith)
  have z1 := hb ⟨0, 0, 1⟩ (z / 2) (by rintro a b c - - (rfl | rfl) <;> simp only [P3.dot] <;> linarith)
  have z2 := hb ⟨0, 0, -1⟩ (z / 2) (by rintro a b c - - (rfl | rfl) <;> simp only [P3.dot] <;> linarith)
  have hx2 : 0 < x / 2 := by positivity
  have hy2 : 0 < y / 2 := by positivity
  have hz2 : 0 < z / 2 := by positivity
  generalize hT : r'.triangles = T at x1 x2 y1 y2 z1 z2 ⊢
  intro t ht'
  rw [← hT, ht] at ht'
  simp only [List.mem_cons, List.not_mem_nil, or_false] at ht'
  rcases ht' with rfl | rfl | rfl | rfl | rfl | rfl | rfl | rfl | rfl | rfl | rfl | rfl
  · exact ⟨_, _, hz2, ⟨by simp [P3.dot], by simp [P3.dot], by simp [P3.dot]⟩, z1⟩
  · exact ⟨_, _, hz2, ⟨by simp [P3.dot], by simp [P3.dot], by simp [P3.dot]⟩, z1⟩
  · exact ⟨_, _, hz2, ⟨by simp [P3.dot], by simp [P3.dot], by simp [P3.dot]⟩, z2⟩
  · exact ⟨_, _, hz2, ⟨by simp [P3.dot], by simp [P3.dot], by simp [P3.dot]⟩, z2⟩
  · exact ⟨_, _, hy2, ⟨by simp [P3.dot], by simp [P3.dot], by simp [P3.dot]⟩, y1⟩
  · exact ⟨_, _, hy2, ⟨by simp [P3.dot], by simp [P3.dot], by simp [P3.dot]⟩, y1⟩
  · exact ⟨_, _, hy2, ⟨by simp [P3.dot], by simp [P3.dot], by simp [P3.dot]⟩, y2⟩
  · exact ⟨_, _, hy2, ⟨by simp [P3.dot], by simp [P3.dot], by simp [P3.dot]⟩, y2⟩
  · exact ⟨_, _, hx2, ⟨by simp [P3.dot], by simp [P3.dot], by simp [P3.dot]⟩, x2⟩
  · exact ⟨_, _, hx2, ⟨by simp [P3.dot], by simp [P3.dot], by simp [P3.dot]⟩, x2⟩
  · exact ⟨_, _, hx2, ⟨by simp [P3.dot], by simp [P3.dot], by simp [P3.dot]⟩, x1⟩
  · exact ⟨_, _, hx2, ⟨by simp [P3.dot], by simp [P3.dot], by simp [P3.dot]⟩, x1⟩

/-- **C121** octahedron -/
theorem octahedron_convex {s : K} (hs : 0 < s) (m : Mesh K) :
    ∃ r, createOctahedron s m = some r ∧ ConvexOutward r.triangles ∧ AroundOrigin r.triangles := by
  obtain ⟨r, hr, -, ht⟩ := octa_tris s m
  obtain ⟨r', hr', -, -, -, ho, -⟩ := octahedron_spec s m
  obtain rfl : r' = r := Option.some.inj (hr'.symm.trans hr)
  have h3 : 0 < s ^ 3 := by positivity
  refine ⟨r', hr, convex_of_corners ?_, fun t h => by rw [ho t h]; positivity⟩
  rw [ht]
  simp only [List.mem_cons, List.not_mem_nil, or_false, forall_eq_or_imp, forall_eq, Tri3.orthogonal,
    P3.dot, P3.cross, P3.sub_x, P3.sub_y, P3.sub_z]
  refine ⟨?_, ?_, ?_, ?_, ?_, ?_, ?_, ?_⟩ <;> refine ⟨?_, ?_, ?_, ?_, ?_, ?_, ?_, ?_⟩ <;> refine ⟨?_, ?_, ?_⟩ <;> linarith

end

set_option maxHeartbeats 2000000 in
/-- **C121** icosahedron -/
theorem icosahedron_convex {s : ℝ} (hs : 0 < s) (m : Mesh ℝ) :
    ∃ r, createIcosahedron s m = some r ∧ ConvexOutward r.triangles ∧ AroundOrigin r.triangles := by
  obtain ⟨r, hr, -, ht⟩ := icosa_tris s m
  obtain ⟨r', hr', -, -, -, ho, -⟩ := icosahedron_spec s m
  obtain rfl : r' = r := Option.some.inj (hr'.symm.trans hr)
  have h5 : Real.sqrt 5 ^ 2 = 5 := Real.sq_sqrt (by norm_num)
  have h2 : 2 ≤ Real.sqrt 5 := Real.le_sqrt_of_sq_le (by norm_num)
  have h3 : Real.sqrt 5 ≤ 3 := Real.sqrt_le_iff.2 (by norm_num)
  generalize Real.sqrt 5 = q at *
  have e5 : q ^ 2 * s = 5 * s := by rw [h5]
  have b2 : 2 * s ≤ q * s := mul_le_mul_of_nonneg_right h2 hs.le
  have b3 : q * s ≤ 3 * s := mul_le_mul_of_nonneg_right h3 hs.le
  have hor : AroundOrigin r'.triangles := fun t h => by
    rw [ho t h]; exact mul_pos (by linarith) (by positivity)
  refine ⟨r', hr, convex_of_planes hor ?_, hor⟩
  clear hor
  have hd : 0 < ((q + 1) / 2 * s) := by nlinarith
  generalize hT : r'.triangles = T at *
  clear ho
  have hb : ∀ n : P3 ℝ, (∀ p ∈ ([⟨s, 0, (q - 1) / 2 * s⟩, ⟨s, 0, -((q - 1) / 2 * s)⟩, ⟨-s, 0, (q - 1) / 2 * s⟩, ⟨-s, 0, -((q - 1) / 2 * s)⟩, ⟨0, (q - 1) / 2 * s, s⟩, ⟨0, -((q - 1) / 2 * s), s⟩, ⟨0, (q - 1) / 2 * s, -s⟩, ⟨0, -((q - 1) / 2 * s), -s⟩, ⟨(q - 1) / 2 * s, s, 0⟩, ⟨-((q - 1) / 2 * s), s, 0⟩, ⟨(q - 1) / 2 * s, -s, 0⟩, ⟨-((q - 1) / 2 * s), -s, 0⟩] : List (P3 ℝ)), n.dot p ≤ ((q + 1) / 2 * s)) →
      ∀ t ∈ T, n.dot t.p1 ≤ ((q + 1) / 2 * s) ∧ n.dot t.p2 ≤ ((q + 1) / 2 * s) ∧ n.dot t.p3 ≤ ((q + 1) / 2 * s) := by
    intro n h t ht'
    simp only [List.mem_cons, List.not_mem_nil, or_false, forall_eq_or_imp, forall_eq] at h
    rw [ht] at ht'
    simp only [List.mem_cons, List.not_mem_nil, or_false] at ht'
    rcases ht' with rfl | rfl | rfl | rfl | rfl | rfl | rfl | rfl | rfl | rfl | rfl | rfl | rfl | rfl | rfl | rfl | rfl | rfl | rfl | rfl <;> simp only [h, and_self]
  have n0 := hb ⟨1, 1, 1⟩ (by
    simp only [List.mem_cons, List.not_mem_nil, or_false, forall_eq_or_imp, forall_eq, P3.dot]
    refine ⟨?_, ?_, ?_, ?_, ?_, ?_, ?_, ?_, ?_, ?_, ?_, ?_⟩ <;> linarith only [e5, b2, b3, hs])
  have n1 := hb ⟨1, 1, -1⟩ (by
    simp only [List.mem_cons, List.not_mem_nil, or_false, forall_eq_or_imp, forall_eq, P3.dot]
    refine ⟨?_, ?_, ?_, ?_, ?_, ?_, ?_, ?_, ?_, ?_, ?_, ?_⟩ <;> linarith only [e5, b2, b3, hs])
  have n2 := hb ⟨1, -1, 1⟩ (by
    simp only [List.mem_cons, List.not_mem_nil, or_false, forall_eq_or_imp, forall_eq, P3.dot]
    refine ⟨?_, ?_, ?_, ?_, ?_, ?_, ?_, ?_, ?_, ?_, ?_, ?_⟩ <;> linarith only [e5, b2, b3, hs])
  have n3 := hb ⟨1, -1, -1⟩ (by
    simp only [List.mem_cons, List.not_mem_nil, or_false, forall_eq_or_imp, forall_eq, P3.dot]
    refine ⟨?_, ?_, ?_, ?_, ?_, ?_, ?_, ?_, ?_, ?_, ?_, ?_⟩ <;> linarith only [e5, b2, b3, hs])
  have n4 := hb ⟨-1, 1, 1⟩ (by
    simp only [List.mem_cons, List.not_mem_nil, or_false, forall_eq_or_imp, forall_eq, P3.dot]
    refine ⟨?_, ?_, ?_, ?_, ?_, ?_, ?_, ?_, ?_, ?_, ?_, ?_⟩ <;> linarith only [e5, b2, b3, hs])
  have n5 := hb ⟨-1, 1, -1⟩ (by
    simp only [List.mem_cons, List.not_mem_nil, or_false, forall_eq_or_imp, forall_eq, P3.dot]
    refine ⟨?_, ?_, ?_, ?_, ?_, ?_, ?_, ?_, ?_, ?_, ?_, ?_⟩ <;> linarith only [e5, b2, b3, hs])
  have n6 := hb ⟨-1, -1, 1⟩ (by
    simp only [List.mem_cons, List.not_mem_nil, or_false, forall_eq_or_imp, forall_eq, P3.dot]
    refine ⟨?_, ?_, ?_, ?_, ?_, ?_, ?_, ?_, ?_, ?_, ?_, ?_⟩ <;> linarith only [e5, b2, b3, hs])
  have n7 := hb ⟨-1, -1, -1⟩ (by
    simp only [List.mem_cons, List.not_mem_nil, or_false, forall_eq_or_imp, forall_eq, P3.dot]
    refine ⟨?_, ?_, ?_, ?_, ?_, ?_, ?_, ?_, ?_, ?_, ?_, ?_⟩ <;> linarith only [e5, b2, b3, hs])
  have n8 := hb ⟨(q + 1) / 2, (q - 1) / 2, 0⟩ (by
    simp only [List.mem_cons, List.not_mem_nil, or_false, forall_eq_or_imp, forall_eq, P3.dot]
    refine ⟨?_, ?_, ?_, ?_, ?_, ?_, ?_, ?_, ?_, ?_, ?_, ?_⟩ <;> linarith only [e5, b2, b3, hs])
  have n9 := hb ⟨0, (q + 1) / 2, (q - 1) / 2⟩ (by
    simp only [List.mem_cons, List.not_mem_nil, or_false, forall_eq_or_imp, forall_eq, P3.dot]
    refine ⟨?_, ?_, ?_, ?_, ?_, ?_, ?_, ?_, ?_, ?_, ?_, ?_⟩ <;> linarith only [e5, b2, b3, hs])
  have n10 := hb ⟨(q - 1) / 2, 0, (q + 1) / 2⟩ (by
    simp only [List.mem_cons, List.not_mem_nil, or_false, forall_eq_or_imp, forall_eq, P3.dot]
    refine ⟨?_, ?_, ?_, ?_, ?_, ?_, ?_, ?_, ?_, ?_, ?_, ?_⟩ <;> linarith only [e5, b2, b3, hs])
  have n11 := hb ⟨(q + 1) / 2, -((q - 1) / 2), 0⟩ (by
    simp only [List.mem_cons, List.not_mem_nil, or_false, forall_eq_or_imp, forall_eq, P3.dot]
    refine ⟨?_, ?_, ?_, ?_, ?_, ?_, ?_, ?_, ?_, ?_, ?_, ?_⟩ <;> linarith only [e5, b2, b3, hs])
  have n12 := hb ⟨0, (q + 1) / 2, -((q - 1) / 2)⟩ (by
    simp only [List.mem_cons, List.not_mem_nil, or_false, forall_eq_or_imp, forall_eq, P3.dot]
    refine ⟨?_, ?_, ?_, ?_, ?_, ?_, ?_, ?_, ?_, ?_, ?_, ?_⟩ <;> linarith only [e5, b2, b3, hs])
  have n13 := hb ⟨-((q - 1) / 2), 0, (q + 1) / 2⟩ (by
    simp only [List.mem_cons, List.not_mem_nil, or_false, forall_eq_or_imp, forall_eq, P3.dot]
    refine ⟨?_, ?_, ?_, ?_, ?_, ?_, ?_, ?_, ?_, ?_, ?_, ?_⟩ <;> linarith only [e5, b2, b3, hs])
  have n14 := hb ⟨-((q + 1) / 2), (q - 1) / 2, 0⟩ (by
    simp only [List.mem_cons, List.not_mem_nil, or_false, forall_eq_or_imp, forall_eq, P3.dot]
    refine ⟨?_, ?_, ?_, ?_, ?_, ?_, ?_, ?_, ?_, ?_, ?_, ?_⟩ <;> linarith only [e5, b2, b3, hs])
  have n15 := hb ⟨0, -((q + 1) / 2), (q - 1) / 2⟩ (by
    simp only [List.mem_cons, List.not_mem_nil, or_false, forall_eq_or_imp, forall_eq, P3.dot]
    refine ⟨?_, ?_, ?_, ?_, ?_, ?_, ?_, ?_, ?_, ?_, ?_, ?_⟩ <;> linarith only [e5, b2, b3, hs])
  have n16 := hb ⟨(q - 1) / 2, 0, -((q + 1) / 2)⟩ (by
    simp only [List.mem_cons, List.not_mem_nil, or_false, forall_eq_or_imp, forall_eq, P3.dot]
    refine ⟨?_, ?_, ?_, ?_, ?_, ?_, ?_, ?_, ?_, ?_, ?_, ?_⟩ <;> linarith only [e5, b2, b3, hs])
  have n17 := hb ⟨-((q + 1) / 2), -((q - 1) / 2), 0⟩ (by
    simp only [List.mem_cons, List.not_mem_nil, or_false, forall_eq_or_imp, forall_eq, P3.dot]
    refine ⟨?_, ?_, ?_, ?_, ?_, ?_, ?_, ?_, ?_, ?_, ?_, ?_⟩ <;> linarith only [e5, b2, b3, hs])
  have n18 := hb ⟨0, -((q + 1) / 2), -((q - 1) / 2)⟩ (by
    simp only [List.mem_cons, List.not_mem_nil, or_false, forall_eq_or_imp, forall_eq, P3.dot]
    refine ⟨?_, ?_, ?_, ?_, ?_, ?_, ?_, ?_, ?_, ?_, ?_, ?_⟩ <;> linarith only [e5, b2, b3, hs])
  have n19 := hb ⟨-((q - 1) / 2), 0, -((q + 1) / 2)⟩ (by
    simp only [List.mem_cons, List.not_mem_nil, or_false, forall_eq_or_imp, forall_eq, P3.dot]
    refine ⟨?_, ?_, ?_, ?_, ?_, ?_, ?_, ?_, ?_, ?_, ?_, ?_⟩ <;> linarith only [e5, b2, b3, hs])
  clear hb
  intro t ht'
  rw [ht] at ht'
  clear ht hr hr'
  simp only [List.mem_cons, List.not_mem_nil, or_false] at ht'
  rcases ht' with rfl | rfl | rfl | rfl | rfl | rfl | rfl | rfl | rfl | rfl | rfl | rfl | rfl | rfl | rfl | rfl | rfl | rfl | rfl | rfl
  · refine ⟨_, _, hd, ?_, n8⟩
    clear * - e5
    constructor <;> simp only [P3.dot] <;> linarith only [e5]
  · refine ⟨_, _, hd, ?_, n11⟩
    clear * - e5
    constructor <;> simp only [P3.dot] <;> linarith only [e5]
  · refine ⟨_, _, hd, ?_, n17⟩
    clear * - e5
    constructor <;> simp only [P3.dot] <;> linarith only [e5]
  · refine ⟨_, _, hd, ?_, n14⟩
    clear * - e5
    constructor <;> simp only [P3.dot] <;> linarith only [e5]
  · refine ⟨_, _, hd, ?_, n10⟩
    clear * - e5
    constructor <;> simp only [P3.dot] <;> linarith only [e5]
  · refine ⟨_, _, hd, ?_, n13⟩
    clear * - e5
    constructor <;> simp only [P3.dot] <;> linarith only [e5]
  · refine ⟨_, _, hd, ?_, n19⟩
    clear * - e5
    constructor <;> simp only [P3.dot] <;> linarith only [e5]
  · refine ⟨_, _, hd, ?_, n16⟩
    clear * - e5
    constructor <;> simp only [P3.dot] <;> linarith only [e5]
  · refine ⟨_, _, hd, ?_, n9⟩
    clear * - e5
    constructor <;> simp only [P3.dot] <;> linarith only [e5]
  · refine ⟨_, _, hd, ?_, n12⟩
    clear * - e5
    constructor <;> simp only [P3.dot] <;> linarith only [e5]
  · refine ⟨_, _, hd, ?_, n18⟩
    clear * - e5
    constructor <;> simp only [P3.dot] <;> linarith only [e5]
  · refine ⟨_, _, hd, ?_, n15⟩
    clear * - e5
    constructor <;> simp only [P3.dot] <;> linarith only [e5]
  · refine ⟨_, _, hd, ?_, n0⟩
    clear * - e5
    constructor <;> simp only [P3.dot] <;> linarith only [e5]
  · refine ⟨_, _, hd, ?_, n7⟩
    clear * - e5
    constructor <;> simp only [P3.dot] <;> linarith only [e5]
  · refine ⟨_, _, hd, ?_, n2⟩
    clear * - e5
    constructor <;> simp only [P3.dot] <;> linarith only [e5]
  · refine ⟨_, _, hd, ?_, n5⟩
    clear * - e5
    constructor <;> simp only [P3.dot] <;> linarith only [e5]
  · refine ⟨_, _, hd, ?_, n1⟩
    clear * - e5
    constructor <;> simp only [P3.dot] <;> linarith only [e5]
  · refine ⟨_, _, hd, ?_, n6⟩
    clear * - e5
    constructor <;> simp only [P3.dot] <;> linarith only [e5]
  · refine ⟨_, _, hd, ?_, n4⟩
    clear * - e5
    constructor <;> simp only [P3.dot] <;> linarith only [e5]
  · refine ⟨_, _, hd, ?_, n3⟩
    clear * - e5
    constructor <;> simp only [P3.dot] <;> linarith only [e5]

set_option maxHeartbeats 2000000 in
/-- **C121** dodecahedron -/
theorem dodecahedron_convex {s : ℝ} (hs : 0 < s) (m : Mesh ℝ) :
    ∃ r, createDodecahedron s m = some r ∧ ConvexOutward r.triangles ∧ AroundOrigin r.triangles := by
  obtain ⟨r, hr, -, ht⟩ := dodeca_tris s m
  obtain ⟨r', hr', -, -, -, ho, -⟩ := dodecahedron_spec s m
  obtain rfl : r' = r := Option.some.inj (hr'.symm.trans hr)
  have h5 : Real.sqrt 5 ^ 2 = 5 := Real.sq_sqrt (by norm_num)
  have h2 : 2 ≤ Real.sqrt 5 := Real.le_sqrt_of_sq_le (by norm_num)
  have h3 : Real.sqrt 5 ≤ 3 := Real.sqrt_le_iff.2 (by norm_num)
  have hinv : 1 / ((Real.sqrt 5 + 1) / 2) = (Real.sqrt 5 - 1) / 2 := by
    field_simp; linear_combination -h5
  rw [hinv] at ht
  clear hinv
  generalize Real.sqrt 5 = q at *
  have e5 : q ^ 2 * s = 5 * s := by rw [h5]
  have b2 : 2 * s ≤ q * s := mul_le_mul_of_nonneg_right h2 hs.le
  have b3 : q * s ≤ 3 * s := mul_le_mul_of_nonneg_right h3 hs.le
  have hor : AroundOrigin r'.triangles := fun t h => by
    rcases ho t h with e | e <;> rw [e] <;> [positivity; exact mul_pos (by linarith) (by positivity)]
  refine ⟨r', hr, convex_of_planes hor ?_, hor⟩
  clear hor
  have hd : 0 < ((q + 3) / 2 * s) := by nlinarith
  generalize hT : r'.triangles = T at *
  clear ho
  have hb : ∀ n : P3 ℝ, (∀ p ∈ ([⟨s, s, s⟩, ⟨s, s, -s⟩, ⟨s, -s, s⟩, ⟨s, -s, -s⟩, ⟨-s, s, s⟩, ⟨-s, s, -s⟩, ⟨-s, -s, s⟩, ⟨-s, -s, -s⟩, ⟨0, (q + 1) / 2 * s, (q - 1) / 2 * s⟩, ⟨0, (q + 1) / 2 * s, -((q - 1) / 2 * s)⟩, ⟨0, -((q + 1) / 2 * s), (q - 1) / 2 * s⟩, ⟨0, -((q + 1) / 2 * s), -((q - 1) / 2 * s)⟩, ⟨(q - 1) / 2 * s, 0, (q + 1) / 2 * s⟩, ⟨(q - 1) / 2 * s, 0, -((q + 1) / 2 * s)⟩, ⟨-((q - 1) / 2 * s), 0, (q + 1) / 2 * s⟩, ⟨-((q - 1) / 2 * s), 0, -((q + 1) / 2 * s)⟩, ⟨(q + 1) / 2 * s, (q - 1) / 2 * s, 0⟩, ⟨(q + 1) / 2 * s, -((q - 1) / 2 * s), 0⟩, ⟨-((q + 1) / 2 * s), (q - 1) / 2 * s, 0⟩, ⟨-((q + 1) / 2 * s), -((q - 1) / 2 * s), 0⟩] : List (P3 ℝ)), n.dot p ≤ ((q + 3) / 2 * s)) →
      ∀ t ∈ T, n.dot t.p1 ≤ ((q + 3) / 2 * s) ∧ n.dot t.p2 ≤ ((q + 3) / 2 * s) ∧ n.dot t.p3 ≤ ((q + 3) / 2 * s) := by
    intro n h t ht'
    simp only [List.mem_cons, List.not_mem_nil, or_false, forall_eq_or_imp, forall_eq] at h
    rw [ht] at ht'
    simp only [List.mem_cons, List.not_mem_nil, or_false] at ht'
    rcases ht' with rfl | rfl | rfl | rfl | rfl | rfl | rfl | rfl | rfl | rfl | rfl | rfl | rfl | rfl | rfl | rfl | rfl | rfl | rfl | rfl | rfl | rfl | rfl | rfl | rfl | rfl | rfl | rfl | rfl | rfl | rfl | rfl | rfl | rfl | rfl | rfl <;> simp only [h, and_self]
  have n0 := hb ⟨0, 1, (q + 1) / 2⟩ (by
    simp only [List.mem_cons, List.not_mem_nil, or_false, forall_eq_or_imp, forall_eq, P3.dot]
    refine ⟨?_, ?_, ?_, ?_, ?_, ?_, ?_, ?_, ?_, ?_, ?_, ?_, ?_, ?_, ?_, ?_, ?_, ?_, ?_, ?_⟩ <;> linarith only [e5, b2, b3, hs])
  have n1 := hb ⟨(q + 1) / 2, 0, 1⟩ (by
    simp only [List.mem_cons, List.not_mem_nil, or_false, forall_eq_or_imp, forall_eq, P3.dot]
    refine ⟨?_, ?_, ?_, ?_, ?_, ?_, ?_, ?_, ?_, ?_, ?_, ?_, ?_, ?_, ?_, ?_, ?_, ?_, ?_, ?_⟩ <;> linarith only [e5, b2, b3, hs])
  have n2 := hb ⟨1, (q + 1) / 2, 0⟩ (by
    simp only [List.mem_cons, List.not_mem_nil, or_false, forall_eq_or_imp, forall_eq, P3.dot]
    refine ⟨?_, ?_, ?_, ?_, ?_, ?_, ?_, ?_, ?_, ?_, ?_, ?_, ?_, ?_, ?_, ?_, ?_, ?_, ?_, ?_⟩ <;> linarith only [e5, b2, b3, hs])
  have n3 := hb ⟨0, 1, -((q + 1) / 2)⟩ (by
    simp only [List.mem_cons, List.not_mem_nil, or_false, forall_eq_or_imp, forall_eq, P3.dot]
    refine ⟨?_, ?_, ?_, ?_, ?_, ?_, ?_, ?_, ?_, ?_, ?_, ?_, ?_, ?_, ?_, ?_, ?_, ?_, ?_, ?_⟩ <;> linarith only [e5, b2, b3, hs])
  have n4 := hb ⟨-((q + 1) / 2), 0, 1⟩ (by
    simp only [List.mem_cons, List.not_mem_nil, or_false, forall_eq_or_imp, forall_eq, P3.dot]
    refine ⟨?_, ?_, ?_, ?_, ?_, ?_, ?_, ?_, ?_, ?_, ?_, ?_, ?_, ?_, ?_, ?_, ?_, ?_, ?_, ?_⟩ <;> linarith only [e5, b2, b3, hs])
  have n5 := hb ⟨1, -((q + 1) / 2), 0⟩ (by
    simp only [List.mem_cons, List.not_mem_nil, or_false, forall_eq_or_imp, forall_eq, P3.dot]
    refine ⟨?_, ?_, ?_, ?_, ?_, ?_, ?_, ?_, ?_, ?_, ?_, ?_, ?_, ?_, ?_, ?_, ?_, ?_, ?_, ?_⟩ <;> linarith only [e5, b2, b3, hs])
  have n6 := hb ⟨0, -1, (q + 1) / 2⟩ (by
    simp only [List.mem_cons, List.not_mem_nil, or_false, forall_eq_or_imp, forall_eq, P3.dot]
    refine ⟨?_, ?_, ?_, ?_, ?_, ?_, ?_, ?_, ?_, ?_, ?_, ?_, ?_, ?_, ?_, ?_, ?_, ?_, ?_, ?_⟩ <;> linarith only [e5, b2, b3, hs])
  have n7 := hb ⟨(q + 1) / 2, 0, -1⟩ (by
    simp only [List.mem_cons, List.not_mem_nil, or_false, forall_eq_or_imp, forall_eq, P3.dot]
    refine ⟨?_, ?_, ?_, ?_, ?_, ?_, ?_, ?_, ?_, ?_, ?_, ?_, ?_, ?_, ?_, ?_, ?_, ?_, ?_, ?_⟩ <;> linarith only [e5, b2, b3, hs])
  have n8 := hb ⟨-1, (q + 1) / 2, 0⟩ (by
    simp only [List.mem_cons, List.not_mem_nil, or_false, forall_eq_or_imp, forall_eq, P3.dot]
    refine ⟨?_, ?_, ?_, ?_, ?_, ?_, ?_, ?_, ?_, ?_, ?_, ?_, ?_, ?_, ?_, ?_, ?_, ?_, ?_, ?_⟩ <;> linarith only [e5, b2, b3, hs])
  have n9 := hb ⟨0, -1, -((q + 1) / 2)⟩ (by
    simp only [List.mem_cons, List.not_mem_nil, or_false, forall_eq_or_imp, forall_eq, P3.dot]
    refine ⟨?_, ?_, ?_, ?_, ?_, ?_, ?_, ?_, ?_, ?_, ?_, ?_, ?_, ?_, ?_, ?_, ?_, ?_, ?_, ?_⟩ <;> linarith only [e5, b2, b3, hs])
  have n10 := hb ⟨-((q + 1) / 2), 0, -1⟩ (by
    simp only [List.mem_cons, List.not_mem_nil, or_false, forall_eq_or_imp, forall_eq, P3.dot]
    refine ⟨?_, ?_, ?_, ?_, ?_, ?_, ?_, ?_, ?_, ?_, ?_, ?_, ?_, ?_, ?_, ?_, ?_, ?_, ?_, ?_⟩ <;> linarith only [e5, b2, b3, hs])
  have n11 := hb ⟨-1, -((q + 1) / 2), 0⟩ (by
    simp only [List.mem_cons, List.not_mem_nil, or_false, forall_eq_or_imp, forall_eq, P3.dot]
    refine ⟨?_, ?_, ?_, ?_, ?_, ?_, ?_, ?_, ?_, ?_, ?_, ?_, ?_, ?_, ?_, ?_, ?_, ?_, ?_, ?_⟩ <;> linarith only [e5, b2, b3, hs])
  clear hb
  intro t ht'
  rw [ht] at ht'
  clear ht hr hr'
  simp only [List.mem_cons, List.not_mem_nil, or_false] at ht'
  rcases ht' with rfl | rfl | rfl | rfl | rfl | rfl | rfl | rfl | rfl | rfl | rfl | rfl | rfl | rfl | rfl | rfl | rfl | rfl | rfl | rfl | rfl | rfl | rfl | rfl | rfl | rfl | rfl | rfl | rfl | rfl | rfl | rfl | rfl | rfl | rfl | rfl
  · refine ⟨_, _, hd, ?_, n1⟩
    clear * - e5
    constructor <;> simp only [P3.dot] <;> linarith only [e5]
  · refine ⟨_, _, hd, ?_, n1⟩
    clear * - e5
    constructor <;> simp only [P3.dot] <;> linarith only [e5]
  · refine ⟨_, _, hd, ?_, n1⟩
    clear * - e5
    constructor <;> simp only [P3.dot] <;> linarith only [e5]
  · refine ⟨_, _, hd, ?_, n10⟩
    clear * - e5
    constructor <;> simp only [P3.dot] <;> linarith only [e5]
  · refine ⟨_, _, hd, ?_, n10⟩
    clear * - e5
    constructor <;> simp only [P3.dot] <;> linarith only [e5]
  · refine ⟨_, _, hd, ?_, n10⟩
    clear * - e5
    constructor <;> simp only [P3.dot] <;> linarith only [e5]
  · refine ⟨_, _, hd, ?_, n0⟩
    clear * - e5
    constructor <;> simp only [P3.dot] <;> linarith only [e5]
  · refine ⟨_, _, hd, ?_, n0⟩
    clear * - e5
    constructor <;> simp only [P3.dot] <;> linarith only [e5]
  · refine ⟨_, _, hd, ?_, n0⟩
    clear * - e5
    constructor <;> simp only [P3.dot] <;> linarith only [e5]
  · refine ⟨_, _, hd, ?_, n9⟩
    clear * - e5
    constructor <;> simp only [P3.dot] <;> linarith only [e5]
  · refine ⟨_, _, hd, ?_, n9⟩
    clear * - e5
    constructor <;> simp only [P3.dot] <;> linarith only [e5]
  · refine ⟨_, _, hd, ?_, n9⟩
    clear * - e5
    constructor <;> simp only [P3.dot] <;> linarith only [e5]
  · refine ⟨_, _, hd, ?_, n6⟩
    clear * - e5
    constructor <;> simp only [P3.dot] <;> linarith only [e5]
  · refine ⟨_, _, hd, ?_, n6⟩
    clear * - e5
    constructor <;> simp only [P3.dot] <;> linarith only [e5]
  · refine ⟨_, _, hd, ?_, n6⟩
    clear * - e5
    constructor <;> simp only [P3.dot] <;> linarith only [e5]
  · refine ⟨_, _, hd, ?_, n3⟩
    clear * - e5
    constructor <;> simp only [P3.dot] <;> linarith only [e5]
  · refine ⟨_, _, hd, ?_, n3⟩
    clear * - e5
    constructor <;> simp only [P3.dot] <;> linarith only [e5]
  · refine ⟨_, _, hd, ?_, n3⟩
    clear * - e5
    constructor <;> simp only [P3.dot] <;> linarith only [e5]
  · refine ⟨_, _, hd, ?_, n4⟩
    clear * - e5
    constructor <;> simp only [P3.dot] <;> linarith only [e5]
  · refine ⟨_, _, hd, ?_, n4⟩
    clear * - e5
    constructor <;> simp only [P3.dot] <;> linarith only [e5]
  · refine ⟨_, _, hd, ?_, n4⟩
    clear * - e5
    constructor <;> simp only [P3.dot] <;> linarith only [e5]
  · refine ⟨_, _, hd, ?_, n7⟩
    clear * - e5
    constructor <;> simp only [P3.dot] <;> linarith only [e5]
  · refine ⟨_, _, hd, ?_, n7⟩
    clear * - e5
    constructor <;> simp only [P3.dot] <;> linarith only [e5]
  · refine ⟨_, _, hd, ?_, n7⟩
    clear * - e5
    constructor <;> simp only [P3.dot] <;> linarith only [e5]
  · refine ⟨_, _, hd, ?_, n2⟩
    clear * - e5
    constructor <;> simp only [P3.dot] <;> linarith only [e5]
  · refine ⟨_, _, hd, ?_, n2⟩
    clear * - e5
    constructor <;> simp only [P3.dot] <;> linarith only [e5]
  · refine ⟨_, _, hd, ?_, n2⟩
    clear * - e5
    constructor <;> simp only [P3.dot] <;> linarith only [e5]
  · refine ⟨_, _, hd, ?_, n11⟩
    clear * - e5
    constructor <;> simp only [P3.dot] <;> linarith only [e5]
  · refine ⟨_, _, hd, ?_, n11⟩
    clear * - e5
    constructor <;> simp only [P3.dot] <;> linarith only [e5]
  · refine ⟨_, _, hd, ?_, n11⟩
    clear * - e5
    constructor <;> simp only [P3.dot] <;> linarith only [e5]
  · refine ⟨_, _, hd, ?_, n8⟩
    clear * - e5
    constructor <;> simp only [P3.dot] <;> linarith only [e5]
  · refine ⟨_, _, hd, ?_, n8⟩
    clear * - e5
    constructor <;> simp only [P3.dot] <;> linarith only [e5]
  · refine ⟨_, _, hd, ?_, n8⟩
    clear * - e5
    constructor <;> simp only [P3.dot] <;> linarith only [e5]
  · refine ⟨_, _, hd, ?_, n5⟩
    clear * - e5
    constructor <;> simp only [P3.dot] <;> linarith only [e5]
  · refine ⟨_, _, hd, ?_, n5⟩
    clear * - e5
    constructor <;> simp only [P3.dot] <;> linarith only [e5]
  · refine ⟨_, _, hd, ?_, n5⟩
    clear * - e5
    constructor <;> simp only [P3.dot] <;> linarith only [e5]

/-- a box of 2 × 3 × 4: the corner (1, 3/2, 2) is behind or on each of the twelve triangles -/
example : ((createBox (2 : ℚ) 3 4 Mesh.new).any fun r => r.triangles.length = 12 ∧
    ∀ t ∈ r.triangles, ((⟨1, 3 / 2, 2⟩ : P3 ℚ) - t.p1).dot t.orthogonal ≤ 0) = true := by
  decide +kernel

/-- turning one triangle of the box round breaks the property -/
example : ¬ ConvexOutward [(⟨⟨1, 0, 0⟩, ⟨0, 1, 0⟩, ⟨0, 0, 1⟩⟩ : Tri3 ℚ), ⟨⟨0, 0, 0⟩, ⟨1, 0, 0⟩, ⟨0, 1, 0⟩⟩] := by
  intro h
  have := h _ (List.mem_cons_of_mem _ (List.mem_cons_self ..)) _ (List.mem_cons_self ..) ⟨0, 0, 1⟩
    ⟨0, 0, 1, by norm_num, by norm_num, by norm_num, by norm_num, by decide +kernel⟩
  revert this
  decide +kernel

example : ∃ r, createDodecahedron (3 : ℝ) Mesh.new = some r ∧ ConvexOutward r.triangles ∧ AroundOrigin r.triangles :=
  dodecahedron_convex (by norm_num) _

end Factory
end CAD
