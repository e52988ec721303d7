import Verif.Lemmas.Geometry
import Mathlib.Data.List.Perm.Basic
import Mathlib.Tactic.NormNum

/-! Properties C28, C29: bounding boxes. -/

namespace CAD
variable {K : Type*} [Field K] [LinearOrder K]

namespace BBox

omit [Field K] in
theorem foldl_spec (ps : List (P3 K)) {b : BBox K} (h : b.Valid) :
    let r := ps.foldl add b
    ((r.lo.x ≤ b.lo.x ∧ r.lo.y ≤ b.lo.y ∧ r.lo.z ≤ b.lo.z) ∧
     (b.hi.x ≤ r.hi.x ∧ b.hi.y ≤ r.hi.y ∧ b.hi.z ≤ r.hi.z)) ∧
    (∀ p ∈ ps, InBox r p) ∧
    ((r.lo.x = b.lo.x ∨ ∃ p ∈ ps, p.x = r.lo.x) ∧ (r.lo.y = b.lo.y ∨ ∃ p ∈ ps, p.y = r.lo.y) ∧
     (r.lo.z = b.lo.z ∨ ∃ p ∈ ps, p.z = r.lo.z) ∧ (r.hi.x = b.hi.x ∨ ∃ p ∈ ps, p.x = r.hi.x) ∧
     (r.hi.y = b.hi.y ∨ ∃ p ∈ ps, p.y = r.hi.y) ∧ (r.hi.z = b.hi.z ∨ ∃ p ∈ ps, p.z = r.hi.z)) := by
  induction ps generalizing b with
  | nil => simp
  | cons p ps ih =>
    have hv := add_valid (Or.inr h) p
    obtain ⟨⟨⟨a1, a2, a3⟩, ⟨a4, a5, a6⟩⟩, hb, c1, c2, c3, c4, c5, c6⟩ := ih hv
    rw [add_of_valid h] at a1 a2 a3 a4 a5 a6 c1 c2 c3 c4 c5 c6 hb
    simp only [List.foldl_cons, add_of_valid h] at *
    refine ⟨⟨⟨a1.trans (min_le_left _ _), a2.trans (min_le_left _ _), a3.trans (min_le_left _ _)⟩,
      (le_max_left _ _).trans a4, (le_max_left _ _).trans a5, (le_max_left _ _).trans a6⟩, ?_, ?_⟩
    · intro q hq
      rcases List.mem_cons.1 hq with rfl | hq
      · exact ⟨⟨a1.trans (min_le_right _ _), (le_max_right _ _).trans a4⟩,
          ⟨a2.trans (min_le_right _ _), (le_max_right _ _).trans a5⟩,
          ⟨a3.trans (min_le_right _ _), (le_max_right _ _).trans a6⟩⟩
      · exact hb q hq
    · have key : ∀ (f : P3 K → K) (m b0 : K), (m = min b0 (f p) ∨ m = max b0 (f p) ∨
          ∃ q ∈ ps, f q = m) → (m = b0 ∨ ∃ q ∈ p :: ps, f q = m) := by
        intro f m b0 hm
        rcases hm with hm | hm | ⟨q, hq, hm⟩
        · rcases min_choice b0 (f p) with e | e
          · left; rw [hm, e]
          · right; exact ⟨p, List.mem_cons_self, by rw [hm, e]⟩
        · rcases max_choice b0 (f p) with e | e
          · left; rw [hm, e]
          · right; exact ⟨p, List.mem_cons_self, by rw [hm, e]⟩
        · right; exact ⟨q, List.mem_cons_of_mem _ hq, hm⟩
      refine ⟨key P3.x _ _ ?_, key P3.y _ _ ?_, key P3.z _ _ ?_, key P3.x _ _ ?_, key P3.y _ _ ?_,
        key P3.z _ _ ?_⟩
      · rcases c1 with c | c; exacts [Or.inl c, Or.inr (Or.inr c)]
      · rcases c2 with c | c; exacts [Or.inl c, Or.inr (Or.inr c)]
      · rcases c3 with c | c; exacts [Or.inl c, Or.inr (Or.inr c)]
      · rcases c4 with c | c; exacts [Or.inr (Or.inl c), Or.inr (Or.inr c)]
      · rcases c5 with c | c; exacts [Or.inr (Or.inl c), Or.inr (Or.inr c)]
      · rcases c6 with c | c; exacts [Or.inr (Or.inl c), Or.inr (Or.inr c)]

theorem empty_add (p : P3 K) : (BBox.empty : BBox K).add p = ⟨true, p, p⟩ := rfl

omit [Field K] in
theorem single_valid (p : P3 K) : (⟨true, p, p⟩ : BBox K).Valid :=
  ⟨rfl, le_refl _, le_refl _, le_refl _⟩

end BBox

/-- the box obtained by adding the points of `ps` one after the other to a fresh box -/
def boxOf (ps : List (P3 K)) : BBox K := ps.foldl BBox.add BBox.empty

/-- C28: the box contains every point that was added. -/
theorem bbox_contains_all (ps : List (P3 K)) : ∀ p ∈ ps, InBox (boxOf ps) p := by
  cases ps with
  | nil => simp
  | cons q ps =>
    have h := BBox.foldl_spec ps (BBox.single_valid q)
    simp only [boxOf, List.foldl_cons, BBox.empty_add]
    intro p hp
    rcases List.mem_cons.1 hp with rfl | hp
    · exact ⟨⟨h.1.1.1, h.1.2.1⟩, ⟨h.1.1.2.1, h.1.2.2.1⟩, ⟨h.1.1.2.2, h.1.2.2.2⟩⟩
    · exact h.2.1 p hp

/-- C28: each of the six faces touches one of the added points. -/
theorem bbox_faces_touch (ps : List (P3 K)) (hne : ps ≠ []) :
    (∃ p ∈ ps, p.x = (boxOf ps).lo.x) ∧ (∃ p ∈ ps, p.y = (boxOf ps).lo.y) ∧
    (∃ p ∈ ps, p.z = (boxOf ps).lo.z) ∧ (∃ p ∈ ps, p.x = (boxOf ps).hi.x) ∧
    (∃ p ∈ ps, p.y = (boxOf ps).hi.y) ∧ (∃ p ∈ ps, p.z = (boxOf ps).hi.z) := by
  cases ps with
  | nil => exact absurd rfl hne
  | cons q ps =>
    have h := (BBox.foldl_spec ps (BBox.single_valid q)).2.2
    simp only [boxOf, List.foldl_cons, BBox.empty_add]
    obtain ⟨c1, c2, c3, c4, c5, c6⟩ := h
    have key : ∀ (f : P3 K → K) (m : K), (m = f q ∨ ∃ p ∈ ps, f p = m) →
        ∃ p ∈ q :: ps, f p = m := by
      rintro f m (e | ⟨p, hp, e⟩)
      · exact ⟨q, List.mem_cons_self, e.symm⟩
      · exact ⟨p, List.mem_cons_of_mem _ hp, e⟩
    exact ⟨key P3.x _ c1, key P3.y _ c2, key P3.z _ c3, key P3.x _ c4, key P3.y _ c5, key P3.z _ c6⟩

/-- C28: the box is contained in every box that contains the points (tightness). -/
theorem bbox_least (ps : List (P3 K)) (hne : ps ≠ []) (b : BBox K)
    (hb : ∀ p ∈ ps, InBox b p) : ∀ q, InBox (boxOf ps) q → InBox b q := by
  obtain ⟨⟨p1, m1, e1⟩, ⟨p2, m2, e2⟩, ⟨p3, m3, e3⟩, ⟨p4, m4, e4⟩, ⟨p5, m5, e5⟩, ⟨p6, m6, e6⟩⟩ :=
    bbox_faces_touch ps hne
  rintro q ⟨⟨h1, h2⟩, ⟨h3, h4⟩, h5, h6⟩
  refine ⟨⟨?_, ?_⟩, ⟨?_, ?_⟩, ?_, ?_⟩
  · exact (hb p1 m1).1.1.trans (e1 ▸ h1)
  · exact (e4 ▸ h2 : q.x ≤ p4.x).trans (hb p4 m4).1.2
  · exact (hb p2 m2).2.1.1.trans (e2 ▸ h3)
  · exact (e5 ▸ h4 : q.y ≤ p5.y).trans (hb p5 m5).2.1.2
  · exact (hb p3 m3).2.2.1.trans (e3 ▸ h5)
  · exact (e6 ▸ h6 : q.z ≤ p6.z).trans (hb p6 m6).2.2.2

theorem boxOf_init (ps : List (P3 K)) (hne : ps ≠ []) : (boxOf ps).Valid := by
  cases ps with
  | nil => exact absurd rfl hne
  | cons q ps =>
    simp only [boxOf, List.foldl_cons, BBox.empty_add]
    exact BBox.foldl_valid ps (BBox.single_valid q)

/-- C28: the box does not depend on the order in which the points are added. -/
theorem bbox_order_independent (ps qs : List (P3 K)) (h : ps.Perm qs) : boxOf ps = boxOf qs := by
  by_cases hne : ps = []
  · subst hne; rw [h.symm.eq_nil]
  have hne' : qs ≠ [] := fun e => hne (by subst e; exact h.eq_nil)
  obtain ⟨⟨p1, m1, e1⟩, ⟨p2, m2, e2⟩, ⟨p3, m3, e3⟩, ⟨p4, m4, e4⟩, ⟨p5, m5, e5⟩, ⟨p6, m6, e6⟩⟩ :=
    bbox_faces_touch ps hne
  obtain ⟨⟨q1, n1, f1⟩, ⟨q2, n2, f2⟩, ⟨q3, n3, f3⟩, ⟨q4, n4, f4⟩, ⟨q5, n5, f5⟩, ⟨q6, n6, f6⟩⟩ :=
    bbox_faces_touch qs hne'
  have hp := bbox_contains_all ps
  have hq := bbox_contains_all qs
  have i1 := (boxOf_init ps hne).1
  have i2 := (boxOf_init qs hne').1
  ext
  · rw [i1, i2]
  · apply le_antisymm
    · rw [← f1]; exact (hp _ (h.mem_iff.2 n1)).1.1
    · rw [← e1]; exact (hq _ (h.mem_iff.1 m1)).1.1
  · apply le_antisymm
    · rw [← f2]; exact (hp _ (h.mem_iff.2 n2)).2.1.1
    · rw [← e2]; exact (hq _ (h.mem_iff.1 m2)).2.1.1
  · apply le_antisymm
    · rw [← f3]; exact (hp _ (h.mem_iff.2 n3)).2.2.1
    · rw [← e3]; exact (hq _ (h.mem_iff.1 m3)).2.2.1
  · apply le_antisymm
    · rw [← e4]; exact (hq _ (h.mem_iff.1 m4)).1.2
    · rw [← f4]; exact (hp _ (h.mem_iff.2 n4)).1.2
  · apply le_antisymm
    · rw [← e5]; exact (hq _ (h.mem_iff.1 m5)).2.1.2
    · rw [← f5]; exact (hp _ (h.mem_iff.2 n5)).2.1.2
  · apply le_antisymm
    · rw [← e6]; exact (hq _ (h.mem_iff.1 m6)).2.2.2
    · rw [← f6]; exact (hp _ (h.mem_iff.2 n6)).2.2.2

-- non-vacuity: a concrete non-trivial list of points
example : (boxOf [⟨1, 5, 0⟩, ⟨3, 2, -1⟩, ⟨0, 4, 7⟩] : BBox ℚ) = ⟨true, ⟨0, 2, -1⟩, ⟨3, 5, 7⟩⟩ := by
  decide +kernel
example : ([⟨1, 5, 0⟩, ⟨3, 2, -1⟩] : List (P3 ℚ)).Perm [⟨3, 2, -1⟩, ⟨1, 5, 0⟩] :=
  List.Perm.swap _ _ _

/-- C29: the overlap test is exact on boxes built from at least one point each. -/
theorem bbox_overlap_exact (ps qs : List (P3 K)) (hp : ps ≠ []) (hq : qs ≠ []) :
    (boxOf ps).intersectWith (boxOf qs) = true ↔ ∃ r, InBox (boxOf ps) r ∧ InBox (boxOf qs) r := by
  obtain ⟨_, a1, a2, a3⟩ := boxOf_init ps hp
  obtain ⟨_, b1, b2, b3⟩ := boxOf_init qs hq
  generalize boxOf ps = a at *
  generalize boxOf qs = b at *
  unfold BBox.intersectWith
  constructor
  · intro h
    split_ifs at h with h1 h2 h3 h4 h5 h6
    push Not at h1 h2 h3 h4 h5 h6
    refine ⟨⟨max a.lo.x b.lo.x, max a.lo.y b.lo.y, max a.lo.z b.lo.z⟩, ?_, ?_⟩ <;>
      refine ⟨⟨?_, ?_⟩, ⟨?_, ?_⟩, ?_, ?_⟩ <;> simp [*]
  · rintro ⟨r, ⟨⟨c1, c2⟩, ⟨c3, c4⟩, c5, c6⟩, ⟨⟨d1, d2⟩, ⟨d3, d4⟩, d5, d6⟩⟩
    rw [if_neg (not_lt.2 (d1.trans c2)), if_neg (not_lt.2 (d3.trans c4)),
      if_neg (not_lt.2 (d5.trans c6)), if_neg (not_lt.2 (c1.trans d2)),
      if_neg (not_lt.2 (c3.trans d4)), if_neg (not_lt.2 (c5.trans d6))]

omit [Field K] in
/-- C29: the overlap test is symmetric, for any two boxes. -/
theorem bbox_overlap_symm (a b : BBox K) : a.intersectWith b = b.intersectWith a := by
  unfold BBox.intersectWith
  split_ifs <;> rfl

/-- C29, triangle boxes: a point of the triangle is in its box, so triangles with
non-overlapping boxes are disjoint. -/
theorem bbox_tri_disjoint [IsStrictOrderedRing K] (s t : Tri3 K)
    (h : (BBox.ofTri s).intersectWith (BBox.ofTri t) = false) (q : P3 K) :
    ¬ (InTriangle s q ∧ InTriangle t q) := by
  have inb : ∀ (t : Tri3 K) q, InTriangle t q → InBox (boxOf [t.p1, t.p2, t.p3]) q := by
    rintro t q ⟨a, b, c, ha, hb, hc, hs, rfl⟩
    have h1 := bbox_contains_all [t.p1, t.p2, t.p3] t.p1 (by simp)
    have h2 := bbox_contains_all [t.p1, t.p2, t.p3] t.p2 (by simp)
    have h3 := bbox_contains_all [t.p1, t.p2, t.p3] t.p3 (by simp)
    generalize boxOf [t.p1, t.p2, t.p3] = B at *
    have lo : ∀ m x y z : K, m ≤ x → m ≤ y → m ≤ z → m ≤ a * x + b * y + c * z := by
      intro m x y z hx hy hz
      have : m = a * m + b * m + c * m := by rw [← add_mul, ← add_mul, hs, one_mul]
      rw [this]
      gcongr
    have hi : ∀ m x y z : K, x ≤ m → y ≤ m → z ≤ m → a * x + b * y + c * z ≤ m := by
      intro m x y z hx hy hz
      have : m = a * m + b * m + c * m := by rw [← add_mul, ← add_mul, hs, one_mul]
      rw [this]
      gcongr
    refine ⟨⟨?_, ?_⟩, ⟨?_, ?_⟩, ?_, ?_⟩ <;>
      simp only [P3.add_x, P3.add_y, P3.add_z, P3.smul_x, P3.smul_y, P3.smul_z]
    · exact lo _ _ _ _ h1.1.1 h2.1.1 h3.1.1
    · exact hi _ _ _ _ h1.1.2 h2.1.2 h3.1.2
    · exact lo _ _ _ _ h1.2.1.1 h2.2.1.1 h3.2.1.1
    · exact hi _ _ _ _ h1.2.1.2 h2.2.1.2 h3.2.1.2
    · exact lo _ _ _ _ h1.2.2.1 h2.2.2.1 h3.2.2.1
    · exact hi _ _ _ _ h1.2.2.2 h2.2.2.2 h3.2.2.2
  rintro ⟨h1, h2⟩
  have := (bbox_overlap_exact [s.p1, s.p2, s.p3] [t.p1, t.p2, t.p3] (by simp) (by simp)).2
    ⟨q, inb s q h1, inb t q h2⟩
  have e : ∀ t : Tri3 K, BBox.ofTri t = boxOf [t.p1, t.p2, t.p3] := fun _ => rfl
  rw [e, e, this] at h
  exact absurd h (by simp)

-- non-vacuity: two disjoint boxes and two overlapping ones
example : (boxOf [⟨0, 0, 0⟩, ⟨1, 1, 1⟩] : BBox ℚ).intersectWith (boxOf [⟨2, 0, 0⟩]) = false := by
  decide +kernel
example : (boxOf [⟨0, 0, 0⟩, ⟨1, 1, 1⟩] : BBox ℚ).intersectWith (boxOf [⟨1, 1, 1⟩]) = true := by
  decide +kernel
example : (BBox.ofTri ⟨⟨0, 0, 0⟩, ⟨1, 0, 0⟩, ⟨0, 1, 0⟩⟩ : BBox ℚ).intersectWith
    (BBox.ofTri ⟨⟨5, 0, 0⟩, ⟨6, 0, 0⟩, ⟨5, 1, 0⟩⟩) = false := by decide +kernel

/-- C29 limit: a box to which nothing was added behaves like the box of the
origin in the overlap test, so "shares a point with an empty box" can be
answered true although an empty box has no point. -/
theorem bbox_uninitialised_overlaps_origin :
    (boxOf [] : BBox ℚ).intersectWith (boxOf [⟨-1, -1, -1⟩, ⟨1, 1, 1⟩]) = true := by decide +kernel

end CAD
