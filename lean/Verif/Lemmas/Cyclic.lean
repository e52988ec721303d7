import Verif.Lemmas.Topology
import Mathlib.Data.ZMod.Basic
import Mathlib.Algebra.Group.Prod

/-! Closed surfaces with cyclic index structure. -/

set_option linter.unusedSimpArgs false

namespace CAD
section generic
variable {α : Type}

/-- directed edges of corner triples over any vertex type -/
def triEdges (fs : List (α × α × α)) : List (α × α) :=
  fs.flatMap fun f => [(f.1, f.2.1), (f.2.1, f.2.2), (f.2.2, f.1)]

/-- `ClosedIds` over any vertex type -/
structure ClosedTris (fs : List (α × α × α)) : Prop where
  once : (triEdges fs).Nodup
  reverse : ∀ e ∈ triEdges fs, e.swap ∈ triEdges fs
  proper : ∀ e ∈ triEdges fs, e.1 ≠ e.2

/-- rename vertices -/
def mapTri {β : Type} (f : α → β) (t : α × α × α) : β × β × β := (f t.1, f t.2.1, f t.2.2)

theorem triEdges_map {β : Type} (f : α → β) (fs : List (α × α × α)) :
    triEdges (fs.map (mapTri f)) = (triEdges fs).map (Prod.map f f) := by
  unfold triEdges
  rw [List.flatMap_map, List.map_flatMap]
  rfl

theorem ClosedTris.map {fs : List (α × α × α)} (h : ClosedTris fs) (f : α → Int) (S : Set α)
    (hS : ∀ e ∈ triEdges fs, e.1 ∈ S) (hf : Set.InjOn f S) : ClosedIds (fs.map (mapTri f)) := by
  have hS2 : ∀ e ∈ triEdges fs, e.2 ∈ S := fun e he => hS _ (h.reverse e he)
  have e1 : idEdges (fs.map (mapTri f)) = (triEdges fs).map (Prod.map f f) := triEdges_map f fs
  refine ⟨?_, ?_, ?_⟩
  · rw [e1]
    refine List.Nodup.map_on ?_ h.once
    intro x hx y hy hxy
    simp only [Prod.map, Prod.mk.injEq] at hxy
    exact Prod.ext (hf (hS x hx) (hS y hy) hxy.1) (hf (hS2 x hx) (hS2 y hy) hxy.2)
  · rw [e1]
    intro e he
    obtain ⟨x, hx, rfl⟩ := List.mem_map.1 he
    exact List.mem_map.2 ⟨x.swap, h.reverse x hx, rfl⟩
  · rw [e1]
    intro e he
    obtain ⟨x, hx, rfl⟩ := List.mem_map.1 he
    intro hc
    exact h.proper x hx (hf (hS x hx) (hS2 x hx) hc)

theorem ClosedIds.perm {fs gs : List (Int × Int × Int)} (h : ClosedIds fs)
    (hp : (idEdges fs).Perm (idEdges gs)) : ClosedIds gs where
  once := hp.nodup_iff.1 h.once
  reverse e he := hp.mem_iff.1 (h.reverse e (hp.mem_iff.2 he))
  proper e he := h.proper e (hp.mem_iff.2 he)

/-- the two triangles of a quad -/
def quadT (a b c d : α) : List (α × α × α) := [(a, b, c), (c, d, a)]

end generic

/-! ### Grids with two periodic directions -/
section torus
variable {G : Type} [AddCommGroup G] [DecidableEq G]

/-- the quad of a cell -/
def torusCell (x y : G) (c : G) : List (G × G × G) := quadT (c + x) (c + x + y) (c + y) c

/-- the cell of an edge, recognised by its displacement -/
def torusCellOf (x y : G) (e : G × G) : G :=
  let d := e.2 - e.1
  if d = y then e.1 - x
  else if d = -x then e.1 - x - y
  else if d = x - y then e.1 - y
  else if d = -y then e.1 - y
  else if d = x then e.1
  else e.1 - x

theorem torus_closed {x y : G} (cells : List G) (hc : cells.Nodup) (hall : ∀ c, c ∈ cells)
    (hx : x ≠ 0) (hy : y ≠ 0) (hx2 : x ≠ -x) (hy2 : y ≠ -y) (hxy : x ≠ y) (hxy' : x ≠ -y)
    (h1 : x - y ≠ y) (h2 : x - y ≠ -x) (h3 : x - y ≠ y - x) :
    ClosedTris (cells.flatMap (torusCell x y)) := by
  have he : triEdges (cells.flatMap (torusCell x y)) = cells.flatMap fun c =>
      [(c + x, c + x + y), (c + x + y, c + y), (c + y, c + x),
       (c + y, c), (c, c + x), (c + x, c + y)] := by
    unfold triEdges
    rw [List.flatMap_assoc]
    rfl
  have n1 : -x ≠ y := fun h => hxy' (by rw [← h, neg_neg])
  have n3 : -y ≠ -x := fun h => hxy (neg_injective h).symm
  have n4 : -y ≠ x - y := fun h => hx (by simpa using h.symm)
  have n6 : x ≠ x - y := fun h => hy (by simpa using h.symm)
  have n8 : y - x ≠ y := fun h => hx (by simpa using h)
  have n9 : y - x ≠ -x := fun h => hy (by simpa using h)
  have n11 : y - x ≠ -y := fun h => h1 (by rw [← neg_sub, h, neg_neg])
  have n12 : y - x ≠ x := fun h => h2 (by rw [← neg_sub, h])
  refine ⟨?_, ?_, ?_⟩
  · rw [he]
    refine nodup_of_cells hc _ (torusCellOf x y) ?_ ?_
    · intro c _ e hm
      simp only [List.mem_cons, List.not_mem_nil, or_false] at hm
      rcases hm with rfl | rfl | rfl | rfl | rfl | rfl
      · simp [torusCellOf]
      · have : c + y - (c + x + y) = -x := by abel
        simp only [torusCellOf, this, if_neg n1, if_true]; abel
      · have : c + x - (c + y) = x - y := by abel
        simp only [torusCellOf, this, if_neg h1, if_neg h2, if_true]; abel
      · have : c - (c + y) = - y := by abel
        simp only [torusCellOf, this, if_neg hy2.symm, if_neg n3, if_neg n4, if_true]; abel
      · have : c + x - c = x := by abel
        simp only [torusCellOf, this, if_neg hxy, if_neg hx2, if_neg n6, if_neg hxy', if_true]
      · have : c + y - (c + x) = y - x := by abel
        simp only [torusCellOf, this, if_neg n8, if_neg n9, if_neg h3.symm, if_neg n11, if_neg n12]; abel
    · intro c _
      simp only [List.nodup_cons, List.mem_cons, Prod.mk.injEq, List.not_mem_nil, or_false, not_or,
        not_false_eq_true, List.nodup_nil, and_true, not_and, add_assoc, add_right_inj, add_eq_left,
        left_eq_add, hx, hy, hxy, hxy.symm, false_implies, true_implies, implies_true, add_eq_right,
        right_eq_add]
  · rw [he]
    intro e hm
    obtain ⟨c, _, hm⟩ := List.mem_flatMap.1 hm
    rw [List.mem_flatMap]
    simp only [List.mem_cons, List.not_mem_nil, or_false] at hm ⊢
    rcases hm with rfl | rfl | rfl | rfl | rfl | rfl
    · exact ⟨c + x, hall _, by simp⟩
    · exact ⟨c + y, hall _, by simp [add_right_comm]⟩
    · exact ⟨c, hall _, by simp⟩
    · exact ⟨c - x, hall _, by simp [sub_add_eq_add_sub]⟩
    · exact ⟨c - y, hall _, Or.inr (Or.inl (Prod.ext (by simp only [Prod.swap]; abel) (by simp)))⟩
    · exact ⟨c, hall _, by simp⟩
  · rw [he]
    intro e hm
    obtain ⟨c, _, hm⟩ := List.mem_flatMap.1 hm
    simp only [List.mem_cons, List.not_mem_nil, or_false] at hm
    rcases hm with rfl | rfl | rfl | rfl | rfl | rfl <;> simp [hx, hy, hxy, hxy.symm, add_assoc]

end torus

/-! ### Surfaces with two poles and one periodic direction -/
section ball

/-- vertices of a surface with two poles and rows of `L` vertices -/
inductive Ball (L : Nat) : Type
  | north
  | south
  | at (a : ZMod L) (l : Int)
deriving DecidableEq

variable {L : Nat}
open Ball

/-- cell `(a, k)` of a surface with `M` rows: `k = 0` the triangle at the north
pole, `k = M` the one at the south pole, otherwise a quad between rows `k - 1` and
`k` -/
def ballCell (M : Int) (c : ZMod L × Int) : List (Ball L × Ball L × Ball L) :=
  if c.2 = 0 then [(north, .at c.1 0, .at (c.1 + 1) 0)]
  else if c.2 < M then quadT (.at c.1 (c.2 - 1)) (.at c.1 c.2) (.at (c.1 + 1) c.2) (.at (c.1 + 1) (c.2 - 1))
  else [(.at c.1 (M - 1), south, .at (c.1 + 1) (M - 1))]

/-- directed edges of a cell -/
def ballEdges (M : Int) (c : ZMod L × Int) : List (Ball L × Ball L) :=
  if c.2 = 0 then [(north, .at c.1 0), (.at c.1 0, .at (c.1 + 1) 0), (.at (c.1 + 1) 0, north)]
  else if c.2 < M then
    [(.at c.1 (c.2 - 1), .at c.1 c.2), (.at c.1 c.2, .at (c.1 + 1) c.2),
     (.at (c.1 + 1) c.2, .at c.1 (c.2 - 1)), (.at (c.1 + 1) c.2, .at (c.1 + 1) (c.2 - 1)),
     (.at (c.1 + 1) (c.2 - 1), .at c.1 (c.2 - 1)), (.at c.1 (c.2 - 1), .at (c.1 + 1) c.2)]
  else [(.at c.1 (M - 1), south), (south, .at (c.1 + 1) (M - 1)),
    (.at (c.1 + 1) (M - 1), .at c.1 (M - 1))]

/-- the cell of an edge -/
def ballCellOf (M : Int) (e : Ball L × Ball L) : ZMod L × Int :=
  match e with
  | (north, .at a _) => (a, 0)
  | (.at a _, north) => (a - 1, 0)
  | (.at a _, south) => (a, M)
  | (south, .at a _) => (a - 1, M)
  | (.at a l, .at b k) =>
    if b - a = 0 then (if k = l + 1 then (a, l + 1) else (a - 1, l))
    else if b - a = 1 then (if k = l then (a, l) else (a, l + 1))
    else (if k = l then (a - 1, l + 1) else (a - 1, l))
  | _ => (0, 0)

theorem ball_edges_eq (M : Int) (cells : List (ZMod L × Int)) :
    triEdges (cells.flatMap (ballCell M)) = cells.flatMap (ballEdges M) := by
  unfold triEdges
  rw [List.flatMap_assoc]
  refine List.flatMap_congr fun c _ => ?_
  unfold ballCell ballEdges
  split_ifs <;> rfl

theorem ball_closed {M : Int} (hM : 1 ≤ M) (hL : 3 ≤ L) (cells : List (ZMod L × Int)) (hc : cells.Nodup)
    (hall : ∀ a k, (a, k) ∈ cells ↔ 0 ≤ k ∧ k ≤ M) : ClosedTris (cells.flatMap (ballCell M)) := by
  have : Fact (1 < L) := ⟨by omega⟩
  have h1 : (1 : ZMod L) ≠ 0 := one_ne_zero
  have h2 : (-1 : ZMod L) ≠ 1 := by
    intro h
    have : ((2 : Nat) : ZMod L) = 0 := by push_cast; linear_combination -h
    rw [ZMod.natCast_eq_zero_iff] at this
    exact absurd (Nat.le_of_dvd (by norm_num) this) (by omega)
  have h3 : (-1 : ZMod L) ≠ 0 := neg_ne_zero.2 h1
  refine ⟨?_, ?_, ?_⟩
  · rw [ball_edges_eq]
    refine nodup_of_cells hc _ (ballCellOf M) ?_ ?_
    · rintro ⟨a, k⟩ hk e he
      obtain ⟨hk0, hkM⟩ := (hall a k).1 hk
      unfold ballEdges at he
      split_ifs at he with c1 c2
      · simp only at c1
        subst c1
        simp only [List.mem_cons, List.not_mem_nil, or_false] at he
        rcases he with rfl | rfl | rfl <;> simp [ballCellOf, h1]
      · simp only [List.mem_cons, List.not_mem_nil, or_false] at he
        rcases he with rfl | rfl | rfl | rfl | rfl | rfl <;> simp [ballCellOf, h1, h2, h3]
        · intro h; omega
        · omega
      · have : k = M := by simp only at c1 c2; omega
        subst this
        simp only [List.mem_cons, List.not_mem_nil, or_false] at he
        rcases he with rfl | rfl | rfl <;> simp [ballCellOf, h1, h2, h3]
    · rintro ⟨a, k⟩ hk
      unfold ballEdges
      split_ifs with c1 c2 <;> simp [h1]
      omega
  · rw [ball_edges_eq]
    intro e he
    obtain ⟨⟨a, k⟩, hk, he⟩ := List.mem_flatMap.1 he
    obtain ⟨hk0, hkM⟩ := (hall a k).1 hk
    rw [List.mem_flatMap]
    have key : ∀ (b : ZMod L) (l : Int), 0 ≤ l → l < M →
        ((Ball.at (b + 1) l, Ball.at b l) : Ball L × Ball L) ∈ ballEdges M (b, l + 1) := by
      intro b l h0 hl
      unfold ballEdges
      rw [if_neg (by simp; omega)]
      split_ifs with c2
      · simp
      · have : l = M - 1 := by simp only at c2; omega
        subst this; simp
    have key2 : ∀ (b : ZMod L) (l : Int), 0 ≤ l → l < M →
        ((Ball.at b l, Ball.at (b + 1) l) : Ball L × Ball L) ∈ ballEdges M (b, l) := by
      intro b l h0 hl
      unfold ballEdges
      split_ifs with c1
      · simp only at c1; subst c1; simp
      · simp
    have hmem : ∀ (b : ZMod L) (l : Int), 0 ≤ l → l ≤ M → (b, l) ∈ cells := fun b l h h' => (hall b l).2 ⟨h, h'⟩
    unfold ballEdges at he
    split_ifs at he with c1 c2
    · simp only at c1
      subst c1
      simp only [List.mem_cons, List.not_mem_nil, or_false] at he
      rcases he with rfl | rfl | rfl
      · exact ⟨(a - 1, 0), hmem _ _ le_rfl (by omega), by simp [ballEdges]⟩
      · exact ⟨(a, 1), hmem _ _ (by omega) (by omega), key a 0 le_rfl (by omega)⟩
      · exact ⟨(a + 1, 0), hmem _ _ le_rfl (by omega), by simp [ballEdges]⟩
    · simp only at c1 c2
      simp only [List.mem_cons, List.not_mem_nil, or_false] at he
      rcases he with rfl | rfl | rfl | rfl | rfl | rfl
      · exact ⟨(a - 1, k), hmem _ _ hk0 hkM, by simp [ballEdges, c1, c2]⟩
      · exact ⟨(a, k + 1), hmem _ _ (by omega) (by omega), key a k hk0 c2⟩
      · exact ⟨(a, k), hk, by simp [ballEdges, c1, c2]⟩
      · exact ⟨(a + 1, k), hmem _ _ hk0 hkM, by simp [ballEdges, c1, c2]⟩
      · exact ⟨(a, k - 1), hmem _ _ (by omega) (by omega), key2 a (k - 1) (by omega) (by omega)⟩
      · exact ⟨(a, k), hk, by simp [ballEdges, c1, c2]⟩
    · have : k = M := by simp only at c1 c2; omega
      subst this
      have hk1 : ¬ k = 0 := by omega
      simp only [List.mem_cons, List.not_mem_nil, or_false] at he
      rcases he with rfl | rfl | rfl
      · exact ⟨(a - 1, k), hmem _ _ hk0 hkM, by simp [ballEdges, hk1]⟩
      · exact ⟨(a + 1, k), hmem _ _ hk0 hkM, by simp [ballEdges, hk1]⟩
      · exact ⟨(a, k - 1), hmem _ _ (by omega) (by omega), key2 a (k - 1) (by omega) (by omega)⟩
  · rw [ball_edges_eq]
    intro e he
    obtain ⟨⟨a, k⟩, hk, he⟩ := List.mem_flatMap.1 he
    unfold ballEdges at he
    split_ifs at he <;> simp only [List.mem_cons, List.not_mem_nil, or_false] at he
    · rcases he with rfl | rfl | rfl <;> simp [h1]
    · rcases he with rfl | rfl | rfl | rfl | rfl | rfl <;> simp [h1] <;> omega
    · rcases he with rfl | rfl | rfl <;> simp [h1]

end ball
end CAD
