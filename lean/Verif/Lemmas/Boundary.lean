import Verif.Props.NurbsMesh
import Mathlib.Algebra.BigOperators.Intervals

/-! Boundary of the triangles of a sampled surface, as sums of antisymmetric functions of
directed edges. -/

namespace CAD
open Nurbs
variable {K : Type} {G : Type*} [AddCommGroup G]

/-- a weight of directed edges that changes sign with the direction -/
structure Anti (φ : P3 K × P3 K → G) : Prop where
  swap : ∀ p q, φ (q, p) = - φ (p, q)
  self : ∀ p, φ (p, p) = 0

/-- sum of a weight over the directed edges of triangles -/
def bdrySum (φ : P3 K × P3 K → G) (ts : List (Tri3 K)) : G := ((ts.flatMap Tri3.dirEdges).map φ).sum

theorem bdrySum_append (φ : P3 K × P3 K → G) (a b : List (Tri3 K)) :
    bdrySum φ (a ++ b) = bdrySum φ a + bdrySum φ b := by
  simp [bdrySum]

theorem bdrySum_nil (φ : P3 K × P3 K → G) : bdrySum φ [] = 0 := rfl

theorem bdrySum_cons (φ : P3 K × P3 K → G) (t : Tri3 K) (l : List (Tri3 K)) :
    bdrySum φ (t :: l) = φ (t.p1, t.p2) + φ (t.p2, t.p3) + φ (t.p3, t.p1) + bdrySum φ l := by
  simp [bdrySum, Tri3.dirEdges]; abel

/-- the sum over the edges is the sum over the triangles -/
theorem bdrySum_eq (φ : P3 K × P3 K → G) (l : List (Tri3 K)) :
    bdrySum φ l = (l.map fun t => φ (t.p1, t.p2) + φ (t.p2, t.p3) + φ (t.p3, t.p1)).sum := by
  induction l with
  | nil => rfl
  | cons t l ih => rw [bdrySum_cons, ih, List.map_cons, List.sum_cons]

theorem bdrySum_flatMap {α : Type*} (φ : P3 K × P3 K → G) (l : List α) (f : α → List (Tri3 K)) :
    bdrySum φ (l.flatMap f) = (l.map fun a => bdrySum φ (f a)).sum := by
  induction l with
  | nil => rfl
  | cons a l ih => rw [List.flatMap_cons, bdrySum_append, ih, List.map_cons, List.sum_cons]

/-- A soup is closed if every antisymmetric weight sums to zero over its edges. -/
theorem closedSoup_of_bdrySum (ts : List (Tri3 K)) (h : ∀ φ : P3 K × P3 K → ℤ, Anti φ → bdrySum φ ts = 0) : ClosedSoup ts := by
  classical
  unfold ClosedSoup
  rw [List.perm_iff_count]
  intro e
  have key : ∀ (L : List (P3 K × P3 K)) (e : P3 K × P3 K),
      (L.map fun x => (if x = e then (1 : ℤ) else 0) - (if x = e.swap then 1 else 0)).sum = L.count e - L.count e.swap := by
    intro L e
    induction L with
    | nil => simp
    | cons a L ih =>
      rw [List.map_cons, List.sum_cons, ih, List.count_cons, List.count_cons]
      simp only [beq_iff_eq]
      push_cast
      ring
  have h1 := h (fun x => (if x = e then (1 : ℤ) else 0) - (if x = e.swap then 1 else 0)) (by
    refine ⟨fun p q => ?_, fun p => ?_⟩
    · have a1 : (q, p) = e ↔ (p, q) = e.swap := by
        obtain ⟨a, b⟩ := e; simp only [Prod.swap, Prod.mk.injEq]; exact And.comm
      have a2 : (q, p) = e.swap ↔ (p, q) = e := by
        obtain ⟨a, b⟩ := e; simp only [Prod.swap, Prod.mk.injEq]; exact And.comm
      simp only [a1, a2]; ring
    · have a2 : (p, p) = e.swap ↔ (p, p) = e := by
        obtain ⟨a, b⟩ := e; simp only [Prod.swap, Prod.mk.injEq]; exact And.comm
      simp only [a2]; ring)
  unfold bdrySum at h1
  rw [key] at h1
  have h2 : (((ts.flatMap Tri3.dirEdges).map Prod.swap).count e) = (ts.flatMap Tri3.dirEdges).count e.swap := by
    conv_lhs => rw [show e = Prod.swap e.swap by simp]
    exact List.count_map_of_injective _ _ Prod.swap_injective _
  rw [h2]
  omega

/-- An antisymmetric weight sums to zero over a closed soup. -/
theorem bdrySum_closed {ts : List (Tri3 K)} (h : ClosedSoup ts) {φ : P3 K × P3 K → ℤ} (hφ : Anti φ) : bdrySum φ ts = 0 := by
  have h1 := (h.map φ).sum_eq
  rw [List.map_map] at h1
  have h2 : ∀ L : List (P3 K × P3 K), (L.map (φ ∘ Prod.swap)).sum = - (L.map φ).sum := by
    intro L
    induction L with
    | nil => simp
    | cons a L ih => simp only [List.map_cons, List.sum_cons, ih, Function.comp, Prod.swap, hφ.swap a.1 a.2]; ring
  rw [h2] at h1
  unfold bdrySum
  omega

/-- the last row or column that counts as a boundary: the first one again if closed -/
def lastPos (cl : Bool) (V : Nat) : Int := if cl then 0 else V

theorem tele_wrap (cl : Bool) (V : Nat) (f : Int → G) :
    ∑ j ∈ Finset.range V, (f j - f (wrap cl j V)) = f 0 - f (lastPos cl V) := by
  cases V with
  | zero => cases cl <;> simp [lastPos]
  | succ n =>
    rw [Finset.sum_range_succ]
    have h1 : ∑ j ∈ Finset.range n, (f j - f (wrap cl j (n + 1 : Nat))) = ∑ j ∈ Finset.range n, (f (j : Nat) - f ((j + 1 : Nat) : Int)) := by
      refine Finset.sum_congr rfl fun j hj => ?_
      have := Finset.mem_range.1 hj
      have : wrap cl j (n + 1 : Nat) = ((j + 1 : Nat) : Int) := by
        unfold wrap; rw [if_neg (by push_cast; omega)]; push_cast; ring
      rw [this]
    rw [h1, Finset.sum_range_sub' (fun j : Nat => f j)]
    have h2 : wrap cl n (n + 1 : Nat) = lastPos cl (n + 1) := by
      unfold wrap lastPos
      cases cl <;> simp
    rw [h2]
    push_cast
    abel

theorem sum_product_range {M : Type*} [AddCommMonoid M] (V U : Nat) (g : Nat × Nat → M) :
    ((meshCells U V).map g).sum = ∑ j ∈ Finset.range V, ∑ i ∈ Finset.range U, g (j, i) := by
  unfold meshCells
  have h1 : ∀ (n : Nat) (f : Nat → M), ((List.range n).map f).sum = ∑ i ∈ Finset.range n, f i := by
    intro n f
    induction n with
    | zero => simp
    | succ n ih => rw [List.range_succ, List.map_append, List.sum_append, ih, Finset.sum_range_succ]; simp
  have h2 : ∀ (l : List Nat), ((l ×ˢ List.range U).map g).sum = (l.map fun j => ∑ i ∈ Finset.range U, g (j, i)).sum := by
    intro l
    induction l with
    | nil => rfl
    | cons j l ih =>
      have : ((j :: l) ×ˢ List.range U) = (List.range U).map (fun i => (j, i)) ++ (l ×ˢ List.range U) := rfl
      rw [this, List.map_append, List.sum_append, ih, List.map_cons, List.sum_cons, List.map_map, h1]
      rfl
  rw [h2, h1]

/-- the triangles over a grid of positions -/
def gridSoup (cu cv : Bool) (U V : Nat) (P : Int × Int → P3 K) : List (Tri3 K) :=
  ((meshCells U V).flatMap (meshCell cu cv U V)).map fun t => ⟨P t.1, P t.2.1, P t.2.2⟩

theorem surfaceSoup_eq [Field K] [LinearOrder K] [IsStrictOrderedRing K] (s : Surface K) (U V : Nat) :
    surfaceSoup s U V = gridSoup s.closedU s.closedV U V (samplePos s U V) := rfl

theorem bdrySum_grid (cu cv : Bool) (U V : Nat) (P : Int × Int → P3 K) {φ : P3 K × P3 K → G} (hφ : Anti φ) :
    bdrySum φ (gridSoup cu cv U V P) =
      (∑ i ∈ Finset.range U, (φ (P (i, 0), P (wrap cu i U, 0)) - φ (P (i, lastPos cv V), P (wrap cu i U, lastPos cv V)))) +
      ∑ j ∈ Finset.range V, (φ (P (lastPos cu U, j), P (lastPos cu U, wrap cv j V)) - φ (P (0, j), P (0, wrap cv j V))) := by
  have h1 : bdrySum φ (gridSoup cu cv U V P) = ((meshCells U V).map fun c : Nat × Nat =>
      (φ (P (c.2, c.1), P (wrap cu c.2 U, c.1)) - φ (P (c.2, wrap cv c.1 V), P (wrap cu c.2 U, wrap cv c.1 V))) -
      (φ (P (c.2, c.1), P (c.2, wrap cv c.1 V)) - φ (P (wrap cu c.2 U, c.1), P (wrap cu c.2 U, wrap cv c.1 V)))).sum := by
    unfold gridSoup
    induction meshCells U V with
    | nil => rfl
    | cons c l ih =>
      simp only [List.flatMap_cons, List.map_append, bdrySum_append, ih, List.map_cons, List.sum_cons]
      simp only [meshCell, List.map_cons, List.map_nil, bdrySum_cons, bdrySum_nil]
      rw [hφ.swap (P (c.2, c.1)) (P (wrap cu c.2 U, wrap cv c.1 V)), hφ.swap (P (c.2, wrap cv c.1 V)) (P (wrap cu c.2 U, wrap cv c.1 V)),
        hφ.swap (P (c.2, c.1)) (P (c.2, wrap cv c.1 V))]
      abel
  rw [h1, sum_product_range]
  simp only [Finset.sum_sub_distrib]
  have a1 := fun i : Nat => tele_wrap cv V fun j => φ (P ((i : Int), j), P (wrap cu i U, j))
  have a2 := fun j : Nat => tele_wrap cu U fun i => φ (P (i, (j : Int)), P (i, wrap cv j V))
  simp only [Finset.sum_sub_distrib] at a1 a2
  have b1 : ∑ i ∈ Finset.range U, (∑ j ∈ Finset.range V, φ (P ((i : Int), (j : Int)), P (wrap cu i U, (j : Int))) -
      ∑ j ∈ Finset.range V, φ (P ((i : Int), wrap cv j V), P (wrap cu i U, wrap cv j V))) = _ :=
    Finset.sum_congr rfl fun i _ => a1 i
  have b2 : ∑ j ∈ Finset.range V, (∑ i ∈ Finset.range U, φ (P ((i : Int), (j : Int)), P ((i : Int), wrap cv j V)) -
      ∑ i ∈ Finset.range U, φ (P (wrap cu i U, (j : Int)), P (wrap cu i U, wrap cv j V))) = _ :=
    Finset.sum_congr rfl fun j _ => a2 j
  simp only [Finset.sum_sub_distrib] at b1 b2
  rw [Finset.sum_comm (s := Finset.range U), Finset.sum_comm (s := Finset.range U)] at b1
  rw [b1, b2]
  abel

theorem sum_wrap {U : Nat} {cu : Bool} (P : Int → P3 K) (φ : P3 K × P3 K → G) (h : cu = true → P 0 = P U) :
    ∑ i ∈ Finset.range U, φ (P i, P (wrap cu i U)) = ∑ i ∈ Finset.range U, φ (P i, P ((i + 1 : Nat) : Int)) := by
  refine Finset.sum_congr rfl fun i hi => ?_
  have hi := Finset.mem_range.1 hi
  have : P (wrap cu i U) = P ((i + 1 : Nat) : Int) := by
    unfold wrap
    split
    · rename_i hc
      obtain ⟨h1, h2⟩ := hc
      have : ((i + 1 : Nat) : Int) = U := by push_cast; omega
      rw [this]; exact h h1
    · push_cast; rfl
  rw [this]

/-- The boundary of a grid whose columns are not declared closed, or are closed. -/
theorem bdrySum_grid_open {cu : Bool} {U V : Nat} {P : Int × Int → P3 K} {φ : P3 K × P3 K → G} (hφ : Anti φ)
    (h : ∀ j : Int, cu = true → P (0, j) = P (U, j)) :
    bdrySum φ (gridSoup cu false U V P) =
      (∑ i ∈ Finset.range U, φ (P (i, 0), P ((i + 1 : Nat), 0)) - ∑ i ∈ Finset.range U, φ (P (i, V), P ((i + 1 : Nat), V))) +
      (∑ j ∈ Finset.range V, φ (P (U, j), P (U, (j + 1 : Nat))) - ∑ j ∈ Finset.range V, φ (P (0, j), P (0, (j + 1 : Nat)))) := by
  rw [bdrySum_grid _ _ _ _ _ hφ, Finset.sum_sub_distrib, Finset.sum_sub_distrib]
  have e1 : lastPos false V = V := rfl
  rw [e1, sum_wrap (fun i => P (i, 0)) φ (h 0), sum_wrap (fun i => P (i, (V : Int))) φ (h V)]
  have e2 : ∀ j, P (lastPos cu U, j) = P (U, j) := by
    intro j
    cases cu
    · rfl
    · exact h j rfl
  simp only [e2]
  rw [sum_wrap (cu := false) (fun j => P (U, j)) φ (by simp), sum_wrap (cu := false) (fun j => P (0, j)) φ (by simp)]

/-- A grid closed both ways has no boundary. -/
theorem bdrySum_grid_closed {U V : Nat} {P : Int × Int → P3 K} {φ : P3 K × P3 K → G} (hφ : Anti φ) :
    bdrySum φ (gridSoup true true U V P) = 0 := by
  rw [bdrySum_grid _ _ _ _ _ hφ]
  simp [lastPos]

theorem sum_reverse (n : Nat) (P : Nat → P3 K) {φ : P3 K × P3 K → G} (hφ : Anti φ) :
    ∑ i ∈ Finset.range n, φ (P (n - i), P (n - (i + 1))) = - ∑ i ∈ Finset.range n, φ (P i, P (i + 1)) := by
  rw [← Finset.sum_range_reflect (fun i => φ (P i, P (i + 1))), ← Finset.sum_neg_distrib]
  refine Finset.sum_congr rfl fun i hi => ?_
  have hi := Finset.mem_range.1 hi
  have e1 : n - 1 - i + 1 = n - i := by omega
  have e2 : n - 1 - i = n - (i + 1) := by omega
  rw [e1, e2]
  exact hφ.swap _ _

end CAD
