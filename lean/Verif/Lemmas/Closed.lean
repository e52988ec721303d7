import Verif.Spec.Soup
import Mathlib.Algebra.BigOperators.Group.List.Basic
import Mathlib.Tactic.Ring

/-! Closed triangle soups through antisymmetric edge sums. -/

namespace CAD
variable {K : Type*}

/-- sum of an edge quantity over all directed edges -/
def edgeSum (g : P3 K × P3 K → Int) (ts : List (Tri3 K)) : Int :=
  ((ts.flatMap Tri3.dirEdges).map g).sum

theorem edgeSum_cons (g : P3 K × P3 K → Int) (t : Tri3 K) (ts) :
    edgeSum g (t :: ts) = g (t.p1, t.p2) + g (t.p2, t.p3) + g (t.p3, t.p1) + edgeSum g ts := by
  simp [edgeSum, Tri3.dirEdges]; ring

theorem edgeSum_eq (g : P3 K × P3 K → Int) (ts : List (Tri3 K)) :
    edgeSum g ts = (ts.map fun t => g (t.p1, t.p2) + g (t.p2, t.p3) + g (t.p3, t.p1)).sum := by
  induction ts with
  | nil => rfl
  | cons t ts ih => rw [edgeSum_cons, ih]; simp

theorem closed_iff_edgeSum (ts : List (Tri3 K)) :
    ClosedSoup ts ↔ ∀ g : P3 K × P3 K → Int, (∀ e, g e = - g e.swap) → edgeSum g ts = 0 := by
  classical
  unfold ClosedSoup edgeSum
  generalize ts.flatMap Tri3.dirEdges = E
  constructor
  · intro h g hg
    have h1 := (h.map g).sum_eq
    rw [List.map_map] at h1
    have h2 : ((E.map (g ∘ Prod.swap)).sum : Int) = - (E.map g).sum := by
      clear h h1
      induction E with
      | nil => rfl
      | cons e E ih =>
        simp only [List.map_cons, List.sum_cons, ih, Function.comp]
        rw [hg e]; ring
    omega
  · intro h
    rw [List.perm_iff_count]
    intro e
    have hc : ∀ E : List (P3 K × P3 K), ((E.map fun x =>
        ((if x = e then 1 else 0) - (if x.swap = e then 1 else 0) : Int)).sum) =
        (E.count e : Int) - ((E.map Prod.swap).count e : Int) := by
      intro E
      induction E with
      | nil => rfl
      | cons x E ih =>
        simp only [List.map_cons, List.sum_cons, ih, List.count_cons, beq_iff_eq]
        push_cast
        ring
    have := h (fun x => ((if x = e then 1 else 0) - (if x.swap = e then 1 else 0) : Int))
      (fun x => by simp only [Prod.swap_swap]; ring)
    rw [hc] at this
    omega

end CAD
