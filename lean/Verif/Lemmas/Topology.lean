import Verif.Lemmas.Build
import Mathlib.Data.List.ProdSigma
import Mathlib.Data.Finset.Card
import Mathlib.Algebra.BigOperators.Group.Finset.Basic
import Mathlib.Algebra.Order.BigOperators.Group.Finset

/-! Index topology of generated meshes. -/

namespace CAD

theorem nodup_of_cells {ι E : Type*} {l : List ι} (hl : l.Nodup) (f : ι → List E) (φ : E → ι)
    (h : ∀ c ∈ l, ∀ e ∈ f c, φ e = c) (hn : ∀ c ∈ l, (f c).Nodup) : (l.flatMap f).Nodup := by
  rw [List.nodup_flatMap]
  refine ⟨hn, ?_⟩
  refine hl.pairwise_of_forall_ne ?_
  intro a ha b hb hab e hea heb
  exact hab ((h a ha e hea).symm.trans (h b hb e heb))

variable {K : Type}
namespace Mesh

theorem loopN_pushTris {n : Nat} {f : Nat → Mesh K → Res (Mesh K)}
    {g : Nat → List (Int × Int × Int)} (V : List (P3 K))
    (h : ∀ i < n, ∀ m : Mesh K, m.kern.verts = V → f i m = some (m.pushTris (g i))) (m : Mesh K)
    (hm : m.kern.verts = V) :
    loopN n f m = some (m.pushTris ((List.range n).flatMap g)) := by
  induction n with
  | zero => simp [loopN_zero]
  | succ n ih =>
    rw [loopN_succ, ih (fun i hi => h i (by omega)), Option.bind_some, h n (by omega) (m.pushTris _) hm,
      pushTris_push, List.range_succ, List.flatMap_append]
    simp

theorem loopN_pushPts {n : Nat} {f : Nat → Mesh K → Res (Mesh K)} {g : Nat → List (P3 K)}
    (h : ∀ i < n, ∀ m : Mesh K, f i m = some (m.pushPts (g i))) (m : Mesh K) :
    loopN n f m = some (m.pushPts ((List.range n).flatMap g)) := by
  induction n with
  | zero => simp [loopN_zero, pushPts_nil]
  | succ n ih =>
    rw [loopN_succ, ih (fun i hi => h i (by omega)), Option.bind_some, h n (by omega),
      pushPts_push, List.range_succ, List.flatMap_append]
    simp

theorem cornerList_eq (m : Mesh K) : m.cornerList = m.view.linkedCorners := by
  unfold cornerList AMesh.linkedCorners
  have hl : m.nbTriangles.toNat = m.view.faces.length := by
    rw [(answers_view m).nbTriangles]; simp
  rw [hl, ← List.filterMap_eq_map, List.filterMap_filter, ← filterMap_range_getElem? m.view.faces]
  apply List.filterMap_congr
  intro i hi
  have hi' : i < m.view.faces.length := List.mem_range.1 hi
  rw [(answers_view m).unlinked, (answers_view m).corners]
  simp only [getI_natCast, List.getElem?_eq_getElem hi', Option.map_some, Option.bind_some,
    Option.some.injEq, Function.comp]
  cases h : m.view.faces[i].linked <;> simp [h]

/-- a mesh built from scratch: given vertices, given linked triangles -/
def build (m : Mesh K) (ps : List (P3 K)) (fs : List (Int × Int × Int)) : Mesh K :=
  (m.clear.pushPts ps).pushTris fs

theorem build_view (m : Mesh K) (ps fs) :
    (m.build ps fs).view = ⟨ps, fs.map (⟨·, true⟩), m.color⟩ := by
  unfold build
  rw [view_pushTris]
  rfl

theorem build_cornerList (m : Mesh K) (ps fs) : (m.build ps fs).cornerList = fs := by
  rw [cornerList_eq, build_view]
  unfold AMesh.linkedCorners
  rw [List.filter_map]
  simp only [Function.comp_def, List.filter_true, List.map_map, List.map_id']

theorem build_ok (m : Mesh K) {ps fs} (h : ∀ f ∈ fs, CornersIn ps.length f) :
    (m.build ps fs).OK := ((clear_ok m).pushPts _).pushTris (by simpa [Mesh.clear, KernLT.clear] using h)

theorem build_nbVertices (m : Mesh K) (ps fs) : (m.build ps fs).nbVertices = ps.length := by
  rw [(answers_view _).nbVertices, build_view]

theorem build_nbTriangles (m : Mesh K) (ps fs) : (m.build ps fs).nbTriangles = fs.length := by
  rw [(answers_view _).nbTriangles, build_view]; simp

theorem build_getVertex (m : Mesh K) (ps fs) (i) : (m.build ps fs).getVertex i = getI ps i := by
  rw [(answers_view _).getVertex, build_view]

theorem build_linked (m : Mesh K) (ps fs) (i : Int) (h0 : 0 ≤ i) (h : i < (m.build ps fs).nbTriangles) :
    (m.build ps fs).isTriangleUnlinked i = some false := by
  rw [build_nbTriangles] at h
  lift i to Nat using h0
  have hi : i < fs.length := by omega
  rw [(answers_view _).unlinked, build_view]; simp [hi]

theorem build_corners (m : Mesh K) (ps fs) (i : Int) :
    (m.build ps fs).getTriangleVertices i = getI fs i := by
  rw [(answers_view _).corners, build_view]
  simp only [getI_map, Option.map_map, Function.comp_def, Option.map_id']

end Mesh

/-- In a closed oriented surface there are three undirected edges for two
triangles. -/
theorem ClosedIds.edgeCount {fs : List (Int × Int × Int)} (h : ClosedIds fs) :
    2 * edgeCount fs = 3 * fs.length := by
  have hlen : (idEdges fs).length = 3 * fs.length := by
    unfold idEdges
    induction fs with
    | nil => rfl
    | cons f l ih => simp [List.flatMap_cons]; ring
  rw [← hlen]
  unfold CAD.edgeCount
  have h1 : (idEdges fs).length = (idEdges fs).toFinset.card :=
    (List.toFinset_card_of_nodup h.once).symm
  rw [h1]
  have h2 : ((idEdges fs).map fun e => s(e.1, e.2)).toFinset =
      (idEdges fs).toFinset.image fun e => s(e.1, e.2) := by
    ext x; simp
  rw [h2]
  have := Finset.card_eq_sum_card_image (fun e : Int × Int => s(e.1, e.2)) (idEdges fs).toFinset
  rw [this, Finset.sum_const_nat (m := 2), mul_comm]
  intro x hx
  obtain ⟨e, he, rfl⟩ := Finset.mem_image.1 hx
  have he' : e ∈ idEdges fs := by simpa using he
  have : (idEdges fs).toFinset.filter (fun a => s(a.1, a.2) = s(e.1, e.2)) = {e, e.swap} := by
    ext a
    simp only [Finset.mem_filter, List.mem_toFinset, Finset.mem_insert, Finset.mem_singleton,
      Sym2.eq_iff]
    constructor
    · rintro ⟨_, (⟨h1, h2⟩ | ⟨h1, h2⟩)⟩
      · exact Or.inl (Prod.ext h1 h2)
      · exact Or.inr (Prod.ext h1 h2)
    · rintro (rfl | rfl)
      · exact ⟨he', Or.inl ⟨rfl, rfl⟩⟩
      · exact ⟨h.reverse _ he', Or.inr ⟨rfl, rfl⟩⟩
  rw [this, Finset.card_pair]
  intro heq
  exact h.proper e he' (congrArg Prod.fst heq)

end CAD
