import Verif.Lemmas.Topology
import Verif.Model.MeshUtil
import Mathlib.Tactic.Ring
import Mathlib.Tactic.Linarith

/-! C22: `create_from_z` and `create_from_grid`. -/

set_option linter.unusedSimpArgs false

namespace CAD
namespace MeshUtil
open Mesh
variable {K : Type}

/-- vertex id of grid position `(i, j)` -/
def gid (X : Int) (p : Int × Int) : Int := p.1 + X * p.2

theorem gid_inj {X : Int} {p q : Int × Int} (hp : 0 ≤ p.1 ∧ p.1 < X) (hq : 0 ≤ q.1 ∧ q.1 < X)
    (h : gid X p = gid X q) : p = q := by
  obtain ⟨a, b⟩ := p
  obtain ⟨c, d⟩ := q
  simp only [gid] at *
  have hbd : b = d := by
    rcases lt_trichotomy b d with hlt | h | hgt
    · have : X * (b + 1) ≤ X * d := by apply mul_le_mul_of_nonneg_left <;> omega
      nlinarith
    · exact h
    · have : X * (d + 1) ≤ X * b := by apply mul_le_mul_of_nonneg_left <;> omega
      nlinarith
  subst hbd
  simp only [Prod.mk.injEq, and_true]
  omega

/-- cells of an `X × Y` grid, as `(j, i)` -/
def gridCells (X Y : Int) : List (Nat × Nat) :=
  List.range (Y - 1).toNat ×ˢ List.range (X - 1).toNat

/-- the two triangles of a cell, as grid positions -/
def cellTris (c : Nat × Nat) : List ((Int × Int) × (Int × Int) × (Int × Int)) :=
  let i : Int := c.2
  let j : Int := c.1
  [((i, j), (i + 1, j), (i + 1, j + 1)), ((i + 1, j + 1), (i, j + 1), (i, j))]

/-- ids of a triangle given by grid positions -/
def gidTri (X : Int) (t : (Int × Int) × (Int × Int) × (Int × Int)) : Int × Int × Int :=
  (gid X t.1, gid X t.2.1, gid X t.2.2)

/-- all triangles of the grid mesh -/
def gridFaces (X Y : Int) : List (Int × Int × Int) :=
  ((gridCells X Y).flatMap cellTris).map (gidTri X)

theorem gid_range {X Y : Int} {p : Int × Int} (h1 : 0 ≤ p.1 ∧ p.1 < X) (h2 : 0 ≤ p.2 ∧ p.2 < Y)
    {n : Nat} (hn : X * Y = n) : InRange n (gid X p) := by
  obtain ⟨a, b⟩ := p
  simp only [gid, InRange] at *
  rw [← hn]
  have h3 : 0 ≤ X * b := by apply mul_nonneg <;> omega
  have h4 : X * (b + 1) ≤ X * Y := by apply mul_le_mul_of_nonneg_left <;> omega
  constructor <;> nlinarith

theorem mem_gridCells {X Y : Int} {c : Nat × Nat} :
    c ∈ gridCells X Y ↔ (c.1 : Int) + 1 < Y ∧ (c.2 : Int) + 1 < X := by
  obtain ⟨j, i⟩ := c
  change (j, i) ∈ List.product _ _ ↔ _
  rw [List.pair_mem_product, List.mem_range, List.mem_range]
  simp only
  omega

theorem gridFaces_in {X Y : Int} {n : Nat} (hn : X * Y = n) :
    ∀ f ∈ gridFaces X Y, CornersIn n f := by
  intro f hf
  obtain ⟨t, ht, rfl⟩ := List.mem_map.1 hf
  obtain ⟨c, hc, ht⟩ := List.mem_flatMap.1 ht
  obtain ⟨h1, h2⟩ := mem_gridCells.1 hc
  simp only [cellTris, List.mem_cons, List.not_mem_nil, or_false] at ht
  rcases ht with rfl | rfl
  · exact ⟨gid_range (by simp; omega) (by simp; omega) hn, gid_range (by simp; omega) (by simp; omega) hn,
      gid_range (by simp; omega) (by simp; omega) hn⟩
  · exact ⟨gid_range (by simp; omega) (by simp; omega) hn, gid_range (by simp; omega) (by simp; omega) hn,
      gid_range (by simp; omega) (by simp; omega) hn⟩

theorem addGridQuads_eq (X Y : Int) (m : Mesh K) (hm : X * Y = m.kern.verts.length) :
    addGridQuads X Y m = some (m.pushTris (gridFaces X Y)) := by
  unfold addGridQuads
  have key : ∀ (j i : Nat), j < (Y - 1).toNat → i < (X - 1).toNat → ∀ s : Mesh K,
      s.kern.verts = m.kern.verts →
      s.addQuad (i + X * j) ((i + 1) + X * j) ((i + 1) + X * (j + 1)) (i + X * (j + 1)) =
        some (s.pushTris ((cellTris (j, i)).map (gidTri X))) := by
    intro j i hj hi s hs
    rw [addQuad_eq]
    have hin : ∀ f ∈ (cellTris (j, i)).map (gidTri X), CornersIn m.kern.verts.length f := by
      intro f hf
      apply gridFaces_in hm
      obtain ⟨t, ht, rfl⟩ := List.mem_map.1 hf
      exact List.mem_map_of_mem (List.mem_flatMap.2 ⟨(j, i), mem_gridCells.2 ⟨by simp; omega, by simp; omega⟩, ht⟩)
    rw [hs, if_pos]
    · rfl
    · exact ⟨hin _ (by simp [cellTris, gidTri, gid]), hin _ (by simp [cellTris, gidTri, gid])⟩
  rw [loopN_pushTris (g := fun j => (List.range (X - 1).toNat).flatMap fun i =>
    (cellTris (j, i)).map (gidTri X)) m.kern.verts]
  · congr 2
    unfold gridFaces gridCells
    rw [List.map_flatMap]
    simp only [List.product, List.flatMap_assoc, SProd.sprod, List.flatMap_map]
  · intro j hj s hs
    exact loopN_pushTris (g := fun i => (cellTris (j, i)).map (gidTri X)) m.kern.verts
      (fun i hi s hs => key j i hj hi s hs) s hs
  · rfl

/-- the four sides of the grid, counter-clockwise -/
def Perimeter (X Y : Int) (e : Int × Int) : Prop :=
  (∃ i, 0 ≤ i ∧ i + 1 < X ∧ e = (gid X (i, 0), gid X (i + 1, 0))) ∨
  (∃ j, 0 ≤ j ∧ j + 1 < Y ∧ e = (gid X (X - 1, j), gid X (X - 1, j + 1))) ∨
  (∃ i, 0 ≤ i ∧ i + 1 < X ∧ e = (gid X (i + 1, Y - 1), gid X (i, Y - 1))) ∨
  (∃ j, 0 ≤ j ∧ j + 1 < Y ∧ e = (gid X (0, j + 1), gid X (0, j)))

/-- directed edges of a cell as grid positions -/
def cellEdges (c : Nat × Nat) : List ((Int × Int) × (Int × Int)) :=
  let i : Int := c.2
  let j : Int := c.1
  [((i, j), (i + 1, j)), ((i + 1, j), (i + 1, j + 1)), ((i + 1, j + 1), (i, j)),
   ((i + 1, j + 1), (i, j + 1)), ((i, j + 1), (i, j)), ((i, j), (i + 1, j + 1))]

theorem idEdges_grid (X Y : Int) : idEdges (gridFaces X Y) =
    ((gridCells X Y).flatMap cellEdges).map (Prod.map (gid X) (gid X)) := by
  unfold idEdges gridFaces
  induction gridCells X Y with
  | nil => rfl
  | cons c l ih =>
    simp only [List.flatMap_cons, List.map_append, List.flatMap_append, ih]
    congr 1

/-- the cell an edge belongs to -/
def cellOf (e : (Int × Int) × (Int × Int)) : Nat × Nat :=
  let a := e.1.1
  let b := e.1.2
  let dx := e.2.1 - e.1.1
  let dy := e.2.2 - e.1.2
  if dx = 1 then (b.toNat, a.toNat)
  else if dx = 0 then (if dy = 1 then (b.toNat, (a - 1).toNat) else ((b - 1).toNat, a.toNat))
  else ((b - 1).toNat, (a - 1).toNat)

theorem pairEdges_nodup (X Y : Int) : ((gridCells X Y).flatMap cellEdges).Nodup := by
  refine nodup_of_cells (List.Nodup.product List.nodup_range List.nodup_range) _ cellOf ?_ ?_
  · rintro ⟨j, i⟩ _ e he
    simp only [cellEdges, List.mem_cons, List.not_mem_nil, or_false] at he
    rcases he with rfl | rfl | rfl | rfl | rfl | rfl <;> simp [cellOf]
  · rintro ⟨j, i⟩ _
    simp [cellEdges]

theorem mem_pairEdges {X Y : Int} {e : (Int × Int) × (Int × Int)} :
    e ∈ (gridCells X Y).flatMap cellEdges ↔ ∃ i j : Int, 0 ≤ i ∧ 0 ≤ j ∧ i + 1 < X ∧ j + 1 < Y ∧
      (e = ((i, j), (i + 1, j)) ∨ e = ((i + 1, j), (i + 1, j + 1)) ∨ e = ((i + 1, j + 1), (i, j)) ∨
       e = ((i + 1, j + 1), (i, j + 1)) ∨ e = ((i, j + 1), (i, j)) ∨ e = ((i, j), (i + 1, j + 1))) := by
  rw [List.mem_flatMap]
  constructor
  · rintro ⟨⟨j, i⟩, hc, he⟩
    obtain ⟨h1, h2⟩ := mem_gridCells.1 hc
    exact ⟨i, j, by omega, by omega, h2, h1, by simpa [cellEdges] using he⟩
  · rintro ⟨i, j, hi, hj, h1, h2, he⟩
    lift i to Nat using hi
    lift j to Nat using hj
    exact ⟨(j, i), mem_gridCells.2 ⟨h2, h1⟩, by simpa [cellEdges] using he⟩

theorem pairEdges_range {X Y : Int} {e} (h : e ∈ (gridCells X Y).flatMap cellEdges) :
    (0 ≤ e.1.1 ∧ e.1.1 < X) ∧ (0 ≤ e.2.1 ∧ e.2.1 < X) := by
  obtain ⟨i, j, hi, hj, h1, h2, he⟩ := mem_pairEdges.1 h
  rcases he with rfl | rfl | rfl | rfl | rfl | rfl <;> simp <;> omega

theorem grid_edges_nodup (X Y : Int) : (idEdges (gridFaces X Y)).Nodup := by
  rw [idEdges_grid]
  refine List.Nodup.map_on ?_ (pairEdges_nodup X Y)
  intro e he f hf h
  obtain ⟨a, b⟩ := pairEdges_range he
  obtain ⟨c, d⟩ := pairEdges_range hf
  simp only [Prod.map, Prod.mk.injEq] at h
  exact Prod.ext (gid_inj a c h.1) (gid_inj b d h.2)

/-- an edge given by grid positions occurs iff its ids occur -/
theorem mem_gridEdges {X Y : Int} {p q : Int × Int} (hp : 0 ≤ p.1 ∧ p.1 < X) (hq : 0 ≤ q.1 ∧ q.1 < X) :
    (gid X p, gid X q) ∈ idEdges (gridFaces X Y) ↔ (p, q) ∈ (gridCells X Y).flatMap cellEdges := by
  rw [idEdges_grid, List.mem_map]
  constructor
  · rintro ⟨e, he, h⟩
    obtain ⟨a, b⟩ := pairEdges_range he
    simp only [Prod.map, Prod.mk.injEq] at h
    have h1 := gid_inj a hp h.1
    have h2 := gid_inj b hq h.2
    rw [← h1, ← h2]; exact he
  · intro h; exact ⟨_, h, rfl⟩

theorem grid_boundary {X Y : Int} {e : Int × Int} (he : e ∈ idEdges (gridFaces X Y)) :
    e.swap ∉ idEdges (gridFaces X Y) ↔ Perimeter X Y e := by
  rw [idEdges_grid] at he
  obtain ⟨⟨p, q⟩, hpq, rfl⟩ := List.mem_map.1 he
  obtain ⟨hp, hq⟩ := pairEdges_range hpq
  simp only at hp hq
  simp only [Prod.map, Prod.swap]
  rw [mem_gridEdges hq hp]
  have hper : Perimeter X Y (gid X p, gid X q) ↔
      (∃ i, 0 ≤ i ∧ i + 1 < X ∧ p = (i, 0) ∧ q = (i + 1, 0)) ∨
      (∃ j, 0 ≤ j ∧ j + 1 < Y ∧ p = (X - 1, j) ∧ q = (X - 1, j + 1)) ∨
      (∃ i, 0 ≤ i ∧ i + 1 < X ∧ p = (i + 1, Y - 1) ∧ q = (i, Y - 1)) ∨
      (∃ j, 0 ≤ j ∧ j + 1 < Y ∧ p = (0, j + 1) ∧ q = (0, j)) := by
    unfold Perimeter
    simp only [Prod.mk.injEq]
    refine or_congr ?_ (or_congr ?_ (or_congr ?_ ?_)) <;>
    · refine exists_congr fun i => and_congr_right fun h1 => and_congr_right fun h2 => ?_
      constructor
      · rintro ⟨e1, e2⟩
        exact ⟨gid_inj hp (by simp; omega) e1, gid_inj hq (by simp; omega) e2⟩
      · rintro ⟨rfl, rfl⟩; exact ⟨rfl, rfl⟩
  rw [hper]
  obtain ⟨p1, p2⟩ := p
  obtain ⟨q1, q2⟩ := q
  obtain ⟨i, j, hi, hj, h1, h2, he⟩ := mem_pairEdges.1 hpq
  simp only [Prod.mk.injEq] at he
  constructor
  · intro hn
    by_contra hc
    apply hn
    rw [mem_pairEdges]
    simp only [Prod.mk.injEq]
    push Not at hc
    obtain ⟨c1, c2, c3, c4⟩ := hc
    have d1 := c1 i hi h1
    have d2 := c2 j hj h2
    have d3 := c3 i hi h1
    have d4 := c4 j hj h2
    simp only [Prod.mk.injEq, ne_eq, not_and, and_imp] at d1 d2 d3 d4
    rcases he with he | he | he | he | he | he
    · exact ⟨i, j - 1, by omega, by omega, by omega, by omega, by omega⟩
    · exact ⟨i + 1, j, by omega, by omega, by omega, by omega, by omega⟩
    · exact ⟨i, j, by omega, by omega, by omega, by omega, by omega⟩
    · exact ⟨i, j + 1, by omega, by omega, by omega, by omega, by omega⟩
    · exact ⟨i - 1, j, by omega, by omega, by omega, by omega, by omega⟩
    · exact ⟨i, j, by omega, by omega, by omega, by omega, by omega⟩
  · intro hper hs
    obtain ⟨i', j', hi', hj', h1', h2', he'⟩ := mem_pairEdges.1 hs
    simp only [Prod.mk.injEq] at he' hper
    rcases hper with ⟨k, _, _, ⟨rfl, rfl⟩, rfl, rfl⟩ | ⟨k, _, _, ⟨rfl, rfl⟩, rfl, rfl⟩ |
      ⟨k, _, _, ⟨rfl, rfl⟩, rfl, rfl⟩ | ⟨k, _, _, ⟨rfl, rfl⟩, rfl, rfl⟩ <;> omega

/-- Topology of an `X × Y` grid mesh (specification of C22): sizes, linked
triangles, consistent ids, every directed edge once; an edge has no opposite
edge exactly when it is on the perimeter. -/
structure GridTopology (X Y : Int) (r : Mesh K) : Prop where
  ok : r.OK
  vertices : r.nbVertices = X * Y
  triangles : r.nbTriangles = 2 * (X - 1) * (Y - 1)
  linked : ∀ i, 0 ≤ i → i < r.nbTriangles → r.isTriangleUnlinked i = some false
  once : (idEdges r.cornerList).Nodup
  boundary : ∀ e ∈ idEdges r.cornerList, (e.swap ∉ idEdges r.cornerList ↔ Perimeter X Y e)

theorem length_gridFaces {X Y : Int} (hX : 1 ≤ X) (hY : 1 ≤ Y) :
    ((gridFaces X Y).length : Int) = 2 * (X - 1) * (Y - 1) := by
  unfold gridFaces
  rw [List.length_map]
  have : ∀ l : List (Nat × Nat), (l.flatMap cellTris).length = 2 * l.length := by
    intro l
    induction l with
    | nil => rfl
    | cons c l ih => rw [List.flatMap_cons, List.length_append, ih]; simp [cellTris]; ring
  rw [this]
  unfold gridCells
  rw [List.length_product, List.length_range, List.length_range]
  push_cast
  rw [Int.toNat_of_nonneg (by omega), Int.toNat_of_nonneg (by omega)]
  ring

theorem gridTopology_build {X Y : Int} (hX : 1 ≤ X) (hY : 1 ≤ Y) (m : Mesh K) (ps : List (P3 K))
    (h : X * Y = ps.length) : GridTopology X Y (m.build ps (gridFaces X Y)) where
  ok := build_ok m (gridFaces_in h)
  vertices := by rw [build_nbVertices, h]
  triangles := by rw [build_nbTriangles, length_gridFaces hX hY]
  linked := build_linked m ps _
  once := by rw [build_cornerList]; exact grid_edges_nodup X Y
  boundary := by rw [build_cornerList]; intro e he; exact grid_boundary he

theorem range_grid_getElem? {α : Type} (X Y : Nat) (g : Nat → Nat → α) (i j : Nat) (hi : i < X) (hj : j < Y) :
    ((List.range Y).flatMap fun j => (List.range X).map fun i => g j i)[i + X * j]? = some (g j i) := by
  induction Y with
  | zero => omega
  | succ Y ih =>
    rw [List.range_succ, List.flatMap_append]
    have hlen : ((List.range Y).flatMap fun j => (List.range X).map fun i => g j i).length = X * Y := by
      clear ih hj
      induction Y with
      | zero => simp
      | succ Y ih => rw [List.range_succ, List.flatMap_append, List.length_append, ih]; simp; ring
    rcases Nat.lt_succ_iff_lt_or_eq.1 hj with h | rfl
    · rw [List.getElem?_append_left]
      · exact ih h
      · rw [hlen]
        have : X * (j + 1) ≤ X * Y := Nat.mul_le_mul_left _ h
        nlinarith
    · rw [List.getElem?_append_right (by rw [hlen]; omega), hlen]
      simp [hi]

theorem length_range_grid {α : Type} (X Y : Nat) (g : Nat → Nat → α) :
    ((List.range Y).flatMap fun j => (List.range X).map fun i => g j i).length = X * Y := by
  induction Y with
  | zero => simp
  | succ Y ih => rw [List.range_succ, List.flatMap_append, List.length_append, ih]; simp; ring

/-- a list read row by row is itself -/
theorem range_grid_self {α : Type} (X Y : Nat) (l : List α) (h : X * Y = l.length) :
    ((List.range Y).flatMap fun j => (List.range X).flatMap fun i => (l[i + X * j]?).toList) = l := by
  induction Y generalizing l with
  | zero => simp at h; simp [List.length_eq_zero_iff.1 h.symm]
  | succ Y ih =>
    rw [List.range_succ, List.flatMap_append]
    have h1 : ((List.range Y).flatMap fun j => (List.range X).flatMap fun i => (l[i + X * j]?).toList) =
        l.take (X * Y) := by
      rw [← ih (l.take (X * Y)) (by rw [List.length_take]; rw [← h]; exact (min_eq_left (by nlinarith)).symm)]
      refine List.flatMap_congr fun j hj => List.flatMap_congr fun i hi => ?_
      have hj := List.mem_range.1 hj
      have hi := List.mem_range.1 hi
      rw [List.getElem?_take, if_pos]
      have : X * (j + 1) ≤ X * Y := Nat.mul_le_mul_left _ hj
      nlinarith
    have h2 : ([Y].flatMap fun j => (List.range X).flatMap fun i => (l[i + X * j]?).toList) =
        l.drop (X * Y) := by
      have hd : (l.drop (X * Y)).length = X := by rw [List.length_drop, ← h]; ring_nf; omega
      have : ∀ (l : List α), (List.range l.length).flatMap (fun i => (l[i]?).toList) = l := by
        intro l
        have := filterMap_range_getElem? l some
        simpa [List.filterMap_eq_flatMap_toList] using this
      have h3 := this (l.drop (X * Y))
      rw [hd] at h3
      conv_rhs => rw [← h3]
      simp only [List.flatMap_cons, List.flatMap_nil, List.append_nil]
      refine List.flatMap_congr fun i _ => ?_
      rw [List.getElem?_drop, Nat.add_comm]
    rw [h1, h2, List.take_append_drop]

/-- **C22** `create_from_grid`: vertices in the given order, grid topology; if the
sizes do not match the assertion fails. -/
theorem create_from_grid_spec (vp : List (P3 K)) (X Y : Int) (hX : 1 ≤ X) (hY : 1 ≤ Y) (m : Mesh K) :
    (X * Y = vp.length → ∃ r, createFromGrid vp X Y m = some r ∧ GridTopology X Y r ∧
      (∀ i, r.getVertex i = getI vp i) ∧ r.getColor = m.getColor) ∧
    (X * Y ≠ vp.length → createFromGrid vp X Y m = none) := by
  constructor
  · intro h
    lift X to Nat using (by omega)
    lift Y to Nat using (by omega)
    have hXY : X * Y = vp.length := by exact_mod_cast h
    have hverts : loopN (Y : Int).toNat (fun (j : Nat) m =>
        loopN (X : Int).toNat (fun (i : Nat) (m : Mesh K) => (do
          let p ← getI vp (i + X * j)
          return (m.addVertex p).1 : Res (Mesh K))) m) m.clear = some (m.clear.pushPts vp) := by
      rw [loopN_pushPts (g := fun j => (List.range X).flatMap fun i => (vp[i + X * j]?).toList)]
      · rw [Int.toNat_natCast, range_grid_self X Y vp hXY]
      · intro j hj s
        rw [loopN_pushPts (g := fun i => (vp[i + X * j]?).toList)]
        · simp
        · intro i hi s
          have hi' : i < X := by simpa using hi
          have hj' : j < Y := by simpa using hj
          have hlt : i + X * j < vp.length := by
            rw [← hXY]
            have : X * (j + 1) ≤ X * Y := Nat.mul_le_mul_left _ hj'
            nlinarith
          have hg : getI vp ((i : Int) + (X : Int) * (j : Int)) = some vp[i + X * j] := by
            have : ((i : Int) + (X : Int) * (j : Int)) = ((i + X * j : Nat) : Int) := by push_cast; rfl
            rw [this, getI_natCast, List.getElem?_eq_getElem hlt]
          simp [hg, addVertex_eq, List.getElem?_eq_getElem hlt]
    refine ⟨m.build vp (gridFaces X Y), ?_, gridTopology_build hX hY m vp h, build_getVertex m vp _, rfl⟩
    unfold createFromGrid
    simp only [assert, h, if_true, Option.bind_eq_bind, Option.bind_some]
    simp only [Option.bind_eq_bind] at hverts
    rw [hverts, Option.bind_some, addGridQuads_eq]
    · rfl
    · simpa [Mesh.clear, KernLT.clear] using h
  · intro h
    unfold createFromGrid
    simp [assert, h]

/-- **C22** `create_from_z`: vertex `i + X·j` is `(i, j, z[i + X·j])`; grid topology. -/
theorem create_from_z_spec [Field K] (vz : List K) (X Y : Int) (hX : 1 ≤ X) (hY : 1 ≤ Y) (m : Mesh K) :
    (X * Y = vz.length → ∃ r, createFromZ vz X Y m = some r ∧ GridTopology X Y r ∧
      (∀ i j, 0 ≤ i → i < X → 0 ≤ j → j < Y → r.getVertex (i + X * j) =
        (getI vz (i + X * j)).map fun z => ⟨(i : K), (j : K), z⟩) ∧ r.getColor = m.getColor) ∧
    (X * Y ≠ vz.length → createFromZ vz X Y m = none) := by
  constructor
  · intro h
    lift X to Nat using (by omega)
    lift Y to Nat using (by omega)
    have hXY : X * Y = vz.length := by exact_mod_cast h
    let g : Nat → Nat → P3 K := fun j i => ⟨(i : K), (j : K), (vz[i + X * j]?).getD 0⟩
    let ps := (List.range Y).flatMap fun j => (List.range X).map fun i => g j i
    have hps : ps.length = X * Y := length_range_grid X Y g
    have hverts : loopN (Y : Int).toNat (fun (y : Nat) s =>
        loopN (X : Int).toNat (fun (x : Nat) (s : Mesh K × Int) => (do
          let z ← getI vz s.2
          return ((s.1.addVertex ⟨(x : K), (y : K), z⟩).1, s.2 + 1) : Res (Mesh K × Int))) s)
        (m.clear, (0 : Int)) = some (m.clear.pushPts ps, ((X * Y : Nat) : Int)) := by
      obtain ⟨s, h1, h2⟩ := loopN_inv (n := Y) (s := (m.clear, (0 : Int)))
        (f := fun (y : Nat) s =>
          loopN (X : Int).toNat (fun (x : Nat) (s : Mesh K × Int) => (do
            let z ← getI vz s.2
            return ((s.1.addVertex ⟨(x : K), (y : K), z⟩).1, s.2 + 1) : Res (Mesh K × Int))) s)
        (fun y s => s = (m.clear.pushPts ((List.range y).flatMap fun j => (List.range X).map fun i => g j i),
          ((X * y : Nat) : Int))) (by simp [pushPts_nil]) (by
          rintro y hy s rfl
          refine ⟨_, ?_, rfl⟩
          obtain ⟨s, h1, h2⟩ := loopN_inv (n := X)
            (s := (m.clear.pushPts ((List.range y).flatMap fun j => (List.range X).map fun i => g j i),
              ((X * y : Nat) : Int)))
            (f := fun (x : Nat) (s : Mesh K × Int) => (do
              let z ← getI vz s.2
              return ((s.1.addVertex ⟨(x : K), (y : K), z⟩).1, s.2 + 1) : Res (Mesh K × Int)))
            (fun x s => s = (m.clear.pushPts (((List.range y).flatMap fun j =>
                (List.range X).map fun i => g j i) ++ (List.range x).map fun i => g y i),
              ((X * y + x : Nat) : Int))) (by simp) (by
              rintro x hx s rfl
              have hlt : X * y + x < vz.length := by
                rw [← hXY]
                have : X * (y + 1) ≤ X * Y := Nat.mul_le_mul_left _ hy
                nlinarith
              refine ⟨_, ?_, rfl⟩
              simp only [getI_natCast, List.getElem?_eq_getElem hlt, Option.bind_eq_bind,
                Option.bind_some, addVertex_eq, pushPts_push, Option.pure_def, Option.some.injEq,
                Prod.mk.injEq]
              refine ⟨?_, by push_cast; ring⟩
              congr 1
              rw [List.range_succ, List.map_append, ← List.append_assoc]
              congr 1
              simp only [List.map_cons, List.map_nil, g, Nat.add_comm x, List.getElem?_eq_getElem hlt,
                Option.getD_some])
          rw [Int.toNat_natCast, h1, h2]
          simp only [Option.some.injEq, Prod.mk.injEq]
          refine ⟨?_, by push_cast; ring⟩
          congr 1
          rw [List.range_succ, List.flatMap_append]
          simp)
      rw [Int.toNat_natCast, h1, h2]
    refine ⟨m.build ps (gridFaces X Y), ?_, gridTopology_build hX hY m ps ?_, ?_, rfl⟩
    · unfold createFromZ
      simp only [assert, h, if_true, Option.bind_eq_bind, Option.bind_some]
      simp only [Option.bind_eq_bind] at hverts
      rw [hverts, Option.bind_some]
      simp only
      rw [addGridQuads_eq]
      · rfl
      · simp only [pushPts_verts, Mesh.clear, KernLT.clear, List.nil_append, hps]; push_cast; rfl
    · rw [hps]; push_cast; rfl
    · intro i j hi0 hi hj0 hj
      lift i to Nat using hi0
      lift j to Nat using hj0
      have hi' : i < X := by omega
      have hj' : j < Y := by omega
      have hlt : i + X * j < vz.length := by
        rw [← hXY]
        have : X * (j + 1) ≤ X * Y := Nat.mul_le_mul_left _ hj'
        nlinarith
      have e : ((i : Int) + (X : Int) * (j : Int)) = ((i + X * j : Nat) : Int) := by push_cast; rfl
      rw [e, build_getVertex, getI_natCast, getI_natCast, range_grid_getElem? X Y g i j hi' hj',
        List.getElem?_eq_getElem hlt]
      simp [g, List.getElem?_eq_getElem hlt]
  · intro h
    unfold createFromZ
    simp [assert, h]

/-- A concrete 3 × 2 grid meets the hypotheses. -/
example : (createFromZ [1, 2, 3, 4, 5, (6 : ℚ)] 3 2 Mesh.new).map
    (fun r => (r.nbVertices, r.nbTriangles, r.getVertex 4)) = some (6, 4, some ⟨1, 1, 5⟩) := by
  decide +kernel

end MeshUtil
end CAD
