import Verif.Props.Merge
import Verif.Props.Stl
import Verif.Props.Float32
import Verif.Props.Platonic

/-! C104: welding a triangle soup, and the way of a closed mesh through an STL file. -/

set_option linter.unusedSimpArgs false

namespace CAD
open Mesh

/-- A closed surface given by positions only: each directed edge occurs once, its reverse occurs,
no edge has length zero (specification; `ClosedIds` with points in place of ids). -/
structure ClosedPoints {K : Type} (ts : List (Tri3 K)) : Prop where
  once : (ts.flatMap Tri3.dirEdges).Nodup
  reverse : ∀ e ∈ ts.flatMap Tri3.dirEdges, e.swap ∈ ts.flatMap Tri3.dirEdges
  proper : ∀ e ∈ ts.flatMap Tri3.dirEdges, e.1 ≠ e.2

namespace MeshUtil
variable {K : Type}

/-- the position of an id -/
def posOf [Zero K] (m : Mesh K) (i : Int) : P3 K := (m.getVertex i).getD ⟨0, 0, 0⟩

theorem triangles_pos [Zero K] {r : Mesh K} (hr : r.OK) :
    r.triangles = r.cornerList.map (fun f => ⟨posOf r f.1, posOf r f.2.1, posOf r f.2.2⟩) ∧
    ∀ f ∈ r.cornerList, r.getVertex f.1 = some (posOf r f.1) ∧ r.getVertex f.2.1 = some (posOf r f.2.1) ∧ r.getVertex f.2.2 = some (posOf r f.2.2) := by
  have hv := linkedCorners_valid ((ok_iff r).1 hr).valid
  rw [cornerList_eq, triangles_eq]
  unfold soup
  have key : ∀ f ∈ r.view.linkedCorners, r.getVertex f.1 = some (posOf r f.1) ∧ r.getVertex f.2.1 = some (posOf r f.2.1) ∧ r.getVertex f.2.2 = some (posOf r f.2.2) := by
    intro f hf
    obtain ⟨h1, h2, h3⟩ := hv f hf
    obtain ⟨p, hp⟩ := Option.isSome_iff_exists.1 (getI_isSome_iff.2 h1)
    obtain ⟨q, hq⟩ := Option.isSome_iff_exists.1 (getI_isSome_iff.2 h2)
    obtain ⟨w, hw⟩ := Option.isSome_iff_exists.1 (getI_isSome_iff.2 h3)
    simp only [posOf, (answers_view r).getVertex, hp, hq, hw, Option.getD_some, and_self]
  refine ⟨?_, key⟩
  rw [← List.filterMap_eq_map]
  apply List.filterMap_congr
  intro f hf
  obtain ⟨h1, h2, h3⟩ := key f hf
  rw [(answers_view r).getVertex] at h1 h2 h3
  simp only [AMesh.tri, h1, h2, h3, Option.bind_eq_bind, Option.bind_some, pure, Function.comp_apply]

theorem edges_pos [Zero K] {r : Mesh K} (hr : r.OK) : r.triangles.flatMap Tri3.dirEdges =
    (idEdges r.cornerList).map fun e => (posOf r e.1, posOf r e.2) := by
  rw [(triangles_pos hr).1]
  simp [idEdges, List.flatMap_map, List.map_flatMap, Tri3.dirEdges]

theorem edge_vertices [Zero K] {r : Mesh K} (hr : r.OK) {e : Int × Int} (he : e ∈ idEdges r.cornerList) :
    r.getVertex e.1 = some (posOf r e.1) ∧ r.getVertex e.2 = some (posOf r e.2) := by
  unfold idEdges at he
  obtain ⟨f, hf, he⟩ := List.mem_flatMap.1 he
  obtain ⟨h1, h2, h3⟩ := (triangles_pos hr).2 f hf
  simp only [List.mem_cons, List.not_mem_nil, or_false] at he
  rcases he with rfl | rfl | rfl
  exacts [⟨h1, h2⟩, ⟨h2, h3⟩, ⟨h3, h1⟩]

/-- distinct ids are at distinct positions -/
def DistinctPositions (m : Mesh K) : Prop := ∀ i j p, m.getVertex i = some p → m.getVertex j = some p → i = j

/-- for a mesh without two vertices at one place, closed by ids and closed by positions is the same -/
theorem closedIds_iff_points [Zero K] {r : Mesh K} (hr : r.OK) (hd : DistinctPositions r) :
    ClosedIds r.cornerList ↔ ClosedPoints r.triangles := by
  have hinj : ∀ a ∈ idEdges r.cornerList, ∀ b ∈ idEdges r.cornerList, (posOf r a.1, posOf r a.2) = (posOf r b.1, posOf r b.2) → a = b := by
    intro a ha b hb e
    obtain ⟨a1, a2⟩ := edge_vertices hr ha
    obtain ⟨b1, b2⟩ := edge_vertices hr hb
    rw [Prod.mk.injEq] at e
    rw [← e.1] at b1
    rw [← e.2] at b2
    exact Prod.ext (hd _ _ _ a1 b1) (hd _ _ _ a2 b2)
  have hE := edges_pos hr
  constructor
  · intro h
    refine ⟨?_, ?_, ?_⟩ <;> rw [hE]
    · exact List.Nodup.map_on hinj h.once
    · intro e he
      obtain ⟨x, hx, rfl⟩ := List.mem_map.1 he
      exact List.mem_map.2 ⟨x.swap, h.reverse x hx, rfl⟩
    · intro e he
      obtain ⟨x, hx, rfl⟩ := List.mem_map.1 he
      obtain ⟨a1, a2⟩ := edge_vertices hr hx
      intro hc
      simp only at hc
      rw [← hc] at a2
      exact h.proper x hx (hd _ _ _ a1 a2)
  · intro h
    have o := h.once
    rw [hE] at o
    refine ⟨List.Nodup.of_map _ o, ?_, ?_⟩
    · intro e he
      have := h.reverse (posOf r e.1, posOf r e.2) (by rw [hE]; exact List.mem_map.2 ⟨e, he, rfl⟩)
      rw [hE] at this
      obtain ⟨x, hx, hxe⟩ := List.mem_map.1 this
      simp only [Prod.swap_prod_mk, Prod.mk.injEq] at hxe
      obtain ⟨a1, a2⟩ := edge_vertices hr he
      obtain ⟨b1, b2⟩ := edge_vertices hr hx
      rw [hxe.1] at b1
      rw [hxe.2] at b2
      have : x = e.swap := Prod.ext (hd _ _ _ b1 a2) (hd _ _ _ b2 a1)
      rwa [← this]
    · intro e he hc
      exact h.proper (posOf r e.1, posOf r e.2) (by rw [hE]; exact List.mem_map.2 ⟨e, he, rfl⟩) (by rw [hc])

variable [Field K] [LinearOrder K] [IsStrictOrderedRing K]

/-- different positions of vertices are at least the tolerance apart -/
def Separated (m : Mesh K) (tol : K) : Prop :=
  ∀ i j p q, m.getVertex i = some p → m.getVertex j = some q → p ≠ q → tol * tol ≤ p.distSq q

/-- C104.  `merge_vertices` with a tolerance below the distances of different positions welds: the
triangles keep their places, there is one vertex for each position, and the mesh is closed by ids
if and only if the triangles are closed by positions. -/
theorem merge_welds (m : Mesh K) (hm : m.OK) (tol : K) (ht : tol ≠ 0) (hs : Separated m tol) :
    ∃ r, mergeVertices m tol = some r ∧ r.OK ∧ r.triangles = m.triangles ∧ DistinctPositions r ∧
      (∀ p, (∃ i, r.getVertex i = some p) ↔ ∃ i, m.getVertex i = some p) ∧
      (ClosedIds r.cornerList ↔ ClosedPoints m.triangles) := by
  obtain ⟨r, hr, h1, h2, h3⟩ := merge_respects_tolerance 0 m hm tol
  obtain ⟨r', hr', hok, -⟩ := merge_keeps_triangles m hm tol
  have hrr : r' = r := by
    have := hr'.symm.trans hr
    exact Option.some.inj this
  subst hrr
  have hd : DistinctPositions r' := by
    intro i j p hi hj
    by_contra hne
    have := h1 i j p p hne hi hj
    have h0 : p.distSq p = 0 := by simp [P3.distSq]
    rw [h0] at this
    have : 0 < tol * tol := mul_self_pos.2 ht
    linarith
  have hcorner : ∀ {x : Mesh K}, x.OK → ∀ t ∈ x.triangles, (∃ i, x.getVertex i = some t.p1) ∧ (∃ i, x.getVertex i = some t.p2) ∧ (∃ i, x.getVertex i = some t.p3) := by
    intro x hx t htx
    rw [(triangles_pos hx).1] at htx
    obtain ⟨f, hf, rfl⟩ := List.mem_map.1 htx
    obtain ⟨a, b, c⟩ := (triangles_pos hx).2 f hf
    exact ⟨⟨_, a⟩, ⟨_, b⟩, ⟨_, c⟩⟩
  have hfix : ∀ p q : P3 K, Moved tol p q → (∃ i, m.getVertex i = some p) → (∃ i, r'.getVertex i = some q) → q = p := by
    rintro p q (h | h) ⟨i, hi⟩ ⟨j, hj⟩
    · exact h
    · obtain ⟨k, hk⟩ := h2 j q hj
      by_contra hne
      exact absurd (hs i k p q hi hk fun e => hne e.symm) (not_le.2 h)
  have htri : r'.triangles = m.triangles := by
    have : List.Forall₂ (· = ·) m.triangles r'.triangles := by
      refine (List.forall₂_iff_get.2 ⟨h3.length_eq, fun i hi hi' => ?_⟩)
      obtain ⟨d1, d2, d3⟩ := (List.forall₂_iff_get.1 h3).2 i hi hi'
      obtain ⟨a1, a2, a3⟩ := hcorner hm _ (List.get_mem m.triangles ⟨i, hi⟩)
      obtain ⟨b1, b2, b3⟩ := hcorner hok _ (List.get_mem r'.triangles ⟨i, hi'⟩)
      exact Tri3.ext (hfix _ _ d1 a1 b1).symm (hfix _ _ d2 a2 b2).symm (hfix _ _ d3 a3 b3).symm
    exact (List.forall₂_eq_eq_eq ▸ this : m.triangles = r'.triangles).symm
  refine ⟨r', hr', hok, htri, hd, ?_, ?_⟩
  · intro p
    constructor
    · rintro ⟨i, hi⟩
      exact h2 i p hi
    · rintro ⟨i, hi⟩
      obtain ⟨al, hA, h⟩ := mergeVertices_eq 0 hm tol
      have hri : r' = _ := Option.some.inj (hr.symm.trans h)
      rw [(answers_view m).getVertex] at hi
      obtain ⟨k, rfl, hk⟩ := getI_eq_some_iff.1 hi
      replace hk : m.kern.verts[k]? = some p := hk
      have hkl := (List.getElem?_eq_some_iff.1 hk).1
      obtain ⟨j, -, -, q, hq, hor⟩ := newId_spec hA hkl
      have hv : r'.getVertex j = some q := by
        rw [(answers_view _).getVertex, getI_natCast, hri]
        exact hq
      have hpk : m.kern.verts[k] = p := (List.getElem?_eq_some_iff.1 hk).2
      rw [hpk] at hor
      have : q = p := hfix p q (hor.imp_right nearTol_iff.1) ⟨k, by rw [(answers_view m).getVertex]; exact hi⟩ ⟨j, hv⟩
      exact ⟨j, by rw [← this]; exact hv⟩
  · rw [closedIds_iff_points hok hd, htri]

/-- C104.  A closed mesh saved as STL, loaded into any mesh and merged with a small tolerance is
closed again: the triangles are the saved ones with their coordinates as `float`s, vertices are
shared, and edges pair up by ids.  `rnd` is the conversion to `float` and back of the three
coordinates; it has to keep the vertices of the mesh at least the tolerance apart. -/
theorem stl_weld {enc : K → List Byte} (he : ∀ x, (enc x).length = 4) (dec : List Byte → K) {m : Mesh K} (hm : m.OK)
    (hc : ClosedIds m.cornerList) (hn : 3 * m.triangles.length ≤ 2147483647) (tol : K) (ht : tol ≠ 0)
    (hs : ∀ i j p q, m.getVertex i = some p → m.getVertex j = some q → i ≠ j →
      tol * tol ≤ (Stl.throughFile enc dec p).distSq (Stl.throughFile enc dec q)) :
    ∃ bytes, Stl.save enc m = some bytes ∧ ∀ m0 : Mesh K, ∃ m' r, Stl.load dec (some bytes) m0 = some (true, m') ∧
      mergeVertices m' tol = some r ∧ r.OK ∧ r.triangles = m.triangles.map (Tri3.map (Stl.throughFile enc dec)) ∧
      DistinctPositions r ∧ ClosedIds r.cornerList := by
  obtain ⟨bytes, hb, hl⟩ := Stl.stl_roundtrip he dec hm hn
  refine ⟨bytes, hb, fun m0 => ?_⟩
  obtain ⟨m', hl', hok, htr, -, -, hv, -⟩ := hl m0
  have h0 : ∀ p : P3 K, p.distSq p = 0 := fun p => by simp [P3.distSq]
  have hpos : 0 < tol * tol := mul_self_pos.2 ht
  have hfrom : ∀ i p, m'.getVertex i = some p → ∃ j q, m.getVertex j = some q ∧ p = Stl.throughFile enc dec q := by
    intro i p hi
    obtain ⟨t, htm, hp⟩ := hv i p hi
    rw [htr] at htm
    obtain ⟨u, hu, rfl⟩ := List.mem_map.1 htm
    rw [(triangles_pos hm).1] at hu
    obtain ⟨f, hf, rfl⟩ := List.mem_map.1 hu
    obtain ⟨a, b, c⟩ := (triangles_pos hm).2 f hf
    rcases hp with rfl | rfl | rfl
    exacts [⟨_, _, a, rfl⟩, ⟨_, _, b, rfl⟩, ⟨_, _, c, rfl⟩]
  have hsep : Separated m' tol := by
    intro i j p q hi hj hne
    obtain ⟨a, p', ha, rfl⟩ := hfrom i p hi
    obtain ⟨b, q', hb, rfl⟩ := hfrom j q hj
    refine hs a b p' q' ha hb ?_
    rintro rfl
    rw [ha] at hb
    exact hne (by rw [Option.some.inj hb])
  obtain ⟨r, h1, h2, h3, h4, -, h6⟩ := merge_welds m' hok tol ht hsep
  refine ⟨m', r, hl', h1, h2, h3.trans htr, h4, h6.2 ?_⟩
  rw [htr]
  -- the rounded triangles are closed by positions
  have hE : (m.triangles.map (Tri3.map (Stl.throughFile enc dec))).flatMap Tri3.dirEdges =
      (idEdges m.cornerList).map fun e => (Stl.throughFile enc dec (posOf m e.1), Stl.throughFile enc dec (posOf m e.2)) := by
    rw [(triangles_pos hm).1]
    simp [idEdges, List.flatMap_map, List.map_flatMap, Tri3.dirEdges, Tri3.map]
  have hid : ∀ i j, m.getVertex i = some (posOf m i) → m.getVertex j = some (posOf m j) →
      Stl.throughFile enc dec (posOf m i) = Stl.throughFile enc dec (posOf m j) → i = j := by
    intro i j hi hj e
    by_contra hne
    have := hs i j _ _ hi hj hne
    rw [e, h0] at this
    linarith
  refine ⟨?_, ?_, ?_⟩ <;> rw [hE]
  · refine List.Nodup.map_on ?_ hc.once
    intro a ha b hb e
    obtain ⟨a1, a2⟩ := edge_vertices hm ha
    obtain ⟨b1, b2⟩ := edge_vertices hm hb
    rw [Prod.mk.injEq] at e
    exact Prod.ext (hid _ _ a1 b1 e.1) (hid _ _ a2 b2 e.2)
  · intro e he
    obtain ⟨x, hx, rfl⟩ := List.mem_map.1 he
    exact List.mem_map.2 ⟨x.swap, hc.reverse x hx, rfl⟩
  · intro e he
    obtain ⟨x, hx, rfl⟩ := List.mem_map.1 he
    obtain ⟨a1, a2⟩ := edge_vertices hm hx
    exact fun hcc => hc.proper x hx (hid _ _ a1 a2 hcc)

/-- C104.  Merging is needed: without it a mesh loaded from the file of a mesh with triangles never
is closed by ids. -/
theorem stl_load_not_welded {enc : K → List Byte} (he : ∀ x, (enc x).length = 4) (dec : List Byte → K) {m : Mesh K} (hm : m.OK)
    (hn : 3 * m.triangles.length ≤ 2147483647) (h0 : m.triangles ≠ []) :
    ∃ bytes, Stl.save enc m = some bytes ∧ ∀ m0 : Mesh K, ∃ m', Stl.load dec (some bytes) m0 = some (true, m') ∧
      ¬ ClosedIds m'.cornerList := by
  obtain ⟨bytes, hb, hl⟩ := Stl.stl_roundtrip he dec hm hn
  refine ⟨bytes, hb, fun m0 => ?_⟩
  obtain ⟨m', hl', -, -, -, -, -, hc⟩ := hl m0
  refine ⟨m', hl', fun h => ?_⟩
  have hpos : 0 < m.triangles.length := List.length_pos_iff.2 h0
  have h1 : ((0 : Int), (1 : Int)) ∈ idEdges m'.cornerList := by
    rw [hc]
    unfold idEdges
    exact List.mem_flatMap.2 ⟨(0, 1, 2), List.mem_map.2 ⟨0, List.mem_range.2 hpos, rfl⟩, by simp⟩
  have h2 := h.reverse _ h1
  rw [hc] at h2
  unfold idEdges at h2
  obtain ⟨f, hf, h2⟩ := List.mem_flatMap.1 h2
  obtain ⟨k, -, rfl⟩ := List.mem_map.1 hf
  simp only [Prod.swap_prod_mk, List.mem_cons, Prod.mk.injEq, List.not_mem_nil, or_false] at h2
  omega

/-- the cube with corners `±1/3` through a file of IEEE single precision numbers: 28 of the 36
loaded vertices are merged -/
example : (do
    let m ← Factory.createBox (2 / 3) (2 / 3) (2 / 3) Mesh.new
    let b ← Stl.save F32.enc m
    let (_, m') ← Stl.load F32.dec (some b) Mesh.new
    let r ← mergeVertices m' (1 / 10)
    return (m'.nbVertices, r.nbVertices, decide (ClosedIds m'.cornerList), decide (ClosedIds r.cornerList)) : Res (Int × Int × Bool × Bool)) =
      some (36, 8, false, true) := by decide +kernel

end MeshUtil
end CAD
