import Verif.Props.Bezier
import Verif.Lemmas.Topology
import Mathlib.Tactic.Linarith
import Mathlib.Tactic.IntervalCases
import Mathlib.Tactic.Zify

/-! C42: what `QuadBezierTriangle::add_to_mesh` produces. -/

set_option linter.unusedSimpArgs false
set_option linter.unusedSectionVars false

namespace CAD
open Mesh
namespace QuadBez
variable {K : Type} [Field K] [LinearOrder K] [IsStrictOrderedRing K]

/-- the points added, row by row -/
def bezPts (n : Nat) (g : Par → P3 K) : List (P3 K) :=
  (List.range (n + 1)).flatMap fun is => (List.range (n + 1 - is)).map fun iu => g (is, iu)

theorem addVertices_eq (q : QuadBez K) (n : Nat) (g : Par → P3 K)
    (hg : ∀ x : Par, x.1 + x.2 ≤ n → q.eval2 ((x.1 : K) / n) ((x.2 : K) / n) = some (g x)) (m : Mesh K) :
    q.addVertices n m = some (m.pushPts (bezPts n g)) := by
  unfold addVertices bezPts
  rw [show ((n : Int) + 1).toNat = n + 1 by omega]
  apply loopN_pushPts
  intro i hi m
  rw [show ((n : Int) - i + 1).toNat = n + 1 - i by omega]
  rw [show ((List.range (n + 1 - i)).map fun iu => g (i, iu)) =
    (List.range (n + 1 - i)).flatMap fun iu => [g (i, iu)] from List.map_eq_flatMap]
  apply loopN_pushPts
  intro j hj m
  have := hg (i, j) (by simp only; omega)
  simp only at this
  simp only [Int.cast_natCast, this, addVertex_eq]
  rfl

theorem length_bezPts (n : Nat) (g : Par → P3 K) : (bezPts n g).length = row n (n + 1) := by
  simp [bezPts, row, List.length_flatMap]

theorem bezPts_get (n : Nat) (g : Par → P3 K) (i j : Nat) (h : i + j ≤ n) :
    (bezPts n g)[row n i + j]? = some (g (i, j)) := by
  have := flatMap_range_getElem? (fun is => (List.range (n + 1 - is)).map fun iu => g (is, iu)) (n + 1) i j
    (by omega) (by simp; omega)
  simp only [List.length_map, List.length_range] at this
  unfold bezPts row
  rw [this]
  have hj : j < n + 1 - i := by omega
  simp [hj]

theorem parId_lt (n : Nat) (base : Nat) (x : Par) (h : x.1 + x.2 ≤ n) :
    InRange (base + row n (n + 1)) (parId n base x) := by
  have h1 := row_mono n (show x.1 + 1 ≤ n + 1 by omega)
  rw [row_succ] at h1
  unfold InRange parId
  push_cast
  omega

theorem bezFaces_valid (n base : Nat) : ∀ f ∈ bezFaces n base, CornersIn (base + row n (n + 1)) f := by
  intro f hf
  rw [bezFaces_eq] at hf
  obtain ⟨t, ht, rfl⟩ := List.mem_map.1 hf
  obtain ⟨h1, h2, h3⟩ := bezPars_in t ht
  exact ⟨parId_lt n base _ h1, parId_lt n base _ h2, parId_lt n base _ h3⟩

theorem addTriangles_eq (n base : Nat) (m : Mesh K) (hm : m.kern.verts.length = base + row n (n + 1)) :
    ∃ p, addTriangles n base m = some (m.pushTris (bezFaces n base), p) := by
  have hval := bezFaces_valid n base
  obtain ⟨s', h1, h2, h3⟩ := loopN_inv (n := n) (s := (m, (base : Int)))
    (f := fun is (s : Mesh K × Int) => do
      let lineSize := (n : Int) - is + 1
      let (m, _) ← s.1.addTriangle s.2 (s.2 + 1) (s.2 + lineSize)
      let pos := s.2 + lineSize
      let m ← loopN (lineSize - 4).toNat (fun j m => do
        let iu : Int := j + 1
        let (m, _) ← m.addTriangle (pos + iu) (pos + iu + lineSize) (pos + iu + lineSize - 1)
        let (m, _) ← m.addTriangle (pos + iu) (pos + iu + 1) (pos + iu + lineSize)
        return m) m
      return (m, pos))
    (fun i s => s.1 = m.pushTris ((List.range i).flatMap (rowFaces n base)) ∧ s.2 = (base : Int) + row n i)
    ⟨by simp, by simp [row]⟩ (by
      rintro i hi ⟨mm, p⟩ ⟨rfl, rfl⟩
      have hr : ∀ f ∈ rowFaces n (base : Int) i, CornersIn (base + row n (n + 1)) f := fun f hf =>
        hval f (List.mem_flatMap.2 ⟨i, List.mem_range.2 hi, hf⟩)
      have e1 : ((row n (i + 1) : Nat) : Int) = row n i + (n - i + 1) := by rw [row_succ]; push_cast; omega
      have e2 : i + 1 ≤ n → ((row n (i + 2) : Nat) : Int) = row n (i + 1) + (n - i) := by
        intro h; rw [row_succ]; push_cast; omega
      refine ⟨(m.pushTris ((List.range (i + 1)).flatMap (rowFaces n base)), base + row n (i + 1)), ?_, rfl, rfl⟩
      have hc := hr _ (List.mem_cons_self ..)
      have e1' : (base : Int) + row n i + (n - i + 1) = base + row n (i + 1) := by rw [e1]; ring
      simp only [e1']
      rw [addTriangle_eq, if_pos (by rw [pushTris_verts, hm]; exact hc)]
      simp only [Option.bind_eq_bind, Option.bind_some, pushTris_push]
      rw [loopN_pushTris (g := fun (j : Nat) =>
        cellFaces ((base : Int) + row n (i + 1)) (base + row n (i + 2)) (j + 1)) m.kern.verts ?_ (m.pushTris _) rfl]
      · have e3 : ((n : Int) - i + 1 - 4).toNat = n - 3 - i := by omega
        simp only [Option.bind_some, pushTris_push, List.range_succ (n := i), List.flatMap_append]
        rw [e3]
        simp [rowFaces, List.append_assoc]
      · intro j hj mm hmm
        have e3 : j < n - 3 - i := by omega
        have e2' := e2 (by omega)
        have c1 := hr ((base : Int) + row n (i + 1) + (j + 1), (base : Int) + row n (i + 2) + (j + 1) + 1,
          (base : Int) + row n (i + 2) + (j + 1)) (List.mem_cons_of_mem _ (List.mem_flatMap.2
            ⟨j, List.mem_range.2 e3, by simp [cellFaces]⟩))
        have c2 := hr ((base : Int) + row n (i + 1) + (j + 1), (base : Int) + row n (i + 1) + (j + 1) + 1,
          (base : Int) + row n (i + 2) + (j + 1) + 1) (List.mem_cons_of_mem _ (List.mem_flatMap.2
            ⟨j, List.mem_range.2 e3, by simp [cellFaces]⟩))
        have a1 : (base : Int) + row n (i + 1) + (j + 1) + (n - i + 1) = base + row n (i + 2) + (j + 1) + 1 := by
          rw [e2']; ring
        simp only [a1, add_sub_cancel_right]
        rw [addTriangle_eq, if_pos (by rw [hmm, hm]; exact c1)]
        simp only [Option.bind_eq_bind, Option.bind_some]
        rw [addTriangle_eq, if_pos (by rw [pushTris_verts, hmm, hm]; exact c2)]
        simp [cellFaces])
  refine ⟨s'.2, ?_⟩
  unfold addTriangles
  rw [show ((n : Int)).toNat = n by omega]
  refine h1.trans ?_
  rw [← Prod.mk.eta (p := s'), h2]
  rfl

theorem addToMesh_eq (q : QuadBez K) (n : Nat) (g : Par → P3 K)
    (hg : ∀ x : Par, x.1 + x.2 ≤ n → q.eval2 ((x.1 : K) / n) ((x.2 : K) / n) = some (g x)) (m : Mesh K) :
    q.addToMesh m n = some ((m.pushPts (bezPts n g)).pushTris (bezFaces n m.kern.verts.length)) := by
  unfold addToMesh
  rw [addVertices_eq q n g hg]
  obtain ⟨p, hp⟩ := addTriangles_eq n m.kern.verts.length (m.pushPts (bezPts n g))
    (by rw [pushPts_verts, List.length_append, length_bezPts])
  have : m.nbVertices = (m.kern.verts.length : Int) := rfl
  simp only [Option.bind_eq_bind, Option.bind_some, this, hp]
  rfl

/-- **C42** what `add_to_mesh` with `n` segments does: it succeeds, keeps the old
content, adds the `(n+1)(n+2)/2` grid points of the patch row by row, and adds
triangles whose corners are grid points of the parameter triangle.  Each covers
exactly one cell of the grid of side `1/n` (determinant `±1`), always with the
orientation opposite to `(P1, P2, P3)`, whose determinant is `+1`.
Missing from the full claim: the triangles cover the whole parameter triangle;
this is false, see `add_to_mesh_incomplete`. -/
theorem add_to_mesh_partial (q : QuadBez K) (hq : q.PosWeights) (m : Mesh K) (hm : m.OK) (n : Nat)
    (hn : 1 ≤ n) :
    ∃ (m' : Mesh K) (g : Nat × Nat → P3 K) (cells : List ((Nat × Nat) × (Nat × Nat) × (Nat × Nat))),
      q.addToMesh m n = some m' ∧ m'.OK ∧
      (∀ i j : Nat, i + j ≤ n → q.eval2 ((i : K) / n) ((j : K) / n) = some (g (i, j))) ∧
      2 * m'.nbVertices = 2 * m.nbVertices + (n + 1) * (n + 2) ∧
      (∀ i : Int, i < m.nbVertices → m'.getVertex i = m.getVertex i) ∧
      (∀ i j k : Nat, i + j ≤ n → 2 * k = i * (2 * n + 3 - i) →
        m'.getVertex (m.nbVertices + k + j) = some (g (i, j))) ∧
      m'.triangles = m.triangles ++ cells.map (fun t => ⟨g t.1, g t.2.1, g t.2.2⟩) ∧
      m'.nbTriangles = m.nbTriangles + cells.length ∧
      (∀ t ∈ cells, t.1.1 + t.1.2 ≤ n ∧ t.2.1.1 + t.2.1.2 ≤ n ∧ t.2.2.1 + t.2.2.2 ≤ n ∧
        ((t.2.1.1 : Int) - t.1.1) * ((t.2.2.2 : Int) - t.1.2) -
          ((t.2.1.2 : Int) - t.1.2) * ((t.2.2.1 : Int) - t.1.1) = -1) ∧
      cells.length = (if n = 1 then 1 else n * n + 6 - 4 * n) := by
  have hdef : ∀ x : Par, ∃ p, x.1 + x.2 ≤ n → q.eval2 ((x.1 : K) / n) ((x.2 : K) / n) = some p := by
    intro x
    by_cases hx : x.1 + x.2 ≤ n
    · have hn0 : (0 : K) < n := by exact_mod_cast hn
      obtain ⟨p, hp⟩ := eval_defined q hq ((x.1 : K) / n) ((x.2 : K) / n) (by positivity) (by positivity)
        (by rw [← add_div, div_le_one hn0]; exact_mod_cast hx)
      exact ⟨p, fun _ => hp⟩
    · exact ⟨⟨0, 0, 0⟩, fun h => absurd h hx⟩
  choose g hg using hdef
  have hcell := bezPars_in (n := n)
  set P := m.pushPts (bezPts n g) with hP
  have hPv : P.kern.verts.length = m.kern.verts.length + row n (n + 1) := by
    rw [hP, pushPts_verts, List.length_append, length_bezPts]
  have hgetv : ∀ x : Par, x.1 + x.2 ≤ n → getI P.kern.verts (parId n m.kern.verts.length x) = some (g x) := by
    intro x hx
    have : parId n m.kern.verts.length x = ((m.kern.verts.length + (row n x.1 + x.2) : Nat) : Int) := by
      unfold parId; push_cast; ring
    rw [this, getI_natCast, hP, pushPts_verts, List.getElem?_append_right (by omega), Nat.add_sub_cancel_left]
    exact bezPts_get n g x.1 x.2 hx
  refine ⟨P.pushTris (bezFaces n m.kern.verts.length), g, bezPars n, addToMesh_eq q n g hg m,
    (hm.pushPts _).pushTris ?_, fun i j h => hg (i, j) h, ?_, ?_, ?_, ?_, ?_, ?_, ?_⟩
  · rw [← hP, hPv]; exact bezFaces_valid n _
  · have : (P.pushTris (bezFaces n m.kern.verts.length)).nbVertices = (P.kern.verts.length : Int) := rfl
    rw [this, hPv]
    have h2 : m.nbVertices = (m.kern.verts.length : Int) := rfl
    rw [h2]
    have h3 := row_eq n (n + 1) le_rfl
    push_cast
    have h4 : (2 * (row n (n + 1) : Int)) + (n + 1) * (n + 1) = (n + 1) * (2 * n + 3) := by exact_mod_cast h3
    linarith
  · intro i hi
    rw [(answers_view _).getVertex, (answers_view _).getVertex, view_pushTris]
    change getI P.kern.verts i = getI m.kern.verts i
    by_cases h0 : 0 ≤ i
    · lift i to Nat using h0
      rw [getI_natCast, getI_natCast, hP, pushPts_verts, List.getElem?_append_left]
      have h2 : m.nbVertices = (m.kern.verts.length : Int) := rfl
      omega
    · rw [getI_none_of_not (fun h => h0 h.1), getI_none_of_not (fun h => h0 h.1)]
  · intro i j k hij hk
    rw [(answers_view _).getVertex, view_pushTris]
    have h3 := row_eq n i (by omega)
    have hk' : k = row n i := by
      obtain ⟨d, hd⟩ : ∃ d, 2 * n + 3 = i + d := ⟨2 * n + 3 - i, by omega⟩
      rw [hd, Nat.add_sub_cancel_left] at hk
      rw [hd, Nat.mul_add] at h3
      omega
    subst hk'
    exact hgetv (i, j) hij
  · rw [triangles_eq, triangles_eq, soup_pushTris, hP, soup_pushPts hm, ← hP]
    congr 1
    rw [bezFaces_eq, List.filterMap_map, ← List.filterMap_eq_map]
    apply List.filterMap_congr
    intro t ht
    obtain ⟨h1, h2, h3⟩ := hcell t ht
    simp only [Function.comp, AMesh.tri, view_points, hgetv _ h1, hgetv _ h2, hgetv _ h3]
    rfl
  · rw [(answers_view _).nbTriangles, (answers_view _).nbTriangles, view_pushTris, bezFaces_eq]
    simp [hP, AMesh.addPoints]
  · intro t ht
    obtain ⟨h1, h2, h3⟩ := hcell t ht
    refine ⟨h1, h2, h3, ?_⟩
    obtain ⟨i, -, ht⟩ := List.mem_flatMap.1 ht
    rcases List.mem_cons.1 ht with rfl | ht
    · push_cast; ring
    · obtain ⟨j, -, ht⟩ := List.mem_flatMap.1 ht
      simp only [List.mem_cons, List.not_mem_nil, or_false] at ht
      rcases ht with rfl | rfl <;> (push_cast; ring)
  · split_ifs with h1
    · subst h1; rfl
    · have := length_bezPars n (by omega)
      have h4 : 4 * n ≤ n * n + 6 := by
        rcases Nat.lt_or_ge n 4 with h | h
        · interval_cases n <;> omega
        · nlinarith
      zify [h4]
      rw [this]; ring

/-- **C42** with two or more segments fewer than `n²` triangles are added, so part
of the patch is missing from the mesh -/
theorem add_to_mesh_incomplete (q : QuadBez K) (hq : q.PosWeights) (m m' : Mesh K) (hm : m.OK) (n : Nat)
    (hn : 2 ≤ n) (h : q.addToMesh m n = some m') :
    m'.nbTriangles < m.nbTriangles + n ^ 2 := by
  obtain ⟨m2, g, cells, h1, -, -, -, -, -, -, h2, -, h3⟩ := add_to_mesh_partial q hq m hm n (by omega)
  rw [h] at h1
  cases h1
  rw [h2, h3, if_neg (by omega)]
  have : n * n + 6 - 4 * n < n * n := by
    have : 0 < n * n := by nlinarith
    omega
  have h5 : ((n * n + 6 - 4 * n : Nat) : Int) < (n * n : Nat) := by exact_mod_cast this
  push_cast at h5 ⊢
  nlinarith

/-- **C42** for a flat patch: every triangle added lies in the triangle
`(p1, p2, p3)`, has `1/n²` of its area vector, reversed; so the area covered is
`(n² - 4n + 6) / n²` of it when `n ≥ 2`. -/
theorem add_to_mesh_flat (p1 p2 p3 : P3 K) (m : Mesh K) (hm : m.OK) (n : Nat) (hn : 1 ≤ n) :
    ∃ (m' : Mesh K) (added : List (Tri3 K)),
      (QuadBez.new.setPoints p1 p2 p3).addToMesh m n = some m' ∧ m'.triangles = m.triangles ++ added ∧
      added.length = (if n = 1 then 1 else n * n + 6 - 4 * n) ∧
      ∀ t ∈ added, InTriangle ⟨p1, p2, p3⟩ t.p1 ∧ InTriangle ⟨p1, p2, p3⟩ t.p2 ∧
        InTriangle ⟨p1, p2, p3⟩ t.p3 ∧
        ((n : K) ^ 2) • (t.p2 - t.p1).cross (t.p3 - t.p1) = (-1 : K) • (p2 - p1).cross (p3 - p1) := by
  obtain ⟨m', g, cells, h1, -, hg, -, -, -, h2, -, h3, h4⟩ :=
    add_to_mesh_partial (QuadBez.new.setPoints p1 p2 p3)
      ⟨one_pos, one_pos, one_pos, one_pos, one_pos, one_pos⟩ m hm n hn
  have hn0 : (0 : K) < n := by exact_mod_cast hn
  have hg' : ∀ i j : Nat, i + j ≤ n → g (i, j) =
      ((i : K) / n) • p1 + ((j : K) / n) • p2 + (1 - (i : K) / n - (j : K) / n) • p3 := by
    intro i j hij
    have := hg i j hij
    rw [eval_flat _ _ _ two_ne_zero] at this
    exact (Option.some.inj this).symm
  have hin : ∀ i j : Nat, i + j ≤ n → InTriangle ⟨p1, p2, p3⟩ (g (i, j)) := by
    intro i j hij
    rw [hg' i j hij]
    refine ⟨(i : K) / n, (j : K) / n, 1 - (i : K) / n - (j : K) / n, by positivity, by positivity, ?_, by ring, rfl⟩
    rw [sub_sub, ← add_div, sub_nonneg, div_le_one hn0]
    exact_mod_cast hij
  refine ⟨m', _, h1, h2, by rw [List.length_map, h4], ?_⟩
  intro t ht
  obtain ⟨⟨⟨a1, a2⟩, ⟨b1, b2⟩, c1, c2⟩, hc, rfl⟩ := List.mem_map.1 ht
  obtain ⟨ha, hb, hc, hd⟩ := h3 _ hc
  simp only at ha hb hc hd ⊢
  refine ⟨hin _ _ ha, hin _ _ hb, hin _ _ hc, ?_⟩
  rw [hg' _ _ ha, hg' _ _ hb, hg' _ _ hc]
  have hd' : ((b1 : K) - a1) * ((c2 : K) - a2) - ((b2 : K) - a2) * ((c1 : K) - a1) = -1 := by
    exact_mod_cast congrArg (Int.cast : Int → K) hd
  simp only [P3.ext_iff, P3.cross, P3.add_x, P3.add_y, P3.add_z, P3.sub_x, P3.sub_y, P3.sub_z, P3.smul_x,
    P3.smul_y, P3.smul_z]
  refine ⟨?_, ?_, ?_⟩
  · field_simp
    linear_combination ((p2.y - p1.y) * (p3.z - p1.z) - (p2.z - p1.z) * (p3.y - p1.y)) * hd'
  · field_simp
    linear_combination ((p2.z - p1.z) * (p3.x - p1.x) - (p2.x - p1.x) * (p3.z - p1.z)) * hd'
  · field_simp
    linear_combination ((p2.x - p1.x) * (p3.y - p1.y) - (p2.y - p1.y) * (p3.x - p1.x)) * hd'

/-- A concrete curved patch with unequal weights meets the hypotheses. -/
example : (((QuadBez.new.setPoints ⟨1, 0, 0⟩ ⟨0, 1, 0⟩ ⟨0, 0, 1⟩).setWeights 1 2 1 3 1 1 : QuadBez ℚ).addToMesh
    Mesh.new 3).map (fun m => (m.nbVertices, m.nbTriangles)) = some (10, 3) := by decide +kernel

example : ((QuadBez.new.setPoints ⟨1, 0, 0⟩ ⟨0, 1, 0⟩ ⟨0, 0, 1⟩).setWeights 1 2 1 3 1 1 : QuadBez ℚ).PosWeights := by
  unfold PosWeights setWeights; norm_num

end QuadBez
end CAD
