import Verif.Lemmas.IcosaGrid
import Verif.Props.Geodesic
import Verif.Props.Weld
import Mathlib.Algebra.Order.Antidiag.FinsuppEquiv

/-! C108: geodesic spheres are watertight. -/

set_option linter.unusedSimpArgs false
set_option linter.constructorNameAsVariable false

namespace CAD
namespace Icosa

/-- weights of a grid point of the tessellated icosahedron -/
def GridW (n : ℤ) (w : Wt) : Prop :=
  ∃ F ∈ faces, (∀ v, 0 ≤ w v) ∧ (∀ v, v ∉ corners F → w v = 0) ∧ ∑ v, w v = n

theorem sum_cell (n : ℤ) (F : Face) (u v : ℤ) : ∑ w, cell n F u v w = n := by
  simp only [cell, Finset.sum_add_distrib, Finset.sum_ite_eq', Finset.mem_univ, if_true]; ring

theorem cell_grid {n : ℤ} {F : Face} (hF : F ∈ faces) {u v : ℤ} (hu : 0 ≤ u) (hv : 0 ≤ v) (h : u + v ≤ n) :
    GridW n (cell n F u v) := by
  refine ⟨F, hF, fun w => ?_, fun w hw => cell_off hw, sum_cell ..⟩
  unfold cell
  split_ifs <;> omega

theorem small_grid {n : ℤ} {F : Face} (hF : F ∈ faces) {c : Bool × ℤ × ℤ} (hc : c ∈ cells n) (i : Fin 3) : GridW n (small n F c i) := by
  obtain ⟨h1, h2, h3⟩ := mem_cells.1 hc
  unfold small
  split at h3 <;> rename_i hb
  · rw [if_pos hb]
    fin_cases i <;> refine cell_grid hF ?_ ?_ ?_ <;> (try simp) <;> omega
  · rw [if_neg hb]
    fin_cases i <;> refine cell_grid hF ?_ ?_ ?_ <;> (try simp) <;> omega

theorem grid_cell {n : ℤ} {w : Wt} (h : GridW n w) : ∃ F ∈ faces, ∃ u v, 0 ≤ u ∧ 0 ≤ v ∧ u + v ≤ n ∧ w = cell n F u v := by
  obtain ⟨F, hF, h0, hs, hn⟩ := h
  obtain ⟨d1, d2, d3⟩ := corners_distinct F hF
  have hsum : ∑ v, w v = w F.1 + w F.2.1 + w F.2.2 := by
    rw [← Finset.sum_subset (s₁ := {F.1, F.2.1, F.2.2}) (Finset.subset_univ _)]
    · rw [Finset.sum_insert (by simp [d1, d2]), Finset.sum_insert (by simp [d3]), Finset.sum_singleton]; ring
    · intro v _ hv
      apply hs
      simpa [corners] using hv
  have a := h0 F.1
  have b := h0 F.2.1
  have c := h0 F.2.2
  refine ⟨F, hF, w F.2.1, w F.2.2, b, c, by omega, funext fun v => ?_⟩
  unfold cell
  by_cases e1 : v = F.1
  · subst e1
    rw [if_pos rfl, if_neg d1, if_neg d2]; omega
  by_cases e2 : v = F.2.1
  · subst e2
    rw [if_neg d1.symm, if_pos rfl, if_neg d3]; omega
  by_cases e3 : v = F.2.2
  · subst e3
    rw [if_neg d2.symm, if_neg d3.symm, if_pos rfl]; omega
  rw [if_neg e1, if_neg e2, if_neg e3]
  rw [hs v (by simp [corners, e1, e2, e3])]; rfl

/-- every grid point is a corner of a small triangle -/
theorem grid_small {n : ℤ} (hn : 1 ≤ n) {w : Wt} (h : GridW n w) : ∃ F ∈ faces, ∃ c ∈ cells n, ∃ i, w = small n F c i := by
  obtain ⟨F, hF, u, v, hu, hv, huv, rfl⟩ := grid_cell h
  refine ⟨F, hF, ?_⟩
  by_cases h1 : u + v + 1 ≤ n
  · exact ⟨(true, u, v), mem_cells.2 ⟨hu, hv, by simpa using h1⟩, 0, by simp [small]⟩
  by_cases h2 : 1 ≤ u
  · exact ⟨(true, u - 1, v), mem_cells.2 ⟨by simp; omega, hv, by simp; omega⟩, 1, by simp [small]⟩
  · exact ⟨(true, u, v - 1), mem_cells.2 ⟨hu, by simp; omega, by simp; omega⟩, 2, by simp [small]⟩

theorem GridW.onFace {n : ℤ} (hn : 1 ≤ n) {w : Wt} (h : GridW n w) : ∃ F ∈ faces, OnFace F (fun v => (w v : ℝ) / n) ∧ ∑ v, (w v : ℝ) / n = 1 := by
  obtain ⟨F, hF, h0, hs, hsum⟩ := h
  have hn' : (0 : ℝ) < n := by exact_mod_cast hn
  refine ⟨F, hF, ⟨fun v => ?_, fun v hv => ?_⟩, ?_⟩
  · have : (0 : ℝ) ≤ w v := by exact_mod_cast h0 v
    positivity
  · simp [hs v hv]
  · rw [← Finset.sum_div, ← Int.cast_sum, hsum, div_self hn'.ne']

theorem pt_ne_zero {n : ℤ} (hn : 1 ≤ n) {w : Wt} (h : GridW n w) : pt n w ≠ 0 := by
  obtain ⟨F, hF, h1, h2⟩ := h.onFace hn
  exact comb_ne_zero hF h1 h2

/-- different grid points stay apart on the unit sphere -/
theorem grid_apart {n : ℤ} (hn : 1 ≤ n) {w w' : Wt} (h : GridW n w) (h' : GridW n w') (hne : w ≠ w') :
    1 / (n : ℝ) ≤ 4.8 * ((1 / (pt n w).norm) • pt n w - (1 / (pt n w').norm) • pt n w').norm := by
  have hn' : (0 : ℝ) < n := by exact_mod_cast hn
  have main : ∀ w w' : Wt, GridW n w → GridW n w' → ∀ v, w' v < w v →
      1 / (n : ℝ) ≤ 4.8 * ((1 / (pt n w).norm) • pt n w - (1 / (pt n w').norm) • pt n w').norm := by
    intro w w' h h' v hv
    obtain ⟨F, hF, a1, a2⟩ := h.onFace hn
    obtain ⟨G, hG, b1, b2⟩ := h'.onFace hn
    refine le_trans ?_ (weight_projected hF hG a1 b1 a2 b2 v)
    rw [← sub_div]
    refine div_le_div_of_nonneg_right ?_ hn'.le
    have : w' v + 1 ≤ w v := hv
    have : (w' v : ℝ) + 1 ≤ w v := by exact_mod_cast this
    linarith
  obtain ⟨v, hv⟩ := Function.ne_iff.1 hne
  rcases lt_or_gt_of_ne hv with hlt | hlt
  · have := main w' w h' h v hlt
    refine this.trans (le_of_eq ?_)
    congr 1
    unfold P3.norm
    congr 1
    simp only [P3.sub_x, P3.sub_y, P3.sub_z]; ring
  · exact main w w' h h' v hlt

end Icosa

namespace Factory
open Mesh Icosa

theorem project_distSq (r : ℝ) (p q : P3 ℝ) : (project r p).distSq (project r q) =
    r ^ 2 * ((1 / p.norm) • p - (1 / q.norm) • q).norm ^ 2 := by
  rw [pow_two (P3.norm _), P3.norm_sq]
  simp only [project, P3.distSq, P3.normSq, P3.sub_x, P3.sub_y, P3.sub_z, P3.smul_x, P3.smul_y, P3.smul_z]
  ring

/-- the geodesic tolerance is below the distance of different grid points -/
theorem project_apart {n : ℤ} (hn : 1 ≤ n) (r : ℝ) {w w' : Wt} (h : GridW n w) (h' : GridW n w') (hne : w ≠ w') :
    (r / (951 / 1000) / n / 20) * (r / (951 / 1000) / n / 20) ≤ (project r (pt n w)).distSq (project r (pt n w')) := by
  have hn' : (0 : ℝ) < n := by exact_mod_cast hn
  have key := grid_apart hn h h' hne
  rw [project_distSq]
  generalize ((1 / (pt n w).norm) • pt n w - (1 / (pt n w').norm) • pt n w').norm = d at key
  have hd : 1 / (n : ℝ) * (1 / 4.8) ≤ d := by
    norm_num at key ⊢; linarith
  have e : (r / (951 / 1000) / n / 20) * (r / (951 / 1000) / n / 20) = r ^ 2 * ((1 / (n : ℝ)) * (1000 / 951 / 20)) ^ 2 := by ring
  rw [e]
  refine mul_le_mul_of_nonneg_left ?_ (sq_nonneg r)
  refine pow_le_pow_left₀ (by positivity) (le_trans ?_ hd) 2
  exact mul_le_mul_of_nonneg_left (by norm_num) (by positivity)

theorem project_inj {n : ℤ} (hn : 1 ≤ n) {r : ℝ} (hr : r ≠ 0) {w w' : Wt} (h : GridW n w) (h' : GridW n w')
    (he : project r (pt n w) = project r (pt n w')) : w = w' := by
  by_contra hne
  have := project_apart hn r h h' hne
  rw [he] at this
  have h0 : (project r (pt n w')).distSq (project r (pt n w')) = 0 := by simp [P3.distSq]
  rw [h0] at this
  have hn' : (0 : ℝ) < n := by exact_mod_cast hn
  have : r / (951 / 1000) / n / 20 ≠ 0 := by
    have := hn'.ne'
    positivity
  have := mul_self_pos.2 this
  linarith

theorem icosa_faces {ico : Mesh ℝ} (h : createIcosahedron 1 Mesh.new = some ico) : ico.triangles = faces.map tri := by
  obtain ⟨ico', e, hp, ht⟩ := icosa_tris 1 Mesh.new
  rw [h] at e
  obtain rfl := Option.some.inj e
  rw [ht]
  simp [faces, tri, vec, corner, evV, ev, tau]

theorem geoSoup_eq {ico : Mesh ℝ} (h : createIcosahedron 1 Mesh.new = some ico) (r : ℝ) {n : ℤ} (hn : 1 ≤ n) :
    geoSoup r n ico = faces.flatMap fun F => (cells n).map fun c => (smallTri n F c).map (project r) := by
  unfold geoSoup
  rw [icosa_faces h, List.flatMap_map, List.map_flatMap]
  refine List.flatMap_congr fun F _ => ?_
  rw [tess_eq hn, List.map_map]
  rfl

theorem geoSoup_edges {ico : Mesh ℝ} (h : createIcosahedron 1 Mesh.new = some ico) (r : ℝ) {n : ℤ} (hn : 1 ≤ n) :
    (geoSoup r n ico).flatMap Tri3.dirEdges = (faces ×ˢ (cells n ×ˢ List.finRange 3)).map fun x =>
      (project r (pt n (edgeW n x.1 x.2.1 x.2.2).1), project r (pt n (edgeW n x.1 x.2.1 x.2.2).2)) := by
  rw [geoSoup_eq h r hn]
  simp only [SProd.sprod, List.product, List.flatMap_assoc, List.flatMap_map, List.map_flatMap, List.map_map]
  refine List.flatMap_congr fun F _ => List.flatMap_congr fun c _ => ?_
  rw [show List.finRange 3 = [0, 1, 2] by decide]
  simp only [List.map_cons, List.map_nil, Function.comp_apply, edgeW, Tri3.dirEdges, Tri3.map, smallTri,
    show (0 : Fin 3) + 1 = 1 from rfl, show (1 : Fin 3) + 1 = 2 from rfl, show (2 : Fin 3) + 1 = 0 from rfl]

theorem geoSoup_closed {ico : Mesh ℝ} (h : createIcosahedron 1 Mesh.new = some ico) {r : ℝ} (hr : r ≠ 0) {n : ℤ} (hn : 1 ≤ n) :
    ClosedPoints (geoSoup r n ico) := by
  have hmem : ∀ e ∈ (geoSoup r n ico).flatMap Tri3.dirEdges, ∃ F ∈ faces, ∃ c ∈ cells n, ∃ i,
      e = (project r (pt n (edgeW n F c i).1), project r (pt n (edgeW n F c i).2)) := by
    intro e he
    rw [geoSoup_edges h r hn] at he
    obtain ⟨⟨F, c, i⟩, hx, rfl⟩ := List.mem_map.1 he
    obtain ⟨hF, hc⟩ := List.mem_product.1 hx
    exact ⟨F, hF, c, (List.mem_product.1 hc).1, i, rfl⟩
  refine ⟨?_, ?_, ?_⟩
  · rw [geoSoup_edges h r hn]
    refine List.Nodup.map_on ?_ ?_
    · rintro ⟨F, c, i⟩ hx ⟨F', c', i'⟩ hx' he
      obtain ⟨hF, hc⟩ := List.mem_product.1 hx
      obtain ⟨hF', hc'⟩ := List.mem_product.1 hx'
      replace hc := (List.mem_product.1 hc).1
      replace hc' := (List.mem_product.1 hc').1
      simp only [Prod.mk.injEq] at he hF hc hF' hc'
      have e1 := project_inj hn hr (small_grid hF hc i) (small_grid hF' hc' i') he.1
      have e2 := project_inj hn hr (small_grid hF hc (i + 1)) (small_grid hF' hc' (i' + 1)) he.2
      obtain ⟨rfl, rfl, rfl⟩ := edgeW_inj hF hF' hc hc' (Prod.ext e1 e2)
      rfl
    · refine List.Nodup.product (by decide) (List.Nodup.product (nodup_cells n) (List.nodup_finRange 3))
  · intro e he
    have hcl : ClosedSoup (geoSoup r n ico) := by
      refine closedSoup_map _ ?_
      have hok : ico.OK := by
        obtain ⟨ico', e, hp, _⟩ := icosa_tris 1 Mesh.new
        rw [h] at e
        rw [Option.some.inj e]; exact hp.ok
      have := Tessellate.tessellate_closed ico Mesh.new _ hok n (Tessellate.compute_eq hok n _) (icosa_closed h)
      rwa [triangles_eq, soup_addSoup (clear_ok _), clear_soup, List.nil_append] at this
    have := (List.Perm.mem_iff hcl).1 he
    obtain ⟨e', he', rfl⟩ := List.mem_map.1 this
    simpa using he'
  · intro e he hne
    obtain ⟨F, hF, c, hc, i, rfl⟩ := hmem e he
    have hw := project_inj hn hr (small_grid hF hc i) (small_grid hF hc (i + 1)) hne
    obtain ⟨b, u, v⟩ := c
    cases b
    · obtain ⟨k, rfl⟩ := fin3_succ i
      have hd := edge_down n F u v k
      have h1 := congrArg Prod.fst hd
      have h2 := congrArg Prod.snd hd
      simp only [edgeW] at h1 h2
      have := h1.symm.trans (hw.trans h2)
      have := congrFun (sub_right_inj.1 this) (dedge F k).1
      simp only [e1, if_true, dedge_proper F hF k, if_false] at this
      exact absurd this (by norm_num)
    · have hd := edge_up n F u v i
      have h1 := congrArg Prod.fst hd
      have h2 := congrArg Prod.snd hd
      simp only [edgeW] at h1 h2
      have := h1.symm.trans (hw.trans h2)
      have := congrFun (add_right_inj _ |>.1 this) (dedge F i).1
      simp only [e1, if_true, dedge_proper F hF i, if_false] at this
      exact absurd this (by norm_num)

end Factory

/-! ### Counting the grid points -/

namespace Icosa

/-- undirected edges, smaller corner first -/
def edgeList : List (Fin 12 × Fin 12) :=
  faces.flatMap fun F => [(F.1, F.2.1), (F.2.1, F.2.2), (F.2.2, F.1)].filter fun e => e.1 < e.2

set_option synthInstance.maxSize 2000 in
set_option synthInstance.maxHeartbeats 200000 in
theorem edgeList_spec : edgeList.Nodup ∧ edgeList.length = 30 ∧ (∀ e ∈ edgeList, e.1 < e.2 ∧ ∃ F ∈ faces, e.1 ∈ corners F ∧ e.2 ∈ corners F) ∧
    (∀ F ∈ faces, ∀ a ∈ corners F, ∀ b ∈ corners F, a < b → (a, b) ∈ edgeList) := by decide +kernel
set_option synthInstance.maxSize 2000 in
set_option synthInstance.maxHeartbeats 200000 in
theorem faces_spec : faces.Nodup ∧ (∀ v : Fin 12, ∃ F ∈ faces, v ∈ corners F) ∧
    ∀ F ∈ faces, ∀ F' ∈ faces, (F'.1 ∈ corners F ∧ F'.2.1 ∈ corners F ∧ F'.2.2 ∈ corners F) → F = F' := by decide +kernel

/-- corners, edges and faces as sets of corners -/
def simp1 : Finset (Finset (Fin 12)) := Finset.univ.image fun v => {v}
def simp2 : Finset (Finset (Fin 12)) := edgeList.toFinset.image fun e => {e.1, e.2}
def simp3 : Finset (Finset (Fin 12)) := faces.toFinset.image fun F => {F.1, F.2.1, F.2.2}
def simplices : Finset (Finset (Fin 12)) := simp1 ∪ (simp2 ∪ simp3)

theorem simp1_card : simp1.card = 12 ∧ ∀ s ∈ simp1, s.card = 1 := by
  constructor
  · unfold simp1
    rw [Finset.card_image_of_injective _ Finset.singleton_injective]; rfl
  · intro s hs
    obtain ⟨v, -, rfl⟩ := Finset.mem_image.1 hs
    exact Finset.card_singleton v

theorem simp2_card : simp2.card = 30 ∧ ∀ s ∈ simp2, s.card = 2 := by
  obtain ⟨h1, h2, h3, -⟩ := edgeList_spec
  constructor
  · unfold simp2
    rw [Finset.card_image_of_injOn, List.toFinset_card_of_nodup h1, h2]
    rintro ⟨a, b⟩ ha ⟨c, d⟩ hc he
    have hab := (h3 _ (List.mem_toFinset.1 ha)).1
    have hcd := (h3 _ (List.mem_toFinset.1 hc)).1
    simp only at he hab hcd
    have m1 : a ∈ ({c, d} : Finset (Fin 12)) := he ▸ by simp
    have m2 : b ∈ ({c, d} : Finset (Fin 12)) := he ▸ by simp
    simp only [Finset.mem_insert, Finset.mem_singleton] at m1 m2
    rcases m1 with rfl | rfl <;> rcases m2 with rfl | rfl
    · exact absurd hab (lt_irrefl _)
    · rfl
    · exact absurd hab (not_lt.2 hcd.le)
    · exact absurd hab (lt_irrefl _)
  · intro s hs
    obtain ⟨e, he, rfl⟩ := Finset.mem_image.1 hs
    exact Finset.card_pair (h3 _ (List.mem_toFinset.1 he)).1.ne

theorem simp3_card : simp3.card = 20 ∧ ∀ s ∈ simp3, s.card = 3 := by
  obtain ⟨h1, h2, h3⟩ := faces_spec
  constructor
  · unfold simp3
    rw [Finset.card_image_of_injOn, List.toFinset_card_of_nodup h1]
    · rfl
    rintro F hF F' hF' he
    refine h3 F (List.mem_toFinset.1 hF) F' (List.mem_toFinset.1 hF') ?_
    have m : ∀ x ∈ ({F'.1, F'.2.1, F'.2.2} : Finset (Fin 12)), x ∈ corners F := by
      intro x hx
      have hx' : x ∈ ({F.1, F.2.1, F.2.2} : Finset (Fin 12)) := by
        simp only at he
        rw [he]; exact hx
      simpa [corners] using hx'
    exact ⟨m _ (by simp), m _ (by simp), m _ (by simp)⟩
  · intro s hs
    obtain ⟨F, hF, rfl⟩ := Finset.mem_image.1 hs
    obtain ⟨d1, d2, d3⟩ := corners_distinct F (List.mem_toFinset.1 hF)
    exact Finset.card_eq_three.2 ⟨_, _, _, d1, d2, d3, rfl⟩

theorem mem_simplices (s : Finset (Fin 12)) : s ∈ simplices ↔ s.Nonempty ∧ ∃ F ∈ faces, ∀ v ∈ s, v ∈ corners F := by
  obtain ⟨e1, e2, e3, e4⟩ := edgeList_spec
  obtain ⟨f1, f2, f3⟩ := faces_spec
  simp only [simplices, simp1, simp2, simp3, Finset.mem_union, Finset.mem_image, Finset.mem_univ, true_and, List.mem_toFinset]
  constructor
  · rintro (⟨v, rfl⟩ | ⟨e, he, rfl⟩ | ⟨F, hF, rfl⟩)
    · obtain ⟨F, hF, hv⟩ := f2 v
      exact ⟨⟨v, by simp⟩, F, hF, by simpa using hv⟩
    · obtain ⟨-, F, hF, ha, hb⟩ := e3 e he
      exact ⟨⟨e.1, by simp⟩, F, hF, by simp [ha, hb]⟩
    · exact ⟨⟨F.1, by simp⟩, F, hF, by simp [corners]⟩
  · rintro ⟨hne, F, hF, hs⟩
    have pair : ∀ a ∈ corners F, ∀ b ∈ corners F, a ≠ b → ∃ e ∈ edgeList, ({e.1, e.2} : Finset (Fin 12)) = {a, b} := by
      intro a ha b hb hab
      rcases lt_or_gt_of_ne hab with h | h
      · exact ⟨_, e4 F hF a ha b hb h, rfl⟩
      · exact ⟨_, e4 F hF b hb a ha h, Finset.pair_comm _ _⟩
    obtain ⟨d1, d2, d3⟩ := corners_distinct F hF
    have m1 : F.1 ∈ corners F := by simp [corners]
    have m2 : F.2.1 ∈ corners F := by simp [corners]
    have m3 : F.2.2 ∈ corners F := by simp [corners]
    simp only [corners, List.mem_cons, List.not_mem_nil, or_false] at hs
    have ext' : ∀ t : Finset (Fin 12), (∀ v ∈ t, v = F.1 ∨ v = F.2.1 ∨ v = F.2.2) → (F.1 ∈ s ↔ F.1 ∈ t) → (F.2.1 ∈ s ↔ F.2.1 ∈ t) →
        (F.2.2 ∈ s ↔ F.2.2 ∈ t) → t = s := by
      intro t ht a b c
      ext v
      constructor
      · intro hv
        rcases ht v hv with rfl | rfl | rfl
        exacts [a.2 hv, b.2 hv, c.2 hv]
      · intro hv
        rcases hs v hv with rfl | rfl | rfl
        exacts [a.1 hv, b.1 hv, c.1 hv]
    by_cases a : F.1 ∈ s <;> by_cases b : F.2.1 ∈ s <;> by_cases c : F.2.2 ∈ s
    · exact Or.inr (Or.inr ⟨F, hF, ext' _ (by simp) (by simp [a]) (by simp [b]) (by simp [c])⟩)
    · obtain ⟨e, he, h⟩ := pair _ m1 _ m2 d1
      exact Or.inr (Or.inl ⟨e, he, h.trans (ext' _ (by simp) (by simp [a]) (by simp [b]) (by simp [c, d2.symm, d3.symm]))⟩)
    · obtain ⟨e, he, h⟩ := pair _ m1 _ m3 d2
      exact Or.inr (Or.inl ⟨e, he, h.trans (ext' _ (by simp) (by simp [a]) (by simp [b, d1.symm, d3]) (by simp [c]))⟩)
    · exact Or.inl ⟨F.1, ext' _ (by simp) (by simp [a]) (by simp [b, d1.symm]) (by simp [c, d2.symm])⟩
    · obtain ⟨e, he, h⟩ := pair _ m2 _ m3 d3
      exact Or.inr (Or.inl ⟨e, he, h.trans (ext' _ (by simp) (by simp [a, d1, d2]) (by simp [b]) (by simp [c]))⟩)
    · exact Or.inl ⟨F.2.1, ext' _ (by simp) (by simp [a, d1]) (by simp [b]) (by simp [c, d3.symm])⟩
    · exact Or.inl ⟨F.2.2, ext' _ (by simp) (by simp [a, d2]) (by simp [b, d3]) (by simp [c])⟩
    · obtain ⟨v, hv⟩ := hne
      rcases hs v hv with rfl | rfl | rfl
      exacts [absurd hv a, absurd hv b, absurd hv c]

/-- weights with a given support -/
noncomputable def exact (n : ℕ) (s : Finset (Fin 12)) : Finset (Fin 12 →₀ ℕ) :=
  (s.finsuppAntidiag n).filter fun w => w.support = s

theorem exact_card (n : ℕ) (s : Finset (Fin 12)) (h : s.card ≤ n) : (exact n s).card = (n - 1).choose (n - s.card) := by
  classical
  have hc := Finset.card_finsuppAntidiag_nat_eq_choose (s := s) (n - s.card)
  have : (s.card + (n - s.card) - 1) = n - 1 := by omega
  rw [this] at hc
  rw [← hc]
  set one : Fin 12 →₀ ℕ := Finsupp.indicator s fun _ _ => 1 with hone
  have hv : ∀ k, one k = if k ∈ s then 1 else 0 := by
    intro k; rw [hone, Finsupp.indicator_apply]; split_ifs <;> rfl
  symm
  refine Finset.card_nbij' (fun w => w + one) (fun w => w - one) ?_ ?_ ?_ ?_
  · intro w hw
    simp only [exact, Finset.coe_filter, Set.mem_setOf_eq, Finset.mem_coe, Finset.mem_finsuppAntidiag] at hw ⊢
    have hsupp : (w + one).support = s := by
      ext k
      rw [Finsupp.mem_support_iff, Finsupp.add_apply, hv]
      constructor
      · intro hk
        by_contra hks
        have : w k = 0 := by
          by_contra h0
          exact hks (hw.2 (Finsupp.mem_support_iff.2 h0))
        simp [hks, this] at hk
      · intro hk; simp [hk]
    refine ⟨⟨?_, hsupp.le⟩, hsupp⟩
    rw [Finset.sum_congr rfl (g := fun k => w k + 1) (fun k hk => by rw [Finsupp.add_apply, hv, if_pos hk]), Finset.sum_add_distrib, hw.1]
    simp; omega
  · intro w hw
    simp only [exact, Finset.coe_filter, Set.mem_setOf_eq, Finset.mem_coe, Finset.mem_finsuppAntidiag] at hw ⊢
    obtain ⟨⟨h1, h2⟩, h3⟩ := hw
    have hpos : ∀ k ∈ s, 1 ≤ w k := by
      intro k hk
      rw [← h3, Finsupp.mem_support_iff] at hk
      omega
    constructor
    · have e : ∑ k ∈ s, (w - one) k + ∑ k ∈ s, 1 = ∑ k ∈ s, w k := by
        rw [← Finset.sum_add_distrib]
        refine Finset.sum_congr rfl fun k hk => ?_
        rw [Finsupp.tsub_apply, hv, if_pos hk]
        have := hpos k hk
        omega
      rw [h1] at e
      simp at e ⊢
      omega
    · intro k hk
      rw [Finsupp.mem_support_iff, Finsupp.tsub_apply] at hk
      exact h2 (Finsupp.mem_support_iff.2 (by omega))
  · intro w _
    simp
  · intro w hw
    simp only [exact, Finset.coe_filter, Set.mem_setOf_eq, Finset.mem_finsuppAntidiag] at hw
    obtain ⟨⟨h1, h2⟩, h3⟩ := hw
    ext k
    simp only [Finsupp.add_apply, Finsupp.tsub_apply, hv]
    split
    · next hk =>
      rw [← h3, Finsupp.mem_support_iff] at hk
      omega
    · omega

theorem exact_card_zero (n : ℕ) (s : Finset (Fin 12)) (h : n < s.card) : (exact n s).card = 0 := by
  rw [Finset.card_eq_zero, Finset.eq_empty_iff_forall_notMem]
  intro w hw
  simp only [exact, Finset.mem_filter, Finset.mem_finsuppAntidiag] at hw
  obtain ⟨⟨h1, h2⟩, h3⟩ := hw
  have : ∑ k ∈ s, 1 ≤ ∑ k ∈ s, w k := by
    refine Finset.sum_le_sum fun k hk => ?_
    rw [← h3, Finsupp.mem_support_iff] at hk
    omega
  rw [h1] at this
  simp at this
  omega

/-- all grid weights -/
noncomputable def gridFin (n : ℕ) : Finset (Fin 12 →₀ ℕ) := simplices.biUnion (exact n)

theorem gridFin_card (n : ℕ) (hn : 1 ≤ n) : (gridFin n).card = 10 * n ^ 2 + 2 := by
  unfold gridFin
  rw [Finset.card_biUnion]
  · obtain ⟨h1, c1⟩ := simp1_card
    obtain ⟨h2, c2⟩ := simp2_card
    obtain ⟨h3, c3⟩ := simp3_card
    have k1 : ∀ s ∈ simp1, (exact n s).card = 1 := by
      intro s hs
      rw [exact_card n s (by rw [c1 s hs]; exact hn), c1 s hs, Nat.choose_self]
    have k2 : ∀ s ∈ simp2, (exact n s).card = n - 1 := by
      intro s hs
      rcases le_or_gt s.card n with hle | hlt
      · rw [exact_card n s hle, c2 s hs]
        rw [c2 s hs] at hle
        obtain ⟨k, rfl⟩ : ∃ k, n = k + 2 := ⟨n - 2, by omega⟩
        simp [Nat.choose_succ_self_right]
      · rw [exact_card_zero n s hlt]
        rw [c2 s hs] at hlt
        omega
    have k3 : ∀ s ∈ simp3, (exact n s).card = (n - 1) * (n - 2) / 2 := by
      intro s hs
      rcases le_or_gt s.card n with hle | hlt
      · rw [exact_card n s hle, c3 s hs]
        rw [c3 s hs] at hle
        obtain ⟨k, rfl⟩ : ∃ k, n = k + 3 := ⟨n - 3, by omega⟩
        have : (k + 3 - 1).choose (k + 3 - 3) = (k + 2).choose 2 := by
          rw [show k + 3 - 1 = k + 2 by omega, show k + 3 - 3 = k by omega]
          exact (Nat.choose_symm_of_eq_add (by omega))
        rw [this, Nat.choose_two_right]
        rfl
      · rw [exact_card_zero n s hlt]
        rw [c3 s hs] at hlt
        interval_cases n <;> rfl
    have dis : ∀ {S T : Finset (Finset (Fin 12))} {a b : ℕ}, (∀ s ∈ S, s.card = a) → (∀ s ∈ T, s.card = b) → a ≠ b → Disjoint S T := by
      intro S T a b hS hT hab
      rw [Finset.disjoint_left]
      intro s hs ht
      exact hab ((hS s hs).symm.trans (hT s ht))
    unfold simplices
    rw [Finset.sum_union (Finset.disjoint_union_right.2 ⟨dis c1 c2 (by omega), dis c1 c3 (by omega)⟩),
      Finset.sum_union (dis c2 c3 (by omega)), Finset.sum_congr rfl k1, Finset.sum_congr rfl k2, Finset.sum_congr rfl k3]
    simp only [Finset.sum_const, smul_eq_mul, h1, h2, h3]
    obtain ⟨k, rfl⟩ : ∃ k, n = k + 1 := ⟨n - 1, by omega⟩
    simp only [Nat.add_sub_cancel]
    have : k * (k + 1 - 2) / 2 * 2 = k * (k + 1 - 2) := by
      refine Nat.div_mul_cancel ?_
      cases k with
      | zero => simp
      | succ k =>
        simp only [show k + 1 + 1 - 2 = k by omega]
        rw [mul_comm]
        exact (Nat.even_mul_succ_self k).two_dvd
    generalize k * (k + 1 - 2) / 2 = q at this
    cases k with
    | zero => simp at this ⊢; omega
    | succ k =>
      simp only [show k + 1 + 1 - 2 = k by omega] at this
      nlinarith
  · intro s _ t _ hst
    refine Finset.disjoint_left.2 ?_
    intro w hw hw'
    simp only [exact, Finset.mem_filter] at hw hw'
    exact hst (hw.2.symm.trans hw'.2)

theorem mem_gridFin (n : ℕ) (hn : 1 ≤ n) (w : Fin 12 →₀ ℕ) : w ∈ gridFin n ↔ GridW n fun v => (w v : ℤ) := by
  simp only [gridFin, Finset.mem_biUnion, mem_simplices, exact, Finset.mem_filter, Finset.mem_finsuppAntidiag]
  constructor
  · rintro ⟨s, ⟨hne, F, hF, hsub⟩, ⟨h1, h2⟩, h3⟩
    refine ⟨F, hF, fun v => by positivity, fun v hv => ?_, ?_⟩
    · by_contra h0
      refine hv (hsub v (h2 (Finsupp.mem_support_iff.2 ?_)))
      intro h; exact h0 (by simp [h])
    · rw [← h1, Nat.cast_sum]
      symm
      refine Finset.sum_subset (Finset.subset_univ _) fun v _ hv => ?_
      have : w v = 0 := by
        by_contra h0
        exact hv (h2 (Finsupp.mem_support_iff.2 h0))
      simp [this]
  · rintro ⟨F, hF, h0, hs, hsum⟩
    have hsub : ∀ v ∈ w.support, v ∈ corners F := by
      intro v hv
      by_contra h
      have := hs v h
      rw [Finsupp.mem_support_iff] at hv
      exact hv (by simpa using this)
    have hsum' : ∑ v, w v = n := by
      simp only at hsum
      exact_mod_cast hsum
    have hs2 : ∑ v ∈ w.support, w v = n := by
      rw [← hsum']
      refine Finset.sum_subset (Finset.subset_univ _) fun v _ hv => ?_
      simpa using hv
    refine ⟨w.support, ⟨?_, F, hF, hsub⟩, ⟨hs2, le_rfl⟩, rfl⟩
    by_contra h
    rw [Finset.not_nonempty_iff_eq_empty] at h
    rw [h] at hs2
    simp at hs2
    omega

/-! ### Lengths and orientation -/

/-- edge vectors span this normal -/
def orthT (F : Face) : Vt :=
  crossT ((subT (corner F.2.1).1 (corner F.1).1, subT (corner F.2.1).2.1 (corner F.1).2.1, subT (corner F.2.1).2.2 (corner F.1).2.2))
    ((subT (corner F.2.2).1 (corner F.1).1, subT (corner F.2.2).2.1 (corner F.1).2.1, subT (corner F.2.2).2.2 (corner F.1).2.2))

theorem orthT_spec : ∀ F ∈ faces, dotT (orthT F) (orthT F) = (24, -36) ∧ ∀ k ∈ corners F, dotT (orthT F) (corner k) = (0, 2) := by
  decide +kernel

theorem dedge_dot : ∀ F ∈ faces, ∀ i, dotT (corner (dedge F i).1) (corner (dedge F i).2) = (0, 1) := by decide +kernel

theorem orth_eq (F : Face) : (tri F).orthogonal = evV (orthT F) := by
  simp only [tri, Tri3.orthogonal, vec, evV, orthT, crossT, ev_sub, ev_mul, P3.cross, P3.ext_iff, P3.sub_x, P3.sub_y, P3.sub_z]
  refine ⟨?_, ?_, ?_⟩ <;> ring

theorem tau_sq' : tau ^ 2 = 1 - tau := by rw [pow_two, tau_sq]

/-- points of a face lie in its plane -/
theorem face_plane {F : Face} (hF : F ∈ faces) {w : Fin 12 → ℝ} (hw : ∀ v, v ∉ corners F → w v = 0) (h1 : ∑ v, w v = 1) :
    (tri F).orthogonal.dot (comb w) = 2 * tau := by
  rw [dot_comb]
  have : ∀ v, w v * (tri F).orthogonal.dot (vec v) = w v * (2 * tau) := by
    intro v
    by_cases hv : v ∈ corners F
    · have := congrArg ev ((orthT_spec F hF).2 v hv)
      rw [ev_dot] at this
      rw [orth_eq, vec, this]
      simp [ev]
    · rw [hw v hv, zero_mul, zero_mul]
  rw [Finset.sum_congr rfl fun v _ => this v, ← Finset.sum_mul, h1, one_mul]

theorem orth_normSq {F : Face} (hF : F ∈ faces) : (tri F).orthogonal.normSq = 24 - 36 * tau := by
  have := congrArg ev (orthT_spec F hF).1
  rw [ev_dot, ← orth_eq] at this
  simp only [ev, P3.dot] at this
  simp only [P3.normSq]
  push_cast at this
  linarith

/-- points of the icosahedron are at least the radius of the inner sphere away from the centre -/
theorem face_norm {F : Face} (hF : F ∈ faces) {w : Fin 12 → ℝ} (hw : ∀ v, v ∉ corners F → w v = 0) (h1 : ∑ v, w v = 1) :
    1 ≤ 3 * tau ^ 2 * (comb w).normSq := by
  have h := face_plane hF hw h1
  have hle := dot_le (tri F).orthogonal (comb w)
  have ho := orth_normSq hF
  have a := P3.norm_sq (tri F).orthogonal
  have b := P3.norm_sq (comb w)
  have a0 := P3.norm_nonneg (tri F).orthogonal
  have b0 := P3.norm_nonneg (comb w)
  rw [h] at hle
  obtain ⟨t1, t2⟩ := tau_bounds
  have hsq : (2 * tau) ^ 2 ≤ ((tri F).orthogonal.norm * (comb w).norm) ^ 2 := pow_le_pow_left₀ (by linarith) hle 2
  have e : ((tri F).orthogonal.norm * (comb w).norm) ^ 2 = (24 - 36 * tau) * (comb w).normSq := by
    rw [← ho, ← a, ← b]; ring
  rw [e] at hsq
  have e2 : 24 - 36 * tau = 12 * tau ^ 4 := by
    have := tau_sq'
    have : tau ^ 4 = (1 - tau) ^ 2 := by rw [← this]; ring
    rw [this]
    nlinarith [tau_sq']
  rw [e2] at hsq
  have hp : 0 < 4 * tau ^ 2 := by positivity
  have : 4 * tau ^ 2 * 1 ≤ 4 * tau ^ 2 * (3 * tau ^ 2 * (comb w).normSq) := by nlinarith
  exact le_of_mul_le_mul_left this hp

theorem pt_add (n : ℤ) (w w' : Wt) : pt n (w + w') = pt n w + pt n w' := by
  unfold pt comb
  ext <;> simp only [Pi.add_apply, P3.add_x, P3.add_y, P3.add_z, ← Finset.sum_add_distrib] <;>
    refine Finset.sum_congr rfl fun v _ => ?_ <;> push_cast <;> ring

theorem pt_sub (n : ℤ) (w w' : Wt) : pt n (w - w') = pt n w - pt n w' := by
  unfold pt comb
  ext <;> simp only [Pi.sub_apply, P3.sub_x, P3.sub_y, P3.sub_z, ← Finset.sum_sub_distrib] <;>
    refine Finset.sum_congr rfl fun v _ => ?_ <;> push_cast <;> ring

theorem pt_e1 (n : ℤ) (k : Fin 12) : pt n (e1 k) = (1 / (n : ℝ)) • vec k := by
  unfold pt comb e1
  ext <;> simp only [P3.smul_x, P3.smul_y, P3.smul_z] <;> push_cast <;>
    simp only [ite_div, ite_mul, zero_div, zero_mul, Finset.sum_ite_eq', Finset.mem_univ, if_true]

/-- all small edges have the same length -/
theorem edge_distSq {n : ℤ} {F : Face} (hF : F ∈ faces) (c : Bool × ℤ × ℤ) (i : Fin 3) :
    (pt n (edgeW n F c i).1).distSq (pt n (edgeW n F c i).2) = 4 * tau ^ 2 * (1 / (n : ℝ)) ^ 2 := by
  have key : ∀ k, (vec (dedge F k).1).distSq (vec (dedge F k).2) = 4 * tau ^ 2 := by
    intro k
    have := congrArg ev (dedge_dot F hF k)
    rw [ev_dot] at this
    have h1 := vec_normSq (dedge F k).1
    have h2 := vec_normSq (dedge F k).2
    have h3 := tau_sq'
    change (vec (dedge F k).1).dot (vec (dedge F k).2) = _ at this
    simp only [ev, P3.dot, P3.normSq] at this h1 h2
    push_cast at this
    simp only [P3.distSq, P3.normSq]
    nlinarith
  obtain ⟨b, u, v⟩ := c
  cases b
  · obtain ⟨k, rfl⟩ := fin3_succ i
    rw [edge_down, pt_sub, pt_sub, pt_e1, pt_e1, ← key k]
    simp only [P3.distSq, P3.normSq, P3.sub_x, P3.sub_y, P3.sub_z, P3.smul_x, P3.smul_y, P3.smul_z]; ring
  · rw [edge_up, pt_add, pt_add, pt_e1, pt_e1, ← key i]
    simp only [P3.distSq, P3.normSq, P3.add_x, P3.add_y, P3.add_z, P3.smul_x, P3.smul_y, P3.smul_z]; ring

/-- small triangles are oriented like their face -/
theorem small_orth {n : ℤ} (F : Face) (c : Bool × ℤ × ℤ) :
    (smallTri n F c).orthogonal = (1 / (n : ℝ)) ^ 2 • (tri F).orthogonal := by
  obtain ⟨b, u, v⟩ := c
  have p0 : (smallTri n F (b, u, v)).p1 = pt n (edgeW n F (b, u, v) 0).1 := rfl
  have p1 : (smallTri n F (b, u, v)).p2 = pt n (edgeW n F (b, u, v) 1).1 := rfl
  have p2 : (smallTri n F (b, u, v)).p3 = pt n (edgeW n F (b, u, v) 2).1 := rfl
  cases b
  · have e0 := edge_down n F u v 2
    have e1 := edge_down n F u v 0
    have e2 := edge_down n F u v 1
    rw [show (2 : Fin 3) + 1 = 0 from rfl] at e0
    rw [show (0 : Fin 3) + 1 = 1 from rfl] at e1
    rw [show (1 : Fin 3) + 1 = 2 from rfl] at e2
    simp only [Tri3.orthogonal, p0, p1, p2, e0, e1, e2, pt_sub, pt_e1, dedge, tri, Matrix.cons_val_zero, Matrix.cons_val_one, Matrix.cons_val,
      P3.cross, P3.ext_iff, P3.sub_x, P3.sub_y, P3.sub_z, P3.smul_x, P3.smul_y, P3.smul_z]
    refine ⟨?_, ?_, ?_⟩ <;> ring
  · have e0 := edge_up n F u v 0
    have e1 := edge_up n F u v 1
    have e2 := edge_up n F u v 2
    simp only [Tri3.orthogonal, p0, p1, p2, e0, e1, e2, pt_add, pt_e1, dedge, tri, Matrix.cons_val_zero, Matrix.cons_val_one, Matrix.cons_val,
      P3.cross, P3.ext_iff, P3.add_x, P3.add_y, P3.add_z, P3.sub_x, P3.sub_y, P3.sub_z, P3.smul_x, P3.smul_y, P3.smul_z]
    refine ⟨?_, ?_, ?_⟩ <;> ring

end Icosa

namespace Factory
open Mesh Icosa

theorem geo_corner {ico : Mesh ℝ} (h : createIcosahedron 1 Mesh.new = some ico) (r : ℝ) {n : ℤ} (hn : 1 ≤ n) (p : P3 ℝ) :
    p ∈ (geoSoup r n ico).flatMap Tri3.pts ↔ ∃ w, GridW n w ∧ p = project r (pt n w) := by
  rw [geoSoup_eq h r hn]
  simp only [List.mem_flatMap, List.mem_map]
  constructor
  · rintro ⟨t, ⟨F, hF, c, hc, rfl⟩, hp⟩
    simp only [Tri3.pts, Tri3.map, smallTri, List.mem_cons, List.not_mem_nil, or_false] at hp
    rcases hp with rfl | rfl | rfl
    exacts [⟨_, small_grid hF hc 0, rfl⟩, ⟨_, small_grid hF hc 1, rfl⟩, ⟨_, small_grid hF hc 2, rfl⟩]
  · rintro ⟨w, hw, rfl⟩
    obtain ⟨F, hF, c, hc, i, rfl⟩ := grid_small hn hw
    refine ⟨_, ⟨F, hF, c, hc, rfl⟩, ?_⟩
    simp only [Tri3.pts, Tri3.map, smallTri, List.mem_cons, List.not_mem_nil, or_false]
    fin_cases i
    exacts [Or.inl rfl, Or.inr (Or.inl rfl), Or.inr (Or.inr rfl)]

theorem geo_card {r : ℝ} (hr : r ≠ 0) {n : ℤ} (hn : 1 ≤ n) :
    ((gridFin n.toNat).image fun w => project r (pt n fun v => (w v : ℤ))).card = 10 * n.toNat ^ 2 + 2 := by
  have hnat : ((n.toNat : ℕ) : ℤ) = n := by omega
  have hN : 1 ≤ n.toNat := by omega
  have hmem := mem_gridFin _ hN
  rw [← gridFin_card _ hN]
  generalize gridFin n.toNat = S at hmem ⊢
  rw [hnat] at hmem
  refine Finset.card_image_iff.2 fun w hw w' hw' e => ?_
  have := project_inj hn hr ((hmem w).1 hw) ((hmem w').1 hw') e
  ext v
  exact_mod_cast congrFun this v

theorem project_det (r : ℝ) (t : Tri3 ℝ) : det3 (project r t.p1) (project r t.p2) (project r t.p3) =
    r / t.p1.norm * (r / t.p2.norm) * (r / t.p3.norm) * det3 t.p1 t.p2 t.p3 := by
  simp only [project, det3, P3.smul_x, P3.smul_y, P3.smul_z]; ring

theorem project_edge {n : ℤ} (hn : 1 ≤ n) (r : ℝ) {w w' : Wt} (h : GridW n w) (h' : GridW n w')
    (he : (pt n w).distSq (pt n w') = 4 * tau ^ 2 * (1 / (n : ℝ)) ^ 2) :
    (project r (pt n w)).distSq (project r (pt n w')) ≤ 12 * tau ^ 4 * r ^ 2 / (n : ℝ) ^ 2 := by
  have hp := P3.norm_pos (pt_ne_zero hn h)
  have hq := P3.norm_pos (pt_ne_zero hn h')
  have bound : ∀ {w}, GridW n w → 1 ≤ 3 * tau ^ 2 * (pt n w).norm ^ 2 := by
    intro w h
    obtain ⟨F, hF, a, b⟩ := h.onFace hn
    have := face_norm hF a.support b
    rwa [← P3.norm_sq, ← pow_two] at this
  have b1 := bound h
  have b2 := bound h'
  have s1 := P3.norm_sq (pt n w)
  have s2 := P3.norm_sq (pt n w')
  generalize pt n w = p at *
  generalize pt n w' = q at *
  have ht := tau_bounds.1
  have hpq : 1 ≤ 3 * tau ^ 2 * (p.norm * q.norm) := by
    have : (1 : ℝ) ^ 2 ≤ (3 * tau ^ 2 * (p.norm * q.norm)) ^ 2 := by
      have := mul_le_mul b1 b2 zero_le_one (zero_le_one.trans b1)
      calc (1 : ℝ) ^ 2 = 1 * 1 := by norm_num
        _ ≤ _ := this
        _ = _ := by ring
    exact le_of_sq_le_sq this (by positivity) |>.trans le_rfl
  have e : (project r p).distSq (project r q) = r ^ 2 * ((p.distSq q - (p.norm - q.norm) ^ 2) / (p.norm * q.norm)) := by
    have k1 : p.x ^ 2 + p.y ^ 2 + p.z ^ 2 = p.norm ^ 2 := by rw [pow_two p.norm, s1]; simp only [P3.normSq]; ring
    have k2 : q.x ^ 2 + q.y ^ 2 + q.z ^ 2 = q.norm ^ 2 := by rw [pow_two q.norm, s2]; simp only [P3.normSq]; ring
    simp only [project, P3.distSq, P3.normSq, P3.smul_x, P3.smul_y, P3.smul_z, P3.sub_x, P3.sub_y, P3.sub_z]
    generalize p.norm = A at *
    generalize q.norm = B at *
    have i1 : A * A⁻¹ = 1 := mul_inv_cancel₀ hp.ne'
    have i2 : B * B⁻¹ = 1 := mul_inv_cancel₀ hq.ne'
    rw [eq_comm, div_eq_mul_inv, mul_inv, div_eq_mul_inv, div_eq_mul_inv]
    generalize A⁻¹ = u at *
    generalize B⁻¹ = v at *
    trans r ^ 2 * (u ^ 2 * A ^ 2 + v ^ 2 * B ^ 2 - 2 * (u * v) * (p.x * q.x + p.y * q.y + p.z * q.z))
    · have e1 : u ^ 2 * A ^ 2 = 1 := by rw [← mul_pow, mul_comm, i1, one_pow]
      have e2 : v ^ 2 * B ^ 2 = 1 := by rw [← mul_pow, mul_comm, i2, one_pow]
      have e3 : (A * u) * (B * v) = 1 := by rw [i1, i2, one_mul]
      rw [e1, e2]
      linear_combination r ^ 2 * (u * v) * k1 + r ^ 2 * (u * v) * k2 + 2 * r ^ 2 * e3
    · rw [← k1, ← k2]; ring
  rw [e, mul_div_assoc', div_le_iff₀ (by positivity)]
  have hd : p.distSq q - (p.norm - q.norm) ^ 2 ≤ 4 * tau ^ 2 * (1 / (n : ℝ)) ^ 2 := by
    rw [← he]; nlinarith [sq_nonneg (p.norm - q.norm)]
  have hn' : (0 : ℝ) < n := by exact_mod_cast hn
  calc r ^ 2 * (p.distSq q - (p.norm - q.norm) ^ 2) ≤ r ^ 2 * (4 * tau ^ 2 * (1 / (n : ℝ)) ^ 2) := mul_le_mul_of_nonneg_left hd (sq_nonneg r)
    _ = (4 * tau ^ 2 * r ^ 2 / (n : ℝ) ^ 2) * 1 := by ring
    _ ≤ (4 * tau ^ 2 * r ^ 2 / (n : ℝ) ^ 2) * (3 * tau ^ 2 * (p.norm * q.norm)) := mul_le_mul_of_nonneg_left hpq (by positivity)
    _ = _ := by ring

/-- a point of a triangle inscribed in a sphere is near the sphere when the sides are short -/
theorem inscribed_depth {r l : ℝ} {t : Tri3 ℝ} (h1 : t.p1.normSq = r ^ 2) (h2 : t.p2.normSq = r ^ 2) (h3 : t.p3.normSq = r ^ 2)
    (e1 : t.p1.distSq t.p2 ≤ l) (e2 : t.p2.distSq t.p3 ≤ l) (e3 : t.p3.distSq t.p1 ≤ l) {q : P3 ℝ} (hq : InTriangle t q) :
    r ^ 2 - l / 3 ≤ q.normSq ∧ q.normSq ≤ r ^ 2 := by
  obtain ⟨a, b, c, ha, hb, hc, hs, rfl⟩ := hq
  have key : (a • t.p1 + b • t.p2 + c • t.p3).normSq =
      r ^ 2 - (a * b * t.p1.distSq t.p2 + b * c * t.p2.distSq t.p3 + c * a * t.p3.distSq t.p1) := by
    obtain rfl : c = 1 - a - b := by linarith
    simp only [P3.normSq, P3.distSq, P3.add_x, P3.add_y, P3.add_z, P3.smul_x, P3.smul_y, P3.smul_z, P3.sub_x, P3.sub_y, P3.sub_z] at *
    linear_combination a * h1 + b * h2 + (1 - a - b) * h3
  have dn : ∀ p q : P3 ℝ, 0 ≤ p.distSq q := fun p q => by rw [P3.distSq_eq]; exact P3.normSq_nonneg _
  have l0 : 0 ≤ l := le_trans (dn _ _) e1
  have ab := mul_nonneg ha hb
  have bc := mul_nonneg hb hc
  have ca := mul_nonneg hc ha
  rw [key]
  constructor
  · have hsum : a * b + b * c + c * a ≤ 1 / 3 := by
      nlinarith [sq_nonneg (a - b), sq_nonneg (b - c), sq_nonneg (c - a)]
    have := mul_le_mul_of_nonneg_left e1 ab
    have := mul_le_mul_of_nonneg_left e2 bc
    have := mul_le_mul_of_nonneg_left e3 ca
    have := mul_le_mul_of_nonneg_right hsum l0
    linarith
  · have := mul_nonneg ab (dn t.p1 t.p2)
    have := mul_nonneg bc (dn t.p2 t.p3)
    have := mul_nonneg ca (dn t.p3 t.p1)
    linarith

/-- grid points of the icosahedron are not outside its circumscribed sphere -/
theorem pt_norm_le {n : ℤ} (hn : 1 ≤ n) {w : Wt} (h : GridW n w) : (pt n w).norm ≤ 1.176 := by
  obtain ⟨F, hF, a, b⟩ := h.onFace hn
  have h0 := P3.norm_nonneg (pt n w)
  have hv : ∀ v, (vec v).norm ≤ 1.176 := by
    intro v
    have e := P3.norm_sq (vec v)
    rw [vec_normSq] at e
    have := tau_bounds.1
    have := P3.norm_nonneg (vec v)
    norm_num at *
    nlinarith
  have key : (pt n w).dot (pt n w) ≤ (pt n w).norm * 1.176 := by
    have : (pt n w).dot (pt n w) = ∑ v, (fun v => (w v : ℝ) / n) v * (pt n w).dot (vec v) := dot_comb _ _
    rw [this]
    have hle : ∀ v ∈ Finset.univ, (fun v => (w v : ℝ) / n) v * (pt n w).dot (vec v) ≤ (fun v => (w v : ℝ) / n) v * ((pt n w).norm * 1.176) := by
      intro v _
      refine mul_le_mul_of_nonneg_left ?_ (a.nonneg v)
      exact (dot_le _ _).trans (mul_le_mul_of_nonneg_left (hv v) h0)
    refine (Finset.sum_le_sum hle).trans ?_
    rw [← Finset.sum_mul, b, one_mul]
  have e : (pt n w).dot (pt n w) = (pt n w).norm ^ 2 := by rw [pow_two, P3.norm_sq]; rfl
  rw [e] at key
  by_contra hlt
  push Not at hlt
  nlinarith

/-- C108.  `create_sphere_geodesic(r, n)` for `r ≠ 0`, `n ≥ 1` is a watertight surface: `10n² + 2`
vertices, all different, `30n²` edges, each used once in both directions, `20n²` triangles, so
`V - E + F = 2`.  The merging tolerance of the code moves nothing: corners lie on the sphere.  The
triangles are outward for `r > 0`, and with the centre each spans a tetrahedron of volume at least
`r³/(8n²)`, so that none is degenerate.  Their sides are at most `√12·τ²·|r|/n` long (`τ` the golden ratio
0.618…), and no point of the surface is further inside the sphere than `1 - |q|²/r² = 4τ⁴/n²`. -/
theorem geodesic_watertight (r : ℝ) (hr : r ≠ 0) (n : ℤ) (hn : 1 ≤ n) (m : Mesh ℝ) :
    let τ : ℝ := (Real.sqrt 5 - 1) / 2
    ∃ x, createSphereGeodesic r n m = some x ∧
      Polyhedron (10 * n.toNat ^ 2 + 2) (30 * n.toNat ^ 2) (20 * n.toNat ^ 2) x ∧
      (∀ i j p, x.getVertex i = some p → x.getVertex j = some p → i = j) ∧
      (∀ i p, x.getVertex i = some p → p.normSq = r ^ 2) ∧
      (0 < r → ∀ t ∈ x.triangles, 3 / 4 * r ^ 3 / (n : ℝ) ^ 2 ≤ t.p1.dot t.orthogonal) ∧
      (∀ t ∈ x.triangles, ∀ e ∈ t.dirEdges, e.1.distSq e.2 ≤ 12 * τ ^ 4 * r ^ 2 / (n : ℝ) ^ 2) ∧
      (∀ t ∈ x.triangles, ∀ q, InTriangle t q → r ^ 2 * (1 - 4 * τ ^ 4 / (n : ℝ) ^ 2) ≤ q.normSq ∧ q.normSq ≤ r ^ 2) := by
  intro τ
  have hτ : τ = tau := rfl
  clear_value τ
  subst hτ
  have hn' : (0 : ℝ) < n := by exact_mod_cast hn
  obtain ⟨x, g1, g2, g3, g4, g5, -⟩ := geodesic_spec r n hn m
  obtain ⟨ico, h1, h2, hdet, h3⟩ := geodesic_eq r n m
  have hok := (clear_ok m).addSoup (geoSoup r n ico)
  have hts : (m.clear.addSoup (geoSoup r n ico)).triangles = geoSoup r n ico := by
    rw [triangles_eq, soup_addSoup (clear_ok m), clear_soup, List.nil_append]
  have hvs : ∀ p, (∃ i, (m.clear.addSoup (geoSoup r n ico)).getVertex i = some p) ↔ ∃ w, GridW n w ∧ p = project r (pt n w) := by
    intro p
    rw [← geo_corner h1 r hn p]
    have hv : (m.clear.addSoup (geoSoup r n ico)).kern.verts = (geoSoup r n ico).flatMap Tri3.pts := by
      simp [addSoup, Mesh.clear, KernLT.clear]
    rw [← hv, List.mem_iff_getElem?]
    constructor
    · rintro ⟨i, hi⟩
      rw [(answers_view _).getVertex] at hi
      obtain ⟨k, _, hk⟩ := getI_eq_some_iff.1 hi
      exact ⟨k, hk⟩
    · rintro ⟨k, hk⟩
      exact ⟨k, by rw [(answers_view _).getVertex, getI_natCast]; exact hk⟩
  have htol : r / (951 / 1000) / n / 20 ≠ 0 := by
    have := hn'.ne'
    positivity
  obtain ⟨y, k1, k2, k3, k4, k5, k6⟩ := MeshUtil.merge_welds _ hok (r / (951 / 1000) / n / 20) htol (by
    intro i j p q hi hj hne
    obtain ⟨w, hw, rfl⟩ := (hvs p).1 ⟨i, hi⟩
    obtain ⟨w', hw', rfl⟩ := (hvs q).1 ⟨j, hj⟩
    exact project_apart hn r hw hw' fun e => hne (by rw [e]))
  obtain rfl : y = x := by
    rw [h3, k1] at g1
    exact Option.some.inj g1
  rw [hts] at k3 k6
  have hcl : ClosedIds y.cornerList := k6.2 (geoSoup_closed h1 hr hn)
  have hlen : y.cornerList.length = 20 * n.toNat ^ 2 := by
    have a := congrArg List.length (MeshUtil.triangles_pos k2).1
    rw [List.length_map, k3] at a
    rw [← a]
    have b := congrArg List.length (icosa_faces h1)
    unfold geoSoup
    rw [List.length_map, icosa_faces h1]
    simp only [List.length_flatMap, Tessellate.tess_length, List.map_const', List.sum_replicate, List.length_map, smul_eq_mul]
    rfl
  have hedge : ∀ F ∈ faces, ∀ c ∈ cells n, ∀ e ∈ ((smallTri n F c).map (project r)).dirEdges,
      e.1.distSq e.2 ≤ 12 * tau ^ 4 * r ^ 2 / (n : ℝ) ^ 2 := by
    intro F hF c hc e he
    have : ∃ i, e = (project r (pt n (edgeW n F c i).1), project r (pt n (edgeW n F c i).2)) := by
      simp only [Tri3.dirEdges, Tri3.map, smallTri, List.mem_cons, List.not_mem_nil, or_false] at he
      rcases he with rfl | rfl | rfl
      exacts [⟨0, rfl⟩, ⟨1, rfl⟩, ⟨2, rfl⟩]
    obtain ⟨i, rfl⟩ := this
    exact project_edge hn r (small_grid hF hc i) (small_grid hF hc (i + 1)) (edge_distSq hF c i)
  refine ⟨y, by rw [h3]; exact k1, ⟨k2, ?_, ?_, g4, hcl, ?_⟩, k4, g5, ?_, ?_, ?_⟩
  · -- the vertices are the projected grid points
    have hnat : ((n.toNat : ℕ) : ℤ) = n := by omega
    have hN : 1 ≤ n.toNat := by omega
    have hv : ∀ i p, y.kern.verts[i]? = some p ↔ y.getVertex (i : ℕ) = some p := by
      intro i p
      rw [(answers_view _).getVertex, getI_natCast]; rfl
    have hnd : y.kern.verts.Nodup := by
      rw [List.nodup_iff_injective_get]
      rintro ⟨i, hi⟩ ⟨j, hj⟩ e
      have a := (hv i _).1 (List.getElem?_eq_getElem hi)
      have b := (hv j _).1 (List.getElem?_eq_getElem hj)
      simp only [List.get_eq_getElem] at e
      rw [← e] at b
      have := k4 _ _ _ a b
      ext; simpa using this
    have himg : y.kern.verts.toFinset = (gridFin n.toNat).image fun w => project r (pt n fun v => (w v : ℤ)) := by
      ext p
      rw [List.mem_toFinset, Finset.mem_image, List.mem_iff_getElem?]
      constructor
      · rintro ⟨i, hi⟩
        obtain ⟨w, hw, rfl⟩ := (hvs p).1 ((k5 p).1 ⟨_, (hv i p).1 hi⟩)
        have hw0 : ∀ v, 0 ≤ w v := by obtain ⟨F, hF, h0, -⟩ := hw; exact h0
        have hw' : w = fun v => (((Finsupp.equivFunOnFinite.symm fun v => (w v).toNat) v : ℕ) : ℤ) := by
          funext v; simp [hw0 v]
        refine ⟨Finsupp.equivFunOnFinite.symm fun v => (w v).toNat, ?_, ?_⟩
        · rw [mem_gridFin _ hN, hnat, ← hw']; exact hw
        · rw [← hw']
      · rintro ⟨w, hw, rfl⟩
        rw [mem_gridFin _ hN, hnat] at hw
        obtain ⟨i, hi⟩ := (k5 _).2 ((hvs _).2 ⟨_, hw, rfl⟩)
        rw [(answers_view _).getVertex] at hi
        obtain ⟨k, _, hk⟩ := getI_eq_some_iff.1 hi
        exact ⟨k, hk⟩
    have hcard : y.kern.verts.length = 10 * n.toNat ^ 2 + 2 := by
      rw [← List.toFinset_card_of_nodup hnd, himg]
      exact geo_card hr hn
    simp only [Mesh.nbVertices, KernLT.nbVertices, hcard]
  · rw [g3]; push_cast; rw [Int.toNat_of_nonneg (by omega)]
  · have := hcl.edgeCount
    omega
  · intro hpos t ht
    rw [k3, geoSoup_eq h1 r hn] at ht
    obtain ⟨F, hF, ht⟩ := List.mem_flatMap.1 ht
    obtain ⟨c, hc, rfl⟩ := List.mem_map.1 ht
    have q1 := P3.norm_pos (pt_ne_zero hn (small_grid hF hc 0))
    have q2 := P3.norm_pos (pt_ne_zero hn (small_grid hF hc 1))
    have q3 := P3.norm_pos (pt_ne_zero hn (small_grid hF hc 2))
    rw [vol6_eq]
    have e := project_det r (smallTri n F c)
    change _ ≤ det3 (project r _) (project r _) (project r _)
    rw [e]
    rw [← vol6_eq, small_orth]
    obtain ⟨F', hF', a, b⟩ := (small_grid hF hc 0).onFace hn
    have hw : ∀ v, v ∉ corners F → small n F c 0 v = 0 := by
      intro v hv
      unfold small
      split_ifs <;> simp [cell_off hv]
    have hplane := face_plane hF (w := fun v => (small n F c 0 v : ℝ) / n) (fun v hv => by simp [hw v hv]) b
    have : (smallTri n F c).p1.dot ((1 / (n : ℝ)) ^ 2 • (tri F).orthogonal) = (1 / (n : ℝ)) ^ 2 * (tri F).orthogonal.dot (pt n (small n F c 0)) := by
      simp only [smallTri, P3.dot, P3.smul_x, P3.smul_y, P3.smul_z]; ring
    rw [this, pt, hplane]
    have t1 := tau_bounds.1
    have u1 := pt_norm_le hn (small_grid hF hc 0)
    have u2 := pt_norm_le hn (small_grid hF hc 1)
    have u3 := pt_norm_le hn (small_grid hF hc 2)
    have hN : (smallTri n F c).p1.norm * (smallTri n F c).p2.norm * (smallTri n F c).p3.norm ≤ 1.176 * 1.176 * 1.176 :=
      mul_le_mul (mul_le_mul u1 u2 q2.le (by norm_num)) u3 q3.le (by norm_num)
    have hN0 : 0 < (smallTri n F c).p1.norm * (smallTri n F c).p2.norm * (smallTri n F c).p3.norm := mul_pos (mul_pos q1 q2) q3
    have e2 : r / (smallTri n F c).p1.norm * (r / (smallTri n F c).p2.norm) * (r / (smallTri n F c).p3.norm) * ((1 / (n : ℝ)) ^ 2 * (2 * tau)) =
        r ^ 3 / (n : ℝ) ^ 2 * (2 * tau / ((smallTri n F c).p1.norm * (smallTri n F c).p2.norm * (smallTri n F c).p3.norm)) := by
      have : (smallTri n F c).p1.norm ≠ 0 := q1.ne'
      have : (smallTri n F c).p2.norm ≠ 0 := q2.ne'
      have : (smallTri n F c).p3.norm ≠ 0 := q3.ne'
      field_simp
    rw [e2, show 3 / 4 * r ^ 3 / (n : ℝ) ^ 2 = r ^ 3 / (n : ℝ) ^ 2 * (3 / 4) by ring]
    refine mul_le_mul_of_nonneg_left ?_ (by positivity)
    rw [le_div_iff₀ hN0]
    norm_num at t1 hN ⊢
    linarith
  · intro t ht
    rw [k3, geoSoup_eq h1 r hn] at ht
    obtain ⟨F, hF, ht⟩ := List.mem_flatMap.1 ht
    obtain ⟨c, hc, rfl⟩ := List.mem_map.1 ht
    exact hedge F hF c hc
  · intro t ht q hq
    have hsph : ∀ p ∈ t.pts, p.normSq = r ^ 2 := by
      intro p hp
      rw [k3] at ht
      obtain ⟨w, hw, rfl⟩ := (geo_corner h1 r hn p).1 (List.mem_flatMap.2 ⟨t, ht, hp⟩)
      exact project_norm (pt_ne_zero hn hw)
    rw [k3, geoSoup_eq h1 r hn] at ht
    obtain ⟨F, hF, ht⟩ := List.mem_flatMap.1 ht
    obtain ⟨c, hc, rfl⟩ := List.mem_map.1 ht
    have he := hedge F hF c hc
    generalize (smallTri n F c).map (project r) = t at *
    have := inscribed_depth (hsph t.p1 (by simp [Tri3.pts])) (hsph t.p2 (by simp [Tri3.pts])) (hsph t.p3 (by simp [Tri3.pts]))
      (he (t.p1, t.p2) (by simp [Tri3.dirEdges])) (he (t.p2, t.p3) (by simp [Tri3.dirEdges])) (he (t.p3, t.p1) (by simp [Tri3.dirEdges])) hq
    refine ⟨le_trans (le_of_eq ?_) this.1, this.2⟩
    ring

end Factory
end CAD
