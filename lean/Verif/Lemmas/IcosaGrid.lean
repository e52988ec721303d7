import Verif.Lemmas.Icosa
import Verif.Props.Tessellate

/-! The triangles of a tessellated icosahedron by corner weights: no directed edge occurs twice.
Used for C108. -/

set_option linter.unusedSimpArgs false

namespace CAD
namespace Icosa

/-! ### Grid weights -/

/-- corner weights times `n` -/
abbrev Wt := Fin 12 → ℤ

/-- weights `n - u - v`, `u`, `v` on the corners of a face -/
def cell (n : ℤ) (F : Face) (u v : ℤ) : Wt := fun w =>
  (if w = F.1 then n - u - v else 0) + (if w = F.2.1 then u else 0) + (if w = F.2.2 then v else 0)

/-- the point with weights `w / n` -/
noncomputable def pt (n : ℤ) (w : Wt) : P3 ℝ := comb fun v => (w v : ℝ) / n

theorem interpolate_eq {n : ℤ} (hn : 1 ≤ n) (F : Face) (u v : ℤ) :
    Tessellate.interpolate (vec F.1) (vec F.2.1) (vec F.2.2) u v n = pt n (cell n F u v) := by
  have hn' : (n : ℝ) ≠ 0 := by have : (0 : ℝ) < n := by exact_mod_cast hn
                               exact this.ne'
  have key : ∀ f : Fin 12 → ℝ, ∑ w, ((cell n F u v w : ℤ) : ℝ) / n * f w =
      ((n - u - v) * f F.1 + u * f F.2.1 + v * f F.2.2) / n := by
    intro f
    simp only [cell]
    push_cast
    simp only [add_div, add_mul, Finset.sum_add_distrib, ite_div, zero_div, ite_mul, zero_mul, Finset.sum_ite_eq', Finset.mem_univ, if_true]
    ring
  unfold pt comb
  rw [key, key, key]
  ext <;> simp only [Tessellate.interpolate, P3.add_x, P3.add_y, P3.add_z, P3.smul_x, P3.smul_y, P3.smul_z, P3.sub_x, P3.sub_y, P3.sub_z] <;>
    field_simp <;> ring

/-- the small triangles of one face: upright or not, position `u`, `v` -/
def cells (n : ℤ) : List (Bool × ℤ × ℤ) :=
  (List.range n.toNat).flatMap fun (s : Nat) => [(true, (s : ℤ), 0)] ++ (List.range s).flatMap fun (j : Nat) =>
    [(false, (s - j - 1 : ℤ), (j : ℤ)), (true, (s - j - 1 : ℤ), (j + 1 : ℤ))]

/-- corners of a small triangle -/
def small (n : ℤ) (F : Face) (c : Bool × ℤ × ℤ) : Fin 3 → Wt :=
  if c.1 then ![cell n F c.2.1 c.2.2, cell n F (c.2.1 + 1) c.2.2, cell n F c.2.1 (c.2.2 + 1)]
  else ![cell n F (c.2.1 + 1) c.2.2, cell n F (c.2.1 + 1) (c.2.2 + 1), cell n F c.2.1 (c.2.2 + 1)]

theorem mem_cells {n : ℤ} {c : Bool × ℤ × ℤ} : c ∈ cells n ↔
    0 ≤ c.2.1 ∧ 0 ≤ c.2.2 ∧ c.2.1 + c.2.2 + (if c.1 then 1 else 2) ≤ n := by
  obtain ⟨b, u, v⟩ := c
  simp only [cells, List.mem_flatMap, List.mem_range, List.mem_append, List.mem_cons, List.not_mem_nil, or_false, Prod.mk.injEq]
  constructor
  · rintro ⟨s, hs, ⟨rfl, rfl, rfl⟩ | ⟨j, hj, ⟨rfl, rfl, rfl⟩ | ⟨rfl, rfl, rfl⟩⟩⟩
    · simp; omega
    · simp; omega
    · simp; omega
  · rintro ⟨h1, h2, h3⟩
    cases b
    · simp only [Bool.false_eq_true, if_false] at h3
      exact ⟨(u + v + 1).toNat, by omega, Or.inr ⟨v.toNat, by omega, Or.inl ⟨rfl, by omega, by omega⟩⟩⟩
    · simp only [if_true] at h3
      by_cases hv : v = 0
      · exact ⟨u.toNat, by omega, Or.inl ⟨rfl, by omega, hv⟩⟩
      · exact ⟨(u + v).toNat, by omega, Or.inr ⟨(v - 1).toNat, by omega, Or.inr ⟨rfl, by omega, by omega⟩⟩⟩

theorem nodup_cells (n : ℤ) : (cells n).Nodup := by
  unfold cells
  rw [List.nodup_flatMap]
  constructor
  · intro s _
    rw [List.singleton_append, List.nodup_cons]
    constructor
    · simp only [List.mem_flatMap, List.mem_range, List.mem_cons, List.not_mem_nil, or_false, Prod.mk.injEq, not_exists, not_and, not_or]
      intro j hj
      constructor
      · intro h; simp at h
      · intro _ _; omega
    · rw [List.nodup_flatMap]
      constructor
      · intro j _; simp
      · refine List.Nodup.pairwise_of_forall_ne List.nodup_range fun i _ j _ hij => ?_
        simp only [Function.onFun, List.disjoint_left, List.mem_cons, List.not_mem_nil, or_false]
        rintro x (rfl | rfl) <;> simp <;> omega
  · refine List.Nodup.pairwise_of_forall_ne List.nodup_range fun i _ j _ hij => ?_
    simp only [Function.onFun, List.disjoint_left, List.mem_append, List.mem_flatMap, List.mem_range, List.mem_cons, List.not_mem_nil, or_false]
    rintro ⟨b, u, v⟩ (h | ⟨k, hk, h | h⟩) (h' | ⟨l, hl, h' | h'⟩) <;> simp only [Prod.mk.injEq] at h h' <;>
      obtain ⟨rfl, h1, h2⟩ := h <;> obtain ⟨hb, h3, h4⟩ := h' <;> first | omega | simp at hb

/-- a face as a triangle -/
noncomputable def tri (F : Face) : Tri3 ℝ := ⟨vec F.1, vec F.2.1, vec F.2.2⟩

noncomputable def smallTri (n : ℤ) (F : Face) (c : Bool × ℤ × ℤ) : Tri3 ℝ :=
  ⟨pt n (small n F c 0), pt n (small n F c 1), pt n (small n F c 2)⟩

theorem tess_eq {n : ℤ} (hn : 1 ≤ n) (F : Face) : Tessellate.tess n (tri F) = (cells n).map (smallTri n F) := by
  unfold Tessellate.tess cells tri
  simp only [interpolate_eq hn, List.map_flatMap, List.map_append, List.map_cons, List.map_nil, smallTri, small,
    if_true, Bool.false_eq_true, if_false, Matrix.cons_val_zero, Matrix.cons_val_one, Matrix.cons_val]
  refine List.flatMap_congr fun s _ => ?_
  congr 1
  refine List.flatMap_congr fun j _ => ?_
  simp [add_assoc]

/-! ### Directed edges occur once -/

/-- the directed edges of a face -/
def dedge (F : Face) : Fin 3 → Fin 12 × Fin 12 := ![(F.1, F.2.1), (F.2.1, F.2.2), (F.2.2, F.1)]
/-- the corner opposite to an edge -/
def opp (F : Face) : Fin 3 → Fin 12 := ![F.2.2, F.1, F.2.1]

theorem dedge_proper : ∀ F ∈ faces, ∀ i, (dedge F i).1 ≠ (dedge F i).2 := by decide +kernel
theorem dedge_inj : ∀ F ∈ faces, ∀ F' ∈ faces, ∀ i i', dedge F i = dedge F' i' → F = F' ∧ i = i' := by decide +kernel
theorem dedge_opp : ∀ F ∈ faces, ∀ F' ∈ faces, ∀ i i', dedge F i = (dedge F' i').swap → opp F' i' ∉ corners F := by decide +kernel
theorem corners_distinct : ∀ F ∈ faces, F.1 ≠ F.2.1 ∧ F.1 ≠ F.2.2 ∧ F.2.1 ≠ F.2.2 := by decide +kernel
theorem opp_mem (F : Face) (i) : opp F i ∈ corners F := by fin_cases i <;> simp [opp, corners]

/-- unit weight -/
def e1 (k : Fin 12) : Wt := fun w => if w = k then 1 else 0

def edgeW (n : ℤ) (F : Face) (c : Bool × ℤ × ℤ) (i : Fin 3) : Wt × Wt := (small n F c i, small n F c (i + 1))

theorem edge_up (n : ℤ) (F : Face) (u v : ℤ) (i : Fin 3) : edgeW n F (true, u, v) i =
    (cell (n - 1) F u v + e1 (dedge F i).1, cell (n - 1) F u v + e1 (dedge F i).2) := by
  unfold edgeW small
  fin_cases i <;> refine Prod.ext (funext fun w => ?_) (funext fun w => ?_) <;>
    simp [dedge, cell, e1] <;> split_ifs <;> ring

theorem edge_down (n : ℤ) (F : Face) (u v : ℤ) (i : Fin 3) : edgeW n F (false, u, v) (i + 1) =
    (cell (n + 1) F (u + 1) (v + 1) - e1 (dedge F i).1, cell (n + 1) F (u + 1) (v + 1) - e1 (dedge F i).2) := by
  unfold edgeW small
  fin_cases i <;> refine Prod.ext (funext fun w => ?_) (funext fun w => ?_) <;>
    simp [dedge, cell, e1] <;> split_ifs <;> ring

theorem e1_sub_inj {a b a' b' : Fin 12} (hab : a ≠ b) (h : e1 b - e1 a = e1 b' - e1 a') : a = a' ∧ b = b' := by
  have ha := congrFun h a
  have hb := congrFun h b
  simp only [Pi.sub_apply, e1, if_true] at ha hb
  constructor
  · by_contra hne
    rw [if_neg hab, if_neg hne] at ha
    split_ifs at ha <;> omega
  · by_contra hne
    rw [if_neg hab.symm, if_neg hne] at hb
    split_ifs at hb <;> omega

theorem cell_inj {F : Face} (hF : F ∈ faces) {n u v u' v' : ℤ} (h : cell n F u v = cell n F u' v') : u = u' ∧ v = v' := by
  obtain ⟨h1, h2, h3⟩ := corners_distinct F hF
  have a := congrFun h F.2.1
  have b := congrFun h F.2.2
  simp only [cell, h1.symm, h2.symm, h3, h3.symm, if_false, if_true, zero_add, add_zero] at a b
  exact ⟨a, b⟩

theorem cell_off {F : Face} {n u v : ℤ} {w : Fin 12} (h : w ∉ corners F) : cell n F u v w = 0 := by
  simp only [corners, List.mem_cons, List.not_mem_nil, or_false, not_or] at h
  simp only [cell, h.1, h.2.1, h.2.2, if_false, add_zero]

theorem cell_pos {F : Face} (hF : F ∈ faces) {n u v : ℤ} (hu : 0 < u) (hv : 0 < v) (hn : 0 < n - u - v) {w : Fin 12}
    (hw : w ∈ corners F) : 0 < cell n F u v w := by
  obtain ⟨h1, h2, h3⟩ := corners_distinct F hF
  simp only [corners, List.mem_cons, List.not_mem_nil, or_false] at hw
  rcases hw with rfl | rfl | rfl <;>
    simp only [cell, h1, h2, h1.symm, h2.symm, h3, h3.symm, if_false, if_true, zero_add, add_zero] <;> assumption

theorem fin3_succ : ∀ i : Fin 3, ∃ k, i = k + 1 := by decide

theorem edgeW_inj {n : ℤ} {F F' : Face} (hF : F ∈ faces) (hF' : F' ∈ faces) {c c' : Bool × ℤ × ℤ} (hc : c ∈ cells n)
    (hc' : c' ∈ cells n) {i i' : Fin 3} (h : edgeW n F c i = edgeW n F' c' i') : F = F' ∧ c = c' ∧ i = i' := by
  have mixed : ∀ (F F' : Face), F ∈ faces → F' ∈ faces → ∀ (u v u' v' : ℤ) (i i' : Fin 3), (false, u', v') ∈ cells n →
      edgeW n F (true, u, v) i ≠ edgeW n F' (false, u', v') (i' + 1) := by
    intro F F' hF hF' u v u' v' i i' hc' h
    rw [edge_up, edge_down, Prod.mk.injEq] at h
    obtain ⟨h1, h2⟩ := h
    have hd : e1 (dedge F i).2 - e1 (dedge F i).1 = e1 (dedge F' i').1 - e1 (dedge F' i').2 := by
      have := congrArg₂ (· - ·) h2 h1
      simp only [add_sub_add_left_eq_sub, sub_sub_sub_cancel_left] at this
      exact this
    obtain ⟨ha, hb⟩ := e1_sub_inj (dedge_proper F hF i) hd
    have hoff := dedge_opp F hF F' hF' i i' (Prod.ext ha hb)
    have hmem := opp_mem F' i'
    obtain ⟨m1, m2, m3⟩ := mem_cells.1 hc'
    simp only [Bool.false_eq_true, if_false] at m1 m2 m3
    have hp := cell_pos hF' (n := n + 1) (u := u' + 1) (v := v' + 1) (by omega) (by omega) (by omega) hmem
    have := congrFun h1 (opp F' i')
    simp only [Pi.add_apply, Pi.sub_apply, cell_off hoff] at this
    have hmF : (dedge F i).1 ∈ corners F ∧ (dedge F i).2 ∈ corners F := by
      fin_cases i <;> simp [dedge, corners]
    have z1 : e1 (dedge F i).1 (opp F' i') = 0 := by
      simp only [e1]; rw [if_neg]; intro e; rw [e] at hoff; exact hoff hmF.1
    have z2 : e1 (dedge F' i').1 (opp F' i') = 0 := by
      simp only [e1]; rw [if_neg]; intro e; rw [e, ← hb] at hoff; exact hoff hmF.2
    rw [z1, z2] at this
    omega
  obtain ⟨b, u, v⟩ := c
  obtain ⟨b', u', v'⟩ := c'
  cases b <;> cases b'
  · obtain ⟨k, rfl⟩ : ∃ k, i = k + 1 := fin3_succ i
    obtain ⟨k', rfl⟩ : ∃ k, i' = k + 1 := fin3_succ i'
    rw [edge_down, edge_down, Prod.mk.injEq] at h
    obtain ⟨h1, h2⟩ := h
    have hd : e1 (dedge F k).1 - e1 (dedge F k).2 = e1 (dedge F' k').1 - e1 (dedge F' k').2 := by
      have := congrArg₂ (· - ·) h2 h1
      simp only [sub_sub_sub_cancel_left] at this
      exact this
    obtain ⟨ha, hb⟩ := e1_sub_inj (dedge_proper F hF k).symm hd
    obtain ⟨rfl, rfl⟩ := dedge_inj F hF F' hF' k k' (Prod.ext hb ha)
    obtain ⟨hu, hv⟩ := cell_inj hF (sub_left_inj.1 h1)
    refine ⟨rfl, ?_, rfl⟩
    rw [add_left_inj] at hu hv
    rw [hu, hv]
  · obtain ⟨k, rfl⟩ : ∃ k, i = k + 1 := fin3_succ i
    exact absurd h.symm (mixed F' F hF' hF u' v' u v i' k hc)
  · obtain ⟨k', rfl⟩ : ∃ k, i' = k + 1 := fin3_succ i'
    exact absurd h (mixed F F' hF hF' u v u' v' i k' hc')
  · rw [edge_up, edge_up, Prod.mk.injEq] at h
    obtain ⟨h1, h2⟩ := h
    have hd : e1 (dedge F i).2 - e1 (dedge F i).1 = e1 (dedge F' i').2 - e1 (dedge F' i').1 := by
      have := congrArg₂ (· - ·) h2 h1
      simp only [add_sub_add_left_eq_sub] at this
      exact this
    obtain ⟨ha, hb⟩ := e1_sub_inj (dedge_proper F hF i) hd
    obtain ⟨rfl, rfl⟩ := dedge_inj F hF F' hF' i i' (Prod.ext ha hb)
    obtain ⟨hu, hv⟩ := cell_inj hF (add_left_inj _ |>.1 h1)
    exact ⟨rfl, by rw [hu, hv], rfl⟩

end Icosa
end CAD
