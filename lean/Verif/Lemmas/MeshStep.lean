import Verif.Lemmas.Mesh

/-! Each `Mesh` call simulates the abstract step. -/

set_option linter.unusedSimpArgs false

namespace CAD
variable {K : Type}
namespace Mesh

theorem corners_unl (m : Mesh K) (n : Nat) (i : Int) :
    (m.unl n).view.corners i = m.view.corners i := by
  unfold AMesh.corners
  rw [view_unl]
  unfold getI
  split
  · simp only [List.getElem?_modify]
    cases m.view.faces[i.toNat]? with
    | none => rfl
    | some f => by_cases h : n = i.toNat <;> simp [h]
  · rfl

theorem corners_range {m : Mesh K} {i : Int} {f} (h : m.view.corners i = some f) :
    InRange m.kern.tris.length i := by
  by_contra hn; rw [corners_none hn] at h; simp at h

theorem step_refines (m : Mesh K) (hm : m.kern.NoNear) (op : MOp K) :
    (m.step op).map (fun r => (r.1.view, r.2)) = m.view.step op ∧
    ∀ r, m.step op = some r → r.1.kern.NoNear := by
  cases op with
  | setColor c => exact ⟨rfl, by rintro _ ⟨⟩; exact hm⟩
  | addVertex p =>
    refine ⟨?_, ?_⟩
    · simp [step, AMesh.step, addVertex_eq]
    · rintro _ h; simp only [step, addVertex_eq, Option.some.injEq] at h; subst h; exact hm
  | setVertex i p =>
    simp only [step, AMesh.step, setVertex_eq]
    by_cases h : InRange m.kern.verts.length i
    · rw [if_pos h, if_pos (by exact h)]
      exact ⟨rfl, by rintro _ ⟨⟩; exact hm⟩
    · rw [if_neg h, if_neg (by exact h)]
      exact ⟨rfl, by rintro _ ⟨⟩⟩
  | addTriangle a b c =>
    simp only [step, AMesh.step, addTriangle_eq, view_addFaces, List.forall_mem_singleton,
      view_faces_length]
    split
    · refine ⟨rfl, ?_⟩; rintro _ ⟨⟩; exact NoNear.pushTris hm _
    · exact ⟨rfl, by rintro _ ⟨⟩⟩
  | addTrianglePts p q r =>
    simp only [step, AMesh.step, addTrianglePts_eq, view_points]
    refine ⟨?_, ?_⟩
    · rw [← view_pushPts, view_addFaces, if_pos]
      · simp
      · simp only [List.forall_mem_singleton, pushPts_verts, List.length_append, List.length_cons,
          List.length_nil]
        refine ⟨?_, ?_, ?_⟩ <;> simp only [InRange] <;> omega
    · rintro _ ⟨⟩; exact NoNear.pushTris (NoNear.pushPts hm _) _
  | addQuad a b c d =>
    simp only [step, AMesh.step, addQuad_eq, view_addFaces, List.forall_mem_cons,
      List.not_mem_nil, false_implies, implies_true, and_true]
    split
    · refine ⟨rfl, ?_⟩; rintro _ ⟨⟩; exact NoNear.pushTris hm _
    · exact ⟨rfl, by rintro _ ⟨⟩⟩
  | addQuadPts first p q r s =>
    simp only [step, AMesh.step, addQuadPtsWith_eq, view_points]
    refine ⟨?_, ?_⟩
    · rw [← view_pushPts, view_addFaces]
      cases first <;>
      · simp only [if_true, if_false, Bool.false_eq_true]
        rw [if_pos]
        · simp
        · rw [pushPts_verts, List.length_append]
          simp only [List.forall_mem_cons, List.not_mem_nil, false_implies, implies_true, and_true,
            List.length_cons, List.length_nil]
          refine ⟨⟨?_, ?_, ?_⟩, ?_, ?_, ?_⟩ <;> simp only [InRange] <;> omega
    · rintro _ ⟨⟩; exact NoNear.pushTris (NoNear.pushPts hm _) _
  | addPentagon a b c d e =>
    simp only [step, AMesh.step, addPentagon_eq, view_addFaces, List.forall_mem_cons,
      List.not_mem_nil, false_implies, implies_true, and_true]
    by_cases h : InRange m.kern.verts.length a ∧ InRange m.kern.verts.length b ∧
        InRange m.kern.verts.length c ∧ InRange m.kern.verts.length d ∧
        InRange m.kern.verts.length e
    · rw [if_pos h, if_pos (by unfold CornersIn; tauto)]
      refine ⟨rfl, ?_⟩; rintro _ ⟨⟩; exact NoNear.pushTris hm _
    · rw [if_neg h, if_neg (by unfold CornersIn; tauto)]
      exact ⟨rfl, by rintro _ ⟨⟩⟩
  | unlinkTriangle i =>
    simp only [step, AMesh.step, unlinkTriangle_eq m hm, view_erase]
    split
    · refine ⟨rfl, ?_⟩; rintro _ ⟨⟩; exact NoNear.unl hm _
    · exact ⟨rfl, by rintro _ ⟨⟩⟩
  | flipTriangle i =>
    simp only [step, AMesh.step, flipTriangle_eq m hm]
    cases h : m.view.corners i with
    | none => exact ⟨rfl, by rintro _ ⟨⟩⟩
    | some f =>
      have hr := corners_range h
      simp only [Option.bind_some, Option.bind_eq_bind, view_erase, if_pos hr, view_addFaces,
        List.forall_mem_singleton, unl_verts]
      split
      · refine ⟨rfl, ?_⟩; rintro _ ⟨⟩; exact NoNear.pushTris (NoNear.unl hm _) _
      · exact ⟨rfl, by rintro _ ⟨⟩⟩
  | splitTriangleWithVertex t s =>
    simp only [step, AMesh.step, splitTriangleWithVertex_eq m hm]
    cases h : m.view.corners t with
    | none => simp
    | some f =>
      have hr := corners_range h
      simp only [Option.bind_some, Option.bind_eq_bind, view_erase, if_pos hr, view_addFaces,
        List.forall_mem_cons, List.not_mem_nil, false_implies, implies_true, and_true, unl_verts]
      by_cases h1 : InRange m.kern.verts.length s ∧ CornersIn m.kern.verts.length f
      · rw [if_pos h1.1, if_pos h1.2, if_pos (by unfold CornersIn at *; tauto)]
        refine ⟨rfl, ?_⟩; rintro _ ⟨⟩; exact NoNear.pushTris (NoNear.unl hm _) _
      · have h2 : (if InRange m.kern.verts.length s then
            if CornersIn m.kern.verts.length f then
              some (((m.unl t.toNat).pushTris
                [(f.1, f.2.1, s), (f.2.1, f.2.2, s), (f.2.2, f.1, s)])) else none
            else none) = none := by
          split <;> [split; rfl]
          · exact absurd ⟨by assumption, by assumption⟩ h1
          · rfl
        rw [h2, if_neg (by unfold CornersIn at *; tauto)]
        exact ⟨rfl, by rintro _ ⟨⟩⟩
  | splitTriangleWithPoint t p =>
    simp only [step, AMesh.step, splitTriangleWithPoint_eq m hm]
    cases h : m.view.corners t with
    | none => exact ⟨rfl, by rintro _ ⟨⟩⟩
    | some f =>
      have hr := corners_range h
      have he : (m.view.addPoints [p]).erase t = some ((m.pushPts [p]).unl t.toNat).view := by
        rw [← view_pushPts, view_erase, if_pos (by exact hr)]
      simp only [Option.bind_some, Option.bind_eq_bind, he, view_addFaces]
      have hl : ((m.pushPts [p]).unl t.toNat).kern.verts.length = m.kern.verts.length + 1 := by
        simp
      have hs : InRange (m.kern.verts.length + 1) (m.kern.verts.length : Int) := by
        simp only [InRange]; omega
      by_cases h1 : CornersIn (m.kern.verts.length + 1) f
      · rw [if_pos h1, if_pos]
        · refine ⟨rfl, ?_⟩; rintro _ ⟨⟩
          exact NoNear.pushTris (NoNear.unl (NoNear.pushPts hm _) _) _
        · rw [hl]
          simp only [List.forall_mem_cons, List.not_mem_nil, false_implies, implies_true, and_true,
            view_points]
          unfold CornersIn at *; tauto
      · rw [if_neg h1, if_neg]
        · exact ⟨rfl, by rintro _ ⟨⟩⟩
        · rw [hl]
          simp only [List.forall_mem_cons, List.not_mem_nil, false_implies, implies_true, and_true,
            view_points]
          unfold CornersIn at *; tauto
  | splitEdgeWithVertex t1 t2 v1 v2 s =>
    simp only [step, AMesh.step, splitEdge_eq m t1 t2 v1 v2 s hm]
    cases h : m.view.corners t1 with
    | none => exact ⟨rfl, by rintro _ ⟨⟩⟩
    | some f =>
      have hr := corners_range h
      simp only [Option.bind_some, Option.bind_eq_bind]
      cases h1 : AMesh.splitCorners1 v1 f with
      | none => exact ⟨rfl, by rintro _ ⟨⟩⟩
      | some g =>
        simp only [Option.bind_some, view_addFaces, List.forall_mem_cons, List.not_mem_nil,
          false_implies, implies_true, and_true]
        split
        · simp only [Option.bind_some, view_erase]
          rw [if_pos (hr.mono (by simp [pushTris]))]
          simp only [Option.bind_some]
          generalize hm1 : (m.pushTris [(g.1, s, g.2.2), (s, g.2.1, g.2.2)]).unl t1.toNat = m1
          have hm1v : m1.kern.verts = m.kern.verts := by rw [← hm1]; rfl
          have hm1n : m1.kern.NoNear := by rw [← hm1]; exact NoNear.unl (NoNear.pushTris hm _) _
          cases h2 : m1.view.corners t2 with
          | none => exact ⟨rfl, by rintro _ ⟨⟩⟩
          | some f2 =>
            have hr2 := corners_range h2
            simp only [Option.bind_some]
            cases h3 : AMesh.splitCorners2 v2 f2 with
            | none => exact ⟨rfl, by rintro _ ⟨⟩⟩
            | some g2 =>
              simp only [Option.bind_some, view_addFaces, List.forall_mem_cons, List.not_mem_nil,
                false_implies, implies_true, and_true, hm1v]
              split
              · simp only [Option.bind_some, view_erase]
                rw [if_pos (hr2.mono (by simp [pushTris]))]
                refine ⟨rfl, ?_⟩; rintro _ ⟨⟩; exact NoNear.unl (NoNear.pushTris hm1n _) _
              · exact ⟨rfl, by rintro _ ⟨⟩⟩
        · exact ⟨rfl, by rintro _ ⟨⟩⟩
  | addMesh o =>
    have hv : AMesh.addPoints { m.view with color := o.view.color } o.view.points =
        ((m.setColor o.color).pushPts o.kern.verts).view := rfl
    simp only [step, AMesh.step, addMesh_eq, AMesh.append]
    rw [hv, view_addFaces]
    simp only [pushPts_verts, List.length_append, view_points, setColor]
    split
    · refine ⟨rfl, ?_⟩; rintro _ ⟨⟩; exact NoNear.pushTris hm _
    · exact ⟨rfl, by rintro _ ⟨⟩⟩
  | assign o =>
    have hv : AMesh.addPoints { (AMesh.new : AMesh K) with color := o.view.color } o.view.points =
        (Mesh.mk ⟨[], o.kern.verts⟩ o.color).view := rfl
    have hs : o.view.linkedCorners.map (AMesh.shift ((AMesh.new : AMesh K).points.length : Int)) =
        o.view.linkedCorners := by
      conv_rhs => rw [← List.map_id o.view.linkedCorners]
      congr 1
      funext x
      simp [AMesh.shift, AMesh.new]
    simp only [step, AMesh.step, assign_eq, AMesh.append]
    rw [hv, hs, view_addFaces]
    split
    · refine ⟨rfl, ?_⟩; rintro _ ⟨⟩; exact NoNear.pushTris (by intro t ht; cases ht) _
    · exact ⟨rfl, by rintro _ ⟨⟩⟩
  | applyTransform f =>
    simp only [step, AMesh.step, applyTransform_eq]
    exact ⟨rfl, by rintro _ ⟨⟩; exact hm⟩
  | clear => exact ⟨rfl, by rintro _ ⟨⟩; intro t ht; cases ht⟩

theorem runFrom_refines (ops : List (MOp K)) : ∀ (m : Mesh K) (ids : List Int), m.kern.NoNear →
    (ops.foldlM (fun (s : Mesh K × List Int) op => (s.1.step op).map fun r => (r.1, s.2 ++ [r.2])) (m, ids)).map
      (fun r => (r.1.view, r.2)) =
    ops.foldlM (fun (s : AMesh K × List Int) op =>
      (s.1.step op).map fun r => (r.1, s.2 ++ [r.2])) (m.view, ids) ∧
    ∀ r, ops.foldlM (fun (s : Mesh K × List Int) op => (s.1.step op).map fun r => (r.1, s.2 ++ [r.2])) (m, ids) = some r →
      r.1.kern.NoNear := by
  induction ops with
  | nil => intro m ids hm; exact ⟨rfl, by rintro _ ⟨⟩; exact hm⟩
  | cons op ops ih =>
    intro m ids hm
    obtain ⟨h1, h2⟩ := step_refines m hm op
    simp only [List.foldlM_cons, Option.bind_eq_bind]
    rw [← h1]
    cases h : m.step op with
    | none => exact ⟨rfl, by rintro _ ⟨⟩⟩
    | some r =>
      simpa using ih r.1 (ids ++ [r.2]) (h2 r h)

theorem run_noNear {ops : List (MOp K)} {m ids} (h : Mesh.run ops = some (m, ids)) :
    m.kern.NoNear :=
  (runFrom_refines ops new [] (by intro t ht; cases ht)).2 _ h

end Mesh
end CAD
