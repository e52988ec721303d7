import Verif.Model.Solid
import Verif.Props.Measure
import Verif.Lemmas.Topology
import Verif.Lemmas.Build

/-! Property C73: copying and assigning `Face` and `Solid`. -/

namespace CAD
variable {K : Type}
open Mesh

/-- what a user can see of a mesh: its points, its linked triangles (as vertex
ids, in order) and its colour -/
def Mesh.content (m : Mesh K) : List (P3 K) × List (Int × Int × Int) × Int :=
  (m.kern.verts, m.cornerList, m.getColor)

theorem Mesh.copy_content (junk : Int) (m : Mesh K) (hm : m.OK) :
    ∃ c, Mesh.copyConstruct junk m = some c ∧ c.OK ∧ c.content = m.content := by
  have hc : ∀ g ∈ m.view.linkedCorners, CornersIn m.kern.verts.length g :=
    linkedCorners_valid ((ok_iff m).1 hm).valid
  have e := assign_eq (⟨KernLT.empty, junk⟩ : Mesh K) m
  rw [if_pos hc] at e
  refine ⟨_, e, ?_, ?_⟩
  · exact OK.assign (m := ⟨KernLT.empty, junk⟩) (clear_ok ⟨KernLT.empty, junk⟩) e
  · unfold content
    refine Prod.ext rfl (Prod.ext ?_ rfl)
    simp only
    rw [cornerList_eq, cornerList_eq]
    unfold AMesh.linkedCorners
    rw [view_pushTris]
    simp only [List.filter_append, List.map_append]
    rw [List.filter_map]
    have : (AFace.linked ∘ fun f : Int × Int × Int => (⟨f, true⟩ : AFace)) = fun _ => true := rfl
    rw [this]
    simp [view_def]

namespace Face

/-- **C73** Copy construction of a face gives an equal face, and construction from
a mesh an equal mesh in grey. -/
theorem copy_spec (junk : Int) (f : Face K) (hf : f.mesh.OK) :
    ∃ c, copy junk f = some c ∧ c.mesh.OK ∧ c.mesh.content = f.mesh.content ∧ c.color = f.color := by
  obtain ⟨c, e, h1, h2⟩ := Mesh.copy_content junk f.mesh hf
  exact ⟨⟨c, f.color⟩, by simp [copy, e], h1, h2, rfl⟩

theorem ofMesh_spec (junk : Int) (m : Mesh K) (hm : m.OK) :
    ∃ c, ofMesh junk m = some c ∧ c.mesh.OK ∧ c.mesh.content = m.content ∧ c.color = 0x808080 := by
  obtain ⟨c, e, h1, h2⟩ := Mesh.copy_content junk m hm
  exact ⟨⟨c, 0x808080⟩, by simp [ofMesh, e], h1, h2, rfl⟩

/-- **C73** (disagreement) After `f = g` the face `f` is what it was before, and the
reference returned is to a new object with the content of `f`, whatever `g`
is. -/
theorem assign_keeps (junk : Int) (f g : Face K) (hf : f.mesh.OK) :
    ∃ r, assign junk f g = some (f, r) ∧ r.mesh.content = f.mesh.content ∧ r.color = f.color := by
  obtain ⟨c, e, _, h2, h3⟩ := copy_spec junk f hf
  exact ⟨c, by simp [assign, e], h2, h3⟩

/-- hence assignment copies only between faces that are already equal -/
theorem assign_copies_iff (junk : Int) (f g f' r : Face K) (h : assign junk f g = some (f', r)) :
    f' = g ↔ f = g := by
  simp only [assign, Option.bind_eq_bind, Option.pure_def] at h
  obtain ⟨c, _, h⟩ := Option.bind_eq_some_iff.1 h
  simp only [Option.some.injEq, Prod.mk.injEq] at h
  rw [← h.1]

end Face

namespace Solid

/-- **C73** (partial) Copy construction of a solid copies its mesh.  Missing
(false in the code): its faces; the copy has none. -/
theorem copy_partial (junk : Int) (s : Solid K) (hs : s.mesh.OK) :
    ∃ c, copy junk s = some c ∧ c.mesh.OK ∧ c.mesh.content = s.mesh.content ∧ c.faces = [] := by
  obtain ⟨c, e, h1, h2⟩ := Mesh.copy_content junk s.mesh hs
  exact ⟨⟨c, []⟩, by simp [copy, e], h1, h2, rfl⟩

/-- **C73** (disagreement) After `s = t` the solid `s` is what it was before, and the
reference returned is to a new object with the mesh of `s` and no face. -/
theorem assign_keeps (junk : Int) (s t : Solid K) (hs : s.mesh.OK) :
    ∃ r, assign junk s t = some (s, r) ∧ r.mesh.content = s.mesh.content ∧ r.faces = [] := by
  obtain ⟨c, e, _, h2, h3⟩ := copy_partial junk s hs
  exact ⟨c, by simp [assign, e], h2, h3⟩

theorem assign_copies_iff (junk : Int) (s t s' r : Solid K) (h : assign junk s t = some (s', r)) :
    s' = t ↔ s = t := by
  simp only [assign, Option.bind_eq_bind, Option.pure_def] at h
  obtain ⟨c, _, h⟩ := Option.bind_eq_some_iff.1 h
  simp only [Option.some.injEq, Prod.mk.injEq] at h
  rw [← h.1]

/-- **C73** `add_face` appends a copy of the face and leaves the rest alone -/
theorem addFace_spec (junk : Int) (s : Solid K) (f : Face K) (hf : f.mesh.OK) :
    ∃ c, addFace junk s f = some ⟨s.mesh, s.faces ++ [c]⟩ ∧
      c.mesh.content = f.mesh.content ∧ c.color = f.color := by
  obtain ⟨c, e, _, h2, h3⟩ := Face.copy_spec junk f hf
  exact ⟨c, by simp [addFace, e], h2, h3⟩

/-- **C73** a face given a mesh and a colour and then added to a solid arrives there with both;
setting one does not change the other -/
theorem addFace_set (junk col : Int) (s : Solid K) (f : Face K) (m : Mesh K) (hm : m.OK) :
    ∃ c c', addFace junk s ((f.setMesh m).setColor col) = some ⟨s.mesh, s.faces ++ [c]⟩ ∧
      addFace junk s ((f.setColor col).setMesh m) = some ⟨s.mesh, s.faces ++ [c']⟩ ∧
      c.mesh.content = m.content ∧ c.color = col ∧ c'.mesh.content = m.content ∧ c'.color = col := by
  obtain ⟨c, e, h1, h2⟩ := addFace_spec junk s ((f.setMesh m).setColor col) hm
  obtain ⟨c', e', h1', h2'⟩ := addFace_spec junk s ((f.setColor col).setMesh m) hm
  exact ⟨c, c', e, e', h1, h2, h1', h2'⟩

-- a red face in a solid
example : ((addFace 7 (new : Solid ℚ) (Face.new.setColor 0xff0000)).map fun s => s.faces.map (·.color)) = some [0xff0000] := by
  decide +kernel
-- a face that is not changed by the assignment
example : (Face.assign 7 (Face.new : Face ℚ) (Face.new.setColor 5)).map (fun x => (x.1.color, x.2.color)) =
    some (0x808080, 0x808080) := by decide +kernel
-- a solid with a face, copied
example : ((addFace 7 (new : Solid ℚ) Face.new).bind fun s =>
    (copy 7 s).map fun c => (s.faces.length, c.faces.length)) = some (1, 0) := by decide +kernel

end Solid
end CAD
