import Verif.Model.Factory
import Verif.Lemmas.Topology

/-! Factories build meshes of the form `Mesh.build`. -/

namespace CAD
namespace Factory
open Mesh
variable {K : Type}

theorem addVertices_eq (m : Mesh K) (ps : List (P3 K)) : addVertices m ps = m.pushPts ps := by
  unfold addVertices
  induction ps generalizing m with
  | nil => simp [pushPts_nil]
  | cons p ps ih => rw [List.foldl_cons, ih, addVertex_eq, pushPts_push]; rfl

theorem addTriangles_eq (m : Mesh K) (fs : List (Int × Int × Int))
    (h : ∀ f ∈ fs, CornersIn m.kern.verts.length f) : addTriangles m fs = some (m.pushTris fs) := by
  unfold addTriangles
  induction fs generalizing m with
  | nil => simp
  | cons f fs ih =>
    have hf := h f (by simp)
    rw [List.foldlM_cons]
    have h1 : m.addTriangle f.1 f.2.1 f.2.2 = some (m.pushTris [f], (m.kern.tris.length : Int)) := by
      rw [addTriangle_eq, if_pos (by exact hf)]
    simp only [h1, Option.bind_eq_bind, Option.bind_some, Option.pure_def]
    have := ih (m.pushTris [f]) (fun g hg => h g (by simp [hg]))
    simp only [Option.bind_eq_bind, Option.pure_def] at this
    rw [this, pushTris_push]; rfl

/-- triangles of a quad -/
def quadTris (f : Int × Int × Int × Int) : List (Int × Int × Int) :=
  [(f.1, f.2.1, f.2.2.1), (f.2.2.1, f.2.2.2, f.1)]

theorem addQuad_tris (m : Mesh K) (a b c d : Int)
    (h : ∀ f ∈ quadTris (a, b, c, d), CornersIn m.kern.verts.length f) :
    m.addQuad a b c d = some (m.pushTris (quadTris (a, b, c, d))) := by
  rw [addQuad_eq, if_pos]
  · rfl
  · exact ⟨h (a, b, c) (by simp [quadTris]), h (c, d, a) (by simp [quadTris])⟩

theorem addQuads_eq (m : Mesh K) (fs : List (Int × Int × Int × Int))
    (h : ∀ f ∈ fs.flatMap quadTris, CornersIn m.kern.verts.length f) :
    addQuads m fs = some (m.pushTris (fs.flatMap quadTris)) := by
  unfold addQuads
  induction fs generalizing m with
  | nil => simp
  | cons f fs ih =>
    rw [List.foldlM_cons, addQuad_tris m _ _ _ _ (fun g hg => h g (by simp [List.flatMap_cons, hg]))]
    simp only [Option.bind_eq_bind, Option.bind_some]
    rw [ih (m.pushTris _) (fun g hg => h g (by rw [List.flatMap_cons]; exact List.mem_append_right _ hg)),
      pushTris_push, List.flatMap_cons]

/-- triangles of a pentagon -/
def pentaTris (f : Int × Int × Int × Int × Int) : List (Int × Int × Int) :=
  [(f.1, f.2.1, f.2.2.1), (f.2.2.1, f.2.2.2.1, f.2.2.2.2), (f.1, f.2.2.1, f.2.2.2.2)]

theorem addPentagon_tris (m : Mesh K) (a b c d e : Int)
    (h : ∀ f ∈ pentaTris (a, b, c, d, e), CornersIn m.kern.verts.length f) :
    m.addPentagon a b c d e = some (m.pushTris (pentaTris (a, b, c, d, e))) := by
  rw [addPentagon_eq, if_pos]
  · rfl
  · have h1 := h (a, b, c) (by simp [pentaTris])
    have h2 := h (c, d, e) (by simp [pentaTris])
    exact ⟨h1.1, h1.2.1, h1.2.2, h2.2.1, h2.2.2⟩

theorem addPentagons_eq (m : Mesh K) (fs : List (Int × Int × Int × Int × Int))
    (h : ∀ f ∈ fs.flatMap pentaTris, CornersIn m.kern.verts.length f) :
    addPentagons m fs = some (m.pushTris (fs.flatMap pentaTris)) := by
  unfold addPentagons
  induction fs generalizing m with
  | nil => simp
  | cons f fs ih =>
    rw [List.foldlM_cons, addPentagon_tris m _ _ _ _ _ (fun g hg => h g (by simp [List.flatMap_cons, hg]))]
    simp only [Option.bind_eq_bind, Option.bind_some]
    rw [ih (m.pushTris _) (fun g hg => h g (by rw [List.flatMap_cons]; exact List.mem_append_right _ hg)),
      pushTris_push, List.flatMap_cons]

theorem build_soup (m : Mesh K) (ps : List (P3 K)) (fs : List (Int × Int × Int)) :
    (m.build ps fs).triangles = fs.filterMap (AMesh.tri ⟨ps, [], 0⟩) := by
  rw [triangles_eq]
  unfold Mesh.build
  rw [soup_pushTris]
  rfl

end Factory
end CAD
