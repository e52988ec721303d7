import Verif.Props.RendererView
import Verif.Props.RendererLight
import Verif.Props.RendererCover

/-! Concrete cases for the theorems about the renderer. -/

namespace CAD.Examples
open Render

theorem wide_drawable : Drawable scene0 0x102030 wide := by
  refine ⟨⟨?_, ?_, ?_⟩, ⟨?_, ?_, ?_⟩, ⟨?_, ?_, ?_⟩, 0x102030, ?_⟩ <;> decide +kernel

/-- the same triangle twice, the second half as far -/
def twoMesh : Mesh ℚ := Mesh.new.build [wide.p1, wide.p2, wide.p3, ⟨-5, -5, 1 / 2⟩, ⟨-5, 20, 1 / 2⟩, ⟨20, -5, 1 / 2⟩] [(0, 2, 1), (3, 5, 4)]
/-- the other order -/
def twoMesh' : Mesh ℚ := Mesh.new.build [wide.p1, wide.p2, wide.p3, ⟨-5, -5, 1 / 2⟩, ⟨-5, 20, 1 / 2⟩, ⟨20, -5, 1 / 2⟩] [(3, 5, 4), (0, 2, 1)]

/-- `puts_nearest`, `puts_order`: two fragments on one pixel in both orders -/
example : ((screen0.puts [⟨1, 1, 2, 7⟩, ⟨1, 1, 3, 8⟩]).cell 1 1, (screen0.puts [⟨1, 1, 3, 8⟩, ⟨1, 1, 2, 7⟩]).cell 1 1) =
    (some (3, 8), some (3, 8)) := by decide +kernel

/-- `render_safe_partial`: a triangle, a line out of the screen, a polyline and a pixel -/
example : ∃ fb', [Cmd.triangle wide 0x102030 true, .line ⟨-50, 1, 1⟩ ⟨70, 3, 2⟩ 9, .polyline [⟨0, 0, 1⟩, ⟨1, 1, 1⟩, ⟨9, 0, 3⟩] 8, .pixel ⟨1, 1, -2⟩ 5].foldlM
    (fun fb c => c.run scene0 fb) screen0 = some fb' ∧ fb'.OK 4 3 := by
  refine render_safe_partial scene0 (by norm_num) (by norm_num) (by norm_num) (by norm_num) _ ?_ screen0_ok
  intro c hc
  fin_cases hc
  · exact wide_drawable
  · exact ⟨⟨by decide +kernel, by decide +kernel, by decide +kernel⟩, by decide +kernel, by decide +kernel, by decide +kernel⟩
  · intro p hp
    fin_cases hp <;> exact ⟨by decide +kernel, by decide +kernel, by decide +kernel⟩
  · exact ⟨by decide +kernel, by decide +kernel, by decide +kernel⟩

/-- `mesh_frags`, `mesh_nearer`, `last_row_kept`: the nearer triangle determines the depth 2, the last row stays clear -/
example : ((drawMesh scene0 twoMesh false 0x102030 screen0).map fun fb => (fb.cell 1 1, fb.cell 1 2)) = some (some (2, 0x102030), some (0, 0)) := by
  decide +kernel

/-- `mesh_order`, `mesh_order_ambient`: the same picture in the other order -/
example : drawMesh scene0 twoMesh' false 0x102030 screen0 = drawMesh scene0 twoMesh false 0x102030 screen0 ∧
    twoMesh'.triangles ≠ twoMesh.triangles := by decide +kernel

/-- `behind_kept_partial`: nothing of a triangle behind the eye -/
example : drawMesh scene0 (Mesh.new.build [(⟨10, 10, -1⟩ : P3 ℚ), ⟨10, -40, -1⟩, ⟨-40, 10, -1⟩] [(0, 1, 2), (0, 2, 1)]) false 7 screen0 = some screen0 := by
  decide +kernel

/-- `pixel_put_partial` -/
example : InView cam0 ⟨4, 2, 2⟩ ∧ ((drawPixel scene0 ⟨4, 2, 2⟩ 9 screen0).map fun fb => fb.cell 2 1) = some (some (1 / 2, 9)) :=
  ⟨⟨by decide +kernel, by decide +kernel, by decide +kernel⟩, by decide +kernel⟩

/-- `project_nearest_partial`: (7/2, 1) is nearest to 3 and 4 -/
example : cam0.project ⟨7, 2, 2⟩ = some ⟨4, 1, 1 / 2⟩ := by decide +kernel

/-- `project_left_fails`: -1.25 is drawn in column 0 -/
example : cam0.project ⟨-5, 0, 4⟩ = some ⟨0, 0, 1 / 4⟩ := by decide +kernel

/-- `project_eye_plane`, `project_overflow` -/
example : cam0.project ⟨1, 2, 0⟩ = none ∧ cam0.project ⟨3000000000, 0, 1⟩ = none :=
  ⟨project_eye_plane (by decide +kernel), project_overflow (by decide +kernel)⟩

/-- `shade_spec`: one ambient and one diffuse light, the facet half turned away -/
example : shade [.ambient (1 / 4) (1 / 4) (1 / 4), .diffuse 1 0 0 ⟨0, 0, 1⟩] 0x808080 (some (⟨4 / 5, 0, 3 / 5⟩ : P3 ℚ)) = some 0x6d2020 := by
  decide +kernel

/-- `shade_ambient` -/
example : shade [.ambient (1 / 4 : ℚ) (1 / 4) (1 / 4)] 0x808080 none = shade [.ambient (1 / 4 : ℚ) (1 / 4) (1 / 4)] 0x808080 (some ⟨0, 0, 1⟩) :=
  shade_ambient (fun l hl => ⟨1 / 4, 1 / 4, 1 / 4, by simpa using hl⟩) _ _ _

/-- `shade_degenerate`, `shade_negative` -/
example : shade [.diffuse (1 : ℚ) 1 1 ⟨0, 0, 1⟩] 0x808080 none = none ∧ shade [.ambient (-1 : ℚ) 1 1] 0x808080 (some ⟨0, 0, 1⟩) = none := by
  decide +kernel

/-- `hline_between`, `hline_depth_partial`: depths between those of the ends -/
example : (hline id 0 1 3 2 1 7 screen0).map (fun f => (f.dep.drop 4).take 4) = some [1, 4 / 3, 5 / 3, 2] := by decide +kernel

/-- `trapeze_depth_partial` -/
example : ∃ q : Trap ℚ, q.Ordered ∧ ((trapeze id q 7 screen0).map fun r => r.2.pix) = some [7, 7, 7, 0, 7, 7, 7, 0, 0, 0, 0, 0] :=
  ⟨⟨0, 1, 2, 1, 0, 0, 1, 1, 1, 2⟩, by constructor <;> decide +kernel, by decide +kernel⟩

/-- `back_hidden`, `front_shown`: one triangle in both directions -/
example : area2 (⟨0, 0, 1⟩ : V ℚ) ⟨0, 2, 1⟩ ⟨3, 0, 1⟩ = - area2 (⟨0, 0, 1⟩ : V ℚ) ⟨3, 0, 1⟩ ⟨0, 2, 1⟩ ∧
    ((triangleV id (⟨0, 0, 1⟩ : V ℚ) ⟨3, 0, 1⟩ ⟨0, 2, 1⟩ (some 7) false screen0).map fun r => r.1) ≠
      ((triangleV id (⟨0, 0, 1⟩ : V ℚ) ⟨0, 2, 1⟩ ⟨3, 0, 1⟩ (some 7) false screen0).map fun r => r.1) := by decide +kernel

end CAD.Examples
