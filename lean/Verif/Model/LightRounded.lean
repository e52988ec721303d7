import Verif.Model.Renderer
import Verif.Model.MeasureRounded

/-! The lights of `/repo/src/RendererLight.cpp` and `compute_color_with_lights` in floating
point: the definitions of `Model/Renderer` with a rounding `fl` after each operation.
Conversions from `int` are exact. -/

namespace CAD.Render
variable (fl : ℝ → ℝ)

/-- constructor of `RendererLightAmbiant`, RendererLight.cpp 11-16 -/
noncomputable def Light.newAmbientR (color : Int) (factor : ℝ) : Light ℝ :=
  .ambient (fl (fl (factor * red color) / 256)) (fl (fl (factor * green color) / 256)) (fl (fl (factor * blue color) / 256))

/-- constructor of `RendererLightDiffuse`, RendererLight.cpp 25-31 -/
noncomputable def Light.newDiffuseR (color : Int) (factor : ℝ) (direction : P3 ℝ) : Light ℝ :=
  .diffuse (fl (fl (factor * red color) / 256)) (fl (fl (factor * green color) / 256)) (fl (fl (factor * blue color) / 256)) direction

/-- `apply`, RendererLight.cpp 18-23 and 33-42; the normal may be NaN (`none`) -/
noncomputable def Light.applyR (c : ℝ × ℝ × ℝ) (normal : Res (P3 ℝ)) : Light ℝ → Res (ℝ × ℝ × ℝ)
  | .ambient r g b => some (fl (c.1 * r), fl (c.2.1 * g), fl (c.2.2 * b))
  | .diffuse r g b d => normal.map fun n =>
      let proj := Rounded.dot fl n d
      let proj := if proj < 0 then 0 else proj
      (fl (c.1 * fl (r * proj)), fl (c.2.1 * fl (g * proj)), fl (c.2.2 * fl (b * proj)))

/-- Renderer.cpp 69-79: one channel -/
noncomputable def channelR (total : ℝ) : Res Int := do
  let i ← toInt (fl (fl (total * 256) + 1 / 2))
  return if i > 255 then 255 else i

/-- `compute_color_with_lights`, Renderer.cpp 53-82; the left shift of a negative number is undefined -/
noncomputable def shadeR (lights : List (Light ℝ)) (color : Int) (normal : Res (P3 ℝ)) : Res Int := do
  let c : ℝ × ℝ × ℝ := (fl ((red color : ℝ) / 256), fl ((green color : ℝ) / 256), fl ((blue color : ℝ) / 256))
  let t ← lights.foldlM (fun (a : ℝ × ℝ × ℝ) l => do
    let d ← l.applyR fl c normal
    return (fl (a.1 + d.1), fl (a.2.1 + d.2.1), fl (a.2.2 + d.2.2))) ((0 : ℝ), (0 : ℝ), (0 : ℝ))
  let r ← channelR fl t.1
  let g ← channelR fl t.2.1
  let b ← channelR fl t.2.2
  assert (0 ≤ r)
  assert (0 ≤ g)
  return r * 65536 + g * 256 + b

/-- `Triangle3::normal`, Geometry.cpp 431-434; `none`: NaN or infinite coordinates -/
noncomputable def normalR (t : Tri3 ℝ) : Res (P3 ℝ) := Rounded.normalized fl (Rounded.orthogonal fl t)

end CAD.Render
