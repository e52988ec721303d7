import Verif.Props.Bmp
import Verif.Props.ImageUtil
import Verif.Props.Mandelbrot
import Verif.Props.Decimal
import Verif.Props.Float32
import Verif.Props.SmoothMesh
import Verif.Props.Boolean
import Verif.Props.Solid

/-! Concrete cases for the theorems about files, pictures, smooth meshes and boolean operations. -/

namespace CAD.Examples

/-- `bmp24_roundtrip_partial`: one row of two pixels (six bytes, two of padding) -/
example : ((Bmp.write ⟨2, 1, 3, [1, 2, 3, 4, 5, 6]⟩).bind fun b => (Bmp.read (some b) ⟨0, 0, 0, []⟩)) = some (true, ⟨2, 1, 3, [1, 2, 3, 4, 5, 6]⟩) := by
  decide +kernel

/-- `bmp8_roundtrip_partial`: two rows, two bytes of padding each -/
example : ((Bmp.write ⟨2, 2, 1, [1, 2, 3, 4]⟩).bind fun b => (Bmp.read (some b) ⟨0, 0, 0, []⟩)) = some (true, ⟨2, 2, 1, [1, 2, 3, 4]⟩) := by
  decide +kernel

/-- `bmp_no_columns` -/
example : Bmp.write ⟨0, 3, 4, []⟩ = none := by decide +kernel

/-- `shierpinsky_spec` -/
example : (ImageUtil.shierpinsky ⟨0, 0, 0, []⟩ 2 2).map (·.data) = some [255, 255, 255, 1, 255, 255, 255, 1, 255, 255, 255, 1, 0, 0, 0, 0] := by
  decide +kernel

/-- `scale_one` -/
example : (ImageUtil.scale ⟨2, 1, 1, [7, 255]⟩ 1).map (·.data) = some [7, 255] := by decide +kernel

/-- `escape_outside`: 1, 2, 5, … leaves at once; the squared modulus of the third term is 25 -/
example : ImageUtil.EscapeTime (3 / 2) 9 1 ∧ ‖ImageUtil.orbit (3 / 2) 1‖ ≠ 2 := by
  have h0 : ‖ImageUtil.orbit (3 / 2) 0‖ = 3 / 2 := by simp [ImageUtil.orbit]
  have h1 : ‖ImageUtil.orbit (3 / 2) 1‖ = 15 / 4 := by
    have : ImageUtil.orbit (3 / 2) 1 = ((15 / 4 : ℝ) : ℂ) := by simp [ImageUtil.orbit]; norm_num
    rw [this, Complex.norm_real]; norm_num
  refine ⟨⟨by norm_num, ?_, ?_⟩, by rw [h1]; norm_num⟩
  · intro j hj
    obtain rfl : j = 0 := by omega
    rw [h0]; norm_num
  · intro _; rw [h1]; norm_num

/-- `escape_inside`: the orbit of 0 is 0 -/
example : (∀ j, ‖ImageUtil.orbit 0 j‖ ≤ 0) ∧ ∀ j, ‖ImageUtil.orbit 0 j‖ ≠ 2 := by
  have h : ∀ j, ImageUtil.orbit 0 j = 0 := by
    intro j
    induction j with
    | zero => rfl
    | succ j ih => simp only [ImageUtil.orbit, Function.iterate_succ', Function.comp] at ih ⊢; rw [ih]; simp
  exact ⟨fun j => by simp [h j], fun j => by simp [h j]⟩

/-- `f32_near`: 1/3 -/
example : |F32.dec (F32.enc (1 / 3)) - 1 / 3| ≤ 1 / 3 / 2 ^ 24 ∧ F32.dec (F32.enc (1 / 3)) ≠ 1 / 3 := by decide +kernel

/-- `roundG_near`, `roundG_exact` -/
example : Obj.roundG (2 / 3) = 666667 / 1000000 ∧ Obj.roundG (123456 / 1000) = 123456 / 1000 := by decide +kernel

/-- `append_spec`, `transform_spec`, `sphere_patches` -/
example : ((SmoothMesh.new.createSphere (2 : ℚ)).addMesh (SmoothMesh.new.createSphere 3)).map (fun m =>
    (m.nbTriangles, (m.triangle 8).map (·.p1))) = some (16, ((SmoothMesh.new.createSphere (3 : ℚ)).triangle 0).map (·.p1)) := by decide +kernel

/-- `sphere_radius_partial`: the middle of a side bulges out -/
example : (((SmoothMesh.new.createSphere (2 : ℚ)).triangle 0).bind fun q => (q.eval2 (1 / 2) (1 / 2)).map fun p => p.normSq) = some (9 / 2) := by
  decide +kernel

/-- `boolean_copies_partial`: two triangles that cross in general position -/
example : Boolean.Clear (Boolean.meshOf [Boolean.flat]) (Boolean.meshOf [⟨⟨1, 1, -1⟩, ⟨2, 1, 1⟩, ⟨1, 2, 2⟩⟩]) := by
  intro s hs t ht
  have e1 : (Boolean.meshOf [Boolean.flat]).triangles = [Boolean.flat] := by decide +kernel
  have e2 : (Boolean.meshOf [⟨⟨1, 1, -1⟩, ⟨2, 1, 1⟩, ⟨1, 2, 2⟩⟩]).triangles = [⟨⟨1, 1, -1⟩, ⟨2, 1, 1⟩, ⟨1, 2, 2⟩⟩] := by decide +kernel
  rw [e1, List.mem_singleton] at hs
  rw [e2, List.mem_singleton] at ht
  subst hs ht
  right; right; right; right; right
  constructor <;> intro q hq <;> fin_cases hq <;> rintro ⟨a, b, c, h, e⟩ <;> simp [Boolean.flat, P3.ext_iff] at e <;> linarith

end CAD.Examples
