import Verif.Model.Image
import Verif.Model.Rounded

/-! `ImageUtil::scale` in rounded arithmetic: every operation is followed by a rounding `fl`. -/

namespace CAD
namespace ImageUtil
variable (fl : ℝ → ℝ)

open Classical in
/-- `(unsigned char)(v * dScale + 0.5)` ImageUtil.cpp 30: truncation; undefined when the truncated value does not fit.  The byte is converted to
`double` exactly; between -1 and 0 the truncated value is 0, as `Int.toNat` gives. -/
noncomputable def scaleByteR (v : Byte) (s : ℝ) : Res Byte :=
  let x : ℝ := fl (fl ((v.toNat : ℝ) * s) + 1 / 2)
  if -1 < x ∧ x < 256 then some (UInt8.ofNat ⌊x⌋.toNat) else none

/-- `scale` 25-31; the sizes do not change in the loop -/
noncomputable def scaleR (im0 : Image) (s : ℝ) : Res Image :=
  loopN im0.w.toNat (fun i im =>
    loopN im0.h.toNat (fun j im =>
      loopN im0.p.toNat (fun p im => do
        let v ← im.get i j p
        let v ← scaleByteR fl v s
        im.set i j p v) im) im) im0

end ImageUtil
end CAD
