import Verif.Model.Image
import Verif.Lemmas.Bytes
import Mathlib.Data.Nat.Digits.Defs

/-! C58: image addressing. -/

set_option linter.unusedSimpArgs false

namespace CAD
open Mesh

namespace Image

/-- What `resize` establishes: sizes not negative, buffer of the right size. -/
structure WF (im : Image) : Prop where
  w : 0 ≤ im.w
  h : 0 ≤ im.h
  p : 0 ≤ im.p
  len : (im.data.length : Int) = im.w * im.h * im.p

/-- the number of bytes fits in an `int` -/
def Small (im : Image) : Prop := im.w * im.h * im.p ≤ 2147483647

/-- `(x, y, c)` is a sample of the image -/
def In (im : Image) (x y c : Int) : Prop := 0 ≤ x ∧ x < im.w ∧ 0 ≤ y ∧ y < im.h ∧ 0 ≤ c ∧ c < im.p

theorem resize_some (im : Image) {w h p : Int} (hw : 0 ≤ w) (hh : 0 ≤ h) (hp : 0 ≤ p) :
    ∃ im', im.resize w h p = some im' ∧ im'.WF ∧ im'.w = w ∧ im'.h = h ∧ im'.p = p := by
  refine ⟨_, by simp [resize, assert, hw, hh, hp]; rfl, ⟨hw, hh, hp, ?_⟩, rfl, rfl, rfl⟩
  simp only [List.length_append, List.length_take, List.length_replicate]
  have : ((w.toNat * h.toNat * p.toNat : Nat) : Int) = w * h * p := by
    push_cast
    rw [Int.toNat_of_nonneg hw, Int.toNat_of_nonneg hh, Int.toNat_of_nonneg hp]
  rw [← this]
  generalize w.toNat * h.toNat * p.toNat = N
  omega

/-- the address of a sample -/
theorem offset_eq {im : Image} (hw : im.WF) (hs : im.Small) {x y c : Int} (h : im.In x y c) :
    im.offset x y c = some (c + im.p * im.w * y + x * im.p) := by
  obtain ⟨x0, x1, y0, y1, c0, c1⟩ := h
  unfold Small at hs
  have hpw : 0 ≤ im.p * im.w := mul_nonneg hw.p hw.w
  have hpwh : im.p * im.w * im.h ≤ 2147483647 := by calc im.p * im.w * im.h = im.w * im.h * im.p := by ring
    _ ≤ _ := hs
  have a1 : im.p * im.w ≤ im.p * im.w * im.h := by nlinarith
  have a2 : im.p * im.w * y ≤ im.p * im.w * im.h := by nlinarith
  have a3 : 0 ≤ im.p * im.w * y := mul_nonneg hpw y0
  have a4 : x * im.p ≤ im.p * im.w := by nlinarith [hw.p]
  have a5 : 0 ≤ x * im.p := mul_nonneg x0 hw.p
  have e1 := int32_eq (x := im.p * im.w) (by omega) (by omega)
  have e2 := int32_eq (x := im.p * im.w * y) (by omega) (by omega)
  have e3 := int32_eq (x := x * im.p) (by omega) (by omega)
  simp [offset, assert, x0, x1, y0, y1, c0, c1, e1, e2, e3]

theorem offset_none {im : Image} {x y c : Int} (h : ¬ im.In x y c) : im.offset x y c = none := by
  unfold offset
  simp only [assert, Option.bind_eq_bind]
  by_cases h1 : 0 ≤ x <;> by_cases h2 : 0 ≤ y <;> by_cases h3 : 0 ≤ c <;> by_cases h4 : x < im.w <;>
    by_cases h5 : y < im.h <;> by_cases h6 : c < im.p <;> simp [h1, h2, h3, h4, h5, h6]
  exact absurd ⟨h1, h4, h2, h5, h3, h6⟩ h

theorem offset_range {im : Image} (hw : im.WF) {x y c : Int} (h : im.In x y c) :
    0 ≤ c + im.p * im.w * y + x * im.p ∧ c + im.p * im.w * y + x * im.p < im.data.length := by
  obtain ⟨x0, x1, y0, y1, c0, c1⟩ := h
  have hpw : 0 ≤ im.p * im.w := mul_nonneg hw.p hw.w
  have a3 : 0 ≤ im.p * im.w * y := mul_nonneg hpw y0
  have a5 : 0 ≤ x * im.p := mul_nonneg x0 hw.p
  refine ⟨by omega, ?_⟩
  rw [hw.len]
  have b1 : c + x * im.p < im.w * im.p := by nlinarith
  have b2 : im.p * im.w * y + im.p * im.w ≤ im.w * im.h * im.p := by nlinarith
  nlinarith

theorem offset_inj {im : Image} (hw : im.WF) {x y c x' y' c' : Int} (h : im.In x y c) (h' : im.In x' y' c')
    (e : c + im.p * im.w * y + x * im.p = c' + im.p * im.w * y' + x' * im.p) : x = x' ∧ y = y' ∧ c = c' := by
  obtain ⟨x0, x1, y0, y1, c0, c1⟩ := h
  obtain ⟨x0', x1', y0', y1', c0', c1'⟩ := h'
  have hp : 0 < im.p := by omega
  have e1 : (c + im.p * (im.w * y + x)) = c' + im.p * (im.w * y' + x') := by linarith
  have hc : c = c' := by
    have := congrArg (· % im.p) e1
    simpa [Int.add_mul_emod_self_left, Int.emod_eq_of_lt c0 c1, Int.emod_eq_of_lt c0' c1'] using this
  subst hc
  have e2 : x + im.w * y = x' + im.w * y' := by
    have : im.p * (im.w * y + x) = im.p * (im.w * y' + x') := by linarith
    have := mul_left_cancel₀ (by omega) this
    linarith
  have hx : x = x' := by
    have := congrArg (· % im.w) e2
    simpa [Int.add_mul_emod_self_left, Int.emod_eq_of_lt x0 x1, Int.emod_eq_of_lt x0' x1'] using this
  subst hx
  have : im.w * y = im.w * y' := by linarith
  exact ⟨rfl, mul_left_cancel₀ (by omega) this, rfl⟩

theorem get_eq {im : Image} (hw : im.WF) (hs : im.Small) {x y c : Int} (h : im.In x y c) :
    im.get x y c = getI im.data (c + im.p * im.w * y + x * im.p) := by
  simp [get, offset_eq hw hs h]

end Image

open Image

/-- C58.  Reading a sample is defined exactly inside the image. -/
theorem image_get_defined {im : Image} (hw : im.WF) (hs : im.Small) (x y c : Int) :
    (im.get x y c).isSome ↔ im.In x y c := by
  constructor
  · intro h
    by_contra hc
    rw [Image.get, offset_none hc] at h
    simp at h
  · intro h
    obtain ⟨a, b⟩ := offset_range hw h
    rw [get_eq hw hs h]
    obtain ⟨n, hn⟩ := Int.eq_ofNat_of_zero_le a
    rw [hn, getI_natCast]
    rw [hn] at b
    rw [List.getElem?_eq_getElem (by exact_mod_cast b)]
    rfl

/-- C58.  Writing a sample inside the image succeeds and changes exactly that sample:
reading back gives the written value there and the old value everywhere else.  The sizes
stay. -/
theorem image_set_get {im : Image} (hw : im.WF) (hs : im.Small) {x y c : Int} (h : im.In x y c) (v : Byte) :
    ∃ im', im.set x y c v = some im' ∧ im'.WF ∧ im'.Small ∧ im'.w = im.w ∧ im'.h = im.h ∧ im'.p = im.p ∧
      ∀ x' y' c', im'.get x' y' c' = if x' = x ∧ y' = y ∧ c' = c then some v else im.get x' y' c' := by
  obtain ⟨a, b⟩ := offset_range hw h
  refine ⟨{ im with data := im.data.set (c + im.p * im.w * y + x * im.p).toNat v }, ?_, ?_, hs, rfl, rfl, rfl, ?_⟩
  · simp [Image.set, offset_eq hw hs h, setI, a, b]
  · exact ⟨hw.w, hw.h, hw.p, by simpa using hw.len⟩
  · intro x' y' c'
    have hw' : Image.WF { im with data := im.data.set (c + im.p * im.w * y + x * im.p).toNat v } :=
      ⟨hw.w, hw.h, hw.p, by simpa using hw.len⟩
    by_cases hin : im.In x' y' c'
    · rw [get_eq hw' (by exact hs) hin, get_eq hw hs hin]
      obtain ⟨a', b'⟩ := offset_range hw hin
      simp only [getI, a', if_true, List.getElem?_set]
      by_cases he : x' = x ∧ y' = y ∧ c' = c
      · obtain ⟨rfl, rfl, rfl⟩ := he
        have : (c' + im.p * im.w * y' + x' * im.p).toNat < im.data.length := by omega
        simp [this]
      · rw [if_neg he, if_neg]
        intro hne
        exact he (by
          obtain ⟨h1, h2, h3⟩ := offset_inj hw h hin (by omega)
          exact ⟨h1.symm, h2.symm, h3.symm⟩)
    · rw [Image.get, offset_none (by exact hin), Image.get, offset_none hin]
      rw [if_neg]
      · rfl
      · rintro ⟨rfl, rfl, rfl⟩
        exact hin h

/-- `resize` gives an image of the asked size whatever it was before; fresh images are black. -/
theorem image_new {w h p : Int} (hw : 0 ≤ w) (hh : 0 ≤ h) (hp : 0 ≤ p) (hs : w * h * p ≤ 2147483647) :
    ∃ im, Image.new w h p = some im ∧ im.WF ∧ im.Small ∧ im.w = w ∧ im.h = h ∧ im.p = p ∧
      ∀ x y c, im.In x y c → im.get x y c = some 0 := by
  obtain ⟨im, e, hwf, h1, h2, h3⟩ := resize_some ⟨0, 0, 0, []⟩ hw hh hp
  refine ⟨im, e, hwf, by unfold Image.Small; rw [h1, h2, h3]; exact hs, h1, h2, h3, fun x y c hin => ?_⟩
  obtain ⟨a, b⟩ := offset_range hwf hin
  rw [get_eq hwf (by unfold Image.Small; rw [h1, h2, h3]; exact hs) hin]
  simp only [resize, assert, hw, hh, hp, if_true, Option.bind_eq_bind, Option.bind_some, Option.pure_def,
    Option.some.injEq] at e
  have hd : im.data = List.replicate (w.toNat * h.toNat * p.toNat) 0 := by rw [← e]; simp
  obtain ⟨n, hn⟩ := Int.eq_ofNat_of_zero_le a
  rw [hn] at b ⊢
  rw [hd] at b ⊢
  rw [List.length_replicate] at b
  rw [getI_natCast, List.getElem?_replicate, if_pos (by exact_mod_cast b)]

/-- Without the bound on the size the address computation overflows: an image of
50000 × 50000 bytes has pixels that cannot be addressed. -/
theorem image_offset_overflow : ∃ im : Image, im.WF ∧ im.In 0 49999 0 ∧ im.offset 0 49999 0 = none := by
  refine ⟨⟨50000, 50000, 1, List.replicate (50000 * 50000) 0⟩, ⟨by norm_num, by norm_num, by norm_num, ?_⟩, ?_, ?_⟩
  · rw [List.length_replicate]
    norm_num
  · exact ⟨by norm_num, by norm_num, by norm_num, by norm_num, by norm_num, by norm_num⟩
  · simp [Image.offset, assert, int32]

/-- a 2 × 3 image of 3 planes -/
def sampleImage : Image := ⟨2, 3, 3, [1, 2, 3, 4, 5, 6, 7, 8, 9, 10, 11, 12, 13, 14, 15, 16, 17, 18]⟩

theorem sampleImage_wf : sampleImage.WF := ⟨by decide, by decide, by decide, by decide⟩
theorem sampleImage_small : sampleImage.Small := by unfold Image.Small; decide

example : sampleImage.In 1 2 1 ∧ sampleImage.get 1 2 1 = some 17 ∧
    (sampleImage.set 1 1 0 99).bind (·.get 1 1 0) = some 99 := by
  refine ⟨⟨by decide, by decide, by decide, by decide, by decide, by decide⟩, ?_, ?_⟩ <;> decide +kernel

end CAD
