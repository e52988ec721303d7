import Verif.Model.ImageRounded
import Verif.Props.ImageUtil
import Verif.Props.NurbsFactoryRounded
import Verif.Lemmas.Ieee

/-! C140: `ImageUtil::scale` in floating point. -/

namespace CAD
open Mesh Image ImageUtil

/-- a triple loop that replaces every sample by a function of it -/
theorem samples_loop {im : Image} (hw : im.WF) (hsm : im.Small) {f : Byte → Res Byte} (hf : ∀ v, ∃ r, f v = some r) :
    ∃ im', loopN im.w.toNat (fun i m => loopN im.h.toNat (fun j m => loopN im.p.toNat (fun p m => do
        let v ← m.get i j p
        let v ← f v
        m.set i j p v) m) m) im = some im' ∧ im'.WF ∧ im'.w = im.w ∧ im'.h = im.h ∧ im'.p = im.p ∧
      ∀ x y c, im.In x y c → ∃ v r, im.get x y c = some v ∧ f v = some r ∧ im'.get x y c = some r := by
  have h0 : im.Same im := ⟨hw, hsm, rfl, rfl, rfl⟩
  obtain ⟨im', e, hs', hg⟩ := pixel_loop h0 (fun x y c => (im.get x y c).bind f)
    (fun i j m => loopN im.p.toNat (fun p m => do
        let v ← m.get i j p
        let v ← f v
        m.set i j p v) m) (by
      intro i j m hi hj hm hsame
      obtain ⟨m', e, hm', hg⟩ := loopN_inv (n := im.p.toNat) (s := m) (f := fun p m => do
          let v ← m.get i j p
          let v ← f v
          m.set i j p v)
        (fun k m' => im.Same m' ∧ ∀ x y c, m'.get x y c = if x = i ∧ y = j ∧ c < k then (im.get x y c).bind f
          else m.get x y c)
        ⟨hm, fun x y c => by
          by_cases h : x = i ∧ y = j ∧ c < (0 : Nat)
          · rw [if_pos h, get_out (by rintro ⟨-, -, -, -, h5, -⟩; omega), get_out (by rintro ⟨-, -, -, -, h5, -⟩; omega)]
            rfl
          · rw [if_neg h]⟩ (by
          rintro k hk m1 ⟨hm1, hg1⟩
          have hin : im.In i j k := ⟨by omega, hi, by omega, hj, by omega, by omega⟩
          obtain ⟨v, hv⟩ := Option.isSome_iff_exists.1 ((image_get_defined hw hsm i j k).2 hin)
          have hv1 : m1.get i j k = some v := by rw [hg1, if_neg (by omega), hsame, hv]
          obtain ⟨r, hr⟩ := hf v
          obtain ⟨m2, e2, hm2, hg2⟩ := hm1.set hin r
          refine ⟨m2, by simp [hv1, hr, e2], hm2, fun x y c => ?_⟩
          rw [hg2]
          by_cases hc : x = i ∧ y = j ∧ c = k
          · obtain ⟨rfl, rfl, rfl⟩ := hc
            rw [if_pos ⟨rfl, rfl, rfl⟩, if_pos ⟨rfl, rfl, by omega⟩, hv, Option.bind_some, hr]
          · rw [if_neg hc, hg1]
            have : (x = i ∧ y = j ∧ c < (k : Int)) ↔ (x = i ∧ y = j ∧ c < ((k + 1 : Nat) : Int)) := by omega
            simp only [this])
      refine ⟨m', e, hm', fun x y c => ?_⟩
      rw [hg]
      by_cases hxy : x = i ∧ y = j
      · obtain ⟨rfl, rfl⟩ := hxy
        by_cases hc : c < (im.p.toNat : Nat)
        · rw [if_pos ⟨rfl, rfl, hc⟩, if_pos ⟨rfl, rfl⟩]
        · rw [if_neg (by tauto), if_pos ⟨rfl, rfl⟩, hsame, get_out (by rintro ⟨-, -, -, -, h5, h6⟩; omega)]
          rfl
      · rw [if_neg (by tauto), if_neg hxy])
  refine ⟨im', ?_, hs'.wf, hs'.w, hs'.h, hs'.p, ?_⟩
  · exact e
  · intro x y c hin
    obtain ⟨v, hv⟩ := Option.isSome_iff_exists.1 ((image_get_defined hw hsm x y c).2 hin)
    obtain ⟨r, hr⟩ := hf v
    refine ⟨v, r, hv, hr, ?_⟩
    rw [hg x y c hin.1 hin.2.1 hin.2.2.1 hin.2.2.2.1, hv, Option.bind_some, hr]

namespace ImageUtil

/-- without rounding the model is that of exact arithmetic -/
theorem scaleByteR_id (v : Byte) (s : ℚ) : scaleByteR id v s = scaleByte v s := by
  unfold scaleByteR scaleByte
  simp only [id]
  have e : (v.toNat : ℝ) * (s : ℝ) + 1 / 2 = (((v.toNat : ℚ) * s + 1 / 2 : ℚ) : ℝ) := by push_cast; ring
  have a : (-1 < (((v.toNat : ℚ) * s + 1 / 2 : ℚ) : ℝ) ∧ (((v.toNat : ℚ) * s + 1 / 2 : ℚ) : ℝ) < 256) ↔
      (-1 < (v.toNat : ℚ) * s + 1 / 2 ∧ (v.toNat : ℚ) * s + 1 / 2 < 256) := by
    constructor <;> rintro ⟨h1, h2⟩ <;> exact ⟨by exact_mod_cast h1, by exact_mod_cast h2⟩
  rw [e, Rat.floor_cast]
  simp only [a]
  rfl

/-- the same for a whole image -/
theorem scaleR_id (im : Image) (s : ℚ) : scaleR id im s = scale im s := by
  unfold scaleR scale
  simp only [scaleByteR_id]

theorem double_mono' : Monotone double := ieee_mono (by norm_num)

theorem byte_le (v : Byte) : (0 : ℝ) ≤ v.toNat ∧ (v.toNat : ℝ) ≤ 255 := by
  have := UInt8.toNat_lt v
  exact ⟨by positivity, by exact_mod_cast (by omega : v.toNat ≤ 255)⟩

theorem scaled_near {v : Byte} {s : ℝ} (s0 : 0 ≤ s) (h : 255 * s ≤ 255.49) :
    |double (double ((v.toNat : ℝ) * s) + 1 / 2) - (v.toNat * s + 1 / 2)| ≤ 2 ^ (-43 : ℤ) := by
  obtain ⟨v0, v1⟩ := byte_le v
  have p0 : 0 ≤ (v.toNat : ℝ) * s := mul_nonneg v0 s0
  have p1 : (v.toNat : ℝ) * s ≤ 255.49 := (mul_le_mul_of_nonneg_right v1 s0).trans h
  generalize (v.toNat : ℝ) * s = y at *
  have big : ∀ {R : ℝ}, 1 ≤ R → (2 : ℝ) ^ (-400 : ℤ) ≤ R := fun h => (zpow_le_one_of_nonpos₀ one_le_two (by norm_num)).trans h
  have a := Nurbs.double_off (R := 256) (x := y) (big (by norm_num)) (by rw [abs_of_nonneg p0]; linarith)
  have a' : |double y - y| ≤ 1 := a.trans (by norm_num)
  have b := Nurbs.double_off (R := 512) (x := double y + 1 / 2) (big (by norm_num)) (by
    rw [abs_le] at a' ⊢
    constructor <;> linarith)
  have t := abs_add_le (double (double y + 1 / 2) - (double y + 1 / 2)) (double y - y)
  rw [show double (double y + 1 / 2) - (double y + 1 / 2) + (double y - y) = double (double y + 1 / 2) - (y + 1 / 2) by ring] at t
  refine t.trans ((add_le_add b a).trans ?_)
  norm_num

theorem scaleByteR_some {v : Byte} {s : ℝ} (s0 : 0 ≤ s) (h : 255 * s ≤ 255.49) :
    ∃ r, scaleByteR double v s = some r ∧ (r.toNat : ℤ) = ⌊double (double ((v.toNat : ℝ) * s) + 1 / 2)⌋ := by
  obtain ⟨v0, v1⟩ := byte_le v
  have n := scaled_near (v := v) s0 h
  have p0 : 0 ≤ (v.toNat : ℝ) * s := mul_nonneg v0 s0
  have p1 : (v.toNat : ℝ) * s ≤ 255.49 := (mul_le_mul_of_nonneg_right v1 s0).trans h
  unfold scaleByteR
  simp only
  have small : (2 : ℝ) ^ (-43 : ℤ) ≤ 1 / 1000 := by norm_num
  obtain ⟨n1, n2⟩ := abs_le.1 (n.trans small)
  generalize double (double ((v.toNat : ℝ) * s) + 1 / 2) = x at *
  have x0 : 0 ≤ x := by linarith
  have x1 : x < 256 := by linarith
  have f0 : 0 ≤ ⌊x⌋ := Int.floor_nonneg.2 x0
  have f1 : ⌊x⌋ < 256 := Int.floor_lt.2 (by exact_mod_cast x1)
  rw [if_pos ⟨by linarith, x1⟩]
  refine ⟨_, rfl, ?_⟩
  rw [UInt8.toNat_ofNat']
  omega

theorem scaleByteR_nearest {v r : Byte} {s : ℝ} (s0 : 0 ≤ s) (h : 255 * s ≤ 255.49) (hr : scaleByteR double v s = some r) :
    |(r.toNat : ℝ) - v.toNat * s| ≤ 1 / 2 + 2 ^ (-43 : ℤ) := by
  obtain ⟨r', e, hf⟩ := scaleByteR_some (v := v) s0 h
  obtain rfl : r' = r := Option.some.inj (e.symm.trans hr)
  obtain ⟨n1, n2⟩ := abs_le.1 (scaled_near (v := v) s0 h)
  have hf' : (r'.toNat : ℝ) = (⌊double (double ((v.toNat : ℝ) * s) + 1 / 2)⌋ : ℤ) := by exact_mod_cast hf
  have a1 := Int.floor_le (double (double ((v.toNat : ℝ) * s) + 1 / 2))
  have a2 := Int.lt_floor_add_one (double (double ((v.toNat : ℝ) * s) + 1 / 2))
  rw [hf', abs_le]
  constructor <;> linarith

/-- **C140** `scale` in double by a factor that keeps every sample below 255.99 succeeds; the size stays, each sample becomes an integer nearest to the
scaled one up to 2⁻⁴³, and a brighter sample never becomes darker than another.  (`_partial`: larger factors are undefined instead of saturating,
`scale_overflow_double`.) -/
theorem scale_double_partial {im : Image} (hw : im.WF) (hsm : im.Small) {s : ℝ} (s0 : 0 ≤ s) (h : 255 * s ≤ 255.49) :
    ∃ im', scaleR double im s = some im' ∧ im'.WF ∧ im'.w = im.w ∧ im'.h = im.h ∧ im'.p = im.p ∧
      (∀ x y c, im.In x y c → ∃ v r, im.get x y c = some v ∧ im'.get x y c = some r ∧ |(r.toNat : ℝ) - v.toNat * s| ≤ 1 / 2 + 2 ^ (-43 : ℤ)) ∧
      (∀ x y c x' y' c' v v' r r', im.get x y c = some v → im.get x' y' c' = some v' → im'.get x y c = some r → im'.get x' y' c' = some r' →
        v ≤ v' → r ≤ r') := by
  obtain ⟨im', e, h1, h2, h3, h4, g⟩ := samples_loop hw hsm (f := (scaleByteR double · s)) fun v => (scaleByteR_some (v := v) s0 h).imp fun _ k => k.1
  refine ⟨im', e, h1, h2, h3, h4, fun x y c hin => ?_, fun x y c x' y' c' v v' r r' a a' b b' hv => ?_⟩
  · obtain ⟨v, r, hv, hr, hr'⟩ := g x y c hin
    exact ⟨v, r, hv, hr', scaleByteR_nearest s0 h hr⟩
  · have i1 : im.In x y c := (image_get_defined hw hsm x y c).1 (by rw [a]; rfl)
    have i2 : im.In x' y' c' := (image_get_defined hw hsm x' y' c').1 (by rw [a']; rfl)
    obtain ⟨w, q, k1, k2, k3⟩ := g x y c i1
    obtain ⟨w', q', l1, l2, l3⟩ := g x' y' c' i2
    obtain rfl : v = w := Option.some.inj (a.symm.trans k1)
    obtain rfl : v' = w' := Option.some.inj (a'.symm.trans l1)
    obtain rfl : r = q := Option.some.inj (b.symm.trans k3)
    obtain rfl : r' = q' := Option.some.inj (b'.symm.trans l3)
    obtain ⟨t, t1, t2⟩ := scaleByteR_some (v := v) s0 h
    obtain ⟨t', t1', t2'⟩ := scaleByteR_some (v := v') s0 h
    obtain rfl : r = t := Option.some.inj (k2.symm.trans t1)
    obtain rfl : r' = t' := Option.some.inj (l2.symm.trans t1')
    have hv' : (v.toNat : ℝ) ≤ v'.toNat := by exact_mod_cast UInt8.le_iff_toNat_le.1 hv
    have m := double_mono' (add_le_add_left (double_mono' (mul_le_mul_of_nonneg_right hv' s0)) (1 / 2))
    have m' := Int.floor_le_floor m
    rw [UInt8.le_iff_toNat_le]
    omega

/-- **C140** a factor of one changes nothing, in double too -/
theorem scale_one_double {im : Image} (hw : im.WF) (hsm : im.Small) :
    ∃ im', scaleR double im 1 = some im' ∧ im'.w = im.w ∧ im'.h = im.h ∧ im'.p = im.p ∧ ∀ x y c, im.In x y c → im'.get x y c = im.get x y c := by
  obtain ⟨im', e, -, h1, h2, h3, h, -⟩ := scale_double_partial hw hsm (s := 1) (by norm_num) (by norm_num)
  refine ⟨im', e, h1, h2, h3, fun x y c hin => ?_⟩
  obtain ⟨v, r, hv, hr, hd⟩ := h x y c hin
  rw [hv, hr]
  congr 1
  rw [mul_one] at hd
  have hd' : |(r.toNat : ℝ) - v.toNat| < 1 := lt_of_le_of_lt hd (by norm_num)
  have : |((r.toNat : ℤ) - v.toNat : ℤ)| < 1 := by
    have : ((|((r.toNat : ℤ) - v.toNat : ℤ)| : ℤ) : ℝ) < 1 := by push_cast; exact hd'
    exact_mod_cast this
  rw [Int.abs_lt_one_iff] at this
  exact UInt8.toNat_inj.1 (by omega)

theorem double_int' {k : ℤ} (h : |k| < 2 ^ 53) : double k = k := ieee_int (by norm_num) h

/-- **C140**, the negation: in double too a sample that leaves the range is undefined, it does not saturate -/
theorem scale_overflow_double (v : Byte) (hv : 128 ≤ v) : scaleByteR double v 2 = none := by
  have h : (128 : ℝ) ≤ v.toNat := by
    have := UInt8.le_iff_toNat_le.1 hv
    exact_mod_cast this
  have a : (256 : ℝ) ≤ double ((v.toNat : ℝ) * 2) := by
    have := double_mono' (show ((256 : ℤ) : ℝ) ≤ (v.toNat : ℝ) * 2 by push_cast; linarith)
    rw [double_int' (by norm_num)] at this
    exact_mod_cast this
  have b : (256 : ℝ) ≤ double (double ((v.toNat : ℝ) * 2) + 1 / 2) := by
    have := double_mono' (show ((256 : ℤ) : ℝ) ≤ double ((v.toNat : ℝ) * 2) + 1 / 2 by push_cast; linarith)
    rw [double_int' (by norm_num)] at this
    exact_mod_cast this
  unfold scaleByteR
  simp only
  rw [if_neg (fun k => absurd k.2 (not_lt.2 b))]

example : sampleImage.WF ∧ sampleImage.Small ∧ (0 : ℝ) ≤ 1 / 3 ∧ (255 : ℝ) * (1 / 3) ≤ 255.49 := ⟨sampleImage_wf, sampleImage_small, by norm_num, by norm_num⟩

end ImageUtil
end CAD
