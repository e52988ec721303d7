import Verif.Props.Image
import Mathlib.Algebra.BigOperators.Ring.Finset
import Mathlib.Data.Finset.Prod
import Mathlib.Tactic.IntervalCases
import Mathlib.Data.Nat.Bits

/-! C82 – C85: `ImageUtil::convert_to_bw`, `ImageUtil::scale`, `ImageGenerator::Shierpinsky`,
`Image::to_double`. -/

set_option linter.unusedSimpArgs false

namespace CAD
open Mesh Image ImageUtil

/-- `im` is a proper image of the size of `im0` -/
structure Image.Same (im0 im : Image) : Prop where
  wf : im.WF
  small : im.Small
  w : im.w = im0.w
  h : im.h = im0.h
  p : im.p = im0.p

theorem Image.Same.set {im0 im : Image} (h : im0.Same im) {x y c : Int} (hin : im0.In x y c) (v : Byte) :
    ∃ im', im.set x y c v = some im' ∧ im0.Same im' ∧
      ∀ x' y' c', im'.get x' y' c' = if x' = x ∧ y' = y ∧ c' = c then some v else im.get x' y' c' := by
  obtain ⟨im', e, a, b, c1, c2, c3, g⟩ := image_set_get h.wf h.small (x := x) (y := y) (c := c) (by
    unfold Image.In at hin ⊢; rw [h.w, h.h, h.p]; exact hin) v
  exact ⟨im', e, ⟨a, b, c1.trans h.w, c2.trans h.h, c3.trans h.p⟩, g⟩

theorem get_out {im : Image} {x y c : Int} (h : ¬ im.In x y c) : im.get x y c = none := by
  rw [Image.get, offset_none h]
  rfl

/-- A double loop over the pixels whose body changes only the pixel it is at. -/
theorem pixel_loop {im0 : Image} (h0 : im0.Same im0) (v : Int → Int → Int → Res Byte) (f : Nat → Nat → Image → Res Image)
    (hf : ∀ (i j : Nat) im, (i : Int) < im0.w → (j : Int) < im0.h → im0.Same im → (∀ c, im.get i j c = im0.get i j c) →
      ∃ im', f i j im = some im' ∧ im0.Same im' ∧
        ∀ x y c, im'.get x y c = if x = i ∧ y = j then v i j c else im.get x y c) :
    ∃ im', loopN im0.w.toNat (fun i im => loopN im0.h.toNat (fun j im => f i j im) im) im0 = some im' ∧ im0.Same im' ∧
      ∀ x y c, 0 ≤ x → x < im0.w → 0 ≤ y → y < im0.h → im'.get x y c = v x y c := by
  obtain ⟨im', e, hs, hg⟩ := loopN_inv (n := im0.w.toNat) (s := im0) (f := fun i im => loopN im0.h.toNat (fun j im => f i j im) im)
    (fun i im => im0.Same im ∧ ∀ x y c, im.get x y c =
      if 0 ≤ x ∧ x < i ∧ 0 ≤ y ∧ y < im0.h then v x y c else im0.get x y c)
    ⟨h0, fun x y c => by rw [if_neg (by omega)]⟩ (by
      rintro i hi im ⟨hs, hg⟩
      obtain ⟨im', e, hs', hg'⟩ := loopN_inv (n := im0.h.toNat) (s := im) (f := fun j im => f i j im)
        (fun j im => im0.Same im ∧ ∀ x y c, im.get x y c =
          if 0 ≤ x ∧ 0 ≤ y ∧ y < im0.h ∧ (x < i ∨ x = i ∧ y < j) then v x y c else im0.get x y c)
        ⟨hs, fun x y c => by
          rw [hg]
          have : (0 ≤ x ∧ x < i ∧ 0 ≤ y ∧ y < im0.h) ↔ (0 ≤ x ∧ 0 ≤ y ∧ y < im0.h ∧ (x < i ∨ x = i ∧ y < (0 : Nat))) := by omega
          simp only [this]⟩ (by
          rintro j hj im ⟨hs, hg⟩
          obtain ⟨im', e, hs', hg'⟩ := hf i j im (by omega) (by omega) hs (fun c => by rw [hg, if_neg (by omega)])
          refine ⟨im', e, hs', fun x y c => ?_⟩
          rw [hg', hg]
          by_cases hxy : x = i ∧ y = j
          · obtain ⟨rfl, rfl⟩ := hxy
            rw [if_pos ⟨rfl, rfl⟩, if_pos (by omega)]
          · rw [if_neg hxy]
            have : (0 ≤ x ∧ 0 ≤ y ∧ y < im0.h ∧ (x < i ∨ x = i ∧ y < j)) ↔
                (0 ≤ x ∧ 0 ≤ y ∧ y < im0.h ∧ (x < i ∨ x = i ∧ y < (j + 1 : Nat))) := by omega
            simp only [this])
      refine ⟨im', e, hs', fun x y c => ?_⟩
      rw [hg']
      have : (0 ≤ x ∧ 0 ≤ y ∧ y < im0.h ∧ (x < i ∨ x = i ∧ y < (im0.h.toNat : Nat))) ↔
        (0 ≤ x ∧ x < (i + 1 : Nat) ∧ 0 ≤ y ∧ y < im0.h) := by omega
      simp only [this])
  refine ⟨im', e, hs, fun x y c x0 x1 y0 y1 => ?_⟩
  rw [hg, if_pos (by omega)]

/-- C82.  `convert_to_bw` of an image with at least three planes gives an image of one plane
and the same size, whose samples are the rounded down averages of the first three planes;
what the target held does not matter. -/
theorem convert_to_bw_spec {im : Image} (hw : im.WF) (hs : im.Small) (hp : 3 ≤ im.p) (imBW : Image) :
    ∃ im', convertToBw im imBW = some im' ∧ im'.WF ∧ im'.w = im.w ∧ im'.h = im.h ∧ im'.p = 1 ∧
      ∀ x y, 0 ≤ x → x < im.w → 0 ≤ y → y < im.h → ∃ a b c g, im.get x y 0 = some a ∧ im.get x y 1 = some b ∧
        im.get x y 2 = some c ∧ im'.get x y 0 = some g ∧ g.toNat = (a.toNat + b.toNat + c.toNat) / 3 := by
  obtain ⟨bw, e, hbw, h1, h2, h3⟩ := resize_some imBW hw.w hw.h (p := 1) (by norm_num)
  have hsm : bw.Small := by
    unfold Image.Small at hs ⊢
    rw [h1, h2, h3]
    have := mul_nonneg hw.w hw.h
    nlinarith
  have hget : ∀ x y c : Int, 0 ≤ x → x < im.w → 0 ≤ y → y < im.h → 0 ≤ c → c < 3 → ∃ a, im.get x y c = some a := by
    intro x y c x0 x1 y0 y1 c0 c1
    exact Option.isSome_iff_exists.1 ((image_get_defined hw hs x y c).2 ⟨x0, x1, y0, y1, c0, by omega⟩)
  obtain ⟨im', e', hs', hg⟩ := pixel_loop (im0 := bw) ⟨hbw, hsm, rfl, rfl, rfl⟩
    (fun x y c => if c = 0 then some (UInt8.ofNat ((((im.get x y 0).getD 0).toNat + ((im.get x y 1).getD 0).toNat +
      ((im.get x y 2).getD 0).toNat) / 3)) else none)
    (fun i j bw => do
      let a ← im.get i j 0
      let b ← im.get i j 1
      let c ← im.get i j 2
      bw.set i j 0 (UInt8.ofNat ((a.toNat + b.toNat + c.toNat) / 3)))
    (by
      intro i j b hi hj hb _
      obtain ⟨a0, g0⟩ := hget i j 0 (by omega) (by omega) (by omega) (by omega) (by omega) (by omega)
      obtain ⟨a1, g1⟩ := hget i j 1 (by omega) (by omega) (by omega) (by omega) (by omega) (by omega)
      obtain ⟨a2, g2⟩ := hget i j 2 (by omega) (by omega) (by omega) (by omega) (by omega) (by omega)
      obtain ⟨b', e, hb', hg⟩ := hb.set (x := i) (y := j) (c := 0) ⟨by omega, hi, by omega, hj, le_rfl, by omega⟩
        (UInt8.ofNat ((a0.toNat + a1.toNat + a2.toNat) / 3))
      refine ⟨b', by simp [g0, g1, g2, e], hb', fun x y c => ?_⟩
      rw [hg]
      by_cases hxy : x = i ∧ y = j
      · obtain ⟨rfl, rfl⟩ := hxy
        by_cases hc : c = 0
        · subst hc
          simp [g0, g1, g2]
        · rw [if_neg (by tauto), if_pos ⟨rfl, rfl⟩, if_neg hc]
          exact get_out (by rintro ⟨-, -, -, -, h5, h6⟩; rw [hb.p, h3] at h6; omega)
      · rw [if_neg (by tauto), if_neg hxy])
  refine ⟨im', ?_, hs'.wf, by rw [hs'.w, h1], by rw [hs'.h, h2], by rw [hs'.p, h3], ?_⟩
  · unfold convertToBw
    rw [e]
    rw [h1, h2] at e'
    exact e'
  · intro x y x0 x1 y0 y1
    obtain ⟨a0, g0⟩ := hget x y 0 x0 x1 y0 y1 (by omega) (by omega)
    obtain ⟨a1, g1⟩ := hget x y 1 x0 x1 y0 y1 (by omega) (by omega)
    obtain ⟨a2, g2⟩ := hget x y 2 x0 x1 y0 y1 (by omega) (by omega)
    refine ⟨a0, a1, a2, UInt8.ofNat ((a0.toNat + a1.toNat + a2.toNat) / 3), g0, g1, g2, ?_, ?_⟩
    · rw [hg x y 0 x0 (by omega) y0 (by omega), if_pos rfl, g0, g1, g2]
      rfl
    · rw [UInt8.toNat_ofNat']
      have := UInt8.toNat_lt a0
      have := UInt8.toNat_lt a1
      have := UInt8.toNat_lt a2
      omega

/-- A loop whose first turn fails fails. -/
theorem loopN_fail {σ : Type} {n : Nat} {f : Nat → σ → Res σ} {s : σ} (h : f 0 s = none) : loopN (n + 1) f s = none := by
  unfold loopN
  rw [List.range_succ_eq_map, List.foldlM_cons, h]
  rfl

/-- C82.  The format is not checked: a non-empty image with less than three planes is an
access outside the image. -/
theorem convert_to_bw_planes {im : Image} (hw : 0 < im.w) (hh : 0 < im.h) (hp : im.p < 3) (imBW : Image) :
    convertToBw im imBW = none := by
  unfold convertToBw
  cases imBW.resize im.w im.h 1 with
  | none => rfl
  | some b =>
    obtain ⟨n, hn⟩ : ∃ n, im.w.toNat = n + 1 := ⟨im.w.toNat - 1, by omega⟩
    obtain ⟨k, hk⟩ : ∃ k, im.h.toNat = k + 1 := ⟨im.h.toNat - 1, by omega⟩
    rw [hn, hk]
    simp only [Option.bind_eq_bind, Option.bind_some]
    refine loopN_fail (loopN_fail ?_)
    rw [get_out (im := im) (c := 2) (by rintro ⟨-, -, -, -, h5, h6⟩; omega)]
    cases im.get ((0 : Nat) : Int) ((0 : Nat) : Int) 0 <;> [rfl; skip]
    cases im.get ((0 : Nat) : Int) ((0 : Nat) : Int) 1 <;> rfl

example : (convertToBw sampleImage ⟨0, 0, 0, []⟩).map (·.data) = some [2, 5, 8, 11, 14, 17] := by decide +kernel

/-! ### C83 -/

/-- What `scaleByte` returns is the nearest integer. -/
theorem scaleByte_nearest {v r : Byte} {s : ℚ} (hs : 0 ≤ s) (h : scaleByte v s = some r) :
    |(r.toNat : ℚ) - v.toNat * s| ≤ 1 / 2 := by
  unfold scaleByte at h
  simp only at h
  split at h
  · next hx =>
    have hnn : (0 : ℚ) ≤ v.toNat * s + 1 / 2 := by positivity
    have hf0 : 0 ≤ ⌊(v.toNat : ℚ) * s + 1 / 2⌋ := Int.floor_nonneg.2 hnn
    have hf1 : ⌊(v.toNat : ℚ) * s + 1 / 2⌋ < 256 := Int.floor_lt.2 (by exact_mod_cast hx.2)
    have hr : (r.toNat : ℤ) = ⌊(v.toNat : ℚ) * s + 1 / 2⌋ := by
      rw [← Option.some.inj h, UInt8.toNat_ofNat']
      have : Rat.floor ((v.toNat : ℚ) * s + 1 / 2) = ⌊(v.toNat : ℚ) * s + 1 / 2⌋ := rfl
      rw [this]
      omega
    have hr' : (r.toNat : ℚ) = (⌊(v.toNat : ℚ) * s + 1 / 2⌋ : ℤ) := by exact_mod_cast hr
    have a1 := Int.floor_le ((v.toNat : ℚ) * s + 1 / 2)
    have a2 := Int.lt_floor_add_one ((v.toNat : ℚ) * s + 1 / 2)
    rw [hr', abs_le]
    constructor <;> linarith
  · cases h

theorem scaleByte_some {v : Byte} {s : ℚ} (hs : 0 ≤ s) (h1 : 255 * s + 1 / 2 < 256) : ∃ r, scaleByte v s = some r := by
  unfold scaleByte
  simp only
  have hv : (v.toNat : ℚ) ≤ 255 := by
    have := UInt8.toNat_lt v
    exact_mod_cast (by omega : v.toNat ≤ 255)
  have hv0 : (0 : ℚ) ≤ v.toNat := by positivity
  rw [if_pos ⟨by nlinarith, by nlinarith⟩]
  exact ⟨_, rfl⟩

/-- C83.  `scale` by a factor that keeps every sample below 256 succeeds; the size stays
and each sample becomes the integer nearest to the scaled sample.  (`_partial`: larger
factors are undefined instead of saturating, `scale_overflow`.) -/
theorem scale_partial {im : Image} (hw : im.WF) (hsm : im.Small) {s : ℚ} (hs : 0 ≤ s) (h1 : 255 * s + 1 / 2 < 256) :
    ∃ im', scale im s = some im' ∧ im'.WF ∧ im'.w = im.w ∧ im'.h = im.h ∧ im'.p = im.p ∧
      ∀ x y c, im.In x y c → ∃ v r, im.get x y c = some v ∧ im'.get x y c = some r ∧
        |(r.toNat : ℚ) - v.toNat * s| ≤ 1 / 2 := by
  have h0 : im.Same im := ⟨hw, hsm, rfl, rfl, rfl⟩
  obtain ⟨im', e, hs', hg⟩ := pixel_loop h0 (fun x y c => (im.get x y c).bind (scaleByte · s))
    (fun i j m => loopN im.p.toNat (fun p m => do
        let v ← m.get i j p
        let v ← scaleByte v s
        m.set i j p v) m) (by
      intro i j m hi hj hm hsame
      obtain ⟨m', e, hm', hg⟩ := loopN_inv (n := im.p.toNat) (s := m) (f := fun p m => do
          let v ← m.get i j p
          let v ← scaleByte v s
          m.set i j p v)
        (fun k m' => im.Same m' ∧ ∀ x y c, m'.get x y c = if x = i ∧ y = j ∧ c < k then (im.get x y c).bind (scaleByte · s)
          else m.get x y c)
        ⟨hm, fun x y c => by
          by_cases h : x = i ∧ y = j ∧ c < (0 : Nat)
          · rw [if_pos h, get_out (by rintro ⟨-, -, -, -, h5, -⟩; omega), get_out (by rintro ⟨-, -, -, -, h5, -⟩; omega)]
            rfl
          · rw [if_neg h]⟩ (by
          rintro k hk m1 ⟨hm1, hg1⟩
          have hin : im.In i j k := ⟨by omega, hi, by omega, hj, by omega, by omega⟩
          obtain ⟨v, hv⟩ := Option.isSome_iff_exists.1 ((image_get_defined hw hsm i j k).2 hin)
          have hv1 : m1.get i j k = some v := by rw [hg1, if_neg (by omega), hsame, hv]
          obtain ⟨r, hr⟩ := scaleByte_some (v := v) hs h1
          obtain ⟨m2, e2, hm2, hg2⟩ := hm1.set hin r
          refine ⟨m2, by simp [hv1, hr, e2], hm2, fun x y c => ?_⟩
          rw [hg2]
          by_cases hc : x = i ∧ y = j ∧ c = k
          · obtain ⟨rfl, rfl, rfl⟩ := hc
            rw [if_pos ⟨rfl, rfl, rfl⟩, if_pos ⟨rfl, rfl, by omega⟩, hv, Option.bind_some, hr]
          · rw [if_neg hc, hg1]
            have : (x = i ∧ y = j ∧ c < (k : Int)) ↔ (x = i ∧ y = j ∧ c < ((k + 1 : Nat) : Int)) := by omega
            simp only [this])
      refine ⟨m', e, hm', fun x y c => ?_⟩
      rw [hg]
      by_cases hxy : x = i ∧ y = j
      · obtain ⟨rfl, rfl⟩ := hxy
        by_cases hc : c < (im.p.toNat : Nat)
        · rw [if_pos ⟨rfl, rfl, hc⟩, if_pos ⟨rfl, rfl⟩]
        · rw [if_neg (by tauto), if_pos ⟨rfl, rfl⟩, hsame, get_out (by rintro ⟨-, -, -, -, h5, h6⟩; omega)]
          rfl
      · rw [if_neg (by tauto), if_neg hxy])
  refine ⟨im', ?_, hs'.wf, hs'.w, hs'.h, hs'.p, ?_⟩
  · exact e
  · intro x y c hin
    obtain ⟨v, hv⟩ := Option.isSome_iff_exists.1 ((image_get_defined hw hsm x y c).2 hin)
    obtain ⟨r, hr⟩ := scaleByte_some (v := v) hs h1
    refine ⟨v, r, hv, ?_, scaleByte_nearest hs hr⟩
    rw [hg x y c hin.1 hin.2.1 hin.2.2.1 hin.2.2.2.1, hv, Option.bind_some, hr]

/-- C83.  A factor of one changes nothing. -/
theorem scale_one {im : Image} (hw : im.WF) (hsm : im.Small) :
    ∃ im', scale im 1 = some im' ∧ im'.w = im.w ∧ im'.h = im.h ∧ im'.p = im.p ∧
      ∀ x y c, im.In x y c → im'.get x y c = im.get x y c := by
  obtain ⟨im', e, -, h1, h2, h3, h⟩ := scale_partial hw hsm (s := 1) (by norm_num) (by norm_num)
  refine ⟨im', e, h1, h2, h3, fun x y c hin => ?_⟩
  obtain ⟨v, r, hv, hr, hd⟩ := h x y c hin
  rw [hv, hr]
  congr 1
  rw [mul_one] at hd
  have : |((r.toNat : ℤ) - v.toNat : ℤ)| < 1 := by
    have : ((|((r.toNat : ℤ) - v.toNat : ℤ)| : ℤ) : ℚ) < 1 := by push_cast; linarith
    exact_mod_cast this
  rw [Int.abs_lt_one_iff] at this
  exact UInt8.toNat_inj.1 (by omega)

/-- C83, the negation: a sample that leaves the range is undefined, it does not saturate. -/
theorem scale_overflow : scale ⟨1, 1, 1, [200]⟩ 2 = none := by decide +kernel

example : (scale sampleImage (1 / 2)).map (·.data) = some [1, 1, 2, 2, 3, 3, 4, 4, 5, 5, 6, 6, 7, 7, 8, 8, 9, 9] := by decide +kernel

/-! ### C84 -/

/-- C84.  The Sierpinski picture has the asked size, whatever the image was before; the
pixel `(x, y)` is white (with alpha 1) when `x & y = 0` and 0 otherwise. -/
theorem shierpinsky_spec (im : Image) {w h : Int} (hw : 0 ≤ w) (hh : 0 ≤ h) (hs : w * h * 4 ≤ 2147483647) :
    ∃ im', shierpinsky im w h = some im' ∧ im'.WF ∧ im'.w = w ∧ im'.h = h ∧ im'.p = 4 ∧
      ∀ x y c : Nat, (x : Int) < w → (y : Int) < h → c < 4 →
        im'.get x y c = some (if x &&& y = 0 then (if c = 3 then 1 else 255) else 0) := by
  obtain ⟨im0, e, hwf, h1, h2, h3⟩ := resize_some im hw hh (p := 4) (by norm_num)
  have hsm : im0.Small := by unfold Image.Small; rw [h1, h2, h3]; exact hs
  obtain ⟨im', e', hs', hg⟩ := pixel_loop (im0 := im0) ⟨hwf, hsm, rfl, rfl, rfl⟩
    (fun x y c => if 0 ≤ c ∧ c < 4 then some ((le32 (if x.toNat &&& y.toNat = 0 then 33554431 else 0)).getD c.toNat 0) else none)
    (fun w h im => do
      let v : Int := if w &&& h = 0 then 33554431 else 0
      let im ← im.set w h 0 ((le32 v).getD 0 0)
      let im ← im.set w h 1 ((le32 v).getD 1 0)
      let im ← im.set w h 2 ((le32 v).getD 2 0)
      im.set w h 3 ((le32 v).getD 3 0)) (by
      intro i j m hi hj hm _
      have hin : ∀ c : Int, 0 ≤ c → c < 4 → im0.In i j c := fun c c0 c1 => ⟨by omega, hi, by omega, hj, c0, by omega⟩
      simp only [Int.toNat_natCast]
      generalize le32 (if i &&& j = 0 then 33554431 else 0) = L
      obtain ⟨m1, e1, hm1, g1⟩ := hm.set (hin 0 (by norm_num) (by norm_num)) (L.getD 0 0)
      obtain ⟨m2, e2, hm2, g2⟩ := hm1.set (hin 1 (by norm_num) (by norm_num)) (L.getD 1 0)
      obtain ⟨m3, e3, hm3, g3⟩ := hm2.set (hin 2 (by norm_num) (by norm_num)) (L.getD 2 0)
      obtain ⟨m4, e4, hm4, g4⟩ := hm3.set (hin 3 (by norm_num) (by norm_num)) (L.getD 3 0)
      refine ⟨m4, by simp only [e1, e2, e3, e4, Option.bind_eq_bind, Option.bind_some], hm4, fun x y c => ?_⟩
      rw [g4, g3, g2, g1]
      by_cases hxy : x = i ∧ y = j
      · obtain ⟨rfl, rfl⟩ := hxy
        by_cases hc : 0 ≤ c ∧ c < 4
        · obtain ⟨c0, c1⟩ := hc
          interval_cases c <;> simp
        · rw [if_neg (by omega), if_neg (by omega), if_neg (by omega), if_neg (by omega), if_pos ⟨rfl, rfl⟩, if_neg hc]
          exact get_out (by rintro ⟨-, -, -, -, h5, h6⟩; rw [hm.p, h3] at h6; omega)
      · rw [if_neg (by tauto), if_neg (by tauto), if_neg (by tauto), if_neg (by tauto), if_neg hxy])
  refine ⟨im', ?_, hs'.wf, by rw [hs'.w, h1], by rw [hs'.h, h2], by rw [hs'.p, h3], ?_⟩
  · unfold shierpinsky
    rw [e]
    exact e'
  · intro x y c hx hy hc
    rw [hg x y c (by omega) (by omega) (by omega) (by omega), if_pos (by omega)]
    simp only [Int.toNat_natCast]
    congr 1
    by_cases hxy : x &&& y = 0
    · rw [if_pos hxy, if_pos hxy]
      interval_cases c <;> decide +kernel
    · rw [if_neg hxy, if_neg hxy]
      interval_cases c <;> decide +kernel

theorem land_double (a b c d : Nat) (hb : b < 2) (hd : d < 2) :
    (2 * a + b) &&& (2 * c + d) = 0 ↔ a &&& c = 0 ∧ (b, d) ≠ (1, 1) := by
  rw [Nat.eq_iff_testBit_eq, Nat.eq_iff_testBit_eq]
  simp only [Nat.testBit_and, Nat.zero_testBit]
  constructor
  · intro h
    constructor
    · intro i
      have := h (i + 1)
      rw [Nat.testBit_add_one, Nat.testBit_add_one, show (2 * a + b) / 2 = a by omega, show (2 * c + d) / 2 = c by omega] at this
      exact this
    · rintro h1
      simp only [Prod.mk.injEq] at h1
      obtain ⟨rfl, rfl⟩ := h1
      have := h 0
      simp [Nat.testBit_zero] at this
  · rintro ⟨h, hne⟩ i
    cases i with
    | zero =>
      simp only [Nat.testBit_zero]
      have : ¬ (b = 1 ∧ d = 1) := fun hh => hne (by simp [hh])
      rw [Bool.and_eq_false_iff]
      simp only [decide_eq_false_iff_not]
      omega
    | succ i =>
      rw [Nat.testBit_add_one, Nat.testBit_add_one, show (2 * a + b) / 2 = a by omega, show (2 * c + d) / 2 = c by omega]
      exact h i

/-- The white pixels of the picture of size `2^k`. -/
def whitePixels (k : Nat) : Finset (Nat × Nat) :=
  (Finset.range (2 ^ k) ×ˢ Finset.range (2 ^ k)).filter fun q => q.1 &&& q.2 = 0

/-- C84.  The picture is the Sierpinski triangle: of `4^k` pixels `3^k` are white. -/
theorem shierpinsky_count (k : Nat) : (whitePixels k).card = 3 ^ k := by
  induction k with
  | zero => decide
  | succ k ih =>
    have : whitePixels (k + 1) = (whitePixels k ×ˢ ({(0, 0), (0, 1), (1, 0)} : Finset (Nat × Nat))).image
        fun q => (2 * q.1.1 + q.2.1, 2 * q.1.2 + q.2.2) := by
      ext ⟨x, y⟩
      simp only [whitePixels, Finset.mem_filter, Finset.mem_product, Finset.mem_range, Finset.mem_image, Prod.exists, Prod.mk.injEq,
        Finset.mem_insert, Finset.mem_singleton]
      constructor
      · rintro ⟨⟨hx, hy⟩, h⟩
        refine ⟨x / 2, y / 2, x % 2, y % 2, ⟨⟨⟨by rw [pow_succ] at hx; omega, by rw [pow_succ] at hy; omega⟩, ?_⟩, ?_⟩, by omega, by omega⟩
        · rw [← Nat.div_add_mod x 2, ← Nat.div_add_mod y 2] at h
          exact ((land_double _ _ _ _ (Nat.mod_lt _ (by norm_num)) (Nat.mod_lt _ (by norm_num))).1 h).1
        · rw [← Nat.div_add_mod x 2, ← Nat.div_add_mod y 2] at h
          have := ((land_double _ _ _ _ (Nat.mod_lt _ (by norm_num)) (Nat.mod_lt _ (by norm_num))).1 h).2
          simp only [ne_eq, Prod.mk.injEq] at this
          omega
      · rintro ⟨a, c, b, d, ⟨⟨⟨ha, hc⟩, h⟩, hbd⟩, rfl, rfl⟩
        refine ⟨⟨by rw [pow_succ]; omega, by rw [pow_succ]; omega⟩, ?_⟩
        rw [land_double _ _ _ _ (by omega) (by omega)]
        refine ⟨h, ?_⟩
        simp only [ne_eq, Prod.mk.injEq]
        omega
    rw [this, Finset.card_image_of_injOn, Finset.card_product, ih, pow_succ]
    · rfl
    · rintro ⟨⟨a, c⟩, ⟨b, d⟩⟩ hq ⟨⟨a', c'⟩, ⟨b', d'⟩⟩ hq' he
      simp only [Finset.coe_product, Set.mem_prod, Finset.mem_coe, Finset.mem_insert, Finset.mem_singleton, Prod.mk.injEq] at hq hq' he ⊢
      omega

/-! ### C85 -/

/-- C85 for square images of one plane: the table has one entry per pixel, stored column
after column.  (`_partial`: the claim is row-major for every size; see `to_double_wide`.) -/
theorem to_double_square_partial {im : Image} (hw : im.WF) (hs : im.Small) (hp : im.p = 1) (hsq : im.w = im.h) (img : List Byte) :
    ∃ out, im.toDouble img = some out ∧ (out.length : Int) = im.w * im.h ∧
      ∀ x y : Nat, (x : Int) < im.w → (y : Int) < im.h → out[y + x * im.w.toNat]? = im.get x y 0 := by
  obtain ⟨W, hW⟩ := Int.eq_ofNat_of_zero_le hw.w
  have hH : im.h = W := by rw [← hsq, hW]
  have hsm : (W * W : Int) ≤ 2147483647 := by
    unfold Image.Small at hs; rw [hW, hH, hp, mul_one] at hs; exact hs
  have hnn : (0 : Int) ≤ (W : Int) * W := by positivity
  have hsize : im.size = some ((W * W : Nat) : Int) := by
    unfold Image.size
    rw [hW, hH, int32_bind (by omega) (by omega), hp, mul_one, int32_eq (by omega) (by omega)]
    push_cast
    rfl
  have hget : ∀ x y : Nat, x < W → y < W → ∃ v, im.get x y 0 = some v := by
    intro x y hx hy
    exact Option.isSome_iff_exists.1 ((image_get_defined hw hs x y 0).2 ⟨by omega, by omega, by omega, by omega, by omega, by omega⟩)
  have hidx : ∀ x y : Nat, x < W → y < W → y + x * W < W * W := by
    intro x y hx hy
    calc y + x * W < W + x * W := by omega
      _ = (x + 1) * W := by ring
      _ ≤ W * W := Nat.mul_le_mul_right _ hx
  obtain ⟨out, e, hl, hout⟩ := loopN_inv (n := W) (s := img.take (W * W) ++ List.replicate (W * W - img.length) 0)
    (f := fun ligne img => loopN W (fun colonne img => do
      let v ← im.get ligne colonne 0
      setI img (colonne + ligne * (W : Int)) v) img)
    (fun i out => out.length = W * W ∧ ∀ x y : Nat, x < i → y < W → out[y + x * W]? = im.get x y 0)
    ⟨by simp; omega, by intros; omega⟩ (by
      rintro i hi out ⟨hl, hout⟩
      obtain ⟨out', e, hl', hout'⟩ := loopN_inv (n := W) (s := out)
        (f := fun colonne img => do
          let v ← im.get i colonne 0
          setI img (colonne + i * (W : Int)) v)
        (fun j out => out.length = W * W ∧ ∀ x y : Nat, y < W → (x < i ∨ x = i ∧ y < j) → out[y + x * W]? = im.get x y 0)
        ⟨hl, fun x y hy h => hout x y (by omega) hy⟩ (by
          rintro j hj out ⟨hl, hout⟩
          obtain ⟨v, hv⟩ := hget i j hi hj
          have hlt := hidx i j hi hj
          refine ⟨out.set (j + i * W) v, ?_, by simpa using hl, ?_⟩
          · rw [hv]
            simp only [Option.bind_eq_bind, Option.bind_some]
            rw [show (j : Int) + i * (W : Int) = ((j + i * W : Nat) : Int) by push_cast; rfl]
            unfold setI
            rw [if_pos ⟨by omega, by rw [hl]; exact_mod_cast hlt⟩, Int.toNat_natCast]
          · intro x y hy h
            rw [List.getElem?_set]
            by_cases he : x = i ∧ y = j
            · obtain ⟨rfl, rfl⟩ := he
              rw [if_pos rfl, if_pos (by rw [hl]; exact hlt), hv]
            · rw [if_neg, hout x y hy (by omega)]
              intro heq
              apply he
              have h1 : (j + i * W) % W = (y + x * W) % W := by rw [heq]
              rw [Nat.add_mul_mod_self_right, Nat.add_mul_mod_self_right, Nat.mod_eq_of_lt hj, Nat.mod_eq_of_lt hy] at h1
              subst h1
              exact ⟨(Nat.eq_of_mul_eq_mul_right (by omega) (by omega : i * W = x * W)).symm, rfl⟩)
      exact ⟨out', e, hl', fun x y hx hy => hout' x y hy (by omega)⟩)
  refine ⟨out, ?_, by rw [hl, hW, hH]; push_cast; rfl, ?_⟩
  · unfold Image.toDouble
    rw [hsize]
    simp only [Option.bind_eq_bind, Option.bind_some, Int.toNat_natCast]
    rw [hW, hH, Int.toNat_natCast]
    simp only [Option.bind_eq_bind] at e
    exact e
  · intro x y hx hy
    rw [hW, Int.toNat_natCast]
    exact hout x y (by omega) (by omega)

/-- C85, the negation: for every image of one plane that is wider than high the function
writes outside the table. -/
theorem to_double_wide {im : Image} (hw : im.WF) (hs : im.Small) (hp : im.p = 1) (hh : 0 < im.h) (hwide : im.h < im.w) (img : List Byte) :
    im.toDouble img = none := by
  obtain ⟨W, hW⟩ := Int.eq_ofNat_of_zero_le hw.w
  obtain ⟨H, hH⟩ := Int.eq_ofNat_of_zero_le hw.h
  have hsm : (H : Int) * W ≤ 2147483647 := by
    unfold Image.Small at hs; rw [hW, hH, hp, mul_one] at hs; linarith
  have hnn : (0 : Int) ≤ (H : Int) * W := by positivity
  have hsize : im.size = some ((H * W : Nat) : Int) := by
    unfold Image.size
    rw [hW, hH, int32_bind (by omega) (by omega), hp, mul_one, int32_eq (by omega) (by omega)]
    push_cast
    rfl
  unfold Image.toDouble
  rw [hsize]
  simp only [Option.bind_eq_bind, Option.bind_some, Int.toNat_natCast]
  rw [hW, hH, Int.toNat_natCast, Int.toNat_natCast]
  have hlen : (img.take (H * W) ++ List.replicate (H * W - img.length) 0 : List Byte).length = H * W := by simp; omega
  generalize (img.take (H * W) ++ List.replicate (H * W - img.length) 0 : List Byte) = t at hlen
  -- the last column writes outside
  obtain ⟨w, rfl⟩ : ∃ w, W = w + 1 := ⟨W - 1, by omega⟩
  obtain ⟨h, rfl⟩ : ∃ h, H = h + 1 := ⟨H - 1, by omega⟩
  rw [loopN_succ]
  have key : ∀ (i n : Nat) (t t' : List Byte), t.length = (h + 1) * (w + 1) →
      loopN n (fun colonne img => (im.get i colonne 0).bind fun v => setI img (colonne + i * ((w + 1 : Nat) : Int)) v) t = some t' →
      t'.length = (h + 1) * (w + 1) := by
    intro i n
    induction n with
    | zero =>
      intro t t' ht e
      rw [loopN_zero, Option.some.injEq] at e
      rw [← e, ht]
    | succ n ih =>
      intro t t' ht e
      rw [loopN_succ] at e
      obtain ⟨t1, e1, e2⟩ := Option.bind_eq_some_iff.1 e
      obtain ⟨v, -, e3⟩ := Option.bind_eq_some_iff.1 e2
      unfold setI at e3
      split at e3
      · rw [← Option.some.inj e3, List.length_set]
        exact ih t t1 ht e1
      · cases e3
  have key2 : ∀ (n : Nat) (t t' : List Byte), t.length = (h + 1) * (w + 1) →
      loopN n (fun ligne img => loopN (h + 1) (fun colonne img => (im.get ligne colonne 0).bind fun v =>
        setI img (colonne + ligne * ((w + 1 : Nat) : Int)) v) img) t = some t' → t'.length = (h + 1) * (w + 1) := by
    intro n
    induction n with
    | zero =>
      intro t t' ht e
      rw [loopN_zero, Option.some.injEq] at e
      rw [← e, ht]
    | succ n ih =>
      intro t t' ht e
      rw [loopN_succ] at e
      obtain ⟨t1, e1, e2⟩ := Option.bind_eq_some_iff.1 e
      exact key n _ _ _ (ih t t1 ht e1) e2
  cases e1 : loopN w (fun ligne img => loopN (h + 1) (fun colonne img => (im.get ligne colonne 0).bind fun v =>
        setI img (colonne + ligne * ((w + 1 : Nat) : Int)) v) img) t with
  | none => rfl
  | some t1 =>
    rw [Option.bind_some]
    have hl1 := key2 w t t1 hlen e1
    rw [loopN_succ]
    cases e2 : loopN h (fun colonne img => (im.get w colonne 0).bind fun v => setI img (colonne + w * ((w + 1 : Nat) : Int)) v) t1 with
    | none => rfl
    | some t2 =>
      rw [Option.bind_some]
      have hl2 := key w h t1 t2 hl1 e2
      cases im.get w h 0 with
      | none => rfl
      | some v =>
        rw [Option.bind_some]
        unfold setI
        rw [if_neg]
        rintro ⟨-, hlt⟩
        rw [hl2] at hlt
        have : h + w * (w + 1) < (h + 1) * (w + 1) := by exact_mod_cast hlt
        have hhw : h + 1 ≤ w := by omega
        nlinarith

example : (⟨2, 2, 1, [1, 2, 3, 4]⟩ : Image).toDouble [] = some [1, 3, 2, 4] := by decide +kernel
example : (⟨2, 1, 1, [1, 2]⟩ : Image).toDouble [] = none := by decide +kernel
/-- taller than wide: in bounds, but one entry is overwritten and one never written -/
theorem to_double_tall : (⟨2, 3, 1, [1, 2, 3, 4, 5, 6]⟩ : Image).toDouble [] = some [1, 3, 2, 4, 6, 0] := by decide +kernel

end CAD
