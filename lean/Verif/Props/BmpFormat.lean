import Verif.Props.Bmp

/-! C94: what another program sees in the BMP files that are written. -/

set_option linter.unusedSimpArgs false

namespace CAD
open Mesh Image Bmp

/-- the `short` at position `i` of a file -/
def shortAt (bytes : List Byte) (i : Nat) : Int := dec16 ((bytes.drop i).take 2)

/-- The colour (red, green, blue) of the pixel `x`, `y` (from the top) of an uncompressed BMP
file of 8, 24 or 32 bits per pixel, after the description of the format: the pixels begin at the
offset given at position 10, the rows follow each other from the bottom to the top, their length
is rounded up to 4 bytes, a pixel is blue, green, red; an 8-bit pixel is an index in the table of
blue, green, red, 0 which follows the info header. -/
def Bmp.colorAt (f : List Byte) (x y : Int) : Option (Byte × Byte × Byte) := do
  let bits := shortAt f 28
  let stride := (intAt f 18 * bits + 31) / 32 * 4
  let a := intAt f 10 + (intAt f 22 - 1 - y) * stride + x * (bits / 8)
  if bits = 8 then do
    let i ← getI f a
    let e : Int := 14 + intAt f 14 + 4 * i.toNat
    return (← getI f (e + 2), ← getI f (e + 1), ← getI f e)
  else return (← getI f (a + 2), ← getI f (a + 1), ← getI f a)

namespace Bmp

theorem down_split (d : List Byte) (L pw : Nat) (out : List Byte → List Byte) (H y : Nat) (hy : y < H) :
    ∃ l, down d L pw out H = l ++ (out (rowOf d L y) ++ List.replicate pw 0 ++ down d L pw out y) ∧
      (d.length = H * L → (∀ a, (out a).length = a.length) → l.length = (H - 1 - y) * (L + pw)) := by
  induction H with
  | zero => omega
  | succ H ih =>
    rcases Nat.lt_or_ge y H with h | h
    · obtain ⟨l, e, -⟩ := ih h
      refine ⟨out (rowOf d L H) ++ List.replicate pw 0 ++ l, by rw [down, e]; simp only [List.append_assoc], ?_⟩
      intro hd ho
      have h1 := congrArg List.length e
      have h2 := length_down (pw := pw) hd ho H (by omega)
      have h3 := length_down (pw := pw) hd ho y (by omega)
      rw [h2, List.length_append, List.length_append, List.length_append, ho, length_rowOf hd (by omega), List.length_replicate, h3] at h1
      rw [List.length_append, List.length_append, ho, length_rowOf hd (by omega), List.length_replicate]
      obtain ⟨k, rfl⟩ : ∃ k, H = y + 1 + k := ⟨H - y - 1, by omega⟩
      rw [show y + 1 + k + 1 - 1 - y = k + 1 by omega]
      have : l.length = (L + pw) * k := by
        have : (L + pw) * (y + 1 + k) = (L + pw) * y + (L + pw) + (L + pw) * k := by ring
        omega
      rw [this]; ring
    · obtain rfl : y = H := by omega
      refine ⟨[], by rw [down, List.nil_append], ?_⟩
      intro _ _
      simp

/-- a byte of a row in the file -/
theorem getElem?_down {d : List Byte} {L pw H y i : Nat} {out : List Byte → List Byte} (hd : d.length = H * L)
    (ho : ∀ a, (out a).length = a.length) (hy : y < H) (hi : i < L) (pre : List Byte) :
    (pre ++ down d L pw out H)[pre.length + (H - 1 - y) * (L + pw) + i]? = (out (rowOf d L y))[i]? := by
  obtain ⟨l, e, hl⟩ := down_split d L pw out H y hy
  have hl := hl hd ho
  rw [e, ← List.append_assoc, List.getElem?_append_right (by rw [List.length_append, hl]; omega), List.length_append, hl,
    show pre.length + (H - 1 - y) * (L + pw) + i - (pre.length + (H - 1 - y) * (L + pw)) = i by omega, List.append_assoc,
    List.getElem?_append_left (by rw [ho, length_rowOf hd hy]; exact hi)]

theorem out3_get : ∀ (n : Nat) (a : List Byte), a.length = n * 3 → ∀ x < n,
    (out3 a)[x * 3]? = a[x * 3 + 2]? ∧ (out3 a)[x * 3 + 1]? = a[x * 3 + 1]? ∧ (out3 a)[x * 3 + 2]? = a[x * 3]?
  | 0, _, _, x, hx => by omega
  | n + 1, r :: g :: b :: l, h, x, hx => by
    simp only [out3]
    match x with
    | 0 => exact ⟨rfl, rfl, rfl⟩
    | x + 1 =>
      have := out3_get n l (by simp only [List.length_cons] at h; omega) x (by omega)
      simpa [show (x + 1) * 3 = x * 3 + 1 + 1 + 1 by ring, show x * 3 + 1 + 1 + 1 + 2 = x * 3 + 2 + 1 + 1 + 1 by ring] using this
  | n + 1, [], h, x, hx => by simp at h
  | n + 1, [_], h, x, hx => by simp only [List.length_cons, List.length_nil] at h; omega
  | n + 1, [_, _], h, x, hx => by simp only [List.length_cons, List.length_nil] at h; omega

theorem out4_get : ∀ (n : Nat) (a : List Byte), a.length = n * 4 → ∀ x < n,
    (out4 a)[x * 4]? = a[x * 4 + 2]? ∧ (out4 a)[x * 4 + 1]? = a[x * 4 + 1]? ∧ (out4 a)[x * 4 + 2]? = a[x * 4]?
  | 0, _, _, x, hx => by omega
  | n + 1, r :: g :: b :: q :: l, h, x, hx => by
    simp only [out4]
    match x with
    | 0 => exact ⟨rfl, rfl, rfl⟩
    | x + 1 =>
      have := out4_get n l (by simp only [List.length_cons] at h; omega) x (by omega)
      simpa [show (x + 1) * 4 = x * 4 + 1 + 1 + 1 + 1 by ring, show x * 4 + 1 + 1 + 1 + 1 + 2 = x * 4 + 2 + 1 + 1 + 1 + 1 by ring] using this
  | n + 1, [], h, x, hx => by simp at h
  | n + 1, [_], h, x, hx => by simp only [List.length_cons, List.length_nil] at h; omega
  | n + 1, [_, _], h, x, hx => by simp only [List.length_cons, List.length_nil] at h; omega
  | n + 1, [_, _, _], h, x, hx => by simp only [List.length_cons, List.length_nil] at h; omega

theorem palette_get : ∀ i : Fin 256, palette[4 * i.1]? = some (UInt8.ofNat i) ∧ palette[4 * i.1 + 1]? = some (UInt8.ofNat i) ∧
    palette[4 * i.1 + 2]? = some (UInt8.ofNat i) := by decide +kernel

theorem shortAt_append (pre mid post : List Byte) (h : mid.length = 2) :
    shortAt (pre ++ (mid ++ post)) pre.length = dec16 mid := by
  unfold shortAt
  rw [List.drop_left, ← h, List.take_left]

theorem header_shorts (w h p a b c : Int) (x : List Byte) :
    shortAt (header w h p a b c ++ x) 0 = dec16 (le16 0x4D42) ∧ intAt (header w h p a b c ++ x) 14 = dec32 (le32 40) ∧
    shortAt (header w h p a b c ++ x) 26 = dec16 (le16 1) ∧
    shortAt (header w h p a b c ++ x) 28 = dec16 (le16 (if p = 4 then 32 else if p = 1 then 8 else 24)) ∧
    intAt (header w h p a b c ++ x) 30 = dec32 (le32 0) := by
  unfold header
  refine ⟨?_, ?_, ?_, ?_, ?_⟩
  · have := shortAt_append [] (le16 0x4D42) (le32 a ++ le16 0 ++ le16 0 ++ le32 b ++ le32 40 ++ le32 w ++ le32 h ++ le16 1 ++
      le16 (if p = 4 then 32 else if p = 1 then 8 else 24) ++
      le32 0 ++ le32 c ++ le32 0xb12 ++ le32 0xb12 ++ le32 0 ++ le32 0 ++ x) (length_le16 _)
    simpa only [List.nil_append, List.append_assoc, List.length_nil] using this
  · have := intAt_append (le16 0x4D42 ++ le32 a ++ le16 0 ++ le16 0 ++ le32 b) (le32 40) (le32 w ++ le32 h ++ le16 1 ++
      le16 (if p = 4 then 32 else if p = 1 then 8 else 24) ++
      le32 0 ++ le32 c ++ le32 0xb12 ++ le32 0xb12 ++ le32 0 ++ le32 0 ++ x) (length_le32 _)
    simpa only [List.append_assoc, List.length_append, length_le16, length_le32] using this
  · have := shortAt_append (le16 0x4D42 ++ le32 a ++ le16 0 ++ le16 0 ++ le32 b ++ le32 40 ++ le32 w ++ le32 h) (le16 1) (
      le16 (if p = 4 then 32 else if p = 1 then 8 else 24) ++
      le32 0 ++ le32 c ++ le32 0xb12 ++ le32 0xb12 ++ le32 0 ++ le32 0 ++ x) (length_le16 _)
    simpa only [List.append_assoc, List.length_append, length_le16, length_le32] using this
  · have := shortAt_append (le16 0x4D42 ++ le32 a ++ le16 0 ++ le16 0 ++ le32 b ++ le32 40 ++ le32 w ++ le32 h ++ le16 1)
      (le16 (if p = 4 then 32 else if p = 1 then 8 else 24))
      (le32 0 ++ le32 c ++ le32 0xb12 ++ le32 0xb12 ++ le32 0 ++ le32 0 ++ x) (length_le16 _)
    simpa only [List.append_assoc, List.length_append, length_le16, length_le32] using this
  · have := intAt_append (le16 0x4D42 ++ le32 a ++ le16 0 ++ le16 0 ++ le32 b ++ le32 40 ++ le32 w ++ le32 h ++ le16 1 ++
      le16 (if p = 4 then 32 else if p = 1 then 8 else 24)) (le32 0)
      (le32 c ++ le32 0xb12 ++ le32 0xb12 ++ le32 0 ++ le32 0 ++ x) (length_le32 _)
    simpa only [List.append_assoc, List.length_append, length_le16, length_le32] using this

end Bmp

set_option maxHeartbeats 1000000 in
/-- C94.  A written file is a BMP file of one plane without compression, and a reader that follows
the format sees every pixel with the colour it has in the image; a picture of one plane is seen
as a grey picture. -/
theorem bmp_format {im : Image} (hw : im.WF) (hf : Fits im) (hr : 0 < im.w ∨ im.h = 0) (hp : im.p = 1 ∨ im.p = 3 ∨ im.p = 4) :
    ∃ f, Bmp.write im = some f ∧ f[0]? = some 'B'.toUInt8 ∧ f[1]? = some 'M'.toUInt8 ∧ intAt f 14 = 40 ∧
      intAt f 18 = im.w ∧ intAt f 22 = im.h ∧ shortAt f 26 = 1 ∧ shortAt f 28 = 8 * im.p ∧ intAt f 30 = 0 ∧
      ∀ x y, 0 ≤ x → x < im.w → 0 ≤ y → y < im.h →
        Bmp.colorAt f x y = if im.p = 1 then do let g ← im.get x y 0; return (g, g, g)
          else do return (← im.get x y 0, ← im.get x y 1, ← im.get x y 2) := by
  have hpos : 0 < im.p := by omega
  have s := sized_of hw (hf.small hw) hr hpos
  obtain ⟨W, hW⟩ := Int.eq_ofNat_of_zero_le hw.w
  obtain ⟨H, hH⟩ := Int.eq_ofNat_of_zero_le hw.h
  obtain ⟨P, hP⟩ := Int.eq_ofNat_of_zero_le hw.p
  rw [hW, hH, hP, Int.toNat_natCast, Int.toNat_natCast, Int.toNat_natCast] at s
  have hP3 : P = 1 ∨ P = 3 ∨ P = 4 := by omega
  have e := write_eq s hf hP3
  have hb := fits_bounds s.planes (W := W) (H := H) (by unfold Fits at hf; rw [hW, hH, hP] at hf; exact hf)
  set A : Int := 54 + (if P = 1 then 1024 else 0) + (((W * P + padOf (W * P)) * H : Nat) : Int)
  set B : Int := 54 + if P = 1 then 1024 else 0 with hB
  set C : Int := (((W * P + padOf (W * P)) * H : Nat) : Int)
  set tail := (if P = 1 then palette else []) ++ down im.data (W * P) (padOf (W * P)) (outOf P) H with htail
  clear_value A B C tail
  obtain ⟨-, f2, f3, f4, -⟩ := header_fields W H P A B C tail
  obtain ⟨-, g2, g3, g4, g5⟩ := header_shorts W H P A B C tail
  have hB' : B = 54 ∨ B = 1078 := by rw [hB]; split <;> simp
  rw [dec32_le32 (by omega) (by omega)] at f2 f3 f4 g2 g5
  have hbits : (if (P : Int) = 4 then 32 else if (P : Int) = 1 then 8 else 24 : Int) = 8 * P := by
    rcases hP3 with rfl | rfl | rfl <;> norm_num
  rw [hbits, dec16_le16 (by omega) (by omega)] at g4
  rw [dec16_le16 (by omega) (by omega)] at g3
  refine ⟨_, e, by simp [header, le16, leBytes]; rfl, by simp [header, le16, leBytes]; rfl, g2, by rw [f3, hW], by rw [f4, hH], g3, by rw [g4, hP], g5, ?_⟩
  intro x y x0 x1 y0 y1
  obtain ⟨x, rfl⟩ := Int.eq_ofNat_of_zero_le x0
  obtain ⟨y, rfl⟩ := Int.eq_ofNat_of_zero_le y0
  have hx : x < W := by omega
  have hy : y < H := by omega
  have hstride : ((W : Int) * (8 * P) + 31) / 32 * 4 = ((W * P + padOf (W * P) : Nat) : Int) := by
    unfold padOf
    rw [show (W : Int) * (8 * P) = 8 * ((W * P : Nat) : Int) by push_cast; ring]
    generalize W * P = L
    omega
  have hpre : ((header W H P A B C ++ if P = 1 then palette else []).length : Int) = B := by
    rw [List.length_append, length_header, hB]
    split
    · rw [length_palette]; norm_num
    · norm_num
  have key : ∀ c < P, getI (header W H P A B C ++ tail) (B + (H - 1 - y) * ((W * P + padOf (W * P) : Nat) : Int) + x * P + c) =
      (outOf P (rowOf im.data (W * P) y))[x * P + c]? := by
    intro c hc
    have hi : x * P + c < W * P := by
      have : (x + 1) * P ≤ W * P := Nat.mul_le_mul_right _ hx
      rw [Nat.add_mul, one_mul] at this
      omega
    have := getElem?_down (pw := padOf (W * P)) s.len (length_outOf P) hy hi (header W H P A B C ++ if P = 1 then palette else [])
    have ei : B + ((H : Int) - 1 - y) * ((W * P + padOf (W * P) : Nat) : Int) + x * P + c =
        (((header W H P A B C ++ if P = 1 then palette else []).length + (H - 1 - y) * (W * P + padOf (W * P)) + (x * P + c) : Nat) : Int) := by
      generalize (header W H P A B C ++ if P = 1 then palette else []).length = l at hpre
      rw [← hpre]
      push_cast
      rw [show ((H - 1 - y : Nat) : Int) = (H : Int) - 1 - y by omega]
      ring
    rw [← this, htail, ← List.append_assoc, ei, getI_natCast]
  have hrow := length_rowOf s.len hy
  have hget : ∀ c < P, im.get x y c = (rowOf im.data (W * P) y)[x * P + c]? := by
    intro c hc
    have hi : x * P + c < W * P := by
      have : (x + 1) * P ≤ W * P := Nat.mul_le_mul_right _ hx
      rw [Nat.add_mul, one_mul] at this
      omega
    rw [get_nat s hx hy hc, getElem?_rowOf _ hi]
  unfold Bmp.colorAt
  simp only [f2, f3, f4, g2, g4, hstride, hP]
  rw [show (8 * (P : Int)) / 8 = P by omega]
  rcases hP3 with rfl | rfl | rfl
  · rw [if_pos (by norm_num), if_pos (by norm_num)]
    have k0 := key 0 (by norm_num)
    have e0 := hget 0 (by norm_num)
    simp only [Nat.cast_zero, add_zero] at k0 e0
    have e0 : im.get x y 0 = _ := e0
    rw [k0, e0, show outOf 1 = id from rfl, id]
    cases hr : (rowOf im.data (W * 1) y)[x * 1]? with
    | none => rfl
    | some g =>
      simp only [Option.bind_eq_bind, Option.bind_some]
      obtain ⟨p0, p1, p2⟩ := palette_get ⟨g.toNat, g.toNat_lt⟩
      have hg : UInt8.ofNat g.toNat = g := UInt8.ofNat_toNat
      simp only [hg] at p0 p1 p2
      have pk : ∀ j : Nat, 4 * g.toNat + j < 1024 → getI (header W H (1 : Nat) A B C ++ tail) (14 + 40 + 4 * (g.toNat : Int) + j) =
          palette[4 * g.toNat + j]? := by
        intro j hj
        rw [show (14 + 40 + 4 * (g.toNat : Int) + j) = ((54 + (4 * g.toNat + j) : Nat) : Int) by push_cast; ring, getI_natCast,
          List.getElem?_append_right (by rw [length_header]; omega), length_header, htail, if_pos rfl,
          List.getElem?_append_left (by rw [length_palette]; omega),
          show 54 + (4 * g.toNat + j) - 54 = 4 * g.toNat + j by omega]
      have hlt := g.toNat_lt
      generalize header W H (1 : Nat) A B C ++ tail = file at pk
      have q0 := pk 0 (by omega)
      have q1 := pk 1 (by omega)
      have q2 := pk 2 (by omega)
      simp only [Nat.cast_zero, add_zero, Nat.cast_one, Nat.cast_ofNat] at q0 q1 q2
      rw [q0, q1, q2, p0, p1, p2]
      rfl
  · rw [if_neg (by norm_num), if_neg (by norm_num)]
    have k0 := key 0 (by norm_num)
    have k1 := key 1 (by norm_num)
    have k2 := key 2 (by norm_num)
    have e0 := hget 0 (by norm_num)
    have e1 := hget 1 (by norm_num)
    have e2 := hget 2 (by norm_num)
    obtain ⟨o0, o1, o2⟩ := out3_get W _ hrow x hx
    rw [show outOf 3 = out3 by unfold outOf; norm_num] at k0 k1 k2
    simp only [Nat.cast_zero, add_zero, Nat.cast_one, Nat.cast_ofNat] at k0 k1 k2 e0 e1 e2 o0 o1 o2
    simp only [Nat.cast_ofNat]
    rw [k0, k1, k2, e0, e1, e2, o0, o1, o2]
  · rw [if_neg (by norm_num), if_neg (by norm_num)]
    have k0 := key 0 (by norm_num)
    have k1 := key 1 (by norm_num)
    have k2 := key 2 (by norm_num)
    have e0 := hget 0 (by norm_num)
    have e1 := hget 1 (by norm_num)
    have e2 := hget 2 (by norm_num)
    obtain ⟨o0, o1, o2⟩ := out4_get W _ hrow x hx
    rw [show outOf 4 = out4 by unfold outOf; norm_num] at k0 k1 k2
    simp only [Nat.cast_zero, add_zero, Nat.cast_one, Nat.cast_ofNat] at k0 k1 k2 e0 e1 e2 o0 o1 o2
    simp only [Nat.cast_ofNat]
    rw [k0, k1, k2, e0, e1, e2, o0, o1, o2]

/-- the picture of 3 × 2 pixels of `sample32` -/
example : sample32.WF ∧ Fits sample32 ∧ (0 < sample32.w ∨ sample32.h = 0) ∧ sample32.p = 4 ∧
    ((Bmp.write sample32).bind fun f => Bmp.colorAt f 2 1) = some (21, 22, 23) := by
  refine ⟨⟨by decide, by decide, by decide, by decide⟩, by unfold Fits; decide, Or.inl (by decide), rfl, ?_⟩
  decide +kernel

/-- a grey picture of 3 × 2 pixels -/
example : ((Bmp.write ⟨3, 2, 1, [1, 2, 3, 4, 200, 6]⟩).bind fun f => Bmp.colorAt f 1 1) = some (200, 200, 200) := by
  decide +kernel

end CAD
