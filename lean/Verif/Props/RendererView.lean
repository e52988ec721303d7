import Verif.Props.RendererLight
import Verif.Props.Float32

/-! The renderer: new buffers, projection, and where the properties C68 – C70 and C87 – C89
fail. -/

namespace CAD.Render
set_option linter.unusedSimpArgs false
set_option linter.unusedSectionVars false
variable {K : Type} [Field K] [LinearOrder K] [IsStrictOrderedRing K] [FloorRing K]

/-! ### New buffers -/

theorem clear_eq {fb : Fb K} {W H : Int} (h : fb.OK W H) (hW : 0 ≤ W) (hH : 0 ≤ H) (bg : Int) :
    fb.clear bg = some ⟨W, H, List.replicate (W * H).toNat bg, List.replicate (W * H).toNat 0⟩ := by
  have hWH : 0 ≤ W * H := mul_nonneg hW hH
  let I (n : Int) (f : Fb K) : Prop := f.OK W H ∧ ∀ t : Nat, (t : Int) < n → f.pix[t]? = some bg ∧ f.dep[t]? = some 0
  have hrow : ∀ j : Nat, (j : Int) < H → ∀ f : Fb K, I (j * W) f → ∃ f', loopN fb.W.toNat (fun i (f : Fb K) => do
      let p ← setI f.pix (j * fb.W + i) bg
      let d ← setI f.dep (j * fb.W + i) 0
      return ⟨f.W, f.H, p, d⟩) f = some f' ∧ I (j * W + W) f' := by
    intro j hj f hf
    have := loopN_inv (n := fb.W.toNat) (s := f) (f := fun i (f : Fb K) => do
      let p ← setI f.pix (j * fb.W + i) bg
      let d ← setI f.dep (j * fb.W + i) 0
      return ⟨f.W, f.H, p, d⟩) (fun i f => I (j * W + i) f) (by simpa using hf) (by
        intro i hi f hf
        obtain ⟨ho, hv⟩ := hf
        rw [h.w] at hi ⊢
        have hd := ho.dep
        have hp := ho.pix
        obtain ⟨i1, i2⟩ := index_lt (W := W) (H := H) (x := i) (y := j) ⟨by omega, by omega, by omega, hj⟩
        unfold setI
        rw [if_pos ⟨i1, by omega⟩, if_pos ⟨i1, by omega⟩]
        refine ⟨_, rfl, ⟨ho.w, ho.h, by simpa using hp, by simpa using hd⟩, fun t ht => ?_⟩
        push_cast at ht
        by_cases he : t = ((j : Int) * W + i).toNat
        · subst he
          exact ⟨List.getElem?_set_self (by omega), List.getElem?_set_self (by omega)⟩
        · simp only
          rw [List.getElem?_set_ne (Ne.symm he), List.getElem?_set_ne (Ne.symm he)]
          exact hv t (by omega))
    obtain ⟨f', e, k⟩ := this
    refine ⟨f', e, ?_⟩
    rw [h.w] at k
    have : ((W.toNat : Nat) : Int) = W := by omega
    rw [this] at k
    exact k
  obtain ⟨f', e, ho, hv⟩ := loopN_inv (n := fb.H.toNat) (s := fb) (f := fun j f => loopN fb.W.toNat (fun i (f : Fb K) => do
      let p ← setI f.pix (j * fb.W + i) bg
      let d ← setI f.dep (j * fb.W + i) 0
      return ⟨f.W, f.H, p, d⟩) f) (fun j f => I (j * W) f) ⟨h, fun t ht => by push_cast at ht; omega⟩ (by
        intro j hj f hf
        rw [h.h] at hj
        obtain ⟨f', e, k⟩ := hrow j (by omega) f hf
        refine ⟨f', e, ?_⟩
        push_cast
        have : ((j : Int) + 1) * W = j * W + W := by ring
        rw [this]
        exact k)
  have hn : ((fb.H.toNat : Nat) : Int) = H := by rw [h.h]; omega
  rw [hn] at hv
  have hd := ho.dep
  have hp := ho.pix
  unfold Fb.clear
  rw [e]
  congr 1
  obtain ⟨W', H', pix, dep⟩ := f'
  obtain ⟨rfl, rfl, -, -⟩ := ho
  simp only at hd hp hv ⊢
  have e1 : pix = List.replicate (W' * H').toNat bg := by
    apply List.ext_getElem?
    intro i
    by_cases hi : i < (W' * H').toNat
    · rw [(hv i (by have := mul_comm W' H'; omega)).1, List.getElem?_replicate_of_lt hi]
    · rw [List.getElem?_eq_none (by omega), List.getElem?_eq_none (by simp; omega)]
  have e2 : dep = List.replicate (W' * H').toNat 0 := by
    apply List.ext_getElem?
    intro i
    by_cases hi : i < (W' * H').toNat
    · rw [(hv i (by have := mul_comm W' H'; omega)).2, List.getElem?_replicate_of_lt hi]
    · rw [List.getElem?_eq_none (by omega), List.getElem?_eq_none (by simp; omega)]
  rw [e1, e2]

/-- **C68** (constructor): with a pixel buffer of the right size the constructor makes cleared
buffers. -/
theorem new_ok {pix : List Int} {W H : Int} (hW : 0 ≤ W) (hH : 0 ≤ H) (hp : (pix.length : Int) = W * H) (hs : W * H ≤ 2147483647) :
    ∃ fb : Fb K, Fb.new pix W H = some fb ∧ fb.OK W H ∧ ∀ x y, OnScreen W H x y → fb.cell x y = some (0, 0) := by
  have hWH : 0 ≤ W * H := mul_nonneg hW hH
  refine ⟨⟨W, H, List.replicate (W * H).toNat 0, List.replicate (W * H).toNat 0⟩, ?_, ⟨rfl, rfl, by simp; omega, by simp; omega⟩, fun x y h => ?_⟩
  · unfold Fb.new
    rw [int32_bind (by omega) (by omega), assert_true hWH]
    exact clear_eq ⟨rfl, rfl, hp, by simp; omega⟩ hW hH 0
  · obtain ⟨i1, i2⟩ := index_lt h
    unfold Fb.cell
    simp only
    rw [if_pos h, List.getElem?_replicate_of_lt (by omega), List.getElem?_replicate_of_lt (by omega)]

/-! ### Projection -/

/-- **C87**: right of the column -1/2 and below the row -1/2 a point goes to the nearest pixel
and gets the depth `1/z`. -/
theorem project_nearest_partial {c : Camera K} {p : P3 K} (h : InView c p)
    (hx : -1 / 2 ≤ (c.localRef p).x * c.zoom / (c.localRef p).z + c.cx) (hy : -1 / 2 ≤ (c.localRef p).y * c.zoom / (c.localRef p).z + c.cy) :
    ∃ v, c.project p = some v ∧ |(v.x : K) - ((c.localRef p).x * c.zoom / (c.localRef p).z + c.cx)| ≤ 1 / 2 ∧
      |(v.y : K) - ((c.localRef p).y * c.zoom / (c.localRef p).z + c.cy)| ≤ 1 / 2 ∧ v.w = 1 / (c.localRef p).z := by
  obtain ⟨v, hv, -, vx, vy, vw⟩ := project_eq h
  have near : ∀ {s : K}, -1 / 2 ≤ s → |((trunc (s + 1 / 2) : Int) : K) - s| ≤ 1 / 2 := by
    intro s hs
    unfold trunc
    rw [if_pos (by linarith)]
    have h1 := Int.floor_le (s + 1 / 2)
    have h2 := Int.lt_floor_add_one (s + 1 / 2)
    rw [abs_le]
    constructor <;> linarith
  refine ⟨v, hv, ?_, ?_, vw⟩
  · rw [vx]; exact near hx
  · rw [vy]; exact near hy

/-- **C87** fails left of the screen: a point up to 3/2 pixels left of the first column is
projected into it. -/
theorem project_left_fails {c : Camera K} {p : P3 K} (h : InView c p)
    (hx : -3 / 2 < (c.localRef p).x * c.zoom / (c.localRef p).z + c.cx ∧ (c.localRef p).x * c.zoom / (c.localRef p).z + c.cx < -1 / 2) :
    ∃ v, c.project p = some v ∧ v.x = 0 := by
  obtain ⟨v, hv, -, vx, -, -⟩ := project_eq h
  refine ⟨v, hv, ?_⟩
  rw [vx]
  unfold trunc
  rw [if_neg (by linarith), Int.ceil_eq_iff]
  push_cast
  constructor <;> linarith

/-- **C68** needs points off the plane of the eye: there the projection is undefined. -/
theorem project_eye_plane {c : Camera K} {p : P3 K} (h : (c.localRef p).z = 0) : c.project p = none := by
  unfold Camera.project CAD.assert
  simp [h]

/-- **C68** needs projections within the range of `int`: otherwise the conversion is
undefined. -/
theorem project_overflow {c : Camera K} {p : P3 K} (h : (2147483648 : K) ≤ (c.localRef p).x * c.zoom / (c.localRef p).z + c.cx) : c.project p = none := by
  unfold Camera.project
  simp only [bind]
  have : toInt ((c.localRef p).x * c.zoom / (c.localRef p).z + c.cx + 1 / 2) = none := by
    have h1 := trunc_mono (show ((2147483648 : Int) : K) ≤ (c.localRef p).x * c.zoom / (c.localRef p).z + c.cx + 1 / 2 by push_cast; linarith)
    rw [trunc_intCast] at h1
    unfold toInt
    cases hx : int32 (trunc ((c.localRef p).x * c.zoom / (c.localRef p).z + c.cx + 1 / 2)) with
    | none => rfl
    | some j =>
      have := int32_some hx
      omega
  rw [this]
  cases CAD.assert ((c.localRef p).z ≠ 0) <;> rfl

/-! ### Clipping at the left border -/

/-- **C70** fails at the left border: when the ends have different depths, and the border is not
exactly in the middle, the first column gets a wrong depth. -/
theorem hline_left_fails {W H ax bx y : Int} {aw bw : K} (color : Int) (hW : 0 < W) (h0 : ax < 0) (hb : 0 < bx)
    (hy : 0 ≤ y ∧ y < H) (ha : -536870912 ≤ ax) (hb' : bx ≤ 536870912) (hw : aw ≠ bw) (hm : ax + bx ≠ 0) :
    ∃ fs : List (Frag K), (∀ fb : Fb K, fb.OK W H → hline id ax aw bx bw y color fb = some (fb.puts fs)) ∧
      ∃ f ∈ fs, f.x = 0 ∧ f.w ≠ spanW ax aw bx bw 0 := by
  obtain ⟨fs, f1, -, f3, -, f5⟩ := hline_depth_partial (H := H) (y := y) id aw bw color hW (by omega : ax ≤ bx) ha hb'
  obtain ⟨f, hf, fx⟩ := (f3 0).2 ⟨⟨le_rfl, hW, hy.1, hy.2⟩, by omega, by omega⟩
  refine ⟨fs, f1, f, hf, fx, ?_⟩
  rw [f5 h0 f hf, fx]
  have hd : ((bx : K) - ax) ≠ 0 := by
    have : ((bx - ax : Int) : K) ≠ 0 := by exact_mod_cast (by omega : bx - ax ≠ 0)
    push_cast at this
    exact this
  have hd2 : (bx : K) ≠ 0 := by exact_mod_cast (by omega : bx ≠ 0)
  have hm' : (ax : K) + bx ≠ 0 := by exact_mod_cast hm
  unfold spanW
  rw [if_neg (by omega), if_neg (by omega)]
  push_cast
  simp only [sub_zero, zero_div, mul_zero, zero_add, one_mul, id]
  intro hcon
  have : (bw - aw) * ((ax : K) + bx) = 0 := by
    field_simp at hcon
    linear_combination hcon
  rcases mul_eq_zero.1 this with h | h
  · exact hw (by linear_combination -h)
  · exact hm' h

/-! ### Concrete pictures -/

/-- a camera in the origin: `(x, y, z)` goes to `(x/z, y/z)` -/
def cam0 : Camera ℚ := ⟨0, 0, 0, 0, 1, 0, 0, id⟩

def scene0 : Scene ℚ := ⟨cam0, [.ambient 1 1 1], fun _ => none, id⟩

/-- a cleared screen of 4 × 3 pixels -/
def screen0 : Fb ℚ := ⟨4, 3, List.replicate 12 0, List.replicate 12 0⟩

theorem screen0_ok : screen0.OK 4 3 := ⟨rfl, rfl, rfl, rfl⟩

/-- a triangle that covers the screen and goes far beyond it on all sides -/
def wide : Tri3 ℚ := ⟨⟨-10, -10, 1⟩, ⟨-10, 40, 1⟩, ⟨40, -10, 1⟩⟩

example : Drawable scene0 0x102030 wide := by
  refine ⟨⟨?_, ?_, ?_⟩, ⟨?_, ?_, ?_⟩, ⟨?_, ?_, ?_⟩, 0x102030, ?_⟩ <;> decide +kernel

/-- **C88** is not vacuous: the triangle that covers the screen paints everything but the last
row. -/
example : (drawTriangle scene0 wide 0x102030 true screen0).map (fun r => r.2.pix) =
    some [0x102030, 0x102030, 0x102030, 0x102030, 0x102030, 0x102030, 0x102030, 0x102030, 0, 0, 0, 0] := by decide +kernel

/-- **C70** is not vacuous: a line that starts on the screen, cut at the right border -/
example : (hline id 1 1 5 5 0 7 screen0).map (fun f => f.dep.take 4) = some [0, 1, 2, 3] := by decide +kernel

/-- **C70**, the wrong depths of a line cut at the left border: 3, 4, 5, 6 would be right -/
example : (hline id (-3) 0 6 9 0 7 screen0).map (fun f => f.dep.take 4) = some [6, 13 / 2, 7, 15 / 2] ∧
    (List.range 4).map (fun x => spanW (-3) (0 : ℚ) 6 9 x) = [3, 4, 5, 6] := by decide +kernel

/-- a wall, nearer than the line drawn after it -/
def wall : Fb ℚ := ⟨2, 1, [5, 5], [1 + 1 / 200000, 1 + 1 / 200000]⟩

/-- **C69** fails for lines: a line overwrites a surface that is nearer by less than 1e-5, and
the depth buffer goes back. -/
theorem line_overwrites_nearer : drawLine scene0 ⟨0, 0, 1⟩ ⟨2, 0, 1⟩ 9 wall = some ⟨2, 1, [9, 9], [1, 1]⟩ := by decide +kernel

/-- **C89** fails for lines: a line far behind the eye is drawn. -/
theorem line_behind_drawn : (drawLine scene0 ⟨0, 0, -200000⟩ ⟨-400000, 0, -200000⟩ 9 ⟨2, 1, [0, 0], [0, 0]⟩).map (fun f => f.pix) = some [9, 9] := by
  decide +kernel

/-- **C89** fails for triangles that are partly behind the eye: both corners in front are left
of the screen, the corner behind is mirrored to its right, and the screen between gets painted. -/
theorem mirrored_corner : (drawTriangle scene0 ⟨⟨-2, -2, 1⟩, ⟨-8, 12, 2⟩, ⟨-4, 2, -1⟩⟩ 0x102030 true screen0).map (fun r => r.2.pix.take 4) ≠
    some [0, 0, 0, 0] := by decide +kernel

/-- **C69** fails for equal depths: the colour of the first triangle stays. -/
theorem ties_keep_first :
    ((drawTriangle scene0 wide 1 true screen0).bind fun r => drawTriangle scene0 wide 2 true r.2) ≠
    ((drawTriangle scene0 wide 2 true screen0).bind fun r => drawTriangle scene0 wide 1 true r.2) := by decide +kernel

/-- a screen without columns: the assertions of `draw_horizontal_line` fail -/
theorem no_columns_asserts : hline (K := ℚ) id (-1) 1 1 1 0 7 ⟨0, 3, [], []⟩ = none := by decide +kernel

/-- a screen without rows: an assertion of `draw_trapeze` fails -/
theorem no_rows_asserts : trapeze (K := ℚ) id ⟨0, 1, 2, 1, -2, 0, 1, 2, 1, 2⟩ 7 ⟨3, 0, [], []⟩ = none := by decide +kernel

/-! ### Depths as floats -/

/-- `(double)(float)w` -/
def f32 (w : ℚ) : ℚ := F32.dec (F32.enc w)

/-- the conversion to `float` keeps signs, as `behind_kept_partial` asks -/
theorem f32_sign {w : ℚ} (h : w ≤ 0) : f32 w ≤ 0 := by
  unfold f32 F32.dec
  rcases eq_or_lt_of_le h with rfl | h
  · rw [F32.val_zero]; rfl
  · by_cases hb : F32.magBits |w| < F32.infBits
    · rw [F32.val_enc h.ne hb, if_pos h, Option.getD_some, F32.magVal_magBits (abs_pos.2 h.ne)]
      have := F32.two_zpow_pos (F32.expo |w| - 23)
      have : (0 : ℚ) ≤ F32.rne (|w| * 2 ^ (23 - F32.expo |w|)) := by positivity
      rw [neg_nonpos]
      positivity
    · have hn : F32.val (F32.enc w) = none := by
        unfold F32.val
        simp only [F32.leNat_enc, if_neg h.ne, min_eq_left (not_lt.1 hb)]
        rw [if_pos (c := w < 0 ∧ F32.infBits ≠ 0) ⟨h, by decide⟩, if_neg (by decide)]
      rw [hn]
      rfl

theorem f32_near_one : f32 (1 + 1 / 2 ^ 25) = 1 := by
  have hpos : (0 : ℚ) < 1 + 1 / 2 ^ 25 := by positivity
  have he : F32.expo (1 + 1 / 2 ^ 25) = 0 := F32.expo_eq (by norm_num) (by norm_num) (by norm_num)
  have hlt : F32.magBits |1 + 1 / 2 ^ 25| < F32.infBits := by
    rw [abs_of_pos hpos]
    exact F32.magBits_lt hpos (by norm_num)
  unfold f32 F32.dec
  rw [F32.val_enc hpos.ne' hlt, if_neg (not_lt.2 hpos.le), Option.getD_some, abs_of_pos hpos, F32.magVal_magBits hpos, he]
  have hr : F32.rne ((1 + 1 / 2 ^ 25) * 2 ^ ((23 : ℤ) - 0)) = 2 ^ 23 := by
    apply le_antisymm
    · apply F32.rne_le (by positivity)
      norm_num
    · apply F32.le_rne
      norm_num
  rw [hr]
  norm_num

/-- the scene with depths kept as floats -/
def scene32 : Scene ℚ := { scene0 with rnd := f32 }

/-- **C69** fails for `draw_pixel`: with depths 1+2⁻²⁵ and 1+2⁻²⁶ the farther point wins when it
comes last. -/
theorem pixel_order_fails_float : ∃ fb' w, (drawPixel scene32 ⟨1, 1, 33554432 / 33554433⟩ 5 screen0).bind (drawPixel scene32 ⟨1, 1, 67108864 / 67108865⟩ 6) = some fb' ∧
    fb'.cell 1 1 = some (w, 6) := by
  obtain ⟨fb', h1, w, h2⟩ := pixel_order_fails (sc := scene32) (p := ⟨1, 1, 33554432 / 33554433⟩) (q := ⟨1, 1, 67108864 / 67108865⟩)
    (v := ⟨1, 1, 33554433 / 33554432⟩) (vq := ⟨1, 1, 67108865 / 67108864⟩) (w0 := 0) (c0 := 0) (W := 4) (H := 3)
    ⟨by decide +kernel, by decide +kernel, by decide +kernel⟩ ⟨by decide +kernel, by decide +kernel, by decide +kernel⟩ screen0_ok
    (by decide +kernel) (by decide +kernel) ⟨rfl, rfl⟩ (by decide) (by decide +kernel) (by decide +kernel) (by decide +kernel)
    (by
      have : (1 : ℚ) / (scene32.camera.localRef ⟨1, 1, 33554432 / 33554433⟩).z = 1 + 1 / 2 ^ 25 := by
        show (1 : ℚ) / (33554432 / 33554433 - 0 + 0) = _
        norm_num
      rw [this]
      show f32 _ < _
      rw [f32_near_one]
      decide +kernel) 5 6
  exact ⟨fb', w, h1, h2⟩

end CAD.Render
