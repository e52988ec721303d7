import Verif.Model.Renderer
import Verif.Props.ImageUtil
import Mathlib.Tactic.Linarith
import Mathlib.Tactic.FieldSimp
import Mathlib.Tactic.Positivity

/-! The renderer: buffers, spans, triangles (C68, C69, C70). -/

namespace CAD.Render
set_option linter.unusedSimpArgs false
set_option linter.unusedSectionVars false
variable {K : Type} [Field K] [LinearOrder K] [IsStrictOrderedRing K] [FloorRing K]

/-! ### Specification: fragments and the depth test -/

/-- both buffers hold `W × H` cells -/
structure Fb.OK (fb : Fb K) (W H : Int) : Prop where
  w : fb.W = W
  h : fb.H = H
  pix : (fb.pix.length : Int) = W * H
  dep : (fb.dep.length : Int) = W * H

/-- a coloured point of the screen with its depth -/
structure Frag (K : Type) where
  x : Int
  y : Int
  w : K
  color : Int

/-- a cell of the screen -/
abbrev OnScreen (W H x y : Int) : Prop := 0 ≤ x ∧ x < W ∧ 0 ≤ y ∧ y < H

/-- depth and colour of a cell -/
def Fb.cell (fb : Fb K) (x y : Int) : Option (K × Int) :=
  if OnScreen fb.W fb.H x y then
    match fb.dep[(y * fb.W + x).toNat]?, fb.pix[(y * fb.W + x).toNat]? with
    | some w, some c => some (w, c)
    | _, _ => none
  else none

/-- the depth test -/
def Fb.put (fb : Fb K) (f : Frag K) : Fb K :=
  let i := (f.y * fb.W + f.x).toNat
  if fb.dep.getD i 0 < f.w then ⟨fb.W, fb.H, fb.pix.set i f.color, fb.dep.set i f.w⟩ else fb

/-- the depth test for many fragments -/
def Fb.puts (fb : Fb K) (fs : List (Frag K)) : Fb K := fs.foldl Fb.put fb

/-! ### Basics -/

theorem Fb.OK.put {fb : Fb K} {W H : Int} (h : fb.OK W H) (f : Frag K) : (fb.put f).OK W H := by
  unfold Fb.put
  simp only
  split
  · exact ⟨h.w, h.h, by simpa using h.pix, by simpa using h.dep⟩
  · exact h

theorem Fb.OK.puts {fb : Fb K} {W H : Int} (h : fb.OK W H) (fs : List (Frag K)) : (fb.puts fs).OK W H := by
  unfold Fb.puts
  induction fs generalizing fb with
  | nil => exact h
  | cons f fs ih => exact ih (h.put f)

theorem Fb.puts_append (fb : Fb K) (fs gs : List (Frag K)) : fb.puts (fs ++ gs) = (fb.puts fs).puts gs := by
  unfold Fb.puts
  rw [List.foldl_append]

theorem index_lt {W H x y : Int} (h : OnScreen W H x y) : 0 ≤ y * W + x ∧ y * W + x < W * H := by
  obtain ⟨h1, h2, h3, h4⟩ := h
  constructor
  · nlinarith
  · nlinarith

/-- the index of a cell determines the cell -/
theorem index_inj {W H x y x' y' : Int} (h : OnScreen W H x y) (h' : OnScreen W H x' y') (he : y * W + x = y' * W + x') :
    x = x' ∧ y = y' := by
  obtain ⟨h1, h2, h3, h4⟩ := h
  obtain ⟨h1', h2', h3', h4'⟩ := h'
  have hy : y = y' := by
    rcases lt_trichotomy y y' with hl | hl | hl
    · nlinarith
    · exact hl
    · nlinarith
  subst hy
  exact ⟨by linarith, rfl⟩

theorem plot_put {fb : Fb K} {W H : Int} (h : fb.OK W H) {x y : Int} (hs : OnScreen W H x y) (w : K) (color : Int) :
    fb.plot (y * W + x) w w color = some (fb.put ⟨x, y, w, color⟩) := by
  obtain ⟨hi1, hi2⟩ := index_lt hs
  have hd := h.dep
  have hp := h.pix
  have hlt : (y * W + x).toNat < fb.dep.length := by omega
  unfold Fb.plot Fb.put
  rw [h.w]
  have hg : getI fb.dep (y * W + x) = some (fb.dep.getD (y * W + x).toNat 0) := by
    unfold getI
    rw [if_pos hi1, List.getD_eq_getElem?_getD, List.getElem?_eq_getElem hlt]
    rfl
  rw [hg]
  simp only [bind, Option.bind_some, pure]
  split
  · unfold setI
    rw [if_pos ⟨hi1, by omega⟩, if_pos ⟨hi1, by omega⟩]
    rfl
  · rfl

/-! ### Conversion to `int` -/

theorem trunc_mono {x y : K} (h : x ≤ y) : trunc x ≤ trunc y := by
  unfold trunc
  by_cases hx : 0 ≤ x
  · rw [if_pos hx, if_pos (le_trans hx h)]
    exact Int.floor_mono h
  · rw [if_neg hx]
    have h0 : ⌈x⌉ ≤ 0 := Int.ceil_le.2 (by push_cast; exact (not_le.1 hx).le)
    by_cases hy : 0 ≤ y
    · rw [if_pos hy]
      exact le_trans h0 (Int.floor_nonneg.2 hy)
    · rw [if_neg hy]
      exact Int.ceil_mono h

theorem trunc_intCast (n : Int) : trunc (n : K) = n := by
  unfold trunc
  split
  · exact Int.floor_intCast n
  · exact Int.ceil_intCast n

/-- rounding a number between integers stays between them -/
theorem trunc_round_le {v : K} {B : Int} (hB : 0 ≤ B) (h : v ≤ B) : trunc (v + 1 / 2) ≤ B := by
  unfold trunc
  split
  · rw [← Int.lt_add_one_iff, Int.floor_lt]
    push_cast
    linarith
  · next h0 =>
    refine le_trans (Int.ceil_le.2 ?_) hB
    push_cast
    linarith

theorem le_trunc_round {v : K} {B : Int} (h : (B : K) ≤ v) : B ≤ trunc (v + 1 / 2) := by
  have := trunc_mono (show (B : K) ≤ v + 1 / 2 by linarith)
  rwa [trunc_intCast] at this

theorem toInt_some {v : K} (h1 : -2147483648 ≤ trunc v) (h2 : trunc v ≤ 2147483647) : toInt v = some (trunc v) := int32_eq h1 h2

/-- rounding an integer: negative integers are moved -/
theorem trunc_half (n : Int) : trunc ((n : K) + 1 / 2) = if 0 ≤ n then n else n + 1 := by
  unfold trunc
  split
  · next h =>
    have hn : (0 : Int) ≤ n := by
      by_contra hc
      have : n ≤ -1 := by omega
      have : (n : K) ≤ -1 := by exact_mod_cast this
      linarith
    rw [if_pos hn, Int.floor_eq_iff]
    constructor <;> linarith
  · next h =>
    have hn : ¬ (0 : Int) ≤ n := by
      intro hc
      have : (0 : K) ≤ n := by exact_mod_cast hc
      apply h
      linarith
    rw [if_neg hn, Int.ceil_eq_iff]
    push_cast
    constructor <;> linarith

/-! ### Spans -/

/-- the depth `draw_horizontal_line` gives to column `x` after the line was cut to `l … r` -/
def spanW (l : Int) (lw : K) (r : Int) (rw : K) (x : Int) : K :=
  let t : K := if l = r then 1 else ((x - l : Int) : K) / ((r - l : Int) : K)
  rw * t + lw * (1 - t)

/-- the fragments of a line in row `y` -/
def spanFrags (rnd : K → K) (l : Int) (lw : K) (r : Int) (rw : K) (y color : Int) : List (Frag K) :=
  (List.range (r - l + 1).toNat).map fun (k : Nat) => ⟨l + k, y, rnd (spanW l lw r rw (l + k)), color⟩

theorem assert_true {p : Prop} [Decidable p] (h : p) : CAD.assert p = some () := by
  unfold CAD.assert
  rw [if_pos h]

theorem cutLeft_some {ax bx : Int} (aw bw : K) (h : ax ≤ bx) (hb : 0 ≤ bx) (ha : -536870912 ≤ ax) (hb' : bx ≤ 536870912) :
    ∃ lw, cutLeft ax aw bx bw = some (max ax 0, lw) ∧ (0 ≤ ax → lw = aw) ∧
      (ax < 0 → lw = bw * ((bx : K) / ((bx - ax : Int) : K)) + (1 - (bx : K) / ((bx - ax : Int) : K)) * aw) := by
  unfold cutLeft
  by_cases h0 : ax < 0
  · rw [if_pos h0, int32_bind (by omega) (by omega)]
    have hd : (0 : K) < ((bx - ax : Int) : K) := by exact_mod_cast (by omega : 0 < bx - ax)
    have h1 : (0 : K) ≤ bx := by exact_mod_cast hb
    have h2 : (bx : K) ≤ ((bx - ax : Int) : K) := by exact_mod_cast (by omega : bx ≤ bx - ax)
    simp only
    rw [assert_true ⟨div_nonneg h1 hd.le, (div_le_one hd).2 h2⟩]
    refine ⟨_, ?_, fun hc => by omega, fun _ => rfl⟩
    rw [max_eq_right (by omega)]
    rfl
  · rw [if_neg h0]
    exact ⟨aw, by rw [max_eq_left (by omega)], fun _ => rfl, fun hc => absurd hc h0⟩

theorem cutRight_some {W ax bx : Int} (aw bw : K) (hW : 0 < W) (h : ax ≤ bx) (h0 : 0 ≤ ax) (hw : ax < W) (hb' : bx ≤ 536870912)  :
    ∃ rw', cutRight W ax aw bx bw = some (min bx (W - 1), rw') ∧ (bx < W → rw' = bw) ∧
      (W ≤ bx → rw' = aw * (((bx - (W - 1) : Int) : K) / ((bx - ax : Int) : K)) + (1 - ((bx - (W - 1) : Int) : K) / ((bx - ax : Int) : K)) * bw) := by
  unfold cutRight
  by_cases hc : W ≤ bx
  · rw [if_pos hc, int32_bind (by omega) (by omega), int32_bind (by omega) (by omega)]
    have hd : (0 : K) < ((bx - ax : Int) : K) := by exact_mod_cast (by omega : 0 < bx - ax)
    have h1 : (0 : K) ≤ ((bx - (W - 1) : Int) : K) := by exact_mod_cast (by omega : 0 ≤ bx - (W - 1))
    have h2 : ((bx - (W - 1) : Int) : K) ≤ ((bx - ax : Int) : K) := by exact_mod_cast (by omega : bx - (W - 1) ≤ bx - ax)
    simp only
    rw [assert_true (by omega : bx - ax ≠ 0), assert_true ⟨div_nonneg h1 hd.le, (div_le_one hd).2 h2⟩]
    refine ⟨_, ?_, fun hc' => by omega, fun _ => rfl⟩
    rw [min_eq_right (by omega)]
    rfl
  · rw [if_neg hc]
    exact ⟨bw, by rw [min_eq_left (by omega)], fun _ => rfl, fun h => absurd h hc⟩

/-- a line with some visible part -/
theorem hline_visible (rnd : K → K) {W H ax bx y : Int} (aw bw : K) (color : Int) (hW : 0 < W) (h : ax ≤ bx) (hb : 0 ≤ bx) (hw : ax < W)
    (hy : 0 ≤ y) (hy' : y < H) (ha : -536870912 ≤ ax) (hb' : bx ≤ 536870912) :
    ∃ lw rw', cutLeft ax aw bx bw = some (max ax 0, lw) ∧ cutRight W (max ax 0) lw bx bw = some (min bx (W - 1), rw') ∧
      ∀ fb : Fb K, fb.OK W H → hline rnd ax aw bx bw y color fb =
        some (fb.puts (spanFrags rnd (max ax 0) lw (min bx (W - 1)) rw' y color)) := by
  obtain ⟨lw, hl, -, -⟩ := cutLeft_some aw bw h hb ha hb'
  obtain ⟨rw', hr, -, -⟩ := cutRight_some lw bw hW (ax := max ax 0) (bx := bx) (by omega) (by omega) (by omega) hb'
  refine ⟨lw, rw', hl, hr, fun fb hok => ?_⟩
  unfold hline
  rw [assert_true h]
  simp only [bind, Option.bind_some, pure]
  rw [hok.w, hok.h, if_neg (by omega), hl]
  simp only [Option.bind_some]
  rw [hr]
  simp only [Option.bind_some]
  have hlr : max ax 0 ≤ min bx (W - 1) := by omega
  have hl0 : 0 ≤ max ax 0 := by omega
  have hrW : min bx (W - 1) < W := by omega
  generalize max ax 0 = l at *
  generalize min bx (W - 1) = r at *
  unfold spanFrags
  have key : ∀ n : Nat, (n : Int) ≤ r - l + 1 → loopN n (fun k (f : Fb K) => (CAD.assert (0 ≤ (if l = r then (1 : K) else (k : K) / ((r - l : Int) : K)) ∧
      (if l = r then (1 : K) else (k : K) / ((r - l : Int) : K)) ≤ 1)).bind fun _ =>
      f.plot (y * W + (l + k)) (rnd (rw' * (if l = r then (1 : K) else (k : K) / ((r - l : Int) : K)) +
        lw * (1 - (if l = r then (1 : K) else (k : K) / ((r - l : Int) : K)))))
        (rnd (rw' * (if l = r then (1 : K) else (k : K) / ((r - l : Int) : K)) +
        lw * (1 - (if l = r then (1 : K) else (k : K) / ((r - l : Int) : K))))) color) fb =
      some (fb.puts ((List.range n).map fun (k : Nat) => ⟨l + k, y, rnd (spanW l lw r rw' (l + k)), color⟩)) := by
    intro n
    induction n with
    | zero => intro _; rfl
    | succ n ih =>
      intro hn
      rw [loopN_succ, ih (by push_cast at hn; omega), Option.bind_some, List.range_succ, List.map_append, Fb.puts_append]
      have ht : 0 ≤ (if l = r then (1 : K) else (n : K) / ((r - l : Int) : K)) ∧ (if l = r then (1 : K) else (n : K) / ((r - l : Int) : K)) ≤ 1 := by
        split
        · exact ⟨zero_le_one, le_rfl⟩
        · next hne =>
          have hd : (0 : K) < ((r - l : Int) : K) := by exact_mod_cast (by omega : 0 < r - l)
          have h2 : (n : K) ≤ ((r - l : Int) : K) := by exact_mod_cast (by push_cast at hn; omega : (n : Int) ≤ r - l)
          exact ⟨div_nonneg (Nat.cast_nonneg n) hd.le, (div_le_one hd).2 h2⟩
      rw [assert_true ht, Option.bind_some, plot_put (hok.puts _) ⟨by omega, by push_cast at hn; omega, hy, hy'⟩]
      congr 1
      simp only [List.map_cons, List.map_nil, Fb.puts, List.foldl_cons, List.foldl_nil, spanW]
      congr 2
      have e : ((l + (n : Int) - l : Int) : K) = (n : K) := by push_cast; ring
      rw [e]
  exact key _ (by omega)

/-- cutting at the right border keeps the depths -/
theorem spanW_cut {W l r x : Int} (lw rw' : K) (hl : l < W) (hr : W ≤ r) :
    spanW l lw (W - 1) (lw * (((r - (W - 1) : Int) : K) / ((r - l : Int) : K)) + (1 - ((r - (W - 1) : Int) : K) / ((r - l : Int) : K)) * rw') x =
      if l = W - 1 then lw else spanW l lw r rw' x := by
  unfold spanW
  have hd : ((r : K) - l) ≠ 0 := by
    have : (l : K) < r := by exact_mod_cast (by omega : l < r)
    exact ne_of_gt (by linarith)
  by_cases h : l = W - 1
  · simp only [if_pos h]
    have : ((r - (W - 1) : Int) : K) / ((r - l : Int) : K) = 1 := by
      rw [h]
      apply div_self
      rw [← h]
      push_cast
      exact hd
    rw [this]
    ring
  · simp only [if_neg h]
    have hd2 : ((W : K) - 1 - l) ≠ 0 := by
      have : ((l : Int) : K) < ((W - 1 : Int) : K) := by exact_mod_cast (by omega : l < W - 1)
      push_cast at this
      exact ne_of_gt (by linarith)
    rw [if_neg (by omega : l ≠ r)]
    push_cast
    field_simp
    ring

/-- a depth of a line is between the depths of its ends -/
theorem spanW_between {l r x : Int} {lw rw' lo hi : K} (h1 : l ≤ x) (h2 : x ≤ r) (hl : lo ≤ lw ∧ lw ≤ hi) (hr : lo ≤ rw' ∧ rw' ≤ hi) :
    lo ≤ spanW l lw r rw' x ∧ spanW l lw r rw' x ≤ hi := by
  unfold spanW
  simp only
  have ht : 0 ≤ (if l = r then (1 : K) else ((x - l : Int) : K) / ((r - l : Int) : K)) ∧ (if l = r then (1 : K) else ((x - l : Int) : K) / ((r - l : Int) : K)) ≤ 1 := by
    split
    · exact ⟨zero_le_one, le_rfl⟩
    · have hd : (0 : K) < ((r - l : Int) : K) := by exact_mod_cast (by omega : 0 < r - l)
      have e1 : (0 : K) ≤ ((x - l : Int) : K) := by exact_mod_cast (by omega : 0 ≤ x - l)
      have e2 : ((x - l : Int) : K) ≤ ((r - l : Int) : K) := by exact_mod_cast (by omega : x - l ≤ r - l)
      exact ⟨div_nonneg e1 hd.le, (div_le_one hd).2 e2⟩
  generalize (if l = r then (1 : K) else ((x - l : Int) : K) / ((r - l : Int) : K)) = t at ht
  obtain ⟨t0, t1⟩ := ht
  constructor
  · nlinarith [mul_le_mul_of_nonneg_right hr.1 t0, mul_le_mul_of_nonneg_right hl.1 (by linarith : 0 ≤ 1 - t)]
  · nlinarith [mul_le_mul_of_nonneg_right hr.2 t0, mul_le_mul_of_nonneg_right hl.2 (by linarith : 0 ≤ 1 - t)]

/-- **C70** (spans): a horizontal line paints exactly its columns on the screen, and when it
starts on the screen every depth is the linear interpolation between its ends, also when the
right end is outside. -/
theorem hline_depth_partial (rnd : K → K) {W H ax bx y : Int} (aw bw : K) (color : Int) (hW : 0 < W) (h : ax ≤ bx)
    (ha : -536870912 ≤ ax) (hb' : bx ≤ 536870912) :
    ∃ fs : List (Frag K), (∀ fb : Fb K, fb.OK W H → hline rnd ax aw bx bw y color fb = some (fb.puts fs)) ∧
      (∀ f ∈ fs, f.color = color ∧ f.y = y) ∧
      (∀ x, (∃ f ∈ fs, f.x = x) ↔ OnScreen W H x y ∧ ax ≤ x ∧ x ≤ bx) ∧
      (0 ≤ ax → ∀ f ∈ fs, f.w = rnd (spanW ax aw bx bw f.x)) ∧
      (ax < 0 → ∀ f ∈ fs, f.w = rnd (spanW 0 (bw * ((bx : K) / ((bx - ax : Int) : K)) + (1 - (bx : K) / ((bx - ax : Int) : K)) * aw) bx bw f.x)) := by
  by_cases hv : bx < 0 ∨ W ≤ ax ∨ y < 0 ∨ H ≤ y
  · refine ⟨[], fun fb hok => ?_, by simp, fun x => ?_, by simp, by simp⟩
    · unfold hline
      rw [assert_true h]
      simp only [bind, Option.bind_some, pure]
      rw [hok.w, hok.h, if_pos hv]
      rfl
    · simp only [List.not_mem_nil, false_and, exists_false, false_iff]
      omega
  · obtain ⟨lw, rw', hl, hr, hf⟩ := hline_visible rnd (H := H) (y := y) aw bw color hW h (by omega) (by omega) (by omega) (by omega) ha hb'
    obtain ⟨lw2, hl2, hl3, hl4⟩ := cutLeft_some aw bw h (by omega) ha hb'
    rw [hl] at hl2
    obtain rfl : lw = lw2 := by simpa using hl2
    obtain ⟨rw2, hr2, hr3, hr4⟩ := cutRight_some lw bw hW (ax := max ax 0) (bx := bx) (by omega) (by omega) (by omega) hb'
    rw [hr] at hr2
    obtain rfl : rw' = rw2 := by simpa using hr2
    have hw : ∀ x, spanW (max ax 0) lw (min bx (W - 1)) rw' x = if max ax 0 = W - 1 ∧ W ≤ bx then lw else spanW (max ax 0) lw bx bw x := by
      intro x
      by_cases hc : W ≤ bx
      · rw [min_eq_right (by omega), hr4 hc, spanW_cut lw bw (by omega) hc]
        simp only [hc, and_true]
      · rw [min_eq_left (by omega), hr3 (by omega), if_neg (by omega)]
    have hw2 : ∀ x, max ax 0 ≤ x → x ≤ min bx (W - 1) → spanW (max ax 0) lw (min bx (W - 1)) rw' x = spanW (max ax 0) lw bx bw x := by
      intro x h1 h2
      rw [hw]
      split
      · next hc =>
        have hx : x = max ax 0 := by omega
        subst hx
        unfold spanW
        rw [if_neg (by omega)]
        simp
      · rfl
    refine ⟨_, hf, ?_, ?_, ?_, ?_⟩
    · intro f hm
      unfold spanFrags at hm
      rw [List.mem_map] at hm
      obtain ⟨k, -, rfl⟩ := hm
      exact ⟨rfl, rfl⟩
    · intro x
      unfold spanFrags
      constructor
      · rintro ⟨f, hm, rfl⟩
        rw [List.mem_map] at hm
        obtain ⟨k, hk, rfl⟩ := hm
        rw [List.mem_range] at hk
        simp only
        refine ⟨⟨?_, ?_, ?_, ?_⟩, ?_, ?_⟩ <;> omega
      · rintro ⟨⟨h1, h2, h3, h4⟩, h5, h6⟩
        refine ⟨_, List.mem_map_of_mem (List.mem_range.2 (?_ : (x - max ax 0).toNat < _)), ?_⟩
        · omega
        · simp only
          omega
    · intro h0 f hm
      unfold spanFrags at hm
      rw [List.mem_map] at hm
      obtain ⟨k, hk, rfl⟩ := hm
      rw [List.mem_range] at hk
      simp only
      rw [hw2 _ (by omega) (by omega), hl3 h0, max_eq_left h0]
    · intro h0 f hm
      unfold spanFrags at hm
      rw [List.mem_map] at hm
      obtain ⟨k, hk, rfl⟩ := hm
      rw [List.mem_range] at hk
      simp only
      rw [hw2 _ (by omega) (by omega), hl4 h0, max_eq_right h0.le]

/-- **C70**: every depth that `draw_horizontal_line` paints is (the float of) a number between
the depths of the two ends, also when the line is cut at the left border. -/
theorem hline_between (rnd : K → K) {W H ax bx y : Int} (aw bw : K) (color : Int) (hW : 0 < W) (h : ax ≤ bx)
    (ha : -536870912 ≤ ax) (hb' : bx ≤ 536870912) {lo hi : K} (hl : lo ≤ aw ∧ aw ≤ hi) (hr : lo ≤ bw ∧ bw ≤ hi) {fs : List (Frag K)}
    (hx : ∀ x, (∃ f ∈ fs, f.x = x) ↔ OnScreen W H x y ∧ ax ≤ x ∧ x ≤ bx)
    (h1 : 0 ≤ ax → ∀ f ∈ fs, f.w = rnd (spanW ax aw bx bw f.x))
    (h2 : ax < 0 → ∀ f ∈ fs, f.w = rnd (spanW 0 (bw * ((bx : K) / ((bx - ax : Int) : K)) + (1 - (bx : K) / ((bx - ax : Int) : K)) * aw) bx bw f.x)) :
    ∀ f ∈ fs, ∃ w, f.w = rnd w ∧ lo ≤ w ∧ w ≤ hi := by
  intro f hf
  obtain ⟨⟨o1, o2, o3, o4⟩, x1, x2⟩ := (hx f.x).1 ⟨f, hf, rfl⟩
  by_cases h0 : 0 ≤ ax
  · exact ⟨_, h1 h0 f hf, spanW_between x1 x2 hl hr⟩
  · refine ⟨_, h2 (by omega) f hf, spanW_between o1 x2 ?_ hr⟩
    have hd : (0 : K) < ((bx - ax : Int) : K) := by exact_mod_cast (by omega : 0 < bx - ax)
    have e1 : (0 : K) ≤ (bx : K) := by exact_mod_cast (by omega : 0 ≤ bx)
    have e2 : (bx : K) ≤ ((bx - ax : Int) : K) := by exact_mod_cast (by omega : bx ≤ bx - ax)
    have t0 := div_nonneg e1 hd.le
    have t1 := (div_le_one hd).2 e2
    generalize (bx : K) / ((bx - ax : Int) : K) = t at t0 t1
    constructor
    · nlinarith [mul_le_mul_of_nonneg_right hr.1 t0, mul_le_mul_of_nonneg_left hl.1 (by linarith : 0 ≤ 1 - t)]
    · nlinarith [mul_le_mul_of_nonneg_right hr.2 t0, mul_le_mul_of_nonneg_left hl.2 (by linarith : 0 ≤ 1 - t)]

/-! ### Trapezes -/

/-- linear interpolation between `a` in row `ay` and `c` in row `cy` -/
def mix (ay cy : Int) (a c : K) (y : Int) : K :=
  let t : K := ((y - ay : Int) : K) / ((cy - ay : Int) : K)
  c * t + a * (1 - t)

/-- the two sides of a trapeze in row `y`, and the depths there -/
def Trap.left (q : Trap K) (y : Int) : K := mix q.ay q.cy q.ax q.cx y
def Trap.right (q : Trap K) (y : Int) : K := mix q.ay q.cy q.bx q.dx y
def Trap.leftW (q : Trap K) (y : Int) : K := mix q.ay q.cy q.aw q.cw y
def Trap.rightW (q : Trap K) (y : Int) : K := mix q.ay q.cy q.bw q.dw y

/-- the first and the last column of a trapeze in row `y` -/
def Trap.first (q : Trap K) (y : Int) : Int := trunc (q.left y + 1 / 2)
def Trap.last (q : Trap K) (y : Int) : Int := trunc (q.right y + 1 / 2)

/-- the largest coordinate considered -/
abbrev big : Int := 536870912

theorem big_eq : big = 536870912 := rfl

structure Trap.Ordered (q : Trap K) : Prop where
  top : q.ax ≤ q.bx
  bottom : q.cx ≤ q.dx
  rows : q.ay ≤ q.cy
  low : -(big : K) ≤ q.ax ∧ -(big : K) ≤ q.cx
  high : q.bx ≤ (big : K) ∧ q.dx ≤ (big : K)
  ylow : -big ≤ q.ay
  yhigh : q.cy ≤ big

theorem mix_le {t a b c d : K} (h0 : 0 ≤ t) (h1 : t ≤ 1) (hab : a ≤ b) (hcd : c ≤ d) :
    c * t + (1 - t) * a ≤ d * t + (1 - t) * b :=
  add_le_add (mul_le_mul_of_nonneg_right hcd h0) (mul_le_mul_of_nonneg_left hab (by linarith))

theorem mix_const (t a : K) : a * t + (1 - t) * a = a := by ring

theorem mix_mono {ay cy y : Int} {a b c d : K} (h1 : ay ≤ y) (h2 : y ≤ cy) (hab : a ≤ b) (hcd : c ≤ d) :
    mix ay cy a c y ≤ mix ay cy b d y := by
  unfold mix
  simp only
  have e1 : (0 : K) ≤ ((y - ay : Int) : K) := by exact_mod_cast (by omega : 0 ≤ y - ay)
  have e2 : (0 : K) ≤ ((cy - ay : Int) : K) := by exact_mod_cast (by omega : 0 ≤ cy - ay)
  have e3 : ((y - ay : Int) : K) ≤ ((cy - ay : Int) : K) := by exact_mod_cast (by omega : y - ay ≤ cy - ay)
  have := mix_le (t := ((y - ay : Int) : K) / ((cy - ay : Int) : K)) (div_nonneg e1 e2) (div_le_one_of_le₀ e3 e2) hab hcd
  linarith

theorem mix_same (ay cy : Int) (a : K) (y : Int) : mix ay cy a a y = a := by
  unfold mix
  ring

theorem mix_between {ay cy y : Int} {a c lo hi : K} (h1 : ay ≤ y) (h2 : y ≤ cy) (ha : lo ≤ a ∧ a ≤ hi) (hc : lo ≤ c ∧ c ≤ hi) :
    lo ≤ mix ay cy a c y ∧ mix ay cy a c y ≤ hi := by
  have e1 := mix_mono h1 h2 ha.1 hc.1
  have e2 := mix_mono h1 h2 ha.2 hc.2
  rw [mix_same] at e1 e2
  exact ⟨e1, e2⟩

theorem mix_cutTop {ay cy : Int} (a c : K) (y : Int) (h1 : ay < 0) (h2 : 0 < cy) :
    mix 0 cy (c * ((0 - (ay : K)) / ((cy - ay : Int) : K)) + (1 - (0 - (ay : K)) / ((cy - ay : Int) : K)) * a) c y = mix ay cy a c y := by
  have e1 : (cy : K) ≠ 0 := by exact_mod_cast (by omega : cy ≠ 0)
  have e2 : (cy : K) - ay ≠ 0 := by
    have : ((cy - ay : Int) : K) ≠ 0 := by exact_mod_cast (by omega : cy - ay ≠ 0)
    push_cast at this
    exact this
  unfold mix
  push_cast
  simp only [sub_zero, zero_sub]
  field_simp
  ring

theorem mix_cutBottom {ay cy H : Int} (a c : K) (y : Int) (h1 : ay < H - 1) (h2 : H ≤ cy) :
    mix ay (H - 1) a (a * (((cy - (H - 1) : Int) : K) / ((cy - ay : Int) : K)) + (1 - ((cy - (H - 1) : Int) : K) / ((cy - ay : Int) : K)) * c) y =
      mix ay cy a c y := by
  have e1 : (H : K) - 1 - ay ≠ 0 := by
    have : ((H - 1 - ay : Int) : K) ≠ 0 := by exact_mod_cast (by omega : H - 1 - ay ≠ 0)
    push_cast at this
    exact this
  have e2 : (cy : K) - ay ≠ 0 := by
    have : ((cy - ay : Int) : K) ≠ 0 := by exact_mod_cast (by omega : cy - ay ≠ 0)
    push_cast at this
    exact this
  unfold mix
  push_cast
  field_simp
  ring

/-- two trapezes with the same sides and depths -/
structure Trap.Same (q q' : Trap K) (y : Int) : Prop where
  left : q'.left y = q.left y
  right : q'.right y = q.right y
  leftW : q'.leftW y = q.leftW y
  rightW : q'.rightW y = q.rightW y

theorem cutTop_spec {q : Trap K} (h : q.Ordered) (hc : 0 ≤ q.cy) :
    ∃ q', q.cutTop = some q' ∧ q'.Ordered ∧ q'.ay = max q.ay 0 ∧ q'.cy = q.cy ∧ (q'.ay < q'.cy → ∀ y, Trap.Same q q' y) := by
  have hbig := big_eq
  obtain ⟨h1, h2, h3, h4, h5, h6, h7⟩ := h
  unfold Trap.cutTop
  by_cases h0 : q.ay < 0
  · rw [if_pos h0, int32_bind (by omega) (by omega)]
    have hd : (0 : K) < ((q.cy - q.ay : Int) : K) := by exact_mod_cast (by omega : 0 < q.cy - q.ay)
    have e0 : (0 : K) ≤ 0 - (q.ay : K) := by
      have : ((q.ay : Int) : K) < 0 := by exact_mod_cast h0
      linarith
    have e1 : 0 - (q.ay : K) ≤ ((q.cy - q.ay : Int) : K) := by
      have : (0 : K) ≤ ((q.cy : Int) : K) := by exact_mod_cast hc
      push_cast
      linarith
    have t0 := div_nonneg e0 hd.le
    have t1 := (div_le_one hd).2 e1
    simp only
    rw [assert_true ⟨t0, t1⟩]
    refine ⟨_, rfl, ⟨mix_le t0 t1 h1 h2, h2, hc, ⟨?_, h4.2⟩, ⟨?_, h5.2⟩, by show -big ≤ (0 : Int); decide, h7⟩, (max_eq_right h0.le).symm, rfl, fun hlt y => ?_⟩
    · refine le_trans (le_of_eq ?_) (mix_le t0 t1 h4.1 h4.2)
      ring
    · refine le_trans (mix_le t0 t1 h5.1 h5.2) (le_of_eq ?_)
      ring
    · have hlt' : 0 < q.cy := hlt
      exact ⟨mix_cutTop _ _ _ h0 hlt', mix_cutTop _ _ _ h0 hlt', mix_cutTop _ _ _ h0 hlt', mix_cutTop _ _ _ h0 hlt'⟩
  · rw [if_neg h0]
    exact ⟨q, rfl, ⟨h1, h2, h3, h4, h5, h6, h7⟩, (max_eq_left (by omega)).symm, rfl, fun _ _ => ⟨rfl, rfl, rfl, rfl⟩⟩

theorem cutBottom_spec {q : Trap K} {H : Int} (h : q.Ordered) (h0 : 0 ≤ q.ay) (hH : q.ay < H) :
    ∃ q', q.cutBottom H = some q' ∧ q'.Ordered ∧ q'.ay = q.ay ∧ q'.cy = min q.cy (H - 1) ∧ (q'.ay < q'.cy → ∀ y, Trap.Same q q' y) := by
  have hbig := big_eq
  obtain ⟨h1, h2, h3, h4, h5, h6, h7⟩ := h
  unfold Trap.cutBottom
  by_cases hc : H ≤ q.cy
  · rw [if_pos hc, int32_bind (by omega) (by omega), int32_bind (by omega) (by omega)]
    have hd : (0 : K) < ((q.cy - q.ay : Int) : K) := by exact_mod_cast (by omega : 0 < q.cy - q.ay)
    have e0 : (0 : K) ≤ ((q.cy - (H - 1) : Int) : K) := by exact_mod_cast (by omega : 0 ≤ q.cy - (H - 1))
    have e1 : ((q.cy - (H - 1) : Int) : K) ≤ ((q.cy - q.ay : Int) : K) := by exact_mod_cast (by omega : q.cy - (H - 1) ≤ q.cy - q.ay)
    have t0 := div_nonneg e0 hd.le
    have t1 := (div_le_one hd).2 e1
    simp only
    rw [assert_true (by omega : q.cy - q.ay ≠ 0), assert_true ⟨t0, t1⟩]
    refine ⟨_, rfl, ⟨h1, mix_le t0 t1 h2 h1, by show q.ay ≤ H - 1; omega, ⟨h4.1, ?_⟩, ⟨h5.1, ?_⟩, h6, by show H - 1 ≤ big; omega⟩, rfl, by show H - 1 = min q.cy (H - 1); omega, fun hlt y => ?_⟩
    · refine le_trans (le_of_eq ?_) (mix_le t0 t1 h4.2 h4.1)
      ring
    · refine le_trans (mix_le t0 t1 h5.2 h5.1) (le_of_eq ?_)
      ring
    · have hlt' : q.ay < H - 1 := hlt
      exact ⟨mix_cutBottom _ _ _ hlt' hc, mix_cutBottom _ _ _ hlt' hc, mix_cutBottom _ _ _ hlt' hc, mix_cutBottom _ _ _ hlt' hc⟩
  · rw [if_neg hc]
    exact ⟨q, rfl, ⟨h1, h2, h3, h4, h5, h6, h7⟩, rfl, (min_eq_left (by omega)).symm, fun _ _ => ⟨rfl, rfl, rfl, rfl⟩⟩

/-- first and last column: ordered and not too large -/
theorem Trap.Ordered.cols {q : Trap K} (h : q.Ordered) {y : Int} (h1 : q.ay ≤ y) (h2 : y ≤ q.cy) :
    q.first y ≤ q.last y ∧ -big ≤ q.first y ∧ q.last y ≤ big := by
  refine ⟨trunc_mono ?_, ?_, ?_⟩
  · have := mix_mono h1 h2 h.top h.bottom
    unfold Trap.left Trap.right
    linarith
  · apply le_trunc_round
    have := mix_mono h1 h2 h.low.1 h.low.2
    rw [mix_same] at this
    push_cast at this ⊢
    exact this
  · apply trunc_round_le (by decide)
    have := mix_mono h1 h2 h.high.1 h.high.2
    rwa [mix_same] at this

theorem row_eq (rnd : K → K) {q : Trap K} (h : q.Ordered) (color : Int) {y : Int} (h1 : q.ay ≤ y) (h2 : y < q.cy) (fb : Fb K) :
    q.row rnd color y fb = hline rnd (q.first y) (q.leftW y) (q.last y) (q.rightW y) y color fb := by
  have hbig := big_eq
  have hy := h.ylow
  have hy' := h.yhigh
  obtain ⟨hc1, hc2, hc3⟩ := h.cols h1 h2.le
  have e1 : (0 : K) ≤ ((y - q.ay : Int) : K) := by exact_mod_cast (by omega : 0 ≤ y - q.ay)
  have e2 : (0 : K) < ((q.cy - q.ay : Int) : K) := by exact_mod_cast (by omega : 0 < q.cy - q.ay)
  have e3 : ((y - q.ay : Int) : K) ≤ ((q.cy - q.ay : Int) : K) := by exact_mod_cast (by omega : y - q.ay ≤ q.cy - q.ay)
  unfold Trap.row
  rw [int32_bind (by omega) (by omega), int32_bind (by omega) (by omega)]
  simp only
  rw [assert_true ⟨div_nonneg e1 e2.le, (div_le_one e2).2 e3⟩]
  have t1 : toInt (q.cx * (((y - q.ay : Int) : K) / ((q.cy - q.ay : Int) : K)) + q.ax * (1 - ((y - q.ay : Int) : K) / ((q.cy - q.ay : Int) : K)) + 1 / 2) = some (q.first y) :=
    toInt_some (v := q.left y + 1 / 2) (by show _ ≤ q.first y; omega) (by show q.first y ≤ _; omega)
  have t2 : toInt (q.dx * (((y - q.ay : Int) : K) / ((q.cy - q.ay : Int) : K)) + q.bx * (1 - ((y - q.ay : Int) : K) / ((q.cy - q.ay : Int) : K)) + 1 / 2) = some (q.last y) :=
    toInt_some (v := q.right y + 1 / 2) (by show _ ≤ q.last y; omega) (by show q.last y ≤ _; omega)
  rw [t1, t2]
  simp only [bind, Option.bind_some]
  rw [assert_true hc1, Option.bind_some]
  rfl

/-- rows `ay … ay+n-1` of a trapeze -/
theorem rows_spec (rnd : K → K) {q : Trap K} (h : q.Ordered) (color : Int) {W H : Int} (hW : 0 < W) (n : Nat) (hn : q.ay + n ≤ q.cy) :
    ∃ fs : List (Frag K), (∀ fb : Fb K, fb.OK W H → loopN n (fun k fb => q.row rnd color (q.ay + k) fb) fb = some (fb.puts fs)) ∧
      (∀ f ∈ fs, f.color = color) ∧
      (∀ x y, (∃ f ∈ fs, f.x = x ∧ f.y = y) ↔ OnScreen W H x y ∧ q.ay ≤ y ∧ y < q.ay + n ∧ q.first y ≤ x ∧ x ≤ q.last y) ∧
      (∀ f ∈ fs, 0 ≤ q.first f.y → f.w = rnd (spanW (q.first f.y) (q.leftW f.y) (q.last f.y) (q.rightW f.y) f.x))  ∧
      (∀ f ∈ fs, ∀ lo hi, lo ≤ q.leftW f.y ∧ q.leftW f.y ≤ hi → lo ≤ q.rightW f.y ∧ q.rightW f.y ≤ hi → ∃ w, f.w = rnd w ∧ lo ≤ w ∧ w ≤ hi) := by
  induction n with
  | zero =>
    refine ⟨[], fun fb _ => rfl, by simp, fun x y => ?_, by simp, by simp⟩
    simp only [List.not_mem_nil, false_and, exists_false, false_iff]
    push_cast
    omega
  | succ n ih =>
    push_cast at hn
    obtain ⟨fs, i1, i2, i3, i4, i5⟩ := ih (by omega)
    have hr := row_eq rnd h color (y := q.ay + n) (by omega) (by omega)
    obtain ⟨c1, c2, c3⟩ := h.cols (y := q.ay + n) (by omega) (by omega)
    obtain ⟨gs, g1, g2, g3, g4, g5⟩ := hline_depth_partial (H := H) (y := q.ay + n) rnd (q.leftW (q.ay + n)) (q.rightW (q.ay + n)) color hW c1 c2 c3
    refine ⟨fs ++ gs, fun fb hok => ?_, ?_, ?_, ?_, ?_⟩
    · rw [loopN_succ, i1 fb hok, Option.bind_some, hr, g1 _ (hok.puts fs), Fb.puts_append]
    · intro f hf
      rcases List.mem_append.1 hf with hf | hf
      · exact i2 f hf
      · exact (g2 f hf).1
    · intro x y
      constructor
      · rintro ⟨f, hf, rfl, rfl⟩
        rcases List.mem_append.1 hf with hf | hf
        · obtain ⟨o, a1, a2, a3, a4⟩ := (i3 f.x f.y).1 ⟨f, hf, rfl, rfl⟩
          exact ⟨o, a1, by push_cast; omega, a3, a4⟩
        · obtain ⟨o, a3, a4⟩ := (g3 f.x).1 ⟨f, hf, rfl⟩
          rw [← (g2 f hf).2] at o a3 a4
          have := (g2 f hf).2
          exact ⟨o, by omega, by push_cast; omega, a3, a4⟩
      · rintro ⟨o, a1, a2, a3, a4⟩
        push_cast at a2
        by_cases hy : y < q.ay + n
        · obtain ⟨f, hf, e⟩ := (i3 x y).2 ⟨o, a1, hy, a3, a4⟩
          exact ⟨f, List.mem_append_left _ hf, e⟩
        · obtain rfl : y = q.ay + n := by omega
          obtain ⟨f, hf, e⟩ := (g3 x).2 ⟨o, a3, a4⟩
          exact ⟨f, List.mem_append_right _ hf, e, (g2 f hf).2⟩
    · intro f hf h0
      rcases List.mem_append.1 hf with hf | hf
      · exact i4 f hf h0
      · rw [(g2 f hf).2] at h0 ⊢
        exact g4 h0 f hf
    · intro f hf lo hi hl hr
      rcases List.mem_append.1 hf with hf | hf
      · exact i5 f hf lo hi hl hr
      · rw [(g2 f hf).2] at hl hr
        exact hline_between rnd _ _ color hW c1 c2 c3 hl hr g3 g4 g5 f hf

/-- **C70** (trapezes): `draw_trapeze` paints, in every row from its first one to the row before
its last one (and before the last row of the screen when it goes beyond it), exactly the columns
between its two sides; where the left side is on the screen the depth is interpolated linearly
along both sides and then between them. -/
theorem trapeze_depth_partial (rnd : K → K) {q : Trap K} (h : q.Ordered) (color : Int) {W H : Int} (hW : 0 < W) (hH : 0 < H) :
    ∃ (vis : Bool) (fs : List (Frag K)), (∀ fb : Fb K, fb.OK W H → trapeze rnd q color fb = some (vis, fb.puts fs)) ∧
      (vis = true ↔ 0 ≤ q.cy ∧ q.ay < H) ∧
      (∀ f ∈ fs, f.color = color) ∧
      (∀ x y, (∃ f ∈ fs, f.x = x ∧ f.y = y) ↔
        OnScreen W H x y ∧ q.ay ≤ y ∧ y < q.cy ∧ (H ≤ q.cy → y < H - 1) ∧ q.first y ≤ x ∧ x ≤ q.last y) ∧
      (∀ f ∈ fs, 0 ≤ q.first f.y → f.w = rnd (spanW (q.first f.y) (q.leftW f.y) (q.last f.y) (q.rightW f.y) f.x))  ∧
      (∀ f ∈ fs, ∀ lo hi, lo ≤ q.leftW f.y ∧ q.leftW f.y ≤ hi → lo ≤ q.rightW f.y ∧ q.rightW f.y ≤ hi → ∃ w, f.w = rnd w ∧ lo ≤ w ∧ w ≤ hi) := by
  by_cases hv : q.cy < 0 ∨ H ≤ q.ay
  · refine ⟨false, [], fun fb hok => ?_, ?_, by simp, fun x y => ?_, by simp, by simp⟩
    · unfold trapeze
      rw [assert_true h.top, assert_true h.bottom, assert_true h.rows]
      simp only [bind, Option.bind_some, pure]
      rw [hok.h, if_pos hv]
      rfl
    · simp only [Bool.false_eq_true, false_iff]
      omega
    · simp only [List.not_mem_nil, false_and, exists_false, false_iff]
      omega
  · obtain ⟨q1, e1, o1, a1, c1, s1⟩ := cutTop_spec h (by omega)
    obtain ⟨q2, e2, o2, a2, c2, s2⟩ := cutBottom_spec (H := H) o1 (by omega) (by omega)
    have hrows := o2.rows
    obtain ⟨fs, f1, f2, f3, f4, f5⟩ := rows_spec rnd o2 color (H := H) hW (q2.cy - q2.ay).toNat (by omega)
    have hs : q2.ay < q2.cy → ∀ y, Trap.Same q q2 y := fun hlt y => by
      have p2 := s2 hlt y
      have p1 := s1 (by omega) y
      exact ⟨p2.left.trans p1.left, p2.right.trans p1.right, p2.leftW.trans p1.leftW, p2.rightW.trans p1.rightW⟩
    have hfirst : q2.ay < q2.cy → ∀ y, q2.first y = q.first y := fun hlt y => by unfold Trap.first; rw [(hs hlt y).left]
    have hlast : q2.ay < q2.cy → ∀ y, q2.last y = q.last y := fun hlt y => by unfold Trap.last; rw [(hs hlt y).right]
    refine ⟨true, fs, fun fb hok => ?_, ?_, f2, fun x y => ?_, fun f hf h0 => ?_, fun f hf lo hi hl hr => ?_⟩
    · unfold trapeze
      rw [assert_true h.top, assert_true h.bottom, assert_true h.rows]
      simp only [bind, Option.bind_some, pure]
      rw [hok.h, if_neg hv, e1]
      simp only [Option.bind_some]
      rw [e2]
      simp only [Option.bind_some]
      rw [assert_true (by omega : 0 ≤ q2.ay), assert_true o2.rows, assert_true (by omega : q2.cy < H)]
      simp only [Option.bind_some]
      rw [f1 fb hok]
      rfl
    · simp only [true_iff]
      omega
    · rw [f3 x y]
      constructor
      · rintro ⟨o, b1, b2, b3, b4⟩
        have hlt : q2.ay < q2.cy := by omega
        rw [hfirst hlt] at b3
        rw [hlast hlt] at b4
        exact ⟨o, by omega, by omega, by omega, b3, b4⟩
      · rintro ⟨o, b1, b2, b5, b3, b4⟩
        have o' := o
        obtain ⟨p1, p2, p3, p4⟩ := o'
        have hlt : q2.ay < q2.cy := by omega
        rw [hfirst hlt, hlast hlt]
        exact ⟨o, by omega, by omega, b3, b4⟩
    · obtain ⟨o, b1, b2, -, -⟩ := (f3 f.x f.y).1 ⟨f, hf, rfl, rfl⟩
      have hlt : q2.ay < q2.cy := by omega
      have := f4 f hf (by rw [hfirst hlt]; exact h0)
      rw [hfirst hlt, hlast hlt, (hs hlt _).leftW, (hs hlt _).rightW] at this
      exact this
    · obtain ⟨o, b1, b2, -, -⟩ := (f3 f.x f.y).1 ⟨f, hf, rfl, rfl⟩
      have hlt : q2.ay < q2.cy := by omega
      refine f5 f hf lo hi ?_ ?_
      · rw [(hs hlt _).leftW]
        exact hl
      · rw [(hs hlt _).rightW]
        exact hr

/-! ### Triangles -/

/-- coordinates that are not too large -/
structure V.Small (v : V K) : Prop where
  xlow : -big ≤ v.x
  xhigh : v.x ≤ big
  ylow : -big ≤ v.y
  yhigh : v.y ≤ big

/-- the ordered points are the points -/
theorem sortY_cases (a b c : V K) :
    (sortY a b c).1.y ≤ (sortY a b c).2.1.y ∧ (sortY a b c).2.1.y ≤ (sortY a b c).2.2.y ∧
      (sortY a b c = (a, b, c) ∨ sortY a b c = (a, c, b) ∨ sortY a b c = (b, a, c) ∨ sortY a b c = (b, c, a) ∨
        sortY a b c = (c, a, b) ∨ sortY a b c = (c, b, a)) := by
  unfold sortY
  split_ifs <;> simp only [] <;> split_ifs <;> simp <;> omega

theorem splitPoint_spec {a b c : V K} (hab : a.y ≤ b.y) (hbc : b.y ≤ c.y) (ha : a.Small) (hb : b.Small) (hc : c.Small) :
    ∃ d, splitPoint a b c = some d ∧ d.y = (if 0 ≤ b.y then b.y else b.y + 1) ∧ min a.x c.x ≤ d.x ∧ (d.x ≤ max a.x c.x ∨ d.x ≤ 0) ∧ -big ≤ d.x ∧ d.x ≤ big ∧
      (∀ lo hi, lo ≤ a.w ∧ a.w ≤ hi → lo ≤ c.w ∧ c.w ≤ hi → lo ≤ d.w ∧ d.w ≤ hi) := by
  have hbig := big_eq
  obtain ⟨ha1, ha2, ha3, ha4⟩ := ha
  obtain ⟨hb1, hb2, hb3, hb4⟩ := hb
  obtain ⟨hc1, hc2, hc3, hc4⟩ := hc
  have ht : ∃ t : K, splitT a b c = some t ∧ 0 ≤ t ∧ t ≤ 1 ∧ (c.y : K) * t + (1 - t) * a.y = b.y := by
    unfold splitT
    by_cases h : c.y ≠ a.y
    · rw [if_pos h, int32_bind (by omega) (by omega), int32_bind (by omega) (by omega)]
      have e1 : (0 : K) ≤ ((b.y - a.y : Int) : K) := by exact_mod_cast (by omega : 0 ≤ b.y - a.y)
      have e2 : (0 : K) < ((c.y - a.y : Int) : K) := by exact_mod_cast (by omega : 0 < c.y - a.y)
      have e3 : ((b.y - a.y : Int) : K) ≤ ((c.y - a.y : Int) : K) := by exact_mod_cast (by omega : b.y - a.y ≤ c.y - a.y)
      refine ⟨_, rfl, div_nonneg e1 e2.le, (div_le_one e2).2 e3, ?_⟩
      push_cast at e2 ⊢
      have e4 := ne_of_gt e2
      field_simp
      ring
    · rw [if_neg h]
      refine ⟨0, rfl, le_rfl, zero_le_one, ?_⟩
      have : a.y = b.y := by omega
      rw [this]
      ring
  obtain ⟨t, ht, h0, h1, hy⟩ := ht
  have lowx : ((min a.x c.x : Int) : K) ≤ (c.x : K) * t + (1 - t) * a.x := by
    have e1 : ((min a.x c.x : Int) : K) ≤ (a.x : K) := by exact_mod_cast min_le_left _ _
    have e2 : ((min a.x c.x : Int) : K) ≤ (c.x : K) := by exact_mod_cast min_le_right _ _
    have := mix_le h0 h1 e1 e2
    rwa [mix_const] at this
  have highx : (c.x : K) * t + (1 - t) * a.x ≤ ((max a.x c.x : Int) : K) := by
    have e1 : (a.x : K) ≤ ((max a.x c.x : Int) : K) := by exact_mod_cast le_max_left _ _
    have e2 : (c.x : K) ≤ ((max a.x c.x : Int) : K) := by exact_mod_cast le_max_right _ _
    have := mix_le h0 h1 e1 e2
    rwa [mix_const] at this
  have x1 := le_trunc_round lowx
  have x2 : trunc ((c.x : K) * t + (1 - t) * a.x + 1 / 2) ≤ max (max a.x c.x) 0 := by
    apply trunc_round_le (by omega)
    refine le_trans highx ?_
    exact_mod_cast le_max_left _ _
  have y0 : trunc ((c.y : K) * t + (1 - t) * a.y + 1 / 2) = if 0 ≤ b.y then b.y else b.y + 1 := by
    rw [hy, trunc_half]
  refine ⟨⟨trunc ((c.x : K) * t + (1 - t) * a.x + 1 / 2), trunc ((c.y : K) * t + (1 - t) * a.y + 1 / 2), c.w * t + (1 - t) * a.w⟩,
    ?_, y0, x1, ?_, by show -big ≤ trunc _; omega, by show trunc _ ≤ big; omega, fun lo hi hl hr => ?_⟩
  · unfold splitPoint
    rw [ht]
    simp only [bind, Option.bind_some]
    rw [assert_true h0, assert_true h1, toInt_some (by omega) (by omega), toInt_some (by rw [y0]; split <;> omega) (by rw [y0]; split <;> omega)]
    rfl
  · show trunc _ ≤ _ ∨ trunc _ ≤ _
    omega
  · constructor
    · have := mix_le h0 h1 hl.1 hr.1
      rwa [mix_const] at this
    · have := mix_le h0 h1 hl.2 hr.2
      rwa [mix_const] at this

/-- the two trapezes of a triangle whose points are ordered by rows -/
theorem halves_spec (rnd : K → K) {a b c : V K} (hab : a.y ≤ b.y) (hbc : b.y ≤ c.y) (hc0 : 0 < c.y) (ha : a.Small) (hb : b.Small) (hc : c.Small)
    (color : Int) {W H : Int} (hW : 0 < W) (hH : 0 < H) :
    ∃ (vis : Bool) (fs : List (Frag K)), (∀ fb : Fb K, fb.OK W H → halves rnd a b c (some color) fb = some (vis, fb.puts fs)) ∧
      (∀ f ∈ fs, f.color = color ∧ OnScreen W H f.x f.y ∧ f.y < H - 1 ∧ a.y ≤ f.y ∧ f.y < c.y ∧
        ∀ lo hi, lo ≤ a.w ∧ a.w ≤ hi → lo ≤ b.w ∧ b.w ≤ hi → lo ≤ c.w ∧ c.w ≤ hi → ∃ w, f.w = rnd w ∧ lo ≤ w ∧ w ≤ hi) := by
  obtain ⟨d, hd, dy, d1, d2, d3, d4, d5⟩ := splitPoint_spec hab hbc ha hb hc
  have hb' := hb
  have ha' := ha
  have hc' := hc
  obtain ⟨ha1, ha2, ha3, ha4⟩ := ha
  obtain ⟨hb1, hb2, hb3, hb4⟩ := hb
  obtain ⟨hc1, hc2, hc3, hc4⟩ := hc
  -- the two points in the middle, after the exchange
  have key : ∀ (b d : V K), b.x ≤ d.x → a.y ≤ b.y → b.y ≤ c.y → -big ≤ b.x → d.x ≤ big → 
      ∃ (vis : Bool) (fs : List (Frag K)), (∀ fb : Fb K, fb.OK W H →
        ((trapeze rnd ⟨a.x, a.w, a.x, a.w, a.y, b.x, b.w, d.x, d.w, b.y⟩ color fb).bind fun r1 =>
          (trapeze rnd ⟨b.x, b.w, d.x, d.w, b.y, c.x, c.w, c.x, c.w, c.y⟩ color r1.2).bind fun r2 => some (r1.1 || r2.1, r2.2)) = some (vis, fb.puts fs)) ∧
      (∀ f ∈ fs, f.color = color ∧ OnScreen W H f.x f.y ∧ f.y < H - 1 ∧ a.y ≤ f.y ∧ f.y < c.y ∧
        ∀ lo hi, lo ≤ a.w ∧ a.w ≤ hi → lo ≤ b.w ∧ b.w ≤ hi → lo ≤ d.w ∧ d.w ≤ hi → lo ≤ c.w ∧ c.w ≤ hi → ∃ w, f.w = rnd w ∧ lo ≤ w ∧ w ≤ hi) := by
    intro b d h1 h2 h3 h4 h5
    have cast : ∀ {m n : Int}, m ≤ n → (m : K) ≤ (n : K) := fun h => by exact_mod_cast h
    have lowc : ∀ {m : Int}, -big ≤ m → -((big : Int) : K) ≤ (m : K) := fun h => by exact_mod_cast h
    obtain ⟨v1, f1, p1, -, q1, r1, -, z1⟩ := trapeze_depth_partial rnd (q := ⟨a.x, a.w, a.x, a.w, a.y, b.x, b.w, d.x, d.w, b.y⟩)
      ⟨le_rfl, cast h1, h2, ⟨lowc ha1, lowc h4⟩, ⟨cast ha2, cast h5⟩, ha3, by show b.y ≤ big; omega⟩ color hW hH
    obtain ⟨v2, f2, p2, -, q2, r2, -, z2⟩ := trapeze_depth_partial rnd (q := ⟨b.x, b.w, d.x, d.w, b.y, c.x, c.w, c.x, c.w, c.y⟩)
      ⟨cast h1, le_rfl, h3, ⟨lowc h4, lowc hc1⟩, ⟨cast h5, cast hc2⟩, by show -big ≤ b.y; omega, hc4⟩ color hW hH
    refine ⟨v1 || v2, f1 ++ f2, fun fb hok => ?_, fun f hf => ?_⟩
    · rw [p1 fb hok, Option.bind_some]
      rw [p2 _ (hok.puts f1), Option.bind_some, Fb.puts_append]
    · rcases List.mem_append.1 hf with hf | hf
      · obtain ⟨o, g1, g2, g3, -⟩ := (r1 f.x f.y).1 ⟨f, hf, rfl, rfl⟩
        simp only at g1 g2 g3
        exact ⟨q1 f hf, o, by omega, g1, by omega, fun lo hi la lb ld lc => z1 f hf lo hi (mix_between g1 g2.le la lb) (mix_between g1 g2.le la ld)⟩
      · obtain ⟨o, g1, g2, g3, -⟩ := (r2 f.x f.y).1 ⟨f, hf, rfl, rfl⟩
        simp only at g1 g2 g3
        exact ⟨q2 f hf, o, by omega, by omega, g2, fun lo hi la lb ld lc => z2 f hf lo hi (mix_between g1 g2.le lb lc) (mix_between g1 g2.le ld lc)⟩
  unfold halves
  rw [hd]
  simp only [bind, Option.bind_some, pure]
  by_cases hx : d.x < b.x
  · simp only [if_pos hx]
    have e2 : a.y ≤ d.y := by rw [dy]; split <;> omega
    have e3 : d.y ≤ c.y := by rw [dy]; split <;> omega
    rw [assert_true hx.le, assert_true e2, assert_true e3]
    simp only [Option.bind_some]
    obtain ⟨vis, fs, k1, k2⟩ := key ⟨d.x, d.y, d.w⟩ ⟨b.x, d.y, b.w⟩ hx.le e2 e3 d3 hb2
    refine ⟨vis, fs, k1, fun f hf => ?_⟩
    obtain ⟨m1, m2, m3, m4, m5, m6⟩ := k2 f hf
    exact ⟨m1, m2, m3, m4, m5, fun lo hi la lb lc => m6 lo hi la (d5 lo hi la lc) lb lc⟩
  · simp only [if_neg hx]
    rw [assert_true (not_lt.1 hx), assert_true hab, assert_true hbc]
    simp only [Option.bind_some]
    obtain ⟨vis, fs, k1, k2⟩ := key b d (not_lt.1 hx) hab hbc hb1 d4
    refine ⟨vis, fs, k1, fun f hf => ?_⟩
    obtain ⟨m1, m2, m3, m4, m5, m6⟩ := k2 f hf
    exact ⟨m1, m2, m3, m4, m5, fun lo hi la lb lc => m6 lo hi la lb (d5 lo hi la lc) lc⟩

/-- **C68** (triangles): drawing a triangle whose projections are not too large never fails and
is the depth test for a list of fragments that depends on the triangle only. -/
theorem triangle_frags (rnd : K → K) {a b c : V K} (ha : a.Small) (hb : b.Small) (hc : c.Small)
    (color : Int) (two : Bool) {W H : Int} (hW : 0 < W) (hH : 0 < H) :
    ∃ (vis : Bool) (fs : List (Frag K)), (∀ fb : Fb K, fb.OK W H → triangleV rnd a b c (some color) two fb = some (vis, fb.puts fs)) ∧
      (∀ f ∈ fs, f.color = color ∧ OnScreen W H f.x f.y ∧ f.y < H - 1 ∧ min a.y (min b.y c.y) ≤ f.y ∧ f.y < max a.y (max b.y c.y) ∧
        ∀ lo hi, lo ≤ a.w ∧ a.w ≤ hi → lo ≤ b.w ∧ b.w ≤ hi → lo ≤ c.w ∧ c.w ≤ hi → ∃ w, f.w = rnd w ∧ lo ≤ w ∧ w ≤ hi) := by
  have hbig := big_eq
  have ha' := ha
  have hb' := hb
  have hc' := hc
  obtain ⟨ha1, ha2, ha3, ha4⟩ := ha
  obtain ⟨hb1, hb2, hb3, hb4⟩ := hb
  obtain ⟨hc1, hc2, hc3, hc4⟩ := hc
  have hback : ∃ bk, hidden two a b c = some bk := by
    unfold hidden
    split
    · unfold backFace
      rw [int32_bind (by omega) (by omega), int32_bind (by omega) (by omega), int32_bind (by omega) (by omega), int32_bind (by omega) (by omega)]
      exact ⟨_, rfl⟩
    · exact ⟨_, rfl⟩
  obtain ⟨bk, hbk⟩ := hback
  unfold triangleV
  rw [hbk]
  simp only [bind, Option.bind_some, pure]
  cases bk with
  | true => exact ⟨false, [], fun fb _ => rfl, by simp⟩
  | false =>
    by_cases ho : offScreen W H a b c = true
    · refine ⟨false, [], fun fb hok => ?_, by simp⟩
      simp only [Bool.false_eq_true, if_false]
      rw [hok.w, hok.h, if_pos ho]
      rfl
    · obtain ⟨s1, s2, s3⟩ := sortY_cases a b c
      have hpos : 0 < max a.y (max b.y c.y) := by
        by_contra hcon
        apply ho
        unfold offScreen
        have : a.y ≤ 0 ∧ b.y ≤ 0 ∧ c.y ≤ 0 := by omega
        simp [this.1, this.2.1, this.2.2]
      have small : (sortY a b c).1.Small ∧ (sortY a b c).2.1.Small ∧ (sortY a b c).2.2.Small := by
        rcases s3 with h | h | h | h | h | h <;> rw [h] <;> exact ⟨by assumption, by assumption, by assumption⟩
      have hmax : (sortY a b c).2.2.y = max a.y (max b.y c.y) ∧ (sortY a b c).1.y = min a.y (min b.y c.y) := by
        rcases s3 with h | h | h | h | h | h <;> rw [h] at s1 s2 ⊢ <;> simp only at s1 s2 ⊢ <;> omega
      obtain ⟨vis, fs, h1, h2⟩ := halves_spec rnd s1 s2 (by rw [hmax.1]; exact hpos) small.1 small.2.1 small.2.2 color hW hH
      refine ⟨vis, fs, fun fb hok => ?_, ?_⟩
      · simp only [Bool.false_eq_true, if_false]
        rw [hok.w, hok.h, if_neg ho]
        exact h1 fb hok
      · rw [hmax.1, hmax.2] at h2
        intro f hf
        obtain ⟨m1, m2, m3, m4, m5, m6⟩ := h2 f hf
        refine ⟨m1, m2, m3, m4, m5, fun lo hi la lb lc => ?_⟩
        rcases s3 with h | h | h | h | h | h <;> rw [h] at m6
        · exact m6 lo hi la lb lc
        · exact m6 lo hi la lc lb
        · exact m6 lo hi lb la lc
        · exact m6 lo hi lb lc la
        · exact m6 lo hi lc la lb
        · exact m6 lo hi lc lb la

end CAD.Render
