import Verif.Props.RendererLight

/-! The renderer: lines, polylines and the colours of lights (C98, C71). -/

namespace CAD.Render
set_option linter.unusedSimpArgs false
set_option linter.unusedSectionVars false
set_option linter.unusedVariables false
variable {K : Type} [Field K] [LinearOrder K] [IsStrictOrderedRing K] [FloorRing K]

/-! ### Specification -/

/-- the number of pixels of a line: its extent in columns or in rows, whichever is larger -/
def lineLen (a b : V K) : Int := max |b.x - a.x| |b.y - a.y|

/-- the `i`-th of `n` equal steps from `u` to `v` -/
def stepAt (u v : K) (n : Int) (i : Nat) : K := u + i * ((v - u) / n)

/-- the column, the row and the depth of the `i`-th pixel of a line -/
def lineX (a b : V K) (i : Nat) : Int := ⌊stepAt (a.x : K) b.x (lineLen a b) i⌋
def lineY (a b : V K) (i : Nat) : Int := ⌊stepAt (a.y : K) b.y (lineLen a b) i⌋
def lineW (a b : V K) (i : Nat) : K := stepAt a.w b.w (lineLen a b) i

/-! ### Lines -/

theorem stepAt_unit {u v n : Int} (h : |v - u| = n) (hn : 0 < n) (i : Nat) :
    ⌊stepAt (u : K) v n i⌋ = if 0 ≤ v - u then u + i else u - i := by
  unfold stepAt
  have hn' : (n : K) ≠ 0 := by exact_mod_cast hn.ne'
  by_cases h0 : 0 ≤ v - u
  · rw [if_pos h0]
    have e : ((v : K) - u) = n := by rw [← h, abs_of_nonneg h0]; push_cast; ring
    rw [e, div_self hn', mul_one]
    have : ((u : K) + (i : K)) = ((u + i : Int) : K) := by push_cast; ring
    rw [this, Int.floor_intCast]
  · rw [if_neg h0]
    have e : ((v : K) - u) = -n := by rw [← h, abs_of_neg (not_le.1 h0)]; push_cast; ring
    rw [e, neg_div, div_self hn']
    have : ((u : K) + (i : K) * -1) = ((u - i : Int) : K) := by push_cast; ring
    rw [this, Int.floor_intCast]

/-- no cell is visited twice -/
theorem line_inj {a b : V K} {i j : Nat} (hn : 0 < lineLen a b) (hx : lineX a b i = lineX a b j) (hy : lineY a b i = lineY a b j) : i = j := by
  rcases le_total |b.x - a.x| |b.y - a.y| with h | h
  · have e : |b.y - a.y| = lineLen a b := by unfold lineLen; rw [max_eq_right h]
    unfold lineY at hy
    rw [stepAt_unit e hn, stepAt_unit e hn] at hy
    split at hy <;> omega
  · have e : |b.x - a.x| = lineLen a b := by unfold lineLen; rw [max_eq_left h]
    unfold lineX at hx
    rw [stepAt_unit e hn, stepAt_unit e hn] at hx
    split at hx <;> omega

theorem plot_cell {fb : Fb K} {W H : Int} (h : fb.OK W H) {x y : Int} (hs : OnScreen W H x y) (cmp store : K) (color : Int) :
    ∃ fb' w c, fb.plot (x + y * W) cmp store color = some fb' ∧ fb'.OK W H ∧ fb.cell x y = some (w, c) ∧
      fb'.cell x y = some (if w < cmp then (store, color) else (w, c)) ∧
      ∀ x' y', ¬ (x' = x ∧ y' = y) → fb'.cell x' y' = fb.cell x' y' := by
  obtain ⟨hi1, hi2⟩ := index_lt hs
  have hd := h.dep
  have hp := h.pix
  have hld : (y * W + x).toNat < fb.dep.length := by omega
  have hlp : (y * W + x).toNat < fb.pix.length := by omega
  have hcell : fb.cell x y = some (fb.dep[(y * W + x).toNat], fb.pix[(y * W + x).toNat]) := by
    unfold Fb.cell
    rw [h.w, h.h, if_pos hs, List.getElem?_eq_getElem hld, List.getElem?_eq_getElem hlp]
  rw [show x + y * W = y * W + x by ring]
  have hg : getI fb.dep (y * W + x) = some fb.dep[(y * W + x).toNat] := by
    unfold getI
    rw [if_pos hi1, List.getElem?_eq_getElem hld]
  by_cases hlt : fb.dep[(y * W + x).toNat] < cmp
  · refine ⟨⟨fb.W, fb.H, fb.pix.set (y * W + x).toNat color, fb.dep.set (y * W + x).toNat store⟩, _, _, ?_, ⟨h.w, h.h, by simpa using hp, by simpa using hd⟩, hcell, ?_, ?_⟩
    · unfold Fb.plot
      rw [hg]
      simp only [bind, Option.bind_some, pure]
      rw [if_pos hlt]
      unfold setI
      rw [if_pos ⟨hi1, by omega⟩, if_pos ⟨hi1, by omega⟩]
      rfl
    · rw [if_pos hlt]
      unfold Fb.cell
      simp only
      rw [h.w, h.h, if_pos hs, List.getElem?_set_self hld, List.getElem?_set_self hlp]
    · intro x' y' hne
      unfold Fb.cell
      simp only
      rw [h.w, h.h]
      split
      · next hs' =>
        have hne' : (y * W + x).toNat ≠ (y' * W + x').toNat := by
          intro hc
          have := index_lt hs'
          exact hne (index_inj hs' hs (by omega))
        rw [List.getElem?_set_ne hne', List.getElem?_set_ne hne']
      · rfl
  · refine ⟨fb, _, _, ?_, h, hcell, by rw [if_neg hlt]; exact hcell, fun _ _ _ => rfl⟩
    unfold Fb.plot
    rw [hg]
    simp only [bind, Option.bind_some, pure]
    rw [if_neg hlt]

/-- **C98** (lines): a line consists of as many pixels as it is long in columns or rows,
beginning at its first end, without its second end; a pixel of it on the screen is painted
unless something is there that is nearer by at least `1/100000`; nothing else changes. -/
theorem line_cells (rnd : K → K) {a b : V K} (ha : a.Small) (hb : b.Small) (color : Int) {W H : Int} (hW : W ≤ 2147483647) (hH : H ≤ 2147483647)
    {fb : Fb K} (h : fb.OK W H) :
    ∃ fb', lineV rnd a b color fb = some fb' ∧ fb'.OK W H ∧
      (∀ i : Nat, (i : Int) < lineLen a b → OnScreen W H (lineX a b i) (lineY a b i) → ∃ w c, fb.cell (lineX a b i) (lineY a b i) = some (w, c) ∧
        fb'.cell (lineX a b i) (lineY a b i) = some (if w < lineW a b i + 1 / 100000 then (rnd (lineW a b i), color) else (w, c))) ∧
      (∀ x y, (∀ i : Nat, (i : Int) < lineLen a b → ¬ (x = lineX a b i ∧ y = lineY a b i)) → fb'.cell x y = fb.cell x y) := by
  have hbig := big_eq
  obtain ⟨ha1, ha2, ha3, ha4⟩ := ha
  obtain ⟨hb1, hb2, hb3, hb4⟩ := hb
  have him : (if |b.x - a.x| > |b.y - a.y| then |b.x - a.x| else |b.y - a.y|) = lineLen a b := by
    unfold lineLen
    split
    · next hc => rw [max_eq_left hc.le]
    · next hc => rw [max_eq_right (not_lt.1 hc)]
  have him1 : lineLen a b ≤ 2147483647 := by
    have e1 : |b.x - a.x| ≤ 2147483647 := abs_le.2 ⟨by omega, by omega⟩
    have e2 : |b.y - a.y| ≤ 2147483647 := abs_le.2 ⟨by omega, by omega⟩
    exact max_le e1 e2
  unfold lineV
  rw [int32_bind (by omega) (by omega), int32_bind (by omega) (by omega)]
  simp only
  rw [him, assert_true him1]
  simp only [bind, Option.bind_some, pure]
  split
  · next hlt => exact ⟨fb, rfl, h, fun i hi => by omega, fun _ _ _ => rfl⟩
  · next hge =>
    have hn : 0 < lineLen a b := by omega
    obtain ⟨fb', e, ok, i1, i2⟩ := loopN_inv (n := (lineLen a b).toNat) (f := fun i (f : Fb K) =>
        if 0 ≤ (a.x : K) + (i : K) * (((b.x - a.x : Int) : K) / ((lineLen a b : Int) : K)) ∧ (a.x : K) + (i : K) * (((b.x - a.x : Int) : K) / ((lineLen a b : Int) : K)) < (fb.W : K) ∧
            0 ≤ (a.y : K) + (i : K) * (((b.y - a.y : Int) : K) / ((lineLen a b : Int) : K)) ∧ (a.y : K) + (i : K) * (((b.y - a.y : Int) : K) / ((lineLen a b : Int) : K)) < (fb.H : K) then
          (toInt ((a.x : K) + (i : K) * (((b.x - a.x : Int) : K) / ((lineLen a b : Int) : K)))).bind fun x =>
            (toInt ((a.y : K) + (i : K) * (((b.y - a.y : Int) : K) / ((lineLen a b : Int) : K)))).bind fun y =>
              f.plot (x + y * fb.W) (a.w + (i : K) * ((b.w - a.w) / ((lineLen a b : Int) : K)) + wEpsilon) (rnd (a.w + (i : K) * ((b.w - a.w) / ((lineLen a b : Int) : K)))) color
        else some f) (s := fb)
      (fun n (f : Fb K) => f.OK W H ∧
      (∀ i : Nat, i < n → OnScreen W H (lineX a b i) (lineY a b i) → ∃ w c, fb.cell (lineX a b i) (lineY a b i) = some (w, c) ∧
        f.cell (lineX a b i) (lineY a b i) = some (if w < lineW a b i + 1 / 100000 then (rnd (lineW a b i), color) else (w, c))) ∧
      (∀ x y, (∀ i : Nat, i < n → ¬ (x = lineX a b i ∧ y = lineY a b i)) → f.cell x y = fb.cell x y))
      ⟨h, fun i hi => by omega, fun _ _ _ => rfl⟩ (by
        rintro i hi f ⟨ok, i1, i2⟩
        have ex : (a.x : K) + (i : K) * (((b.x - a.x : Int) : K) / ((lineLen a b : Int) : K)) = stepAt (a.x : K) b.x (lineLen a b) i := by unfold stepAt; push_cast; rfl
        have ey : (a.y : K) + (i : K) * (((b.y - a.y : Int) : K) / ((lineLen a b : Int) : K)) = stepAt (a.y : K) b.y (lineLen a b) i := by unfold stepAt; push_cast; rfl
        have ew : a.w + (i : K) * ((b.w - a.w) / ((lineLen a b : Int) : K)) = lineW a b i := rfl
        simp only [ex, ey, ew]
        rw [h.w, h.h]
        have hon : (0 ≤ stepAt (a.x : K) b.x (lineLen a b) i ∧ stepAt (a.x : K) b.x (lineLen a b) i < (W : K) ∧
            0 ≤ stepAt (a.y : K) b.y (lineLen a b) i ∧ stepAt (a.y : K) b.y (lineLen a b) i < (H : K)) ↔ OnScreen W H (lineX a b i) (lineY a b i) := by
          unfold OnScreen lineX lineY
          rw [Int.floor_nonneg, Int.floor_nonneg, Int.floor_lt, Int.floor_lt]
        by_cases hc : OnScreen W H (lineX a b i) (lineY a b i)
        · have hr := hon.2 hc
          rw [if_pos hr]
          have tx : ∀ {v : K} {n : Int}, 0 ≤ v → v < n → n ≤ 2147483647 → toInt v = some ⌊v⌋ := by
            intro v n h0 h1 h2
            have e : trunc v = ⌊v⌋ := by unfold trunc; rw [if_pos h0]
            have e1 : 0 ≤ ⌊v⌋ := Int.floor_nonneg.2 h0
            have e2 : ⌊v⌋ < n := Int.floor_lt.2 h1
            rw [← e] at e1 e2 ⊢
            exact toInt_some (by omega) (by omega)
          rw [tx hr.1 hr.2.1 hW, tx hr.2.2.1 hr.2.2.2 hH]
          simp only [Option.bind_some]
          obtain ⟨f', w, c, p1, p2, p3, p4, p5⟩ := plot_cell ok hc (lineW a b i + wEpsilon) (rnd (lineW a b i)) color
          have hnew : ∀ j : Nat, j < i → ¬ (lineX a b i = lineX a b j ∧ lineY a b i = lineY a b j) := fun j hj hij => by
            have := line_inj hn hij.1 hij.2
            omega
          have hold := i2 _ _ hnew
          refine ⟨f', p1, p2, fun j hj hjs => ?_, fun x y hxy => ?_⟩
          · by_cases hji : j = i
            · subst hji
              exact ⟨w, c, by rw [← hold]; exact p3, p4⟩
            · obtain ⟨w', c', q1, q2⟩ := i1 j (by omega) hjs
              refine ⟨w', c', q1, ?_⟩
              rw [p5 _ _ (fun hc => hnew j (by omega) ⟨hc.1.symm, hc.2.symm⟩)]
              exact q2
          · rw [p5 _ _ (hxy i (by omega))]
            exact i2 x y fun j hj => hxy j (by omega)
        · rw [if_neg (fun hr => hc (hon.1 hr))]
          refine ⟨f, rfl, ok, fun j hj hjs => ?_, fun x y hxy => i2 x y fun j hj => hxy j (by omega)⟩
          by_cases hji : j = i
          · subst hji
            exact absurd hjs hc
          · exact i1 j (by omega) hjs)
    exact ⟨fb', e, ok, fun i hi => i1 i (by omega), fun x y hxy => i2 x y fun i hi => hxy i (by omega)⟩

theorem loopN_front {σ : Type} (n : Nat) (f : Nat → σ → Res σ) (s : σ) : loopN (n + 1) f s = (f 0 s).bind (loopN n fun i => f (i + 1)) := by
  unfold loopN
  rw [List.range_succ_eq_map, List.foldlM_cons]
  simp only [bind, List.foldlM_map]

/-- **C98** (polylines): a polyline is the lines between all consecutive points, in order. -/
theorem polyline_segments (sc : Scene K) (ps : List (P3 K)) (color : Int) (fb : Fb K) :
    drawPolyline sc ps color fb = (ps.zip ps.tail).foldlM (fun fb s => drawLine sc s.1 s.2 color fb) fb := by
  unfold drawPolyline
  have key : ∀ (p : P3 K) (ps : List (P3 K)) (fb : Fb K), loopN ps.length (fun i fb => do
      let p ← (p :: ps)[i]?
      let q ← (p :: ps)[i + 1]?
      drawLine sc p q color fb) fb = ((p :: ps).zip ps).foldlM (fun fb s => drawLine sc s.1 s.2 color fb) fb := by
    intro p ps
    induction ps generalizing p with
    | nil => intro fb; rfl
    | cons q ps ih =>
      intro fb
      rw [List.length_cons, loopN_front]
      simp only [List.zip_cons_cons, List.foldlM_cons, List.getElem?_cons_zero, List.getElem?_cons_succ, bind, Option.bind_some]
      cases drawLine sc p q color fb with
      | none => rfl
      | some f => exact ih q f
  cases ps with
  | nil => rfl
  | cons p ps =>
    cases ps with
    | nil => rfl
    | cons q ps =>
      rw [if_neg (by simp)]
      exact key p (q :: ps) fb

/-! ### Lights -/

/-- a light as the user gives it: colour, factor and, for a diffuse light, the direction -/
structure Lamp (K : Type) where
  color : Int
  factor : K
  direction : Option (P3 K)

/-- the light made of it -/
def Lamp.light (l : Lamp K) : Light K :=
  match l.direction with
  | none => Light.newAmbient l.color l.factor
  | some d => Light.newDiffuse l.color l.factor d

/-- how strongly it lights a surface with normal `n` -/
def Lamp.power (l : Lamp K) (n : P3 K) : K :=
  match l.direction with
  | none => l.factor
  | some d => l.factor * max (n.dot d) 0

/-- one channel of the surface colour (`v`) with all lamps; `ch` gives the channel of the lamps -/
def lit (ls : List (Lamp K)) (n : P3 K) (ch : Int → Int) (v : Int) : K :=
  (ls.map fun l => (v : K) / 256 * ((ch l.color : K) / 256) * l.power n).sum

/-- **C71** (lights as they are created): red lights show red, green green, blue blue; every
channel of the colour is the rounded and limited sum over the lights of the product of both
channels, the factor, and for diffuse lights the cosine to the direction (zero behind). -/
theorem shade_lamps {ls : List (Lamp K)} (hl : ∀ l ∈ ls, 0 ≤ l.factor) (color : Int) (n : P3 K)
    (hr : lit ls n red (red color) < 8388607) (hg : lit ls n green (green color) < 8388607) (hb : lit ls n blue (blue color) < 8388607) :
    ∃ c, shade (ls.map Lamp.light) color (some n) = some c ∧ 0 ≤ c ∧ c < 16777216 ∧
      red c = byteOf (lit ls n red (red color)) ∧ green c = byteOf (lit ls n green (green color)) ∧ blue c = byteOf (lit ls n blue (blue color)) := by
  have e : ∀ (f : Light K → K) (ch : Int → Int) (v : Int), (∀ l : Lamp K, f l.light = l.factor * ch l.color / 256) →
      total (ls.map Lamp.light) n f v = lit ls n ch v := by
    intro f ch v hf
    unfold total lit
    rw [List.map_map]
    congr 1
    apply List.map_congr_left
    intro l _
    simp only [Function.comp]
    rw [hf]
    unfold Lamp.light Lamp.power
    cases l.direction with
    | none => simp only [Light.newAmbient, Light.strength]; ring
    | some d => simp only [Light.newDiffuse, Light.strength]; ring
  have e1 := e Light.r red (red color) (fun l => by unfold Lamp.light; cases l.direction <;> rfl)
  have e2 := e Light.g green (green color) (fun l => by unfold Lamp.light; cases l.direction <;> rfl)
  have e3 := e Light.b blue (blue color) (fun l => by unfold Lamp.light; cases l.direction <;> rfl)
  rw [← e1] at hr ⊢
  rw [← e2] at hg ⊢
  rw [← e3] at hb ⊢
  refine shade_spec ?_ color n hr hg hb
  intro l hl'
  obtain ⟨m, hm, rfl⟩ := List.mem_map.1 hl'
  have h0 := hl m hm
  obtain ⟨c1, c2, c3⟩ := channels m.color
  have k1 : (0 : K) ≤ red m.color := by exact_mod_cast c1.1
  have k2 : (0 : K) ≤ green m.color := by exact_mod_cast c2.1
  have k3 : (0 : K) ≤ blue m.color := by exact_mod_cast c3.1
  have q1 : m.light.r = m.factor * red m.color / 256 := by unfold Lamp.light; cases m.direction <;> rfl
  have q2 : m.light.g = m.factor * green m.color / 256 := by unfold Lamp.light; cases m.direction <;> rfl
  have q3 : m.light.b = m.factor * blue m.color / 256 := by unfold Lamp.light; cases m.direction <;> rfl
  rw [q1, q2, q3]
  exact ⟨by positivity, by positivity, by positivity⟩

/-- a half red ambient light and a full blue diffuse light that hits at a right angle -/
example : ∃ c, shade ([⟨0xff0000, 1 / 2, none⟩, ⟨0x0000ff, 1, some ⟨0, 0, 1⟩⟩].map Lamp.light) 0x808080 (some (⟨0, 0, 1⟩ : P3 ℚ)) = some c ∧
    red c = 64 ∧ green c = 0 ∧ blue c = 128 := by
  obtain ⟨c, h1, -, -, h2, h3, h4⟩ := shade_lamps (ls := [⟨0xff0000, 1 / 2, none⟩, ⟨0x0000ff, 1, some ⟨0, 0, 1⟩⟩]) (by simp) 0x808080 (⟨0, 0, 1⟩ : P3 ℚ)
    (by decide +kernel) (by decide +kernel) (by decide +kernel)
  exact ⟨c, h1, by rw [h2]; decide +kernel, by rw [h3]; decide +kernel, by rw [h4]; decide +kernel⟩

/-- a line of seven pixels, four of them on the screen, one of them behind something nearer -/
example : (lineV (K := ℚ) id ⟨-2, 0, 1⟩ ⟨5, 2, 1⟩ 9 ⟨4, 2, List.replicate 8 0, [0, 0, 0, 0, 0, 0, 2, 0]⟩).map (fun f => f.pix) = some [9, 9, 0, 0, 0, 0, 0, 9] := by
  decide +kernel

end CAD.Render
