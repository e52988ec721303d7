import Verif.Props.Renderer
import Verif.Lemmas.Build

/-! The renderer: every sequence of drawings stays inside the buffers (C68), the depth buffer
keeps the nearest surface (C69). -/

namespace CAD.Render
set_option linter.unusedSimpArgs false
set_option linter.unusedSectionVars false
set_option linter.unusedVariables false
variable {K : Type} [Field K] [LinearOrder K] [IsStrictOrderedRing K] [FloorRing K]

/-! ### The depth test -/

theorem put_cell {fb : Fb K} {W H : Int} (h : fb.OK W H) {f : Frag K} (hf : OnScreen W H f.x f.y) {x y : Int} (hs : OnScreen W H x y) :
    ∃ w c, fb.cell x y = some (w, c) ∧ (fb.put f).cell x y = if f.x = x ∧ f.y = y ∧ w < f.w then some (f.w, f.color) else some (w, c) := by
  obtain ⟨hi1, hi2⟩ := index_lt hs
  obtain ⟨hj1, hj2⟩ := index_lt hf
  have hd := h.dep
  have hp := h.pix
  have hld : (y * W + x).toNat < fb.dep.length := by omega
  have hlp : (y * W + x).toNat < fb.pix.length := by omega
  have hcell : fb.cell x y = some (fb.dep[(y * W + x).toNat], fb.pix[(y * W + x).toNat]) := by
    unfold Fb.cell
    rw [h.w, h.h, if_pos hs, List.getElem?_eq_getElem hld, List.getElem?_eq_getElem hlp]
  refine ⟨_, _, hcell, ?_⟩
  by_cases he : f.x = x ∧ f.y = y
  · obtain ⟨rfl, rfl⟩ := he
    simp only [true_and]
    unfold Fb.put
    simp only [h.w]
    have hg : fb.dep.getD (f.y * W + f.x).toNat 0 = fb.dep[(f.y * W + f.x).toNat] := by
      rw [List.getD_eq_getElem?_getD, List.getElem?_eq_getElem hld]; rfl
    rw [hg]
    split
    · unfold Fb.cell
      simp only
      rw [h.h, if_pos hs, List.getElem?_set_self hld, List.getElem?_set_self hlp]
    · exact hcell
  · rw [if_neg (fun hc => he ⟨hc.1, hc.2.1⟩), ← hcell]
    unfold Fb.put
    simp only [h.w]
    split
    · unfold Fb.cell
      simp only [h.w]
      rw [h.h, if_pos hs, if_pos hs]
      have hne : (f.y * W + f.x).toNat ≠ (y * W + x).toNat := by
        intro hc
        exact he (index_inj hf hs (by omega))
      rw [List.getElem?_set_ne hne, List.getElem?_set_ne hne]
    · rfl

/-- **C69** (one picture): after any list of fragments every cell holds the nearest of what it
held before and the fragments that fell on it, with the colour belonging to that depth. -/
theorem puts_nearest {fb : Fb K} {W H : Int} (h : fb.OK W H) {fs : List (Frag K)} (hf : ∀ f ∈ fs, OnScreen W H f.x f.y)
    {x y : Int} (hs : OnScreen W H x y) :
    ∃ w0 c0 w c, fb.cell x y = some (w0, c0) ∧ (fb.puts fs).cell x y = some (w, c) ∧
      w0 ≤ w ∧ (∀ f ∈ fs, f.x = x → f.y = y → f.w ≤ w) ∧
      ((w = w0 ∧ c = c0) ∨ w0 < w ∧ ∃ f ∈ fs, f.x = x ∧ f.y = y ∧ f.w = w ∧ f.color = c) := by
  induction fs using List.reverseRecOn with
  | nil =>
    obtain ⟨w, c, e, -⟩ := put_cell (fb := fb) h (f := ⟨x, y, 0, 0⟩) hs hs
    exact ⟨w, c, w, c, e, e, le_rfl, by simp, Or.inl ⟨rfl, rfl⟩⟩
  | append_singleton fs f ih =>
    obtain ⟨w0, c0, w, c, e0, e1, h1, h2, h3⟩ := ih (fun g hg => hf g (by simp [hg]))
    obtain ⟨w', c', e2, e3⟩ := put_cell (h.puts fs) (hf f (by simp)) hs
    rw [e1] at e2
    obtain ⟨rfl, rfl⟩ : w = w' ∧ c = c' := by simpa using e2
    have e4 : (fb.puts (fs ++ [f])).cell x y = ((fb.puts fs).put f).cell x y := by
      rw [Fb.puts_append]
      rfl
    rw [e3] at e4
    by_cases hc : f.x = x ∧ f.y = y ∧ w < f.w
    · rw [if_pos hc] at e4
      refine ⟨w0, c0, f.w, f.color, e0, e4, by linarith [hc.2.2], ?_, Or.inr ⟨by linarith [hc.2.2], f, by simp, hc.1, hc.2.1, rfl, rfl⟩⟩
      intro g hg gx gy
      rcases List.mem_append.1 hg with hg | hg
      · exact le_trans (h2 g hg gx gy) hc.2.2.le
      · obtain rfl : g = f := by simpa using hg
        exact le_rfl
    · rw [if_neg hc] at e4
      refine ⟨w0, c0, w, c, e0, e4, h1, ?_, ?_⟩
      · intro g hg gx gy
        rcases List.mem_append.1 hg with hg | hg
        · exact h2 g hg gx gy
        · obtain rfl : g = f := by simpa using hg
          by_contra hcon
          exact hc ⟨gx, gy, not_le.1 hcon⟩
      · rcases h3 with h3 | ⟨h3, g, hg, h4⟩
        · exact Or.inl h3
        · exact Or.inr ⟨h3, g, by simp [hg], h4⟩

/-- buffers with the same cells are equal -/
theorem ext_cell {fb fb' : Fb K} {W H : Int} (h : fb.OK W H) (h' : fb'.OK W H) (hW : 0 < W) 
    (he : ∀ x y, OnScreen W H x y → fb.cell x y = fb'.cell x y) : fb = fb' := by
  have hd := h.dep
  have hp := h.pix
  have hd' := h'.dep
  have hp' := h'.pix
  have key : ∀ i : Nat, (i : Int) < W * H → fb.dep[i]? = fb'.dep[i]? ∧ fb.pix[i]? = fb'.pix[i]? := by
    intro i hi
    have hs : OnScreen W H ((i : Int) % W) ((i : Int) / W) :=
      ⟨Int.emod_nonneg _ (by omega), Int.emod_lt_of_pos _ hW, Int.ediv_nonneg (by omega) hW.le, Int.ediv_lt_of_lt_mul hW (by linarith [mul_comm W H])⟩
    have := he _ _ hs
    unfold Fb.cell at this
    rw [h.w, h.h, h'.w, h'.h, if_pos hs, if_pos hs] at this
    have hidx : ((i : Int) / W * W + (i : Int) % W).toNat = i := by
      have := Int.ediv_mul_add_emod (i : Int) W
      omega
    rw [hidx] at this
    rw [List.getElem?_eq_getElem (by omega : i < fb.dep.length), List.getElem?_eq_getElem (by omega : i < fb.pix.length),
      List.getElem?_eq_getElem (by omega : i < fb'.dep.length), List.getElem?_eq_getElem (by omega : i < fb'.pix.length)] at this ⊢
    simp only [Option.some.injEq, Prod.mk.injEq] at this
    rw [this.1, this.2]
    exact ⟨rfl, rfl⟩
  have e1 : fb.dep = fb'.dep := by
    apply List.ext_getElem?
    intro i
    by_cases hi : (i : Int) < W * H
    · exact (key i hi).1
    · rw [List.getElem?_eq_none (by omega), List.getElem?_eq_none (by omega)]
  have e2 : fb.pix = fb'.pix := by
    apply List.ext_getElem?
    intro i
    by_cases hi : (i : Int) < W * H
    · exact (key i hi).2
    · rw [List.getElem?_eq_none (by omega), List.getElem?_eq_none (by omega)]
  have e3 := h.w.trans h'.w.symm
  have e4 := h.h.trans h'.h.symm
  cases fb
  cases fb'
  simp only at e1 e2 e3 e4
  subst e1 e2 e3 e4
  rfl

/-- **C69** (order): two lists with the same fragments in any order, and any number of times,
give the same buffers, provided that no cell gets two colours at the same depth. -/
theorem puts_order {fb : Fb K} {W H : Int} (h : fb.OK W H) (hW : 0 < W) {fs gs : List (Frag K)} (hf : ∀ f ∈ fs, OnScreen W H f.x f.y)
    (hm : ∀ f, f ∈ fs ↔ f ∈ gs)
    (ht : ∀ f ∈ fs, ∀ g ∈ fs, f.x = g.x → f.y = g.y → f.w = g.w → f.color = g.color) : fb.puts fs = fb.puts gs := by
  refine ext_cell (h.puts fs) (h.puts gs) hW fun x y hs => ?_
  obtain ⟨w0, c0, w, c, e0, e1, h1, h2, h3⟩ := puts_nearest h hf hs
  obtain ⟨w0', c0', w', c', e0', e1', h1', h2', h3'⟩ := puts_nearest h (fs := gs) (fun f hg => hf f ((hm f).2 hg)) hs
  rw [e0] at e0'
  obtain ⟨rfl, rfl⟩ : w0 = w0' ∧ c0 = c0' := by simpa using e0'
  have hle : w ≤ w' := by
    rcases h3 with ⟨rfl, -⟩ | ⟨-, f, hf1, hx, hy, rfl, -⟩
    · exact h1'
    · exact h2' f ((hm f).1 hf1) hx hy
  have hge : w' ≤ w := by
    rcases h3' with ⟨rfl, -⟩ | ⟨-, f, hf1, hx, hy, rfl, -⟩
    · exact h1
    · exact h2 f ((hm f).2 hf1) hx hy
  obtain rfl : w = w' := le_antisymm hle hge
  rw [e1, e1']
  rcases h3 with ⟨e3, rfl⟩ | ⟨h3, f, hf1, hx, hy, fw, rfl⟩
  · rcases h3' with ⟨-, rfl⟩ | ⟨h3', -⟩
    · rfl
    · exact absurd h3' (by rw [e3]; exact lt_irrefl _)
  · rcases h3' with ⟨e3, rfl⟩ | ⟨-, g, hg1, gx, gy, gw, rfl⟩
    · exact absurd h3 (by rw [e3]; exact lt_irrefl _)
    · rw [ht f hf1 g ((hm g).2 hg1) (hx.trans gx.symm) (hy.trans gy.symm) (fw.trans gw.symm)]

/-! ### Projection -/

/-- a point that is not in the plane of the eye and whose projection is not too far from the
screen -/
def InView (c : Camera K) (p : P3 K) : Prop :=
  (c.localRef p).z ≠ 0 ∧
    |(c.localRef p).x * c.zoom / (c.localRef p).z + c.cx| ≤ (big : K) ∧ |(c.localRef p).y * c.zoom / (c.localRef p).z + c.cy| ≤ (big : K)

/-- the projection of a point: rounded coordinates and `1/z` -/
theorem project_eq {c : Camera K} {p : P3 K} (h : InView c p) :
    ∃ v, c.project p = some v ∧ v.Small ∧
      v.x = trunc ((c.localRef p).x * c.zoom / (c.localRef p).z + c.cx + 1 / 2) ∧
      v.y = trunc ((c.localRef p).y * c.zoom / (c.localRef p).z + c.cy + 1 / 2) ∧ v.w = 1 / (c.localRef p).z := by
  have hbig := big_eq
  obtain ⟨h1, h2, h3⟩ := h
  rw [abs_le] at h2 h3
  have hb : ((-big : Int) : K) = -((big : Int) : K) := by push_cast; rfl
  rw [← hb] at h2 h3
  have x1 := le_trunc_round h2.1
  have x2 := trunc_round_le (by decide) h2.2
  have y1 := le_trunc_round h3.1
  have y2 := trunc_round_le (by decide) h3.2
  refine ⟨⟨_, _, _⟩, ?_, ⟨x1, x2, y1, y2⟩, rfl, rfl, rfl⟩
  unfold Camera.project
  simp only [bind]
  rw [assert_true h1, toInt_some (by omega) (by omega), toInt_some (by omega) (by omega)]
  rfl

/-! ### Safety of all drawings -/

theorem plot_ok {fb : Fb K} {W H : Int} (h : fb.OK W H) {i : Int} (h0 : 0 ≤ i) (h1 : i < W * H) (cmp store : K) (color : Int) :
    ∃ fb', fb.plot i cmp store color = some fb' ∧ fb'.OK W H := by
  have hd := h.dep
  have hp := h.pix
  have hlt : i.toNat < fb.dep.length := by omega
  unfold Fb.plot
  have hg : getI fb.dep i = some (fb.dep.getD i.toNat 0) := by
    unfold getI
    rw [if_pos h0, List.getD_eq_getElem?_getD, List.getElem?_eq_getElem hlt]
    rfl
  rw [hg]
  simp only [bind, Option.bind_some, pure]
  split
  · unfold setI
    rw [if_pos ⟨h0, by omega⟩, if_pos ⟨h0, by omega⟩]
    exact ⟨_, rfl, ⟨h.w, h.h, by simpa using hp, by simpa using hd⟩⟩
  · exact ⟨fb, rfl, h⟩

theorem lineV_ok (rnd : K → K) {a b : V K} (ha : a.Small) (hb : b.Small) (color : Int) {W H : Int} (hW : W ≤ 2147483647) (hH : H ≤ 2147483647)
    {fb : Fb K} (h : fb.OK W H) : ∃ fb', lineV rnd a b color fb = some fb' ∧ fb'.OK W H := by
  have hbig := big_eq
  obtain ⟨ha1, ha2, ha3, ha4⟩ := ha
  obtain ⟨hb1, hb2, hb3, hb4⟩ := hb
  unfold lineV
  rw [int32_bind (by omega) (by omega), int32_bind (by omega) (by omega)]
  simp only
  generalize him : (if |b.x - a.x| > |b.y - a.y| then |b.x - a.x| else |b.y - a.y|) = im
  have him1 : im ≤ 2147483647 := by
    have e1 : |b.x - a.x| ≤ 2147483647 := abs_le.2 ⟨by omega, by omega⟩
    have e2 : |b.y - a.y| ≤ 2147483647 := abs_le.2 ⟨by omega, by omega⟩
    rw [← him]
    split
    · exact e1
    · exact e2
  rw [assert_true him1]
  simp only [bind, Option.bind_some, pure]
  split
  · exact ⟨fb, rfl, h⟩
  · refine loopN_inv (fun _ (f : Fb K) => f.OK W H) h fun i hi f hf => ?_
    split
    · next hc =>
      obtain ⟨c1, c2, c3, c4⟩ := hc
      rw [h.w] at c2
      rw [h.h] at c4
      have tx : ∀ {v : K} {n : Int}, 0 ≤ v → v < n → n ≤ 2147483647 → toInt v = some (trunc v) ∧ 0 ≤ trunc v ∧ trunc v < n := by
        intro v n h0 h1 h2
        have e : trunc v = ⌊v⌋ := by unfold trunc; rw [if_pos h0]
        have e1 : 0 ≤ ⌊v⌋ := Int.floor_nonneg.2 h0
        have e2 : ⌊v⌋ < n := Int.floor_lt.2 h1
        rw [← e] at e1 e2
        exact ⟨toInt_some (by omega) (by omega), e1, e2⟩
      obtain ⟨x1, x2, x3⟩ := tx c1 c2 hW
      obtain ⟨y1, y2, y3⟩ := tx c3 c4 hH
      rw [x1, y1]
      simp only [Option.bind_some]
      rw [h.w]
      obtain ⟨i1, i2⟩ := index_lt (W := W) (H := H) ⟨x2, x3, y2, y3⟩
      exact plot_ok hf (by linarith) (by linarith) _ _ _
    · exact ⟨f, rfl, hf⟩

/-- a triangle that can be drawn: its corners are in view and its colour is defined -/
def Drawable (sc : Scene K) (color : Int) (t : Tri3 K) : Prop :=
  InView sc.camera t.p1 ∧ InView sc.camera t.p2 ∧ InView sc.camera t.p3 ∧ ∃ c, shade sc.lights color (sc.normal t) = some c

theorem drawTriangle_frags {sc : Scene K} {color : Int} {t : Tri3 K} (ht : Drawable sc color t) (two : Bool) {W H : Int} (hW : 0 < W) (hH : 0 < H) :
    ∃ (vis : Bool) (fs : List (Frag K)), (∀ fb : Fb K, fb.OK W H → drawTriangle sc t color two fb = some (vis, fb.puts fs)) ∧
      (∀ f ∈ fs, shade sc.lights color (sc.normal t) = some f.color ∧ OnScreen W H f.x f.y ∧ f.y < H - 1 ∧
        ∀ lo hi : K, (∀ p ∈ [t.p1, t.p2, t.p3], lo ≤ 1 / (sc.camera.localRef p).z ∧ 1 / (sc.camera.localRef p).z ≤ hi) →
          ∃ w, f.w = sc.rnd w ∧ lo ≤ w ∧ w ≤ hi) := by
  obtain ⟨h1, h2, h3, c, hc⟩ := ht
  obtain ⟨a, ha, sa, -, -, wa⟩ := project_eq h1
  obtain ⟨b, hb, sb, -, -, wb⟩ := project_eq h2
  obtain ⟨d, hd, sd, -, -, wd⟩ := project_eq h3
  obtain ⟨vis, fs, e1, e2⟩ := triangle_frags sc.rnd sa sb sd c two hW hH
  refine ⟨vis, fs, fun fb hok => ?_, fun f hf => ⟨by rw [hc, (e2 f hf).1], (e2 f hf).2.1, (e2 f hf).2.2.1, fun lo hi hw => ?_⟩⟩
  case refine_2 =>
    refine (e2 f hf).2.2.2.2.2 lo hi ?_ ?_ ?_
    · rw [wa]; exact hw _ (by simp)
    · rw [wb]; exact hw _ (by simp)
    · rw [wd]; exact hw _ (by simp)
  unfold drawTriangle
  rw [ha, hb, hd, hc]
  exact e1 fb hok

theorem drawLine_ok {sc : Scene K} {p q : P3 K} (hp : InView sc.camera p) (hq : InView sc.camera q) (color : Int) {W H : Int}
    (hW : W ≤ 2147483647) (hH : H ≤ 2147483647) {fb : Fb K} (h : fb.OK W H) : ∃ fb', drawLine sc p q color fb = some fb' ∧ fb'.OK W H := by
  obtain ⟨a, ha, sa, -⟩ := project_eq hp
  obtain ⟨b, hb, sb, -⟩ := project_eq hq
  unfold drawLine
  rw [ha, hb]
  exact lineV_ok sc.rnd sa sb color hW hH h

/-- the calls of the renderer that draw -/
inductive Cmd (K : Type)
  | mesh (m : Mesh K) (edges : Bool) (color : Int)
  | triangle (t : Tri3 K) (color : Int) (twoFaces : Bool)
  | line (p q : P3 K) (color : Int)
  | polyline (ps : List (P3 K)) (color : Int)
  | pixel (p : P3 K) (color : Int)

/-- executing a call -/
def Cmd.run (sc : Scene K) : Cmd K → Fb K → Res (Fb K)
  | .mesh m e c, fb => drawMesh sc m e c fb
  | .triangle t c two, fb => (drawTriangle sc t c two fb).map Prod.snd
  | .line p q c, fb => drawLine sc p q c fb
  | .polyline ps c, fb => drawPolyline sc ps c fb
  | .pixel p c, fb => drawPixel sc p c fb

/-- all points of the call are in view, all colours are defined -/
def Cmd.Drawable (sc : Scene K) : Cmd K → Prop
  | .mesh m _ c => m.OK ∧ ∀ t ∈ m.triangles, Render.Drawable sc (if c = -1 then m.getColor else c) t
  | .triangle t c _ => Render.Drawable sc c t
  | .line p q _ => InView sc.camera p ∧ InView sc.camera q
  | .polyline ps _ => ∀ p ∈ ps, InView sc.camera p
  | .pixel p _ => InView sc.camera p

/-- **C68**: whatever is drawn, in any order, the drawing is defined (no failing assertion, no
overflow, no access outside the buffers) and the buffers keep their size. -/
theorem render_safe_partial (sc : Scene K) {W H : Int} (hW : 0 < W) (hH : 0 < H) (hW' : W ≤ 2147483647) (hH' : H ≤ 2147483647)
    (cmds : List (Cmd K)) (hc : ∀ c ∈ cmds, c.Drawable sc) {fb : Fb K} (h : fb.OK W H) :
    ∃ fb', cmds.foldlM (fun fb c => c.run sc fb) fb = some fb' ∧ fb'.OK W H := by
  have one : ∀ c : Cmd K, c.Drawable sc → ∀ fb : Fb K, fb.OK W H → ∃ fb', c.run sc fb = some fb' ∧ fb'.OK W H := by
    intro c hd fb h
    cases c with
    | mesh m e c =>
      obtain ⟨hm, hd⟩ := hd
      show ∃ fb', drawMesh sc m e c fb = some fb' ∧ _
      unfold drawMesh
      simp only
      generalize (if c = -1 then m.getColor else c) = c at hd ⊢
      rw [Mesh.loop_soup hm (drawMeshTriangle sc m e c) (fun t fb => do
        let (drawn, fb) ← drawTriangle sc t c false fb
        if e ∧ drawn then do
          let fb ← drawLine sc t.p1 t.p2 0 fb
          let fb ← drawLine sc t.p1 t.p3 0 fb
          drawLine sc t.p2 t.p3 0 fb
        else return fb) (fun i s hu => by simp [drawMeshTriangle, hu]) (fun i t s hu ht => by simp [drawMeshTriangle, hu, ht])]
      generalize m.triangles = ts at hd
      induction ts generalizing fb with
      | nil => exact ⟨fb, rfl, h⟩
      | cons t ts ih =>
        rw [List.foldlM_cons]
        have ht := hd t (by simp)
        obtain ⟨vis, fs, e1, -⟩ := drawTriangle_frags ht false hW hH
        have hstep : ∃ fb1, (do
            let (drawn, fb) ← drawTriangle sc t c false fb
            if e ∧ drawn then do
              let fb ← drawLine sc t.p1 t.p2 0 fb
              let fb ← drawLine sc t.p1 t.p3 0 fb
              drawLine sc t.p2 t.p3 0 fb
            else return fb : Res (Fb K)) = some fb1 ∧ fb1.OK W H := by
          rw [e1 fb h]
          simp only [bind, Option.bind_some, pure]
          split
          · obtain ⟨f1, g1, o1⟩ := drawLine_ok ht.1 ht.2.1 0 hW' hH' (h.puts fs)
            obtain ⟨f2, g2, o2⟩ := drawLine_ok ht.1 ht.2.2.1 0 hW' hH' o1
            obtain ⟨f3, g3, o3⟩ := drawLine_ok ht.2.1 ht.2.2.1 0 hW' hH' o2
            rw [g1, Option.bind_some, g2, Option.bind_some, g3]
            exact ⟨f3, rfl, o3⟩
          · exact ⟨_, rfl, h.puts fs⟩
        obtain ⟨fb1, g1, o1⟩ := hstep
        rw [g1]
        exact ih fb1 o1 (fun u hu => hd u (by simp [hu]))
    | triangle t c two =>
      obtain ⟨vis, fs, e1, -⟩ := drawTriangle_frags hd two hW hH
      exact ⟨fb.puts fs, by show Option.map _ _ = _; rw [e1 fb h]; rfl, h.puts fs⟩
    | line p q c => exact drawLine_ok hd.1 hd.2 c hW' hH' h
    | polyline ps c =>
      show ∃ fb', drawPolyline sc ps c fb = some fb' ∧ _
      unfold drawPolyline
      split
      · exact ⟨fb, rfl, h⟩
      · next hl =>
        refine loopN_inv (fun _ (f : Fb K) => f.OK W H) h fun i hi f hf => ?_
        rw [List.getElem?_eq_getElem (by omega : i < ps.length), List.getElem?_eq_getElem (by omega : i + 1 < ps.length)]
        simp only [bind, Option.bind_some]
        exact drawLine_ok (hd _ (List.getElem_mem _)) (hd _ (List.getElem_mem _)) c hW' hH' hf
    | pixel p c =>
      obtain ⟨v, hv, sv, -⟩ := project_eq (show InView sc.camera p from hd)
      show ∃ fb', drawPixel sc p c fb = some fb' ∧ _
      unfold drawPixel
      rw [hv]
      simp only [bind, Option.bind_some, pure]
      rw [h.w, h.h]
      split
      · exact ⟨fb, rfl, h⟩
      · obtain ⟨i1, i2⟩ := index_lt (W := W) (H := H) (x := v.x) (y := v.y) ⟨by omega, by omega, by omega, by omega⟩
        exact plot_ok h (by linarith) (by linarith) _ _ _
  induction cmds generalizing fb with
  | nil => exact ⟨fb, rfl, h⟩
  | cons c cs ih =>
    rw [List.foldlM_cons]
    obtain ⟨fb1, g1, o1⟩ := one c (hc c (by simp)) fb h
    rw [g1]
    exact ih (fun d hd => hc d (by simp [hd])) o1

/-! ### Pictures of meshes -/

/-- **C69** (meshes): the picture of a mesh without its edges is the depth test for the
fragments of its linked triangles; the fragments of a triangle depend on the triangle only. -/
theorem mesh_frags (sc : Scene K) {color : Int} (hcol : color ≠ -1) {W H : Int} (hW : 0 < W) (hH : 0 < H) :
    ∃ frs : Tri3 K → List (Frag K),
      (∀ t, Drawable sc color t → ∀ f ∈ frs t, shade sc.lights color (sc.normal t) = some f.color ∧ OnScreen W H f.x f.y ∧ f.y < H - 1 ∧
        ∀ lo hi : K, (∀ p ∈ [t.p1, t.p2, t.p3], lo ≤ 1 / (sc.camera.localRef p).z ∧ 1 / (sc.camera.localRef p).z ≤ hi) →
          ∃ w, f.w = sc.rnd w ∧ lo ≤ w ∧ w ≤ hi) ∧
      ∀ m : Mesh K, m.OK → (∀ t ∈ m.triangles, Drawable sc color t) → ∀ fb : Fb K, fb.OK W H →
        drawMesh sc m false color fb = some (fb.puts (m.triangles.flatMap frs)) := by
  classical
  refine ⟨fun t => if ht : Drawable sc color t then (drawTriangle_frags ht false hW hH).choose_spec.choose else [], ?_, ?_⟩
  · intro t ht f hf
    simp only [dif_pos ht] at hf
    exact (drawTriangle_frags ht false hW hH).choose_spec.choose_spec.2 f hf
  · intro m hm hd fb h
    unfold drawMesh
    simp only
    rw [if_neg hcol]
    rw [Mesh.loop_soup hm (drawMeshTriangle sc m false color) (fun t fb => (drawTriangle sc t color false fb).map Prod.snd)
      (fun i s hu => by simp [drawMeshTriangle, hu])
      (fun i t s hu ht => by cases hx : drawTriangle sc t color false s <;> simp [drawMeshTriangle, hu, ht, hx])]
    generalize m.triangles = ts at hd
    induction ts generalizing fb with
    | nil => rfl
    | cons t ts ih =>
      rw [List.foldlM_cons, List.flatMap_cons, Fb.puts_append]
      have ht := hd t (by simp)
      rw [dif_pos ht, (drawTriangle_frags ht false hW hH).choose_spec.choose_spec.1 fb h]
      exact ih _ (h.puts _) (fun u hu => hd u (by simp [hu]))

/-- **C69**: two meshes with the same triangles in any order give the same picture, when all
their triangles get the same colour (for example with ambient lights only). -/
theorem mesh_order {sc : Scene K} {color : Int} (hcol : color ≠ -1) {W H : Int} (hW : 0 < W) (hH : 0 < H) {m m' : Mesh K} (hm : m.OK) (hm' : m'.OK)
    (hp : m.triangles.Perm m'.triangles) (hd : ∀ t ∈ m.triangles, Drawable sc color t)
    (hs : ∀ t ∈ m.triangles, ∀ u ∈ m.triangles, shade sc.lights color (sc.normal t) = shade sc.lights color (sc.normal u))
    {fb : Fb K} (h : fb.OK W H) : ∃ fb', drawMesh sc m false color fb = some fb' ∧ drawMesh sc m' false color fb = some fb' := by
  obtain ⟨frs, h1, h2⟩ := mesh_frags sc hcol hW hH
  refine ⟨_, h2 m hm hd fb h, ?_⟩
  rw [h2 m' hm' (fun t ht => hd t (hp.mem_iff.2 ht)) fb h]
  congr 1
  symm
  refine puts_order h hW ?_ ?_ ?_
  · intro f hf
    obtain ⟨t, ht, hf⟩ := List.mem_flatMap.1 hf
    exact (h1 t (hd t ht) f hf).2.1
  · intro f
    exact (hp.flatMap_right frs).mem_iff
  · intro f hf g hg _ _ _
    obtain ⟨t, ht, hf⟩ := List.mem_flatMap.1 hf
    obtain ⟨u, hu, hg⟩ := List.mem_flatMap.1 hg
    have e1 := (h1 t (hd t ht) f hf).1
    have e2 := (h1 u (hd u hu) g hg).1
    rw [hs t ht u hu, e2] at e1
    simpa using e1.symm

/-- **C69** (meshes): drawing a mesh without its edges never makes a cell farther, and a cell
that changes gets a depth within the depths of the corners of one of the triangles (up to the
conversion to `float`) and the colour of that triangle. -/
theorem mesh_nearer {sc : Scene K} {color : Int} (hcol : color ≠ -1) {W H : Int} (hW : 0 < W) (hH : 0 < H) {m : Mesh K} (hm : m.OK)
    (hd : ∀ t ∈ m.triangles, Drawable sc color t) {fb : Fb K} (h : fb.OK W H) {x y : Int} (hs : OnScreen W H x y) :
    ∃ fb' w0 c0 w c, drawMesh sc m false color fb = some fb' ∧ fb.cell x y = some (w0, c0) ∧ fb'.cell x y = some (w, c) ∧ w0 ≤ w ∧
      ((w = w0 ∧ c = c0) ∨ w0 < w ∧ y < H - 1 ∧ ∃ t ∈ m.triangles, shade sc.lights color (sc.normal t) = some c ∧
        ∀ lo hi : K, (∀ p ∈ [t.p1, t.p2, t.p3], lo ≤ 1 / (sc.camera.localRef p).z ∧ 1 / (sc.camera.localRef p).z ≤ hi) →
          ∃ v, w = sc.rnd v ∧ lo ≤ v ∧ v ≤ hi) := by
  obtain ⟨frs, h1, h2⟩ := mesh_frags sc hcol hW hH
  have hon : ∀ f ∈ m.triangles.flatMap frs, OnScreen W H f.x f.y := by
    intro f hf
    obtain ⟨t, ht, hf⟩ := List.mem_flatMap.1 hf
    exact (h1 t (hd t ht) f hf).2.1
  obtain ⟨w0, c0, w, c, e0, e1, k1, k2, k3⟩ := puts_nearest h hon hs
  refine ⟨_, w0, c0, w, c, h2 m hm hd fb h, e0, e1, k1, ?_⟩
  rcases k3 with k3 | ⟨k3, f, hf, fx, fy, fw, fc⟩
  · exact Or.inl k3
  · obtain ⟨t, ht, hf⟩ := List.mem_flatMap.1 hf
    obtain ⟨m1, m2, m3, m4⟩ := h1 t (hd t ht) f hf
    rw [fc] at m1
    rw [fw] at m4
    exact Or.inr ⟨k3, by omega, t, ht, m1, m4⟩

/-- **C88**: no triangle ever changes the last row of the screen. -/
theorem last_row_kept {sc : Scene K} {color : Int} (hcol : color ≠ -1) {W H : Int} (hW : 0 < W) (hH : 0 < H) {m : Mesh K} (hm : m.OK)
    (hd : ∀ t ∈ m.triangles, Drawable sc color t) {fb : Fb K} (h : fb.OK W H) {x : Int} (hx : 0 ≤ x ∧ x < W) :
    ∃ fb', drawMesh sc m false color fb = some fb' ∧ fb'.cell x (H - 1) = fb.cell x (H - 1) := by
  obtain ⟨fb', w0, c0, w, c, e, e0, e1, -, k⟩ := mesh_nearer hcol hW hH hm hd h (x := x) (y := H - 1) ⟨hx.1, hx.2, by omega, by omega⟩
  refine ⟨fb', e, ?_⟩
  rw [e0, e1]
  rcases k with ⟨rfl, rfl⟩ | ⟨-, k, -⟩
  · rfl
  · omega

/-- **C89**: a mesh behind the eye does not change the picture. -/
theorem behind_kept_partial {sc : Scene K} {color : Int} (hcol : color ≠ -1) {W H : Int} (hW : 0 < W) (hH : 0 < H) {m : Mesh K} (hm : m.OK)
    (hd : ∀ t ∈ m.triangles, Drawable sc color t) {fb : Fb K} (h : fb.OK W H)
    (hz : ∀ t ∈ m.triangles, ∀ p ∈ [t.p1, t.p2, t.p3], (sc.camera.localRef p).z < 0)
    (hr : ∀ w : K, w ≤ 0 → sc.rnd w ≤ 0) (h0 : ∀ x y w c, fb.cell x y = some (w, c) → 0 ≤ w) :
    drawMesh sc m false color fb = some fb := by
  obtain ⟨frs, h1, h2⟩ := mesh_frags sc hcol hW hH
  have e := h2 m hm hd fb h
  have : fb.puts (m.triangles.flatMap frs) = fb := by
    refine ext_cell (h.puts _) h hW fun x y hs => ?_
    obtain ⟨fb', w0, c0, w, c, e', e0, e1, -, k⟩ := mesh_nearer hcol hW hH hm hd h hs
    obtain rfl : fb' = fb.puts (m.triangles.flatMap frs) := by
      rw [e] at e'
      simpa using e'.symm
    rw [e0, e1]
    rcases k with ⟨rfl, rfl⟩ | ⟨k, -, t, ht, -, k2⟩
    · rfl
    · exfalso
      let lo := min (1 / (sc.camera.localRef t.p1).z) (min (1 / (sc.camera.localRef t.p2).z) (1 / (sc.camera.localRef t.p3).z))
      obtain ⟨v, rfl, -, hv⟩ := k2 lo 0 (by
        intro p hp
        refine ⟨?_, (one_div_neg.2 (hz t ht p hp)).le⟩
        simp only [List.mem_cons, List.not_mem_nil, or_false] at hp
        rcases hp with rfl | rfl | rfl <;> simp [lo])
      have a1 := hr v hv
      have a2 := h0 x y w0 c0 e0
      linarith
  rw [e, this]

/-! ### Pixels -/

/-- **C69** (pixels): when the depth is a float, `draw_pixel` is the depth test for one
fragment. -/
theorem pixel_put_partial {sc : Scene K} {p : P3 K} (hp : InView sc.camera p) (color : Int) {W H : Int} {fb : Fb K} (h : fb.OK W H)
    (hr : sc.rnd (1 / (sc.camera.localRef p).z) = 1 / (sc.camera.localRef p).z) :
    ∃ v, sc.camera.project p = some v ∧
      drawPixel sc p color fb = some (if OnScreen W H v.x v.y then fb.put ⟨v.x, v.y, 1 / (sc.camera.localRef p).z, color⟩ else fb) := by
  obtain ⟨v, hv, sv, -, -, wv⟩ := project_eq hp
  refine ⟨v, hv, ?_⟩
  unfold drawPixel
  rw [hv]
  simp only [bind, Option.bind_some, pure]
  rw [h.w, h.h, wv, hr]
  by_cases hc : OnScreen W H v.x v.y
  · have hc' := hc
    obtain ⟨c1, c2, c3, c4⟩ := hc'
    rw [if_pos hc, if_neg (by omega), add_comm v.x, plot_put h hc]
  · rw [if_neg hc, if_pos (by by_contra hcon; exact hc ⟨by omega, by omega, by omega, by omega⟩)]

/-- **C69** fails for depths that are not floats: `draw_pixel` compares the exact depth with the
rounded one in the buffer, so a farther point drawn later hides a nearer one. -/
theorem pixel_order_fails {sc : Scene K} {p q : P3 K} (hp : InView sc.camera p) (hq : InView sc.camera q) {W H : Int} {fb : Fb K} (h : fb.OK W H)
    {v : V K} {vq : V K} (hv : sc.camera.project p = some v) (hvq : sc.camera.project q = some vq) (hsame : vq.x = v.x ∧ vq.y = v.y)
    (hs : OnScreen W H v.x v.y) {w0 : K} {c0 : Int} (h0 : fb.cell v.x v.y = some (w0, c0)) (hpos : w0 < 1 / (sc.camera.localRef q).z)
    (hnear : 1 / (sc.camera.localRef q).z < 1 / (sc.camera.localRef p).z)
    (hrp : sc.rnd (1 / (sc.camera.localRef p).z) < 1 / (sc.camera.localRef q).z) (cp cq : Int) :
    ∃ fb', (drawPixel sc p cp fb).bind (drawPixel sc q cq) = some fb' ∧ ∃ w, fb'.cell v.x v.y = some (w, cq) := by
  have one : ∀ {p : P3 K} {v : V K} {c : Int} {fb : Fb K} {w0 : K} {c0 : Int}, InView sc.camera p → sc.camera.project p = some v → OnScreen W H v.x v.y →
      fb.OK W H → fb.cell v.x v.y = some (w0, c0) → w0 < 1 / (sc.camera.localRef p).z →
      ∃ fb', drawPixel sc p c fb = some fb' ∧ fb'.OK W H ∧ fb'.cell v.x v.y = some (sc.rnd (1 / (sc.camera.localRef p).z), c) := by
    intro p v c fb w0 c0 hp hv hs h h0 hw
    obtain ⟨v2, hv2, sv, -, -, wv⟩ := project_eq hp
    rw [hv] at hv2
    obtain rfl : v = v2 := by simpa using hv2
    obtain ⟨i1, i2⟩ := index_lt hs
    have hd := h.dep
    have hpx := h.pix
    have hld : (v.y * W + v.x).toNat < fb.dep.length := by omega
    have hlp : (v.y * W + v.x).toNat < fb.pix.length := by omega
    unfold Fb.cell at h0
    rw [h.w, h.h, if_pos hs, List.getElem?_eq_getElem hld, List.getElem?_eq_getElem hlp] at h0
    simp only [Option.some.injEq, Prod.mk.injEq] at h0
    have hg : getI fb.dep (v.x + v.y * W) = some w0 := by
      rw [add_comm]
      unfold getI
      rw [if_pos i1, List.getElem?_eq_getElem hld, h0.1]
    obtain ⟨c1, c2, c3, c4⟩ := hs
    unfold drawPixel
    rw [hv]
    simp only [bind, Option.bind_some, pure]
    rw [h.w, h.h, if_neg (by omega), wv]
    unfold Fb.plot
    rw [hg]
    simp only [bind, Option.bind_some, pure]
    rw [if_pos hw]
    unfold setI
    rw [if_pos ⟨by omega, by omega⟩, if_pos ⟨by omega, by omega⟩]
    refine ⟨_, rfl, ⟨h.w, h.h, by simpa using hpx, by simpa using hd⟩, ?_⟩
    unfold Fb.cell
    simp only [h.w, h.h]
    rw [if_pos ⟨c1, c2, c3, c4⟩, add_comm v.x, List.getElem?_set_self hld, List.getElem?_set_self hlp]
  obtain ⟨fb1, e1, o1, k1⟩ := one (c := cp) hp hv hs h h0 (hpos.trans hnear)
  obtain ⟨fb2, e2, o2, k2⟩ := one (c := cq) hq hvq (by rw [hsame.1, hsame.2]; exact hs) o1 (by rw [hsame.1, hsame.2]; exact k1) hrp
  rw [hsame.1, hsame.2] at k2
  exact ⟨fb2, by rw [e1]; exact e2, _, k2⟩

end CAD.Render
