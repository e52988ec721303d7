import Verif.Props.RendererDepth
import Verif.Lemmas.Point

/-! The renderer: colours with lights (C71). -/

namespace CAD.Render
set_option linter.unusedSimpArgs false
set_option linter.unusedSectionVars false
variable {K : Type} [Field K] [LinearOrder K] [IsStrictOrderedRing K] [FloorRing K]

/-- what a surface with normal `n` gets of a light -/
def Light.strength (n : P3 K) : Light K → K
  | .ambient _ _ _ => 1
  | .diffuse _ _ _ d => max (n.dot d) 0

def Light.r : Light K → K
  | .ambient r _ _ => r
  | .diffuse r _ _ _ => r
def Light.g : Light K → K
  | .ambient _ g _ => g
  | .diffuse _ g _ _ => g
def Light.b : Light K → K
  | .ambient _ _ b => b
  | .diffuse _ _ b _ => b

/-- one channel of a colour `v` (0 … 255) with all lights; `f` selects the factor of the channel -/
def total (lights : List (Light K)) (n : P3 K) (f : Light K → K) (v : Int) : K :=
  (lights.map fun l => (v : K) / 256 * (f l * l.strength n)).sum

/-- the byte of a channel: rounded and limited to 255 -/
def byteOf (t : K) : Int := min 255 ⌊t * 256 + 1 / 2⌋

theorem byteOf_range {t : K} (h : 0 ≤ t) : 0 ≤ byteOf t ∧ byteOf t ≤ 255 := by
  have : (0 : Int) ≤ ⌊t * 256 + 1 / 2⌋ := Int.floor_nonneg.2 (by linarith)
  unfold byteOf
  omega

theorem channel_eq {t : K} (h : 0 ≤ t) (hb : t < 8388607) : channel t = some (byteOf t) := by
  have h0 : (0 : K) ≤ t * 256 + 1 / 2 := by linarith
  have e : trunc (t * 256 + 1 / 2) = ⌊t * 256 + 1 / 2⌋ := by unfold trunc; rw [if_pos h0]
  have e1 : (0 : Int) ≤ ⌊t * 256 + 1 / 2⌋ := Int.floor_nonneg.2 h0
  have e2 : ⌊t * 256 + 1 / 2⌋ < 2147483647 := Int.floor_lt.2 (by push_cast; linarith)
  unfold channel
  rw [toInt_some (by omega) (by omega), e]
  simp only [bind, Option.bind_some, pure]
  unfold byteOf
  congr 1
  split <;> omega

theorem channels (c : Int) : (0 ≤ red c ∧ red c ≤ 255) ∧ (0 ≤ green c ∧ green c ≤ 255) ∧ 0 ≤ blue c ∧ blue c ≤ 255 := by
  unfold red green blue
  omega

/-- packing keeps the channels -/
theorem unpack {r g b : Int} (hr : 0 ≤ r ∧ r ≤ 255) (hg : 0 ≤ g ∧ g ≤ 255) (hb : 0 ≤ b ∧ b ≤ 255) :
    red (r * 65536 + g * 256 + b) = r ∧ green (r * 65536 + g * 256 + b) = g ∧ blue (r * 65536 + g * 256 + b) = b := by
  unfold red green blue
  omega

theorem apply_some (c : K × K × K) (n : P3 K) (l : Light K) :
    l.apply c (some n) = some (c.1 * (l.r * l.strength n), c.2.1 * (l.g * l.strength n), c.2.2 * (l.b * l.strength n)) := by
  cases l with
  | ambient r g b => simp [Light.apply, Light.r, Light.g, Light.b, Light.strength]
  | diffuse r g b d =>
    have : (if n.dot d < 0 then 0 else n.dot d) = max (n.dot d) 0 := by
      split
      · next h => rw [max_eq_right h.le]
      · next h => rw [max_eq_left (not_lt.1 h)]
    simp only [Light.apply, Option.map_some, Light.r, Light.g, Light.b, Light.strength, this]

theorem lights_fold (c : K × K × K) (n : P3 K) (ls : List (Light K)) (a : K × K × K) :
    ls.foldlM (fun (a : K × K × K) l => (l.apply c (some n)).bind fun d => (some (a.1 + d.1, a.2.1 + d.2.1, a.2.2 + d.2.2) : Res (K × K × K))) a =
      some (a.1 + (ls.map fun l => c.1 * (l.r * l.strength n)).sum, a.2.1 + (ls.map fun l => c.2.1 * (l.g * l.strength n)).sum,
        a.2.2 + (ls.map fun l => c.2.2 * (l.b * l.strength n)).sum) := by
  induction ls generalizing a with
  | nil => simp
  | cons l ls ih =>
    rw [List.foldlM_cons, apply_some]
    simp only [bind, Option.bind_some]
    rw [ih]
    simp only [List.map_cons, List.sum_cons, add_assoc]

theorem shade_eq (ls : List (Light K)) (color : Int) (n : P3 K) :
    shade ls color (some n) = ((channel (total ls n Light.r (red color))).bind fun r =>
      (channel (total ls n Light.g (green color))).bind fun g =>
      (channel (total ls n Light.b (blue color))).bind fun b =>
      (CAD.assert (0 ≤ r)).bind fun _ => (CAD.assert (0 ≤ g)).bind fun _ => some (r * 65536 + g * 256 + b)) := by
  unfold shade
  have := lights_fold ((red color : K) / 256, (green color : K) / 256, (blue color : K) / 256) n ls (0, 0, 0)
  simp only [bind, pure] at this ⊢
  rw [this]
  simp only [Option.bind_some, zero_add]
  rfl

/-- **C71**: with lights of non-negative factors (and not absurdly strong) the colour is packed
from three bytes, each the rounded and limited sum of what the lights contribute. -/
theorem shade_spec {ls : List (Light K)} (hl : ∀ l ∈ ls, 0 ≤ l.r ∧ 0 ≤ l.g ∧ 0 ≤ l.b) (color : Int) (n : P3 K)
    (hr : total ls n Light.r (red color) < 8388607) (hg : total ls n Light.g (green color) < 8388607)
    (hb : total ls n Light.b (blue color) < 8388607) :
    ∃ c, shade ls color (some n) = some c ∧ 0 ≤ c ∧ c < 16777216 ∧
      red c = byteOf (total ls n Light.r (red color)) ∧ green c = byteOf (total ls n Light.g (green color)) ∧
      blue c = byteOf (total ls n Light.b (blue color)) := by
  have hs : ∀ l : Light K, 0 ≤ l.strength n := by
    intro l
    cases l with
    | ambient => exact zero_le_one
    | diffuse => exact le_max_right _ _
  have tot : ∀ (f : Light K → K) (v : Int), (∀ l ∈ ls, 0 ≤ f l) → 0 ≤ v → 0 ≤ total ls n f v := by
    intro f v hf hv
    unfold total
    apply List.sum_nonneg
    intro x hx
    obtain ⟨l, hl, rfl⟩ := List.mem_map.1 hx
    have : (0 : K) ≤ v := by exact_mod_cast hv
    have h1 := hf l hl
    have h2 := hs l
    positivity
  obtain ⟨c1, c2, c3⟩ := channels color
  have t1 := tot Light.r _ (fun l h => (hl l h).1) c1.1
  have t2 := tot Light.g _ (fun l h => (hl l h).2.1) c2.1
  have t3 := tot Light.b _ (fun l h => (hl l h).2.2) c3.1
  have b1 := byteOf_range t1
  have b2 := byteOf_range t2
  have b3 := byteOf_range t3
  refine ⟨_, ?_, ?_, ?_, unpack b1 b2 b3⟩
  · rw [shade_eq, channel_eq t1 hr, channel_eq t2 hg, channel_eq t3 hb]
    simp only [Option.bind_some]
    rw [assert_true b1.1, assert_true b2.1]
    rfl
  · omega
  · omega

/-- with ambient lights only the normal does not matter -/
theorem shade_ambient {ls : List (Light K)} (hl : ∀ l ∈ ls, ∃ r g b, l = .ambient r g b) (color : Int) (n n' : Res (P3 K)) :
    shade ls color n = shade ls color n' := by
  have h : ∀ l ∈ ls, ∀ c : K × K × K, l.apply c n = l.apply c n' := by
    intro l h c
    obtain ⟨r, g, b, rfl⟩ := hl l h
    rfl
  have hf : ∀ (c : K × K × K) (a : K × K × K) (k : List (Light K)), (∀ l ∈ k, l ∈ ls) →
      k.foldlM (fun (a : K × K × K) l => (l.apply c n).bind fun d => (some (a.1 + d.1, a.2.1 + d.2.1, a.2.2 + d.2.2) : Res (K × K × K))) a =
      k.foldlM (fun (a : K × K × K) l => (l.apply c n').bind fun d => (some (a.1 + d.1, a.2.1 + d.2.1, a.2.2 + d.2.2) : Res (K × K × K))) a := by
    intro c a k
    induction k generalizing a with
    | nil => intro _; rfl
    | cons l k ih =>
      intro hk
      rw [List.foldlM_cons, List.foldlM_cons, h l (hk l (by simp)) c]
      cases l.apply c n' with
      | none => rfl
      | some d => exact ih _ (fun l hl => hk l (by simp [hl]))
  unfold shade
  simp only [bind, pure]
  rw [hf _ _ ls (fun _ h => h)]

/-- **C69**: with ambient lights only, the picture of a mesh does not depend on the order of its
triangles. -/
theorem mesh_order_ambient {sc : Scene K} (hl : ∀ l ∈ sc.lights, ∃ r g b, l = .ambient r g b) {color : Int} (hcol : color ≠ -1) {W H : Int}
    (hW : 0 < W) (hH : 0 < H) {m m' : Mesh K} (hm : m.OK) (hm' : m'.OK)
    (hp : m.triangles.Perm m'.triangles) (hd : ∀ t ∈ m.triangles, Drawable sc color t) {fb : Fb K} (h : fb.OK W H) :
    ∃ fb', drawMesh sc m false color fb = some fb' ∧ drawMesh sc m' false color fb = some fb' :=
  mesh_order hcol hW hH hm hm' hp hd (fun _ _ _ _ => shade_ambient hl color _ _) h

/-- **C71** without a normal (a triangle without area): a diffuse light makes the colour
undefined. -/
theorem shade_degenerate {ls : List (Light K)} {r g b : K} {d : P3 K} (hl : Light.diffuse r g b d ∈ ls) (color : Int) :
    shade ls color none = none := by
  have hf : ∀ (c : K × K × K) (k : List (Light K)) (a : K × K × K), Light.diffuse r g b d ∈ k →
      k.foldlM (fun (a : K × K × K) l => (l.apply c none).bind fun d => (some (a.1 + d.1, a.2.1 + d.2.1, a.2.2 + d.2.2) : Res (K × K × K))) a = none := by
    intro c k
    induction k with
    | nil => intro a h; simp at h
    | cons l k ih =>
      intro a h
      rw [List.foldlM_cons]
      rcases List.mem_cons.1 h with rfl | h
      · rfl
      · cases l.apply c none with
        | none => rfl
        | some e => exact ih _ h
  unfold shade
  simp only [bind, pure]
  rw [hf _ ls _ hl]
  rfl

/-- **C71** for a negative light: the left shift of a negative number, undefined. -/
theorem shade_negative {ls : List (Light K)} {color : Int} {n : P3 K} (h : total ls n Light.r (red color) * 256 + 1 / 2 ≤ -1) :
    shade ls color (some n) = none := by
  have hneg : ∀ {t : K}, t * 256 + 1 / 2 ≤ -1 → ∀ i, channel t = some i → i < 0 := by
    intro t ht i hi
    have h1 : trunc (t * 256 + 1 / 2) ≤ -1 := by
      have := trunc_mono (show t * 256 + 1 / 2 ≤ ((-1 : Int) : K) by push_cast; exact ht)
      rwa [trunc_intCast] at this
    unfold channel at hi
    cases hx : toInt (t * 256 + 1 / 2) with
    | none => rw [hx] at hi; simp [bind] at hi
    | some j =>
      rw [hx] at hi
      have hj := int32_some hx
      simp only [bind, Option.bind_some, pure, Option.some.injEq] at hi
      split at hi <;> omega
  rw [shade_eq]
  cases hx : channel (total ls n Light.r (red color)) with
  | none => rfl
  | some r =>
    have := hneg h r hx
    simp only [Option.bind_some]
    cases channel (total ls n Light.g (green color)) with
    | none => rfl
    | some g =>
      simp only [Option.bind_some]
      cases channel (total ls n Light.b (blue color)) with
      | none => rfl
      | some b =>
        simp only [Option.bind_some]
        unfold CAD.assert
        rw [if_neg (by omega)]
        rfl

/-- **C71**: a full white ambient light does not keep colours: a channel above 128 loses one. -/
theorem white_light (color : Int) (n : Res (P3 K)) :
    ∃ c, shade [Light.newAmbient (K := K) 0xffffff 1] color n = some c ∧
      (red c = if red color ≤ 128 then red color else red color - 1) ∧
      (green c = if green color ≤ 128 then green color else green color - 1) ∧
      (blue c = if blue color ≤ 128 then blue color else blue color - 1) := by
  rw [shade_ambient (n' := some (⟨0, 0, 0⟩ : P3 K)) (by
    intro l hl
    obtain rfl : l = Light.newAmbient (K := K) 0xffffff 1 := by simpa using hl
    exact ⟨_, _, _, rfl⟩)]
  have e : Light.newAmbient (K := K) 0xffffff 1 = .ambient (255 / 256) (255 / 256) (255 / 256) := by
    unfold Light.newAmbient
    have h1 : red 0xffffff = 255 := by decide
    have h2 : green 0xffffff = 255 := by decide
    have h3 : blue 0xffffff = 255 := by decide
    rw [h1, h2, h3]
    push_cast
    simp
  rw [e]
  have tot : ∀ v : Int, (v : K) / 256 * (255 / 256 * 1) + 0 = (v : K) * 255 / 65536 := by intro v; ring
  have hbyte : ∀ v : Int, 0 ≤ v → v ≤ 255 → byteOf ((v : K) * 255 / 65536) = if v ≤ 128 then v else v - 1 := by
    intro v h0 h1
    have c0 : (0 : K) ≤ v := by exact_mod_cast h0
    have c1 : (v : K) ≤ 255 := by exact_mod_cast h1
    have hfl : ⌊(v : K) * 255 / 65536 * 256 + 1 / 2⌋ = if v ≤ 128 then v else v - 1 := by
      rw [Int.floor_eq_iff]
      split
      · next h =>
        have : (v : K) ≤ 128 := by exact_mod_cast h
        constructor <;> linarith
      · next h =>
        have : (129 : K) ≤ v := by exact_mod_cast (by omega : (129 : Int) ≤ v)
        push_cast
        constructor <;> linarith
    unfold byteOf
    rw [hfl]
    split <;> omega
  have small : ∀ v : Int, v ≤ 255 → (v : K) * 255 / 65536 < 8388607 := by
    intro v h1
    have c1 : (v : K) ≤ 255 := by exact_mod_cast h1
    linarith
  obtain ⟨k1, k2, k3⟩ := channels color
  have t : ∀ (f : Light K → K) (v : Int), f (.ambient (255 / 256) (255 / 256) (255 / 256)) = 255 / 256 →
      total [Light.ambient (255 / 256) (255 / 256) (255 / 256)] (⟨0, 0, 0⟩ : P3 K) f v = (v : K) * 255 / 65536 := by
    intro f v hf
    unfold total
    simp only [List.map_cons, List.map_nil, List.sum_cons, List.sum_nil, hf, Light.strength]
    exact tot v
  have t1 := t Light.r (red color) rfl
  have t2 := t Light.g (green color) rfl
  have t3 := t Light.b (blue color) rfl
  obtain ⟨c, hc, -, -, r1, r2, r3⟩ := shade_spec (ls := [Light.ambient (255 / 256) (255 / 256) (255 / 256)]) (by
      intro l hl
      obtain rfl : l = Light.ambient (255 / 256) (255 / 256) (255 / 256) := by simpa using hl
      have : (0 : K) ≤ 255 / 256 := by positivity
      exact ⟨this, this, this⟩) color (⟨0, 0, 0⟩ : P3 K)
    (by rw [t1]; exact small _ k1.2) (by rw [t2]; exact small _ k2.2) (by rw [t3]; exact small _ k3.2)
  refine ⟨c, hc, ?_, ?_, ?_⟩
  · rw [r1, t1, hbyte _ k1.1 k1.2]
  · rw [r2, t2, hbyte _ k2.1 k2.2]
  · rw [r3, t3, hbyte _ k3.1 k3.2]

end CAD.Render
