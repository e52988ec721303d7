import Verif.Model.LightRounded
import Verif.Props.CameraRounded
import Verif.Props.RendererLine
import Verif.Props.GeometryRounded
import Verif.Props.BezierRounded
import Verif.Props.RendererLight

/-! C138: colours with lights in double. -/

namespace CAD.Render
set_option linter.unusedSimpArgs false
open Real

/-- without rounding it is the function of the exact model -/
theorem shadeR_id (ls : List (Light ℝ)) (color : Int) (n : Res (P3 ℝ)) : shadeR id ls color n = shade ls color n := by
  have a : ∀ (c : ℝ × ℝ × ℝ) (l : Light ℝ), l.applyR id c n = l.apply c n := by
    intro c l
    cases l <;> rfl
  unfold shadeR shade
  simp only [a, id]
  rfl

/-- the light made of a lamp, in double -/
noncomputable def Lamp.lightR (l : Lamp ℝ) : Light ℝ :=
  match l.direction with
  | none => Light.newAmbientR double l.color l.factor
  | some d => Light.newDiffuseR double l.color l.factor d

/-- rounding in the range of colours -/
theorem double_color (y : ℝ) (h : |y| ≤ 1000000000000) : |double y - y| ≤ 0.00000000000000012 * |y| + 0.000000000000000000000000000001 := by
  have h2 : (1000000000000 : ℝ) ≤ 2 ^ (1023 : ℤ) :=
    (by norm_num : (1000000000000 : ℝ) ≤ 2 ^ (40 : ℤ)).trans (zpow_le_zpow_right₀ one_le_two (by norm_num))
  have h1 := Rounded.double_rounds.err y (h.trans h2)
  have h3 : (2 : ℝ) ^ (-53 : ℤ) ≤ 0.00000000000000012 := by norm_num
  have h4 := mul_le_mul_of_nonneg_right h3 (abs_nonneg y)
  have h5 : (2 : ℝ) ^ (-1075 : ℤ) ≤ 0.000000000000000000000000000001 :=
    (zpow_le_zpow_right₀ one_le_two (by norm_num : (-1075 : ℤ) ≤ -100)).trans (by norm_num)
  exact h1.trans (add_le_add h4 h5)

/-- a factor of a lamp -/
theorem factor_near {f : ℝ} {c : Int} (f0 : 0 ≤ f) (f1 : f ≤ 100) (hc : 0 ≤ c ∧ c ≤ 255) :
    |double (double (f * c) / 256) - (c : ℝ) / 256 * f| ≤ 0.00000000000003 ∧ 0 ≤ (c : ℝ) / 256 * f ∧ (c : ℝ) / 256 * f ≤ 100 := by
  have c0 : (0 : ℝ) ≤ c := by exact_mod_cast hc.1
  have c1 : (c : ℝ) ≤ 255 := by exact_mod_cast hc.2
  have p0 : 0 ≤ f * c := mul_nonneg f0 c0
  have p1 : f * c ≤ 25500 := by nlinarith
  have e1 := double_color (f * c) (by rw [abs_of_nonneg p0]; linarith)
  rw [abs_of_nonneg p0, abs_le] at e1
  generalize double (f * c) = x at *
  have xb : |x / 256| ≤ 100 := by rw [abs_le]; constructor <;> linarith
  have e2 := double_color (x / 256) (by linarith)
  rw [abs_le] at e2
  rw [show (c : ℝ) / 256 * f = f * c / 256 by ring]
  refine ⟨?_, by positivity, by linarith⟩
  rw [abs_le]
  constructor <;> linarith

/-- the strength of a diffuse light -/
theorem proj_near {n' n d : P3 ℝ} (hn : n.norm = 1) (hn' : (n' - n).norm ≤ 0.000000000001) (hd : d.norm ≤ 10) :
    |(if Rounded.dot double n' d < 0 then 0 else Rounded.dot double n' d) - max (n.dot d) 0| ≤ 0.0000000000101 := by
  have m : ∀ x y : ℝ, |(if x < 0 then 0 else x) - max y 0| ≤ |x - y| := by
    intro x y
    rw [show (if x < 0 then 0 else x) = max x 0 by
      split
      · next h => rw [max_eq_right h.le]
      · next h => rw [max_eq_left (not_lt.1 h)]]
    exact abs_max_sub_max_le_abs x y 0
  refine (m _ _).trans ?_
  have n1 : n'.norm ≤ 1.1 := by
    have := Rounded.norm_add_le n (n' - n)
    rw [show n + (n' - n) = n' by ext <;> simp, hn] at this
    linarith
  have e0 : |n'.dot d - n.dot d| ≤ 0.00000000001 := by
    have := (Rounded.dot_le (n' - n) d).2
    rw [show (n' - n).dot d = n'.dot d - n.dot d by simp [P3.dot]; ring] at this
    have := mul_le_mul hn' hd (P3.norm_nonneg d) (by norm_num)
    linarith
  have b : |n'.x * d.x| ≤ 11 ∧ |n'.y * d.y| ≤ 11 ∧ |n'.z * d.z| ≤ 11 := by
    obtain ⟨x1, y1, z1⟩ := Transform.coord_norm n'
    obtain ⟨x2, y2, z2⟩ := Transform.coord_norm d
    refine ⟨?_, ?_, ?_⟩ <;> rw [abs_mul]
    · exact (mul_le_mul (x1.trans n1) (x2.trans hd) (abs_nonneg _) (by norm_num)).trans (by norm_num)
    · exact (mul_le_mul (y1.trans n1) (y2.trans hd) (abs_nonneg _) (by norm_num)).trans (by norm_num)
    · exact (mul_le_mul (z1.trans n1) (z2.trans hd) (abs_nonneg _) (by norm_num)).trans (by norm_num)
  have hdot : n'.dot d = n'.x * d.x + n'.y * d.y + n'.z * d.z := rfl
  rw [hdot] at e0
  unfold Rounded.dot
  obtain ⟨bx, by', bz⟩ := b
  have fx := double_color (n'.x * d.x) (by linarith)
  have fy := double_color (n'.y * d.y) (by linarith)
  have fz := double_color (n'.z * d.z) (by linarith)
  generalize n'.x * d.x = x at *
  generalize n'.y * d.y = y at *
  generalize n'.z * d.z = z at *
  generalize double x = x' at *
  generalize double y = y' at *
  generalize double z = z' at *
  have gx : |x' - x| ≤ 0.000000000000002 := by linarith
  have gy : |y' - y| ≤ 0.000000000000002 := by linarith
  have gz : |z' - z| ≤ 0.000000000000002 := by linarith
  rw [abs_le] at gx gy gz bx by' bz
  have s1 : |x' + y'| ≤ 23 := by rw [abs_le]; constructor <;> linarith
  have f1 := double_color (x' + y') (by linarith)
  generalize double (x' + y') = w at *
  have g1 : |w - (x' + y')| ≤ 0.000000000000004 := by linarith
  rw [abs_le] at g1 s1
  have s2 : |w + z'| ≤ 36 := by rw [abs_le]; constructor <;> linarith
  have f2 := double_color (w + z') (by linarith)
  have g2 : |double (w + z') - (w + z')| ≤ 0.000000000000005 := by linarith
  rw [abs_le] at g2 e0 ⊢
  constructor <;> linarith

/-- what a lamp adds to a channel: `c` is the surface, `k` the channel of the lamp -/
theorem product_near {c' c r' r s' s : ℝ} (hc : |c' - c| ≤ 0.0000000000000002) (c0 : 0 ≤ c) (c1 : c ≤ 1) (hr : |r' - r| ≤ 0.00000000000003) (r0 : 0 ≤ r) (r1 : r ≤ 100)
    (hs : |s' - s| ≤ 0.0000000000101) (s0 : 0 ≤ s) (s1 : s ≤ 10) : |double (c' * double (r' * s')) - c * (r * s)| ≤ 0.0000000012 := by
  have rs0 : 0 ≤ r * s := mul_nonneg r0 s0
  have rs1 : r * s ≤ 1000 := by nlinarith
  have e1 : |r' * s' - r * s| ≤ 0.0000000011 := by
    rw [show r' * s' - r * s = (r' - r) * s + r * (s' - s) + (r' - r) * (s' - s) by ring]
    have h1 := mul_le_mul hr (show |s| ≤ 10 by rwa [abs_of_nonneg s0]) (abs_nonneg _) (by norm_num)
    have h2 := mul_le_mul (show |r| ≤ 100 by rwa [abs_of_nonneg r0]) hs (abs_nonneg _) (by norm_num)
    have h3 := mul_le_mul hr hs (abs_nonneg _) (by norm_num)
    rw [← abs_mul] at h1 h2 h3
    refine (abs_add_le _ _).trans ((add_le_add (abs_add_le _ _) le_rfl).trans ?_)
    linarith
  have b1 : |r' * s'| ≤ 1001 := by
    rw [abs_le] at e1 ⊢; constructor <;> linarith
  have f1 := double_color (r' * s') (by linarith)
  generalize double (r' * s') = w at *
  have g1 : |w - r * s| ≤ 0.0000000011002 := by
    have := abs_add_le (w - r' * s') (r' * s' - r * s)
    rw [sub_add_sub_cancel] at this
    linarith
  generalize r * s = v at *
  have e2 : |c' * w - c * v| ≤ 0.000000001101 := by
    rw [show c' * w - c * v = (c' - c) * v + c * (w - v) + (c' - c) * (w - v) by ring]
    have h1 := mul_le_mul hc (show |v| ≤ 1000 by rwa [abs_of_nonneg rs0]) (abs_nonneg _) (by norm_num)
    have h2 := mul_le_mul (show |c| ≤ 1 by rwa [abs_of_nonneg c0]) g1 (abs_nonneg _) (by norm_num)
    have h3 := mul_le_mul hc g1 (abs_nonneg _) (by norm_num)
    rw [← abs_mul] at h1 h2 h3
    refine (abs_add_le _ _).trans ((add_le_add (abs_add_le _ _) le_rfl).trans ?_)
    linarith
  have cv0 : 0 ≤ c * v := mul_nonneg c0 rs0
  have cv1 : c * v ≤ 1000 := by nlinarith
  have b2 : |c' * w| ≤ 1001 := by
    rw [abs_le] at e2 ⊢; constructor <;> linarith
  have f2 := double_color (c' * w) (by linarith)
  have := abs_add_le (double (c' * w) - c' * w) (c' * w - c * v)
  rw [sub_add_sub_cancel] at this
  linarith

/-- the sum over the lamps of one channel -/
theorem sum_lamps {α : Type} (t' t : α → ℝ) : ∀ (ls : List α), (∀ l ∈ ls, |t' l - t l| ≤ 0.0000000012 ∧ 0 ≤ t l ∧ t l ≤ 1000) → ls.length ≤ 1000 →
    |ls.foldl (fun a l => double (a + t' l)) 0 - (ls.map t).sum| ≤ ls.length * 0.0000000014 ∧ 0 ≤ (ls.map t).sum ∧ (ls.map t).sum ≤ ls.length * 1000 := by
  intro ls
  induction ls using List.reverseRecOn with
  | nil => intro _ _; simp
  | append_singleton ls l ih =>
    intro h hl
    rw [List.length_append, List.length_singleton] at hl
    obtain ⟨i1, i2, i3⟩ := ih (fun k hk => h k (by simp [hk])) (by omega)
    obtain ⟨h1, h2, h3⟩ := h l (by simp)
    have n : (ls.length : ℝ) ≤ 1000 := by exact_mod_cast (by omega : ls.length ≤ 1000)
    have n0 : (0 : ℝ) ≤ ls.length := Nat.cast_nonneg _
    rw [List.foldl_append, List.map_append, List.sum_append, List.length_append, List.length_singleton]
    simp only [List.foldl_cons, List.foldl_nil, List.map_cons, List.map_nil, List.sum_cons, List.sum_nil, add_zero]
    push_cast
    generalize ls.foldl (fun a l => double (a + t' l)) 0 = a at *
    generalize (ls.map t).sum = b at *
    generalize (ls.length : ℝ) = m at *
    rw [abs_le] at i1 h1
    have s : |a + t' l| ≤ 1001002 := by rw [abs_le]; constructor <;> linarith
    have f := double_color (a + t' l) (by linarith)
    have g : |double (a + t' l) - (a + t' l)| ≤ 0.00000000013 := by linarith
    rw [abs_le] at g
    refine ⟨?_, by linarith, by linarith⟩
    rw [abs_le]
    constructor <;> linarith

/-- what a light adds to a channel of value `c`, in double; `k` is the factor of the channel -/
noncomputable def Light.term (n : P3 ℝ) (c k : ℝ) : Light ℝ → ℝ
  | .ambient _ _ _ => double (c * k)
  | .diffuse _ _ _ d => double (c * double (k * (if Rounded.dot double n d < 0 then 0 else Rounded.dot double n d)))

theorem applyR_some (c : ℝ × ℝ × ℝ) (n : P3 ℝ) (l : Light ℝ) :
    l.applyR double c (some n) = some (l.term n c.1 l.r, l.term n c.2.1 l.g, l.term n c.2.2 l.b) := by
  cases l <;> rfl

theorem lightsR_fold (c : ℝ × ℝ × ℝ) (n : P3 ℝ) (ls : List (Light ℝ)) (a : ℝ × ℝ × ℝ) :
    ls.foldlM (fun (a : ℝ × ℝ × ℝ) l => (l.applyR double c (some n)).bind fun d =>
      (some (double (a.1 + d.1), double (a.2.1 + d.2.1), double (a.2.2 + d.2.2)) : Res (ℝ × ℝ × ℝ))) a =
      some (ls.foldl (fun a l => double (a + l.term n c.1 l.r)) a.1, ls.foldl (fun a l => double (a + l.term n c.2.1 l.g)) a.2.1,
        ls.foldl (fun a l => double (a + l.term n c.2.2 l.b)) a.2.2) := by
  induction ls generalizing a with
  | nil => rfl
  | cons l ls ih =>
    rw [List.foldlM_cons, applyR_some]
    simp only [bind, Option.bind_some, List.foldl_cons]
    rw [ih]

/-- what the byte `k` of a channel is to show of the light `t`: the nearest byte up to 0.0005 steps, at most 255 (specification) -/
structure Shows (t : ℝ) (k : Int) : Prop where
  near : |(k : ℝ) - min 255 (t * 256)| ≤ 0.5005
  byte : ∀ j : Int, 0 ≤ j → j ≤ 255 → |t * 256 - j| ≤ 0.4995 → k = j
  full : 255 ≤ t * 256 → k = 255

theorem channelR_near {t' t : ℝ} (h : |t' - t| ≤ 0.0000014) (t0 : 0 ≤ t) (t1 : t ≤ 1000000) :
    ∃ k, channelR double t' = some k ∧ 0 ≤ k ∧ k ≤ 255 ∧ Shows t k := by
  rw [abs_le] at h
  have b : |t' * 256| ≤ 256001000 := by rw [abs_le]; constructor <;> linarith
  have f := double_color (t' * 256) (by linarith)
  have g : |double (t' * 256) - t' * 256| ≤ 0.00000004 := by linarith
  unfold channelR
  generalize double (t' * 256) = x at *
  rw [abs_le] at g
  have b2 : |x + 1 / 2| ≤ 256001001 := by rw [abs_le]; constructor <;> linarith
  have f2 := double_color (x + 1 / 2) (by linarith)
  have g2 : |double (x + 1 / 2) - (x + 1 / 2)| ≤ 0.00000004 := by linarith
  generalize double (x + 1 / 2) = y at *
  rw [abs_le] at g2
  have near : |y - (t * 256 + 1 / 2)| ≤ 0.0004 := by rw [abs_le]; constructor <;> linarith
  obtain ⟨c1, c2, -⟩ := trunc_close near
  have c1 := c1 (by linarith)
  rw [add_sub_add_right_eq_sub] at c1
  have i0 : 0 ≤ trunc y := by
    unfold trunc
    rw [abs_le] at near
    rw [if_pos (by linarith)]
    exact Int.floor_nonneg.2 (by linarith)
  generalize hi : trunc y = i at *
  rw [abs_le] at c1
  have i1 : i < 2147483647 := by
    have : (i : ℝ) < ((2147483647 : Int) : ℝ) := by push_cast; linarith
    exact_mod_cast this
  rw [toInt_some (by omega) (by omega), hi]
  refine ⟨if i > 255 then 255 else i, rfl, by split <;> omega, by split <;> omega, ?_⟩
  have big : 255 ≤ t * 256 → 255 ≤ i := by
    intro ht
    have : ((254 : Int) : ℝ) < i := by push_cast; linarith
    have : (254 : Int) < i := by exact_mod_cast this
    omega
  refine ⟨?_, ?_, ?_⟩
  · by_cases ht : 255 ≤ t * 256
    · have := big ht
      rw [min_eq_left ht, show (if i > 255 then 255 else i) = 255 by split <;> omega]
      norm_num
    · rw [min_eq_right (by linarith)]
      rw [if_neg (by
        intro hc
        have : (256 : Int) ≤ i := by omega
        have : ((256 : Int) : ℝ) ≤ i := by exact_mod_cast this
        push_cast at this
        linarith), abs_le]
      constructor <;> linarith
  · intro j j0 j1 hj
    rw [abs_le] at hj
    have := c2 j j0 (by linarith) (by linarith)
    rw [this]
    split <;> omega
  · intro ht
    have := big ht
    split <;> omega

/-- one channel of all lamps -/
theorem lamps_near {ls : List (Lamp ℝ)} (hn : ls.length ≤ 1000) (hl : ∀ l ∈ ls, 0 ≤ l.factor ∧ l.factor ≤ 100 ∧ ∀ d, l.direction = some d → d.norm ≤ 10)
    {n' n : P3 ℝ} (h1 : n.norm = 1) (h2 : (n' - n).norm ≤ 0.000000000001) {f : Light ℝ → ℝ} {ch : Int → Int} (hc : ∀ c, 0 ≤ ch c ∧ ch c ≤ 255)
    (hf : ∀ l : Lamp ℝ, f l.lightR = double (double (l.factor * ch l.color) / 256)) {v : Int} (v0 : 0 ≤ v ∧ v ≤ 255) :
    |(ls.map Lamp.lightR).foldl (fun a l => double (a + l.term n' (double ((v : ℝ) / 256)) (f l))) 0 - lit ls n ch v| ≤ 0.0000014 ∧
      0 ≤ lit ls n ch v ∧ lit ls n ch v ≤ 1000000 := by
  rw [List.foldl_map]
  have w0 : (0 : ℝ) ≤ v := by exact_mod_cast v0.1
  have w1 : (v : ℝ) ≤ 255 := by exact_mod_cast v0.2
  have c0 : 0 ≤ (v : ℝ) / 256 := by positivity
  have c1 : (v : ℝ) / 256 ≤ 1 := by linarith
  have ec := double_color ((v : ℝ) / 256) (by rw [abs_of_nonneg c0]; linarith)
  rw [abs_of_nonneg c0] at ec
  have ec' : |double ((v : ℝ) / 256) - (v : ℝ) / 256| ≤ 0.0000000000000002 := by linarith
  have nn : (ls.length : ℝ) ≤ 1000 := by exact_mod_cast hn
  have key := sum_lamps (fun l : Lamp ℝ => l.lightR.term n' (double ((v : ℝ) / 256)) (f l.lightR)) (fun l => (v : ℝ) / 256 * ((ch l.color : ℝ) / 256) * l.power n) ls
    (by
      intro l hm
      obtain ⟨g0, g1, gd⟩ := hl l hm
      obtain ⟨r1, r2, r3⟩ := factor_near g0 g1 (hc l.color)
      rw [hf]
      have fac : ∀ s : ℝ, (v : ℝ) / 256 * ((ch l.color : ℝ) / 256) * (l.factor * s) = (v : ℝ) / 256 * ((ch l.color : ℝ) / 256 * l.factor * s) := fun s => by ring
      generalize double (double (l.factor * ch l.color) / 256) = k' at *
      generalize double ((v : ℝ) / 256) = c' at *
      cases hd : l.direction with
      | none =>
        have e1 : l.lightR.term n' c' k' = double (c' * k') := by unfold Lamp.lightR; rw [hd]; rfl
        have e2 : l.power n = l.factor * 1 := by unfold Lamp.power; rw [hd, mul_one]
        rw [e1, e2, fac, mul_one]
        generalize (ch l.color : ℝ) / 256 * l.factor = k at *
        generalize (v : ℝ) / 256 = c at *
        have h3 : |c' * k' - c * k| ≤ 0.0000000000001 := by
          rw [show c' * k' - c * k = (c' - c) * k + c * (k' - k) + (c' - c) * (k' - k) by ring]
          have q1 := mul_le_mul ec' (show |k| ≤ 100 by rwa [abs_of_nonneg r2]) (abs_nonneg _) (by norm_num)
          have q2 := mul_le_mul (show |c| ≤ 1 by rwa [abs_of_nonneg c0]) r1 (abs_nonneg _) (by norm_num)
          have q3 := mul_le_mul ec' r1 (abs_nonneg _) (by norm_num)
          rw [← abs_mul] at q1 q2 q3
          refine (abs_add_le _ _).trans ((add_le_add (abs_add_le _ _) le_rfl).trans ?_)
          linarith
        have p0 : 0 ≤ c * k := mul_nonneg c0 r2
        have p1 : c * k ≤ 100 := by nlinarith
        have b : |c' * k'| ≤ 101 := by rw [abs_le] at h3 ⊢; constructor <;> linarith
        have f1 := double_color (c' * k') (by linarith)
        have := abs_add_le (double (c' * k') - c' * k') (c' * k' - c * k)
        rw [sub_add_sub_cancel] at this
        exact ⟨by linarith, p0, by linarith⟩
      | some d =>
        have dn := gd d hd
        have e1 : l.lightR.term n' c' k' = double (c' * double (k' * (if Rounded.dot double n' d < 0 then 0 else Rounded.dot double n' d))) := by
          unfold Lamp.lightR; rw [hd]; rfl
        have e2 : l.power n = l.factor * max (n.dot d) 0 := by unfold Lamp.power; rw [hd]
        rw [e1, e2, fac]
        have s1 : max (n.dot d) 0 ≤ 10 := by
          refine max_le ?_ (by norm_num)
          have := (Rounded.dot_le n d).2
          rw [h1, one_mul] at this
          exact (le_abs_self _).trans (this.trans dn)
        have s0 : 0 ≤ max (n.dot d) 0 := le_max_right _ _
        have P := product_near ec' c0 c1 r1 r2 r3 (proj_near h1 h2 dn) s0 s1
        refine ⟨P, by positivity, ?_⟩
        have := mul_le_mul r3 s1 s0 (by norm_num)
        have h0 : 0 ≤ (ch l.color : ℝ) / 256 * l.factor * max (n.dot d) 0 := mul_nonneg r2 s0
        have := mul_le_mul c1 this h0 (by norm_num)
        linarith) hn
  obtain ⟨k1, k2, k3⟩ := key
  refine ⟨k1.trans (by linarith), k2, ?_⟩
  unfold lit
  linarith

/-- **C138** colours with lights in double: up to 1000 lights of factor up to 100 and directions up to 10, a normal with an error of up to 1e-12.  The colour
is defined and packed from three bytes; every one is the byte nearest to the sum over the lights, up to 0.0005 steps, and 255 if the sum is more -/
theorem shade_double {ls : List (Lamp ℝ)} (hn : ls.length ≤ 1000) (hl : ∀ l ∈ ls, 0 ≤ l.factor ∧ l.factor ≤ 100 ∧ ∀ d, l.direction = some d → d.norm ≤ 10)
    (color : Int) {n' n : P3 ℝ} (h1 : n.norm = 1) (h2 : (n' - n).norm ≤ 0.000000000001) :
    ∃ c, shadeR double (ls.map Lamp.lightR) color (some n') = some c ∧ 0 ≤ c ∧ c < 16777216 ∧
      Shows (lit ls n red (red color)) (red c) ∧ Shows (lit ls n green (green color)) (green c) ∧ Shows (lit ls n blue (blue color)) (blue c) := by
  obtain ⟨v1, v2, v3⟩ := channels color
  obtain ⟨a1, a2, a3⟩ := lamps_near hn hl h1 h2 (f := Light.r) (ch := red) (fun c => (channels c).1) (fun l => by unfold Lamp.lightR; cases l.direction <;> rfl) v1
  obtain ⟨b1, b2, b3⟩ := lamps_near hn hl h1 h2 (f := Light.g) (ch := green) (fun c => (channels c).2.1) (fun l => by unfold Lamp.lightR; cases l.direction <;> rfl) v2
  obtain ⟨d1, d2, d3⟩ := lamps_near hn hl h1 h2 (f := Light.b) (ch := blue) (fun c => (channels c).2.2) (fun l => by unfold Lamp.lightR; cases l.direction <;> rfl) v3
  obtain ⟨r, r1, r2, r3, r4⟩ := channelR_near a1 a2 a3
  obtain ⟨g, g1, g2, g3, g4⟩ := channelR_near b1 b2 b3
  obtain ⟨b, e1, e2, e3, e4⟩ := channelR_near d1 d2 d3
  obtain ⟨u1, u2, u3⟩ := unpack ⟨r2, r3⟩ ⟨g2, g3⟩ ⟨e2, e3⟩
  refine ⟨r * 65536 + g * 256 + b, ?_, by omega, by omega, by rw [u1]; exact r4, by rw [u2]; exact g4, by rw [u3]; exact e4⟩
  unfold shadeR
  have := lightsR_fold (double ((red color : ℝ) / 256), double ((green color : ℝ) / 256), double ((blue color : ℝ) / 256)) n' (ls.map Lamp.lightR) (0, 0, 0)
  simp only [bind, pure] at this ⊢
  rw [this]
  simp only [Option.bind_some]
  rw [r1, g1, e1]
  simp only [Option.bind_some]
  rw [assert_true r2, assert_true g2]
  rfl

/-- a half red ambient light and a full blue diffuse light that hits at a right angle: the colour is the exact one -/
example : ∃ c, shadeR double ([⟨0xff0000, 1 / 2, none⟩, ⟨0x0000ff, 1, some ⟨0, 0, 1⟩⟩].map Lamp.lightR) 0x808040 (some (⟨0, 0, 1⟩ : P3 ℝ)) = some c ∧
    red c = 64 ∧ green c = 0 ∧ blue c = 64 := by
  have n1 : (⟨0, 0, 1⟩ : P3 ℝ).norm = 1 := by rw [P3.norm_eq, P3.normSq]; norm_num
  obtain ⟨c, h1, -, -, h2, h3, h4⟩ := shade_double (ls := [⟨0xff0000, 1 / 2, none⟩, ⟨0x0000ff, 1, some ⟨0, 0, 1⟩⟩]) (by simp) (by
      intro l hl
      simp only [List.mem_cons, List.not_mem_nil, or_false] at hl
      rcases hl with rfl | rfl
      · exact ⟨by norm_num, by norm_num, fun d hd => by cases hd⟩
      · refine ⟨by norm_num, by norm_num, fun d hd => ?_⟩
        simp only [Option.some.injEq] at hd
        rw [← hd, n1]; norm_num) 0x808040 (n' := ⟨0, 0, 1⟩) (n := ⟨0, 0, 1⟩) n1 (by
      rw [show (⟨0, 0, 1⟩ : P3 ℝ) - ⟨0, 0, 1⟩ = ⟨0, 0, 0⟩ by ext <;> simp, P3.norm_eq, P3.normSq]; norm_num)
  have r1 : red 0x808040 = 128 := by decide
  have r2 : green 0x808040 = 128 := by decide
  have r3 : blue 0x808040 = 64 := by decide
  have s1 : red 0xff0000 = 255 := by decide
  have s2 : green 0xff0000 = 0 := by decide
  have s3 : blue 0xff0000 = 0 := by decide
  have t1 : red 0x0000ff = 0 := by decide
  have t2 : green 0x0000ff = 0 := by decide
  have t3 : blue 0x0000ff = 255 := by decide
  refine ⟨c, h1, h2.byte 64 (by decide) (by decide) ?_, h3.byte 0 (by decide) (by decide) ?_, h4.byte 64 (by decide) (by decide) ?_⟩
  all_goals
    simp only [lit, List.map_cons, List.map_nil, List.sum_cons, List.sum_nil, Lamp.power, r1, r2, r3, s1, s2, s3, t1, t2, t3, P3.dot]
    norm_num [abs_le]

/-! ### The whole picture -/

/-- the normal of a triangle in double is a unit vector in the direction of the computed cross product -/
theorem normalR_unit {t : Tri3 ℝ} (h1 : 2 ^ (-400 : ℤ) ≤ (Rounded.orthogonal double t).norm) (h2 : (Rounded.orthogonal double t).norm ≤ 2 ^ (400 : ℤ)) :
    ∃ n' n : P3 ℝ, normalR double t = some n' ∧ n.norm = 1 ∧ (n' - n).norm ≤ 0.000000000001 := by
  unfold normalR
  generalize Rounded.orthogonal double t = v at *
  have v0 : 0 < v.norm := lt_of_lt_of_le (by positivity) h1
  have up : ∀ {a b : ℤ}, a ≤ b → (2 : ℝ) ^ a ≤ 2 ^ b := fun h => zpow_le_zpow_right₀ one_le_two h
  have F := QuadBez.flAt_double ((up (by norm_num)).trans h1) (h2.trans (up (by norm_num)))
  have s1 := mul_le_mul h1 h1 (by positivity) v0.le
  have s2 := mul_le_mul h2 h2 v0.le (by positivity)
  rw [← zpow_add₀ two_ne_zero] at s1 s2
  have F2 := QuadBez.flAt_double ((up (by norm_num)).trans s1) (s2.trans (up (by norm_num)))
  have i1 : (2 : ℝ) ^ (-400 : ℤ) ≤ 1 / v.norm := by
    rw [zpow_neg, ← one_div]; exact one_div_le_one_div_of_le v0 h2
  have i2 : 1 / v.norm ≤ 2 ^ (400 : ℤ) := by
    have := one_div_le_one_div_of_le (by positivity) h1
    simpa only [zpow_neg, one_div, inv_inv] using this
  have Fi := QuadBez.flAt_double ((up (by norm_num)).trans i1) (i2.trans (up (by norm_num)))
  have F1 : FlAt (2 ^ (-53 : ℤ)) 1 double := QuadBez.flAt_double (zpow_le_one_of_nonpos₀ one_le_two (by norm_num)) (one_le_zpow₀ one_le_two (by norm_num))
  obtain ⟨n, e, x, y, z⟩ := Rounded.normalized_unit rfl F F2 Fi F1
  refine ⟨n, ⟨v.x / v.norm, v.y / v.norm, v.z / v.norm⟩, e, ?_, ?_⟩
  · have q := P3.norm_sq v
    rw [P3.norm_eq, P3.normSq]
    simp only
    rw [show v.x / v.norm * (v.x / v.norm) + v.y / v.norm * (v.y / v.norm) + v.z / v.norm * (v.z / v.norm) =
      (v.x * v.x + v.y * v.y + v.z * v.z) / (v.norm * v.norm) by field_simp, q]
    have : v.normSq = v.x * v.x + v.y * v.y + v.z * v.z := rfl
    rw [← this, div_self (by rw [← q]; positivity), sqrt_one]
  · refine (Transform.norm_of_coords (d := 15 * 2 ^ (-53 : ℤ)) x y z).trans ?_
    norm_num

/-- **C138** the colour of a triangle that is not too thin for its distance from the origin: what it shows is computed with the true normal -/
theorem triangle_color_double {ls : List (Lamp ℝ)} (hn : ls.length ≤ 1000) (hl : ∀ l ∈ ls, 0 ≤ l.factor ∧ l.factor ≤ 100 ∧ ∀ d, l.direction = some d → d.norm ≤ 10)
    (color : Int) {s κ : ℝ} {t : Tri3 ℝ} (M : Rounded.Moderate s κ) (T : Rounded.Shape s κ t) (hκ : 1 / 64 ≤ κ) :
    let n := (1 / t.orthogonal.norm) • t.orthogonal
    ∃ c, shadeR double (ls.map Lamp.lightR) color (normalR double t) = some c ∧ 0 ≤ c ∧ c < 16777216 ∧
      Shows (lit ls n red (red color)) (red c) ∧ Shows (lit ls n green (green color)) (green c) ∧ Shows (lit ls n blue (blue color)) (blue c) := by
  intro n
  obtain ⟨P, hP, Q⟩ := Rounded.plane_of M T
  have N0 : 0 < t.orthogonal.norm := lt_of_lt_of_le (mul_pos M.pos.2 (mul_pos M.pos.1 M.pos.1)) T.area
  have e : normalR double t = some P.normal := by
    unfold Rounded.plane Rounded.computeUsing at hP
    unfold normalR Rounded.orthogonal
    cases hN : Rounded.normalized double (Rounded.cross double (Rounded.sub double t.p1 t.p2) (Rounded.sub double t.p1 t.p3)) with
    | none => rw [hN] at hP; cases hP
    | some v =>
      rw [hN] at hP
      simp only [Option.some.injEq] at hP
      rw [← hP]
      rfl
  rw [e]
  refine shade_double hn hl color ?_ (Q.dir.trans ?_)
  · have q := P3.norm_sq t.orthogonal
    have h : n.normSq = 1 := by
      simp only [n, P3.normSq, P3.smul_x, P3.smul_y, P3.smul_z]
      rw [show 1 / t.orthogonal.norm * t.orthogonal.x * (1 / t.orthogonal.norm * t.orthogonal.x) + 1 / t.orthogonal.norm * t.orthogonal.y * (1 / t.orthogonal.norm * t.orthogonal.y) +
        1 / t.orthogonal.norm * t.orthogonal.z * (1 / t.orthogonal.norm * t.orthogonal.z) =
        (t.orthogonal.x * t.orthogonal.x + t.orthogonal.y * t.orthogonal.y + t.orthogonal.z * t.orthogonal.z) / (t.orthogonal.norm * t.orthogonal.norm) by field_simp]
      have : t.orthogonal.normSq = t.orthogonal.x * t.orthogonal.x + t.orthogonal.y * t.orthogonal.y + t.orthogonal.z * t.orthogonal.z := rfl
      rw [← this, ← q, div_self (by positivity)]
    rw [P3.norm_eq, h, sqrt_one]
  · have k0 := M.pos.2
    have : (2 : ℝ) ^ (-53 : ℤ) / κ ≤ 2 ^ (-53 : ℤ) / (1 / 64) := div_le_div_of_nonneg_left (by positivity) (by norm_num) hκ
    refine (mul_le_mul_of_nonneg_left this (by norm_num)).trans ?_
    norm_num

/-- such a triangle -/
example : Rounded.Moderate 2 (1 / 4) ∧ Rounded.Shape 2 (1 / 4) ⟨⟨0, 0, 0⟩, ⟨1, 0, 0⟩, ⟨0, 1, 0⟩⟩ := by
  refine ⟨⟨(zpow_le_one_of_nonpos₀ one_le_two (by norm_num)).trans (by norm_num), ?_, by norm_num⟩, ⟨?_, ?_, ?_⟩, ⟨?_, ?_, ?_⟩, ⟨?_, ?_, ?_⟩, ?_⟩
  · exact (by norm_num : (2 : ℝ) ≤ 2 ^ (1 : ℤ)).trans (zpow_le_zpow_right₀ one_le_two (by norm_num))
  all_goals try norm_num
  rw [P3.norm_eq, P3.normSq]
  simp [Tri3.orthogonal, P3.cross]

/-- what is drawn with a camera and lamps in double -/
noncomputable def sceneR (C S : ℝ → ℝ) (o : P3 ℝ) (ahead yaw pitch roll zoom : ℝ) (cx cy : Int) (ls : List (Lamp ℝ)) : Arith.View :=
  ⟨Arith.project Arith.machine (cameraR C S o ahead yaw pitch roll zoom cx cy), fun color t => shadeR double (ls.map Lamp.lightR) color (normalR double t)⟩

/-- a triangle that lies in a ball and whose computed cross product is not extreme (specification) -/
structure TriangleIn (o : P3 ℝ) (r : ℝ) (t : Tri3 ℝ) : Prop where
  p1 : (t.p1 - o).norm ≤ r
  p2 : (t.p2 - o).norm ≤ r
  p3 : (t.p3 - o).norm ≤ r
  low : 2 ^ (-400 : ℤ) ≤ (Rounded.orthogonal double t).norm
  high : (Rounded.orthogonal double t).norm ≤ 2 ^ (400 : ℤ)

/-- everything a call draws lies in a ball (specification) -/
def Cmd.In (o : P3 ℝ) (r : ℝ) : Cmd ℝ → Prop
  | .mesh m _ _ => m.OK ∧ ∀ t ∈ m.triangles, TriangleIn o r t
  | .triangle t _ _ => TriangleIn o r t
  | .line p q _ => (p - o).norm ≤ r ∧ (q - o).norm ≤ r
  | .polyline ps _ => ∀ p ∈ ps, (p - o).norm ≤ r
  | .pixel p _ => (p - o).norm ≤ r

/-- **C138** the whole picture in double: with a camera before the eye of which all that is drawn lies, at most 1000 lamps, and triangles that are not
degenerate, no drawing call fails an assertion, overflows or accesses anything outside the buffers; nothing is assumed on projections and colours, they are
computed as well -/
theorem picture_double {C S : ℝ → ℝ} (L : Transform.LibTrig (2 ^ (-53 : ℤ)) C S) {o : P3 ℝ} {ahead yaw pitch roll zoom : ℝ} {cx cy : Int}
    (a1 : 2 ^ (-200 : ℤ) ≤ ahead) (a2 : ahead ≤ 2 ^ (199 : ℤ)) (hy : |yaw| ≤ 360) (hpi : |pitch| ≤ 360) (hr : |roll| ≤ 360) (z1 : 1 ≤ zoom) (z2 : zoom ≤ 1000000)
    (hcx : 0 ≤ cx ∧ cx ≤ 65536) (hcy : 0 ≤ cy ∧ cy ≤ 65536)
    {ls : List (Lamp ℝ)} (hn : ls.length ≤ 1000) (hl : ∀ l ∈ ls, 0 ≤ l.factor ∧ l.factor ≤ 100 ∧ ∀ d, l.direction = some d → d.norm ≤ 10)
    {W H : Int} (hW : 0 < W) (hH : 0 < H) (hW' : W ≤ 2147483647) (hH' : H ≤ 2147483647)
    (cmds : List (Cmd ℝ)) (hc : ∀ c ∈ cmds, c.In o (ahead / 2)) {fb : Fb ℝ} (hok : fb.OK W H) :
    ∃ fb', cmds.foldlM (fun fb c => Arith.machine.run (sceneR C S o ahead yaw pitch roll zoom cx cy ls) c fb) fb = some fb' ∧ fb'.OK W H := by
  have sees : ∀ p : P3 ℝ, (p - o).norm ≤ ahead / 2 → (sceneR C S o ahead yaw pitch roll zoom cx cy ls).Sees p := by
    intro p hp
    obtain ⟨r, g1, -, -, -, -, g2⟩ := project_around L (cx := cx) (cy := cy) hp a1 a2 hy hpi hr z1 z2 hcx hcy
    exact ⟨r, g1, g2⟩
  have draws : ∀ (color : Int) (t : Tri3 ℝ), TriangleIn o (ahead / 2) t → (sceneR C S o ahead yaw pitch roll zoom cx cy ls).Draws color t := by
    intro color t ht
    obtain ⟨n', n, e, n1, n2⟩ := normalR_unit ht.low ht.high
    obtain ⟨c, hc, -⟩ := shade_double hn hl color n1 n2
    exact ⟨sees _ ht.p1, sees _ ht.p2, sees _ ht.p3, c, by show shadeR double _ color (normalR double t) = _; rw [e, hc]⟩
  refine render_rounded _ hW hH hW' hH' cmds ?_ hok
  intro c hm
  have h := hc c hm
  cases c with
  | mesh m e col => exact ⟨h.1, fun t ht => draws _ t (h.2 t ht)⟩
  | triangle t col two => exact draws _ t h
  | line p q col => exact ⟨sees p h.1, sees q h.2⟩
  | polyline ps col => exact fun p hp => sees p (h p hp)
  | pixel p col => exact sees p h

/-- a triangle, a line and a pixel before a turned camera, with one ambient and one diffuse lamp -/
example : ∃ fb' : Fb ℝ, [Cmd.triangle ⟨⟨0, 0, 0⟩, ⟨1, 0, 0⟩, ⟨0, 1, 0⟩⟩ 0x8040ff true, .line ⟨1, 0, 0⟩ ⟨0, 0, 1⟩ 7, .pixel ⟨0, 1, 1⟩ 9].foldlM
    (fun fb c => Arith.machine.run (sceneR cos sin ⟨0, 0, 0⟩ 10 30 (-20) 10 500 320 240 [⟨0xff0000, 1 / 2, none⟩, ⟨0x0000ff, 1, some ⟨0, 0, 1⟩⟩]) c fb)
      (⟨2, 1, [0, 0], [0, 0]⟩ : Fb ℝ) = some fb' ∧ fb'.OK 2 1 := by
  have d0 : double 0 = 0 := ieee_zero
  have d1 : double 1 = 1 := by
    have := ieee_int (p := 53) (emin := -1074) (k := 1) (by norm_num) (by norm_num)
    simp only [Int.cast_one] at this
    exact this
  have dm : double (-1) = -1 := by
    have := ieee_int (p := 53) (emin := -1074) (k := -1) (by norm_num) (by norm_num)
    simp only [Int.cast_neg, Int.cast_one] at this
    exact this
  have n1 : (⟨0, 0, 1⟩ : P3 ℝ).norm = 1 := by rw [P3.norm_eq, P3.normSq]; norm_num
  have ball : ∀ x y z : ℝ, |x| ≤ 1 → |y| ≤ 1 → |z| ≤ 1 → ((⟨x, y, z⟩ : P3 ℝ) - ⟨0, 0, 0⟩).norm ≤ 10 / 2 := by
    intro x y z hx hy hz
    refine (Transform.norm_of_coords (d := 1) ?_ ?_ ?_).trans (by norm_num) <;> simpa
  have orth : (Rounded.orthogonal double ⟨⟨0, 0, 0⟩, ⟨1, 0, 0⟩, ⟨0, 1, 0⟩⟩).norm = 1 := by
    have : Rounded.orthogonal double ⟨⟨0, 0, 0⟩, ⟨1, 0, 0⟩, ⟨0, 1, 0⟩⟩ = ⟨0, 0, 1⟩ := by
      unfold Rounded.orthogonal Rounded.cross Rounded.sub
      norm_num [d0, d1, dm]
    rw [this, n1]
  refine picture_double exact_trig ((zpow_le_one_of_nonpos₀ one_le_two (by norm_num)).trans (by norm_num))
    ((by norm_num : (10 : ℝ) ≤ 2 ^ (4 : ℤ)).trans (zpow_le_zpow_right₀ one_le_two (by norm_num)))
    (by norm_num) (by norm_num) (by norm_num) (by norm_num) (by norm_num) (by decide) (by decide) (by simp) ?_ (by decide) (by decide) (by decide) (by decide) _ ?_
    ⟨rfl, rfl, rfl, rfl⟩
  · intro l hl
    simp only [List.mem_cons, List.not_mem_nil, or_false] at hl
    rcases hl with rfl | rfl
    · exact ⟨by norm_num, by norm_num, fun d hd => by cases hd⟩
    · refine ⟨by norm_num, by norm_num, fun d hd => ?_⟩
      simp only [Option.some.injEq] at hd
      rw [← hd, n1]; norm_num
  · intro c hc
    simp only [List.mem_cons, List.not_mem_nil, or_false] at hc
    rcases hc with rfl | rfl | rfl
    · refine ⟨ball _ _ _ (by norm_num) (by norm_num) (by norm_num), ball _ _ _ (by norm_num) (by norm_num) (by norm_num),
        ball _ _ _ (by norm_num) (by norm_num) (by norm_num), ?_, ?_⟩
      · rw [orth]; exact zpow_le_one_of_nonpos₀ one_le_two (by norm_num)
      · rw [orth]; exact one_le_zpow₀ one_le_two (by norm_num)
    · exact ⟨ball _ _ _ (by norm_num) (by norm_num) (by norm_num), ball _ _ _ (by norm_num) (by norm_num) (by norm_num)⟩
    · exact ball _ _ _ (by norm_num) (by norm_num) (by norm_num)

end CAD.Render
