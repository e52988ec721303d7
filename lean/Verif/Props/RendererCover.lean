import Verif.Props.RendererDepth
import Verif.Props.Transform

/-! The renderer: which pixels a triangle covers, which facets are hidden (C97). -/

namespace CAD.Render
set_option linter.unusedSimpArgs false
set_option linter.unusedSectionVars false
set_option linter.unusedVariables false
variable {K : Type} [Field K] [LinearOrder K] [IsStrictOrderedRing K] [FloorRing K]
open Transform

/-! ### Specification -/

/-- the point `(x, y)` of the screen lies in the triangle of three screen points, border included -/
def InTri (a b c : V K) (x y : K) : Prop :=
  ∃ p q r : K, 0 ≤ p ∧ 0 ≤ q ∧ 0 ≤ r ∧ p + q + r = 1 ∧ p * a.x + q * b.x + r * c.x = x ∧ p * a.y + q * b.y + r * c.y = y

/-- twice the signed area on the screen; the rows count downwards -/
def area2 (a b c : V K) : Int := (b.x - a.x) * (c.y - a.y) - (b.y - a.y) * (c.x - a.x)

/-- neither left of nor above the screen -/
structure V.Positive (v : V K) : Prop where
  x : 0 ≤ v.x
  y : 0 ≤ v.y

theorem InTri.swap12 {a b c : V K} {x y : K} (h : InTri a b c x y) : InTri b a c x y := by
  obtain ⟨p, q, r, h1, h2, h3, h4, h5, h6⟩ := h
  exact ⟨q, p, r, h2, h1, h3, by linarith, by linarith, by linarith⟩

theorem InTri.swap23 {a b c : V K} {x y : K} (h : InTri a b c x y) : InTri a c b x y := by
  obtain ⟨p, q, r, h1, h2, h3, h4, h5, h6⟩ := h
  exact ⟨p, r, q, h1, h3, h2, by linarith, by linarith, by linarith⟩

theorem convex_ge {p q r m x y z : K} (hp : 0 ≤ p) (hq : 0 ≤ q) (hr : 0 ≤ r) (hs : p + q + r = 1) (h1 : m ≤ x) (h2 : m ≤ y) (h3 : m ≤ z) :
    m ≤ p * x + q * y + r * z := by
  have k1 := mul_le_mul_of_nonneg_left h1 hp
  have k2 := mul_le_mul_of_nonneg_left h2 hq
  have k3 := mul_le_mul_of_nonneg_left h3 hr
  have : m = p * m + q * m + r * m := by rw [← add_mul, ← add_mul, hs, one_mul]
  linarith

/-! ### One row -/

theorem trunc_near {v : K} (h : 0 ≤ v) : v - 1 / 2 < ((trunc (v + 1 / 2) : Int) : K) ∧ ((trunc (v + 1 / 2) : Int) : K) ≤ v + 1 / 2 := by
  have e : trunc (v + 1 / 2) = ⌊v + 1 / 2⌋ := by unfold trunc; rw [if_pos (by linarith)]
  rw [e]
  have h1 := Int.floor_le (v + 1 / 2)
  have h2 := Int.lt_floor_add_one (v + 1 / 2)
  constructor <;> linarith

/-- the row at a weight `t` between the tip `p` and the base from `l` to `r`, where `bx` and `e` are the true ends of
the base: true positions are painted -/
theorem row_cover {l r p x : Int} {bx e t u : K} (hl : 0 ≤ l) (hp : 0 ≤ p) (hlr : l ≤ r) (h0 : 0 ≤ t) (h1 : t ≤ 1) (hb1 : (l : K) - 1 / 2 ≤ bx)
    (he1 : (l : K) - 1 / 2 ≤ e) (hb2 : bx ≤ (r : K) + 1 / 2) (he2 : e ≤ (r : K) + 1 / 2) (hu0 : 0 ≤ u) (hu1 : u ≤ 1)
    (hx : (x : K) = (u * bx + (1 - u) * e) * t + p * (1 - t)) :
    trunc ((l : K) * t + p * (1 - t) + 1 / 2) ≤ x ∧ x ≤ trunc ((r : K) * t + p * (1 - t) + 1 / 2) := by
  have hl' : (0 : K) ≤ l := by exact_mod_cast hl
  have hr' : (0 : K) ≤ r := by exact_mod_cast hl.trans hlr
  have hp' : (0 : K) ≤ p := by exact_mod_cast hp
  have n1 : 0 ≤ (l : K) * t + p * (1 - t) := add_nonneg (mul_nonneg hl' h0) (mul_nonneg hp' (by linarith))
  have n2 : 0 ≤ (r : K) * t + p * (1 - t) := add_nonneg (mul_nonneg hr' h0) (mul_nonneg hp' (by linarith))
  have b1 : (l : K) - 1 / 2 ≤ u * bx + (1 - u) * e := by nlinarith
  have b2 : u * bx + (1 - u) * e ≤ (r : K) + 1 / 2 := by nlinarith
  generalize u * bx + (1 - u) * e = m at *
  have t1 := trunc_near n1
  have t2 := trunc_near n2
  constructor
  · rcases eq_or_lt_of_le h1 with rfl | h1
    · have e : (l : K) * 1 + p * (1 - 1) + 1 / 2 = (l : K) + 1 / 2 := by ring
      rw [e, trunc_half, if_pos hl]
      have : ((l : Int) : K) < ((x + 1 : Int) : K) := by push_cast; linarith
      have : l < x + 1 := by exact_mod_cast this
      omega
    · have hlt : ((trunc ((l : K) * t + p * (1 - t) + 1 / 2) : Int) : K) < ((x + 1 : Int) : K) := by
        push_cast
        have := mul_le_mul_of_nonneg_right b1 h0
        linarith
      have : trunc ((l : K) * t + p * (1 - t) + 1 / 2) < x + 1 := by exact_mod_cast hlt
      omega
  · have hlt : ((x - 1 : Int) : K) < ((trunc ((r : K) * t + p * (1 - t) + 1 / 2) : Int) : K) := by
      push_cast
      have := mul_le_mul_of_nonneg_right b2 h0
      linarith
    have : x - 1 < trunc ((r : K) * t + p * (1 - t) + 1 / 2) := by exact_mod_cast hlt
    omega

/-- painted positions are at most one pixel away from true positions -/
theorem row_near {l r p x : Int} {bx e t : K} (hl : 0 ≤ l) (hp : 0 ≤ p) (hlr : l ≤ r) (h0 : 0 ≤ t) (h1 : t ≤ 1)
    (hmin : min bx e ≤ (l : K) + 1 / 2) (hmax : (r : K) - 1 / 2 ≤ max bx e)
    (hx : trunc ((l : K) * t + p * (1 - t) + 1 / 2) ≤ x ∧ x ≤ trunc ((r : K) * t + p * (1 - t) + 1 / 2)) :
    ∃ u s : K, 0 ≤ u ∧ u ≤ 1 ∧ s = (u * bx + (1 - u) * e) * t + p * (1 - t) ∧ |(x : K) - s| ≤ 1 := by
  have hl' : (0 : K) ≤ l := by exact_mod_cast hl
  have hr' : (0 : K) ≤ r := by exact_mod_cast hl.trans hlr
  have hp' : (0 : K) ≤ p := by exact_mod_cast hp
  have n1 : 0 ≤ (l : K) * t + p * (1 - t) := add_nonneg (mul_nonneg hl' h0) (mul_nonneg hp' (by linarith))
  have n2 : 0 ≤ (r : K) * t + p * (1 - t) := add_nonneg (mul_nonneg hr' h0) (mul_nonneg hp' (by linarith))
  have t1 := trunc_near n1
  have t2 := trunc_near n2
  have x1 : ((trunc ((l : K) * t + p * (1 - t) + 1 / 2) : Int) : K) ≤ x := by exact_mod_cast hx.1
  have x2 : (x : K) ≤ ((trunc ((r : K) * t + p * (1 - t) + 1 / 2) : Int) : K) := by exact_mod_cast hx.2
  -- positions of the base are reached by weights
  have reach : ∀ m : K, min bx e ≤ m → m ≤ max bx e → ∃ u, 0 ≤ u ∧ u ≤ 1 ∧ u * bx + (1 - u) * e = m := by
    intro m m1 m2
    rcases lt_trichotomy bx e with h | h | h
    · rw [min_eq_left h.le] at m1
      rw [max_eq_right h.le] at m2
      have hd : 0 < e - bx := by linarith
      refine ⟨(e - m) / (e - bx), div_nonneg (by linarith) hd.le, (div_le_one hd).2 (by linarith), ?_⟩
      have := hd.ne'
      field_simp
      ring
    · subst h
      rw [min_self] at m1
      rw [max_self] at m2
      exact ⟨1, zero_le_one, le_rfl, by rw [le_antisymm m2 m1]; ring⟩
    · rw [min_eq_right h.le] at m1
      rw [max_eq_left h.le] at m2
      have hd : 0 < bx - e := by linarith
      refine ⟨(m - e) / (bx - e), div_nonneg (by linarith) hd.le, (div_le_one hd).2 (by linarith), ?_⟩
      have := hd.ne'
      field_simp
      ring
  have lo : min bx e * t ≤ ((l : K) + 1 / 2) * t := mul_le_mul_of_nonneg_right hmin h0
  have hi : ((r : K) - 1 / 2) * t ≤ max bx e * t := mul_le_mul_of_nonneg_right hmax h0
  have hmm : min bx e ≤ max bx e := min_le_max
  by_cases c1 : (x : K) < min bx e * t + p * (1 - t)
  · obtain ⟨u, u0, u1, hu⟩ := reach _ le_rfl hmm
    exact ⟨u, _, u0, u1, rfl, by rw [hu, abs_le]; constructor <;> linarith⟩
  by_cases c2 : max bx e * t + p * (1 - t) < (x : K)
  · obtain ⟨u, u0, u1, hu⟩ := reach _ hmm le_rfl
    exact ⟨u, _, u0, u1, rfl, by rw [hu, abs_le]; constructor <;> linarith⟩
  rcases eq_or_lt_of_le h0 with rfl | h0
  · obtain ⟨u, u0, u1, hu⟩ := reach _ le_rfl hmm
    exact ⟨u, _, u0, u1, rfl, by rw [abs_le]; constructor <;> linarith⟩
  · obtain ⟨u, u0, u1, hu⟩ := reach (((x : K) - p * (1 - t)) / t) (by rw [le_div_iff₀ h0]; linarith) (by rw [div_le_iff₀ h0]; linarith)
    refine ⟨u, _, u0, u1, rfl, ?_⟩
    rw [hu, div_mul_cancel₀ _ h0.ne']
    simp

/-! ### The true positions in a row -/

/-- the position on the side `ac` in the row of `b` -/
def sideX (a b c : V K) : K := a.x + ((b.y - a.y : Int) : K) / ((c.y - a.y : Int) : K) * ((c.x - a.x : Int) : K)

theorem upper_iff {a b c : V K} (hab : a.y ≤ b.y) (hbc : b.y ≤ c.y) {y : Int} (h1 : a.y ≤ y) (h2 : y < b.y) (x : K) :
    InTri a b c x y ↔ ∃ u : K, 0 ≤ u ∧ u ≤ 1 ∧
      x = (u * b.x + (1 - u) * sideX a b c) * (((y - a.y : Int) : K) / ((b.y - a.y : Int) : K)) + a.x * (1 - ((y - a.y : Int) : K) / ((b.y - a.y : Int) : K)) := by
  have k1 : (0 : K) ≤ (y : K) - a.y := by rw [sub_nonneg]; exact_mod_cast h1
  have k2 : (0 : K) < (b.y : K) - y := by rw [sub_pos]; exact_mod_cast h2
  have k3 : (0 : K) ≤ (c.y : K) - b.y := by rw [sub_nonneg]; exact_mod_cast hbc
  have hB : (0 : K) < (b.y : K) - a.y := by linarith
  have hC : (0 : K) < (c.y : K) - a.y := by linarith
  unfold InTri sideX
  push_cast
  constructor
  · rintro ⟨p, q, r, hp, hq, hr, hs, hx, hy⟩
    have hp' : p = 1 - q - r := by linarith
    subst hp'
    have hr' : r * ((c.y : K) - a.y) = (y - a.y) - q * (b.y - a.y) := by linarith
    rcases eq_or_lt_of_le k1 with k1 | k1
    · have q0 : q = 0 := by
        have : q * ((b.y : K) - a.y) ≤ 0 := by nlinarith
        nlinarith
      have r0 : r = 0 := by
        rw [q0, ← k1] at hr'
        simp only [zero_mul, sub_zero] at hr'
        rcases mul_eq_zero.1 hr' with h | h
        · exact h
        · exact absurd h hC.ne'
      refine ⟨0, le_rfl, zero_le_one, ?_⟩
      rw [← k1, ← hx, q0, r0]
      ring
    · refine ⟨q * (b.y - a.y) / (y - a.y), div_nonneg (mul_nonneg hq hB.le) k1.le, (div_le_one k1).2 (by nlinarith), ?_⟩
      have e : r = ((y - a.y) - q * (b.y - a.y)) / ((c.y : K) - a.y) := by rw [eq_div_iff hC.ne']; exact hr'
      rw [← hx, e]
      have n1 := k1.ne'
      have n2 := hB.ne'
      have n3 := hC.ne'
      field_simp
      ring
  · rintro ⟨u, u0, u1, rfl⟩
    have ht0 : 0 ≤ ((y : K) - a.y) / (b.y - a.y) := div_nonneg k1 hB.le
    have ht1 : ((y : K) - a.y) / (b.y - a.y) ≤ 1 := (div_le_one hB).2 (by linarith)
    have htb : ((y : K) - a.y) / (b.y - a.y) * (b.y - a.y) = y - a.y := div_mul_cancel₀ _ hB.ne'
    have hs0 : 0 ≤ ((b.y : K) - a.y) / (c.y - a.y) := div_nonneg hB.le hC.le
    have hs1 : ((b.y : K) - a.y) / (c.y - a.y) ≤ 1 := (div_le_one hC).2 (by linarith)
    have hsb : ((b.y : K) - a.y) / (c.y - a.y) * (c.y - a.y) = b.y - a.y := div_mul_cancel₀ _ hC.ne'
    generalize ((y : K) - a.y) / (b.y - a.y) = t at *
    generalize ((b.y : K) - a.y) / (c.y - a.y) = s at *
    have w1 : 0 ≤ (1 - u) * s * t := mul_nonneg (mul_nonneg (by linarith) hs0) ht0
    have w2 : (1 - u) * s * t ≤ (1 - u) * t := by nlinarith [mul_nonneg (by linarith : 0 ≤ 1 - u) ht0]
    have w3 : u * t ≤ t := by nlinarith
    refine ⟨1 - u * t - (1 - u) * s * t, u * t, (1 - u) * s * t, by nlinarith, mul_nonneg u0 ht0, w1, by ring, by ring, ?_⟩
    linear_combination htb + (1 - u) * t * hsb

theorem lower_iff {a b c : V K} (hab : a.y ≤ b.y) (hbc : b.y ≤ c.y) {y : Int} (h1 : b.y ≤ y) (h2 : y < c.y) (x : K) :
    InTri a b c x y ↔ ∃ u : K, 0 ≤ u ∧ u ≤ 1 ∧
      x = c.x * (((y - b.y : Int) : K) / ((c.y - b.y : Int) : K)) + (u * b.x + (1 - u) * sideX a b c) * (1 - ((y - b.y : Int) : K) / ((c.y - b.y : Int) : K)) := by
  have k1 : (0 : K) ≤ (y : K) - b.y := by rw [sub_nonneg]; exact_mod_cast h1
  have k2 : (0 : K) < (c.y : K) - y := by rw [sub_pos]; exact_mod_cast h2
  have k3 : (0 : K) ≤ (b.y : K) - a.y := by rw [sub_nonneg]; exact_mod_cast hab
  have hB : (0 : K) < (c.y : K) - b.y := by linarith
  have hC : (0 : K) < (c.y : K) - a.y := by linarith
  unfold InTri sideX
  push_cast
  constructor
  · rintro ⟨p, q, r, hp, hq, hr, hs, hx, hy⟩
    have hr' : r = 1 - q - p := by linarith
    subst hr'
    have hp' : p * ((c.y : K) - a.y) = (c.y - y) - q * (c.y - b.y) := by linarith
    refine ⟨q * (c.y - b.y) / (c.y - y), div_nonneg (mul_nonneg hq hB.le) k2.le, (div_le_one k2).2 (by nlinarith), ?_⟩
    have e : p = ((c.y - y) - q * (c.y - b.y)) / ((c.y : K) - a.y) := by rw [eq_div_iff hC.ne']; exact hp'
    rw [← hx, e]
    have n1 := k2.ne'
    have n2 := hB.ne'
    have n3 := hC.ne'
    field_simp
    ring
  · rintro ⟨u, u0, u1, rfl⟩
    have ht0 : 0 ≤ ((y : K) - b.y) / (c.y - b.y) := div_nonneg k1 hB.le
    have ht1 : ((y : K) - b.y) / (c.y - b.y) ≤ 1 := (div_le_one hB).2 (by linarith)
    have htb : ((y : K) - b.y) / (c.y - b.y) * (c.y - b.y) = y - b.y := div_mul_cancel₀ _ hB.ne'
    have hs0 : 0 ≤ ((b.y : K) - a.y) / (c.y - a.y) := div_nonneg k3 hC.le
    have hs1 : ((b.y : K) - a.y) / (c.y - a.y) ≤ 1 := (div_le_one hC).2 (by linarith)
    have hsb : ((b.y : K) - a.y) / (c.y - a.y) * (c.y - a.y) = b.y - a.y := div_mul_cancel₀ _ hC.ne'
    generalize ((y : K) - b.y) / (c.y - b.y) = t at *
    generalize ((b.y : K) - a.y) / (c.y - a.y) = s at *
    have w0 : 0 ≤ (1 - u) * (1 - t) := mul_nonneg (by linarith) (by linarith)
    have w1 : 0 ≤ (1 - u) * (1 - t) * s := mul_nonneg w0 hs0
    have w2 : 0 ≤ (1 - u) * (1 - t) * (1 - s) := mul_nonneg w0 (by linarith)
    have w3 : 0 ≤ u * (1 - t) := mul_nonneg u0 (by linarith)
    refine ⟨(1 - u) * (1 - t) * (1 - s), u * (1 - t), t + (1 - u) * (1 - t) * s, w2, w3, by linarith, by ring, by ring, ?_⟩
    linear_combination htb + (1 - u) * (1 - t) * hsb

/-! ### Triangles -/

theorem splitPoint_near {a b c : V K} (hab : a.y ≤ b.y) (hbc : b.y ≤ c.y) (hac : a.y < c.y) (ha : a.Small) (hb : b.Small) (hc : c.Small)
    (pa : a.Positive) (pb : b.Positive) (pc : c.Positive) :
    ∃ d, splitPoint a b c = some d ∧ d.y = b.y ∧ 0 ≤ d.x ∧ d.x ≤ big ∧ sideX a b c - 1 / 2 < d.x ∧ (d.x : K) ≤ sideX a b c + 1 / 2 ∧
      (∀ lo hi, lo ≤ a.w ∧ a.w ≤ hi → lo ≤ c.w ∧ c.w ≤ hi → lo ≤ d.w ∧ d.w ≤ hi) := by
  have pax := pa.x
  have pcx := pc.x
  obtain ⟨d, hd, dy, d1, d2, d3, d4, d5⟩ := splitPoint_spec hab hbc ha hb hc
  have hd0 : 0 ≤ d.x := le_trans (le_min pax pcx) d1
  obtain ⟨ha1, ha2, ha3, ha4⟩ := ha
  obtain ⟨hb1, hb2, hb3, hb4⟩ := hb
  obtain ⟨hc1, hc2, hc3, hc4⟩ := hc
  have hbig := big_eq
  rw [if_pos pb.y] at dy
  refine ⟨d, hd, dy, hd0, d4, ?_⟩
  have e : (c.x : K) * (((b.y - a.y : Int) : K) / ((c.y - a.y : Int) : K)) + (1 - ((b.y - a.y : Int) : K) / ((c.y - a.y : Int) : K)) * a.x = sideX a b c := by
    unfold sideX
    push_cast
    ring
  have hx : d.x = trunc (sideX a b c + 1 / 2) := by
    unfold splitPoint splitT at hd
    rw [if_pos (by omega), int32_bind (by omega) (by omega), int32_bind (by omega) (by omega)] at hd
    simp only [bind, Option.bind_some, pure] at hd
    rw [e] at hd
    unfold CAD.assert at hd
    split at hd
    · split at hd
      · simp only [Option.bind_some] at hd
        cases h1 : toInt (sideX a b c + 1 / 2) with
        | none => rw [h1] at hd; exact absurd hd (by simp)
        | some n =>
          rw [h1] at hd
          simp only [Option.bind_some] at hd
          have hn : n = trunc (sideX a b c + 1 / 2) := by
            unfold toInt int32 at h1
            split at h1
            · exact (Option.some.inj h1).symm
            · exact absurd h1 (by simp)
          obtain ⟨m, -, hm⟩ := Option.bind_eq_some_iff.1 hd
          rw [← Option.some.inj hm, hn]
      · exact absurd hd (by simp)
    · exact absurd hd (by simp)
  have hs0 : 0 ≤ sideX a b c := by
    rw [← e]
    have k1 : (0 : K) ≤ ((b.y - a.y : Int) : K) := by exact_mod_cast (by omega : 0 ≤ b.y - a.y)
    have k2 : (0 : K) < ((c.y - a.y : Int) : K) := by exact_mod_cast (by omega : 0 < c.y - a.y)
    have k3 : ((b.y - a.y : Int) : K) ≤ ((c.y - a.y : Int) : K) := by exact_mod_cast (by omega : b.y - a.y ≤ c.y - a.y)
    have t0 := div_nonneg k1 k2.le
    have t1 := (div_le_one k2).2 k3
    have x1 : (0 : K) ≤ a.x := by exact_mod_cast pax
    have x2 : (0 : K) ≤ c.x := by exact_mod_cast pcx
    exact add_nonneg (mul_nonneg x2 t0) (mul_nonneg (by linarith) x1)
  rw [hx]
  exact ⟨(trunc_near hs0).1, (trunc_near hs0).2, d5⟩

theorem halves_cover (rnd : K → K) {a b c : V K} (hab : a.y ≤ b.y) (hbc : b.y ≤ c.y) (hac : a.y < c.y) (ha : a.Small) (hb : b.Small) (hc : c.Small)
    (pa : a.Positive) (pb : b.Positive) (pc : c.Positive) (color : Int) {W H : Int} (hW : 0 < W) (hH : 0 < H) :
    ∃ (vis : Bool) (fs : List (Frag K)), (∀ fb : Fb K, fb.OK W H → halves rnd a b c (some color) fb = some (vis, fb.puts fs)) ∧
      (∀ x y, OnScreen W H x y → y < H - 1 → y < c.y → InTri a b c (x : K) y → ∃ f ∈ fs, f.x = x ∧ f.y = y) ∧
      (∀ f ∈ fs, f.color = color ∧ OnScreen W H f.x f.y ∧ f.y < H - 1 ∧ f.y < c.y ∧
        (∃ s : K, |(f.x : K) - s| ≤ 1 ∧ InTri a b c s f.y) ∧
        ∀ lo hi, lo ≤ a.w ∧ a.w ≤ hi → lo ≤ b.w ∧ b.w ≤ hi → lo ≤ c.w ∧ c.w ≤ hi → ∃ w, f.w = rnd w ∧ lo ≤ w ∧ w ≤ hi) := by
  obtain ⟨d, hd, dy, d1, d2, e1, e2, d5⟩ := splitPoint_near hab hbc hac ha hb hc pa pb pc
  have pax := pa.x
  have pay := pa.y
  have pbx := pb.x
  have pcx := pc.x
  obtain ⟨ha1, ha2, ha3, ha4⟩ := ha
  obtain ⟨hb1, hb2, hb3, hb4⟩ := hb
  obtain ⟨hc1, hc2, hc3, hc4⟩ := hc
  have hbig := big_eq
  have cast : ∀ {m n : Int}, m ≤ n → (m : K) ≤ (n : K) := fun h => by exact_mod_cast h
  have lowc : ∀ {m : Int}, -big ≤ m → -((big : Int) : K) ≤ (m : K) := fun h => by exact_mod_cast h
  -- the two points in the middle, after the exchange
  have key : ∀ (l r : Int) (lw rw : K), 0 ≤ l → l ≤ r → r ≤ big → (l : K) - 1 / 2 ≤ b.x → (l : K) - 1 / 2 ≤ sideX a b c → (b.x : K) ≤ r + 1 / 2 → sideX a b c ≤ (r : K) + 1 / 2 →
      min (b.x : K) (sideX a b c) ≤ (l : K) + 1 / 2 → (r : K) - 1 / 2 ≤ max (b.x : K) (sideX a b c) →
      ∃ (vis : Bool) (fs : List (Frag K)), (∀ fb : Fb K, fb.OK W H →
        ((trapeze rnd ⟨a.x, a.w, a.x, a.w, a.y, l, lw, r, rw, b.y⟩ color fb).bind fun r1 =>
          (trapeze rnd ⟨l, lw, r, rw, b.y, c.x, c.w, c.x, c.w, c.y⟩ color r1.2).bind fun r2 => some (r1.1 || r2.1, r2.2)) = some (vis, fb.puts fs)) ∧
      (∀ x y, OnScreen W H x y → y < H - 1 → y < c.y → InTri a b c (x : K) y → ∃ f ∈ fs, f.x = x ∧ f.y = y) ∧
      (∀ f ∈ fs, f.color = color ∧ OnScreen W H f.x f.y ∧ f.y < H - 1 ∧ f.y < c.y ∧
        (∃ s : K, |(f.x : K) - s| ≤ 1 ∧ InTri a b c s f.y) ∧
        ∀ lo hi, lo ≤ a.w ∧ a.w ≤ hi → lo ≤ lw ∧ lw ≤ hi → lo ≤ rw ∧ rw ≤ hi → lo ≤ c.w ∧ c.w ≤ hi → ∃ w, f.w = rnd w ∧ lo ≤ w ∧ w ≤ hi) := by
    intro l r lw rw hl hlr hr g1 g2 g3 g4 g5 g6
    obtain ⟨v1, f1, p1, -, q1, r1, -, z1⟩ := trapeze_depth_partial rnd (q := ⟨a.x, a.w, a.x, a.w, a.y, l, lw, r, rw, b.y⟩)
      ⟨le_rfl, cast hlr, hab, ⟨lowc ha1, lowc (by omega)⟩, ⟨cast ha2, cast hr⟩, ha3, hb4⟩ color hW hH
    obtain ⟨v2, f2, p2, -, q2, r2, -, z2⟩ := trapeze_depth_partial rnd (q := ⟨l, lw, r, rw, b.y, c.x, c.w, c.x, c.w, c.y⟩)
      ⟨cast hlr, le_rfl, hbc, ⟨lowc (by omega), lowc hc1⟩, ⟨cast hr, cast hc2⟩, hb3, hc4⟩ color hW hH
    have frac : ∀ {m n y : Int}, m ≤ y → y < n → 0 ≤ ((y - m : Int) : K) / ((n - m : Int) : K) ∧ ((y - m : Int) : K) / ((n - m : Int) : K) ≤ 1 := by
      intro m n y h1 h2
      have k1 : (0 : K) ≤ ((y - m : Int) : K) := by exact_mod_cast (by omega : 0 ≤ y - m)
      have k2 : (0 : K) < ((n - m : Int) : K) := by exact_mod_cast (by omega : 0 < n - m)
      have k3 : ((y - m : Int) : K) ≤ ((n - m : Int) : K) := by exact_mod_cast (by omega : y - m ≤ n - m)
      exact ⟨div_nonneg k1 k2.le, (div_le_one k2).2 k3⟩
    refine ⟨v1 || v2, f1 ++ f2, fun fb hok => ?_, fun x y o hy hyc hin => ?_, fun f hf => ?_⟩
    · rw [p1 fb hok, Option.bind_some]
      rw [p2 _ (hok.puts f1), Option.bind_some, Fb.puts_append]
    · have hya : a.y ≤ y := by
        obtain ⟨p, q, r, hp, hq, hr, hs, -, hyy⟩ := hin
        have k1 : (a.y : K) ≤ b.y := cast hab
        have k2 : (a.y : K) ≤ c.y := cast (hab.trans hbc)
        have : (a.y : K) ≤ y := by rw [← hyy]; exact convex_ge hp hq hr hs le_rfl k1 k2
        exact_mod_cast this
      by_cases hyb : y < b.y
      · obtain ⟨u, u0, u1, hu⟩ := (upper_iff hab hbc hya hyb _).1 hin
        obtain ⟨t0, t1⟩ := frac hya hyb
        obtain ⟨c1, c2⟩ := row_cover hl pax hlr t0 t1 g1 g2 g3 g4 u0 u1 hu
        obtain ⟨f, hf, hxy⟩ := (r1 x y).2 ⟨o, hya, hyb, fun _ => hy, c1, c2⟩
        exact ⟨f, List.mem_append_left _ hf, hxy⟩
      · have hyb := not_lt.1 hyb
        obtain ⟨u, u0, u1, hu⟩ := (lower_iff hab hbc hyb hyc _).1 hin
        obtain ⟨t0, t1⟩ := frac hyb hyc
        have hu' : (x : K) = (u * b.x + (1 - u) * sideX a b c) * (1 - ((y - b.y : Int) : K) / ((c.y - b.y : Int) : K)) +
            c.x * (1 - (1 - ((y - b.y : Int) : K) / ((c.y - b.y : Int) : K))) := by rw [hu]; ring
        obtain ⟨c1, c2⟩ := row_cover hl pcx hlr (by linarith) (by linarith) g1 g2 g3 g4 u0 u1 hu'
        have eL : (l : K) * (1 - ((y - b.y : Int) : K) / ((c.y - b.y : Int) : K)) + c.x * (1 - (1 - ((y - b.y : Int) : K) / ((c.y - b.y : Int) : K))) =
            mix b.y c.y (l : K) c.x y := by unfold mix; ring
        have eR : (r : K) * (1 - ((y - b.y : Int) : K) / ((c.y - b.y : Int) : K)) + c.x * (1 - (1 - ((y - b.y : Int) : K) / ((c.y - b.y : Int) : K))) =
            mix b.y c.y (r : K) c.x y := by unfold mix; ring
        rw [eL] at c1
        rw [eR] at c2
        obtain ⟨f, hf, hxy⟩ := (r2 x y).2 ⟨o, hyb, hyc, fun _ => hy, c1, c2⟩
        exact ⟨f, List.mem_append_right _ hf, hxy⟩
    · rcases List.mem_append.1 hf with hf | hf
      · obtain ⟨o, k1, k2, k3, k4⟩ := (r1 f.x f.y).1 ⟨f, hf, rfl, rfl⟩
        simp only at k1 k2 k3
        obtain ⟨t0, t1⟩ := frac k1 k2
        obtain ⟨u, s, u0, u1, hs, hn⟩ := row_near hl pax hlr t0 t1 g5 g6 k4
        exact ⟨q1 f hf, o, by omega, by omega, ⟨s, hn, (upper_iff hab hbc k1 k2 s).2 ⟨u, u0, u1, hs⟩⟩,
          fun lo hi la lb ld lc => z1 f hf lo hi (mix_between k1 k2.le la lb) (mix_between k1 k2.le la ld)⟩
      · obtain ⟨o, k1, k2, k3, k4⟩ := (r2 f.x f.y).1 ⟨f, hf, rfl, rfl⟩
        simp only at k1 k2 k3
        obtain ⟨t0, t1⟩ := frac k1 k2
        have eL : Trap.first (K := K) ⟨l, lw, r, rw, b.y, c.x, c.w, c.x, c.w, c.y⟩ f.y =
            trunc ((l : K) * (1 - ((f.y - b.y : Int) : K) / ((c.y - b.y : Int) : K)) + c.x * (1 - (1 - ((f.y - b.y : Int) : K) / ((c.y - b.y : Int) : K))) + 1 / 2) := by
          unfold Trap.first Trap.left mix
          congr 1
          ring
        have eR : Trap.last (K := K) ⟨l, lw, r, rw, b.y, c.x, c.w, c.x, c.w, c.y⟩ f.y =
            trunc ((r : K) * (1 - ((f.y - b.y : Int) : K) / ((c.y - b.y : Int) : K)) + c.x * (1 - (1 - ((f.y - b.y : Int) : K) / ((c.y - b.y : Int) : K))) + 1 / 2) := by
          unfold Trap.last Trap.right mix
          congr 1
          ring
        rw [eL, eR] at k4
        obtain ⟨u, s, u0, u1, hs, hn⟩ := row_near hl pcx hlr (by linarith) (by linarith) g5 g6 k4
        exact ⟨q2 f hf, o, by omega, by omega, ⟨s, hn, (lower_iff hab hbc k1 k2 s).2 ⟨u, u0, u1, by rw [hs]; ring⟩⟩,
          fun lo hi la lb ld lc => z2 f hf lo hi (mix_between k1 k2.le lb lc) (mix_between k1 k2.le ld lc)⟩
  unfold halves
  rw [hd]
  simp only [bind, Option.bind_some, pure]
  by_cases hx : d.x < b.x
  · simp only [if_pos hx]
    rw [dy, assert_true hx.le, assert_true hab, assert_true hbc]
    simp only [Option.bind_some]
    have hx' : (d.x : K) + 1 ≤ b.x := by exact_mod_cast hx
    obtain ⟨vis, fs, k1, k2, k3⟩ := key d.x b.x d.w b.w d1 hx.le hb2 (by linarith) (by linarith) (by linarith) (by linarith)
      (le_trans (min_le_right _ _) (by linarith)) (le_trans (by linarith) (le_max_left _ _))
    refine ⟨vis, fs, k1, k2, fun f hf => ?_⟩
    obtain ⟨m1, m2, m3, m4, m5, m6⟩ := k3 f hf
    exact ⟨m1, m2, m3, m4, m5, fun lo hi la lb lc => m6 lo hi la (d5 lo hi la lc) lb lc⟩
  · simp only [if_neg hx]
    rw [assert_true (not_lt.1 hx), assert_true hab, assert_true hbc]
    simp only [Option.bind_some]
    have hx' : (b.x : K) ≤ d.x := cast (not_lt.1 hx)
    obtain ⟨vis, fs, k1, k2, k3⟩ := key b.x d.x b.w d.w pbx (not_lt.1 hx) d2 (by linarith) (by linarith) (by linarith) (by linarith)
      (le_trans (min_le_left _ _) (by linarith)) (le_trans (by linarith) (le_max_right _ _))
    refine ⟨vis, fs, k1, k2, fun f hf => ?_⟩
    obtain ⟨m1, m2, m3, m4, m5, m6⟩ := k3 f hf
    exact ⟨m1, m2, m3, m4, m5, fun lo hi la lb lc => m6 lo hi la lb (d5 lo hi la lc) lc⟩

/-- **C97** (hidden side): a triangle whose corners do not turn the way of a visible facet is not drawn. -/
theorem back_hidden (rnd : K → K) {a b c : V K} (ha : a.Small) (hb : b.Small) (hc : c.Small) (color : Res Int) (hs : area2 a b c ≤ 0) (fb : Fb K) :
    triangleV rnd a b c color false fb = some (false, fb) := by
  have hbig := big_eq
  obtain ⟨ha1, ha2, ha3, ha4⟩ := ha
  obtain ⟨hb1, hb2, hb3, hb4⟩ := hb
  obtain ⟨hc1, hc2, hc3, hc4⟩ := hc
  unfold triangleV hidden backFace
  rw [if_pos rfl, int32_bind (by omega) (by omega), int32_bind (by omega) (by omega), int32_bind (by omega) (by omega), int32_bind (by omega) (by omega)]
  have e : ((⟨((a.x - b.x : Int) : K), ((a.y - b.y : Int) : K), 0⟩ : P3 K).cross ⟨((a.x - c.x : Int) : K), ((a.y - c.y : Int) : K), 0⟩).z = ((area2 a b c : Int) : K) := by
    unfold area2
    simp only [P3.cross_z]
    push_cast
    ring
  have : (((area2 a b c : Int) : K)) ≤ 0 := by exact_mod_cast hs
  rw [e]
  simp [this]

/-- the test of the hidden side lets the other triangles pass -/
theorem front_shown (two : Bool) {a b c : V K} (ha : a.Small) (hb : b.Small) (hc : c.Small) (hs : two = true ∨ 0 < area2 a b c) :
    hidden two a b c = some false := by
  have hbig := big_eq
  obtain ⟨ha1, ha2, ha3, ha4⟩ := ha
  obtain ⟨hb1, hb2, hb3, hb4⟩ := hb
  obtain ⟨hc1, hc2, hc3, hc4⟩ := hc
  unfold hidden
  cases two with
  | true => rfl
  | false =>
    have hs : 0 < area2 a b c := by simpa using hs
    unfold backFace
    rw [if_pos rfl, int32_bind (by omega) (by omega), int32_bind (by omega) (by omega), int32_bind (by omega) (by omega), int32_bind (by omega) (by omega)]
    have e : ((⟨((a.x - b.x : Int) : K), ((a.y - b.y : Int) : K), 0⟩ : P3 K).cross ⟨((a.x - c.x : Int) : K), ((a.y - c.y : Int) : K), 0⟩).z = ((area2 a b c : Int) : K) := by
      unfold area2
      simp only [P3.cross_z]
      push_cast
      ring
    have : ¬ (((area2 a b c : Int) : K)) ≤ 0 := by rw [not_le]; exact_mod_cast hs
    rw [e, decide_eq_false this]
    rfl

/-- **C97** (coverage): a visible triangle none of whose corners is left of or above the screen
covers all pixels in it except those in its last row and in the last row of the screen, and
every pixel it covers is at most one column away from it. -/
theorem triangle_cover_partial (rnd : K → K) {a b c : V K} (ha : a.Small) (hb : b.Small) (hc : c.Small) (pa : a.Positive) (pb : b.Positive) (pc : c.Positive)
    (color : Int) {two : Bool} (hs : 0 < area2 a b c ∨ two = true ∧ area2 a b c ≠ 0) {W H : Int} (hW : 0 < W) (hH : 0 < H) :
    ∃ (vis : Bool) (fs : List (Frag K)), (∀ fb : Fb K, fb.OK W H → triangleV rnd a b c (some color) two fb = some (vis, fb.puts fs)) ∧
      (∀ x y, OnScreen W H x y → y < H - 1 → y < max a.y (max b.y c.y) → InTri a b c (x : K) y → ∃ f ∈ fs, f.x = x ∧ f.y = y) ∧
      (∀ f ∈ fs, f.color = color ∧ OnScreen W H f.x f.y ∧ f.y < H - 1 ∧ f.y < max a.y (max b.y c.y) ∧
        (∃ s : K, |(f.x : K) - s| ≤ 1 ∧ InTri a b c s f.y) ∧
        ∀ lo hi, lo ≤ a.w ∧ a.w ≤ hi → lo ≤ b.w ∧ b.w ≤ hi → lo ≤ c.w ∧ c.w ≤ hi → ∃ w, f.w = rnd w ∧ lo ≤ w ∧ w ≤ hi) := by
  have hne : area2 a b c ≠ 0 := by
    rcases hs with h | h
    · exact h.ne'
    · exact h.2
  unfold triangleV
  rw [front_shown two ha hb hc (by tauto)]
  simp only [bind, Option.bind_some, pure, Bool.false_eq_true, if_false]
  have cast : ∀ {m n : Int}, m ≤ n → (m : K) ≤ (n : K) := fun h => by exact_mod_cast h
  by_cases ho : offScreen W H a b c = true
  · refine ⟨false, [], fun fb hok => ?_, fun x y o _ _ hin => ?_, by simp⟩
    · rw [hok.w, hok.h, if_pos ho]
      rfl
    · exfalso
      have pax := pa.x
      have pay := pa.y
      have pbx := pb.x
      have pby := pb.y
      have pcx := pc.x
      have pcy := pc.y
      unfold offScreen at ho
      simp only [Bool.or_eq_true, Bool.and_eq_true, decide_eq_true_eq] at ho
      obtain ⟨p, q, r, hp, hq, hr, hsum, hx, hy⟩ := hin
      rcases ho with ((⟨⟨h1, h2⟩, h3⟩ | ⟨⟨h1, h2⟩, h3⟩) | ⟨⟨h1, h2⟩, h3⟩) | ⟨⟨h1, h2⟩, h3⟩
      · apply hne
        unfold area2
        rw [le_antisymm h1 pax, le_antisymm h2 pbx, le_antisymm h3 pcx]
        ring
      · apply hne
        unfold area2
        rw [le_antisymm h1 pay, le_antisymm h2 pby, le_antisymm h3 pcy]
        ring
      · have k1 : (W : K) ≤ a.x := cast h1
        have k2 : (W : K) ≤ b.x := cast h2
        have k3 : (W : K) ≤ c.x := cast h3
        have : (W : K) ≤ x := by rw [← hx]; exact convex_ge hp hq hr hsum k1 k2 k3
        have : W ≤ x := by exact_mod_cast this
        omega
      · have k1 : (H : K) ≤ a.y := cast h1
        have k2 : (H : K) ≤ b.y := cast h2
        have k3 : (H : K) ≤ c.y := cast h3
        have : (H : K) ≤ y := by rw [← hy]; exact convex_ge hp hq hr hsum k1 k2 k3
        have : H ≤ y := by exact_mod_cast this
        omega
  · obtain ⟨s1, s2, s3⟩ := sortY_cases a b c
    have hmax : (sortY a b c).2.2.y = max a.y (max b.y c.y) ∧ (sortY a b c).1.y = min a.y (min b.y c.y) := by
      rcases s3 with h | h | h | h | h | h <;> rw [h] at s1 s2 ⊢ <;> simp only at s1 s2 ⊢ <;> omega
    have hlt : min a.y (min b.y c.y) < max a.y (max b.y c.y) := by
      by_contra hcon
      apply hne
      unfold area2
      have e1 : b.y = a.y := by omega
      have e2 : c.y = a.y := by omega
      rw [e1, e2]
      ring
    have small : ((sortY a b c).1.Small ∧ (sortY a b c).2.1.Small ∧ (sortY a b c).2.2.Small) ∧
        (sortY a b c).1.Positive ∧ (sortY a b c).2.1.Positive ∧ (sortY a b c).2.2.Positive := by
      rcases s3 with h | h | h | h | h | h <;> rw [h] <;> exact ⟨⟨by assumption, by assumption, by assumption⟩, by assumption, by assumption, by assumption⟩
    have inTri : ∀ x y : K, InTri (sortY a b c).1 (sortY a b c).2.1 (sortY a b c).2.2 x y ↔ InTri a b c x y := by
      intro x y
      rcases s3 with h | h | h | h | h | h <;> rw [h] <;> simp only
      · exact ⟨fun h => h.swap23, fun h => h.swap23⟩
      · exact ⟨fun h => h.swap12, fun h => h.swap12⟩
      · exact ⟨fun h => h.swap23.swap12, fun h => h.swap12.swap23⟩
      · exact ⟨fun h => h.swap12.swap23, fun h => h.swap23.swap12⟩
      · exact ⟨fun h => h.swap12.swap23.swap12, fun h => h.swap12.swap23.swap12⟩
    obtain ⟨⟨m1, m2, m3⟩, n1, n2, n3⟩ := small
    obtain ⟨vis, fs, h1, h2, h3⟩ := halves_cover rnd s1 s2 (by rw [hmax.1, hmax.2]; exact hlt) m1 m2 m3 n1 n2 n3 color hW hH
    refine ⟨vis, fs, fun fb hok => ?_, fun x y o hy hyc hin => ?_, fun f hf => ?_⟩
    · rw [hok.w, hok.h, if_neg ho]
      exact h1 fb hok
    · exact h2 x y o hy (by rw [hmax.1]; exact hyc) ((inTri _ _).2 hin)
    · obtain ⟨k1, k2, k3, k4, ⟨s, k5, k6⟩, k7⟩ := h3 f hf
      rw [hmax.1] at k4
      refine ⟨k1, k2, k3, k4, ⟨s, k5, (inTri _ _).1 k6⟩, fun lo hi la lb lc => ?_⟩
      rcases s3 with h | h | h | h | h | h <;> rw [h] at k7
      · exact k7 lo hi la lb lc
      · exact k7 lo hi la lc lb
      · exact k7 lo hi lb la lc
      · exact k7 lo hi lb lc la
      · exact k7 lo hi lc la lb
      · exact k7 lo hi lc lb la

/-- **C97** (picture): a visible triangle in front of the eye, drawn on an empty screen: the
pixels in the triangle get its colour, the pixels more than one column away from it stay as they
were. -/
theorem triangle_picture_partial {sc : Scene K} {t : Tri3 K} {color col bg : Int} {a b c : V K} (h1 : sc.camera.project t.p1 = some a)
    (h2 : sc.camera.project t.p2 = some b) (h3 : sc.camera.project t.p3 = some c) (hcol : shade sc.lights color (sc.normal t) = some col)
    (ha : a.Small) (hb : b.Small) (hc : c.Small) (pa : a.Positive) (pb : b.Positive) (pc : c.Positive)
    {two : Bool} (hs : 0 < area2 a b c ∨ two = true ∧ area2 a b c ≠ 0) {lo hi : K} (wa : lo ≤ a.w ∧ a.w ≤ hi) (wb : lo ≤ b.w ∧ b.w ≤ hi)
    (wc : lo ≤ c.w ∧ c.w ≤ hi) (hrnd : ∀ w, lo ≤ w → w ≤ hi → 0 < sc.rnd w)
    {W H : Int} (hW : 0 < W) (hH : 0 < H) {fb : Fb K} (hok : fb.OK W H) (hempty : ∀ x y, OnScreen W H x y → fb.cell x y = some (0, bg)) :
    ∃ vis fb', drawTriangle sc t color two fb = some (vis, fb') ∧
      (∀ x y, OnScreen W H x y → y < H - 1 → y < max a.y (max b.y c.y) → InTri a b c (x : K) y → ∃ w, 0 < w ∧ fb'.cell x y = some (w, col)) ∧
      (∀ x y, OnScreen W H x y → (∀ s : K, |(x : K) - s| ≤ 1 → ¬ InTri a b c s y) → fb'.cell x y = some (0, bg)) := by
  obtain ⟨vis, fs, f1, f2, f3⟩ := triangle_cover_partial sc.rnd ha hb hc pa pb pc col hs hW hH
  have hon : ∀ f ∈ fs, OnScreen W H f.x f.y := fun f hf => (f3 f hf).2.1
  refine ⟨vis, fb.puts fs, ?_, fun x y o hy hyc hin => ?_, fun x y o hout => ?_⟩
  · unfold drawTriangle
    rw [h1, h2, h3, hcol]
    exact f1 fb hok
  · obtain ⟨w0, c0, w, k, e0, e1, e2, e3, e4⟩ := puts_nearest hok hon o
    rw [hempty x y o, Option.some.injEq, Prod.mk.injEq] at e0
    obtain ⟨rfl, rfl⟩ := e0
    obtain ⟨f, hf, fx, fy⟩ := f2 x y o hy hyc hin
    obtain ⟨v, hv, v1, v2⟩ := (f3 f hf).2.2.2.2.2 lo hi wa wb wc
    have hpos : 0 < w := lt_of_lt_of_le (by rw [hv]; exact hrnd v v1 v2) (e3 f hf fx fy)
    rcases e4 with ⟨rfl, -⟩ | ⟨-, g, hg, gx, gy, gw, rfl⟩
    · exact absurd hpos (lt_irrefl _)
    · exact ⟨w, hpos, by rw [e1, (f3 g hg).1]⟩
  · obtain ⟨w0, c0, w, k, e0, e1, e2, e3, e4⟩ := puts_nearest hok hon o
    rw [hempty x y o, Option.some.injEq, Prod.mk.injEq] at e0
    obtain ⟨rfl, rfl⟩ := e0
    rcases e4 with ⟨rfl, rfl⟩ | ⟨-, g, hg, gx, gy, gw, rfl⟩
    · exact e1
    · obtain ⟨s, s1, s2⟩ := (f3 g hg).2.2.2.2.1
      rw [gx] at s1
      rw [gy] at s2
      exact absurd s2 (hout s s1)

/-! ### Which facets are visible -/

/-- the exact position on the screen, before rounding -/
def Camera.sx (c : Camera K) (p : P3 K) : K := (c.localRef p).x * c.zoom / (c.localRef p).z + c.cx
def Camera.sy (c : Camera K) (p : P3 K) : K := (c.localRef p).y * c.zoom / (c.localRef p).z + c.cy

theorem trunc_off (s : K) : -(1 / 2) ≤ ((trunc (s + 1 / 2) : Int) : K) - s ∧ ((trunc (s + 1 / 2) : Int) : K) - s ≤ 3 / 2 := by
  unfold trunc
  split
  · have h1 := Int.floor_le (s + 1 / 2)
    have h2 := Int.lt_floor_add_one (s + 1 / 2)
    constructor <;> linarith
  · have h1 := Int.le_ceil (s + 1 / 2)
    have h2 := Int.ceil_lt_add_one (s + 1 / 2)
    constructor <;> linarith

theorem cross_near {x1 y1 x2 y2 e1 f1 e2 f2 L : K} (hL : 0 ≤ L) (hx1 : |x1| ≤ L) (hy1 : |y1| ≤ L) (hx2 : |x2| ≤ L) (hy2 : |y2| ≤ L) (he1 : |e1| ≤ 2) (hf1 : |f1| ≤ 2)
    (he2 : |e2| ≤ 2) (hf2 : |f2| ≤ 2) : |((x1 + e1) * (y2 + f2) - (y1 + f1) * (x2 + e2)) - (x1 * y2 - y1 * x2)| ≤ 8 * L + 8 := by
  have e : ((x1 + e1) * (y2 + f2) - (y1 + f1) * (x2 + e2)) - (x1 * y2 - y1 * x2) = x1 * f2 + e1 * y2 + e1 * f2 - y1 * e2 - f1 * x2 - f1 * e2 := by ring
  rw [e]
  have m : ∀ {p q P Q : K}, |p| ≤ P → |q| ≤ Q → 0 ≤ P → -(P * Q) ≤ p * q ∧ p * q ≤ P * Q := by
    intro p q P Q hp hq hP
    rw [← abs_le, abs_mul]
    exact mul_le_mul hp hq (abs_nonneg _) hP
  have a1 := m hx1 hf2 hL
  have a2 := m he1 hy2 (by norm_num)
  have a3 := m he1 hf2 (by norm_num)
  have a4 := m hy1 he2 hL
  have a5 := m hf1 hx2 (by norm_num)
  have a6 := m hf1 he2 (by norm_num)
  rw [abs_le]
  constructor <;> linarith [a1.1, a1.2, a2.1, a2.2, a3.1, a3.2, a4.1, a4.2, a5.1, a5.2, a6.1, a6.2]

/-- the exact area on the screen of a triangle in front of the eye -/
theorem screen_area {c : Camera K} {p q r : P3 K} (hp : (c.localRef p).z ≠ 0) (hq : (c.localRef q).z ≠ 0) (hr : (c.localRef r).z ≠ 0) :
    ((c.sx q - c.sx p) * (c.sy r - c.sy p) - (c.sy q - c.sy p) * (c.sx r - c.sx p)) * ((c.localRef p).z * (c.localRef q).z * (c.localRef r).z) =
      c.zoom ^ 2 * (c.localRef p).dot ((c.localRef q - c.localRef p).cross (c.localRef r - c.localRef p)) := by
  unfold Camera.sx Camera.sy
  generalize c.localRef p = P at *
  generalize c.localRef q = Q at *
  generalize c.localRef r = R at *
  simp only [P3.dot, P3.cross_x, P3.cross_y, P3.cross_z, P3.sub_x, P3.sub_y, P3.sub_z]
  field_simp
  ring

theorem euler_sub (yaw pitch roll : ℝ) (p q : P3 ℝ) : euler yaw pitch roll (p - q) = euler yaw pitch roll p - euler yaw pitch roll q := by
  unfold euler eulerCS
  ext <;> simp only [P3.sub_x, P3.sub_y, P3.sub_z] <;> ring

/-- **C97** (which side is visible): for a triangle in front of the eye `e` that is not a sliver
(`L` bounds its size on the screen in pixels), the screen corners turn the visible way exactly
when the normal of the triangle points to the side of the eye. -/
theorem facing_partial {c : Camera ℝ} {yaw pitch roll : ℝ} (hrot : c.rot = euler yaw pitch roll) {e : P3 ℝ} (he : c.localRef e = ⟨0, 0, 0⟩)
    {t : Tri3 ℝ} {a b d : V ℝ} (i1 : InView c t.p1) (i2 : InView c t.p2) (i3 : InView c t.p3)
    (f1 : 0 < (c.localRef t.p1).z) (f2 : 0 < (c.localRef t.p2).z) (f3 : 0 < (c.localRef t.p3).z)
    (h1 : c.project t.p1 = some a) (h2 : c.project t.p2 = some b) (h3 : c.project t.p3 = some d) {L : ℝ}
    (hL : |c.sx t.p2 - c.sx t.p1| ≤ L ∧ |c.sy t.p2 - c.sy t.p1| ≤ L ∧ |c.sx t.p3 - c.sx t.p1| ≤ L ∧ |c.sy t.p3 - c.sy t.p1| ≤ L) :
    ((8 * L + 8) * ((c.localRef t.p1).z * (c.localRef t.p2).z * (c.localRef t.p3).z) < c.zoom ^ 2 * ((t.p2 - t.p1).cross (t.p3 - t.p1)).dot (e - t.p1) → 0 < area2 a b d) ∧
    (c.zoom ^ 2 * ((t.p2 - t.p1).cross (t.p3 - t.p1)).dot (e - t.p1) < -((8 * L + 8) * ((c.localRef t.p1).z * (c.localRef t.p2).z * (c.localRef t.p3).z)) → area2 a b d < 0) := by
  obtain ⟨v1, g1, -, x1, y1, -⟩ := project_eq i1
  obtain ⟨v2, g2, -, x2, y2, -⟩ := project_eq i2
  obtain ⟨v3, g3, -, x3, y3, -⟩ := project_eq i3
  rw [h1, Option.some.injEq] at g1
  rw [h2, Option.some.injEq] at g2
  rw [h3, Option.some.injEq] at g3
  subst g1 g2 g3
  -- the exact area
  have hdet : (c.localRef t.p1).dot ((c.localRef t.p2 - c.localRef t.p1).cross (c.localRef t.p3 - c.localRef t.p1)) =
      ((t.p2 - t.p1).cross (t.p3 - t.p1)).dot (e - t.p1) := by
    have hsub : ∀ p q : P3 ℝ, c.localRef p - c.localRef q = euler yaw pitch roll (p - q) := by
      intro p q
      have e2 : p - q = (⟨p.x - c.x, p.y - c.y, p.z - c.z⟩ : P3 ℝ) - ⟨q.x - c.x, q.y - c.y, q.z - c.z⟩ := by
        ext <;> simp only [P3.sub_x, P3.sub_y, P3.sub_z] <;> ring
      rw [e2, euler_sub]
      unfold Camera.localRef
      rw [hrot]
      ext <;> simp only [P3.sub_x, P3.sub_y, P3.sub_z] <;> ring
    have h0 : c.localRef t.p1 = euler yaw pitch roll (t.p1 - e) := by
      rw [← hsub, he]
      ext <;> simp only [P3.sub_x, P3.sub_y, P3.sub_z, sub_zero]
    rw [hsub, hsub, h0, (euler_reverses_orientation yaw pitch roll).1]
    have := (euler_isometry_partial yaw pitch roll (t.p1 - e) ((t.p2 - t.p1).cross (t.p3 - t.p1))).1
    have hneg : ∀ u v : P3 ℝ, u.dot (-v) = -(u.dot v) := by
      intro u v
      simp only [P3.dot, P3.neg_x, P3.neg_y, P3.neg_z]
      ring
    rw [hneg, this]
    simp only [P3.dot, P3.sub_x, P3.sub_y, P3.sub_z]
    ring
  have harea := screen_area f1.ne' f2.ne' f3.ne'
  rw [hdet] at harea
  -- rounding
  have o1 := trunc_off (c.sx t.p1)
  have o2 := trunc_off (c.sy t.p1)
  have o3 := trunc_off (c.sx t.p2)
  have o4 := trunc_off (c.sy t.p2)
  have o5 := trunc_off (c.sx t.p3)
  have o6 := trunc_off (c.sy t.p3)
  have ex1 : a.x = trunc (c.sx t.p1 + 1 / 2) := x1
  have ey1 : a.y = trunc (c.sy t.p1 + 1 / 2) := y1
  have ex2 : b.x = trunc (c.sx t.p2 + 1 / 2) := x2
  have ey2 : b.y = trunc (c.sy t.p2 + 1 / 2) := y2
  have ex3 : d.x = trunc (c.sx t.p3 + 1 / 2) := x3
  have ey3 : d.y = trunc (c.sy t.p3 + 1 / 2) := y3
  rw [← ex1] at o1
  rw [← ey1] at o2
  rw [← ex2] at o3
  rw [← ey2] at o4
  rw [← ex3] at o5
  rw [← ey3] at o6
  have hL0 : 0 ≤ L := le_trans (abs_nonneg _) hL.1
  have hnear := cross_near (e1 := ((b.x : ℝ) - a.x) - (c.sx t.p2 - c.sx t.p1)) (f1 := ((b.y : ℝ) - a.y) - (c.sy t.p2 - c.sy t.p1))
    (e2 := ((d.x : ℝ) - a.x) - (c.sx t.p3 - c.sx t.p1)) (f2 := ((d.y : ℝ) - a.y) - (c.sy t.p3 - c.sy t.p1)) hL0 hL.1 hL.2.1 hL.2.2.1 hL.2.2.2
    (by rw [abs_le]; constructor <;> linarith) (by rw [abs_le]; constructor <;> linarith)
    (by rw [abs_le]; constructor <;> linarith) (by rw [abs_le]; constructor <;> linarith)
  simp only [add_sub_cancel] at hnear
  have ha : ((area2 a b d : Int) : ℝ) = ((b.x : ℝ) - a.x) * (d.y - a.y) - (b.y - a.y) * (d.x - a.x) := by unfold area2; push_cast; ring
  rw [← ha, abs_le] at hnear
  have hz : 0 < (c.localRef t.p1).z * (c.localRef t.p2).z * (c.localRef t.p3).z := by positivity
  rw [← harea]
  generalize (c.sx t.p2 - c.sx t.p1) * (c.sy t.p3 - c.sy t.p1) - (c.sy t.p2 - c.sy t.p1) * (c.sx t.p3 - c.sx t.p1) = A at *
  constructor
  · intro h
    have : 8 * L + 8 < A := lt_of_mul_lt_mul_right h hz.le
    have : (0 : ℝ) < ((area2 a b d : Int) : ℝ) := by linarith
    exact_mod_cast this
  · intro h
    rw [← neg_mul] at h
    have : A < -(8 * L + 8) := lt_of_mul_lt_mul_right h hz.le
    have : ((area2 a b d : Int) : ℝ) < 0 := by linarith
    exact_mod_cast this

/-- **C97** (facets seen from behind): without two-sided drawing a triangle whose normal points
away from the eye leaves the picture as it is. -/
theorem facet_behind_partial {sc : Scene ℝ} {yaw pitch roll : ℝ} (hrot : sc.camera.rot = euler yaw pitch roll) {e : P3 ℝ} (he : sc.camera.localRef e = ⟨0, 0, 0⟩)
    {t : Tri3 ℝ} (i1 : InView sc.camera t.p1) (i2 : InView sc.camera t.p2) (i3 : InView sc.camera t.p3)
    (f1 : 0 < (sc.camera.localRef t.p1).z) (f2 : 0 < (sc.camera.localRef t.p2).z) (f3 : 0 < (sc.camera.localRef t.p3).z) {L : ℝ}
    (hL : |sc.camera.sx t.p2 - sc.camera.sx t.p1| ≤ L ∧ |sc.camera.sy t.p2 - sc.camera.sy t.p1| ≤ L ∧
      |sc.camera.sx t.p3 - sc.camera.sx t.p1| ≤ L ∧ |sc.camera.sy t.p3 - sc.camera.sy t.p1| ≤ L)
    (hn : sc.camera.zoom ^ 2 * ((t.p2 - t.p1).cross (t.p3 - t.p1)).dot (e - t.p1) <
      -((8 * L + 8) * ((sc.camera.localRef t.p1).z * (sc.camera.localRef t.p2).z * (sc.camera.localRef t.p3).z))) (color : Int) (fb : Fb ℝ) :
    drawTriangle sc t color false fb = some (false, fb) := by
  obtain ⟨a, h1, s1, -⟩ := project_eq i1
  obtain ⟨b, h2, s2, -⟩ := project_eq i2
  obtain ⟨d, h3, s3, -⟩ := project_eq i3
  have := (facing_partial hrot he i1 i2 i3 f1 f2 f3 h1 h2 h3 hL).2 hn
  unfold drawTriangle
  rw [h1, h2, h3]
  exact back_hidden sc.rnd s1 s2 s3 _ this.le fb

/-! ### Examples -/

/-- a camera at the origin, no rotation (the Euler angles turn `y` around) -/
noncomputable def camR : Camera ℝ := ⟨0, 0, 0, 0, 100, 200, 100, euler 0 0 0⟩

theorem camR_local (p : P3 ℝ) : camR.localRef p = ⟨p.x, -p.y, p.z⟩ := by
  have h := (euler_reverses_orientation 0 0 0).2.2
  simp [Camera.localRef, camR, h]

/-- a facet of ten by ten pixels whose normal points away from the eye -/
example (sc : Scene ℝ) (h : sc.camera = camR) (color : Int) (fb : Fb ℝ) :
    drawTriangle sc ⟨⟨0, 0, 10⟩, ⟨100, 0, 10⟩, ⟨0, 100, 10⟩⟩ color false fb = some (false, fb) := by
  have hl := camR_local
  rw [← h] at hl
  have hz : sc.camera.zoom = 100 ∧ sc.camera.cx = 200 ∧ sc.camera.cy = 100 ∧ sc.camera.rot = euler 0 0 0 := by rw [h]; exact ⟨rfl, rfl, rfl, rfl⟩
  have hbig : ((big : Int) : ℝ) = 536870912 := by norm_num
  obtain ⟨z1, z2, z3, z4⟩ := hz
  refine facet_behind_partial (yaw := 0) (pitch := 0) (roll := 0) (L := 1000) z4 (e := ⟨0, 0, 0⟩) (by rw [hl]; simp) ?_ ?_ ?_ ?_ ?_ ?_ ?_ ?_ color fb
  · unfold InView; rw [hl, z1, z2, z3, hbig]; norm_num
  · unfold InView; rw [hl, z1, z2, z3, hbig]; norm_num
  · unfold InView; rw [hl, z1, z2, z3, hbig]; norm_num
  · rw [hl]; norm_num
  · rw [hl]; norm_num
  · rw [hl]; norm_num
  · unfold Camera.sx Camera.sy; simp only [hl, z1, z2, z3]; norm_num
  · simp only [hl, z1, P3.dot, P3.cross_x, P3.cross_y, P3.cross_z, P3.sub_x, P3.sub_y, P3.sub_z]; norm_num

/-- the hypotheses of `triangle_picture_partial` hold for a triangle of the screen of 8 by 6 pixels -/
example : ∃ vis fb', drawTriangle (⟨⟨0, 0, 0, 0, 1, 0, 0, id⟩, [.ambient 1 1 1], fun _ => none, id⟩ : Scene ℚ) ⟨⟨1, 0, 1⟩, ⟨12, 2, 2⟩, ⟨1, 4, 1⟩⟩ 7 false
      ⟨8, 6, List.replicate 48 3, List.replicate 48 0⟩ = some (vis, fb') ∧
    ∃ w, 0 < w ∧ fb'.cell 3 1 = some (w, 7) := by
  obtain ⟨vis, fb', h1, h2, h3⟩ := triangle_picture_partial
    (sc := (⟨⟨0, 0, 0, 0, 1, 0, 0, id⟩, [.ambient 1 1 1], fun _ => none, id⟩ : Scene ℚ)) (t := ⟨⟨1, 0, 1⟩, ⟨12, 2, 2⟩, ⟨1, 4, 1⟩⟩)
    (color := 7) (col := 7) (bg := 3) (a := ⟨1, 0, 1⟩) (b := ⟨6, 1, 1 / 2⟩) (c := ⟨1, 4, 1⟩) (two := false) (lo := 1 / 2) (hi := 1) (W := 8) (H := 6)
    (fb := ⟨8, 6, List.replicate 48 3, List.replicate 48 0⟩)
    (by decide +kernel) (by decide +kernel) (by decide +kernel) (by decide +kernel) ⟨by decide, by decide, by decide, by decide⟩
    ⟨by decide, by decide, by decide, by decide⟩ ⟨by decide, by decide, by decide, by decide⟩ ⟨by decide, by decide⟩ ⟨by decide, by decide⟩
    ⟨by decide, by decide⟩ (Or.inl (by decide)) (by norm_num) (by norm_num) (by norm_num) (fun w h _ => by show 0 < w; linarith) (by decide) (by decide)
    ⟨rfl, rfl, rfl, rfl⟩ (by
      intro x y ⟨o1, o2, o3, o4⟩
      unfold Fb.cell
      rw [if_pos ⟨o1, o2, o3, o4⟩]
      have : (y * 8 + x).toNat < 48 := by omega
      have e1 : ∀ {α : Type} (v : α), (List.replicate 48 v)[(y * 8 + x).toNat]? = some v := fun v => by rw [List.getElem?_replicate, if_pos this]
      simp only [e1])
  exact ⟨vis, fb', h1, h2 3 1 (by decide) (by decide) (by decide) ⟨3 / 5 - 1 / 4 + 1 / 10, 2 / 5, 3 / 20, by norm_num, by norm_num, by norm_num, by norm_num, by norm_num, by norm_num⟩⟩

/-- **C97** fails above the screen: the corner in row −1 is moved to row 0, and pixels four columns
away from the triangle are painted. -/
theorem above_fails : ((triangleV (K := ℚ) id ⟨0, -5, 1⟩ ⟨8, -1, 1⟩ ⟨0, 1, 1⟩ (some 7) true ⟨12, 3, List.replicate 36 0, List.replicate 36 0⟩).map fun r => r.2.pix.getD 8 0) = some 7 ∧
    ∀ s : ℚ, |8 - s| < 4 → ¬ InTri (⟨0, -5, 1⟩ : V ℚ) ⟨8, -1, 1⟩ ⟨0, 1, 1⟩ s 0 := by
  refine ⟨by decide +kernel, fun s hs ⟨p, q, r, hp, hq, hr, h1, h2, h3⟩ => ?_⟩
  rw [abs_lt] at hs
  push_cast at h2 h3
  have : s ≤ 4 := by linarith
  linarith

/-- **C97** fails for the last row of a triangle: its lower side is not painted. -/
theorem last_row_fails : ((triangleV (K := ℚ) id ⟨0, 0, 1⟩ ⟨2, 1, 1⟩ ⟨0, 1, 1⟩ (some 7) true ⟨3, 3, List.replicate 9 0, List.replicate 9 0⟩).map fun r => r.2.pix) =
      some [7, 0, 0, 0, 0, 0, 0, 0, 0] ∧ InTri (⟨0, 0, 1⟩ : V ℚ) ⟨2, 1, 1⟩ ⟨0, 1, 1⟩ 1 1 :=
  ⟨by decide +kernel, 0, 1 / 2, 1 / 2, by norm_num, by norm_num, by norm_num, by norm_num, by norm_num, by norm_num⟩

end CAD.Render
