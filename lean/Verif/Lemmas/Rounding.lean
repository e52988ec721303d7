import Verif.Model.Rounded
import Verif.Lemmas.Point
import Mathlib.Tactic.Linarith
import Mathlib.Tactic.NormNum
import Mathlib.Tactic.Positivity
import Mathlib.Tactic.FieldSimp

/-! Error bounds for rounded arithmetic.  Used for C112. -/

namespace CAD
namespace Rounded

/-- rounding of numbers of moderate size: relative error and underflow taken together -/
structure Unit1 (u : ℝ) (fl : ℝ → ℝ) : Prop where
  nonneg : 0 ≤ u
  small : u ≤ 1 / 1000000
  err : ∀ x, |x| ≤ 100 → |fl x - x| ≤ u * (|x| + 1)

variable {u : ℝ} {fl : ℝ → ℝ}

/-- rounding a value `x` that is near `a` -/
theorem Unit1.near (h : Unit1 u fl) {x a c M e : ℝ} (hx : |x - a| ≤ c * u) (hM : |a| ≤ M) (hc : c ≤ 20000) (hM' : M ≤ 50)
    (he : c + M + 1.1 ≤ e) : |fl x - a| ≤ e * u := by
  have h0 := h.nonneg
  have h1 := h.small
  have hcu : c * u ≤ 0.02 := by
    by_cases hc0 : 0 ≤ c
    · nlinarith
    · nlinarith
  have hxM : |x| ≤ M + 0.02 := by
    have : |x| ≤ |x - a| + |a| := by
      have := abs_add_le (x - a) a
      rwa [sub_add_cancel] at this
    linarith
  have hf := h.err x (by linarith)
  have t := abs_sub_le (fl x) x a
  have : u * (|x| + 1) ≤ (M + 1.1) * u := by nlinarith
  nlinarith

theorem Unit1.add (h : Unit1 u fl) {a b a' b' c d M e : ℝ} (ha : |a' - a| ≤ c * u) (hb : |b' - b| ≤ d * u) (hM : |a + b| ≤ M)
    (hc : c + d ≤ 20000) (hM' : M ≤ 50) (he : c + d + M + 1.1 ≤ e) : |fl (a' + b') - (a + b)| ≤ e * u := by
  refine h.near (c := c + d) ?_ hM hc hM' he
  have := abs_add_le (a' - a) (b' - b)
  rw [show a' - a + (b' - b) = a' + b' - (a + b) by ring] at this
  linarith

theorem Unit1.sub (h : Unit1 u fl) {a b a' b' c d M e : ℝ} (ha : |a' - a| ≤ c * u) (hb : |b' - b| ≤ d * u) (hM : |a - b| ≤ M)
    (hc : c + d ≤ 20000) (hM' : M ≤ 50) (he : c + d + M + 1.1 ≤ e) : |fl (a' - b') - (a - b)| ≤ e * u := by
  refine h.near (c := c + d) ?_ hM hc hM' he
  have := abs_sub (a' - a) (b' - b)
  rw [show a' - a - (b' - b) = a' - b' - (a - b) by ring] at this
  linarith

theorem mul_near {a b a' b' α β A B : ℝ} (ha : |a' - a| ≤ α) (hb : |b' - b| ≤ β) (hA : |a| ≤ A) (hB : |b| ≤ B) :
    |a' * b' - a * b| ≤ α * B + β * A + α * β := by
  have e : a' * b' - a * b = (a' - a) * b + (b' - b) * a + (a' - a) * (b' - b) := by ring
  rw [e]
  have n1 := abs_nonneg (a' - a)
  have n2 := abs_nonneg (b' - b)
  have n3 := abs_nonneg a
  have n4 := abs_nonneg b
  refine (abs_add_le _ _).trans (add_le_add ((abs_add_le _ _).trans (add_le_add ?_ ?_)) ?_)
  · rw [abs_mul]; exact mul_le_mul ha hB n4 (by linarith)
  · rw [abs_mul]; exact mul_le_mul hb hA n3 (by linarith)
  · rw [abs_mul]; exact mul_le_mul ha hb n2 (by linarith)

theorem Unit1.mul (h : Unit1 u fl) {a b a' b' c d A B e : ℝ} (ha : |a' - a| ≤ c * u) (hb : |b' - b| ≤ d * u) (hA : |a| ≤ A)
    (hB : |b| ≤ B) (hc0 : 0 ≤ c) (_hd0 : 0 ≤ d) (hc : c ≤ 1000) (hd : d ≤ 1000) (hcd : c * B + d * A + 1 ≤ 20000) (hAB : A * B ≤ 50)
    (he : c * B + d * A + 1 + A * B + 1.1 ≤ e) : |fl (a' * b') - a * b| ≤ e * u := by
  have h0 := h.nonneg
  have h1 := h.small
  refine h.near (c := c * B + d * A + 1) ?_ (M := A * B) ?_ hcd hAB he
  · have := mul_near ha hb hA hB
    have e2 : c * u * (d * u) ≤ 1 * u := by
      have : c * d ≤ 1000000 := by nlinarith
      have : c * d * u ≤ 1 := by nlinarith [mul_nonneg hc0 _hd0]
      nlinarith
    nlinarith
  · rw [abs_mul]; exact mul_le_mul hA hB (abs_nonneg _) (by linarith [abs_nonneg a])

/-- the constant `t` of the icosahedron -/
theorem icosa_t (h : Unit1 u fl) :
    |fl (fl (fl (fl (Real.sqrt 5) - 1) / 2) * 1) - (Real.sqrt 5 - 1) / 2| ≤ 9 * u := by
  have h5 : Real.sqrt 5 ^ 2 = 5 := Real.sq_sqrt (by norm_num)
  have h0 := Real.sqrt_nonneg 5
  have b1 : Real.sqrt 5 < 2.2361 := by nlinarith
  have b2 : 2.236 < Real.sqrt 5 := by nlinarith
  have s1 : |fl (Real.sqrt 5) - Real.sqrt 5| ≤ 3.4 * u :=
    h.near (c := 0) (M := 2.2361) (by simp) (by rw [abs_of_nonneg h0]; linarith) (by norm_num) (by norm_num) (by norm_num)
  have s2 : |fl (fl (Real.sqrt 5) - 1) - (Real.sqrt 5 - 1)| ≤ 5.8 * u :=
    h.sub (d := 0) (M := 1.2361) s1 (by simp) (by rw [abs_of_nonneg (by linarith)]; linarith) (by norm_num) (by norm_num) (by norm_num)
  have s3 : |fl (fl (fl (Real.sqrt 5) - 1) / 2) - (Real.sqrt 5 - 1) / 2| ≤ 4.7 * u := by
    refine h.near (c := 2.9) (M := 0.62) ?_ (by rw [abs_of_nonneg (by linarith)]; linarith) (by norm_num) (by norm_num) (by norm_num)
    rw [← sub_div, abs_div, abs_of_pos (by norm_num : (0 : ℝ) < 2)]
    linarith
  refine h.near (c := 4.7) (M := 0.62) ?_ (by rw [abs_of_nonneg (by linarith)]; linarith) (by norm_num) (by norm_num) (by norm_num)
  rwa [mul_one]

/-- one coordinate of `interpolate` -/
theorem interpolate_near (h : Unit1 u fl) {a b c a' b' c' : ℝ} (ha : |a' - a| ≤ 9 * u) (hb : |b' - b| ≤ 9 * u) (hc : |c' - c| ≤ 9 * u)
    (a1 : |a| ≤ 1) (b1 : |b| ≤ 1) (c1 : |c| ≤ 1) {s t : ℝ} (s0 : 0 ≤ s) (s1 : s ≤ 1) (t0 : 0 ≤ t) (t1 : t ≤ 1) :
    |fl (fl (a' + fl (fl s * fl (b' - a'))) + fl (fl t * fl (c' - a'))) - (a + s * (b - a) + t * (c - a))| ≤ 92 * u := by
  have d2 : ∀ {x y : ℝ}, |x| ≤ 1 → |y| ≤ 1 → |x - y| ≤ 2 := fun hx hy => by
    have := abs_sub _ _ |>.trans (add_le_add hx hy)
    linarith
  have unit : ∀ {s : ℝ}, 0 ≤ s → s ≤ 1 → |fl s - s| ≤ 2.1 * u := fun s0 s1 =>
    h.near (c := 0) (M := 1) (by simp) (by rw [abs_of_nonneg s0]; exact s1) (by norm_num) (by norm_num) (by norm_num)
  have part : ∀ {b b' s : ℝ}, |b' - b| ≤ 9 * u → |b| ≤ 1 → 0 ≤ s → s ≤ 1 →
      |fl (fl s * fl (b' - a')) - s * (b - a)| ≤ 30 * u := by
    intro b b' s hb b1 s0 s1
    have e1 : |fl (b' - a') - (b - a)| ≤ 21.1 * u :=
      h.sub hb ha (d2 b1 a1) (by norm_num) (by norm_num) (by norm_num)
    exact h.mul (unit s0 s1) e1 (A := 1) (B := 2) (by rw [abs_of_nonneg s0]; exact s1) (d2 b1 a1) (by norm_num) (by norm_num)
      (by norm_num) (by norm_num) (by norm_num) (by norm_num) (by norm_num)
  have pm : ∀ {b s : ℝ}, |b| ≤ 1 → 0 ≤ s → s ≤ 1 → |s * (b - a)| ≤ 2 := by
    intro b s b1 s0 s1
    rw [abs_mul, abs_of_nonneg s0]
    have := d2 b1 a1
    nlinarith [abs_nonneg (b - a)]
  have m1 : |a + s * (b - a)| ≤ 3 := (abs_add_le _ _).trans (by linarith [pm b1 s0 s1])
  have e1 : |fl (a' + fl (fl s * fl (b' - a'))) - (a + s * (b - a))| ≤ 43.1 * u :=
    h.add ha (part hb b1 s0 s1) m1 (by norm_num) (by norm_num) (by norm_num)
  have m2 : |a + s * (b - a) + t * (c - a)| ≤ 5 := (abs_add_le _ _).trans (by linarith [pm c1 t0 t1])
  exact h.add e1 (part hc c1 t0 t1) m2 (by norm_num) (by norm_num) (by norm_num)

/-- `normalized` of a point near one that is not near the origin -/
theorem normalized_near (h : Unit1 u fl) {p q : P3 ℝ} (hx : |q.x - p.x| ≤ 92 * u) (hy : |q.y - p.y| ≤ 92 * u)
    (hz : |q.z - p.z| ≤ 92 * u) (x1 : |p.x| ≤ 1) (y1 : |p.y| ≤ 1) (z1 : |p.z| ≤ 1) (hp : 0.87 ≤ p.normSq) :
    ∃ v, normalized fl q = some v ∧ |v.x - 1 / p.norm * p.x| ≤ 840 * u ∧ |v.y - 1 / p.norm * p.y| ≤ 840 * u ∧
      |v.z - 1 / p.norm * p.z| ≤ 840 * u := by
  have h0 := h.nonneg
  have h1 := h.small
  have sq : ∀ {a a' : ℝ}, |a' - a| ≤ 92 * u → |a| ≤ 1 → |fl (a' * a') - a * a| ≤ 188 * u := fun ha a1 =>
    h.mul ha ha a1 a1 (by norm_num) (by norm_num) (by norm_num) (by norm_num) (by norm_num) (by norm_num) (by norm_num)
  have sqm : ∀ {a : ℝ}, |a| ≤ 1 → 0 ≤ a * a ∧ a * a ≤ 1 := fun {a} ha => ⟨mul_self_nonneg a, by
    have := mul_self_le_mul_self (abs_nonneg a) ha
    rwa [abs_mul_abs_self, one_mul] at this⟩
  obtain ⟨x2, x3⟩ := sqm x1
  obtain ⟨y2, y3⟩ := sqm y1
  obtain ⟨z2, z3⟩ := sqm z1
  have e1 := h.add (e := 379.1) (sq hx x1) (sq hy y1) (M := 2) (by rw [abs_of_nonneg (by linarith)]; linarith) (by norm_num) (by norm_num) (by norm_num)
  have e2 := h.add (e := 573) e1 (sq hz z1) (M := 3) (by rw [abs_of_nonneg (by linarith)]; linarith) (by norm_num) (by norm_num) (by norm_num)
  have hs : |normSq fl q - p.normSq| ≤ 573 * u := by
    have : p.normSq = p.x * p.x + p.y * p.y + p.z * p.z := rfl
    rw [this]; exact e2
  clear e1 e2
  generalize hS : normSq fl q = S at hs
  have hSlow : 0.869 ≤ S := by
    have := (abs_le.1 hs).1
    linarith
  have hN2 : p.norm * p.norm = p.normSq := P3.norm_sq p
  have hN0 := P3.norm_nonneg p
  have hNlo : 0.93 ≤ p.norm := by nlinarith
  have hNhi : p.norm ≤ 1.74 := by
    have : p.normSq ≤ 3 := by
      have : p.normSq = p.x * p.x + p.y * p.y + p.z * p.z := rfl
      rw [this]; linarith
    nlinarith
  have hr2 : Real.sqrt S * Real.sqrt S = S := Real.mul_self_sqrt (by linarith)
  have hr0 := Real.sqrt_nonneg S
  have hsq : |Real.sqrt S - p.norm| ≤ 617 * u := by
    have e : (Real.sqrt S - p.norm) * (Real.sqrt S + p.norm) = S - p.normSq := by linear_combination hr2 - hN2
    have : |Real.sqrt S - p.norm| * (Real.sqrt S + p.norm) ≤ 573 * u := by
      rw [← abs_of_nonneg (show 0 ≤ Real.sqrt S + p.norm by linarith), ← abs_mul, e]; exact hs
    have n := abs_nonneg (Real.sqrt S - p.norm)
    nlinarith
  have hn : |fl (Real.sqrt S) - p.norm| ≤ 620 * u :=
    h.near hsq (M := 1.74) (by rw [abs_of_nonneg hN0]; exact hNhi) (by norm_num) (by norm_num) (by norm_num)
  generalize hN : fl (Real.sqrt S) = N at hn
  have hNlo' : 0.929 ≤ N := by
    have := (abs_le.1 hn).1
    linarith
  have hinv : |1 / N - 1 / p.norm| ≤ 725 * u := by
    have e : 1 / N - 1 / p.norm = (p.norm - N) / (N * p.norm) := by
      field_simp
    rw [e, abs_div, abs_of_pos (by positivity : 0 < N * p.norm), div_le_iff₀ (by positivity), abs_sub_comm]
    have : 0.86 ≤ N * p.norm := by nlinarith
    nlinarith
  have hd : |1 / p.norm| ≤ 1.08 := by
    rw [abs_of_nonneg (by positivity), div_le_iff₀ (by positivity)]
    linarith
  have hfd : |fl (1 / N) - 1 / p.norm| ≤ 728 * u := h.near hinv hd (by norm_num) (by norm_num) (by norm_num)
  have fin : ∀ {a a' : ℝ}, |a' - a| ≤ 92 * u → |a| ≤ 1 → |fl (fl (1 / N) * a') - 1 / p.norm * a| ≤ 840 * u := fun ha a1 =>
    h.mul hfd ha hd a1 (by norm_num) (by norm_num) (by norm_num) (by norm_num) (by norm_num) (by norm_num) (by norm_num)
  refine ⟨scale fl (fl (1 / N)) q, ?_, fin hx x1, fin hy y1, fin hz z1⟩
  unfold normalized
  rw [hS, if_neg (by linarith)]
  simp only [hN]
  rw [if_neg (by linarith)]

/-- the conditions on precision, range, radius and number of segments -/
structure InScope (u η Ω r : ℝ) (n : ℤ) : Prop where
  segs : 1 ≤ n
  rad : r ≠ 0
  prec0 : 0 ≤ u
  prec : u * n ≤ 1 / 1000000
  under0 : η ≤ u
  under1 : η * n ≤ u * |r|
  under2 : η * n ^ 2 ≤ u * r ^ 2
  over0 : 100 ≤ Ω
  over1 : 100 * |r| ≤ Ω
  over2 : 100 * r ^ 2 ≤ Ω

variable {η Ω r : ℝ} {n : ℤ}

theorem InScope.u_small (s : InScope u η Ω r n) : u ≤ 1 / 1000000 := by
  have h1 : (1 : ℝ) ≤ n := by exact_mod_cast s.segs
  have := s.prec
  nlinarith [s.prec0]

theorem InScope.unit1 (s : InScope u η Ω r n) (h : Rounds u η Ω fl) : Unit1 u fl :=
  ⟨s.prec0, s.u_small, fun x hx => (h.err x (hx.trans s.over0)).trans (by linarith [s.under0])⟩

/-- the size of a segment -/
noncomputable def seg (r : ℝ) (n : ℤ) : ℝ := |r| / n

theorem InScope.seg_pos (s : InScope u η Ω r n) : 0 < seg r n := by
  have h1 : (0 : ℝ) < n := by exact_mod_cast s.segs
  have := abs_pos.2 s.rad
  unfold seg; positivity

theorem InScope.n_seg (s : InScope u η Ω r n) : n * seg r n = |r| := by
  have h1 : (0 : ℝ) < n := by exact_mod_cast s.segs
  unfold seg; field_simp

theorem InScope.eta_seg (s : InScope u η Ω r n) : η ≤ u * seg r n := by
  have h1 : (0 : ℝ) < n := by exact_mod_cast s.segs
  unfold seg
  rw [← mul_div_assoc, le_div_iff₀ h1]; exact s.under1

theorem InScope.eta_seg2 (s : InScope u η Ω r n) : η ≤ u * (seg r n * seg r n) := by
  have h1 : (0 : ℝ) < n := by exact_mod_cast s.segs
  have e : u * (seg r n * seg r n) = u * r ^ 2 / n ^ 2 := by
    unfold seg; rw [← sq_abs r]; field_simp
  rw [e, le_div_iff₀ (by positivity)]; exact s.under2

theorem InScope.eta_rad (s : InScope u η Ω r n) : η ≤ u * |r| := by
  have h1 : (1 : ℝ) ≤ n := by exact_mod_cast s.segs
  have h2 := s.eta_seg
  have h3 := s.n_seg
  have h4 := s.seg_pos
  have h5 := s.prec0
  have : seg r n ≤ |r| := by nlinarith
  nlinarith

theorem InScope.u_rad (s : InScope u η Ω r n) : u * |r| ≤ 1 / 1000000 * seg r n := by
  rw [← s.n_seg]
  have := s.prec
  have := s.seg_pos
  nlinarith

theorem InScope.seg_le (s : InScope u η Ω r n) : seg r n ≤ |r| := by
  have h1 : (1 : ℝ) ≤ n := by exact_mod_cast s.segs
  have h3 := s.n_seg
  have h4 := s.seg_pos
  nlinarith

/-- one coordinate of the scaled point -/
theorem scale_near (s : InScope u η Ω r n) (h : Rounds u η Ω fl) {a v : ℝ} (hv : |v - a| ≤ 840 * u) (ha : |a| ≤ 1) :
    |fl (r * v) - r * a| ≤ 843 * (u * |r|) := by
  have u1 := s.u_small
  have u0 := s.prec0
  have r0 := abs_nonneg r
  have hva : |v| ≤ 1.001 := by
    have := abs_add_le (v - a) a
    rw [sub_add_cancel] at this
    linarith
  have hrv : |r * v| ≤ 1.001 * |r| := by
    rw [abs_mul]; nlinarith
  have e1 := h.err (r * v) (by have := s.over1; linarith)
  have e2 : |r * v - r * a| ≤ 840 * (u * |r|) := by
    rw [← mul_sub, abs_mul]; nlinarith
  have e3 := abs_sub_le (fl (r * v)) (r * v) (r * a)
  have e4 := s.eta_rad
  have e5 : u * |r * v| ≤ 1.001 * (u * |r|) := by nlinarith
  nlinarith [mul_nonneg u0 r0]

/-- rounding does not change the size much -/
theorem size_near (h : Rounds u η Ω fl) {ρ x lo hi : ℝ} (u1 : u ≤ 1 / 1000000) (hη : η ≤ u * ρ) (hρ : 0 < ρ) (h1 : lo * ρ ≤ |x|)
    (h2 : |x| ≤ hi * ρ) (hhi : hi ≤ 2) (hΩ : |x| ≤ Ω) : (lo - 0.00001) * ρ ≤ |fl x| ∧ |fl x| ≤ (hi + 0.00001) * ρ := by
  have e := h.err x hΩ
  have e2 : u * |x| ≤ 1 / 1000000 * (2 * ρ) := by
    have : |x| ≤ 2 * ρ := by nlinarith
    exact mul_le_mul u1 this (abs_nonneg _) (by norm_num)
  have e3 : u * ρ ≤ 1 / 1000000 * ρ := by nlinarith
  have e4 := abs_sub_abs_le_abs_sub (fl x) x
  have e5 := abs_sub_abs_le_abs_sub x (fl x)
  rw [abs_sub_comm] at e5
  constructor <;> nlinarith

set_option maxHeartbeats 1000000 in
/-- the tolerance of `create_sphere_geodesic`, squared -/
theorem tol_near (s : InScope u η Ω r n) (h : Rounds u η Ω fl) :
    let tol := fl (fl (fl (r / fl (951 / 1000)) / n) / 20)
    0.0026 * (seg r n * seg r n) ≤ fl (tol * tol) ∧ fl (tol * tol) ≤ 0.0029 * (seg r n * seg r n) := by
  have u1 := s.u_small
  have u0 := s.prec0
  have hn : (1 : ℝ) ≤ n := by exact_mod_cast s.segs
  have hr := abs_pos.2 s.rad
  have hρ := s.seg_pos
  have hle := s.seg_le
  have o1 := s.over1
  have o2 := s.over2
  have hc : |fl (951 / 1000) - 951 / 1000| ≤ 2.1 * u :=
    (s.unit1 h).near (c := 0) (M := 0.951) (by simp) (by rw [abs_of_nonneg] <;> norm_num) (by norm_num) (by norm_num) (by norm_num)
  generalize fl (951 / 1000) = c at hc
  have hc' := abs_le.1 hc
  have c1 : 0.9509 ≤ c := by linarith
  have c2 : c ≤ 0.9511 := by linarith
  have a1 : 1.0514 * |r| ≤ |r / c| ∧ |r / c| ≤ 1.0517 * |r| := by
    rw [abs_div, abs_of_pos (by linarith : 0 < c), le_div_iff₀ (by linarith), div_le_iff₀ (by linarith)]
    constructor <;> nlinarith
  obtain ⟨b1, b2⟩ := size_near h u1 s.eta_rad hr a1.1 a1.2 (by norm_num) (by linarith)
  generalize fl (r / c) = x at b1 b2
  have a2 : 1.0513 * seg r n ≤ |x / n| ∧ |x / n| ≤ 1.0518 * seg r n := by
    rw [abs_div, abs_of_pos (by linarith : (0 : ℝ) < n), le_div_iff₀ (by linarith), div_le_iff₀ (by linarith)]
    have := s.n_seg
    constructor <;> nlinarith
  obtain ⟨b3, b4⟩ := size_near h u1 s.eta_seg hρ a2.1 a2.2 (by norm_num) (by linarith)
  generalize fl (x / n) = y at b3 b4
  have a3 : 0.0525 * seg r n ≤ |y / 20| ∧ |y / 20| ≤ 0.0526 * seg r n := by
    rw [abs_div, abs_of_pos (by norm_num : (0 : ℝ) < 20), le_div_iff₀ (by norm_num), div_le_iff₀ (by norm_num)]
    constructor <;> nlinarith
  obtain ⟨b5, b6⟩ := size_near h u1 s.eta_seg hρ a3.1 a3.2 (by norm_num) (by linarith)
  generalize fl (y / 20) = z at b5 b6
  intro tol
  have hz : |z * z| = |z| * |z| := abs_mul z z
  have a4 : 0.0027 * (seg r n * seg r n) ≤ |z * z| ∧ |z * z| ≤ 0.0028 * (seg r n * seg r n) := by
    rw [hz]
    constructor
    · have := mul_self_le_mul_self (by positivity) b5
      nlinarith
    · have := mul_self_le_mul_self (abs_nonneg z) b6
      nlinarith
  have hρ2 : seg r n * seg r n ≤ r ^ 2 := by
    rw [← sq_abs]; nlinarith
  have e := h.err (z * z) (by nlinarith [sq_nonneg r])
  rw [abs_mul_self] at a4 e
  have e2 := abs_le.1 e
  have e3 := s.eta_seg2
  have hρρ : 0 < seg r n * seg r n := by positivity
  change 0.0026 * (seg r n * seg r n) ≤ fl (z * z) ∧ fl (z * z) ≤ 0.0029 * (seg r n * seg r n)
  constructor <;> nlinarith

set_option maxHeartbeats 1000000 in
/-- `distance_square` computed with rounding -/
theorem distSq_near (s : InScope u η Ω r n) (h : Rounds u η Ω fl) {p q p' q' : P3 ℝ}
    (px : |p'.x - p.x| ≤ 843 * (u * |r|)) (py : |p'.y - p.y| ≤ 843 * (u * |r|)) (pz : |p'.z - p.z| ≤ 843 * (u * |r|))
    (qx : |q'.x - q.x| ≤ 843 * (u * |r|)) (qy : |q'.y - q.y| ≤ 843 * (u * |r|)) (qz : |q'.z - q.z| ≤ 843 * (u * |r|))
    (px1 : |p.x| ≤ |r|) (py1 : |p.y| ≤ |r|) (pz1 : |p.z| ≤ |r|) (qx1 : |q.x| ≤ |r|) (qy1 : |q.y| ≤ |r|) (qz1 : |q.z| ≤ |r|) :
    0.48 * p.distSq q - 0.0001 * (seg r n * seg r n) ≤ distSq fl p' q' ∧
      distSq fl p' q' ≤ 2.1 * p.distSq q + 0.0001 * (seg r n * seg r n) := by
  have u1 := s.u_small
  have u0 := s.prec0
  have hρ := s.seg_pos
  have o1 := s.over1
  have o2 := s.over2
  have hur := s.u_rad
  have hρ2 : seg r n * seg r n ≤ r ^ 2 := by
    rw [← sq_abs]; nlinarith [s.seg_le]
  have hη2 := s.eta_seg2
  have hη1 := s.eta_seg
  have r0 := abs_nonneg r
  -- the rounded difference of two coordinates
  have diff : ∀ {a b a' b' : ℝ}, |a' - a| ≤ 843 * (u * |r|) → |b' - b| ≤ 843 * (u * |r|) → |a| ≤ |r| → |b| ≤ |r| →
      |fl (a' - b') - (a - b)| ≤ 0.0017 * seg r n ∧ |fl (a' - b')| ≤ 2.1 * |r| := by
    intro a b a' b' ha hb a1 b1
    have t1 : |a' - b' - (a - b)| ≤ 1686 * (u * |r|) := by
      have := abs_sub (a' - a) (b' - b)
      rw [show a' - a - (b' - b) = a' - b' - (a - b) by ring] at this
      linarith
    have t2 : |a - b| ≤ 2 * |r| := by have := abs_sub a b; linarith
    have t3 : |a' - b'| ≤ 2.01 * |r| := by
      have := abs_add_le (a' - b' - (a - b)) (a - b)
      rw [sub_add_cancel] at this
      have := s.seg_le
      linarith
    have t4 := h.err (a' - b') (by linarith)
    have t5 := abs_sub_le (fl (a' - b')) (a' - b') (a - b)
    have t6 : u * |a' - b'| ≤ 2.01 * (u * |r|) := by nlinarith
    have t7 : u * seg r n ≤ 1 / 1000000 * seg r n := by nlinarith
    have t8 : |fl (a' - b') - (a - b)| ≤ 0.0017 * seg r n := by linarith
    refine ⟨t8, ?_⟩
    have := abs_add_le (fl (a' - b') - (a - b)) (a - b)
    rw [sub_add_cancel] at this
    have := s.seg_le
    linarith
  obtain ⟨dx, mx⟩ := diff px qx px1 qx1
  obtain ⟨dy, my⟩ := diff py qy py1 qy1
  obtain ⟨dz, mz⟩ := diff pz qz pz1 qz1
  unfold distSq squared
  have hd : p.distSq q = (p.x - q.x) ^ 2 + (p.y - q.y) ^ 2 + (p.z - q.z) ^ 2 := by
    rw [P3.distSq_eq]; simp only [P3.normSq, P3.sub_x, P3.sub_y, P3.sub_z]; ring
  rw [hd]
  generalize fl (p'.x - q'.x) = x' at *
  generalize fl (p'.y - q'.y) = y' at *
  generalize fl (p'.z - q'.z) = z' at *
  generalize p.x - q.x = x at *
  generalize p.y - q.y = y at *
  generalize p.z - q.z = z at *
  have hr2 : |r| * |r| = r ^ 2 := by rw [← sq_abs]; ring
  -- squares
  have sq : ∀ {a : ℝ}, |a| ≤ 2.1 * |r| → 0 ≤ a * a ∧ a * a ≤ 4.5 * r ^ 2 ∧ |fl (a * a) - a * a| ≤ 1 / 1000000 * (a * a) + 1 / 1000000 * (seg r n * seg r n) := by
    intro a ha
    have h0 := mul_self_nonneg a
    have h1 : a * a ≤ 4.5 * r ^ 2 := by
      have := mul_self_le_mul_self (abs_nonneg a) ha
      rw [abs_mul_abs_self] at this
      nlinarith
    refine ⟨h0, h1, (h.err _ (by rw [abs_of_nonneg h0]; nlinarith)).trans ?_⟩
    rw [abs_of_nonneg h0]
    have : u * (seg r n * seg r n) ≤ 1 / 1000000 * (seg r n * seg r n) := by nlinarith
    nlinarith
  obtain ⟨x0, x1, x2⟩ := sq mx
  obtain ⟨y0, y1, y2⟩ := sq my
  obtain ⟨z0, z1, z2⟩ := sq mz
  have near : ∀ {a a' : ℝ}, |a' - a| ≤ 0.0017 * seg r n → 0.5 * a ^ 2 - 0.000003 * (seg r n * seg r n) ≤ a' * a' ∧
      a' * a' ≤ 2 * a ^ 2 + 0.000006 * (seg r n * seg r n) := by
    intro a a' ha
    have h2 := mul_self_le_mul_self (abs_nonneg _) ha
    rw [abs_mul_abs_self] at h2
    constructor
    · nlinarith [sq_nonneg (2 * a' - a)]
    · nlinarith [sq_nonneg (a' - 2 * a)]
  obtain ⟨nx1, nx2⟩ := near dx
  obtain ⟨ny1, ny2⟩ := near dy
  obtain ⟨nz1, nz2⟩ := near dz
  have hρρ : 0 < seg r n * seg r n := by positivity
  generalize hP : seg r n * seg r n = P at *
  have hη : η ≤ 1 / 1000000 * P := by nlinarith
  -- sums
  have sum : ∀ {a b : ℝ}, |a| + |b| ≤ 30 * r ^ 2 → |fl (a + b) - (a + b)| ≤ 1 / 1000000 * (|a| + |b|) + 1 / 1000000 * P := by
    intro a b hab
    have t := abs_add_le a b
    have := h.err (a + b) (by linarith)
    have : u * |a + b| ≤ 1 / 1000000 * (|a| + |b|) := mul_le_mul u1 t (abs_nonneg _) (by norm_num)
    linarith
  generalize fl (x' * x') = X at *
  generalize fl (y' * y') = Y at *
  generalize fl (z' * z') = Z at *
  have bnd : ∀ {A a : ℝ}, 0 ≤ a → |A - a| ≤ 1 / 1000000 * a + 1 / 1000000 * P → |A| ≤ 1.00001 * a + 0.00001 * P := by
    intro A a h0 hA
    have := abs_add_le (A - a) a
    rw [sub_add_cancel, abs_of_nonneg h0] at this
    linarith
  have bX := bnd x0 x2
  have bY := bnd y0 y2
  have bZ := bnd z0 z2
  have s1 := sum (a := X) (b := Y) (by linarith)
  generalize fl (X + Y) = W at *
  have bW : |W| ≤ 1.0001 * (x' * x' + y' * y') + 0.0001 * P := by
    have := abs_add_le (W - (X + Y)) (X + Y)
    rw [sub_add_cancel] at this
    have := abs_add_le X Y
    linarith
  have s2 := sum (a := W) (b := Z) (by linarith)
  generalize fl (W + Z) = V at *
  have s1' := abs_le.1 s1
  have s2' := abs_le.1 s2
  have x2' := abs_le.1 x2
  have y2' := abs_le.1 y2
  have z2' := abs_le.1 z2
  constructor <;> linarith

end Rounded
end CAD
