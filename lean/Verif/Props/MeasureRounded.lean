import Verif.Model.MeasureRounded
import Verif.Props.Platonic
import Verif.Lemmas.Rounding
import Verif.Lemmas.Ieee

/-! C115: volume and surface in rounded arithmetic. -/

namespace CAD
namespace Rounded

/-- What is assumed of the rounding: errors as in `Rounds`, zero and nonnegative numbers stay such,
and the underflow error `η` is small against the length `h`.  For `double`, `h = 2⁻²⁴²`. -/
structure MeasureOK (u η Ω h : ℝ) (fl : ℝ → ℝ) : Prop where
  rounds : Rounds u η Ω fl
  zero : fl 0 = 0
  nonneg : ∀ x, 0 ≤ x → 0 ≤ fl x
  u0 : 0 ≤ u
  u1 : u ≤ 1 / 1000000
  h0 : 0 < h
  h1 : h ≤ 1 / 100
  under : η ≤ u ^ 2 * h ^ 4

variable {u η Ω h : ℝ} {fl : ℝ → ℝ}

theorem MeasureOK.eta (H : MeasureOK u η Ω h fl) {M : ℝ} (hM : h ^ 3 ≤ M) : η ≤ u * M := by
  have h0 := H.h0
  have h1 := H.h1
  have u0 := H.u0
  have u1 := H.u1
  have e1 : u ^ 2 * h ^ 4 = u * h ^ 3 * (u * h) := by ring
  have e2 : u * h ≤ 1 := by nlinarith
  have e3 : 0 ≤ u * h ^ 3 := by positivity
  calc η ≤ u ^ 2 * h ^ 4 := H.under
    _ ≤ u * h ^ 3 := by rw [e1]; nlinarith
    _ ≤ u * M := mul_le_mul_of_nonneg_left hM u0

/-- rounding a value `x` near `a`, errors measured against `M` -/
theorem MeasureOK.near (H : MeasureOK u η Ω h fl) {x a c e M : ℝ} (hx : |x - a| ≤ c * u * M) (ha : |a| ≤ M) (hM : h ^ 3 ≤ M)
    (hc : c ≤ 1000) (hΩ : 2 * M ≤ Ω) (he : c + 2.01 ≤ e) : |fl x - a| ≤ e * u * M := by
  have u0 := H.u0
  have u1 := H.u1
  have M0 : 0 ≤ M := (abs_nonneg a).trans ha
  have n := H.eta hM
  have um : 0 ≤ u * M := mul_nonneg u0 M0
  have cu : c * u * M ≤ 0.001 * M := by
    refine mul_le_mul_of_nonneg_right ?_ M0
    nlinarith
  have hxM : |x| ≤ 1.001 * M := by
    have := abs_add_le (x - a) a
    rw [sub_add_cancel] at this
    linarith
  have hf := H.rounds.err x (by linarith)
  have t := abs_sub_le (fl x) x a
  have : u * |x| ≤ 1.001 * (u * M) := by nlinarith
  nlinarith

theorem MeasureOK.mul (H : MeasureOK u η Ω h fl) {a b a' b' c d e A B : ℝ} (ha : |a' - a| ≤ c * u * A) (hb : |b' - b| ≤ d * u * B)
    (hA : |a| ≤ A) (hB : |b| ≤ B) (hc0 : 0 ≤ c) (hd0 : 0 ≤ d) (hc : c ≤ 31) (hd : d ≤ 31) (hM : h ^ 3 ≤ A * B)
    (hΩ : 2 * (A * B) ≤ Ω) (he : c + d + 2.02 ≤ e) : |fl (a' * b') - a * b| ≤ e * u * (A * B) := by
  have u0 := H.u0
  have u1 := H.u1
  have A0 : 0 ≤ A := (abs_nonneg a).trans hA
  have B0 : 0 ≤ B := (abs_nonneg b).trans hB
  refine H.near (c := c + d + 0.001) ?_ (by rw [abs_mul]; exact mul_le_mul hA hB (abs_nonneg _) A0) hM (by linarith) hΩ (by linarith)
  refine (mul_near ha hb hA hB).trans ?_
  have q : c * d ≤ 961 := by nlinarith
  have : c * d * u ≤ 0.001 := by nlinarith [mul_nonneg hc0 hd0]
  have ab := mul_nonneg A0 B0
  have : c * u * A * (d * u * B) ≤ 0.001 * u * (A * B) := by
    have e : c * u * A * (d * u * B) = c * d * u * (u * (A * B)) := by ring
    rw [e]
    have := mul_nonneg u0 ab
    nlinarith
  nlinarith

/-- sums computed from left to right -/
theorem MeasureOK.sum (H : MeasureOK u η Ω h fl) {T : Type} (g g' w : T → ℝ) (c : ℝ) (hc0 : 0 ≤ c) (hc : c ≤ 100) (l : List T)
    (hg : ∀ t ∈ l, |g t| ≤ w t) (hg' : ∀ t ∈ l, |g' t - g t| ≤ c * u * w t) (hw : ∀ t ∈ l, h ^ 3 ≤ w t)
    (hN : l.length * u ≤ 1 / 1000) (hΩ : 2 * (l.map w).sum ≤ Ω) :
    |l.foldl (fun acc t => fl (acc + g' t)) 0 - (l.map g).sum| ≤ (1.02 * l.length + c + 1) * u * (l.map w).sum := by
  have u0 := H.u0
  have u1 := H.u1
  induction l using List.reverseRecOn with
  | nil => simp
  | append_singleton l t ih =>
    simp only [List.forall_mem_append, List.mem_singleton, forall_eq] at hg hg' hw
    obtain ⟨hg, gt⟩ := hg
    obtain ⟨hg', gt'⟩ := hg'
    obtain ⟨hw, wt⟩ := hw
    simp only [List.map_append, List.map_cons, List.map_nil, List.sum_append, List.sum_cons, List.sum_nil, add_zero,
      List.length_append, List.length_cons, List.length_nil, zero_add, Nat.cast_add, Nat.cast_one] at hN hΩ ⊢
    rw [List.foldl_append]
    simp only [List.foldl_cons, List.foldl_nil]
    have w0 : 0 ≤ w t := (abs_nonneg _).trans gt
    have W0 : 0 ≤ (l.map w).sum := List.sum_nonneg fun x hx => by
      obtain ⟨s, hs, rfl⟩ := List.mem_map.1 hx
      exact (abs_nonneg _).trans (hg s hs)
    have G : |(l.map g).sum| ≤ (l.map w).sum := by
      clear ih hg' hw hN hΩ W0
      induction l with
      | nil => simp
      | cons a l ih2 =>
        simp only [List.map_cons, List.sum_cons]
        refine (abs_add_le _ _).trans (add_le_add (hg a (by simp)) (ih2 fun s hs => hg s (by simp [hs])))
    have ih := ih hg hg' hw (by linarith) (by linarith)
    generalize (l.map w).sum = W at *
    generalize (l.map g).sum = S at *
    generalize l.foldl (fun acc t => fl (acc + g' t)) 0 = v at *
    generalize hn : (l.length : ℝ) = n at *
    have n0 : 0 ≤ n := hn ▸ Nat.cast_nonneg _
    have c1 : (1.02 * n + c + 1) * u ≤ 0.005 := by nlinarith
    have c2 : c * u ≤ 0.001 := by nlinarith
    have e1 : (1.02 * n + c + 1) * u * W ≤ 0.005 * W := mul_le_mul_of_nonneg_right c1 W0
    have e2 : c * u * w t ≤ 0.001 * w t := mul_le_mul_of_nonneg_right c2 w0
    have d : |v + g' t - (S + g t)| ≤ (1.02 * n + c + 1) * u * W + c * u * w t := by
      have : v + g' t - (S + g t) = (v - S) + (g' t - g t) := by ring
      rw [this]
      exact (abs_add_le _ _).trans (add_le_add ih gt')
    have big : |v + g' t| ≤ 1.01 * (W + w t) := by
      have t1 := abs_add_le (v + g' t - (S + g t)) (S + g t)
      rw [sub_add_cancel] at t1
      have t2 := abs_add_le S (g t)
      linarith
    have f := H.rounds.err (v + g' t) (by linarith)
    have n3 := H.eta wt
    have tri := abs_sub_le (fl (v + g' t)) (v + g' t) (S + g t)
    have b2 : u * |v + g' t| ≤ u * (1.01 * (W + w t)) := mul_le_mul_of_nonneg_left big u0
    nlinarith [mul_nonneg u0 W0, mul_nonneg u0 w0, mul_nonneg n0 (mul_nonneg u0 w0)]

theorem coord_le_norm (p : P3 ℝ) : |p.x| ≤ p.norm ∧ |p.y| ≤ p.norm ∧ |p.z| ≤ p.norm := by
  have n := P3.norm_nonneg p
  have s : p.norm * p.norm = p.x * p.x + p.y * p.y + p.z * p.z := P3.norm_sq p
  refine ⟨?_, ?_, ?_⟩ <;> refine abs_le_of_sq_le_sq ?_ n <;> nlinarith [mul_self_nonneg p.x, mul_self_nonneg p.y, mul_self_nonneg p.z]

theorem cross_norm_le (p q : P3 ℝ) : (p.cross q).norm ≤ p.norm * q.norm := by
  have n1 := P3.norm_nonneg p
  have n2 := P3.norm_nonneg q
  have s1 : p.norm * p.norm = p.x * p.x + p.y * p.y + p.z * p.z := P3.norm_sq p
  have s2 : q.norm * q.norm = q.x * q.x + q.y * q.y + q.z * q.z := P3.norm_sq q
  have s3 : (p.cross q).norm * (p.cross q).norm = (p.cross q).normSq := P3.norm_sq _
  refine abs_le_of_sq_le_sq' ?_ (mul_nonneg n1 n2) |>.2
  have : (p.norm * q.norm) ^ 2 = (p.norm * p.norm) * (q.norm * q.norm) := by ring
  rw [this, s1, s2, sq, s3]
  simp only [P3.normSq, P3.cross]
  nlinarith [mul_self_nonneg (p.x * q.x + p.y * q.y + p.z * q.z)]

/-- Cauchy-Schwarz, also for two of the three coordinates -/
theorem dot_le (p q : P3 ℝ) : |p.x * q.x + p.y * q.y| ≤ p.norm * q.norm ∧ |p.dot q| ≤ p.norm * q.norm := by
  have n1 := P3.norm_nonneg p
  have n2 := P3.norm_nonneg q
  have s1 : p.norm * p.norm = p.x * p.x + p.y * p.y + p.z * p.z := P3.norm_sq p
  have s2 : q.norm * q.norm = q.x * q.x + q.y * q.y + q.z * q.z := P3.norm_sq q
  have e : (p.norm * q.norm) ^ 2 = (p.norm * p.norm) * (q.norm * q.norm) := by ring
  constructor <;> refine abs_le_of_sq_le_sq ?_ (mul_nonneg n1 n2) <;> rw [e, s1, s2]
  · nlinarith [mul_self_nonneg (p.x * q.y - p.y * q.x), mul_self_nonneg (p.x * q.z), mul_self_nonneg (p.y * q.z),
      mul_self_nonneg (p.z * q.x), mul_self_nonneg (p.z * q.y), mul_self_nonneg (p.z * q.z)]
  · simp only [P3.dot]
    nlinarith [mul_self_nonneg (p.x * q.y - p.y * q.x), mul_self_nonneg (p.x * q.z - p.z * q.x), mul_self_nonneg (p.y * q.z - p.z * q.y)]

/-- product of two side lengths of a triangle, each enlarged by `h` (specification) -/
noncomputable def sides (h : ℝ) (t : Tri3 ℝ) : ℝ := ((t.p1 - t.p2).norm + h) * ((t.p1 - t.p3).norm + h)

/-- the same times the distance of the first corner from the origin (specification) -/
noncomputable def reach (h : ℝ) (t : Tri3 ℝ) : ℝ := (t.p1.norm + h) * sides h t

/-- the corners are in range (specification) -/
structure Inside (R : ℝ) (t : Tri3 ℝ) : Prop where
  p1 : t.p1.norm ≤ R
  p2 : t.p2.norm ≤ R
  p3 : t.p3.norm ≤ R

theorem norm_add_le (p q : P3 ℝ) : (p + q).norm ≤ p.norm + q.norm := by
  have n1 := P3.norm_nonneg p
  have n2 := P3.norm_nonneg q
  have s1 : p.norm * p.norm = p.x * p.x + p.y * p.y + p.z * p.z := P3.norm_sq p
  have s2 : q.norm * q.norm = q.x * q.x + q.y * q.y + q.z * q.z := P3.norm_sq q
  have s3 : (p + q).norm * (p + q).norm = (p.x + q.x) * (p.x + q.x) + (p.y + q.y) * (p.y + q.y) + (p.z + q.z) * (p.z + q.z) := P3.norm_sq _
  have d := (abs_le.1 (dot_le p q).2).2
  simp only [P3.dot] at d
  refine abs_le_of_sq_le_sq' ?_ (add_nonneg n1 n2) |>.2
  nlinarith

theorem norm_neg (p : P3 ℝ) : (-p).norm = p.norm := by
  unfold P3.norm; simp

theorem norm_sub_le (p q : P3 ℝ) : (p - q).norm ≤ p.norm + q.norm := by
  have := norm_add_le p (-q)
  rw [norm_neg] at this
  have e : p + -q = p - q := by ext <;> simp <;> ring
  rwa [e] at this

theorem sides_pos (H : MeasureOK u η Ω h fl) (t : Tri3 ℝ) : h ^ 3 ≤ sides h t ∧ h ^ 3 ≤ reach h t ∧ h ^ 2 ≤ sides h t := by
  have h0 := H.h0
  have h1 := H.h1
  have a := P3.norm_nonneg (t.p1 - t.p2)
  have b := P3.norm_nonneg (t.p1 - t.p3)
  have c := P3.norm_nonneg t.p1
  have s : h ^ 2 ≤ sides h t := by
    unfold sides; nlinarith [mul_nonneg a b, mul_nonneg a h0.le, mul_nonneg b h0.le]
  refine ⟨?_, ?_, s⟩
  · nlinarith [sq_nonneg h]
  · unfold reach
    nlinarith [sq_nonneg h, mul_nonneg c ((sq_nonneg h).trans s)]

theorem sides_le (H : MeasureOK u η Ω h fl) {R : ℝ} (hR : 1 ≤ R) {t : Tri3 ℝ} (ht : Inside R t) :
    sides h t ≤ 4.1 * R ^ 2 ∧ reach h t ≤ 4.2 * R ^ 3 ∧ (t.p1 - t.p2).norm + h ≤ 2.01 * R ∧ (t.p1 - t.p3).norm + h ≤ 2.01 * R := by
  have h0 := H.h0
  have h1 := H.h1
  have a0 := P3.norm_nonneg (t.p1 - t.p2)
  have b0 := P3.norm_nonneg (t.p1 - t.p3)
  have c0 := P3.norm_nonneg t.p1
  have a := (norm_sub_le t.p1 t.p2).trans (add_le_add ht.p1 ht.p2)
  have b := (norm_sub_le t.p1 t.p3).trans (add_le_add ht.p1 ht.p3)
  have c := ht.p1
  have a' : (t.p1 - t.p2).norm + h ≤ 2.01 * R := by linarith
  have b' : (t.p1 - t.p3).norm + h ≤ 2.01 * R := by linarith
  have c' : t.p1.norm + h ≤ 1.01 * R := by linarith
  have s : sides h t ≤ (2.01 * R) * (2.01 * R) := mul_le_mul a' b' (by linarith) (by linarith)
  have s0 : 0 ≤ sides h t := mul_nonneg (by linarith) (by linarith)
  have r : reach h t ≤ (1.01 * R) * ((2.01 * R) * (2.01 * R)) := mul_le_mul c' s s0 (by linarith)
  refine ⟨by nlinarith, ?_, a', b'⟩
  have : 0 ≤ R ^ 3 := by positivity
  nlinarith

/-- the computed orthogonal vector -/
theorem orthogonal_near (H : MeasureOK u η Ω h fl) {R : ℝ} (hR : 1 ≤ R) (hΩ : 10 * R ^ 2 ≤ Ω) {t : Tri3 ℝ} (ht : Inside R t) :
    |(orthogonal fl t).x - t.orthogonal.x| ≤ 14.2 * u * sides h t ∧ |(orthogonal fl t).y - t.orthogonal.y| ≤ 14.2 * u * sides h t ∧
      |(orthogonal fl t).z - t.orthogonal.z| ≤ 14.2 * u * sides h t := by
  have h0 := H.h0
  have h1 := H.h1
  obtain ⟨sl, -, al, bl⟩ := sides_le H hR ht
  obtain ⟨sp, -, -⟩ := sides_pos H t
  have cl := cross_norm_le (t.p1 - t.p2) (t.p1 - t.p3)
  obtain ⟨a1, a2, a3⟩ := coord_le_norm (t.p1 - t.p2)
  obtain ⟨b1, b2, b3⟩ := coord_le_norm (t.p1 - t.p3)
  obtain ⟨c1, c2, c3⟩ := coord_le_norm ((t.p1 - t.p2).cross (t.p1 - t.p3))
  have an := P3.norm_nonneg (t.p1 - t.p2)
  have bn := P3.norm_nonneg (t.p1 - t.p3)
  have Rsq : R ≤ R ^ 2 := by nlinarith
  have h3 : h ^ 3 ≤ h := by nlinarith [sq_nonneg h, mul_pos h0 h0]
  unfold sides at *
  set A := (t.p1 - t.p2).norm + h
  set B := (t.p1 - t.p3).norm + h
  have first : ∀ {x y : ℝ}, |x - y| ≤ A → |fl (x - y) - (x - y)| ≤ 2.01 * u * A := fun hx =>
    H.near (c := 0) (by simp) hx (by linarith) (by norm_num) (by linarith) (by norm_num)
  have second : ∀ {x y : ℝ}, |x - y| ≤ B → |fl (x - y) - (x - y)| ≤ 2.01 * u * B := fun hx =>
    H.near (c := 0) (by simp) hx (by linarith) (by norm_num) (by linarith) (by norm_num)
  have clAB : ((t.p1 - t.p2).cross (t.p1 - t.p3)).norm ≤ A * B := cl.trans (mul_le_mul (by linarith) (by linarith) bn (by linarith))
  have comp : ∀ {a a' b b' c c' d d' : ℝ}, |a' - a| ≤ 2.01 * u * A → |b' - b| ≤ 2.01 * u * B → |c' - c| ≤ 2.01 * u * A →
      |d' - d| ≤ 2.01 * u * B → |a| ≤ A → |b| ≤ B → |c| ≤ A → |d| ≤ B → |a * b - c * d| ≤ A * B →
      |fl (fl (a' * b') - fl (c' * d')) - (a * b - c * d)| ≤ 14.2 * u * (A * B) := by
    intro a a' b b' c c' d d' ha hb hc hd ha' hb' hc' hd' hm
    have e1 := H.mul (e := 6.05) ha hb ha' hb' (by norm_num) (by norm_num) (by norm_num) (by norm_num) sp (by linarith) (by norm_num)
    have e2 := H.mul (e := 6.05) hc hd hc' hd' (by norm_num) (by norm_num) (by norm_num) (by norm_num) sp (by linarith) (by norm_num)
    refine H.near (c := 12.1) ?_ hm sp (by norm_num) (by linarith) (by norm_num)
    have e : fl (a' * b') - fl (c' * d') - (a * b - c * d) = (fl (a' * b') - a * b) - (fl (c' * d') - c * d) := by ring
    rw [e]
    refine (abs_sub _ _).trans ?_
    linarith
  have wA : ∀ {x : ℝ}, |x| ≤ (t.p1 - t.p2).norm → |x| ≤ A := fun hx => by linarith
  have wB : ∀ {x : ℝ}, |x| ≤ (t.p1 - t.p3).norm → |x| ≤ B := fun hx => by linarith
  exact ⟨comp (first (wA a2)) (second (wB b3)) (first (wA a3)) (second (wB b2)) (wA a2) (wB b3) (wA a3) (wB b2) (c1.trans clAB),
    comp (first (wA a3)) (second (wB b1)) (first (wA a1)) (second (wB b3)) (wA a3) (wB b1) (wA a1) (wB b3) (c2.trans clAB),
    comp (first (wA a1)) (second (wB b2)) (first (wA a2)) (second (wB b1)) (wA a1) (wB b2) (wA a2) (wB b1) (c3.trans clAB)⟩

theorem orthogonal_size (t : Tri3 ℝ) {h : ℝ} (h0 : 0 ≤ h) : t.orthogonal.norm ≤ sides h t :=
  (cross_norm_le _ _).trans (mul_le_mul (by linarith) (by linarith) (P3.norm_nonneg _) (by linarith [P3.norm_nonneg (t.p1 - t.p2)]))

/-- the computed summand of `volume` -/
theorem volume_term (H : MeasureOK u η Ω h fl) {R : ℝ} (hR : 1 ≤ R) (hΩ : 10 * R ^ 3 ≤ Ω) {t : Tri3 ℝ} (ht : Inside R t) :
    |dot fl t.p1 (orthogonal fl t) - t.p1.dot t.orthogonal| ≤ 53 * u * reach h t ∧ |t.p1.dot t.orthogonal| ≤ reach h t := by
  have h0 := H.h0
  obtain ⟨sl, rl, -, -⟩ := sides_le H hR ht
  obtain ⟨sp, rp, -⟩ := sides_pos H t
  have R3 : R ^ 2 ≤ R ^ 3 := by nlinarith [sq_nonneg R]
  obtain ⟨e1, e2, e3⟩ := orthogonal_near H hR (by linarith) ht
  have os := orthogonal_size t h0.le
  obtain ⟨c1, c2, c3⟩ := coord_le_norm t.orthogonal
  obtain ⟨p1, p2, p3⟩ := coord_le_norm t.p1
  obtain ⟨d1, d2⟩ := dot_le t.p1 t.orthogonal
  have pn := P3.norm_nonneg t.p1
  have on := P3.norm_nonneg t.orthogonal
  have big : t.p1.norm * t.orthogonal.norm ≤ reach h t := mul_le_mul (by linarith) os on (by linarith)
  have prod : ∀ {a b b' : ℝ}, |b' - b| ≤ 14.2 * u * sides h t → |a| ≤ t.p1.norm → |b| ≤ t.orthogonal.norm →
      |fl (a * b') - a * b| ≤ 16.25 * u * reach h t := fun hb ha hb' =>
    H.mul (c := 0) (d := 14.2) (by simp) hb (ha.trans (by linarith)) (hb'.trans os) (by norm_num) (by norm_num) (by norm_num) (by norm_num)
      rp (by unfold reach at rl; linarith) (by norm_num)
  have f1 := prod e1 p1 c1
  have f2 := prod e2 p2 c2
  have f3 := prod e3 p3 c3
  have g1 : |fl (fl (t.p1.x * (orthogonal fl t).x) + fl (t.p1.y * (orthogonal fl t).y)) -
      (t.p1.x * t.orthogonal.x + t.p1.y * t.orthogonal.y)| ≤ 34.6 * u * reach h t := by
    refine H.near (c := 32.5) ?_ (d1.trans big) rp (by norm_num) (by linarith) (by norm_num)
    rw [add_sub_add_comm]
    refine (abs_add_le _ _).trans ?_
    linarith
  refine ⟨?_, d2.trans big⟩
  refine H.near (c := 50.85) ?_ (d2.trans big) rp (by norm_num) (by linarith) (by norm_num)
  unfold P3.dot
  rw [add_sub_add_comm]
  refine (abs_add_le _ _).trans ?_
  linarith

/-- roots of sums of squares computed with errors -/
theorem root_near {S N e d : ℝ} (hN : 0 ≤ N) (he : 0 ≤ e) (hd : 0 ≤ d) (hS : |S - N * N| ≤ e * (N * N) + d * d) :
    |Real.sqrt S - N| ≤ e * N + d := by
  obtain ⟨l, r⟩ := abs_le.1 hS
  have eN := mul_nonneg he hN
  rw [abs_le]
  constructor
  · by_cases hc : N ≤ e * N + d
    · linarith [Real.sqrt_nonneg S]
    · push Not at hc
      have : N - (e * N + d) ≤ Real.sqrt S := by
        refine Real.le_sqrt_of_sq_le ?_
        nlinarith [mul_nonneg hd hN]
      linarith
  · have : Real.sqrt S ≤ N + (e * N + d) := by
      refine Real.sqrt_le_iff.2 ⟨by linarith, ?_⟩
      nlinarith [mul_nonneg hd hN, sq_nonneg (e * N), mul_nonneg eN hd, mul_nonneg eN hN]
    linarith

/-- the computed sum of squares -/
theorem normSq_near (H : MeasureOK u η Ω h fl) (c : P3 ℝ) (hc : 3 * c.normSq + 1 ≤ Ω) :
    |normSq fl c - c.normSq| ≤ 3.1 * u * c.normSq + 7 * η ∧ 0 ≤ normSq fl c := by
  have u0 := H.u0
  have u1 := H.u1
  have x0 := mul_self_nonneg c.x
  have y0 := mul_self_nonneg c.y
  have z0 := mul_self_nonneg c.z
  have n : c.normSq = c.x * c.x + c.y * c.y + c.z * c.z := rfl
  rw [n] at hc ⊢
  have e0 : η ≤ 1 / 100 := by
    have := H.under
    have h0 := H.h0
    have h1 := H.h1
    have a : h ^ 4 ≤ 1 := pow_le_one₀ h0.le (by linarith)
    have b : u ^ 2 ≤ 1 / 100 := by nlinarith
    have : u ^ 2 * h ^ 4 ≤ 1 / 100 * 1 := mul_le_mul b a (by positivity) (by norm_num)
    linarith
  have sq : ∀ {x : ℝ}, 0 ≤ x → x ≤ Ω → |fl x - x| ≤ u * x + η := fun {x} h0 hx => by
    have := H.rounds.err x (by rwa [abs_of_nonneg h0])
    rwa [abs_of_nonneg h0] at this
  have fx := sq x0 (by linarith)
  have fy := sq y0 (by linarith)
  have fz := sq z0 (by linarith)
  have px := H.nonneg _ x0
  have py := H.nonneg _ y0
  have pz := H.nonneg _ z0
  have pxy := H.nonneg _ (add_nonneg px py)
  have p := H.nonneg _ (add_nonneg pxy pz)
  unfold normSq
  refine ⟨?_, p⟩
  have η0 : 0 ≤ η := by
    have := (abs_nonneg _).trans (H.rounds.err 0 (by simp; nlinarith))
    simpa using this
  generalize c.x * c.x = X at *
  generalize c.y * c.y = Y at *
  generalize c.z * c.z = Z at *
  obtain ⟨fx1, fx2⟩ := abs_le.1 fx
  obtain ⟨fy1, fy2⟩ := abs_le.1 fy
  obtain ⟨fz1, fz2⟩ := abs_le.1 fz
  have uX := mul_nonneg u0 x0
  have uY := mul_nonneg u0 y0
  have uZ := mul_nonneg u0 z0
  have ux : u * X ≤ 0.001 * X := by nlinarith
  have uy : u * Y ≤ 0.001 * Y := by nlinarith
  have uz : u * Z ≤ 0.001 * Z := by nlinarith
  have s1 := sq (add_nonneg px py) (by linarith)
  obtain ⟨g1, g2⟩ := abs_le.1 s1
  have uη : u * η ≤ 0.01 * η := by nlinarith
  have uuX : u * (u * X) ≤ 0.001 * (u * X) := by nlinarith
  have uuY : u * (u * Y) ≤ 0.001 * (u * Y) := by nlinarith
  have uuZ : u * (u * Z) ≤ 0.001 * (u * Z) := by nlinarith
  have k1 : u * (fl X + fl Y) ≤ 1.001 * (u * X) + 1.001 * (u * Y) + η := by
    have := mul_le_mul_of_nonneg_left (show fl X + fl Y ≤ X + Y + u * X + u * Y + 2 * η by linarith) u0
    linarith
  have s2 := sq (add_nonneg pxy pz) (by linarith)
  obtain ⟨g3, g4⟩ := abs_le.1 s2
  have k3 : fl (fl X + fl Y) + fl Z ≤ X + Y + Z + 2.001 * (u * X) + 2.001 * (u * Y) + u * Z + 5 * η := by linarith
  have k4 : u * (fl (fl X + fl Y) + fl Z) ≤ 1.01 * (u * X) + 1.01 * (u * Y) + 1.01 * (u * Z) + η := by
    have := mul_le_mul_of_nonneg_left k3 u0
    linarith
  rw [abs_le]
  constructor <;> linarith

/-- the computed `Triangle3::surface` -/
theorem surface_term (H : MeasureOK u η Ω h fl) {R : ℝ} (hR : 1 ≤ R) (hΩ : 100 * R ^ 4 ≤ Ω) {t : Tri3 ℝ} (ht : Inside R t) :
    ∃ s, triSurface fl t = some s ∧ |s - t.surface| ≤ 37 * u * (sides h t / 2) ∧ |t.surface| ≤ sides h t / 2 := by
  have h0 := H.h0
  have h1 := H.h1
  have u0 := H.u0
  have u1 := H.u1
  obtain ⟨sl, -, -, -⟩ := sides_le H hR ht
  obtain ⟨sp, -, sp2⟩ := sides_pos H t
  have R1 : 1 ≤ R ^ 2 := by nlinarith
  have R4 : R ^ 4 = R ^ 2 * R ^ 2 := by ring
  have R2 : R ^ 2 ≤ R ^ 4 := by rw [R4]; nlinarith
  obtain ⟨e1, e2, e3⟩ := orthogonal_near H hR (by linarith) ht
  have os := orthogonal_size t h0.le
  have on := P3.norm_nonneg t.orthogonal
  have s0 : 0 ≤ sides h t := on.trans os
  generalize hc : orthogonal fl t = c at e1 e2 e3
  have us : 0 ≤ u * sides h t := mul_nonneg u0 s0
  have diff : (c - t.orthogonal).norm ≤ 24.7 * u * sides h t := by
    refine abs_le_of_sq_le_sq' ?_ (by nlinarith) |>.2
    have n : (c - t.orthogonal).norm * (c - t.orthogonal).norm = (c.x - t.orthogonal.x) * (c.x - t.orthogonal.x) +
      (c.y - t.orthogonal.y) * (c.y - t.orthogonal.y) + (c.z - t.orthogonal.z) * (c.z - t.orthogonal.z) := P3.norm_sq _
    have sq : ∀ {x : ℝ}, |x| ≤ 14.2 * u * sides h t → x * x ≤ (14.2 * u * sides h t) * (14.2 * u * sides h t) := fun {x} hx => by
      have := mul_self_le_mul_self (abs_nonneg x) hx
      rwa [abs_mul_abs_self] at this
    have a := sq e1
    have b := sq e2
    have d := sq e3
    rw [pow_two (c - t.orthogonal).norm, n]
    nlinarith
  have up : c.norm ≤ t.orthogonal.norm + 24.7 * u * sides h t := by
    have := norm_add_le (c - t.orthogonal) t.orthogonal
    rw [show c - t.orthogonal + t.orthogonal = c by ext <;> simp] at this
    linarith
  have down : t.orthogonal.norm ≤ c.norm + 24.7 * u * sides h t := by
    have := norm_sub_le c (c - t.orthogonal)
    rw [show c - (c - t.orthogonal) = t.orthogonal by ext <;> simp] at this
    linarith
  have cn := P3.norm_nonneg c
  have us1 : u * sides h t ≤ 0.0001 * sides h t := by nlinarith
  have c1 : c.norm ≤ 1.01 * sides h t := by linarith
  have nsq : c.norm * c.norm = c.normSq := P3.norm_sq c
  have csq : c.normSq ≤ 17.5 * R ^ 4 := by
    rw [← nsq, R4]
    have : c.norm * c.norm ≤ (1.01 * (4.1 * R ^ 2)) * (1.01 * (4.1 * R ^ 2)) := mul_self_le_mul_self cn (by linarith)
    nlinarith
  obtain ⟨f1, f2⟩ := normSq_near H c (by linarith)
  rw [← nsq] at f1
  have rt : |Real.sqrt (normSq fl c) - c.norm| ≤ 3.1 * u * c.norm + 2.7 * u * h ^ 2 := by
    refine root_near cn (by linarith) (by positivity) (f1.trans ?_)
    have := H.under
    nlinarith [show 0 ≤ u ^ 2 * h ^ 4 by positivity]
  have uc : u * c.norm ≤ 1.01 * (u * sides h t) := by nlinarith
  have uh : u * h ^ 2 ≤ u * sides h t := mul_le_mul_of_nonneg_left sp2 u0
  have rt2 : |Real.sqrt (normSq fl c) - t.orthogonal.norm| ≤ 30.7 * u * sides h t := by
    have t1 := abs_sub_le (Real.sqrt (normSq fl c)) c.norm t.orthogonal.norm
    have t2 : |c.norm - t.orthogonal.norm| ≤ 24.7 * u * sides h t := abs_le.2 ⟨by linarith, by linarith⟩
    linarith
  have rt3 : |fl (Real.sqrt (normSq fl c)) - t.orthogonal.norm| ≤ 32.8 * u * sides h t :=
    H.near rt2 (by rwa [abs_of_nonneg on]) sp (by norm_num) (by linarith) (by norm_num)
  have so : |t.surface| ≤ sides h t / 2 := by
    unfold Tri3.surface
    rw [abs_of_nonneg (by linarith)]
    linarith
  refine ⟨_, by unfold triSurface; rw [hc]; simp only; rw [if_neg (not_lt.2 f2)], ?_, so⟩
  have h3 : h ^ 3 = h ^ 2 * h := by ring
  have h3' : h ^ 2 * h ≤ h ^ 2 * (1 / 100) := mul_le_mul_of_nonneg_left h1 (sq_nonneg h)
  refine H.near (c := 32.8) ?_ so (by linarith) (by norm_num) (by linarith) (by norm_num)
  unfold Tri3.surface
  rw [← sub_mul, abs_mul, abs_of_pos (by norm_num : (0 : ℝ) < 1 / 2)]
  linarith

theorem sum_le_of_le {T : Type} (l : List T) (w : T → ℝ) {b : ℝ} (hw : ∀ t ∈ l, w t ≤ b) : (l.map w).sum ≤ l.length * b := by
  induction l with
  | nil => simp
  | cons t l ih =>
    have a := hw t (by simp)
    have b := ih fun s hs => hw s (by simp [hs])
    simp only [List.map_cons, List.sum_cons, List.length_cons, Nat.cast_add, Nat.cast_one]
    linarith

theorem abs_sum_le {T : Type} (l : List T) (g w : T → ℝ) (hg : ∀ t ∈ l, |g t| ≤ w t) : |(l.map g).sum| ≤ (l.map w).sum := by
  induction l with
  | nil => simp
  | cons a l ih =>
    simp only [List.map_cons, List.sum_cons]
    exact (abs_add_le _ _).trans (add_le_add (hg a (by simp)) (ih fun s hs => hg s (by simp [hs])))

theorem foldlM_some {T A : Type} (f : A → T → A) (l : List T) (a : A) :
    l.foldlM (fun acc t => (some (f acc t) : Res A)) a = some (l.foldl f a) := by
  induction l generalizing a with
  | nil => rfl
  | cons t l ih => simp [List.foldlM_cons, ih]

theorem foldlM_congr {T A : Type} (f g : A → T → Res A) (l : List T) (hfg : ∀ t ∈ l, ∀ a, f a t = g a t) (a : A) :
    l.foldlM f a = l.foldlM g a := by
  induction l generalizing a with
  | nil => rfl
  | cons t l ih =>
    rw [List.foldlM_cons, List.foldlM_cons, hfg t (by simp)]
    congr 1
    funext b
    exact ih (fun s hs => hfg s (by simp [hs])) b

/-- **C115** the volume computed with rounding errors: `MeshMeasurements::volume` is off by at most
`(n + 60)/5` units in the last place of the sum, over the `n` triangles, of the distance of the
first corner from the origin times the lengths of the two edges there. -/
theorem volume_rounded (H : MeasureOK u η Ω h fl) (m : Mesh ℝ) (hm : m.OK) {R : ℝ} (hR : 1 ≤ R)
    (ht : ∀ t ∈ m.triangles, Inside R t) (hN : m.triangles.length * u ≤ 1 / 1000)
    (hΩ : (10 * m.triangles.length + 10) * R ^ 3 ≤ Ω) :
    ∃ V V', Measure.volume m = some V ∧ volume fl m = some V' ∧
      |V' - V| ≤ (m.triangles.length + 60) * u * (m.triangles.map (reach h)).sum / 5 := by
  have u0 := H.u0
  have u1 := H.u1
  have R3 : 1 ≤ R ^ 3 := one_le_pow₀ hR
  have hΩ1 : 10 * R ^ 3 ≤ Ω := by nlinarith [(Nat.cast_nonneg m.triangles.length : (0 : ℝ) ≤ _)]
  have T := fun t h' => volume_term H hR hΩ1 (ht t h')
  have W := sum_le_of_le m.triangles (reach h) fun t h' => (sides_le H hR (ht t h')).2.1
  have S := H.sum (fun t => t.p1.dot t.orthogonal) (fun t => dot fl t.p1 (orthogonal fl t)) (reach h) 53 (by norm_num) (by norm_num)
    m.triangles (fun t h' => (T t h').2) (fun t h' => (T t h').1) (fun t _ => (sides_pos H t).2.1) hN (by nlinarith)
  generalize hv : List.foldl (fun acc t => fl (acc + dot fl t.p1 (orthogonal fl t))) 0 m.triangles = v at S
  refine ⟨_, fl (v / 6), Mesh.volume_eq hm, ?_, ?_⟩
  · unfold volume
    rw [Mesh.foldLinked_eq hm, ← Mesh.triangles_eq m, foldlM_some, hv]
    rfl
  · rw [show Mesh.total (fun t : Tri3 ℝ => t.p1.dot t.orthogonal) m = (m.triangles.map fun t => t.p1.dot t.orthogonal).sum by
      rw [Mesh.triangles_eq m]; rfl]
    have G : |(m.triangles.map fun t => t.p1.dot t.orthogonal).sum| ≤ (m.triangles.map (reach h)).sum :=
      abs_sum_le _ _ _ fun t h' => (T t h').2
    by_cases he : m.triangles = []
    · rw [he] at hv ⊢
      subst hv
      simp [H.zero]
    have nη : η ≤ u * (m.triangles.map (reach h)).sum := by
      obtain ⟨t, l, e⟩ := List.exists_cons_of_ne_nil he
      refine H.eta ?_
      rw [e, List.map_cons, List.sum_cons]
      have : 0 ≤ (l.map (reach h)).sum := List.sum_nonneg fun x hx => by
        obtain ⟨s, -, rfl⟩ := List.mem_map.1 hx
        exact (pow_nonneg H.h0.le 3).trans (sides_pos H s).2.1
      linarith [(sides_pos H t).2.1]
    generalize (m.triangles.map fun t => t.p1.dot t.orthogonal).sum = V at *
    generalize (m.triangles.map (reach h)).sum = P at *
    have P0 : 0 ≤ P := (abs_nonneg V).trans G
    generalize hn : (m.triangles.length : ℝ) = n at *
    have n0 : 0 ≤ n := hn ▸ Nat.cast_nonneg _
    have uP := mul_nonneg u0 P0
    have c1 : (1.02 * n + 53 + 1) * u ≤ 0.005 := by nlinarith
    have c2 : (1.02 * n + 53 + 1) * u * P ≤ 0.005 * P := mul_le_mul_of_nonneg_right c1 P0
    have d : |v / 6 - V / 6| ≤ (1.02 * n + 53 + 1) * u * P / 6 := by
      rw [← sub_div, abs_div, abs_of_pos (by norm_num : (0 : ℝ) < 6)]
      exact div_le_div_of_nonneg_right S (by norm_num)
    have big : |v / 6| ≤ 1.01 * P / 6 := by
      have t1 := abs_add_le (v / 6 - V / 6) (V / 6)
      rw [sub_add_cancel] at t1
      have : |V / 6| ≤ P / 6 := by
        rw [abs_div, abs_of_pos (by norm_num : (0 : ℝ) < 6)]
        exact div_le_div_of_nonneg_right G (by norm_num)
      linarith
    have f := H.rounds.err (v / 6) (by nlinarith)
    have tri := abs_sub_le (fl (v / 6)) (v / 6) (V / 6)
    have b2 : u * |v / 6| ≤ u * (1.01 * P / 6) := mul_le_mul_of_nonneg_left big u0
    nlinarith [mul_nonneg n0 uP]

/-- **C115** the surface computed with rounding errors -/
theorem surface_rounded (H : MeasureOK u η Ω h fl) (m : Mesh ℝ) (hm : m.OK) {R : ℝ} (hR : 1 ≤ R)
    (ht : ∀ t ∈ m.triangles, Inside R t) (hN : m.triangles.length * u ≤ 1 / 1000)
    (hΩ : (10 * m.triangles.length + 100) * R ^ 4 ≤ Ω) :
    ∃ S S', Measure.surface m = some S ∧ surface fl m = some S' ∧
      |S' - S| ≤ (m.triangles.length + 20) * u * (m.triangles.map (sides h)).sum := by
  have u0 := H.u0
  have u1 := H.u1
  have R4 : 1 ≤ R ^ 4 := one_le_pow₀ hR
  have R2 : R ^ 2 ≤ R ^ 4 := pow_le_pow_right₀ hR (by norm_num)
  have n0 : (0 : ℝ) ≤ m.triangles.length := Nat.cast_nonneg _
  have nR := mul_nonneg n0 (by linarith : (0 : ℝ) ≤ R ^ 4)
  have hΩ1 : 100 * R ^ 4 ≤ Ω := by nlinarith
  have T := fun t h' => surface_term H hR hΩ1 (ht t h')
  have W := sum_le_of_le m.triangles (fun t => sides h t / 2) (b := 2.05 * R ^ 4) fun t h' => by
    have := (sides_le H hR (ht t h')).1
    linarith
  classical
  let g' : Tri3 ℝ → ℝ := fun t => (triSurface fl t).getD 0
  have hg' : ∀ t ∈ m.triangles, triSurface fl t = some (g' t) := fun t h' => by
    obtain ⟨s, e, -⟩ := T t h'
    simp [g', e]
  have T' : ∀ t ∈ m.triangles, |g' t - t.surface| ≤ 37 * u * (sides h t / 2) ∧ |t.surface| ≤ sides h t / 2 := fun t h' => by
    obtain ⟨s, e, r⟩ := T t h'
    simpa [g', e] using r
  have S := H.sum Tri3.surface g' (fun t => sides h t / 2) 37 (by norm_num) (by norm_num)
    m.triangles (fun t h' => (T' t h').2) (fun t h' => (T' t h').1)
    (fun t _ => by
      have h1 := H.h1
      have h3 : h ^ 3 = h ^ 2 * h := by ring
      have h3' : h ^ 2 * h ≤ h ^ 2 * (1 / 100) := mul_le_mul_of_nonneg_left h1 (sq_nonneg h)
      linarith [(sides_pos H t).2.2, sq_nonneg h]) hN (by nlinarith)
  refine ⟨_, m.triangles.foldl (fun acc t => fl (acc + g' t)) 0, Mesh.surface_eq hm, ?_, ?_⟩
  · unfold surface
    rw [Mesh.foldLinked_eq hm, ← Mesh.triangles_eq m, ← foldlM_some]
    refine foldlM_congr _ _ _ (fun t h' acc => ?_) _
    rw [hg' t h']
    rfl
  · rw [show Mesh.total Tri3.surface m = (m.triangles.map Tri3.surface).sum by rw [Mesh.triangles_eq m]; rfl]
    refine S.trans ?_
    have e : (m.triangles.map fun t => sides h t / 2).sum = (m.triangles.map (sides h)).sum / 2 := by
      simp only [div_eq_mul_inv, List.sum_map_mul_right]
    rw [e]
    have P0 : 0 ≤ (m.triangles.map (sides h)).sum := List.sum_nonneg fun x hx => by
      obtain ⟨s, -, rfl⟩ := List.mem_map.1 hx
      exact (sq_nonneg h).trans (sides_pos H s).2.2
    nlinarith [mul_nonneg u0 P0, mul_nonneg n0 (mul_nonneg u0 P0)]

/-- `double` -/
theorem measureOK_double : MeasureOK (2 ^ (-53 : ℤ)) (2 ^ (-1075 : ℤ)) (2 ^ (1023 : ℤ)) (2 ^ (-242 : ℤ)) double where
  rounds := ⟨fun x _ => by
    have := ieee_err (p := 53) (emin := -1074) x
    norm_num at this ⊢
    exact this⟩
  zero := ieee_zero
  nonneg := fun _ hx => ieee_nonneg hx
  u0 := by positivity
  u1 := by norm_num
  h0 := by positivity
  h1 := by norm_num
  under := by
    have e : ((2 : ℝ) ^ (-53 : ℤ)) ^ 2 * ((2 : ℝ) ^ (-242 : ℤ)) ^ 4 = 2 ^ (-1074 : ℤ) := by
      rw [← zpow_natCast, ← zpow_natCast, ← zpow_mul, ← zpow_mul, ← zpow_add₀ (by norm_num)]
      norm_num
    rw [e]
    exact zpow_le_zpow_right₀ (by norm_num) (by norm_num)

/-- **C115** for `double`: on a mesh of `n` triangles with corners within `R` of the origin the
volume is off by at most `(n + 60) n R³ 2⁻⁵³`, the surface by at most `5 (n + 20) n R² 2⁻⁵³`, and
the orientation is right when the volume is larger than its error. -/
theorem measures_double (m : Mesh ℝ) (hm : m.OK) {R : ℝ} (hR : 1 ≤ R) (hR' : R ≤ 2 ^ 200)
    (ht : ∀ t ∈ m.triangles, Inside R t) (hN : m.triangles.length ≤ 2 ^ 40) :
    ∃ V V' S S', Measure.volume m = some V ∧ volume double m = some V' ∧
      Measure.surface m = some S ∧ surface double m = some S' ∧
      |V' - V| ≤ (m.triangles.length + 60) * m.triangles.length * R ^ 3 * 2 ^ (-53 : ℤ) ∧
      |S' - S| ≤ 5 * (m.triangles.length + 20) * m.triangles.length * R ^ 2 * 2 ^ (-53 : ℤ) ∧
      ((m.triangles.length + 60) * m.triangles.length * R ^ 3 * 2 ^ (-53 : ℤ) ≤ V → isOrientedOutside double m = some true) ∧
      (V < -((m.triangles.length + 60) * m.triangles.length * R ^ 3 * 2 ^ (-53 : ℤ)) → isOrientedOutside double m = some false) := by
  have H := measureOK_double
  have n1 : (m.triangles.length : ℝ) ≤ 2 ^ 40 := by exact_mod_cast hN
  have n0 : (0 : ℝ) ≤ m.triangles.length := Nat.cast_nonneg _
  have R0 : 0 ≤ R := by linarith
  have q : (m.triangles.length : ℝ) * 2 ^ (-53 : ℤ) ≤ 1 / 1000 := by
    refine (mul_le_mul_of_nonneg_right n1 (by positivity)).trans ?_
    norm_num
  have o3 : (10 * m.triangles.length + 10) * R ^ 3 ≤ (2 : ℝ) ^ (1023 : ℤ) := by
    refine (mul_le_mul (show (10 * (m.triangles.length : ℝ) + 10) ≤ 2 ^ (50 : ℤ) by norm_num at n1 ⊢; linarith)
      (pow_le_pow_left₀ R0 hR' 3) (by positivity) (by positivity)).trans ?_
    rw [← pow_mul, ← zpow_natCast, ← zpow_add₀ (by norm_num)]
    exact zpow_le_zpow_right₀ (by norm_num) (by norm_num)
  have o4 : (10 * m.triangles.length + 100) * R ^ 4 ≤ (2 : ℝ) ^ (1023 : ℤ) := by
    refine (mul_le_mul (show (10 * (m.triangles.length : ℝ) + 100) ≤ 2 ^ (50 : ℤ) by norm_num at n1 ⊢; linarith)
      (pow_le_pow_left₀ R0 hR' 4) (by positivity) (by positivity)).trans ?_
    rw [← pow_mul, ← zpow_natCast, ← zpow_add₀ (by norm_num)]
    exact zpow_le_zpow_right₀ (by norm_num) (by norm_num)
  obtain ⟨V, V', e1, e2, e3⟩ := volume_rounded H m hm hR ht q o3
  obtain ⟨S, S', f1, f2, f3⟩ := surface_rounded H m hm hR ht q o4
  have w3 := sum_le_of_le m.triangles (reach (2 ^ (-242 : ℤ))) fun t h' => (sides_le H hR (ht t h')).2.1
  have w2 := sum_le_of_le m.triangles (sides (2 ^ (-242 : ℤ))) fun t h' => (sides_le H hR (ht t h')).1
  have pos : (0 : ℝ) < 2 ^ (-53 : ℤ) := by positivity
  have g : |V' - V| ≤ (m.triangles.length + 60) * m.triangles.length * R ^ 3 * 2 ^ (-53 : ℤ) := by
    refine e3.trans ?_
    generalize (2 : ℝ) ^ (-53 : ℤ) = v at *
    generalize (m.triangles.length : ℝ) = n at *
    have : (n + 60) * v * (m.triangles.map (reach (2 ^ (-242 : ℤ)))).sum ≤ (n + 60) * v * (n * (4.2 * R ^ 3)) :=
      mul_le_mul_of_nonneg_left w3 (by positivity)
    have : 0 ≤ (n + 60) * n * R ^ 3 * v := by positivity
    linarith
  refine ⟨V, V', S, S', e1, e2, f1, f2, g, ?_, fun hV => ?_, fun hV => ?_⟩
  · refine f3.trans ?_
    clear o3 o4 e3 g
    generalize (2 : ℝ) ^ (-53 : ℤ) = v at *
    generalize (m.triangles.length : ℝ) = n at *
    refine (mul_le_mul_of_nonneg_left w2 (by positivity)).trans ?_
    have e : (n + 20) * v * (n * (4.1 * R ^ 2)) = 4.1 * ((n + 20) * n * R ^ 2 * v) := by ring
    have e' : 5 * (n + 20) * n * R ^ 2 * v = 5 * ((n + 20) * n * R ^ 2 * v) := by ring
    have pos : 0 ≤ (n + 20) * n * R ^ 2 * v := by positivity
    rw [e, e']
    exact mul_le_mul_of_nonneg_right (by norm_num) pos
  · have : 0 ≤ V' := by linarith [(abs_le.1 g).1]
    simp [isOrientedOutside, e2, this]
  · have : V' < 0 := by linarith [(abs_le.1 g).2]
    simp [isOrientedOutside, e2, this]

/-- a tetrahedron of volume 1000/3 -/
example : ∃ m V', Factory.createTetrahedron (5 : ℝ) Mesh.new = some m ∧ volume double m = some V' ∧ |V' - 1000 / 3| ≤ 1 / 10000000000 ∧
    isOrientedOutside double m = some true := by
  obtain ⟨m, e, hp, ht⟩ := Factory.tetra_tris (5 : ℝ) Mesh.new
  obtain ⟨m2, e2, -, -, -, -, hv⟩ := Factory.tetrahedron_spec (5 : ℝ) Mesh.new
  obtain rfl : m = m2 := by rw [e] at e2; exact Option.some.inj e2
  have hl : m.triangles.length = 4 := by rw [ht]; rfl
  have near : ∀ x y z : ℝ, |x| = 5 → |y| = 5 → |z| = 5 → (⟨x, y, z⟩ : P3 ℝ).norm ≤ 10 := by
    intro x y z hx hy hz
    refine Real.sqrt_le_iff.2 ⟨by norm_num, ?_⟩
    have s : ∀ {a : ℝ}, |a| = 5 → a * a = 25 := fun {a} ha => by rw [← abs_mul_abs_self, ha]; norm_num
    simp only [s hx, s hy, s hz]
    norm_num
  obtain ⟨V, V', S, S', h1, h2, -, -, h3, -, h4, -⟩ := measures_double m hp.ok (R := 10) (by norm_num) (by norm_num)
    (by
      rw [ht]
      simp only [List.mem_cons, List.not_mem_nil, or_false]
      rintro t (rfl | rfl | rfl | rfl) <;> constructor <;> apply near <;> norm_num)
    (by rw [hl]; norm_num)
  rw [hv] at h1
  obtain rfl := Option.some.inj h1
  rw [hl] at h3 h4
  refine ⟨m, V', e, h2, ?_, h4 (by norm_num)⟩
  have e : (8 / 3 * 5 ^ 3 : ℝ) = 1000 / 3 := by norm_num
  rw [e] at h3
  refine h3.trans ?_
  norm_num

end Rounded
end CAD
