import Verif.Model.GeometryRounded
import Verif.Props.TransformRounded
import Verif.Props.TriTri
import Verif.Props.Triangle
import Verif.Props.Plane
import Mathlib.Tactic.Linarith
import Mathlib.Tactic.Ring
import Mathlib.Tactic.FieldSimp
import Mathlib.Tactic.LinearCombination
import Mathlib.Tactic.Positivity

/-! C126: planes, `contains` and the intersection tests in `double`. -/

namespace CAD
open Rounded Transform Real

namespace Appr
variable {u s s1 s2 e b x' x e1 b1 e2 b2 y' y : ℝ} {fl : ℝ → ℝ}

theorem times (u0 : 0 ≤ u) (u1 : u ≤ 1 / 1000000) (p1 : 0 ≤ s1) (p2 : 0 ≤ s2) (h : Appr u s1 e1 b1 x' x) (k : Appr u s2 e2 b2 y' y)
    (he1 : e1 ≤ 500) (he2 : e2 ≤ 500) : Appr u (s1 * s2) (e1 * b2 + b1 * e2 + 1) (b1 * b2) (x' * y') (x * y) := by
  obtain ⟨h1, h2⟩ := h
  obtain ⟨k1, k2⟩ := k
  have us1 : 0 ≤ u * s1 := mul_nonneg u0 p1
  have us2 : 0 ≤ u * s2 := mul_nonneg u0 p2
  have h3 : |x' - x| ≤ 500 * (u * s1) := h1.trans (mul_le_mul_of_nonneg_right he1 us1)
  have k3 : |y' - y| ≤ 500 * (u * s2) := k1.trans (mul_le_mul_of_nonneg_right he2 us2)
  constructor
  · have e : x' * y' - x * y = (x' - x) * (y' - y) + (x * (y' - y) + (x' - x) * y) := by ring
    have a1 := abs_add_le ((x' - x) * (y' - y)) (x * (y' - y) + (x' - x) * y)
    have a2 := abs_add_le (x * (y' - y)) ((x' - x) * y)
    rw [← e] at a1
    simp only [abs_mul] at a1 a2
    have q1 : |x' - x| * |y' - y| ≤ 500 * (u * s1) * (500 * (u * s2)) := mul_le_mul h3 k3 (abs_nonneg _) (by positivity)
    have q2 : |x| * |y' - y| ≤ b1 * s1 * (e2 * (u * s2)) := mul_le_mul h2 k1 (abs_nonneg _) ((abs_nonneg _).trans h2)
    have q3 : |x' - x| * |y| ≤ e1 * (u * s1) * (b2 * s2) := mul_le_mul h1 k2 (abs_nonneg _) ((abs_nonneg _).trans h1)
    have q4 : 500 * (u * s1) * (500 * (u * s2)) ≤ 1 * (u * (s1 * s2)) := by
      have : u * (u * (s1 * s2)) ≤ 1 / 1000000 * (u * (s1 * s2)) := mul_le_mul_of_nonneg_right u1 (by positivity)
      nlinarith only [this, mul_nonneg us1 p2]
    linarith only [a1, a2, q1, q2, q3, q4]
  · rw [abs_mul, show b1 * b2 * (s1 * s2) = b1 * s1 * (b2 * s2) by ring]
    exact mul_le_mul h2 k2 (abs_nonneg _) ((abs_nonneg _).trans h2)

end Appr

namespace Rounded

/-- a point of the cube of side `s` around the origin -/
structure InCube (s : ℝ) (p : P3 ℝ) : Prop where
  x : |p.x| ≤ s / 2
  y : |p.y| ≤ s / 2
  z : |p.z| ≤ s / 2

/-- every coordinate of `v'` approximates that of `v` -/
structure ApprP (u s e b : ℝ) (v' v : P3 ℝ) : Prop where
  x : Appr u s e b v'.x v.x
  y : Appr u s e b v'.y v.y
  z : Appr u s e b v'.z v.z

section
variable {u s : ℝ} {fl : ℝ → ℝ}

theorem ApprP.sub (F : FlAt u s fl) {p q : P3 ℝ} (x : |p.x - q.x| ≤ s) (y : |p.y - q.y| ≤ s) (z : |p.z - q.z| ≤ s) :
    ApprP u s 2 1 (sub fl p q) (p - q) := by
  have key : ∀ {a b : ℝ}, |a - b| ≤ s → Appr u s 2 1 (fl (a - b)) (a - b) := fun h =>
    ((Appr.exact (b := 1) (by linarith)).round F (by norm_num) (by norm_num)).weaken (mul_nonneg F.u0 F.s0.le) (by norm_num)
  exact ⟨key x, key y, key z⟩

theorem ApprP.cross (F : FlAt u s fl) (F2 : FlAt u (s * s) fl) {v v' w w' : P3 ℝ} (h : ApprP u s 2 1 v' v) (k : ApprP u s 2 1 w' w) :
    ApprP u (s * s) 17 2 (cross fl v' w') (v.cross w) := by
  have prod : ∀ {a a' b b' : ℝ}, Appr u s 2 1 a' a → Appr u s 2 1 b' b → Appr u (s * s) 7 1 (fl (a' * b')) (a * b) := fun ha hb => by
    have := (ha.times F.u0 F.u1 F.s0.le F.s0.le hb (by norm_num) (by norm_num)).round F2 (by norm_num) (by norm_num)
    norm_num at this; exact this
  have key : ∀ {a a' b b' c c' d d' : ℝ}, Appr u s 2 1 a' a → Appr u s 2 1 b' b → Appr u s 2 1 c' c → Appr u s 2 1 d' d →
      Appr u (s * s) 17 2 (fl (fl (a' * b') - fl (c' * d'))) (a * b - c * d) := fun ha hb hc hd => by
    have := ((prod ha hb).sub (prod hc hd)).round F2 (by norm_num) (by norm_num)
    norm_num at this; exact this
  exact ⟨key h.y k.z h.z k.y, key h.z k.x h.x k.z, key h.x k.y h.y k.x⟩

theorem ApprP.dot (F : FlAt u s fl) (F4 : FlAt u (s * s) fl) {v v' w w' : P3 ℝ} (h : ApprP u s 17 2 v' v) (k : ApprP u s 17 2 w' w) :
    Appr u (s * s) 244 12 (dot fl v' w') (v.dot w) := by
  have prod : ∀ {a a' b b' : ℝ}, Appr u s 17 2 a' a → Appr u s 17 2 b' b → Appr u (s * s) 74 4 (fl (a' * b')) (a * b) := fun ha hb => by
    have := (ha.times F.u0 F.u1 F.s0.le F.s0.le hb (by norm_num) (by norm_num)).round F4 (by norm_num) (by norm_num)
    norm_num at this; exact this
  have := ((((prod h.x k.x).add (prod h.y k.y)).round F4 (by norm_num) (by norm_num)).add (prod h.z k.z)).round F4 (by norm_num) (by norm_num)
  norm_num at this
  exact this

/-- the two numbers whose signs `contains` looks at -/
theorem contains_near (F : FlAt u s fl) (F2 : FlAt u (s * s) fl) (F4 : FlAt u (s * s * (s * s)) fl) {t : Tri3 ℝ} {q : P3 ℝ}
    (hd : ∀ p ∈ [t.p1, t.p2, t.p3], |p.x - q.x| ≤ s ∧ |p.y - q.y| ≤ s ∧ |p.z - q.z| ≤ s) :
    let a := t.p1 - q
    let b := t.p2 - q
    let c := t.p3 - q
    (244 * (u * (s * s * (s * s))) < (b.cross c).dot (c.cross a) → 244 * (u * (s * s * (s * s))) < (b.cross c).dot (a.cross b) →
      contains fl t q = true) ∧
    ((b.cross c).dot (c.cross a) < -(244 * (u * (s * s * (s * s)))) ∨ (b.cross c).dot (a.cross b) < -(244 * (u * (s * s * (s * s)))) →
      contains fl t q = false) := by
  intro a b c
  simp only [List.mem_cons, List.not_mem_nil, or_false, forall_eq_or_imp, forall_eq] at hd
  obtain ⟨⟨x1, y1, z1⟩, ⟨x2, y2, z2⟩, x3, y3, z3⟩ := hd
  have ha := ApprP.sub F x1 y1 z1
  have hb := ApprP.sub F x2 y2 z2
  have hc := ApprP.sub F x3 y3 z3
  have hu := hb.cross F F2 hc
  have hv := (hu.dot F2 F4 (hc.cross F F2 ha)).near
  have hw := (hu.dot F2 F4 (ha.cross F F2 hb)).near
  rw [abs_le] at hv hw
  constructor
  · intro h1 h2
    simp only [contains]
    rw [if_neg (by linarith [hv.1]), if_neg (by linarith [hw.1])]
  · intro h
    simp only [contains]
    rcases h with h | h
    · rw [if_pos (by linarith [hv.2])]
    · rw [if_pos (show dot fl (cross fl (sub fl t.p2 q) (sub fl t.p3 q)) (cross fl (sub fl t.p1 q) (sub fl t.p2 q)) < 0 by linarith [hw.2])]
      simp

/-- `normalized`, relative to the length `σ` of the vector -/
theorem normalized_unit {σ : ℝ} {v : P3 ℝ} (hσ : v.norm = σ) (F : FlAt u σ fl) (F2 : FlAt u (σ * σ) fl) (Fi : FlAt u (1 / σ) fl) (F1 : FlAt u 1 fl) :
    ∃ n, normalized fl v = some n ∧ |n.x - v.x / σ| ≤ 15 * u ∧ |n.y - v.y / σ| ≤ 15 * u ∧ |n.z - v.z / σ| ≤ 15 * u := by
  have u0 := F.u0
  have u1 := F.u1
  have σ0 := F.s0
  have hsq : v.x * v.x + v.y * v.y + v.z * v.z = σ * σ := by rw [← hσ]; exact (P3.norm_sq v).symm
  have bx : |v.x| ≤ 1 * σ := by rw [one_mul]; exact abs_le_of_sq_le_sq (by nlinarith [mul_self_nonneg v.y, mul_self_nonneg v.z]) σ0.le
  have by_ : |v.y| ≤ 1 * σ := by rw [one_mul]; exact abs_le_of_sq_le_sq (by nlinarith [mul_self_nonneg v.x, mul_self_nonneg v.z]) σ0.le
  have bz : |v.z| ≤ 1 * σ := by rw [one_mul]; exact abs_le_of_sq_le_sq (by nlinarith [mul_self_nonneg v.x, mul_self_nonneg v.y]) σ0.le
  have sq : ∀ {a : ℝ}, |a| ≤ 1 * σ → Appr u (σ * σ) 3 1 (fl (a * a)) (a * a) := fun h => by
    have := ((Appr.exact (u := u) h).times u0 u1 σ0.le σ0.le (Appr.exact h) (by norm_num) (by norm_num)).round F2 (by norm_num) (by norm_num)
    norm_num at this; exact this
  have s1 := ((((sq bx).add (sq by_)).bound (b1 := 1) (by
    rw [abs_of_nonneg (by nlinarith [mul_self_nonneg v.x, mul_self_nonneg v.y])]; nlinarith [mul_self_nonneg v.z])).round F2 (by norm_num) (by norm_num))
  have s2 := ((s1.add (sq bz)).bound (b1 := 1) (by rw [hsq, abs_of_nonneg (by positivity), one_mul])).round F2 (by norm_num) (by norm_num)
  rw [hsq] at s2
  have hS := s2.near
  norm_num at hS
  change |normSq fl v - σ * σ| ≤ _ at hS
  generalize hSd : normSq fl v = S at hS
  have us : u * σ ≤ 1 / 1000000 * σ := mul_le_mul_of_nonneg_right u1 σ0.le
  have us2 : u * (σ * σ) ≤ 1 / 1000000 * (σ * σ) := mul_le_mul_of_nonneg_right u1 (by positivity)
  have σσ : 0 < σ * σ := by positivity
  have S0 : 0 < S := by linarith [(abs_le.1 hS).1]
  have hr : |√S - σ| ≤ 13 * (u * σ) := by
    have r2 : √S * √S = S := Real.mul_self_sqrt S0.le
    have r0 := Real.sqrt_nonneg S
    have e : (√S - σ) * (√S + σ) = S - σ * σ := by linear_combination r2
    have h1 : |√S - σ| * (√S + σ) ≤ 13 * (u * (σ * σ)) := by
      rw [← abs_of_nonneg (show 0 ≤ √S + σ by linarith), ← abs_mul, e]; linarith
    have h2 : |√S - σ| * σ ≤ |√S - σ| * (√S + σ) := mul_le_mul_of_nonneg_left (by linarith) (abs_nonneg _)
    have h3 : |√S - σ| * σ ≤ 13 * (u * σ) * σ := by linarith
    exact le_of_mul_le_mul_right h3 σ0
  have hr' : |√S - σ| ≤ 7 * (u * σ) := by
    have r2 : √S * √S = S := Real.mul_self_sqrt S0.le
    have r0 := (abs_le.1 hr).1
    have e : (√S - σ) * (√S + σ) = S - σ * σ := by linear_combination r2
    have h1 : |√S - σ| * (√S + σ) ≤ 13 * (u * (σ * σ)) := by
      rw [← abs_of_nonneg (show 0 ≤ √S + σ by linarith), ← abs_mul, e]; linarith
    have h2 : |√S - σ| * (13 / 7 * σ) ≤ |√S - σ| * (√S + σ) := mul_le_mul_of_nonneg_left (by linarith) (abs_nonneg _)
    have h3 : |√S - σ| * σ ≤ 7 * (u * σ) * σ := by linarith
    exact le_of_mul_le_mul_right h3 σ0
  have hN := ((⟨hr', by rw [abs_of_pos σ0, one_mul]⟩ : Appr u σ 7 1 (√S) σ).round F (by norm_num) (by norm_num)).near
  norm_num at hN
  generalize hNd : fl (√S) = N at hN
  have N0 : 0.999 * σ ≤ N := by linarith [(abs_le.1 hN).1]
  have Npos : 0 < N := by linarith
  have hi : Appr u (1 / σ) 9.1 1 (1 / N) (1 / σ) := by
    refine ⟨?_, by rw [abs_of_pos (by positivity), one_mul]⟩
    have e : 1 / N - 1 / σ = (σ - N) / (N * σ) := by field_simp
    rw [e, abs_div, abs_of_pos (by positivity : 0 < N * σ), div_le_iff₀ (by positivity), abs_sub_comm]
    have : 9.1 * (u * (1 / σ)) * (N * σ) = 9.1 * u * N := by field_simp
    rw [this]
    have := mul_le_mul_of_nonneg_left N0 u0
    have := mul_nonneg u0 σ0.le
    linarith
  have hd := hi.round Fi (by norm_num) (by norm_num)
  have fin : ∀ {a : ℝ}, |a| ≤ 1 * σ → |fl (fl (1 / N) * a) - a / σ| ≤ 15 * u := fun {a} h => by
    have := hd.times u0 u1 (by positivity) σ0.le (Appr.exact h) (by norm_num) (by norm_num)
    rw [one_div_mul_cancel σ0.ne', one_div_mul_eq_div] at this
    exact (this.round F1 (by norm_num) (by norm_num)).near.trans (by linarith)
  refine ⟨scale fl (fl (1 / N)) v, ?_, fin bx, fin by_, fin bz⟩
  simp only [normalized, hSd]
  rw [if_neg (not_lt.2 S0.le), hNd, if_neg Npos.ne']


/-- `n·p` of the plane equation, for a normal of length about 1 -/
theorem eval_near (F : FlAt u s fl) {n p : P3 ℝ} {e b : ℝ} (n1 : |n.x| ≤ 1.01) (n2 : |n.y| ≤ 1.01) (n3 : |n.z| ≤ 1.01) {p' : P3 ℝ} (h : ApprP u s e b p' p)
    (b0 : 0 ≤ b) (he : e ≤ 2) (hb : b ≤ 1) :
    Appr u s (3 * (1.01 * e + 1.01 * b + 2) + 5.05 * b + 2) (3.03 * b)
      (fl (fl (fl (n.x * p'.x) + fl (n.y * p'.y)) + fl (n.z * p'.z))) (n.dot p) := by
  have us0 : 0 ≤ u * s := mul_nonneg F.u0 F.s0.le
  have prod : ∀ {a x x' : ℝ}, |a| ≤ 1.01 → Appr u s e b x' x → Appr u s (1.01 * e + 1.01 * b + 2) (1.01 * b) (fl (a * x')) (a * x) := fun {a x x'} ha hx => by
    have := (Appr.mul F.u0 F.u1 F.s0.le (Appr.exact (u := u) (s := 1) (by linarith : |a| ≤ 1.01 * 1)) hx (by norm_num) (by linarith)).round F
      (by nlinarith) (by nlinarith)
    exact this.weaken us0 (by linarith)
  have h1 := prod n1 h.x
  have h2 := prod n2 h.y
  have h3 := prod n3 h.z
  have := (((h1.add h2).round F (by nlinarith) (by nlinarith)).add h3).round F (by nlinarith) (by nlinarith)
  refine (this.weaken us0 ?_).bound ?_
  · linarith
  · have := this.size
    linarith

theorem distance_near (F : FlAt u s fl) {P : Plane3 ℝ} {p q : P3 ℝ} (n1 : |P.a| ≤ 1.01) (n2 : |P.b| ≤ 1.01) (n3 : |P.c| ≤ 1.01)
    (hd : P.d = -(fl (fl (fl (P.a * p.x) + fl (P.b * p.y)) + fl (P.c * p.z)))) (hp : InCube s p) (hq : InCube s q) :
    |distanceTo fl P q - P.normal.dot (q - p)| ≤ 33 * (u * s) := by
  have ap : ∀ {p : P3 ℝ}, InCube s p → ApprP u s 0 (1 / 2) p p := fun h => ⟨Appr.exact (by linarith [h.x]), Appr.exact (by linarith [h.y]), Appr.exact (by linarith [h.z])⟩
  have h1 := eval_near (n := P.normal) F n1 n2 n3 (ap hp) (by norm_num) (by norm_num) (by norm_num)
  have h2 := eval_near (n := P.normal) F n1 n2 n3 (ap hq) (by norm_num) (by norm_num) (by norm_num)
  have := ((h2.sub h1).round F (by norm_num) (by norm_num)).near
  have e : P.normal.dot q - P.normal.dot p = P.normal.dot (q - p) := by simp only [P3.dot, P3.sub_x, P3.sub_y, P3.sub_z]; ring
  rw [e] at this
  rw [distanceTo, hd, ← sub_eq_add_neg]
  refine this.trans (mul_le_mul_of_nonneg_right ?_ (mul_nonneg F.u0 F.s0.le))
  norm_num

theorem unit_near {v w : P3 ℝ} {δ : ℝ} (hv : 0 < v.norm) (hw : 0 < w.norm) (h : (w - v).norm ≤ δ) :
    ((1 / w.norm) • w - (1 / v.norm) • v).norm ≤ 2 * δ / v.norm := by
  have e : (1 / w.norm) • w - (1 / v.norm) • v = (1 / v.norm) • (w - v) + (1 / w.norm - 1 / v.norm) • w := by
    ext <;> simp <;> ring
  have n1 : |w.norm - v.norm| ≤ δ := by
    have a := norm_add_le v (w - v)
    have b := norm_sub_le w (w - v)
    rw [show v + (w - v) = w by ext <;> simp] at a
    rw [show w - (w - v) = v by ext <;> simp] at b
    rw [abs_le]; constructor <;> linarith
  rw [e]
  refine (norm_add_le _ _).trans ?_
  rw [P3.norm_smul, P3.norm_smul, abs_of_pos (by positivity : 0 < 1 / v.norm)]
  have e2 : |1 / w.norm - 1 / v.norm| * w.norm = |w.norm - v.norm| / v.norm := by
    rw [show 1 / w.norm - 1 / v.norm = -((w.norm - v.norm) / (v.norm * w.norm)) by field_simp; ring, abs_neg, abs_div, abs_of_pos (by positivity : 0 < v.norm * w.norm)]
    field_simp
  rw [e2, one_div_mul_eq_div, ← add_div]
  exact div_le_div_of_nonneg_right (by linarith) hv.le

end

/-- the sample triangles of this file: corners in the cube of side `s`, twice the area at least `κ s²` -/
structure Shape (s κ : ℝ) (t : Tri3 ℝ) : Prop where
  c1 : InCube s t.p1
  c2 : InCube s t.p2
  c3 : InCube s t.p3
  area : κ * (s * s) ≤ t.orthogonal.norm

theorem InCube.sub {s : ℝ} {p q : P3 ℝ} (h : InCube s p) (k : InCube s q) : |p.x - q.x| ≤ s ∧ |p.y - q.y| ≤ s ∧ |p.z - q.z| ≤ s := by
  have key : ∀ {a b : ℝ}, |a| ≤ s / 2 → |b| ≤ s / 2 → |a - b| ≤ s := fun ha hb => (abs_sub _ _).trans (by linarith)
  exact ⟨key h.x k.x, key h.y k.y, key h.z k.z⟩

theorem norm_le_of_coords {p : P3 ℝ} {e : ℝ} (x : |p.x| ≤ e) (y : |p.y| ≤ e) (z : |p.z| ≤ e) : p.norm ≤ 1.7321 * e := by
  have e0 : 0 ≤ e := (abs_nonneg _).trans x
  have hx := mul_self_le_mul_self (abs_nonneg _) x
  have hy := mul_self_le_mul_self (abs_nonneg _) y
  have hz := mul_self_le_mul_self (abs_nonneg _) z
  rw [abs_mul_abs_self] at hx hy hz
  have : p.norm * p.norm = p.x * p.x + p.y * p.y + p.z * p.z := P3.norm_sq p
  have n := P3.norm_nonneg p
  exact abs_le_of_sq_le_sq' (by nlinarith) (by positivity) |>.2

theorem coords_le_norm (p : P3 ℝ) : |p.x| ≤ p.norm ∧ |p.y| ≤ p.norm ∧ |p.z| ≤ p.norm := by
  have : p.norm * p.norm = p.x * p.x + p.y * p.y + p.z * p.z := P3.norm_sq p
  have n := P3.norm_nonneg p
  have := mul_self_nonneg p.x
  have := mul_self_nonneg p.y
  have := mul_self_nonneg p.z
  exact ⟨abs_le_of_sq_le_sq (by nlinarith) n, abs_le_of_sq_le_sq (by nlinarith) n, abs_le_of_sq_le_sq (by nlinarith) n⟩

theorem shape_small {s κ : ℝ} (s0 : 0 < s) {t : Tri3 ℝ} (T : Shape s κ t) : t.orthogonal.norm ≤ 3.1 * (s * s) ∧ κ ≤ 3.1 := by
  obtain ⟨x1, y1, z1⟩ := T.c1.sub T.c2
  obtain ⟨x2, y2, z2⟩ := T.c1.sub T.c3
  have n1 : (t.p1 - t.p2).norm ≤ 1.7321 * s := norm_le_of_coords x1 y1 z1
  have n2 : (t.p1 - t.p3).norm ≤ 1.7321 * s := norm_le_of_coords x2 y2 z2
  have h := (cross_norm_le (t.p1 - t.p2) (t.p1 - t.p3)).trans (mul_le_mul n1 n2 (P3.norm_nonneg _) (by positivity))
  have h' : t.orthogonal.norm ≤ 3.1 * (s * s) := by
    refine h.trans ?_
    nlinarith [mul_pos s0 s0]
  refine ⟨h', ?_⟩
  by_contra hk
  have := mul_lt_mul_of_pos_right (not_le.1 hk) (mul_pos s0 s0)
  linarith [T.area]

/-- sizes for which no over- or underflow matters: from `2⁻¹⁰⁰` to `2¹⁰⁰`, triangles not thinner than `2⁻³⁰` -/
structure Moderate (s κ : ℝ) : Prop where
  s0 : 2 ^ (-100 : ℤ) ≤ s
  s1 : s ≤ 2 ^ (100 : ℤ)
  k0 : 2 ^ (-30 : ℤ) ≤ κ

theorem Moderate.pos {s κ : ℝ} (M : Moderate s κ) : 0 < s ∧ 0 < κ :=
  ⟨lt_of_lt_of_le (by positivity) M.s0, lt_of_lt_of_le (by positivity) M.k0⟩

theorem scales_at {s : ℝ} (h0 : 2 ^ (-100 : ℤ) ≤ s) (h1 : s ≤ 2 ^ (101 : ℤ)) : FlAt (2 ^ (-53 : ℤ)) s double ∧ FlAt (2 ^ (-53 : ℤ)) (s * s) double ∧
    FlAt (2 ^ (-53 : ℤ)) (s * s * (s * s)) double := by
  have a : ∀ {m : ℤ} {x : ℝ}, 2 ^ (-m) ≤ x → 2 ^ (-(m + m)) ≤ x * x := fun {m x} h => by
    rw [neg_add, zpow_add₀ (by norm_num)]; exact mul_self_le_mul_self (by positivity) h
  have b : ∀ {m : ℤ} {x : ℝ}, 0 ≤ x → x ≤ 2 ^ m → x * x ≤ 2 ^ (m + m) := fun {m x} h0 h => by
    rw [zpow_add₀ (by norm_num)]; exact mul_self_le_mul_self h0 h
  have s0 : 0 < s := lt_of_lt_of_le (by positivity) h0
  have a1 := a h0
  have a2 := a a1
  have b1 := b s0.le h1
  have b2 := b (by positivity) b1
  have lo : ∀ {m : ℤ} {x : ℝ}, 2 ^ (-m) ≤ x → m ≤ 1000 → 2 ^ (-1000 : ℤ) ≤ x := fun h hm => (zpow_le_zpow_right₀ (by norm_num) (by omega)).trans h
  have hi : ∀ {m : ℤ} {x : ℝ}, x ≤ 2 ^ m → m ≤ 1001 → x ≤ 2 ^ (1001 : ℤ) := fun h hm => h.trans (zpow_le_zpow_right₀ (by norm_num) hm)
  exact ⟨double_at (lo h0 (by norm_num)) (hi h1 (by norm_num)), double_at (lo a1 (by norm_num)) (hi b1 (by norm_num)), double_at (lo a2 (by norm_num)) (hi b2 (by norm_num))⟩

theorem Moderate.at {s κ : ℝ} (M : Moderate s κ) : FlAt (2 ^ (-53 : ℤ)) s double ∧ FlAt (2 ^ (-53 : ℤ)) (s * s) double ∧
    FlAt (2 ^ (-53 : ℤ)) (s * s * (s * s)) double := scales_at M.s0 (M.s1.trans (zpow_le_zpow_right₀ (by norm_num) (by norm_num)))

/-- the plane of a triangle in `double` -/
theorem plane_near {s κ : ℝ} (M : Moderate s κ) {t : Tri3 ℝ} (T : Shape s κ t) :
    ∃ P, plane double t = some P ∧ (|P.a| ≤ 1.01 ∧ |P.b| ≤ 1.01 ∧ |P.c| ≤ 1.01) ∧
      P.d = -(double (double (double (P.a * t.p1.x) + double (P.b * t.p1.y)) + double (P.c * t.p1.z))) ∧
      (P.normal - (1 / t.orthogonal.norm) • t.orthogonal).norm ≤ 140 * (2 ^ (-53 : ℤ) / κ) := by
  obtain ⟨s0, k0⟩ := M.pos
  obtain ⟨F, F2, -⟩ := M.at
  obtain ⟨n3, k3⟩ := shape_small s0 T
  obtain ⟨x1, y1, z1⟩ := T.c1.sub T.c2
  obtain ⟨x2, y2, z2⟩ := T.c1.sub T.c3
  have hc := (ApprP.sub F x1 y1 z1).cross F F2 (ApprP.sub F x2 y2 z2)
  set N' := Rounded.cross double (Rounded.sub double t.p1 t.p2) (Rounded.sub double t.p1 t.p3) with hN'
  have ss : 0 < s * s := by positivity
  have hδ : (N' - t.orthogonal).norm ≤ 29.5 * (2 ^ (-53 : ℤ) * (s * s)) := by
    refine (norm_le_of_coords hc.x.near hc.y.near hc.z.near).trans ?_
    have : (0 : ℝ) ≤ 2 ^ (-53 : ℤ) * (s * s) := by positivity
    linarith
  have uk : (2 : ℝ) ^ (-53 : ℤ) ≤ κ / 2 ^ 23 := by
    refine le_trans ?_ (div_le_div_of_nonneg_right M.k0 (by positivity))
    norm_num
  have uks : (2 : ℝ) ^ (-53 : ℤ) * (s * s) ≤ κ / 2 ^ 23 * (s * s) := mul_le_mul_of_nonneg_right uk ss.le
  have ks : 0 < κ * (s * s) := by positivity
  have a := norm_add_le t.orthogonal (N' - t.orthogonal)
  have b := norm_sub_le N' (N' - t.orthogonal)
  rw [show t.orthogonal + (N' - t.orthogonal) = N' by ext <;> simp] at a
  rw [show N' - (N' - t.orthogonal) = t.orthogonal by ext <;> simp] at b
  have area := T.area
  have lo : κ * (s * s) / 2 ≤ N'.norm := by
    norm_num at uks
    linarith
  have hi : N'.norm ≤ 4 * (s * s) := by
    have : κ * (s * s) ≤ 3.1 * (s * s) := mul_le_mul_of_nonneg_right k3 ss.le
    norm_num at uks
    linarith
  have σ0 : 0 < N'.norm := by linarith
  have lo' : (2 : ℝ) ^ (-231 : ℤ) ≤ N'.norm := by
    refine le_trans ?_ lo
    have h1 : (2 : ℝ) ^ (-100 : ℤ) * 2 ^ (-100 : ℤ) ≤ s * s := mul_self_le_mul_self (by positivity) M.s0
    have h2 := mul_le_mul M.k0 h1 (by positivity) k0.le
    rw [← zpow_add₀ (by norm_num), ← zpow_add₀ (by norm_num)] at h2
    refine le_trans (le_of_eq ?_) (div_le_div_of_nonneg_right h2 (by norm_num : (0 : ℝ) ≤ 2))
    rw [eq_div_iff (by norm_num), ← zpow_add_one₀ (by norm_num)]
    norm_num
  have hi' : N'.norm ≤ (2 : ℝ) ^ (202 : ℤ) := by
    refine hi.trans ?_
    have h1 : s * s ≤ (2 : ℝ) ^ (100 : ℤ) * 2 ^ (100 : ℤ) := mul_self_le_mul_self s0.le M.s1
    rw [← zpow_add₀ (by norm_num)] at h1
    refine (mul_le_mul_of_nonneg_left h1 (by norm_num : (0 : ℝ) ≤ 4)).trans (le_of_eq ?_)
    rw [show (4 : ℝ) = 2 ^ (2 : ℤ) by norm_num, ← zpow_add₀ (by norm_num)]
    norm_num
  have G1 : FlAt (2 ^ (-53 : ℤ)) N'.norm double :=
    double_at ((zpow_le_zpow_right₀ (by norm_num) (by norm_num)).trans lo') (hi'.trans (zpow_le_zpow_right₀ (by norm_num) (by norm_num)))
  have G2 : FlAt (2 ^ (-53 : ℤ)) (N'.norm * N'.norm) double := by
    have h1 := mul_self_le_mul_self (by positivity) lo'
    have h2 := mul_self_le_mul_self σ0.le hi'
    rw [← zpow_add₀ (by norm_num)] at h1 h2
    exact double_at ((zpow_le_zpow_right₀ (by norm_num) (by norm_num)).trans h1) (h2.trans (zpow_le_zpow_right₀ (by norm_num) (by norm_num)))
  have Gi : FlAt (2 ^ (-53 : ℤ)) (1 / N'.norm) double := by
    have h1 := one_div_le_one_div_of_le σ0 hi'
    have h2 := one_div_le_one_div_of_le (by positivity) lo'
    rw [one_div, ← zpow_neg] at h1
    rw [one_div ((2 : ℝ) ^ _), ← zpow_neg] at h2
    exact double_at ((zpow_le_zpow_right₀ (by norm_num) (by norm_num)).trans h1) (h2.trans (zpow_le_zpow_right₀ (by norm_num) (by norm_num)))
  obtain ⟨n, hn, nx, ny, nz⟩ := normalized_unit rfl G1 G2 Gi double_at_one
  have bd : ∀ {a b : ℝ}, |a - b / N'.norm| ≤ 15 * 2 ^ (-53 : ℤ) → |b| ≤ N'.norm → |a| ≤ 1.01 := fun {a b} h k => by
    have h1 : |b / N'.norm| ≤ 1 := by rw [abs_div, abs_of_pos σ0, div_le_one σ0]; exact k
    have h2 := abs_add_le (a - b / N'.norm) (b / N'.norm)
    rw [sub_add_cancel] at h2
    have : (15 : ℝ) * 2 ^ (-53 : ℤ) ≤ 0.01 := by norm_num
    linarith
  obtain ⟨cx, cy, cz⟩ := coords_le_norm N'
  refine ⟨⟨n.x, n.y, n.z, -(double (double (double (n.x * t.p1.x) + double (n.y * t.p1.y)) + double (n.z * t.p1.z)))⟩, ?_, ⟨bd nx cx, bd ny cy, bd nz cz⟩, rfl, ?_⟩
  · simp only [plane, computeUsing, ← hN', hn]
  · have N0 : 0 < t.orthogonal.norm := ks.trans_le area
    have h1 := unit_near N0 σ0 hδ
    have h2 : (n - (1 / N'.norm) • N').norm ≤ 1.7321 * (15 * 2 ^ (-53 : ℤ)) := by
      refine norm_le_of_coords ?_ ?_ ?_
      · simpa [one_div_mul_eq_div, div_eq_inv_mul] using nx
      · simpa [one_div_mul_eq_div, div_eq_inv_mul] using ny
      · simpa [one_div_mul_eq_div, div_eq_inv_mul] using nz
    have h3 := norm_add_le (n - (1 / N'.norm) • N') ((1 / N'.norm) • N' - (1 / t.orthogonal.norm) • t.orthogonal)
    rw [show n - (1 / N'.norm) • N' + ((1 / N'.norm) • N' - (1 / t.orthogonal.norm) • t.orthogonal) = n - (1 / t.orthogonal.norm) • t.orthogonal by
      ext <;> simp] at h3
    change (n - (1 / t.orthogonal.norm) • t.orthogonal).norm ≤ _
    have h4 : 2 * (29.5 * (2 ^ (-53 : ℤ) * (s * s))) / t.orthogonal.norm ≤ 59 * (2 ^ (-53 : ℤ) / κ) := by
      refine (div_le_div_of_nonneg_left (by positivity) ks area).trans (le_of_eq ?_)
      field_simp; norm_num
    have h5 : (2 : ℝ) ^ (-53 : ℤ) ≤ 3.1 * (2 ^ (-53 : ℤ) / κ) := by
      rw [mul_div_assoc', le_div_iff₀ k0, mul_comm]
      exact mul_le_mul_of_nonneg_right k3 (by positivity)
    have h6 : (0 : ℝ) ≤ 2 ^ (-53 : ℤ) / κ := by positivity
    generalize (2 : ℝ) ^ (-53 : ℤ) / κ = w at *
    generalize (2 : ℝ) ^ (-53 : ℤ) = u at *
    linarith only [h1, h2, h3, h4, h5, h6]

/-- signed distance of a point from the plane of a triangle -/
noncomputable def _root_.CAD.Tri3.height (t : Tri3 ℝ) (q : P3 ℝ) : ℝ := t.orthogonal.dot (q - t.p1) / t.orthogonal.norm

/-- the error of a distance -/
noncomputable def slack (s κ : ℝ) : ℝ := 350 * (2 ^ (-53 : ℤ) / κ * s)

theorem Moderate.slack {s κ : ℝ} (M : Moderate s κ) (k3 : κ ≤ 3.1) : 0 < slack s κ ∧ 110 * (2 ^ (-53 : ℤ) * s) ≤ slack s κ := by
  obtain ⟨s0, k0⟩ := M.pos
  have h5 : (2 : ℝ) ^ (-53 : ℤ) ≤ 3.1 * (2 ^ (-53 : ℤ) / κ) := by
    rw [mul_div_assoc', le_div_iff₀ k0, mul_comm]
    exact mul_le_mul_of_nonneg_right k3 (by positivity)
  have h6 := mul_le_mul_of_nonneg_right h5 s0.le
  have h7 : 0 < (2 : ℝ) ^ (-53 : ℤ) / κ * s := by positivity
  unfold Rounded.slack
  constructor
  · linarith
  · linarith

/-- a plane computed in `double` for the triangle `t` -/
structure PlaneOf (s κ : ℝ) (t : Tri3 ℝ) (P : Plane3 ℝ) : Prop where
  n1 : |P.a| ≤ 1.01
  n2 : |P.b| ≤ 1.01
  n3 : |P.c| ≤ 1.01
  hd : P.d = -(double (double (double (P.a * t.p1.x) + double (P.b * t.p1.y)) + double (P.c * t.p1.z)))
  dir : (P.normal - (1 / t.orthogonal.norm) • t.orthogonal).norm ≤ 140 * (2 ^ (-53 : ℤ) / κ)

theorem plane_of {s κ : ℝ} (M : Moderate s κ) {t : Tri3 ℝ} (T : Shape s κ t) : ∃ P, plane double t = some P ∧ PlaneOf s κ t P := by
  obtain ⟨P, h, ⟨h1, h2, h3⟩, h4, h5⟩ := plane_near M T
  exact ⟨P, h, h1, h2, h3, h4, h5⟩

variable {s κ : ℝ} {t : Tri3 ℝ} {P : Plane3 ℝ}

theorem PlaneOf.dot_near (M : Moderate s κ) (hP : PlaneOf s κ t P) {v : P3 ℝ} (x : |v.x| ≤ s) (y : |v.y| ≤ s) (z : |v.z| ≤ s) :
    |P.normal.dot v - t.orthogonal.dot v / t.orthogonal.norm| ≤ 243 * (2 ^ (-53 : ℤ) / κ * s) := by
  obtain ⟨s0, k0⟩ := M.pos
  have e : P.normal.dot v - t.orthogonal.dot v / t.orthogonal.norm = (P.normal - (1 / t.orthogonal.norm) • t.orthogonal).dot v := by
    simp only [P3.dot, P3.sub_x, P3.sub_y, P3.sub_z, P3.smul_x, P3.smul_y, P3.smul_z]; ring
  rw [e]
  refine ((dot_le _ _).2.trans (mul_le_mul hP.dir (norm_le_of_coords x y z) (P3.norm_nonneg _) (by positivity))).trans ?_
  have : (0 : ℝ) ≤ 2 ^ (-53 : ℤ) / κ * s := by positivity
  linarith

theorem PlaneOf.distance (M : Moderate s κ) (T : Shape s κ t) (hP : PlaneOf s κ t P) {q : P3 ℝ} (hq : InCube s q) :
    |distanceTo double P q - t.height q| ≤ slack s κ := by
  obtain ⟨s0, k0⟩ := M.pos
  have k3 := (shape_small s0 T).2
  obtain ⟨x, y, z⟩ := hq.sub T.c1
  have h1 := distance_near M.at.1 hP.n1 hP.n2 hP.n3 hP.hd T.c1 hq
  have h2 := hP.dot_near M (v := q - t.p1) x y z
  have h3 := (M.slack k3).2
  have h4 := abs_add_le (distanceTo double P q - P.normal.dot (q - t.p1)) (P.normal.dot (q - t.p1) - t.orthogonal.dot (q - t.p1) / t.orthogonal.norm)
  rw [sub_add_sub_cancel] at h4
  change |distanceTo double P q - t.height q| ≤ _ at h4
  unfold slack at h3 ⊢
  have : (0 : ℝ) < 2 ^ (-53 : ℤ) / κ * s := by positivity
  generalize (2 : ℝ) ^ (-53 : ℤ) / κ * s = w at *
  generalize (2 : ℝ) ^ (-53 : ℤ) * s = u at *
  linarith only [h1, h2, h3, h4, this]

/-- **C126** `Plane3` in `double`: the plane of a triangle that is not too thin is defined, and `distance_to` is within
`slack` of the signed distance -/
theorem distance_double (M : Moderate s κ) (T : Shape s κ t) :
    ∃ P, plane double t = some P ∧ ∀ q, InCube s q → |distanceTo double P q - t.height q| ≤ slack s κ := by
  obtain ⟨P, h, hP⟩ := plane_of M T
  exact ⟨P, h, fun q hq => hP.distance M T hq⟩

/-- the speed along the segment -/
theorem PlaneOf.speed (M : Moderate s κ) (T : Shape s κ t) (hP : PlaneOf s κ t P) {g : Seg3 ℝ} (h1 : InCube s g.p1) (h2 : InCube s g.p2) :
    |double (double (double (P.a * double (g.p2.x - g.p1.x)) + double (P.b * double (g.p2.y - g.p1.y))) + double (P.c * double (g.p2.z - g.p1.z)))
      - (t.height g.p2 - t.height g.p1)| ≤ slack s κ := by
  obtain ⟨s0, k0⟩ := M.pos
  have k3 := (shape_small s0 T).2
  obtain ⟨x, y, z⟩ := h2.sub h1
  have a1 := (eval_near (n := P.normal) M.at.1 hP.n1 hP.n2 hP.n3 (ApprP.sub M.at.1 x y z) (by norm_num) (by norm_num) (by norm_num)).near
  have a2 := hP.dot_near M (v := g.p2 - g.p1) x y z
  have e : t.orthogonal.dot (g.p2 - g.p1) / t.orthogonal.norm = t.height g.p2 - t.height g.p1 := by
    rw [Tri3.height, Tri3.height, ← sub_div]
    congr 1
    simp only [P3.dot, P3.sub_x, P3.sub_y, P3.sub_z]; ring
  rw [e] at a2
  have h3 := (M.slack k3).2
  have h4 := abs_add_le (double (double (double (P.a * double (g.p2.x - g.p1.x)) + double (P.b * double (g.p2.y - g.p1.y))) + double (P.c * double (g.p2.z - g.p1.z)))
    - P.normal.dot (g.p2 - g.p1)) (P.normal.dot (g.p2 - g.p1) - (t.height g.p2 - t.height g.p1))
  rw [sub_add_sub_cancel] at h4
  refine h4.trans ((add_le_add a1 a2).trans ?_)
  unfold slack at h3 ⊢
  have : (0 : ℝ) < 2 ^ (-53 : ℤ) / κ * s := by positivity
  have : (0 : ℝ) < 2 ^ (-53 : ℤ) * s := by positivity
  linarith

theorem double_one : double 1 = 1 := by
  have := ieee_int (p := 53) (emin := -1074) (by norm_num) (k := 1) (by norm_num)
  simpa [double] using this

theorem double_nonpos {x : ℝ} (h : x ≤ 0) : double x ≤ 0 := by
  have := ieee_mono (p := 53) (emin := -1074) (by norm_num) h
  rwa [ieee_zero] at this

theorem one_le_double {x : ℝ} (h : 1 ≤ x) : 1 ≤ double x := by
  have := ieee_mono (p := 53) (emin := -1074) (by norm_num) h
  change double 1 ≤ double x at this
  rwa [double_one] at this

/-- the quotient that decides whether and where a segment meets a plane -/
theorem quotient_cases {E K U h1 h2 : ℝ} (E0 : 0 < E) (hK : |K - h1| ≤ E) (hU : |U - (h2 - h1)| ≤ E) (a1 : 4 * E ≤ |h1|) (a2 : 4 * E ≤ |h2|)
    (hu : 60 * (2 ^ (-53 : ℤ) * |h1 - h2|) ≤ E) :
    (0 < h1 * h2 → U = 0 ∨ double (-K / U) ≤ 0 ∨ 1 ≤ double (-K / U)) ∧
    (h1 * h2 < 0 → U ≠ 0 ∧ 0 < double (-K / U) ∧ double (-K / U) < 1 ∧ |double (-K / U) - h1 / (h1 - h2)| ≤ 2.4 * E / |h1 - h2|) := by
  rw [abs_le] at hK hU
  constructor
  · intro h
    by_cases U0 : U = 0
    · exact Or.inl U0
    right
    have key : -K / U ≤ 0 ∨ 1 ≤ -K / U := by
      rcases pos_and_pos_or_neg_and_neg_of_mul_pos h with ⟨p1, p2⟩ | ⟨p1, p2⟩
      · rw [abs_of_pos p1] at a1
        rw [abs_of_pos p2] at a2
        rcases lt_or_gt_of_ne U0 with hU0 | hU0
        · right; rw [le_div_iff_of_neg hU0]; linarith
        · left; exact div_nonpos_of_nonpos_of_nonneg (by linarith) hU0.le
      · rw [abs_of_neg p1] at a1
        rw [abs_of_neg p2] at a2
        rcases lt_or_gt_of_ne U0 with hU0 | hU0
        · left; exact div_nonpos_of_nonneg_of_nonpos (by linarith) hU0.le
        · right; rw [le_div_iff₀ hU0]; linarith
    exact key.imp double_nonpos one_le_double
  · intro h
    have hH : |h1 - h2| = |h1| + |h2| := by
      rcases mul_neg_iff.1 h with ⟨p1, p2⟩ | ⟨p1, p2⟩
      · rw [abs_of_pos p1, abs_of_neg p2, abs_of_pos (by linarith)]; ring
      · rw [abs_of_neg p1, abs_of_pos p2, abs_of_neg (by linarith)]; ring
    have H0 : 0 < |h1 - h2| := by linarith
    have d0 : h1 - h2 ≠ 0 := abs_pos.1 H0
    set H := |h1 - h2|
    set r := E / H with hr
    have rH : r * H = E := by rw [hr]; field_simp
    have r8 : r ≤ 1 / 8 := by rw [hr, div_le_div_iff₀ H0 (by norm_num)]; linarith
    have r0 : 0 < r := by positivity
    have t1 : h1 / (h1 - h2) = |h1| / H := by
      rw [← abs_div, abs_of_nonneg]
      rcases mul_neg_iff.1 h with ⟨p1, p2⟩ | ⟨p1, p2⟩
      · exact div_nonneg p1.le (by linarith)
      · exact div_nonneg_of_nonpos p1.le (by linarith)
    have t2 : 1 - h1 / (h1 - h2) = |h2| / H := by
      rw [t1, eq_div_iff H0.ne', sub_mul, div_mul_cancel₀ _ H0.ne']; linarith
    set T := h1 / (h1 - h2)
    have T0 : 4 * r ≤ T := by rw [t1, hr, mul_div_assoc']; exact div_le_div_of_nonneg_right a1 H0.le
    have T1 : 4 * r ≤ 1 - T := by rw [t2, hr, mul_div_assoc']; exact div_le_div_of_nonneg_right a2 H0.le
    have hUabs : 7 / 8 * H ≤ |U| := by
      have := abs_sub_abs_le_abs_sub (h2 - h1) U
      rw [abs_sub_comm h2 h1, abs_sub_comm _ U] at this
      have := abs_le.2 hU
      change H - |U| ≤ _ at *
      linarith
    have U0 : U ≠ 0 := abs_pos.1 (by linarith)
    have hq : |-K / U - T| ≤ 16 / 7 * r := by
      have hT : T * (h2 - h1) = -h1 := by
        change h1 / (h1 - h2) * (h2 - h1) = -h1
        field_simp; ring
      have e : -K / U - T = (-(K - h1) - T * (U - (h2 - h1))) / U := by
        rw [eq_div_iff U0, sub_mul, div_mul_cancel₀ _ U0]
        linear_combination -hT
      rw [e, abs_div, div_le_iff₀ (by linarith)]
      have n1 : |-(K - h1) - T * (U - (h2 - h1))| ≤ E + E := by
        refine (abs_sub _ _).trans (add_le_add ?_ ?_)
        · rw [abs_neg]; exact abs_le.2 hK
        · rw [abs_mul, abs_of_nonneg (by linarith)]
          have := abs_le.2 hU
          have := mul_le_mul_of_nonneg_right (show T ≤ 1 by linarith) (abs_nonneg (U - (h2 - h1)))
          linarith
      have := mul_le_mul_of_nonneg_left hUabs (show 0 ≤ 16 / 7 * r by positivity)
      nlinarith only [n1, this, rH]
    have hb : |-K / U| ≤ 2 := by
      have := abs_add_le (-K / U - T) T
      rw [sub_add_cancel, abs_of_nonneg (show 0 ≤ T by linarith)] at this
      linarith
    have hf := double_at_one.err (-K / U) (by linarith)
    have hur : (2 : ℝ) ^ (-53 : ℤ) ≤ r / 60 := by
      rw [hr, div_div, le_div_iff₀ (by positivity)]; linarith
    have hf' : |double (-K / U) - -K / U| ≤ 0.04 * r := by
      refine hf.trans ((mul_le_mul_of_nonneg_left (show |-K / U| + 1 / 4 ≤ 2.4 by linarith) (by positivity)).trans ?_)
      linarith
    have fin : |double (-K / U) - T| ≤ 2.4 * r := by
      have := abs_add_le (double (-K / U) - -K / U) (-K / U - T)
      rw [sub_add_sub_cancel] at this
      linarith
    refine ⟨U0, ?_, ?_, ?_⟩
    · linarith [(abs_le.1 fin).1]
    · linarith [(abs_le.1 fin).2]
    · rw [mul_div_assoc]; exact fin

/-- the point of a segment in the plane of a triangle -/
noncomputable def _root_.CAD.Tri3.cut (t : Tri3 ℝ) (g : Seg3 ℝ) : P3 ℝ := g.p1 + (t.height g.p1 / (t.height g.p1 - t.height g.p2)) • (g.p2 - g.p1)

theorem height_sub (T : Shape s κ t) (M : Moderate s κ) {p q : P3 ℝ} (hp : InCube s p) (hq : InCube s q) : |t.height p - t.height q| ≤ 1.7321 * s := by
  obtain ⟨s0, k0⟩ := M.pos
  have N0 : 0 < t.orthogonal.norm := lt_of_lt_of_le (by positivity) T.area
  obtain ⟨x, y, z⟩ := hp.sub hq
  have e : t.height p - t.height q = t.orthogonal.dot (p - q) / t.orthogonal.norm := by
    rw [Tri3.height, Tri3.height, ← sub_div]
    congr 1
    simp only [P3.dot, P3.sub_x, P3.sub_y, P3.sub_z]; ring
  rw [e, abs_div, abs_of_pos N0, div_le_iff₀ N0, mul_comm]
  exact (dot_le _ _).2.trans (mul_le_mul_of_nonneg_left (norm_le_of_coords x y z) N0.le)

/-- coordinates of two points differ by at most `e` -/
def CloseP (e : ℝ) (p q : P3 ℝ) : Prop := |p.x - q.x| ≤ e ∧ |p.y - q.y| ≤ e ∧ |p.z - q.z| ≤ e

theorem PlaneOf.segment (M : Moderate s κ) (T : Shape s κ t) (hP : PlaneOf s κ t P) {g : Seg3 ℝ} (h1 : InCube s g.p1) (h2 : InCube s g.p2)
    (a1 : 4 * slack s κ ≤ |t.height g.p1|) (a2 : 4 * slack s κ ≤ |t.height g.p2|) :
    (0 < t.height g.p1 * t.height g.p2 → planeSeg double P g = none) ∧
    (t.height g.p1 * t.height g.p2 < 0 → ∃ q, planeSeg double P g = some q ∧ InCube (1.001 * s) q ∧
      CloseP (3 * slack s κ / |t.height g.p1 - t.height g.p2| * s) q (t.cut g)) := by
  obtain ⟨s0, k0⟩ := M.pos
  have k3 := (shape_small s0 T).2
  obtain ⟨E0, hE⟩ := M.slack k3
  have F := M.at.1
  have hu0 : (0 : ℝ) < 2 ^ (-53 : ℤ) := by positivity
  have hu1 : (2 : ℝ) ^ (-53 : ℤ) ≤ 1 / 1000000 := F.u1
  have hH := height_sub T M h1 h2
  have hK := hP.distance M T h1
  have hU := hP.speed M T h1 h2
  obtain ⟨c1, c2⟩ := quotient_cases E0 hK hU a1 a2 (by
    have := mul_le_mul_of_nonneg_left hH hu0.le
    generalize (2 : ℝ) ^ (-53 : ℤ) = u at *
    linarith)
  constructor
  · intro h
    simp only [planeSeg]
    rcases c1 h with h0 | h0
    · rw [if_pos h0]
    · split_ifs with h3
      · rfl
      · rfl
      · exact absurd h0 ‹_›
  · intro h
    obtain ⟨d1, d2, d3, d4⟩ := c2 h
    have H0 : 0 < |t.height g.p1 - t.height g.p2| := abs_pos.2 (fun e => by
      rw [sub_eq_zero.1 e] at h; exact absurd h (not_lt.2 (mul_self_nonneg _)))
    have d1' := d1
    simp only [planeSeg]
    rw [if_neg d1', if_neg (by rw [not_or]; exact ⟨not_le.2 d2, not_le.2 d3⟩)]
    rw [distanceTo] at d2 d3 d4
    set τ := double (-double (double (double (double (P.a * g.p1.x) + double (P.b * g.p1.y)) + double (P.c * g.p1.z)) + P.d) /
      double (double (double (P.a * double (g.p2.x - g.p1.x)) + double (P.b * double (g.p2.y - g.p1.y))) + double (P.c * double (g.p2.z - g.p1.z))))
    set H := |t.height g.p1 - t.height g.p2|
    obtain ⟨x, y, z⟩ := h2.sub h1
    have pt : ∀ {a b : ℝ}, |a| ≤ s / 2 → |b - a| ≤ s → |double (a + double (τ * double (b - a))) - (a + τ * (b - a))| ≤ 8 * (2 ^ (-53 : ℤ) * s) := fun {a b} ha hb => by
      have e1 := (Appr.exact (u := 2 ^ (-53 : ℤ)) (b := 1) (by linarith : |b - a| ≤ 1 * s)).round F (by norm_num) (by norm_num)
      have e2 := (Appr.mul F.u0 F.u1 s0.le (Appr.exact (u := 2 ^ (-53 : ℤ)) (s := 1) (b := 1) (show |τ| ≤ 1 * 1 by rw [abs_of_pos d2, one_mul]; exact d3.le)) e1 (by norm_num) (by norm_num)).round F (by norm_num) (by norm_num)
      have e3 := ((Appr.exact (u := 2 ^ (-53 : ℤ)) (b := 1 / 2) (by linarith : |a| ≤ 1 / 2 * s)).add e2).round F (by norm_num) (by norm_num)
      refine e3.near.trans (mul_le_mul_of_nonneg_right (by norm_num) (by positivity))
    have hus : 8 * ((2 : ℝ) ^ (-53 : ℤ) * s) ≤ 0.0005 * s := by
      have := mul_le_mul_of_nonneg_right hu1 s0.le
      generalize (2 : ℝ) ^ (-53 : ℤ) = u at *
      linarith
    have big : 8 * ((2 : ℝ) ^ (-53 : ℤ) * s) ≤ 0.6 * slack s κ / H * s := by
      have h1 : 8 * (2 : ℝ) ^ (-53 : ℤ) ≤ 0.6 * slack s κ / H := by
        rw [le_div_iff₀ H0]
        have := mul_le_mul_of_nonneg_left hH hu0.le
        change _ * H ≤ _ at this
        generalize (2 : ℝ) ^ (-53 : ℤ) = u at *
        linarith
      have := mul_le_mul_of_nonneg_right h1 s0.le
      linarith
    have inc : ∀ {a b c : ℝ}, |a| ≤ s / 2 → |b| ≤ s / 2 → |c - (a + τ * (b - a))| ≤ 8 * (2 ^ (-53 : ℤ) * s) → |c| ≤ 1.001 * s / 2 := fun {a b c} ha hb hc => by
      have hc := hc.trans hus
      rw [abs_le] at ha hb hc ⊢
      have l1 : a + τ * (b - a) ≤ s / 2 := by nlinarith only [ha, hb, d2, d3]
      have l2 : -(s / 2) ≤ a + τ * (b - a) := by nlinarith only [ha, hb, d2, d3]
      constructor <;> linarith only [l1, l2, hc]
    have near : ∀ {a b c : ℝ}, |b - a| ≤ s → |c - (a + τ * (b - a))| ≤ 8 * (2 ^ (-53 : ℤ) * s) →
        |c - (a + t.height g.p1 / (t.height g.p1 - t.height g.p2) * (b - a))| ≤ 3 * slack s κ / H * s := fun {a b c} hb hc => by
      have e : c - (a + t.height g.p1 / (t.height g.p1 - t.height g.p2) * (b - a)) =
          (c - (a + τ * (b - a))) + (τ - t.height g.p1 / (t.height g.p1 - t.height g.p2)) * (b - a) := by ring
      rw [e]
      refine (abs_add_le _ _).trans ?_
      rw [abs_mul]
      have := mul_le_mul d4 hb (abs_nonneg _) (by positivity)
      have e2 : 3 * slack s κ / H * s = 0.6 * slack s κ / H * s + 2.4 * slack s κ / H * s := by ring
      rw [e2]
      exact add_le_add (hc.trans big) this
    exact ⟨_, rfl, ⟨inc h1.x h2.x (pt h1.x x), inc h1.y h2.y (pt h1.y y), inc h1.z h2.z (pt h1.z z)⟩,
      near x (pt h1.x x), near y (pt h1.y y), near z (pt h1.z z)⟩

/-- **C126** `Plane3::intersect_with` a segment in `double`, both ends of the segment clearly off the plane: the answer
is right and the point accurate -/
theorem plane_segment_double (M : Moderate s κ) (T : Shape s κ t) : ∃ P, plane double t = some P ∧ ∀ g : Seg3 ℝ, InCube s g.p1 → InCube s g.p2 →
    4 * slack s κ ≤ |t.height g.p1| → 4 * slack s κ ≤ |t.height g.p2| →
    (0 < t.height g.p1 * t.height g.p2 → planeSeg double P g = none) ∧
    (t.height g.p1 * t.height g.p2 < 0 → ∃ q, planeSeg double P g = some q ∧
      CloseP (3 * slack s κ / |t.height g.p1 - t.height g.p2| * s) q (t.cut g)) := by
  obtain ⟨P, h, hP⟩ := plane_of M T
  refine ⟨P, h, fun g h1 h2 a1 a2 => ?_⟩
  obtain ⟨c1, c2⟩ := hP.segment M T h1 h2 a1 a2
  refine ⟨c1, fun h => ?_⟩
  obtain ⟨q, k1, -, k2⟩ := c2 h
  exact ⟨q, k1, k2⟩

/-- **C126** `cutted_by` in `double`: right whenever all corners are clearly off the plane -/
theorem cutted_by_double (M : Moderate s κ) (T : Shape s κ t) : ∃ P, plane double t = some P ∧ ∀ r : Tri3 ℝ, InCube s r.p1 → InCube s r.p2 → InCube s r.p3 →
    slack s κ < |t.height r.p1| → slack s κ < |t.height r.p2| → slack s κ < |t.height r.p3| →
    (cuttedBy double r P = true ↔ (∃ p ∈ [r.p1, r.p2, r.p3], 0 < t.height p) ∧ ∃ p ∈ [r.p1, r.p2, r.p3], t.height p < 0) := by
  obtain ⟨P, h, hP⟩ := plane_of M T
  refine ⟨P, h, fun r h1 h2 h3 a1 a2 a3 => ?_⟩
  have sgn : ∀ {q : P3 ℝ}, InCube s q → slack s κ < |t.height q| → (0 < distanceTo double P q ↔ 0 < t.height q) ∧ (distanceTo double P q < 0 ↔ t.height q < 0) := by
    intro q hq ha
    have := abs_le.1 (hP.distance M T hq)
    rcases lt_abs.1 ha with h | h
    · exact ⟨⟨fun _ => by linarith, fun _ => by linarith⟩, ⟨fun _ => by linarith, fun _ => by linarith⟩⟩
    · exact ⟨⟨fun _ => by linarith, fun _ => by linarith⟩, ⟨fun _ => by linarith, fun _ => by linarith⟩⟩
  obtain ⟨p1, n1⟩ := sgn h1 a1
  obtain ⟨p2, n2⟩ := sgn h2 a2
  obtain ⟨p3, n3⟩ := sgn h3 a3
  simp only [List.mem_cons, List.not_mem_nil, or_false, exists_eq_or_imp, exists_eq_left, ← p1, ← p2, ← p3, ← n1, ← n2, ← n3, cuttedBy, Rounded.countSides,
    Bool.and_eq_true, decide_eq_true_eq]
  refine and_congr ?_ ?_
  · by_cases b1 : 0 < distanceTo double P r.p1 <;> by_cases b2 : 0 < distanceTo double P r.p2 <;> by_cases b3 : 0 < distanceTo double P r.p3 <;> simp [b1, b2, b3]
  · by_cases b1 : distanceTo double P r.p1 < 0 <;> by_cases b2 : distanceTo double P r.p2 < 0 <;> by_cases b3 : distanceTo double P r.p3 < 0 <;> simp [b1, b2, b3]

/-- the two numbers of `contains` in barycentric coordinates -/
theorem bary {t : Tri3 ℝ} {q : P3 ℝ} {a b c : ℝ} (h1 : a + b + c = 1) (hq : q = a • t.p1 + b • t.p2 + c • t.p3) :
    ((t.p2 - q).cross (t.p3 - q)).dot ((t.p3 - q).cross (t.p1 - q)) = a * b * (t.orthogonal.norm * t.orthogonal.norm) ∧
    ((t.p2 - q).cross (t.p3 - q)).dot ((t.p1 - q).cross (t.p2 - q)) = a * c * (t.orthogonal.norm * t.orthogonal.norm) := by
  obtain rfl : c = 1 - a - b := by linarith
  rw [P3.norm_sq, hq]
  constructor <;>
  · simp only [Tri3.orthogonal, P3.dot, P3.cross, P3.normSq, P3.sub_x, P3.sub_y, P3.sub_z, P3.add_x, P3.add_y, P3.add_z, P3.smul_x, P3.smul_y, P3.smul_z]
    ring

theorem area_sq (M : Moderate s κ) (T : Shape s κ t) {m x : ℝ} (m0 : 0 ≤ m) :
    (m / κ ^ 2 ≤ x → m * (s * s * (s * s)) ≤ x * (t.orthogonal.norm * t.orthogonal.norm)) ∧
    (x ≤ -(m / κ ^ 2) → x * (t.orthogonal.norm * t.orthogonal.norm) ≤ -(m * (s * s * (s * s)))) := by
  obtain ⟨s0, k0⟩ := M.pos
  have h := mul_self_le_mul_self (by positivity) T.area
  have key : ∀ {x : ℝ}, m / κ ^ 2 ≤ x → m * (s * s * (s * s)) ≤ x * (t.orthogonal.norm * t.orthogonal.norm) := fun {x} hx => by
    have := mul_le_mul hx h (by positivity) (le_trans (by positivity) hx)
    refine le_trans (le_of_eq ?_) this
    field_simp
  refine ⟨key, fun hx => ?_⟩
  have := key (x := -x) (by linarith)
  linarith

/-- **C126** `contains` in `double`: the answer for the point with barycentric coordinates `(a, b, c)`, given a margin -/
theorem contains_double (M : Moderate s κ) (T : Shape s κ t) {q : P3 ℝ} (hq : InCube s q) {a b c : ℝ} (h1 : a + b + c = 1) (hq' : q = a • t.p1 + b • t.p2 + c • t.p3) :
    (245 * (2 ^ (-53 : ℤ) / κ ^ 2) ≤ a * b → 245 * (2 ^ (-53 : ℤ) / κ ^ 2) ≤ a * c → contains double t q = true) ∧
    (a * b ≤ -(245 * (2 ^ (-53 : ℤ) / κ ^ 2)) ∨ a * c ≤ -(245 * (2 ^ (-53 : ℤ) / κ ^ 2)) → contains double t q = false) := by
  obtain ⟨s0, k0⟩ := M.pos
  obtain ⟨F, F2, F4⟩ := M.at
  obtain ⟨e1, e2⟩ := bary h1 hq'
  have key := contains_near F F2 F4 (t := t) (q := q) (by
    simp only [List.mem_cons, List.not_mem_nil, or_false, forall_eq_or_imp, forall_eq]
    exact ⟨T.c1.sub hq, T.c2.sub hq, T.c3.sub hq⟩)
  simp only [e1, e2] at key
  have pos : (0 : ℝ) < 2 ^ (-53 : ℤ) * (s * s * (s * s)) := by positivity
  have A := @area_sq _ _ _ M T (245 * 2 ^ (-53 : ℤ)) (a * b) (by positivity)
  have B := @area_sq _ _ _ M T (245 * 2 ^ (-53 : ℤ)) (a * c) (by positivity)
  rw [mul_div_assoc, mul_assoc 245] at A B
  generalize (2 : ℝ) ^ (-53 : ℤ) * (s * s * (s * s)) = w at *
  refine ⟨fun h k => key.1 ?_ ?_, fun h => key.2 (h.imp (fun h => ?_) (fun h => ?_))⟩
  · linarith [A.1 h]
  · linarith [B.1 k]
  · linarith [A.2 h]
  · linarith [B.2 h]

/-- how the numbers of `contains` change when the point moves -/
theorem contains_move {A δ : ℝ} {a b c a' b' c' : P3 ℝ} (A0 : 0 ≤ A) (d0 : 0 ≤ δ) (d : P3 ℝ) (hd : |d.x| ≤ δ ∧ |d.y| ≤ δ ∧ |d.z| ≤ δ)
    (ea : a' = a + d) (eb : b' = b + d) (ec : c' = c + d)
    (bd : ∀ p ∈ [a, b, c, a', b', c'], |p.x| ≤ A ∧ |p.y| ≤ A ∧ |p.z| ≤ A) :
    |(b'.cross c').dot (c'.cross a') - (b.cross c).dot (c.cross a)| ≤ 48 * (A * A * A * δ) ∧
    |(b'.cross c').dot (a'.cross b') - (b.cross c).dot (a.cross b)| ≤ 48 * (A * A * A * δ) := by
  simp only [List.mem_cons, List.not_mem_nil, or_false, forall_eq_or_imp, forall_eq] at bd
  obtain ⟨ba, bb, bc, ba', bb', bc'⟩ := bd
  have two : ∀ {x y z w X Y : ℝ}, |x| ≤ X → |y| ≤ Y → |z| ≤ X → |w| ≤ Y → |x * y - z * w| ≤ 2 * (X * Y) := fun {x y z w X Y} h1 h2 h3 h4 => by
    refine (abs_sub _ _).trans ?_
    rw [abs_mul, abs_mul]
    have := mul_le_mul h1 h2 (abs_nonneg _) ((abs_nonneg _).trans h1)
    have := mul_le_mul h3 h4 (abs_nonneg _) ((abs_nonneg _).trans h1)
    linarith
  have size : ∀ {p q : P3 ℝ} {X Y : ℝ}, (|p.x| ≤ X ∧ |p.y| ≤ X ∧ |p.z| ≤ X) → (|q.x| ≤ Y ∧ |q.y| ≤ Y ∧ |q.z| ≤ Y) →
      |(p.cross q).x| ≤ 2 * (X * Y) ∧ |(p.cross q).y| ≤ 2 * (X * Y) ∧ |(p.cross q).z| ≤ 2 * (X * Y) := fun ⟨x, y, z⟩ ⟨x', y', z'⟩ =>
    ⟨two y z' z y', two z x' x z', two x y' y x'⟩
  have plus : ∀ {p q : P3 ℝ} {X Y : ℝ}, (|p.x| ≤ X ∧ |p.y| ≤ X ∧ |p.z| ≤ X) → (|q.x| ≤ Y ∧ |q.y| ≤ Y ∧ |q.z| ≤ Y) →
      |(p + q).x| ≤ X + Y ∧ |(p + q).y| ≤ X + Y ∧ |(p + q).z| ≤ X + Y := fun ⟨x, y, z⟩ ⟨x', y', z'⟩ =>
    ⟨(abs_add_le _ _).trans (by linarith), (abs_add_le _ _).trans (by linarith), (abs_add_le _ _).trans (by linarith)⟩
  have scal : ∀ {p q : P3 ℝ} {X Y : ℝ}, (|p.x| ≤ X ∧ |p.y| ≤ X ∧ |p.z| ≤ X) → (|q.x| ≤ Y ∧ |q.y| ≤ Y ∧ |q.z| ≤ Y) →
      |p.dot q| ≤ 3 * (X * Y) := fun {p q X Y} ⟨x, y, z⟩ ⟨x', y', z'⟩ => by
    have h1 := mul_le_mul x x' (abs_nonneg _) ((abs_nonneg _).trans x)
    have h2 := mul_le_mul y y' (abs_nonneg _) ((abs_nonneg _).trans x)
    have h3 := mul_le_mul z z' (abs_nonneg _) ((abs_nonneg _).trans x)
    rw [← abs_mul] at h1 h2 h3
    have := abs_add_le (p.x * q.x + p.y * q.y) (p.z * q.z)
    have := abs_add_le (p.x * q.x) (p.y * q.y)
    unfold P3.dot
    linarith
  have cr : ∀ p q : P3 ℝ, (p + d).cross (q + d) = p.cross q + (p.cross d + d.cross q) := fun p q => by
    ext <;> simp only [P3.cross, P3.add_x, P3.add_y, P3.add_z] <;> ring
  have main : ∀ {p q r w p' q' r' w' : P3 ℝ}, p' = p + d → q' = q + d → r' = r + d → w' = w + d → (|p.x| ≤ A ∧ |p.y| ≤ A ∧ |p.z| ≤ A) →
      (|q.x| ≤ A ∧ |q.y| ≤ A ∧ |q.z| ≤ A) → (|r.x| ≤ A ∧ |r.y| ≤ A ∧ |r.z| ≤ A) → (|w.x| ≤ A ∧ |w.y| ≤ A ∧ |w.z| ≤ A) →
      (|p'.x| ≤ A ∧ |p'.y| ≤ A ∧ |p'.z| ≤ A) → (|q'.x| ≤ A ∧ |q'.y| ≤ A ∧ |q'.z| ≤ A) →
      |(p'.cross q').dot (r'.cross w') - (p.cross q).dot (r.cross w)| ≤ 48 * (A * A * A * δ) := by
    intro p q r w p' q' r' w' hp hq hr hw bp bq br bw bp' bq'
    have e : (p'.cross q').dot (r'.cross w') - (p.cross q).dot (r.cross w) = (p'.cross q').dot (r.cross d + d.cross w) + (p.cross d + d.cross q).dot (r.cross w) := by
      rw [hr, hw, cr, hp, hq, cr]
      simp only [P3.dot, P3.add_x, P3.add_y, P3.add_z]; ring
    rw [e]
    refine (abs_add_le _ _).trans ((add_le_add (scal (size bp' bq') (plus (size br hd) (size hd bw))) (scal (plus (size bp hd) (size hd bq)) (size br bw))).trans (le_of_eq ?_))
    ring
  exact ⟨main eb ec ec ea bb bc bc ba bb' bc', main eb ec ea eb bb bc ba bb bb' bc'⟩

/-- what a barycentric coordinate product must exceed for the intersection test with a segment of extent `H` across the plane -/
noncomputable def margin (s κ H : ℝ) : ℝ := 150 * slack s κ / H / κ ^ 2

theorem cut_inCube {g : Seg3 ℝ} (h1 : InCube s g.p1) (h2 : InCube s g.p2) (h : t.height g.p1 * t.height g.p2 < 0) : InCube s (t.cut g) := by
  have T0 : 0 ≤ t.height g.p1 / (t.height g.p1 - t.height g.p2) ∧ t.height g.p1 / (t.height g.p1 - t.height g.p2) ≤ 1 := by
    rcases mul_neg_iff.1 h with ⟨p1, p2⟩ | ⟨p1, p2⟩
    · exact ⟨div_nonneg p1.le (by linarith), (div_le_one (by linarith)).2 (by linarith)⟩
    · exact ⟨div_nonneg_of_nonpos p1.le (by linarith), (div_le_one_of_neg (by linarith)).2 (by linarith)⟩
  have key : ∀ {a b τ : ℝ}, |a| ≤ s / 2 → |b| ≤ s / 2 → 0 ≤ τ → τ ≤ 1 → |a + τ * (b - a)| ≤ s / 2 := fun {a b τ} ha hb t0 t1 => by
    rw [abs_le] at ha hb ⊢
    constructor <;> nlinarith only [ha, hb, t0, t1]
  exact ⟨key h1.x h2.x T0.1 T0.2, key h1.y h2.y T0.1 T0.2, key h1.z h2.z T0.1 T0.2⟩

/-- **C126** `Triangle3::intersect_with` a segment in `double`.  Both ends of the segment are clearly off the plane.  If they are on one
side, the answer is no.  Otherwise let `(a, b, c)` be the barycentric coordinates of the point where the segment meets the plane: the
answer is right when `a b` and `a c` are clearly not zero, and the computed point is accurate. -/
theorem tri_segment_double (M : Moderate s κ) (T : Shape s κ t) {g : Seg3 ℝ} (h1 : InCube s g.p1) (h2 : InCube s g.p2)
    (a1 : 4 * slack s κ ≤ |t.height g.p1|) (a2 : 4 * slack s κ ≤ |t.height g.p2|) :
    (0 < t.height g.p1 * t.height g.p2 → triSeg double t g = some none) ∧
    (t.height g.p1 * t.height g.p2 < 0 → ∀ a b c : ℝ, a + b + c = 1 → t.cut g = a • t.p1 + b • t.p2 + c • t.p3 →
      let m := margin s κ |t.height g.p1 - t.height g.p2|
      (m ≤ a * b → m ≤ a * c → ∃ q, triSeg double t g = some (some q) ∧ CloseP (3 * slack s κ / |t.height g.p1 - t.height g.p2| * s) q (t.cut g)) ∧
      (a * b ≤ -m ∨ a * c ≤ -m → triSeg double t g = some none)) := by
  obtain ⟨s0, k0⟩ := M.pos
  obtain ⟨E0, hE⟩ := M.slack (shape_small s0 T).2
  obtain ⟨P, h, hP⟩ := plane_of M T
  obtain ⟨c1, c2⟩ := hP.segment M T h1 h2 a1 a2
  constructor
  · intro hs
    simp only [triSeg, h, c1 hs]
  · intro hs a b c habc hcut m
    obtain ⟨q, hq, qc, near⟩ := c2 hs
    have cc := cut_inCube (t := t) h1 h2 hs
    have hH := height_sub T M h1 h2
    have H0 : 8 * slack s κ ≤ |t.height g.p1 - t.height g.p2| := by
      rcases mul_neg_iff.1 hs with ⟨p1, p2⟩ | ⟨p1, p2⟩
      · rw [abs_of_pos p1] at a1; rw [abs_of_neg p2] at a2; rw [abs_of_pos (by linarith)]; linarith
      · rw [abs_of_neg p1] at a1; rw [abs_of_pos p2] at a2; rw [abs_of_neg (by linarith)]; linarith
    set H := |t.height g.p1 - t.height g.p2|
    have Hp : 0 < H := by linarith
    set r := slack s κ / H with hr
    have r0 : 0 < r := by positivity
    have hur : (2 : ℝ) ^ (-53 : ℤ) ≤ 0.016 * r := by
      rw [hr, mul_div_assoc', le_div_iff₀ Hp]
      have := mul_le_mul_of_nonneg_left hH (show (0 : ℝ) ≤ 2 ^ (-53 : ℤ) by positivity)
      change _ * H ≤ _ at this
      generalize (2 : ℝ) ^ (-53 : ℤ) = u at *
      linarith
    have hs2 : 2 ^ (-100 : ℤ) ≤ 1.001 * s := M.s0.trans (by linarith)
    have hs3 : 1.001 * s ≤ 2 ^ (101 : ℤ) := by
      rw [show (101 : ℤ) = 1 + 100 by norm_num, zpow_add₀ (by norm_num), zpow_one]
      have := M.s1
      generalize (2 : ℝ) ^ (100 : ℤ) = w at *
      linarith
    obtain ⟨F, F2, F4⟩ := scales_at hs2 hs3
    have dq : ∀ {p : P3 ℝ}, InCube s p → |p.x - q.x| ≤ 1.001 * s ∧ |p.y - q.y| ≤ 1.001 * s ∧ |p.z - q.z| ≤ 1.001 * s := fun hp => by
      have key : ∀ {a b : ℝ}, |a| ≤ s / 2 → |b| ≤ 1.001 * s / 2 → |a - b| ≤ 1.001 * s := fun ha hb => (abs_sub _ _).trans (by linarith)
      exact ⟨key hp.x qc.x, key hp.y qc.y, key hp.z qc.z⟩
    have dc : ∀ {p : P3 ℝ}, InCube s p → |(p - t.cut g).x| ≤ 1.001 * s ∧ |(p - t.cut g).y| ≤ 1.001 * s ∧ |(p - t.cut g).z| ≤ 1.001 * s := fun hp => by
      obtain ⟨x, y, z⟩ := hp.sub cc
      exact ⟨x.trans (by linarith), y.trans (by linarith), z.trans (by linarith)⟩
    have key := contains_near F F2 F4 (t := t) (q := q) (by
      simp only [List.mem_cons, List.not_mem_nil, or_false, forall_eq_or_imp, forall_eq]
      exact ⟨dq T.c1, dq T.c2, dq T.c3⟩)
    have near' : CloseP (3 * (r * s)) q (t.cut g) := by
      have e : 3 * slack s κ / H * s = 3 * (r * s) := by rw [hr]; ring
      rwa [e] at near
    have mv := contains_move (A := 1.001 * s) (δ := 3 * (r * s)) (a := t.p1 - t.cut g) (b := t.p2 - t.cut g) (c := t.p3 - t.cut g)
      (a' := t.p1 - q) (b' := t.p2 - q) (c' := t.p3 - q) (by positivity) (by positivity) (t.cut g - q)
      (by
        obtain ⟨x, y, z⟩ := near'
        rw [abs_sub_comm] at x y z
        exact ⟨x, y, z⟩) (by ext <;> simp) (by ext <;> simp) (by ext <;> simp) (by
      simp only [List.mem_cons, List.not_mem_nil, or_false, forall_eq_or_imp, forall_eq]
      exact ⟨dc T.c1, dc T.c2, dc T.c3, dq T.c1, dq T.c2, dq T.c3⟩)
    obtain ⟨e1, e2⟩ := bary habc hcut
    rw [e1, e2] at mv
    obtain ⟨v1, v2⟩ := mv
    have A := @area_sq _ _ _ M T (150 * slack s κ / H) (a * b) (by positivity)
    have B := @area_sq _ _ _ M T (150 * slack s κ / H) (a * c) (by positivity)
    have eA : 150 * slack s κ / H * (s * s * (s * s)) = 150 * (r * (s * s * (s * s))) := by rw [hr]; ring
    rw [eA] at A B
    have w0 : 0 < r * (s * s * (s * s)) := by positivity
    have small : 244 * (2 ^ (-53 : ℤ) * (1.001 * s * (1.001 * s) * (1.001 * s * (1.001 * s)))) ≤ 4 * (r * (s * s * (s * s))) := by
      have := mul_le_mul_of_nonneg_right hur (show 0 ≤ s * s * (s * s) by positivity)
      generalize (2 : ℝ) ^ (-53 : ℤ) = u at *
      linarith
    have mv : 48 * (1.001 * s * (1.001 * s) * (1.001 * s) * (3 * (r * s))) ≤ 145 * (r * (s * s * (s * s))) := by linarith
    generalize 244 * ((2 : ℝ) ^ (-53 : ℤ) * (1.001 * s * (1.001 * s) * (1.001 * s * (1.001 * s)))) = w at *
    have v1 := abs_le.1 (v1.trans mv)
    have v2 := abs_le.1 (v2.trans mv)
    generalize r * (s * s * (s * s)) = y at *
    refine ⟨fun m1 m2 => ⟨q, ?_, near⟩, fun h3 => ?_⟩
    · have := key.1 (by linarith [A.1 m1]) (by linarith [B.1 m2])
      simp only [triSeg, h, hq, this, if_true]
    · have := key.2 (h3.imp (fun h3 => by linarith [A.2 h3]) (fun h3 => by linarith [B.2 h3]))
      simp [triSeg, h, hq, this]

/-! ### Two triangles -/

theorem exact_plane (N0 : 0 < t.orthogonal.norm) : ∃ p, t.plane = some p ∧ (∀ q, p.distanceTo q = t.height q) ∧
    ∀ v w : P3 ℝ, p.a * (v.x - w.x) + p.b * (v.y - w.y) + p.c * (v.z - w.z) = t.height v - t.height w := by
  refine ⟨⟨1 / t.orthogonal.norm * t.orthogonal.x, 1 / t.orthogonal.norm * t.orthogonal.y, 1 / t.orthogonal.norm * t.orthogonal.z,
    -(1 / t.orthogonal.norm * t.orthogonal.x * t.p1.x + 1 / t.orthogonal.norm * t.orthogonal.y * t.p1.y + 1 / t.orthogonal.norm * t.orthogonal.z * t.p1.z)⟩, ?_, ?_, ?_⟩
  · have e : (t.p1 - t.p2).cross (t.p1 - t.p3) = t.orthogonal := rfl
    simp only [Tri3.plane, Plane3.computeUsing, e, P3.normalized, if_neg N0.ne', P3.smul_x, P3.smul_y, P3.smul_z]
  · intro q
    simp only [Plane3.distanceTo, Tri3.height, P3.dot, P3.sub_x, P3.sub_y, P3.sub_z]
    field_simp; ring
  · intro v w
    simp only [Tri3.height, P3.dot, P3.sub_x, P3.sub_y, P3.sub_z]
    field_simp; ring

theorem exact_cutted {p : Plane3 ℝ} (hp : ∀ q, p.distanceTo q = t.height q) (r : Tri3 ℝ) :
    r.cuttedBy p = true ↔ (∃ p ∈ [r.p1, r.p2, r.p3], 0 < t.height p) ∧ ∃ p ∈ [r.p1, r.p2, r.p3], t.height p < 0 := by
  simp only [List.mem_cons, List.not_mem_nil, or_false, exists_eq_or_imp, exists_eq_left, Tri3.cuttedBy, Tri3.countSides, hp, Bool.and_eq_true, decide_eq_true_eq]
  refine and_congr ?_ ?_
  · by_cases b1 : 0 < t.height r.p1 <;> by_cases b2 : 0 < t.height r.p2 <;> by_cases b3 : 0 < t.height r.p3 <;> simp [b1, b2, b3]
  · by_cases b1 : t.height r.p1 < 0 <;> by_cases b2 : t.height r.p2 < 0 <;> by_cases b3 : t.height r.p3 < 0 <;> simp [b1, b2, b3]

theorem exact_seg (N0 : 0 < t.orthogonal.norm) (g : Seg3 ℝ) :
    (0 < t.height g.p1 * t.height g.p2 → t.intersectSeg g = some none) ∧
    (t.height g.p1 * t.height g.p2 < 0 → t.intersectSeg g = some (if t.contains (t.cut g) then some (t.cut g) else none)) := by
  obtain ⟨p, hp, hd, hs⟩ := exact_plane N0
  have hk : p.a * g.p1.x + p.b * g.p1.y + p.c * g.p1.z + p.d = t.height g.p1 := hd g.p1
  constructor
  · intro h
    have : p.intersectSeg g = none := by
      have := plane_segment_iff p g
      rw [hd, hd] at this
      rw [← Option.not_isSome_iff_eq_none, this]
      exact not_lt.2 h.le
    simp only [Tri3.intersectSeg, hp, this]
  · intro h
    have d0 : t.height g.p2 - t.height g.p1 ≠ 0 := fun e => by
      rw [sub_eq_zero.1 e] at h; exact absurd h (not_lt.2 (mul_self_nonneg _))
    have e : -t.height g.p1 / (t.height g.p2 - t.height g.p1) = t.height g.p1 / (t.height g.p1 - t.height g.p2) := by
      rw [← neg_sub (t.height g.p1), neg_div_neg_eq]
    have T0 : 0 < t.height g.p1 / (t.height g.p1 - t.height g.p2) ∧ t.height g.p1 / (t.height g.p1 - t.height g.p2) < 1 := by
      rcases mul_neg_iff.1 h with ⟨p1, p2⟩ | ⟨p1, p2⟩
      · exact ⟨div_pos p1 (by linarith), (div_lt_one (by linarith)).2 (by linarith)⟩
      · exact ⟨div_pos_of_neg_of_neg p1 (by linarith), (div_lt_one_of_neg (by linarith)).2 (by linarith)⟩
    have : p.intersectSeg g = some (t.cut g) := by
      simp only [Plane3.intersectSeg, hk, hs, e]
      rw [if_neg d0, if_neg (by rw [not_or]; exact ⟨not_le.2 T0.1, not_le.2 T0.2⟩)]
      rfl
    simp only [Tri3.intersectSeg, hp, this]

/-- a segment that meets the plane of `t` meets it clearly off the lines through its sides -/
def Clear (s κ : ℝ) (t : Tri3 ℝ) (g : Seg3 ℝ) : Prop :=
  t.height g.p1 * t.height g.p2 < 0 → ∀ a b c : ℝ, a + b + c = 1 → t.cut g = a • t.p1 + b • t.p2 + c • t.p3 →
    margin s κ |t.height g.p1 - t.height g.p2| ≤ |a * b| ∧ margin s κ |t.height g.p1 - t.height g.p2| ≤ |a * c|

/-- the corners of `r` are clearly off the plane of `t`, and its sides meet this plane clearly off the sides of `t` -/
structure Clearly (s κ : ℝ) (t r : Tri3 ℝ) : Prop where
  off : ∀ p ∈ [r.p1, r.p2, r.p3], 4 * slack s κ ≤ |t.height p|
  clear : ∀ g ∈ [(⟨r.p1, r.p2⟩ : Seg3 ℝ), ⟨r.p1, r.p3⟩, ⟨r.p2, r.p3⟩], Clear s κ t g

theorem orthogonal_ne (N0 : 0 < t.orthogonal.norm) : t.orthogonal ≠ 0 := fun e => by
  rw [e] at N0
  simp [P3.norm] at N0

theorem exists_bary (N0 : 0 < t.orthogonal.norm) {q : P3 ℝ} (h : t.height q = 0) : InPlaneOf t q := by
  rw [Tri3.inPlane_iff t (orthogonal_ne N0)]
  rw [Tri3.height, div_eq_zero_iff] at h
  exact h.resolve_right N0.ne'

theorem height_cut {g : Seg3 ℝ} (h : t.height g.p1 * t.height g.p2 < 0) : t.height (t.cut g) = 0 := by
  have d0 : t.height g.p1 - t.height g.p2 ≠ 0 := fun e => by
    rw [sub_eq_zero.1 e] at h; exact absurd h (not_lt.2 (mul_self_nonneg _))
  have e : ∀ τ : ℝ, t.height (g.p1 + τ • (g.p2 - g.p1)) = t.height g.p1 + τ * (t.height g.p2 - t.height g.p1) := fun τ => by
    simp only [Tri3.height, ← sub_div, mul_div_assoc', ← add_div]
    congr 1
    simp only [P3.dot, P3.sub_x, P3.sub_y, P3.sub_z, P3.add_x, P3.add_y, P3.add_z, P3.smul_x, P3.smul_y, P3.smul_z]; ring
  rw [Tri3.cut, e]
  field_simp
  ring

theorem exact_contains {q : P3 ℝ} {a b c : ℝ} (N0 : 0 < t.orthogonal.norm) (h1 : a + b + c = 1) (hq : q = a • t.p1 + b • t.p2 + c • t.p3) :
    (0 < a * b → 0 < a * c → t.contains q = true) ∧ (a * b < 0 ∨ a * c < 0 → t.contains q = false) := by
  obtain ⟨e1, e2⟩ := bary h1 hq
  have n : 0 < t.orthogonal.norm * t.orthogonal.norm := by positivity
  simp only [Tri3.contains, e1, e2]
  constructor
  · intro h k
    rw [if_neg (not_lt.2 (by positivity)), if_neg (not_lt.2 (by positivity))]
  · rintro (h | h)
    · rw [if_pos (mul_neg_of_neg_of_pos h n)]
    · rw [if_pos (mul_neg_of_neg_of_pos h n)]
      simp

theorem hits_double (M : Moderate s κ) (T : Shape s κ t) {g : Seg3 ℝ} (h1 : InCube s g.p1) (h2 : InCube s g.p2)
    (a1 : 4 * slack s κ ≤ |t.height g.p1|) (a2 : 4 * slack s κ ≤ |t.height g.p2|) (hc : Clear s κ t g) :
    hitsSeg double t g = t.hitsSeg g ∧ t.hitsSeg g ≠ none ∧ (t.hitsSeg g = some true → ∃ q, OnSegment g q ∧ InTriangle t q) := by
  obtain ⟨s0, k0⟩ := M.pos
  have N0 : 0 < t.orthogonal.norm := lt_of_lt_of_le (by positivity) T.area
  obtain ⟨E0, -⟩ := M.slack (shape_small s0 T).2
  obtain ⟨c1, c2⟩ := tri_segment_double M T h1 h2 a1 a2
  obtain ⟨x1, x2⟩ := exact_seg N0 g
  have ne : t.height g.p1 * t.height g.p2 ≠ 0 := mul_ne_zero (abs_pos.1 (by linarith)) (abs_pos.1 (by linarith))
  rcases lt_or_gt_of_ne ne with h | h
  · obtain ⟨a, b, c, habc, hq⟩ := exists_bary N0 (height_cut h)
    obtain ⟨d1, d2⟩ := c2 h a b c habc hq
    obtain ⟨m1, m2⟩ := hc h a b c habc hq
    have H0 : 0 < |t.height g.p1 - t.height g.p2| := abs_pos.2 (fun e => by
      rw [sub_eq_zero.1 e] at h; exact absurd h (not_lt.2 (mul_self_nonneg _)))
    have m0 : 0 < margin s κ |t.height g.p1 - t.height g.p2| := by unfold margin; positivity
    set m := margin s κ |t.height g.p1 - t.height g.p2|
    obtain ⟨y1, y2⟩ := exact_contains N0 habc hq
    have x2 := x2 h
    rcases le_abs.1 m1 with p1 | p1
    · rcases le_abs.1 m2 with p2 | p2
      · obtain ⟨q, hq1, -⟩ := d1 p1 p2
        rw [y1 (by linarith) (by linarith), if_pos rfl] at x2
        refine ⟨by simp [hitsSeg, Tri3.hitsSeg, hq1, x2], by simp [Tri3.hitsSeg, x2], fun _ => ⟨t.cut g, ?_, a, b, c, ?_, ?_, ?_, habc, hq⟩⟩
        · refine ⟨_, ?_, ?_, rfl⟩
          · rcases mul_neg_iff.1 h with ⟨p1, p2⟩ | ⟨p1, p2⟩
            · exact div_nonneg p1.le (by linarith)
            · exact div_nonneg_of_nonpos p1.le (by linarith)
          · rcases mul_neg_iff.1 h with ⟨p1, p2⟩ | ⟨p1, p2⟩
            · exact (div_le_one (by linarith)).2 (by linarith)
            · exact (div_le_one_of_neg (by linarith)).2 (by linarith)
        all_goals
          have q1 : 0 < a * b := by linarith
          have q2 : 0 < a * c := by linarith
          rcases pos_and_pos_or_neg_and_neg_of_mul_pos q1 with ⟨r1, r2⟩ | ⟨r1, r2⟩
          · have r3 := (mul_pos_iff_of_pos_left r1).1 q2
            linarith
          · have r3 : c < 0 := by
              by_contra hc
              exact absurd q2 (not_lt.2 (mul_nonpos_of_nonpos_of_nonneg r1.le (not_lt.1 hc)))
            linarith
      · have := d2 (Or.inr (by linarith))
        rw [y2 (Or.inr (by linarith)), if_neg (by simp)] at x2
        simp [hitsSeg, Tri3.hitsSeg, this, x2]
    · have := d2 (Or.inl (by linarith))
      rw [y2 (Or.inl (by linarith)), if_neg (by simp)] at x2
      simp [hitsSeg, Tri3.hitsSeg, this, x2]
  · simp [hitsSeg, Tri3.hitsSeg, c1 h, x1 h]

/-- **C126** `Triangle3::intersect_with` another triangle in `double`: for triangles in general position with a margin the answer is that of
exact arithmetic, and it is true if and only if the triangles have a common point -/
theorem tri_tri_double {r : Tri3 ℝ} (M : Moderate s κ) (R : Shape s κ r) (T : Shape s κ t) (h1 : Clearly s κ t r) (h2 : Clearly s κ r t) :
    intersectTri double r t = r.intersectTri t ∧ ∃ b, r.intersectTri t = some b ∧ (b = true ↔ ∃ q, InTriangle r q ∧ InTriangle t q) := by
  obtain ⟨s0, k0⟩ := M.pos
  obtain ⟨E0, -⟩ := M.slack (shape_small s0 T).2
  have Nt : 0 < t.orthogonal.norm := lt_of_lt_of_le (by positivity) T.area
  have Nr : 0 < r.orthogonal.norm := lt_of_lt_of_le (by positivity) R.area
  obtain ⟨off1, clear1⟩ := h1
  obtain ⟨off2, clear2⟩ := h2
  have coll : ∀ {t : Tri3 ℝ}, 0 < t.orthogonal.norm → ¬ Collinear3 t.p1 t.p2 t.p3 := fun h k => orthogonal_ne h ((Tri3.orthogonal_eq_zero_iff _).2 k)
  have npl : ∀ {t : Tri3 ℝ} {q : P3 ℝ}, 0 < t.orthogonal.norm → 4 * slack s κ ≤ |t.height q| → ¬ InPlaneOf t q := fun {t q} h k hq => by
    have e : t.height q = 0 := by rw [Tri3.height, Tri3.dot_orthogonal_of_inPlane t hq, zero_div]
    rw [e, abs_zero] at k
    linarith
  have gen1 : ∀ q ∈ [r.p1, r.p2, r.p3], ¬ InPlaneOf t q := fun q hq => npl Nt (off1 q hq)
  have gen2 : ∀ q ∈ [t.p1, t.p2, t.p3], ¬ InPlaneOf r q := fun q hq => npl Nr (off2 q hq)
  simp only [List.mem_cons, List.not_mem_nil, or_false, forall_eq_or_imp, forall_eq] at off1 off2 clear1 clear2
  have u1 := hits_double M R (g := ⟨t.p1, t.p2⟩) T.c1 T.c2 off2.1 off2.2.1 clear2.1
  have u2 := hits_double M R (g := ⟨t.p1, t.p3⟩) T.c1 T.c3 off2.1 off2.2.2 clear2.2.1
  have u3 := hits_double M R (g := ⟨t.p2, t.p3⟩) T.c2 T.c3 off2.2.1 off2.2.2 clear2.2.2
  have v1 := hits_double M T (g := ⟨r.p1, r.p2⟩) R.c1 R.c2 off1.1 off1.2.1 clear1.1
  have v2 := hits_double M T (g := ⟨r.p1, r.p3⟩) R.c1 R.c3 off1.1 off1.2.2 clear1.2.1
  have v3 := hits_double M T (g := ⟨r.p2, r.p3⟩) R.c2 R.c3 off1.2.1 off1.2.2 clear1.2.2
  obtain ⟨PB, hPB, cB⟩ := cutted_by_double M T
  obtain ⟨PA, hPA, cA⟩ := cutted_by_double M R
  obtain ⟨pB, hpB, dB, -⟩ := exact_plane Nt
  obtain ⟨pA, hpA, dA, -⟩ := exact_plane Nr
  have cB : cuttedBy double r PB = r.cuttedBy pB := by
    rw [Bool.eq_iff_iff, exact_cutted dB]
    exact cB r R.c1 R.c2 R.c3 (by linarith [off1.1]) (by linarith [off1.2.1]) (by linarith [off1.2.2])
  have cA : cuttedBy double t PA = t.cuttedBy pA := by
    rw [Bool.eq_iff_iff, exact_cutted dA]
    exact cA t T.c1 T.c2 T.c3 (by linarith [off2.1]) (by linarith [off2.2.1]) (by linarith [off2.2.2])
  constructor
  · simp only [intersectTri, Tri3.intersectTri, hPA, hPB, hpA, hpB, cA, cB, u1.1, u2.1, u3.1, v1.1, v2.1, v3.1]
  · obtain ⟨b, e, hb⟩ := Tri3.intersectTri_eq (coll Nr) (coll Nt) hpA hpB
    refine ⟨b, e, fun h => ?_, fun ⟨q, q1, q2⟩ => ?_⟩
    · obtain ⟨_, _, _, h5⟩ := hb.1 h
      have side : ∀ {t : Tri3 ℝ} {g : Seg3 ℝ} {q : P3 ℝ}, g ∈ t.edges → OnSegment g q → InTriangle t q := by
        rintro t g q hg ⟨τ, t0, t1, rfl⟩
        simp only [Tri3.edges, List.mem_cons, List.not_mem_nil, or_false] at hg
        rcases hg with rfl | rfl | rfl
        · exact ⟨1 - τ, τ, 0, by linarith, t0, le_rfl, by ring, by ext <;> simp <;> ring⟩
        · exact ⟨1 - τ, 0, τ, by linarith, le_rfl, t0, by ring, by ext <;> simp <;> ring⟩
        · exact ⟨0, 1 - τ, τ, le_rfl, by linarith, t0, by ring, by ext <;> simp <;> ring⟩
      rcases h5 with ⟨g, hg, hh⟩ | ⟨g, hg, hh⟩
      · have : ∃ q, OnSegment g q ∧ InTriangle r q := by
          simp only [Tri3.edges, List.mem_cons, List.not_mem_nil, or_false] at hg
          rcases hg with rfl | rfl | rfl
          · exact u1.2.2 hh
          · exact u2.2.2 hh
          · exact u3.2.2 hh
        obtain ⟨q, k1, k2⟩ := this
        exact ⟨q, k2, side hg k1⟩
      · have : ∃ q, OnSegment g q ∧ InTriangle t q := by
          simp only [Tri3.edges, List.mem_cons, List.not_mem_nil, or_false] at hg
          rcases hg with rfl | rfl | rfl
          · exact v1.2.2 hh
          · exact v2.2.2 hh
          · exact v3.2.2 hh
        obtain ⟨q, k1, k2⟩ := this
        exact ⟨q, side hg k1, k2⟩
    · have := tri_tri_complete_general r t (coll Nr) (coll Nt) gen1 gen2 q q1 q2
      rw [e, Option.some.injEq] at this
      exact this

/-- **C126** `project_point` in `double`: within `2 slack` of the foot of the perpendicular -/
theorem project_double (M : Moderate s κ) (T : Shape s κ t) : ∃ P, plane double t = some P ∧ ∀ q, InCube s q →
    CloseP (2 * slack s κ) (projectPoint double P q) (q - (t.height q / t.orthogonal.norm) • t.orthogonal) := by
  obtain ⟨P, h, hP⟩ := plane_of M T
  refine ⟨P, h, fun q hq => ?_⟩
  obtain ⟨s0, k0⟩ := M.pos
  have k3 := (shape_small s0 T).2
  obtain ⟨E0, hE⟩ := M.slack k3
  have F := M.at.1
  have N0 : 0 < t.orthogonal.norm := lt_of_lt_of_le (by positivity) T.area
  have hd := hP.distance M T hq
  have e : double (dot double P.normal q + P.d) = distanceTo double P q := rfl
  have hh : |t.height q| ≤ 1.7321 * s := by
    have := height_sub T M hq T.c1
    have z : t.height t.p1 = 0 := by simp [Tri3.height, P3.dot]
    rwa [z, sub_zero] at this
  have hslack : slack s κ ≤ 0.001 * s := by
    unfold slack
    have : (2 : ℝ) ^ (-53 : ℤ) / κ ≤ 1 / 2 ^ 23 := by
      rw [div_le_iff₀ k0]
      refine le_trans ?_ (mul_le_mul_of_nonneg_left M.k0 (by positivity))
      norm_num
    have := mul_le_mul_of_nonneg_right this s0.le
    norm_num at this ⊢
    linarith
  simp only [projectPoint, e]
  set D := distanceTo double P q
  have hD : |D| ≤ 1.74 * s := by
    have := abs_add_le (D - t.height q) (t.height q)
    rw [sub_add_cancel] at this
    linarith
  have w0 : (0 : ℝ) < 2 ^ (-53 : ℤ) * s := by positivity
  have key : ∀ {a n m : ℝ}, |a| ≤ s / 2 → |n| ≤ 1.01 → |n - m / t.orthogonal.norm| ≤ 140 * (2 ^ (-53 : ℤ) / κ) →
      |double (a - double (D * n)) - (a - t.height q / t.orthogonal.norm * m)| ≤ 2 * slack s κ := fun {a n m} ha hn hm => by
    have e1 := (Appr.mul' F.u0 F.u1 s0.le (Appr.exact (u := 2 ^ (-53 : ℤ)) hD) (Appr.exact (u := 2 ^ (-53 : ℤ)) (s := 1) (by linarith : |n| ≤ 1.01 * 1))
      (by norm_num) (by norm_num)).round F (by norm_num) (by norm_num)
    have e2 := ((Appr.exact (u := 2 ^ (-53 : ℤ)) (b := 1 / 2) (by linarith : |a| ≤ 1 / 2 * s)).sub e1).round F (by norm_num) (by norm_num)
    have e3 : |double (a - double (D * n)) - (a - D * n)| ≤ 8 * (2 ^ (-53 : ℤ) * s) :=
      e2.near.trans (mul_le_mul_of_nonneg_right (by norm_num) w0.le)
    have e4 : a - D * n - (a - t.height q / t.orthogonal.norm * m) = -((D - t.height q) * n + t.height q * (n - m / t.orthogonal.norm)) := by ring
    have e5 : |a - D * n - (a - t.height q / t.orthogonal.norm * m)| ≤ slack s κ * 1.01 + 1.7321 * s * (140 * (2 ^ (-53 : ℤ) / κ)) := by
      rw [e4, abs_neg]
      refine (abs_add_le _ _).trans ?_
      rw [abs_mul, abs_mul]
      exact add_le_add (mul_le_mul hd hn (abs_nonneg _) E0.le) (mul_le_mul hh hm (abs_nonneg _) (by positivity))
    have e6 := abs_add_le (double (a - double (D * n)) - (a - D * n)) (a - D * n - (a - t.height q / t.orthogonal.norm * m))
    rw [sub_add_sub_cancel] at e6
    have e7 : 1.7321 * s * (140 * (2 ^ (-53 : ℤ) / κ)) ≤ 0.7 * slack s κ := by
      unfold slack
      have : (0 : ℝ) < 2 ^ (-53 : ℤ) / κ * s := by positivity
      generalize (2 : ℝ) ^ (-53 : ℤ) / κ = w at *
      linarith
    generalize (2 : ℝ) ^ (-53 : ℤ) * s = u at *
    linarith
  obtain ⟨x, y, z⟩ := coords_le_norm (P.normal - (1 / t.orthogonal.norm) • t.orthogonal)
  have cv : ∀ a b : ℝ, a - 1 / t.orthogonal.norm * b = a - b / t.orthogonal.norm := fun a b => by ring
  refine ⟨key hq.x hP.n1 ?_, key hq.y hP.n2 ?_, key hq.z hP.n3 ?_⟩
  · have := x.trans hP.dir; rw [P3.sub_x, P3.smul_x, cv] at this; exact this
  · have := y.trans hP.dir; rw [P3.sub_y, P3.smul_y, cv] at this; exact this
  · have := z.trans hP.dir; rw [P3.sub_z, P3.smul_z, cv] at this; exact this

/-! ### A concrete pair of triangles -/

/-- in the plane `z = 0` -/
noncomputable def sampleT : Tri3 ℝ := ⟨⟨0, 0, 0⟩, ⟨1, 0, 0⟩, ⟨0, 1, 0⟩⟩
/-- upright, through the other one -/
noncomputable def sampleR : Tri3 ℝ := ⟨⟨1 / 4, 1 / 4, -1⟩, ⟨1 / 4, 1 / 4, 1⟩, ⟨5 / 4, 1 / 2, 1⟩⟩

theorem sample_moderate : Moderate 4 (1 / 16) := ⟨le_trans (zpow_le_one_of_nonpos₀ (by norm_num) (by norm_num)) (by norm_num), by norm_num, by norm_num⟩

theorem sampleT_orth : sampleT.orthogonal = ⟨0, 0, 1⟩ := by
  ext <;> simp [sampleT, Tri3.orthogonal]

theorem sampleR_orth : sampleR.orthogonal = ⟨-1 / 2, 2, 0⟩ := by
  ext <;> simp [sampleR, Tri3.orthogonal] <;> norm_num

theorem sampleT_norm : sampleT.orthogonal.norm = 1 := by rw [sampleT_orth]; simp [P3.norm]

theorem sampleR_norm : 2 ≤ sampleR.orthogonal.norm ∧ sampleR.orthogonal.norm ≤ 3 := by
  rw [sampleR_orth]
  simp only [P3.norm]
  exact ⟨Real.le_sqrt_of_sq_le (by norm_num), Real.sqrt_le_iff.2 ⟨by norm_num, by norm_num⟩⟩

theorem sample_slack : slack 4 (1 / 16) ≤ 1 / 100000000000 := by unfold slack; norm_num

theorem sample_margin {H : ℝ} (h : 1 / 2 ≤ H) : margin 4 (1 / 16) H ≤ 1 / 100000 := by
  unfold margin slack
  rw [div_div, div_le_iff₀ (by positivity)]
  norm_num
  linarith

theorem sampleT_height (q : P3 ℝ) : sampleT.height q = q.z := by
  rw [Tri3.height, sampleT_norm, sampleT_orth]; simp [P3.dot, sampleT]

theorem sampleR_height (q : P3 ℝ) : sampleR.height q = (-(q.x - 1 / 4) / 2 + 2 * (q.y - 1 / 4)) / sampleR.orthogonal.norm := by
  rw [Tri3.height]
  congr 1
  rw [sampleR_orth]; simp [P3.dot, sampleR]; ring

theorem sampleT_shape : Shape 4 (1 / 16) sampleT := by
  refine ⟨⟨?_, ?_, ?_⟩, ⟨?_, ?_, ?_⟩, ⟨?_, ?_, ?_⟩, ?_⟩ <;> first | (rw [sampleT_norm]; norm_num; done) | (simp [sampleT]; norm_num; done) | simp [sampleT]

theorem sampleR_shape : Shape 4 (1 / 16) sampleR := by
  refine ⟨⟨?_, ?_, ?_⟩, ⟨?_, ?_, ?_⟩, ⟨?_, ?_, ?_⟩, ?_⟩ <;>
    first | (refine le_trans ?_ sampleR_norm.1; norm_num) | (simp only [sampleR]; rw [abs_le]; constructor <;> norm_num)

theorem sampleRT : Clearly 4 (1 / 16) sampleT sampleR := by
  have sl := sample_slack
  constructor
  · simp only [List.mem_cons, List.not_mem_nil, or_false, forall_eq_or_imp, forall_eq, sampleT_height]
    simp only [sampleR]
    norm_num
    linarith
  · simp only [List.mem_cons, List.not_mem_nil, or_false, forall_eq_or_imp, forall_eq]
    refine ⟨?_, ?_, ?_⟩
    · intro _ a b c h1 hq
      rw [Tri3.cut, sampleT_height, sampleT_height] at hq
      rw [sampleT_height, sampleT_height]
      have hx := congrArg P3.x hq
      have hy := congrArg P3.y hq
      simp [sampleR, sampleT] at hx hy
      obtain rfl : a = 1 / 2 := by linarith
      rw [← hx, ← hy]
      have := sample_margin (H := |sampleR.p1.z - sampleR.p2.z|) (by simp [sampleR]; norm_num)
      constructor <;> refine this.trans ?_ <;> norm_num
    · intro _ a b c h1 hq
      rw [Tri3.cut, sampleT_height, sampleT_height] at hq
      rw [sampleT_height, sampleT_height]
      have hx := congrArg P3.x hq
      have hy := congrArg P3.y hq
      simp [sampleR, sampleT] at hx hy
      norm_num at hx hy
      obtain rfl : a = -1 / 8 := by linarith
      rw [← hx, ← hy]
      have := sample_margin (H := |sampleR.p1.z - sampleR.p3.z|) (by simp [sampleR]; norm_num)
      constructor <;> refine this.trans ?_ <;> norm_num
    · intro h
      rw [sampleT_height, sampleT_height] at h
      simp [sampleR] at h
      norm_num at h

theorem sampleTR : Clearly 4 (1 / 16) sampleR sampleT := by
  have sl := sample_slack
  obtain ⟨n2, n3⟩ := sampleR_norm
  have n0 : 0 < sampleR.orthogonal.norm := by linarith
  have h1 : sampleR.height sampleT.p1 = -3 / 8 / sampleR.orthogonal.norm := by rw [sampleR_height]; congr 1; simp [sampleT]; norm_num
  have h2 : sampleR.height sampleT.p2 = -7 / 8 / sampleR.orthogonal.norm := by rw [sampleR_height]; congr 1; simp [sampleT]; norm_num
  have h3 : sampleR.height sampleT.p3 = 13 / 8 / sampleR.orthogonal.norm := by rw [sampleR_height]; congr 1; simp [sampleT]; norm_num
  generalize sampleR.orthogonal.norm = n at *
  constructor
  · simp only [List.mem_cons, List.not_mem_nil, or_false, forall_eq_or_imp, forall_eq, h1, h2, h3]
    refine ⟨?_, ?_, ?_⟩ <;> rw [abs_div, abs_of_pos n0, le_div_iff₀ n0] <;> norm_num <;> nlinarith
  · simp only [List.mem_cons, List.not_mem_nil, or_false, forall_eq_or_imp, forall_eq]
    refine ⟨?_, ?_, ?_⟩
    · intro h
      rw [h1, h2] at h
      have : 0 < -3 / 8 / n * (-7 / 8 / n) := by
        have : -3 / 8 / n * (-7 / 8 / n) = 21 / 64 / n ^ 2 := by field_simp; norm_num
        rw [this]; positivity
      linarith
    · intro _ a b c habc hq
      rw [Tri3.cut, h1, h3, show -3 / 8 / n / (-3 / 8 / n - 13 / 8 / n) = 3 / 16 by field_simp; norm_num] at hq
      rw [h1, h3]
      have hx := congrArg P3.x hq
      have hz := congrArg P3.z hq
      simp [sampleR, sampleT] at hx hz
      obtain rfl : c = -1 / 4 := by linarith
      obtain rfl : a = 1 / 2 := by linarith
      obtain rfl : b = 3 / 4 := by linarith
      have := sample_margin (H := |-3 / 8 / n - 13 / 8 / n|) (by
        rw [← sub_div, abs_div, abs_of_pos n0, le_div_iff₀ n0]; norm_num; linarith)
      constructor <;> refine this.trans ?_ <;> norm_num
    · intro _ a b c habc hq
      rw [Tri3.cut, h2, h3, show -7 / 8 / n / (-7 / 8 / n - 13 / 8 / n) = 7 / 20 by field_simp; norm_num] at hq
      rw [h2, h3]
      have hx := congrArg P3.x hq
      have hz := congrArg P3.z hq
      simp [sampleR, sampleT] at hx hz
      obtain rfl : c = 2 / 5 := by linarith
      obtain rfl : a = 1 / 2 := by linarith
      obtain rfl : b = 1 / 10 := by linarith
      have := sample_margin (H := |-7 / 8 / n - 13 / 8 / n|) (by
        rw [← sub_div, abs_div, abs_of_pos n0, le_div_iff₀ n0]; norm_num; linarith)
      constructor <;> refine this.trans ?_ <;> norm_num

/-- the two sample triangles are reported as intersecting -/
example : intersectTri double sampleR sampleT = some true := by
  obtain ⟨h, b, hb, hi⟩ := tri_tri_double sample_moderate sampleR_shape sampleT_shape sampleRT sampleTR
  rw [h, hb, Option.some.injEq, hi]
  refine ⟨⟨1 / 4, 1 / 4, 0⟩, ⟨1 / 2, 1 / 2, 0, by norm_num, by norm_num, le_rfl, by norm_num, ?_⟩, ⟨1 / 2, 1 / 4, 1 / 4, by norm_num, by norm_num, by norm_num, by norm_num, ?_⟩⟩
  · ext <;> simp [sampleR] <;> norm_num
  · ext <;> simp [sampleT]

end Rounded
end CAD
