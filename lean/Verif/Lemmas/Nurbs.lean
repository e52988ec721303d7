import Verif.Spec.Nurbs
import Verif.Lemmas.BSpline
import Verif.Lemmas.Build
import Verif.Lemmas.Point
import Verif.Spec.Soup
import Mathlib.Algebra.Module.Prod
import Mathlib.LinearAlgebra.Prod

/-! The loops of `NurbsCurve::evaluate` compute de Boor's triangle. -/

set_option linter.unusedSimpArgs false

namespace CAD
namespace Nurbs
open BSpline
variable {K : Type} [Field K] [LinearOrder K]

theorem kn_of_lt {knots : List K} {i : Nat} (h : i < knots.length) : knots[i]? = some (kn knots i) := by
  simp [kn, List.getD, h]

theorem getD0_eq_kn {knots : List K} {i : Nat} (h : i < knots.length) : knots.getD i 0 = kn knots i := by
  simp [kn, List.getD, h]

theorem kn_of_ge {knots : List K} {i : Nat} (h : knots.length ≤ i) : kn knots i = 1 := by
  simp [kn, List.getD, h]

namespace ClampedKnots
variable {knots : List K} {p n : Nat}

theorem kn_first (h : ClampedKnots knots p n) {i : Nat} (hi : i ≤ p) : kn knots i = 0 := by
  simp [kn, List.getD, h.first i hi]

theorem kn_last (h : ClampedKnots knots p n) {i : Nat} (hi : n ≤ i) : kn knots i = 1 := by
  by_cases h2 : i ≤ n + p
  · simp [kn, List.getD, h.last i hi h2]
  · exact kn_of_ge (by rw [h.length]; omega)

theorem p_lt_n [IsStrictOrderedRing K] (h : ClampedKnots knots p n) : p < n := by
  by_contra hn
  have h1 := h.kn_first le_rfl
  rw [h.kn_last (by omega)] at h1
  exact one_ne_zero h1

theorem le_one (h : ClampedKnots knots p n) (i : Nat) : kn knots i ≤ 1 := by
  by_cases hi : i < knots.length
  · by_cases h2 : n + p ≤ i
    · rw [h.kn_last (by omega)]
    · have := List.pairwise_iff_getElem.1 h.sorted i (n + p) hi (by rw [h.length]; omega) (by omega)
      have e1 := kn_of_lt hi
      have e2 := h.last (n + p) (by omega) le_rfl
      rw [List.getElem?_eq_getElem hi] at e1
      rw [List.getElem?_eq_getElem (by rw [h.length]; omega)] at e2
      rw [Option.some_inj] at e1 e2
      rw [e1, e2] at this
      exact this
  · rw [kn_of_ge (by omega)]

theorem mono (h : ClampedKnots knots p n) : Monotone (kn knots) := by
  intro i j hij
  by_cases hj : j < knots.length
  · rcases hij.eq_or_lt with rfl | hlt
    · exact le_rfl
    · have := List.pairwise_iff_getElem.1 h.sorted i j (by omega) hj hlt
      simpa [kn, List.getD, hj, show i < knots.length by omega] using this
  · rw [kn_of_ge (i := j) (by omega)]; exact h.le_one i

theorem nonneg (h : ClampedKnots knots p n) (i : Nat) : 0 ≤ kn knots i := by
  rw [← h.kn_first (Nat.zero_le p)]; exact h.mono (Nat.zero_le i)

end ClampedKnots

theorem exists_cross (f : Nat → K) (P : K → Prop) [DecidablePred P] {a b : Nat} (hab : a ≤ b) (ha : P (f a)) (hb : ¬ P (f b)) :
    ∃ i, a ≤ i ∧ i < b ∧ P (f i) ∧ ¬ P (f (i + 1)) := by
  induction b with
  | zero => obtain rfl : a = 0 := by omega
            exact absurd ha hb
  | succ b ih =>
    by_cases h : P (f b)
    · refine ⟨b, ?_, by omega, h, hb⟩
      by_contra hc
      obtain rfl : a = b + 1 := by omega
      exact hb ha
    · have hab' : a ≤ b := by
        by_contra hc
        obtain rfl : a = b + 1 := by omega
        exact hb ha
      obtain ⟨i, h1, h2, h3, h4⟩ := ih hab' h
      exact ⟨i, h1, by omega, h3, h4⟩

variable [IsStrictOrderedRing K]

theorem clamp_eq (t : K) : (let t := if t < 0 then 0 else t
    if 1 < t then 1 else t) = clamp t := by
  simp only [clamp]
  split_ifs with h1 h2 h2
  · exact absurd h2 (by simp)
  · rw [min_eq_left (by linarith), max_eq_left h1.le]
  · rw [min_eq_right h2.le, max_eq_right (by simp)]
  · rw [min_eq_left (not_lt.1 h2), max_eq_right (not_lt.1 h1)]

theorem clamp_nonneg (t : K) : 0 ≤ clamp t := le_max_left _ _

theorem clamp_le_one (t : K) : clamp t ≤ 1 := max_le zero_le_one (min_le_right _ _)

theorem clamp_of_mem {t : K} (h0 : 0 ≤ t) (h1 : t ≤ 1) : clamp t = t := by
  rw [clamp, min_eq_left h1, max_eq_right h0]

/-- the condition tested by `find_knot_span` -/
def SpanCond (knots : List K) (t : K) (i : Nat) : Prop :=
  if t < 1 then kn knots i ≤ t ∧ t < kn knots (i + 1) else kn knots i < t ∧ t ≤ kn knots (i + 1)

theorem spanCond_unique {knots : List K} (hm : Monotone (kn knots)) {t : K} {i j : Nat} (hi : SpanCond knots t i)
    (hj : SpanCond knots t j) : i = j := by
  unfold SpanCond at hi hj
  rcases Nat.lt_trichotomy i j with h | h | h
  · exfalso
    have := hm (show i + 1 ≤ j from h)
    split_ifs at hi hj <;> linarith [hi.1, hi.2, hj.1, hj.2]
  · exact h
  · exfalso
    have := hm (show j + 1 ≤ i from h)
    split_ifs at hi hj <;> linarith [hi.1, hi.2, hj.1, hj.2]

theorem spanCond_iff {knots : List K} {p n : Nat} (h : ClampedKnots knots p n) {t : K} (h0 : 0 ≤ t) (h1 : t ≤ 1) (i : Nat) :
    SpanCond knots t i ↔ InSpan knots t i := by
  unfold SpanCond InSpan
  have := h.le_one (i + 1)
  split_ifs with ht
  · constructor
    · rintro ⟨a, b⟩; exact ⟨by linarith, a, b.le, fun _ => b⟩
    · rintro ⟨a, b, c, d⟩; exact ⟨b, d ht⟩
  · have : t = 1 := by linarith
    subst this
    constructor
    · rintro ⟨a, b⟩; exact ⟨by linarith, a.le, b, fun hh => absurd hh ht⟩
    · rintro ⟨a, b, c, d⟩; exact ⟨by linarith, c⟩

theorem InSpan.range {knots : List K} {p n : Nat} (h : ClampedKnots knots p n) {t : K} {k : Nat}
    (hs : InSpan knots t k) : p ≤ k ∧ k < n := by
  constructor
  · by_contra hc
    have h1 := hs.1
    rw [h.kn_first (show k + 1 ≤ p by omega)] at h1
    exact absurd h1 (not_lt.2 (h.nonneg k))
  · by_contra hc
    have h1 := hs.1
    rw [h.kn_last (show n ≤ k by omega)] at h1
    exact absurd h1 (not_lt.2 (h.le_one _))

theorem exists_inSpan {knots : List K} {p n : Nat} (h : ClampedKnots knots p n) {t : K} (h0 : 0 ≤ t) (h1 : t ≤ 1) :
    ∃ k, InSpan knots t k := by
  have hpn := h.p_lt_n
  rcases h1.lt_or_eq with ht | rfl
  · obtain ⟨i, h1, h2, h3, h4⟩ := exists_cross (kn knots) (fun x => x ≤ t) hpn.le
      (by rw [h.kn_first le_rfl]; exact h0) (by rw [h.kn_last le_rfl]; exact not_le.2 ht)
    exact ⟨i, lt_of_le_of_lt h3 (not_le.1 h4), h3, (not_le.1 h4).le, fun _ => not_le.1 h4⟩
  · obtain ⟨i, h1, h2, h3, h4⟩ := exists_cross (kn knots) (fun x => x < 1) hpn.le
      (by rw [h.kn_first le_rfl]; exact zero_lt_one) (by rw [h.kn_last le_rfl]; exact lt_irrefl _)
    exact ⟨i, lt_of_lt_of_le h3 (not_lt.1 h4), h3.le, not_lt.1 h4, fun hh => absurd hh (lt_irrefl _)⟩

theorem inSpan_unique {knots : List K} {p n : Nat} (h : ClampedKnots knots p n) {t : K} (h0 : 0 ≤ t) (h1 : t ≤ 1)
    {i j : Nat} (hi : InSpan knots t i) (hj : InSpan knots t j) : i = j :=
  spanCond_unique h.mono ((spanCond_iff h h0 h1 i).2 hi) ((spanCond_iff h h0 h1 j).2 hj)

theorem findKnotSpan_eq {knots : List K} {p n : Nat} (h : ClampedKnots knots p n) {t : K} {k : Nat}
    (hs : InSpan knots (clamp t) k) : findKnotSpan knots t = k := by
  have hpn := h.p_lt_n
  have hl : ¬ knots.length < 2 := by rw [h.length]; omega
  unfold findKnotSpan
  rw [if_neg hl]
  have e := clamp_eq t
  simp only at e ⊢
  rw [e]
  have hr := hs.range h
  have hk : k ∈ List.range (knots.length - 1) := by rw [List.mem_range, h.length]; omega
  have hd : ∀ i ∈ List.range (knots.length - 1), (if clamp t < 1 then
      decide (knots.getD i 0 ≤ clamp t ∧ clamp t < knots.getD (i + 1) 0)
      else decide (knots.getD i 0 < clamp t ∧ clamp t ≤ knots.getD (i + 1) 0)) = true ↔
      InSpan knots (clamp t) i := by
    intro i hi
    rw [List.mem_range] at hi
    rw [getD0_eq_kn (by omega), getD0_eq_kn (by omega),
      ← spanCond_iff h (clamp_nonneg t) (clamp_le_one t)]
    unfold SpanCond
    split_ifs <;> simp
  have hex : ((List.range (knots.length - 1)).find? (fun i => if clamp t < 1 then
      decide (knots.getD i 0 ≤ clamp t ∧ clamp t < knots.getD (i + 1) 0)
      else decide (knots.getD i 0 < clamp t ∧ clamp t ≤ knots.getD (i + 1) 0))).isSome := by
    rw [List.find?_isSome]
    exact ⟨k, hk, (hd k hk).2 hs⟩
  obtain ⟨i, hi⟩ := Option.isSome_iff_exists.1 hex
  have h1 := List.find?_some hi
  have h2 := List.mem_of_find?_eq_some hi
  have h3 := inSpan_unique h (clamp_nonneg t) (clamp_le_one t) ((hd i h2).1 h1) hs
  rw [hi, h3]

/-- de Boor's triangle of degree `p` with any interpolation `B i j` between two neighbours;
`i` and `j` are the numbers of the two knots it may use -/
def levBy {M : Type} (B : Nat → Nat → M → M → M) (p : Nat) (c : Nat → M) : Nat → Nat → M
  | 0 => c
  | r + 1 => fun i => B i (i + (p - r)) (levBy B p c r (i - 1)) (levBy B p c r i)

omit [LinearOrder K] [IsStrictOrderedRing K] in
theorem levBy_eq {M : Type} [AddCommGroup M] [Module K M] (τ : Nat → K) (u : K) (p : Nat) (c : Nat → M) (r : Nat) :
    levBy (fun i j (x y : M) => (1 - (u - τ i) / (τ j - τ i)) • x + ((u - τ i) / (τ j - τ i)) • y) p c r = lev τ u p c r := by
  induction r with
  | zero => rfl
  | succ r ih => funext i; simp only [levBy, ih, lev, step, alpha]

omit [IsStrictOrderedRing K] in
/-- The nested loops compute the last entry of de Boor's triangle, whatever the arithmetic. -/
theorem deBoorLoopsBy_spec (o : EvalOps K) {knots : List K} {p k : Nat} (hpk : p ≤ k) (hlen : k + p < knots.length)
    (u : K) (A : Nat → Nat → K) (hA : ∀ i j, i ≤ k → k < j → o.alpha u (kn knots i) (kn knots j) = some (A i j))
    (f : Nat → P3 K) (g : Nat → K)
    (s : List (P3 K) × List K) (hf : ∀ j ≤ p, s.1[j]? = some (f (k - p + j)))
    (hg : ∀ j ≤ p, s.2[j]? = some (g (k - p + j))) :
    ∃ s', deBoorLoopsBy o knots p k u s = some s' ∧ s'.1.length = s.1.length ∧ s'.2.length = s.2.length ∧
      s'.1[p]? = some (levBy (fun i j => o.blendP (A i j)) p f p k) ∧
      s'.2[p]? = some (levBy (fun i j => o.blendW (A i j)) p g p k) := by
  unfold deBoorLoopsBy
  obtain ⟨s', h1, h2, h3, h4, h5⟩ := loopN_inv (n := p) (s := s)
    (f := fun r0 s =>
      loopN ((p : Int) - r0).toNat (fun j0 (s : List (P3 K) × List K) => do
        let j : Int := (p : Int) - j0
        let a ← getI knots (j + k - p)
        let b ← getI knots (j + 1 + k - ((r0 : Int) + 1))
        let alpha ← o.alpha u a b
        let p0 ← getI s.1 (j - 1)
        let p1 ← getI s.1 j
        let tp ← setI s.1 j (o.blendP alpha p0 p1)
        let w0 ← getI s.2 (j - 1)
        let w1 ← getI s.2 j
        let tw ← setI s.2 j (o.blendW alpha w0 w1)
        return (tp, tw)) s)
    (I := fun r (s' : List (P3 K) × List K) => s'.1.length = s.1.length ∧ s'.2.length = s.2.length ∧
      (∀ j, r ≤ j → j ≤ p → s'.1[j]? = some (levBy (fun i j => o.blendP (A i j)) p f r (k - p + j))) ∧
      (∀ j, r ≤ j → j ≤ p → s'.2[j]? = some (levBy (fun i j => o.blendW (A i j)) p g r (k - p + j))))
    ⟨rfl, rfl, fun j _ hj => hf j hj, fun j _ hj => hg j hj⟩
    (by
      rintro r hr s1 ⟨a1, a2, a3, a4⟩
      have hn : ((p : Int) - r).toNat = p - r := by omega
      simp only [hn]
      obtain ⟨s2, b1, b2, b3, b4, b5⟩ := loopN_inv (n := p - r) (s := s1)
        (f := fun j0 (s : List (P3 K) × List K) => do
          let j : Int := (p : Int) - j0
          let a ← getI knots (j + k - p)
          let b ← getI knots (j + 1 + k - ((r : Int) + 1))
          let alpha ← o.alpha u a b
          let p0 ← getI s.1 (j - 1)
          let p1 ← getI s.1 j
          let tp ← setI s.1 j (o.blendP alpha p0 p1)
          let w0 ← getI s.2 (j - 1)
          let w1 ← getI s.2 j
          let tw ← setI s.2 j (o.blendW alpha w0 w1)
          return (tp, tw))
        (I := fun j0 (s' : List (P3 K) × List K) => s'.1.length = s.1.length ∧ s'.2.length = s.2.length ∧
          (∀ j, r ≤ j → j ≤ p → s'.1[j]? = some (levBy (fun i j => o.blendP (A i j)) p f (if p < j + j0 then r + 1 else r) (k - p + j))) ∧
          (∀ j, r ≤ j → j ≤ p → s'.2[j]? = some (levBy (fun i j => o.blendW (A i j)) p g (if p < j + j0 then r + 1 else r) (k - p + j))))
        ⟨a1, a2, fun j h1 h2 => by rw [if_neg (by omega)]; exact a3 j h1 h2,
          fun j h1 h2 => by rw [if_neg (by omega)]; exact a4 j h1 h2⟩
        (by
          rintro j0 hj0 s3 ⟨c1, c2, c3, c4⟩
          obtain ⟨j, rfl⟩ : ∃ j, p = j + j0 := ⟨p - j0, by omega⟩
          have e1 : ((j + j0 : Nat) : Int) - (j0 : Int) = (j : Nat) := by push_cast; ring
          have e2 : ((j : Nat) : Int) + (k : Int) - ((j + j0 : Nat) : Int) = ((k - (j + j0) + j : Nat) : Int) := by
            omega
          have e3 : ((j : Nat) : Int) + 1 + (k : Int) - ((r : Int) + 1) = ((k + j - r : Nat) : Int) := by omega
          have e4 : ((j : Nat) : Int) - 1 = ((j - 1 : Nat) : Int) := by omega
          have hj1 : s3.1.length = s.1.length := c1
          have hjl : j < s3.1.length := by
            have := c3 j (by omega) (by omega)
            by_contra hc
            rw [List.getElem?_eq_none (by omega)] at this
            exact absurd this (by simp)
          have hjl2 : j < s3.2.length := by
            have := c4 j (by omega) (by omega)
            by_contra hc
            rw [List.getElem?_eq_none (by omega)] at this
            exact absurd this (by simp)
          have k1 := kn_of_lt (knots := knots) (i := k - (j + j0) + j) (by omega)
          have k2 := kn_of_lt (knots := knots) (i := k + j - r) (by omega)
          have hd := hA (k - (j + j0) + j) (k + j - r) (by omega) (by omega)
          have p0 := c3 (j - 1) (by omega) (by omega)
          have p1 := c3 j (by omega) (by omega)
          have w0 := c4 (j - 1) (by omega) (by omega)
          have w1 := c4 j (by omega) (by omega)
          rw [if_neg (by omega)] at p0 p1 w0 w1
          simp only [e1, e2, e3, e4, getI_natCast, k1, k2, p0, p1, w0, w1, hd,
            Option.bind_eq_bind, Option.bind_some, Option.pure_def,
            setI_of_inRange (l := s3.1) (i := ((j : Nat) : Int)) _ ⟨by omega, by omega⟩,
            setI_of_inRange (l := s3.2) (i := ((j : Nat) : Int)) _ ⟨by omega, by omega⟩, Int.toNat_natCast]
          have e6 : k - (j + j0) + j + (j + j0 - r) = k + j - r := by omega
          have e5 : k - (j + j0) + (j - 1) = k - (j + j0) + j - 1 := by omega
          refine ⟨_, rfl, by simpa using c1, by simpa using c2, ?_, ?_⟩
          · intro i hi1 hi2
            rw [List.getElem?_set]
            by_cases hij : j = i
            · subst hij
              rw [if_pos rfl, if_pos hjl, if_pos (by omega)]
              simp only [levBy, e5, e6]
            · rw [if_neg hij, c3 i hi1 hi2]
              by_cases hlt : j + j0 < i + j0
              · rw [if_pos hlt, if_pos (by omega)]
              · rw [if_neg hlt, if_neg (by omega)]
          · intro i hi1 hi2
            rw [List.getElem?_set]
            by_cases hij : j = i
            · subst hij
              rw [if_pos rfl, if_pos hjl2, if_pos (by omega)]
              simp only [levBy, e5, e6]
            · rw [if_neg hij, c4 i hi1 hi2]
              by_cases hlt : j + j0 < i + j0
              · rw [if_pos hlt, if_pos (by omega)]
              · rw [if_neg hlt, if_neg (by omega)])
      refine ⟨s2, b1, b2, b3, ?_, ?_⟩
      · intro j h1 h2; rw [b4 j (by omega) h2, if_pos (by omega)]
      · intro j h1 h2; rw [b5 j (by omega) h2, if_pos (by omega)])
  refine ⟨s', ?_, h2, h3, ?_, ?_⟩
  · rw [Int.toNat_natCast]; exact h1
  · rw [h4 p le_rfl le_rfl, show k - p + p = k by omega]
  · rw [h5 p le_rfl le_rfl, show k - p + p = k by omega]

/-- homogeneous control points -/
def Curve.hp (c : Curve K) (i : Nat) : P3 K := c.weights.getD i 0 • c.points.getD i ⟨0, 0, 0⟩

/-- weights -/
def Curve.hw (c : Curve K) (i : Nat) : K := c.weights.getD i 0

omit [IsStrictOrderedRing K] in
theorem getD_of_lt {α : Type} (l : List α) (d : α) {i : Nat} (h : i < l.length) : l[i]? = some (l.getD i d) := by
  simp [List.getD, h]

omit [LinearOrder K] [IsStrictOrderedRing K] in
theorem div_eq_smul (p : P3 K) (w : K) : p.div w = (1 / w) • p := by
  ext <;> simp [P3.div] <;> ring

/-- `evaluate` computes de Boor's triangle, whatever the arithmetic. -/
theorem evaluateBy_eq (o : EvalOps K) {c : Curve K} {p n k : Nat} (h : c.Valid p n) {u : K}
    (hs : InSpan c.knots (clamp u) k) (A : Nat → Nat → K)
    (hA : ∀ i j, i ≤ k → k < j → o.alpha u (kn c.knots i) (kn c.knots j) = some (A i j)) :
    ∃ tp tw, tp.length = c.tempPoints.length ∧ tw.length = c.tempWeights.length ∧
      c.evaluateBy o u = (o.divide
          (levBy (fun i j => o.blendP (A i j)) p (fun i => o.weigh (c.hw i) (c.points.getD i ⟨0, 0, 0⟩)) p k)
          (levBy (fun i j => o.blendW (A i j)) p c.hw p k)).map
        fun q => ({ c with tempPoints := tp, tempWeights := tw }, q) := by
  obtain ⟨hpk, hkn⟩ := hs.range h.knots
  have hlen := h.knots.length
  have hspan := findKnotSpan_eq h.knots hs
  obtain ⟨s1, f1, f2, f3, f4, f5⟩ := loopN_inv (n := p + 1) (s := (c.tempPoints, c.tempWeights))
    (f := fun j (s : List (P3 K) × List K) => do
      let idx := (j : Int) + k - p
      assert (0 ≤ idx)
      assert (idx < (n : Int))
      let w ← getI c.weights idx
      let tw ← setI s.2 j w
      let p ← getI c.points idx
      let tp ← setI s.1 j (o.weigh w p)
      return (tp, tw))
    (I := fun r (s : List (P3 K) × List K) => s.1.length = c.tempPoints.length ∧
      s.2.length = c.tempWeights.length ∧ (∀ j < r, s.1[j]? = some (o.weigh (c.hw (k - p + j)) (c.points.getD (k - p + j) ⟨0, 0, 0⟩))) ∧
      (∀ j < r, s.2[j]? = some (c.hw (k - p + j))))
    ⟨rfl, rfl, by simp, by simp⟩
    (by
      rintro j hj s ⟨a1, a2, a3, a4⟩
      have e1 : (j : Int) + k - p = ((k - p + j : Nat) : Int) := by omega
      have l1 := h.tempPoints
      have l2 := h.tempWeights
      have g1 := getD_of_lt c.weights 0 (i := k - p + j) (by rw [h.weights]; omega)
      have g2 := getD_of_lt c.points ⟨0, 0, 0⟩ (i := k - p + j) (by rw [h.points]; omega)
      have t1 : (0 : Int) ≤ ((k - p + j : Nat) : Int) := by omega
      have t2 : ((k - p + j : Nat) : Int) < (n : Int) := by omega
      simp only [e1, assert, t1, t2, if_true, getI_natCast, g1, g2, Option.bind_eq_bind, Option.bind_some,
        Option.pure_def,
        setI_of_inRange (l := s.1) (i := ((j : Nat) : Int)) _ ⟨by omega, by omega⟩,
        setI_of_inRange (l := s.2) (i := ((j : Nat) : Int)) _ ⟨by omega, by omega⟩, Int.toNat_natCast]
      refine ⟨_, rfl, by simpa using a1, by simpa using a2, ?_, ?_⟩
      · intro i hi
        rw [List.getElem?_set]
        by_cases hij : j = i
        · subst hij; rw [if_pos rfl, if_pos (by omega)]; rfl
        · rw [if_neg hij]; exact a3 i (by omega)
      · intro i hi
        rw [List.getElem?_set]
        by_cases hij : j = i
        · subst hij; rw [if_pos rfl, if_pos (by omega)]; rfl
        · rw [if_neg hij]; exact a4 i (by omega))
  obtain ⟨s2, g1, g2, g3, g4, g5⟩ := deBoorLoopsBy_spec o hpk (by omega) u A hA
    (fun i => o.weigh (c.hw i) (c.points.getD i ⟨0, 0, 0⟩)) c.hw s1
    (fun j hj => f4 j (by omega)) (fun j hj => f5 j (by omega))
  refine ⟨s2.1, s2.2, by omega, by omega, ?_⟩
  unfold Curve.evaluateBy
  have b1 : ((n : Nat) : Int) = (c.weights.length : Int) := by rw [h.weights]
  have b2 : ((n : Nat) : Int) = (c.knots.length : Int) - (p : Int) - 1 := by rw [hlen]; push_cast; ring
  have b3 : ((p : Int) + 1).toNat = p + 1 := by omega
  simp only [h.nbPoints, h.degree, hspan, b3]
  rw [assert, if_pos b1, assert, if_pos b2]
  simp only [Option.bind_eq_bind, Option.bind_some, Option.pure_def] at f1 ⊢
  rw [f1]
  simp only [Option.bind_some, g1, getI_natCast, g4, g5]
  cases o.divide _ _ <;> simp [h.degree, h.nbPoints]

omit [IsStrictOrderedRing K] in
theorem exactOps_alpha {knots : List K} {k : Nat} (hden : ∀ i j, i ≤ k → k < j → kn knots j - kn knots i ≠ 0) (u : K)
    (i j : Nat) (hi : i ≤ k) (hj : k < j) :
    exactOps.alpha u (kn knots i) (kn knots j) = some ((u - kn knots i) / (kn knots j - kn knots i)) := by
  simp only [exactOps, divR, if_neg (hden i j hi hj)]

omit [IsStrictOrderedRing K] in
theorem levBy_exactP (τ : Nat → K) (u : K) (p : Nat) (c : Nat → P3 K) :
    levBy (fun i j => exactOps.blendP ((u - τ i) / (τ j - τ i))) p c p = deB τ u p c := by
  rw [← lev_eq_deB, ← levBy_eq]; rfl

omit [IsStrictOrderedRing K] in
theorem levBy_exactW (τ : Nat → K) (u : K) (p : Nat) (c : Nat → K) :
    levBy (fun i j => exactOps.blendW ((u - τ i) / (τ j - τ i))) p c p = deB τ u p c := by
  rw [← lev_eq_deB, ← levBy_eq]
  congr 1
  funext i j x y
  simp only [exactOps, smul_eq_mul]
  ring

theorem evaluate_eq {c : Curve K} {p n k : Nat} (h : c.Valid p n) {u : K} (hs : InSpan c.knots (clamp u) k) :
    ∃ tp tw, tp.length = c.tempPoints.length ∧ tw.length = c.tempWeights.length ∧
      c.evaluate u = if deB (kn c.knots) u p c.hw k = 0 then none else
        some ({ c with tempPoints := tp, tempWeights := tw },
          (1 / deB (kn c.knots) u p c.hw k) • deB (kn c.knots) u p c.hp k) := by
  obtain ⟨tp, tw, l1, l2, e⟩ := evaluateBy_eq exactOps h hs _ (exactOps_alpha (den_ne h.knots.mono hs.1) u)
  refine ⟨tp, tw, l1, l2, ?_⟩
  rw [Curve.evaluate, e, levBy_exactP, levBy_exactW]
  simp only [exactOps, divP]
  by_cases hw : deB (kn c.knots) u p c.hw k = 0
  · rw [if_pos hw, if_pos hw]; rfl
  · rw [if_neg hw, if_neg hw, div_eq_smul]; rfl

theorem deB_hw {c : Curve K} {p n k : Nat} (h : c.Valid p n) {u t : K} (hs : InSpan c.knots t k) :
    deB (kn c.knots) u p c.hw k = c.denom p n k u := by
  obtain ⟨hpk, hkn⟩ := hs.range h.knots
  rw [deB_eq_sum _ u hpk hkn (den_ne h.knots.mono hs.1)]
  rfl

theorem deB_hp {c : Curve K} {p n k : Nat} (h : c.Valid p n) {u t : K} (hs : InSpan c.knots t k) :
    deB (kn c.knots) u p c.hp k = c.numer p n k u := by
  obtain ⟨hpk, hkn⟩ := hs.range h.knots
  rw [deB_eq_sum _ u hpk hkn (den_ne h.knots.mono hs.1)]
  rfl

theorem at_eq {c : Curve K} {p n k : Nat} (h : c.Valid p n) {u : K} (hs : InSpan c.knots (clamp u) k) :
    c.at u = if deB (kn c.knots) u p c.hw k = 0 then none else
      some ((1 / deB (kn c.knots) u p c.hw k) • deB (kn c.knots) u p c.hp k) := by
  obtain ⟨tp, tw, _, _, e⟩ := evaluate_eq h hs
  rw [Curve.at, e]
  split_ifs <;> rfl

/-- homogeneous point and weight together -/
def Curve.pairs (c : Curve K) (i : Nat) : P3 K × K := (c.hp i, c.hw i)

omit [LinearOrder K] [IsStrictOrderedRing K] in
theorem deB_fst (τ : Nat → K) (t : K) (p : Nat) (c : Nat → P3 K × K) (k : Nat) :
    deB τ t p (fun i => (c i).1) k = (deB τ t p c k).1 :=
  deB_map τ t p (LinearMap.fst K (P3 K) K) c k

omit [LinearOrder K] [IsStrictOrderedRing K] in
theorem deB_snd (τ : Nat → K) (t : K) (p : Nat) (c : Nat → P3 K × K) (k : Nat) :
    deB τ t p (fun i => (c i).2) k = (deB τ t p c k).2 :=
  deB_map τ t p (LinearMap.snd K (P3 K) K) c k

/-- From a homogeneous point to a point. -/
def project (x : P3 K × K) : Res (P3 K) := if x.2 = 0 then none else some ((1 / x.2) • x.1)

theorem at_pair {c : Curve K} {p n k : Nat} (h : c.Valid p n) {u : K} (hs : InSpan c.knots (clamp u) k) :
    c.at u = project (deB (kn c.knots) u p c.pairs k) := by
  rw [at_eq h hs, project, ← deB_fst, ← deB_snd]
  rfl

theorem InSpan.mem {knots : List K} {p n : Nat} (h : ClampedKnots knots p n) {t : K} {k : Nat}
    (hs : InSpan knots t k) : 0 ≤ t ∧ t ≤ 1 :=
  ⟨(h.nonneg k).trans hs.2.1, hs.2.2.1.trans (h.le_one _)⟩

/-- the homogeneous curves are the same -/
def Curve.Refines (c c' : Curve K) (p p' : Nat) : Prop :=
  ∀ t k k', InSpan c.knots t k → InSpan c'.knots t k' →
    ∀ u, deB (kn c'.knots) u p' c'.pairs k' = deB (kn c.knots) u p c.pairs k

theorem Curve.Refines.at {c c' : Curve K} {p p' n n' : Nat} (h : c.Refines c' p p') (hv : c.Valid p n)
    (hv' : c'.Valid p' n') (t : K) : c'.at t = c.at t := by
  obtain ⟨k, hk⟩ := exists_inSpan hv.knots (clamp_nonneg t) (clamp_le_one t)
  obtain ⟨k', hk'⟩ := exists_inSpan hv'.knots (clamp_nonneg t) (clamp_le_one t)
  rw [at_pair hv hk, at_pair hv' hk', h _ _ _ hk hk']

/-- the linear part of an affine map -/
def linAff (r1 r2 r3 : P3 K) : P3 K →ₗ[K] P3 K where
  toFun := affine r1 r2 r3 ⟨0, 0, 0⟩
  map_add' p q := by ext <;> simp [affine, P3.dot] <;> ring
  map_smul' a p := by ext <;> simp [affine, P3.dot] <;> ring

omit [LinearOrder K] [IsStrictOrderedRing K] in
theorem linAff_apply (r1 r2 r3 p : P3 K) : linAff r1 r2 r3 p = affine r1 r2 r3 ⟨0, 0, 0⟩ p := rfl

end Nurbs
end CAD
