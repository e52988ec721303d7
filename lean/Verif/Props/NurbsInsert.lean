import Verif.Props.NurbsCurve

/-! C48: knot insertion. -/

set_option linter.unusedSimpArgs false

namespace CAD
namespace Nurbs
open BSpline
variable {K : Type} [Field K] [LinearOrder K] [IsStrictOrderedRing K]

theorem mapM_divP (l : List (P3 K × K)) (h : ∀ x ∈ l, x.2 ≠ 0) :
    (l.mapM fun x => divP x.1 x.2) = some (l.map fun x => (1 / x.2) • x.1) := by
  induction l with
  | nil => rfl
  | cons x l ih =>
    rw [List.mapM_cons, ih fun y hy => h y (List.mem_cons_of_mem _ hy), divP,
      if_neg (h x List.mem_cons_self), div_eq_smul]
    rfl

theorem scaleKnots_self {knots : List K} {p n : Nat} (h : ClampedKnots knots p n) :
    scaleKnots knots = some knots := by
  rw [scaleKnots_eq (a := 0) (b := 1) h.sorted (by rw [List.head?_eq_getElem?]; exact h.first 0 (Nat.zero_le _))
    (by rw [List.getLast?_eq_getElem?, h.length]; exact h.last _ (by omega) (by omega)) zero_lt_one]
  simp

theorem kn_insert {knots : List K} {l : Nat} (hl : l + 1 ≤ knots.length) (u : K) :
    kn (knots.take (l + 1) ++ u :: knots.drop (l + 1)) = insKnot (kn knots) u l := by
  funext i
  have hlen : (knots.take (l + 1)).length = l + 1 := by simp; omega
  unfold insKnot kn
  simp only [List.getD]
  rcases Nat.lt_trichotomy i (l + 1) with h | h | h
  · rw [if_pos (by omega), List.getElem?_append_left (by omega), List.getElem?_take_of_lt h]
  · subst h
    rw [if_neg (by omega), if_pos rfl, List.getElem?_append_right (by omega), hlen]
    simp
  · rw [if_neg (by omega), if_neg (by omega), List.getElem?_append_right (by omega), hlen]
    obtain ⟨j, rfl⟩ : ∃ j, i = l + 1 + (j + 1) := ⟨i - (l + 1) - 1, by omega⟩
    rw [show l + 1 + (j + 1) - (l + 1) = j + 1 by omega, List.getElem?_cons_succ, List.getElem?_drop,
      show l + 1 + (j + 1) - 1 = l + 1 + j by omega]

theorem insert_clamped {knots : List K} {p n l : Nat} (h : ClampedKnots knots p n) {u : K} (hs : InSpan knots u l) :
    ClampedKnots (knots.take (l + 1) ++ u :: knots.drop (l + 1)) p (n + 1) := by
  obtain ⟨hpl, hln⟩ := hs.range h
  have hlen := h.length
  have hl : l + 1 ≤ knots.length := by omega
  have hk := kn_insert hl u
  have hm := insKnot_mono h.mono hs.2.1 hs.2.2.1
  have hlen' : (knots.take (l + 1) ++ u :: knots.drop (l + 1)).length = n + 1 + p + 1 := by simp; omega
  have hkn : ∀ i, i < n + 1 + p + 1 → (knots.take (l + 1) ++ u :: knots.drop (l + 1))[i]? =
      some (insKnot (kn knots) u l i) := by
    intro i hi
    rw [← hk]; exact kn_of_lt (by omega)
  refine ⟨hlen', ?_, ?_, ?_⟩
  · rw [List.pairwise_iff_getElem]
    intro i j hi hj hij
    have e1 := hkn i (by omega)
    have e2 := hkn j (by omega)
    rw [List.getElem?_eq_getElem hi, Option.some_inj] at e1
    rw [List.getElem?_eq_getElem hj, Option.some_inj] at e2
    rw [e1, e2]
    exact hm hij.le
  · intro i hi
    rw [hkn i (by omega), insKnot, if_pos (by omega), h.kn_first hi]
  · intro i h1 h2
    rw [hkn i (by omega), insKnot, if_neg (by omega)]
    split_ifs with h3
    · have : l + 1 = n := by omega
      have h5 := hs.2.2.1
      have h4 := hs.2.2.2
      rw [this, h.kn_last le_rfl] at h4 h5
      have : n + 1 ≤ l + 1 := by omega
      omega
    · rw [h.kn_last (by omega)]

theorem inSpan_insert {knots : List K} {l : Nat} (hl : l + 1 ≤ knots.length) {u : K} (hs : InSpan knots u l)
    {t : K} {k : Nat} (hk : InSpan (knots.take (l + 1) ++ u :: knots.drop (l + 1)) t k) :
    InSpan knots t (if k ≤ l then k else k - 1) := by
  obtain ⟨s1, s2, s3, s4⟩ := hs
  unfold InSpan at hk ⊢
  rw [kn_insert hl u] at hk
  obtain ⟨a, b, c, d⟩ := hk
  unfold insKnot at a b c d
  rcases Nat.lt_trichotomy k l with h | h | h
  · rw [if_pos (by omega)]
    rw [if_pos (by omega), if_pos (by omega)] at a
    rw [if_pos (by omega)] at b c d
    exact ⟨a, b, c, d⟩
  · subst h
    rw [if_pos le_rfl]
    rw [if_pos le_rfl, if_neg (by omega), if_pos rfl] at a
    rw [if_pos le_rfl] at b
    rw [if_neg (by omega), if_pos rfl] at c d
    exact ⟨s1, b, c.trans s3, fun ht => (d ht).trans_le s3⟩
  · rw [if_neg (by omega)]
    obtain ⟨j, rfl⟩ : ∃ j, k = j + 1 := ⟨k - 1, by omega⟩
    rw [if_neg (show ¬ j + 1 + 1 ≤ l by omega), if_neg (show ¬ j + 1 + 1 = l + 1 by omega)] at a c d
    rw [if_neg (show ¬ j + 1 ≤ l by omega)] at a b
    simp only [Nat.add_sub_cancel] at a b c d ⊢
    split_ifs at a b with h2
    · have : j = l := by omega
      subst this
      exact ⟨s1, s2.trans b, c, d⟩
    · exact ⟨a, b, c, d⟩

theorem insPts_pos {τ : Nat → K} (hτ : Monotone τ) {u : K} {l p n : Nat} (h1 : τ l ≤ u) (h2 : u ≤ τ (l + 1))
    (hln : l < n) (hpl : p ≤ l) (hlt : τ l < τ (l + 1)) {w : Nat → K} (hw : ∀ i < n, 0 < w i) {i : Nat} (hi : i < n + 1) :
    0 < insPts τ u l p w i := by
  unfold insPts
  split_ifs with h3 h4
  · exact hw i (by omega)
  · have a0 : τ i ≤ u := (hτ h4).trans h1
    have a1 : u ≤ τ (i + p) := h2.trans (hτ (by omega))
    have a2 : τ i < τ (i + p) := lt_of_le_of_lt (hτ h4) (lt_of_lt_of_le hlt (hτ (by omega)))
    have b0 : 0 ≤ alpha τ u p i := div_nonneg (by linarith) (by linarith)
    have b1 : alpha τ u p i ≤ 1 := by
      rw [alpha, div_le_one (by linarith)]; linarith
    have c0 := hw (i - 1) (by omega)
    have c1 := hw i (by omega)
    unfold step
    simp only [smul_eq_mul]
    rcases b1.lt_or_eq with hb | hb
    · exact add_pos_of_pos_of_nonneg (mul_pos (by linarith) c0) (mul_nonneg b0 c1.le)
    · rw [hb]; simpa using c1
  · exact hw (i - 1) (by omega)

/-- The result of `insert_knot` in closed form: Boehm's points and weights. -/
theorem insertKnot_eq {c : Curve K} {p n l : Nat} (h : c.Valid p n) (hw : ∀ w ∈ c.weights, 0 < w) {u : K}
    (hs : InSpan c.knots (clamp u) l) (h0 : 0 ≤ u) (h1 : u ≤ 1) :
    c.insertKnot u = some { c with
      knots := c.knots.take (l + 1) ++ u :: c.knots.drop (l + 1)
      weights := (List.range (n + 1)).map (insPts (kn c.knots) u l p c.hw)
      points := (List.range (n + 1)).map fun i => (1 / insPts (kn c.knots) u l p c.hw i) •
        insPts (kn c.knots) u l p c.hp i
      nbPoints := n + 1 } := by
  have hsp := findKnotSpan_eq h.knots hs
  rw [clamp_of_mem h0 h1] at hs
  obtain ⟨hpl, hln⟩ := hs.range h.knots
  have hlen := h.knots.length
  have hwp : ∀ i < n, 0 < c.hw i := fun i hi => weights_pos h hw hi
  obtain ⟨s', e1, rfl⟩ := loopN_inv (n := n + 1) (s := (([], []) : List (P3 K) × List K))
    (f := fun i (s : List (P3 K) × List K) => do
      if (i : Int) ≤ (l : Int) - p then
        let p ← getI c.points i
        let w ← getI c.weights i
        return (s.1 ++ [w • p], s.2 ++ [w])
      else if (l : Int) + 1 ≤ (i : Int) then
        let p ← getI c.points (i - 1)
        let w ← getI c.weights (i - 1)
        return (s.1 ++ [w • p], s.2 ++ [w])
      else
        let a ← getI c.knots i
        let b ← getI c.knots (i + p)
        let dAlpha ← divR (u - a) (b - a)
        let p1 ← getI c.points i
        let w1 ← getI c.weights i
        let p0 ← getI c.points (i - 1)
        let w0 ← getI c.weights (i - 1)
        return (s.1 ++ [dAlpha • (w1 • p1) + (1 - dAlpha) • (w0 • p0)],
          s.2 ++ [w1 * dAlpha + w0 * (1 - dAlpha)]))
    (I := fun r s => s = ((List.range r).map (insPts (kn c.knots) u l p c.hp),
      (List.range r).map (insPts (kn c.knots) u l p c.hw)))
    rfl
    (by
      rintro i hi s rfl
      refine ⟨_, ?_, rfl⟩
      have gp : ∀ j : Nat, j < n → getI c.points (j : Int) = some (c.points.getD j ⟨0, 0, 0⟩) := fun j hj => by
        rw [getI_natCast]; exact getD_of_lt _ _ (by rw [h.points]; exact hj)
      have gw : ∀ j : Nat, j < n → getI c.weights (j : Int) = some (c.weights.getD j 0) := fun j hj => by
        rw [getI_natCast]; exact getD_of_lt _ _ (by rw [h.weights]; exact hj)
      simp only [List.range_succ, List.map_append, List.map_cons, List.map_nil]
      by_cases c1 : i + p ≤ l
      · rw [if_pos (by omega), gp i (by omega), gw i (by omega)]
        simp only [Option.bind_eq_bind, Option.bind_some, Option.pure_def, insPts, if_pos c1]
        rfl
      · rw [if_neg (by omega)]
        by_cases c2 : i ≤ l
        · rw [if_neg (by omega)]
          have e1 : (i : Int) - 1 = ((i - 1 : Nat) : Int) := by omega
          have e2 : (i : Int) + p = ((i + p : Nat) : Int) := by omega
          have hd : ¬ (kn c.knots (i + p) - kn c.knots i = 0) := den_ne h.knots.mono hs.1 i (i + p) (by omega) (by omega)
          rw [e1, e2, gp i (by omega), gw i (by omega), gp (i - 1) (by omega), gw (i - 1) (by omega), getI_natCast,
            getI_natCast, kn_of_lt (by omega), kn_of_lt (by omega)]
          simp only [Option.bind_eq_bind, Option.bind_some, Option.pure_def, divR, if_neg hd, insPts, if_neg c1, if_pos c2,
            step, alpha, smul_eq_mul]
          congr 4
          · rw [add_comm]; rfl
          · rw [add_comm, mul_comm, mul_comm (c.weights.getD i 0)]; rfl
        · rw [if_pos (by omega)]
          have e1 : (i : Int) - 1 = ((i - 1 : Nat) : Int) := by omega
          rw [e1, gp (i - 1) (by omega), gw (i - 1) (by omega)]
          simp only [Option.bind_eq_bind, Option.bind_some, Option.pure_def, insPts, if_neg c1, if_neg c2]
          rfl)
  unfold Curve.insertKnot
  simp only [hsp, h.degree, h.points]
  simp only [Option.bind_eq_bind, Option.pure_def] at e1 ⊢
  rw [e1]
  simp only [Option.bind_some]
  rw [List.zip_map', mapM_divP]
  · have ei : ((l : Int) + 1).toNat = l + 1 := by omega
    simp only [Option.bind_some, Curve.setKnots, ei, scaleKnots_self (insert_clamped h.knots hs), Option.bind_eq_bind,
      Option.pure_def, Curve.setWeights, Curve.setPoints]
    simp [h.degree, Function.comp_def]
  · intro x hx
    obtain ⟨i, hi, rfl⟩ := List.mem_map.1 hx
    rw [List.mem_range] at hi
    exact (insPts_pos h.knots.mono hs.2.1 hs.2.2.1 hln hpl hs.1 hwp hi).ne'

theorem insert_knot_refines {c : Curve K} {p n l : Nat} (h : c.Valid p n) (hw : ∀ w ∈ c.weights, 0 < w) {u : K}
    (hl : InSpan c.knots u l) :
    ∃ c', c.insertKnot u = some c' ∧ c'.Valid p (n + 1) ∧ (∀ w ∈ c'.weights, 0 < w) ∧
      c'.knots = c.knots.take (l + 1) ++ u :: c.knots.drop (l + 1) ∧ c.Refines c' p p := by
  obtain ⟨h0, h1⟩ := hl.mem h.knots
  have hs := hl
  rw [← clamp_of_mem h0 h1] at hs
  obtain ⟨hpl, hln⟩ := hl.range h.knots
  have hlen := h.knots.length
  have hwp : ∀ i < n, 0 < c.hw i := fun i hi => weights_pos h hw hi
  have hpos : ∀ i < n + 1, 0 < insPts (kn c.knots) u l p c.hw i := fun i hi =>
    insPts_pos h.knots.mono hl.2.1 hl.2.2.1 hln hpl hl.1 hwp hi
  have hcl := insert_clamped h.knots hl
  refine ⟨_, insertKnot_eq h hw hs h0 h1, ?_, ?_, rfl, ?_⟩
  · exact ⟨h.degree, by simp, by simp, by simp, hcl, h.tempPoints, h.tempWeights⟩
  · intro w hw
    obtain ⟨i, hi, rfl⟩ := List.mem_map.1 hw
    exact hpos i (List.mem_range.1 hi)
  · set c' : Curve K := { c with
      knots := c.knots.take (l + 1) ++ u :: c.knots.drop (l + 1)
      weights := (List.range (n + 1)).map (insPts (kn c.knots) u l p c.hw)
      points := (List.range (n + 1)).map fun i => (1 / insPts (kn c.knots) u l p c.hw i) •
        insPts (kn c.knots) u l p c.hp i
      nbPoints := n + 1 } with hc'
    intro t κ k hκ hk x
    have ht := hκ.mem h.knots
    have hk' := inSpan_insert (by omega) hl hk
    obtain rfl := inSpan_unique h.knots ht.1 ht.2 hκ hk'
    obtain ⟨hpk, hkn⟩ := hk.range hcl
    have hkn' : kn c'.knots = insKnot (kn c.knots) u l := kn_insert (by omega) u
    have hlt : insKnot (kn c.knots) u l k < insKnot (kn c.knots) u l (k + 1) := by
      rw [← hkn']; exact hk.1
    have gw : ∀ i, i ≤ k → c'.hw i = insPts (kn c.knots) u l p c.hw i := by
      intro i hi
      have hi2 : i < n + 1 := by omega
      simp [Curve.hw, hc', List.getD, hi2]
    have gp : ∀ i, i ≤ k → c'.hp i = insPts (kn c.knots) u l p c.hp i := by
      intro i hi
      have hi2 : i < n + 1 := by omega
      have hne := (hpos i hi2).ne'
      have e1 : c'.weights.getD i 0 = insPts (kn c.knots) u l p c.hw i := gw i hi
      have e2 : c'.points.getD i ⟨0, 0, 0⟩ = (1 / insPts (kn c.knots) u l p c.hw i) • insPts (kn c.knots) u l p c.hp i := by
        simp [hc', List.getD, hi2]
      rw [Curve.hp, e1, e2, smul_smul, mul_one_div, div_self hne, one_smul]
    have ew : deB (kn c'.knots) x p c'.hw k = deB (kn c.knots) x p c.hw (if k ≤ l then k else k - 1) := by
      rw [hkn', deB_congr _ x hpk (fun i hi _ => gw i hi), deB_ins h.knots.mono hl.2.1 hl.2.2.1 x hpk hlt]
      split_ifs <;> rfl
    have ep : deB (kn c'.knots) x p c'.hp k = deB (kn c.knots) x p c.hp (if k ≤ l then k else k - 1) := by
      rw [hkn', deB_congr _ x hpk (fun i hi _ => gp i hi), deB_ins h.knots.mono hl.2.1 hl.2.2.1 x hpk hlt]
      split_ifs <;> rfl
    refine Prod.ext ?_ ?_
    · rw [← deB_fst, ← deB_fst]; exact ep
    · rw [← deB_snd, ← deB_snd]; exact ew

/-- C48.  Inserting a knot anywhere in `[0, 1]` (also on an existing knot, of any
multiplicity) into a curve with positive weights: one more knot, one more point, the
knots stay sorted and clamped, the weights positive, and every parameter evaluates
to the same point. -/
theorem insert_knot_spec {c : Curve K} {p n : Nat} (h : c.Valid p n) (hw : ∀ w ∈ c.weights, 0 < w) {u : K}
    (h0 : 0 ≤ u) (h1 : u ≤ 1) :
    ∃ c', c.insertKnot u = some c' ∧ c'.Valid p (n + 1) ∧ (∀ w ∈ c'.weights, 0 < w) ∧
      c'.knots.Perm (u :: c.knots) ∧ ∀ t, c'.at t = c.at t := by
  obtain ⟨l, hl⟩ := exists_inSpan h.knots h0 h1
  obtain ⟨c', e1, e2, e3, e4, e5⟩ := insert_knot_refines h hw hl
  refine ⟨c', e1, e2, e3, ?_, fun t => e5.at h e2 t⟩
  rw [e4]
  refine List.perm_middle.trans ?_
  rw [List.take_append_drop]

example : (quarter.insertKnot (1 / 2)).map (fun c => (c.knots, c.points.length, c.at (1 / 3))) =
    some ([0, 0, 0, 1 / 2, 1, 1, 1], 4, quarter.at (1 / 3)) := by decide +kernel

/-- C48: any number of insertions in a row. -/
theorem insert_knots_spec {c : Curve K} {p n : Nat} (h : c.Valid p n) (hw : ∀ w ∈ c.weights, 0 < w) (us : List K)
    (hu : ∀ u ∈ us, 0 ≤ u ∧ u ≤ 1) :
    ∃ c', us.foldlM (fun c u => c.insertKnot u) c = some c' ∧ c'.Valid p (n + us.length) ∧
      (∀ w ∈ c'.weights, 0 < w) ∧ c'.knots.Perm (us ++ c.knots) ∧ ∀ t, c'.at t = c.at t := by
  induction us generalizing c n with
  | nil => exact ⟨c, rfl, h, hw, List.Perm.refl _, fun _ => rfl⟩
  | cons u us ih =>
    obtain ⟨c1, e1, v1, w1, k1, s1⟩ := insert_knot_spec h hw (hu u (by simp)).1 (hu u (by simp)).2
    obtain ⟨c2, e2, v2, w2, k2, s2⟩ := ih v1 w1 fun x hx => hu x (by simp [hx])
    refine ⟨c2, ?_, ?_, w2, ?_, fun t => (s2 t).trans (s1 t)⟩
    · rw [List.foldlM_cons, e1]; exact e2
    · rw [List.length_cons, show n + (us.length + 1) = n + 1 + us.length by omega]; exact v2
    · refine k2.trans ((List.Perm.append_left us k1).trans ?_)
      exact List.perm_middle

/-- C48, outside the domain: inserting a knot beyond 1 stretches the knots back to
`[0, 1]`, so every parameter moves. -/
theorem insert_knot_outside :
    (quarter.insertKnot 2).map (fun c => decide (c.at (1 / 2) = quarter.at (1 / 2))) = some false := by
  decide +kernel

end Nurbs
end CAD
