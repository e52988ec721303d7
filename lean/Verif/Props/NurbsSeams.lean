import Verif.Props.NurbsRounded
import Verif.Props.NurbsLocal

/-! C117: the ends of curves and the sides of surfaces in rounded arithmetic: no cracks. -/

set_option linter.unusedSimpArgs false

namespace CAD
namespace Nurbs
open BSpline

/-- What is assumed of the rounding: it keeps 0, 1 and its own results. -/
structure Keeps (fl : ℝ → ℝ) : Prop where
  zero : fl 0 = 0
  one : fl 1 = 1
  idem : ∀ x, fl (fl x) = fl x

/-- the knots are told apart by the rounded difference (true for any two different `double`s) -/
def Apart (fl : ℝ → ℝ) (knots : List ℝ) : Prop := ∀ a ∈ knots, ∀ b ∈ knots, a < b → fl (b - a) ≠ 0

variable {fl : ℝ → ℝ}

/-- a point whose coordinates are numbers of the format -/
def Kept (fl : ℝ → ℝ) (p : P3 ℝ) : Prop := fl p.x = p.x ∧ fl p.y = p.y ∧ fl p.z = p.z

section triangle
variable {M : Type} {B : Nat → Nat → M → M → M} {p k : Nat}

theorem levBy_left (S : M → Prop) (hB : ∀ i j x y, i ≤ k → k < j → S x → B i j x y = x) {f : Nat → M} (hf : ∀ i, S (f i)) (hpk : p ≤ k) :
    levBy B p f p k = f (k - p) := by
  have key : ∀ r ≤ p, ∀ i ≤ k, k ≤ i + (p - r) → levBy B p f r i = f (i - r) := by
    intro r
    induction r with
    | zero => intro _ i _ _; rfl
    | succ r ih =>
      intro hr i h1 h2
      show B i (i + (p - r)) (levBy B p f r (i - 1)) (levBy B p f r i) = _
      rw [ih (by omega) (i - 1) (by omega) (by omega), hB i _ _ _ h1 (by omega) (hf _)]
      congr 1
      omega
  exact key p le_rfl k le_rfl (by omega)

theorem levBy_right (S : M → Prop) (hB : ∀ i j x y, i ≤ k → k < j → S y → B i j x y = y) {f : Nat → M} (hf : ∀ i, S (f i)) :
    levBy B p f p k = f k := by
  have key : ∀ r ≤ p, ∀ i ≤ k, k ≤ i + (p - r) → levBy B p f r i = f i := by
    intro r
    induction r with
    | zero => intro _ i _ _; rfl
    | succ r ih =>
      intro hr i h1 h2
      show B i (i + (p - r)) (levBy B p f r (i - 1)) (levBy B p f r i) = _
      rw [ih (by omega) i (by omega) (by omega), hB i _ _ _ h1 (by omega) (hf _)]
  exact key p le_rfl k le_rfl (by omega)

theorem levBy_mem (S : M → Prop) (hB : ∀ i j x y, S (B i j x y)) {f : Nat → M} (hf : ∀ i, S (f i)) (r i : Nat) : S (levBy B p f r i) := by
  cases r with
  | zero => exact hf i
  | succ r => exact hB _ _ _ _

theorem levBy_congr {f g : Nat → M} (h : ∀ i, i ≤ k → k ≤ i + p → f i = g i) : levBy B p f p k = levBy B p g p k := by
  have key : ∀ r ≤ p, ∀ i ≤ k, k ≤ i + (p - r) → levBy B p f r i = levBy B p g r i := by
    intro r
    induction r with
    | zero => intro _ i h1 h2; exact h i h1 (by omega)
    | succ r ih =>
      intro hr i h1 h2
      show B i (i + (p - r)) (levBy B p f r (i - 1)) (levBy B p f r i) = B i (i + (p - r)) (levBy B p g r (i - 1)) (levBy B p g r i)
      rw [ih (by omega) i (by omega) (by omega), ih (by omega) (i - 1) (by omega) (by omega)]
  exact key p le_rfl k le_rfl (by omega)

end triangle

theorem weigh_kept (H : Keeps fl) (w : ℝ) (p : P3 ℝ) : Kept fl ((roundedOps fl).weigh w p) := ⟨H.idem _, H.idem _, H.idem _⟩

theorem blendP_kept (H : Keeps fl) (a : ℝ) (p q : P3 ℝ) : Kept fl ((roundedOps fl).blendP a p q) := ⟨H.idem _, H.idem _, H.idem _⟩

theorem blendW_kept (H : Keeps fl) (a w v : ℝ) : fl ((roundedOps fl).blendW a w v) = (roundedOps fl).blendW a w v := H.idem _

theorem blendP_zero (H : Keeps fl) {p : P3 ℝ} (hp : Kept fl p) (q : P3 ℝ) : (roundedOps fl).blendP 0 p q = p := by
  obtain ⟨a, b, c⟩ := hp
  ext <;> simp [roundedOps, Rounded.add, Rounded.scale, H.zero, H.one, a, b, c]

theorem blendP_one (H : Keeps fl) {q : P3 ℝ} (hq : Kept fl q) (p : P3 ℝ) : (roundedOps fl).blendP 1 p q = q := by
  obtain ⟨a, b, c⟩ := hq
  ext <;> simp [roundedOps, Rounded.add, Rounded.scale, H.zero, H.one, a, b, c]

theorem blendW_zero (H : Keeps fl) {w : ℝ} (hw : fl w = w) (v : ℝ) : (roundedOps fl).blendW 0 w v = w := by
  simp [roundedOps, H.zero, H.one, hw]

theorem blendW_one (H : Keeps fl) {v : ℝ} (hv : fl v = v) (w : ℝ) : (roundedOps fl).blendW 1 w v = v := by
  simp [roundedOps, H.zero, H.one, hv]

/-- the quotients of a span exist -/
theorem alpha_some {knots : List ℝ} {p n k : Nat} (hk : ClampedKnots knots p n) (ha : Apart fl knots) {t : ℝ} (hs : InSpan knots t k) (u : ℝ)
    (i j : Nat) (hi : i ≤ k) (hj : k < j) :
    (roundedOps fl).alpha u (kn knots i) (kn knots j) = some (fl (fl (u - kn knots i) / fl (kn knots j - kn knots i))) := by
  have m1 := hk.mono hi
  have m2 := hk.mono (show k + 1 ≤ j from hj)
  have lt : kn knots i < kn knots j := lt_of_le_of_lt m1 (lt_of_lt_of_le hs.1 m2)
  simp only [roundedOps, if_neg (ha _ (kn_mem hk i) _ (kn_mem hk j) lt)]

theorem alpha_zero (H : Keeps fl) {knots : List ℝ} {p n : Nat} (hk : ClampedKnots knots p n) (ha : Apart fl knots) (h1 : 0 < kn knots (p + 1))
    (i j : Nat) (hi : i ≤ p) (hj : p < j) : (roundedOps fl).alpha 0 (kn knots i) (kn knots j) = some 0 := by
  rw [alpha_some hk ha (span_zero hk h1) 0 i j hi hj, hk.kn_first hi, sub_zero, H.zero, zero_div, H.zero]

theorem alpha_one (H : Keeps fl) {knots : List ℝ} {p n : Nat} (hk : ClampedKnots knots p n) (ha : Apart fl knots) (h1 : kn knots (n - 1) < 1)
    (i j : Nat) (hi : i ≤ n - 1) (hj : n - 1 < j) : (roundedOps fl).alpha 1 (kn knots i) (kn knots j) = some 1 := by
  have lt : kn knots i < kn knots j := by
    rw [hk.kn_last (i := j) (by omega)]
    exact lt_of_le_of_lt (hk.mono hi) h1
  have ne := ha _ (kn_mem hk i) _ (kn_mem hk j) lt
  rw [alpha_some hk ha (span_one hk h1) 1 i j hi hj]
  rw [hk.kn_last (i := j) (by omega)] at ne ⊢
  rw [div_self ne, H.one]

/-- the end point of a curve: control point times weight, divided by the weight again -/
noncomputable def endPoint (fl : ℝ → ℝ) (w : ℝ) (p : P3 ℝ) : Res (P3 ℝ) := (roundedOps fl).divide ((roundedOps fl).weigh w p) w

theorem atRounded_eq {c : Curve ℝ} {p n k : Nat} (h : c.Valid p n) {t : ℝ} (hs : InSpan c.knots (clamp t) k) (A : Nat → Nat → ℝ)
    (hA : ∀ i j, i ≤ k → k < j → (roundedOps fl).alpha t (kn c.knots i) (kn c.knots j) = some (A i j)) :
    c.atRounded fl t = (roundedOps fl).divide
      (levBy (fun i j => (roundedOps fl).blendP (A i j)) p (fun i => (roundedOps fl).weigh (c.hw i) (c.points.getD i ⟨0, 0, 0⟩)) p k)
      (levBy (fun i j => (roundedOps fl).blendW (A i j)) p c.hw p k) := by
  obtain ⟨_, _, _, _, e⟩ := evaluateBy_eq (roundedOps fl) h hs A hA
  rw [Curve.atRounded, e, Option.map_map]
  exact Option.map_id'

theorem surface_atRounded_eq {s : Surface ℝ} {p q nu nv k l : Nat} (h : s.Valid p q nu nv) {a b : ℝ} (hk : InSpan s.knotsU (clamp a) k)
    (hl : InSpan s.knotsV (clamp b) l) (A B : Nat → Nat → ℝ)
    (hA : ∀ i j, i ≤ k → k < j → (roundedOps fl).alpha a (kn s.knotsU i) (kn s.knotsU j) = some (A i j))
    (hB : ∀ i j, i ≤ l → l < j → (roundedOps fl).alpha b (kn s.knotsV i) (kn s.knotsV j) = some (B i j)) :
    s.atRounded fl a b = (roundedOps fl).divide
      (levBy (fun i j => (roundedOps fl).blendP (B i j)) q (fun j =>
        levBy (fun i j => (roundedOps fl).blendP (A i j)) p (fun i => (roundedOps fl).weigh (s.wt nu i j) (s.pt nu i j)) p k) q l)
      (levBy (fun i j => (roundedOps fl).blendW (B i j)) q (fun j =>
        levBy (fun i j => (roundedOps fl).blendW (A i j)) p (fun i => s.wt nu i j) p k) q l) := by
  obtain ⟨_, _, _, _, _, _, _, _, e⟩ := surface_evaluateBy_eq (roundedOps fl) h hk hl A B hA hB
  rw [Surface.atRounded, e, Option.map_map]
  exact Option.map_id'

theorem hw_kept (H : Keeps fl) {c : Curve ℝ} (hw : ∀ w ∈ c.weights, fl w = w) (i : Nat) : fl (c.hw i) = c.hw i := by
  by_cases hi : i < c.weights.length
  · exact hw _ (List.mem_of_getElem? (getD_of_lt c.weights 0 hi))
  · have : c.weights[i]? = none := List.getElem?_eq_none (by omega)
    simp [Curve.hw, List.getD, this, H.zero]

theorem wt_kept (H : Keeps fl) {s : Surface ℝ} (hw : ∀ w ∈ s.weights, fl w = w) (nu i j : Nat) : fl (s.wt nu i j) = s.wt nu i j := by
  by_cases hi : i + nu * j < s.weights.length
  · exact hw _ (List.mem_of_getElem? (getD_of_lt s.weights 0 hi))
  · have : s.weights[i + nu * j]? = none := List.getElem?_eq_none (by omega)
    simp [Surface.wt, List.getD, this, H.zero]

/-- **C117** the ends of a curve in rounded arithmetic only depend on the end control points and
their weights -/
theorem curve_ends_rounded (H : Keeps fl) {c : Curve ℝ} {p n : Nat} (h : c.Valid p n) (ha : Apart fl c.knots) (hw : ∀ w ∈ c.weights, fl w = w)
    (h0 : 0 < kn c.knots (p + 1)) (h1 : kn c.knots (n - 1) < 1) :
    c.atRounded fl 0 = endPoint fl (c.weights.getD 0 0) (c.points.getD 0 ⟨0, 0, 0⟩) ∧
    c.atRounded fl 1 = endPoint fl (c.weights.getD (n - 1) 0) (c.points.getD (n - 1) ⟨0, 0, 0⟩) := by
  have pn := h.knots.p_lt_n
  constructor
  · rw [atRounded_eq h (span_zero h.knots h0) (fun _ _ => 0) (alpha_zero H h.knots ha h0),
      levBy_left (Kept fl) (fun _ _ x y _ _ hx => blendP_zero H hx y) (fun i => weigh_kept H _ _) le_rfl,
      levBy_left (fun w => fl w = w) (fun _ _ x y _ _ hx => blendW_zero H hx y) (hw_kept H hw) le_rfl, Nat.sub_self]
    rfl
  · rw [atRounded_eq h (span_one h.knots h1) (fun _ _ => 1) (alpha_one H h.knots ha h1),
      levBy_right (Kept fl) (fun _ _ x y _ _ hy => blendP_one H hy x) (fun i => weigh_kept H _ _),
      levBy_right (fun w => fl w = w) (fun _ _ x y _ _ hy => blendW_one H hy x) (hw_kept H hw)]
    rfl

/-- **C117** a closed curve closes exactly: bit by bit the same point at 0 and 1 -/
theorem closed_curve_rounded (H : Keeps fl) {c : Curve ℝ} {p n : Nat} (h : c.Valid p n) (ha : Apart fl c.knots) (hw : ∀ w ∈ c.weights, fl w = w)
    (h0 : 0 < kn c.knots (p + 1)) (h1 : kn c.knots (n - 1) < 1) (hp : c.points.head? = c.points.getLast?)
    (hwe : c.weights.head? = c.weights.getLast?) : c.atRounded fl 0 = c.atRounded fl 1 := by
  obtain ⟨e0, e1⟩ := curve_ends_rounded H h ha hw h0 h1
  rw [List.head?_eq_getElem?, List.getLast?_eq_getElem?, h.points] at hp
  rw [List.head?_eq_getElem?, List.getLast?_eq_getElem?, h.weights] at hwe
  rw [e0, e1]
  simp only [List.getD, hp, hwe]

/-- **C117** with weight 1 the end is the control point itself -/
theorem endPoint_one {p : P3 ℝ} (hp : Kept fl p) : endPoint fl 1 p = some p := by
  obtain ⟨a, b, c⟩ := hp
  simp [endPoint, roundedOps, Rounded.scale, a, b, c]

/-- **C117** The four sides of a surface in rounded arithmetic are, bit by bit, the curves of the
first and last columns and rows of its net. -/
theorem surface_sides_rounded (H : Keeps fl) {s : Surface ℝ} {p q nu nv : Nat} (h : s.Valid p q nu nv) (hu : Apart fl s.knotsU)
    (hv : Apart fl s.knotsV) (hw : ∀ w ∈ s.weights, fl w = w) :
    (0 < kn s.knotsU (p + 1) → ∀ c, IsColumn s c q nu nv 0 → ∀ v, s.atRounded fl 0 v = c.atRounded fl v) ∧
    (kn s.knotsU (nu - 1) < 1 → ∀ c, IsColumn s c q nu nv (nu - 1) → ∀ v, s.atRounded fl 1 v = c.atRounded fl v) ∧
    (0 < kn s.knotsV (q + 1) → ∀ c, IsRow s c p nu 0 → ∀ u, s.atRounded fl u 0 = c.atRounded fl u) ∧
    (kn s.knotsV (nv - 1) < 1 → ∀ c, IsRow s c p nu (nv - 1) → ∀ u, s.atRounded fl u 1 = c.atRounded fl u) := by
  have pu := h.knotsU.p_lt_n
  have pv := h.knotsV.p_lt_n
  have ws := wt_kept H hw nu
  have colP : ∀ {i c}, IsColumn s c q nu nv i → ∀ j < nv, c.hw j = s.wt nu i j ∧ c.points.getD j ⟨0, 0, 0⟩ = s.pt nu i j := by
    rintro i c ⟨-, -, e1, e2⟩ j hj
    simp [Curve.hw, e1, e2, List.getD, hj]
  have rowP : ∀ {j c}, IsRow s c p nu j → ∀ i < nu, c.hw i = s.wt nu i j ∧ c.points.getD i ⟨0, 0, 0⟩ = s.pt nu i j := by
    rintro j c ⟨-, -, e1, e2⟩ i hi
    simp [Curve.hw, e1, e2, List.getD, hi]
  refine ⟨fun h1 c hc v => ?_, fun h1 c hc v => ?_, fun h1 c hc u => ?_, fun h1 c hc u => ?_⟩
  · obtain ⟨l, hl⟩ := exists_inSpan h.knotsV (clamp_nonneg v) (clamp_le_one v)
    obtain ⟨hql, hln⟩ := hl.range h.knotsV
    rw [surface_atRounded_eq h (span_zero h.knotsU h1) hl (fun _ _ => 0) _ (alpha_zero H h.knotsU hu h1) (alpha_some h.knotsV hv hl v),
      atRounded_eq hc.1 (by rw [hc.2.1]; exact hl) _ (by rw [hc.2.1]; exact alpha_some h.knotsV hv hl v)]
    congr 1
    · refine levBy_congr fun j h3 h4 => ?_
      rw [levBy_left (Kept fl) (fun _ _ x y _ _ hx => blendP_zero H hx y) (fun i => weigh_kept H _ _) le_rfl, Nat.sub_self,
        (colP hc j (by omega)).1, (colP hc j (by omega)).2]
    · refine levBy_congr fun j h3 h4 => ?_
      rw [levBy_left (fun w => fl w = w) (fun _ _ x y _ _ hx => blendW_zero H hx y) (fun i => ws i j) le_rfl, Nat.sub_self,
        (colP hc j (by omega)).1]
  · obtain ⟨l, hl⟩ := exists_inSpan h.knotsV (clamp_nonneg v) (clamp_le_one v)
    obtain ⟨hql, hln⟩ := hl.range h.knotsV
    rw [surface_atRounded_eq h (span_one h.knotsU h1) hl (fun _ _ => 1) _ (alpha_one H h.knotsU hu h1) (alpha_some h.knotsV hv hl v),
      atRounded_eq hc.1 (by rw [hc.2.1]; exact hl) _ (by rw [hc.2.1]; exact alpha_some h.knotsV hv hl v)]
    congr 1
    · refine levBy_congr fun j h3 h4 => ?_
      rw [levBy_right (Kept fl) (fun _ _ x y _ _ hy => blendP_one H hy x) (fun i => weigh_kept H _ _),
        (colP hc j (by omega)).1, (colP hc j (by omega)).2]
    · refine levBy_congr fun j h3 h4 => ?_
      rw [levBy_right (fun w => fl w = w) (fun _ _ x y _ _ hy => blendW_one H hy x) (fun i => ws i j), (colP hc j (by omega)).1]
  · obtain ⟨k, hk⟩ := exists_inSpan h.knotsU (clamp_nonneg u) (clamp_le_one u)
    obtain ⟨hpk, hkn⟩ := hk.range h.knotsU
    rw [surface_atRounded_eq h hk (span_zero h.knotsV h1) _ (fun _ _ => 0) (alpha_some h.knotsU hu hk u) (alpha_zero H h.knotsV hv h1),
      atRounded_eq hc.1 (by rw [hc.2.1]; exact hk) _ (by rw [hc.2.1]; exact alpha_some h.knotsU hu hk u),
      levBy_left (Kept fl) (fun _ _ x y _ _ hx => blendP_zero H hx y)
        (fun j => levBy_mem (Kept fl) (fun _ _ x y => blendP_kept H _ x y) (fun i => weigh_kept H _ _) _ _) le_rfl,
      levBy_left (fun w => fl w = w) (fun _ _ x y _ _ hx => blendW_zero H hx y)
        (fun j => levBy_mem (fun w => fl w = w) (fun _ _ x y => blendW_kept H _ x y) (fun i => ws i j) _ _) le_rfl, Nat.sub_self]
    congr 1
    · refine levBy_congr fun i h3 h4 => ?_
      rw [(rowP hc i (by omega)).1, (rowP hc i (by omega)).2]
    · exact levBy_congr fun i h3 h4 => (rowP hc i (by omega)).1.symm
  · obtain ⟨k, hk⟩ := exists_inSpan h.knotsU (clamp_nonneg u) (clamp_le_one u)
    obtain ⟨hpk, hkn⟩ := hk.range h.knotsU
    rw [surface_atRounded_eq h hk (span_one h.knotsV h1) _ (fun _ _ => 1) (alpha_some h.knotsU hu hk u) (alpha_one H h.knotsV hv h1),
      atRounded_eq hc.1 (by rw [hc.2.1]; exact hk) _ (by rw [hc.2.1]; exact alpha_some h.knotsU hu hk u),
      levBy_right (Kept fl) (fun _ _ x y _ _ hy => blendP_one H hy x)
        (fun j => levBy_mem (Kept fl) (fun _ _ x y => blendP_kept H _ x y) (fun i => weigh_kept H _ _) _ _),
      levBy_right (fun w => fl w = w) (fun _ _ x y _ _ hy => blendW_one H hy x)
        (fun j => levBy_mem (fun w => fl w = w) (fun _ _ x y => blendW_kept H _ x y) (fun i => ws i j) _ _)]
    congr 1
    · refine levBy_congr fun i h3 h4 => ?_
      rw [(rowP hc i (by omega)).1, (rowP hc i (by omega)).2]
    · exact levBy_congr fun i h3 h4 => (rowP hc i (by omega)).1.symm

/-- **C117** no cracks: if the last row of one net is the first row of another one, with the same
weights, degree and knots, the rounded surfaces agree bit by bit along that side, whatever the rest
of the two nets is -/
theorem surfaces_join_rounded (H : Keeps fl) {s s' : Surface ℝ} {p q q' nu nv nv' : Nat} (h : s.Valid p q nu nv) (h' : s'.Valid p q' nu nv')
    (hu : Apart fl s.knotsU) (hv : Apart fl s.knotsV) (hv' : Apart fl s'.knotsV) (hw : ∀ w ∈ s.weights, fl w = w) (hw' : ∀ w ∈ s'.weights, fl w = w)
    (hk : s.knotsU = s'.knotsU) (h1 : kn s.knotsV (nv - 1) < 1) (h2 : 0 < kn s'.knotsV (q' + 1))
    (hpt : ∀ i < nu, s.pt nu i (nv - 1) = s'.pt nu i 0 ∧ s.wt nu i (nv - 1) = s'.wt nu i 0) (u : ℝ) : s.atRounded fl u 1 = s'.atRounded fl u 0 := by
  have hr : IsRow s (s.row p nu (nv - 1)) p nu (nv - 1) := ⟨row_valid h _, rfl, rfl, rfl⟩
  have hr' : IsRow s' (s.row p nu (nv - 1)) p nu 0 := by
    refine ⟨row_valid h _, hk, ?_, ?_⟩
    · exact List.map_congr_left fun i hi => (hpt i (List.mem_range.1 hi)).1
    · exact List.map_congr_left fun i hi => (hpt i (List.mem_range.1 hi)).2
  rw [(surface_sides_rounded H h hu hv hw).2.2.2 h1 _ hr u, (surface_sides_rounded H h' (hk ▸ hu) hv' hw').2.2.1 h2 _ hr' u]

/-- **C117** a surface whose first and last columns agree is closed bit by bit in the first direction -/
theorem closed_surface_rounded (H : Keeps fl) {s : Surface ℝ} {p q nu nv : Nat} (h : s.Valid p q nu nv)
    (hu : Apart fl s.knotsU) (hv : Apart fl s.knotsV) (hw : ∀ w ∈ s.weights, fl w = w)
    (h1 : 0 < kn s.knotsU (p + 1)) (h2 : kn s.knotsU (nu - 1) < 1)
    (hpt : ∀ j < nv, s.pt nu 0 j = s.pt nu (nu - 1) j ∧ s.wt nu 0 j = s.wt nu (nu - 1) j) (v : ℝ) : s.atRounded fl 0 v = s.atRounded fl 1 v := by
  have hr : IsColumn s (s.col q nu nv 0) q nu nv 0 := ⟨col_valid h _, rfl, rfl, rfl⟩
  have hr' : IsColumn s (s.col q nu nv 0) q nu nv (nu - 1) := by
    refine ⟨col_valid h _, rfl, ?_, ?_⟩
    · exact List.map_congr_left fun i hi => (hpt i (List.mem_range.1 hi)).1
    · exact List.map_congr_left fun i hi => (hpt i (List.mem_range.1 hi)).2
  rw [(surface_sides_rounded H h hu hv hw).1 h1 _ hr v, (surface_sides_rounded H h hu hv hw).2.1 h2 _ hr' v]

/-! ### IEEE double -/

theorem keeps_double : Keeps double := by
  refine ⟨ieee_zero, ?_, fun x => ieee_kept (ieee_representable (by norm_num) x)⟩
  have := ieee_int (p := 53) (emin := -1074) (by norm_num) (k := 1) (by norm_num)
  simpa [double] using this

/-- a number of the double format (without the upper end of the range) -/
abbrev IsDouble (x : ℝ) : Prop := Representable 53 (-1074) x

theorem IsDouble.keep {x : ℝ} (h : IsDouble x) : double x = x := ieee_kept h

theorem apart_double {knots : List ℝ} (h : ∀ a ∈ knots, IsDouble a) : Apart double knots :=
  fun a ha b hb lt => ieee_sub_ne_zero (by norm_num) (h b hb) (h a ha) lt.ne'

/-- **C117** in `double`: ends of a curve with weight 1 there are the end control points themselves -/
theorem curve_ends_double {c : Curve ℝ} {p n : Nat} (h : c.Valid p n) (hk : ∀ a ∈ c.knots, IsDouble a) (hw : ∀ w ∈ c.weights, IsDouble w)
    (hp : ∀ q ∈ c.points, IsDouble q.x ∧ IsDouble q.y ∧ IsDouble q.z) (h0 : 0 < kn c.knots (p + 1)) (h1 : kn c.knots (n - 1) < 1)
    (w0 : c.weights.head? = some 1) (w1 : c.weights.getLast? = some 1) :
    c.atRounded double 0 = c.points.head? ∧ c.atRounded double 1 = c.points.getLast? := by
  obtain ⟨e0, e1⟩ := curve_ends_rounded keeps_double h (apart_double hk) (fun w m => (hw w m).keep) h0 h1
  have pn := h.knots.p_lt_n
  rw [List.head?_eq_getElem?] at w0 ⊢
  rw [List.getLast?_eq_getElem?, h.weights] at w1
  rw [List.getLast?_eq_getElem?, h.points, e0, e1]
  have len := h.points
  have g : ∀ i (hi : i < c.points.length), endPoint double 1 (c.points.getD i ⟨0, 0, 0⟩) = c.points[i]? := by
    intro i hi
    have : c.points[i]? = some c.points[i] := List.getElem?_eq_getElem hi
    obtain ⟨a, b, d⟩ := hp c.points[i] (List.getElem_mem hi)
    simp only [List.getD, this, Option.getD_some]
    exact endPoint_one ⟨a.keep, b.keep, d.keep⟩
  simp only [List.getD, w0, w1, Option.getD_some]
  exact ⟨g 0 (by omega), g (n - 1) (by omega)⟩

/-- **C117** in `double`: two patches that share a row of the net have no crack between them -/
theorem surfaces_join_double {s s' : Surface ℝ} {p q q' nu nv nv' : Nat} (h : s.Valid p q nu nv) (h' : s'.Valid p q' nu nv')
    (d : ∀ x ∈ s.knotsU ++ s.knotsV ++ s'.knotsV ++ s.weights ++ s'.weights, IsDouble x)
    (hk : s.knotsU = s'.knotsU) (h1 : kn s.knotsV (nv - 1) < 1) (h2 : 0 < kn s'.knotsV (q' + 1))
    (hpt : ∀ i < nu, s.pt nu i (nv - 1) = s'.pt nu i 0 ∧ s.wt nu i (nv - 1) = s'.wt nu i 0) (u : ℝ) :
    s.atRounded double u 1 = s'.atRounded double u 0 := by
  simp only [List.mem_append] at d
  exact surfaces_join_rounded keeps_double h h' (apart_double fun a m => d a (by tauto)) (apart_double fun a m => d a (by tauto))
    (apart_double fun a m => d a (by tauto)) (fun w m => IsDouble.keep (d w (by tauto))) (fun w m => IsDouble.keep (d w (by tauto))) hk h1 h2 hpt u

/-- **C117** in `double`: a surface with the same first and last column is closed exactly -/
theorem closed_surface_double {s : Surface ℝ} {p q nu nv : Nat} (h : s.Valid p q nu nv)
    (d : ∀ x ∈ s.knotsU ++ s.knotsV ++ s.weights, IsDouble x) (h1 : 0 < kn s.knotsU (p + 1)) (h2 : kn s.knotsU (nu - 1) < 1)
    (hpt : ∀ j < nv, s.pt nu 0 j = s.pt nu (nu - 1) j ∧ s.wt nu 0 j = s.wt nu (nu - 1) j) (v : ℝ) : s.atRounded double 0 v = s.atRounded double 1 v := by
  simp only [List.mem_append] at d
  exact closed_surface_rounded keeps_double h (apart_double fun a m => d a (by tauto)) (apart_double fun a m => d a (by tauto))
    (fun w m => IsDouble.keep (d w (by tauto))) h1 h2 hpt v

/-! ### Concrete cases -/

theorem isDouble_int (k : ℤ) (h : |k| < 2 ^ 53) : IsDouble k := ⟨k, 0, h, by norm_num, by simp⟩

theorem isDouble_zero : IsDouble 0 := by simpa using isDouble_int 0 (by norm_num)
theorem isDouble_one : IsDouble 1 := by simpa using isDouble_int 1 (by norm_num)
theorem isDouble_three_quarters : IsDouble (3 / 4) := ⟨3, -2, by norm_num, by norm_num, by norm_num⟩

/-- `arcR` starts and ends exactly in its control points -/
example : arcR.atRounded double 0 = some ⟨1, 0, 0⟩ ∧ arcR.atRounded double 1 = some ⟨0, 1, 0⟩ := by
  have z := isDouble_zero
  have o := isDouble_one
  refine curve_ends_double arcR_valid ?_ ?_ ?_ ?_ ?_ rfl rfl
  · simp [arcR, z, o]
  · simp [arcR, o, isDouble_three_quarters]
  · simp [arcR, z, o]
  · show (0 : ℝ) < 1
    norm_num
  · show (0 : ℝ) < 1
    norm_num

/-- a drop shaped tube from height `a` to height `b`, its middle column of weight 3/4 -/
noncomputable def tubeR (a b : ℝ) : Surface ℝ := ⟨2, 1, 3, 2, false, false, [0, 0, 0, 1, 1, 1], [0, 0, 1, 1], [1, 3 / 4, 1, 1, 3 / 4, 1],
  [⟨1, 0, a⟩, ⟨0, 2, a⟩, ⟨1, 0, a⟩, ⟨1, 0, b⟩, ⟨0, 2, b⟩, ⟨1, 0, b⟩],
  [⟨0, 0, 0⟩, ⟨0, 0, 0⟩, ⟨0, 0, 0⟩], [⟨0, 0, 0⟩, ⟨0, 0, 0⟩], [0, 0, 0], [0, 0]⟩

theorem tubeR_valid (a b : ℝ) : (tubeR a b).Valid 2 1 3 2 := by
  refine ⟨rfl, rfl, rfl, rfl, rfl, rfl, ⟨rfl, by simp [tubeR], ?_, ?_⟩, ⟨rfl, by simp [tubeR], ?_, ?_⟩,
    by simp [tubeR], by simp [tubeR], by simp [tubeR], by simp [tubeR]⟩
  · intro i hi
    obtain rfl | rfl | rfl : i = 0 ∨ i = 1 ∨ i = 2 := by omega
    all_goals rfl
  · intro i h1 h2
    obtain rfl | rfl | rfl : i = 3 ∨ i = 4 ∨ i = 5 := by omega
    all_goals rfl
  · intro i hi
    obtain rfl | rfl : i = 0 ∨ i = 1 := by omega
    all_goals rfl
  · intro i h1 h2
    obtain rfl | rfl : i = 2 ∨ i = 3 := by omega
    all_goals rfl

/-- the tube is closed exactly, and continues without a crack in the next one -/
example (a b c t : ℝ) : (tubeR a b).atRounded double 0 t = (tubeR a b).atRounded double 1 t ∧
    (tubeR a b).atRounded double t 1 = (tubeR b c).atRounded double t 0 := by
  have z := isDouble_zero
  have o := isDouble_one
  have w := isDouble_three_quarters
  constructor
  · refine closed_surface_double (tubeR_valid a b) (by simp [tubeR, z, o, w]) ?_ ?_ ?_ t
    · show (0 : ℝ) < 1
      norm_num
    · show (0 : ℝ) < 1
      norm_num
    · intro j hj
      obtain rfl | rfl : j = 0 ∨ j = 1 := by omega
      all_goals exact ⟨rfl, rfl⟩
  · refine surfaces_join_double (tubeR_valid a b) (tubeR_valid b c) (by simp [tubeR, z, o, w]) rfl ?_ ?_ ?_ t
    · show (0 : ℝ) < 1
      norm_num
    · show (0 : ℝ) < 1
      norm_num
    · intro j hj
      obtain rfl | rfl | rfl : j = 0 ∨ j = 1 ∨ j = 2 := by omega
      all_goals exact ⟨rfl, rfl⟩

/-! ### The end points for other weights -/

/-- the product of the two numbers rounds down to a power of two -/
theorem double_mul_witness : double ((2 ^ 52 + 1) * (2 ^ 53 - 1)) = 2 ^ 105 := by
  have r : IsDouble (2 ^ 105) := ⟨1, 105, by norm_num, by norm_num, by norm_num⟩
  have near := ieee_nearest (p := 53) (emin := -1074) ((2 ^ 52 + 1) * (2 ^ 53 - 1)) r
  obtain ⟨m, e, hm, -, he⟩ := ieee_representable (p := 53) (emin := -1074) (by norm_num) ((2 ^ 52 + 1) * (2 ^ 53 - 1))
  change double ((2 ^ 52 + 1) * (2 ^ 53 - 1)) = _ at he
  change |double ((2 ^ 52 + 1) * (2 ^ 53 - 1)) - _| ≤ _ at near
  rw [he] at near ⊢
  have b : |(2 : ℝ) ^ 105 - (2 ^ 52 + 1) * (2 ^ 53 - 1)| = 2 ^ 52 - 1 := by
    rw [abs_of_nonpos (by norm_num)]
    norm_num
  rw [b, abs_le] at near
  have lo : (2 : ℝ) ^ 105 ≤ m * 2 ^ e := by norm_num at near ⊢; linarith [near.1]
  have hi : (m : ℝ) * 2 ^ e < 2 ^ 105 + 2 ^ 53 := by norm_num at near ⊢; linarith [near.2]
  have m1 : (m : ℝ) < 2 ^ 53 := by exact_mod_cast (le_abs_self m).trans_lt hm
  have e53 : 53 ≤ e := by
    by_contra hc
    push Not at hc
    have : (2 : ℝ) ^ e ≤ 2 ^ (52 : ℤ) := zpow_le_zpow_right₀ (by norm_num) (by omega)
    have two : (0 : ℝ) < 2 ^ e := by positivity
    have : (m : ℝ) * 2 ^ e < 2 ^ 53 * 2 ^ (52 : ℤ) := by
      rcases le_or_gt (m : ℝ) 0 with h0 | h0
      · have : (m : ℝ) * 2 ^ e ≤ 0 := mul_nonpos_of_nonpos_of_nonneg h0 two.le
        exact lt_of_le_of_lt this (by positivity)
      · nlinarith
    norm_num at this lo
    linarith
  obtain ⟨f, rfl⟩ : ∃ f : ℕ, e = f + 53 := ⟨(e - 53).toNat, by omega⟩
  have k : (m : ℝ) * 2 ^ ((f : ℤ) + 53) = ((m * 2 ^ f : ℤ) : ℝ) * 2 ^ 53 := by
    push_cast
    rw [zpow_add₀ (by norm_num), zpow_natCast, mul_assoc]
    norm_num
  rw [k] at lo hi ⊢
  have lo' : (2 : ℝ) ^ 52 ≤ ((m * 2 ^ f : ℤ) : ℝ) := by norm_num at lo ⊢; linarith
  have hi' : ((m * 2 ^ f : ℤ) : ℝ) < 2 ^ 52 + 1 := by norm_num at hi ⊢; linarith
  have lo'' : (2 : ℤ) ^ 52 ≤ m * 2 ^ f := by exact_mod_cast lo'
  have hi'' : m * 2 ^ f < (2 : ℤ) ^ 52 + 1 := by exact_mod_cast hi'
  have : m * 2 ^ f = (2 : ℤ) ^ 52 := by omega
  rw [this]
  norm_num

theorem double_div_witness : double (2 ^ 105 / (2 ^ 52 + 1)) ≠ 2 ^ 53 - 1 := by
  have r : IsDouble ((2 ^ 53 - 2 : ℤ) : ℝ) := isDouble_int _ (by norm_num)
  have near := ieee_nearest (p := 53) (emin := -1074) (2 ^ 105 / (2 ^ 52 + 1)) r
  intro h
  change |double (2 ^ 105 / (2 ^ 52 + 1)) - _| ≤ _ at near
  rw [h] at near
  norm_num at near

/-- a segment that starts with the weight `2⁵² + 1`; with `2⁻⁵²` times this weight (and this point)
it is the same -/
noncomputable def heavyR : Curve ℝ := ⟨1, [0, 0, 1, 1], [2 ^ 52 + 1, 1], [⟨2 ^ 53 - 1, 0, 0⟩, ⟨0, 0, 0⟩], 2, [⟨0, 0, 0⟩, ⟨0, 0, 0⟩], [0, 0]⟩

/-- **C117** the negation for general weights: in `double` a curve does not start exactly in its
first control point, the weight it is multiplied with does not always divide out again -/
theorem curve_end_not_exact : heavyR.Valid 1 2 ∧ (∀ a ∈ heavyR.knots, IsDouble a) ∧ (∀ w ∈ heavyR.weights, IsDouble w ∧ 0 < w) ∧
    (∀ q ∈ heavyR.points, IsDouble q.x ∧ IsDouble q.y ∧ IsDouble q.z) ∧ heavyR.at 0 = heavyR.points.head? ∧
    heavyR.atRounded double 0 ≠ heavyR.points.head? := by
  have z := isDouble_zero
  have o := isDouble_one
  have w : IsDouble (2 ^ 52 + 1) := by
    have := isDouble_int (2 ^ 52 + 1) (by norm_num)
    norm_num at this ⊢
    exact this
  have x : IsDouble (2 ^ 53 - 1) := by
    have := isDouble_int (2 ^ 53 - 1) (by norm_num)
    norm_num at this ⊢
    exact this
  have hv : heavyR.Valid 1 2 := by
    refine ⟨rfl, rfl, rfl, rfl, ⟨rfl, by simp [heavyR], ?_, ?_⟩, by simp [heavyR], by simp [heavyR]⟩
    · intro i hi
      obtain rfl | rfl : i = 0 ∨ i = 1 := by omega
      all_goals rfl
    · intro i h1 h2
      obtain rfl | rfl : i = 2 ∨ i = 3 := by omega
      all_goals rfl
  have k : ∀ a ∈ heavyR.knots, IsDouble a := by simp [heavyR, z, o]
  have ws : ∀ a ∈ heavyR.weights, IsDouble a ∧ 0 < a := by
    simp only [heavyR, List.mem_cons, List.not_mem_nil, or_false, forall_eq_or_imp, forall_eq]
    exact ⟨⟨w, by norm_num⟩, o, by norm_num⟩
  refine ⟨hv, k, ws, ?_, ?_, ?_⟩
  · simp only [heavyR, List.mem_cons, List.not_mem_nil, or_false, forall_eq_or_imp, forall_eq]
    exact ⟨⟨x, z, z⟩, z, z, z⟩
  · refine evaluate_zero hv (by show (0 : ℝ) < 1; norm_num) ?_
    simp only [heavyR, List.head?_cons]
    norm_num
  · have e := (curve_ends_rounded keeps_double hv (apart_double k) (fun a m => (ws a m).1.keep) (by show (0 : ℝ) < 1; norm_num)
      (by show (0 : ℝ) < 1; norm_num)).1
    rw [e]
    simp only [heavyR, endPoint, roundedOps, Rounded.scale, List.getD, List.getElem?_cons_zero, Option.getD_some, List.head?_cons]
    rw [double_mul_witness, if_neg (by norm_num)]
    intro c
    injection c with c
    injection c with c
    exact double_div_witness c

end Nurbs
end CAD
