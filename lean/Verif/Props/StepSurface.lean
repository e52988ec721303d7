import Verif.Props.Step
import Verif.Spec.NurbsSurface
import Mathlib.Algebra.BigOperators.Group.Finset.Sigma

/-! The surface that a STEP reader finds in a file (C99). -/

namespace CAD.Step
set_option linter.unusedSimpArgs false
variable {K : Type}

/-! ### Specification: a rational B-spline surface as ISO 10303-42 describes it -/

/-- the attributes of the complex entity; the lists of control points and of weights are lists
over the index of the first parameter (u) of lists over the index of the second one (v) -/
structure Entity (K : Type) where
  uDegree : Int
  vDegree : Int
  net : List (List Int)
  uClosed : Bool
  vClosed : Bool
  uMult : List Int
  vMult : List Int
  uKnots : List K
  vKnots : List K
  weights : List (List K)

/-- a logical value -/
def logical (b : Bool) : Tok K := .s (cond b ".T." ".F.")

/-- rows in parentheses, one per line -/
def lined (l : List (List (Tok K))) : List (Tok K) := ((l.map tuple).intersperse [.s ",", nl]).flatten

/-- the text of the entity with the id `n`; form not specified, not self-intersecting -/
def Entity.toks (n : Int) (e : Entity K) : List (Tok K) :=
  [.id n, .eq false, .s "(", nl, .s "BOUNDED_SURFACE()", nl,
    .s "B_SPLINE_SURFACE(", .i e.uDegree, .s ",", .i e.vDegree, .s ",(", nl] ++ lined (e.net.map fun r => r.map .id) ++
  [nl, .s "),.UNSPECIFIED.,", logical e.uClosed, .s ",", logical e.vClosed, .s ",.F.", .s ")", nl] ++
  [.s "B_SPLINE_SURFACE_WITH_KNOTS(", nl] ++ tuple (e.uMult.map .i) ++ [.s ",", nl] ++ tuple (e.vMult.map .i) ++ [.s ",", nl] ++
    tuple (e.uKnots.map .d) ++ [.s ",", nl] ++ tuple (e.vKnots.map .d) ++ [.s ",", nl] ++ [.s ".UNSPECIFIED.)", nl] ++
  [.s "GEOMETRIC_REPRESENTATION_ITEM()", nl] ++
  [.s "RATIONAL_B_SPLINE_SURFACE((", nl] ++ lined (e.weights.map fun r => r.map .d) ++ [nl, .s "))", nl] ++
  [.s "REPRESENTATION_ITEM('')", nl, .s "SURFACE()", nl, .s ");"]

/-- the rules of the standard on the sizes: rectangular lists, and in both directions the
multiplicities sum up to the number of points plus the degree plus one -/
structure Entity.Conforms (e : Entity K) (nu nv : Nat) : Prop where
  rows : e.net.length = nu ∧ e.weights.length = nu
  columns : (∀ r ∈ e.net, r.length = nv) ∧ ∀ r ∈ e.weights, r.length = nv
  uSum : e.uMult.sum = nu + e.uDegree + 1
  vSum : e.vMult.sum = nv + e.vDegree + 1

section
variable [Field K]

/-- control point and weight of the indices `i` (u) and `j` (v); `pt` resolves ids -/
def Entity.pt (e : Entity K) (pt : Int → P3 K) (i j : Nat) : P3 K := pt ((e.net.getD i []).getD j 0)
def Entity.wt (e : Entity K) (i j : Nat) : K := (e.weights.getD i []).getD j 0

variable [LinearOrder K]

/-- denominator and numerator of the surface that the entity describes, on the knot spans `k`, `l` -/
def Entity.denom (e : Entity K) (nu nv k l : Nat) (u v : K) : K :=
  ∑ i ∈ Finset.range nu, ∑ j ∈ Finset.range nv,
    BSpline.basis (Nurbs.kn (expand e.uMult e.uKnots)) k u e.uDegree.toNat i * BSpline.basis (Nurbs.kn (expand e.vMult e.vKnots)) l v e.vDegree.toNat j * e.wt i j
def Entity.numer (e : Entity K) (pt : Int → P3 K) (nu nv k l : Nat) (u v : K) : P3 K :=
  ∑ i ∈ Finset.range nu, ∑ j ∈ Finset.range nv,
    (BSpline.basis (Nurbs.kn (expand e.uMult e.uKnots)) k u e.uDegree.toNat i * BSpline.basis (Nurbs.kn (expand e.vMult e.vKnots)) l v e.vDegree.toNat j * e.wt i j) • e.pt pt i j
end

/-! ### What is in the file -/

/-- the entity written for a surface: its lists of control points run over v first -/
def written (a : Nurbs.Surface K) (next : Int) (nu nv du dv : Nat) (x0 : K) : Entity K :=
  ⟨a.degreeU, a.degreeV, (List.range nv).map fun j => (List.range nu).map fun i => next + ((nu * j + i : Nat) : Int), a.closedU, a.closedV,
    mults du a.knotsU.length, mults dv a.knotsV.length, listed du a.knotsU, listed dv a.knotsV,
    (List.range nv).map fun j => (List.range nu).map fun i => a.weights.getD (nu * j + i) x0⟩

theorem lined_grid {α : Type} (nu nv : Nat) (g : Nat → Nat → α) (f : α → Tok K) :
    lined (((List.range nv).map fun j => (List.range nu).map (g j)).map fun r => r.map f) = grid nu nv fun j i => f (g j i) := by
  unfold lined grid
  rw [List.map_map, List.map_map]
  congr 2
  apply List.map_congr_left
  intro j _
  simp only [Function.comp, List.map_map]
  rfl

/-- the text of a surface in an open file is the text of the entity `written` -/
theorem surface_text {w w' : Writer K} {a : Nurbs.Surface K} (hw : w.surface a = some w') (ho : w.isOpen = true) (hg : w.good = true)
    {nu nv du dv : Nat} (hu : a.nbU = nu) (hv : a.nbV = nv) (hdu : a.degreeU = du) (hdv : a.degreeV = dv) (hdu' : du ≤ 2147483647) (hdv' : dv ≤ 2147483647)
    (hku : a.knotsU.length ≤ 2147483647) (hkv : a.knotsV.length ≤ 2147483647) (hlen : nu * nv ≤ a.weights.length) (x0 : K) :
    (2 * du + 2 ≤ a.knotsU.length ∧ 2 * dv + 2 ≤ a.knotsV.length) ∧
    w'.out = w.out ++ pointsToks w.next a.points ++ [nl] ++ (written a w.next nu nv du dv x0).toks (w.next + a.points.length) ++
      [nl, nl] ++ faceToks (w.next + a.points.length) := by
  obtain ⟨mu, mv, ku, kv, ws, h1, h2, h3, h4, h5, -, hout⟩ := surface_out hw ho hg
  rw [hdu] at h1 h3
  rw [hdv] at h2 h4
  obtain ⟨a1, a2⟩ := multToks_defined (by omega) (by omega) h1
  obtain ⟨b1, b2⟩ := multToks_defined (by omega) (by omega) h2
  rw [multToks_some a2 a1 hku, Option.some.injEq] at h1
  rw [multToks_some b2 b1 hkv, Option.some.injEq] at h2
  rw [knotToks_some a1 hku, Option.some.injEq] at h3
  rw [knotToks_some b1 hkv, Option.some.injEq] at h4
  rw [hu, hv, weightRows_grid (fun i => a.weights.getD i x0) (by
      intro i hi
      rw [List.getElem?_eq_getElem (by omega), List.getD_eq_getElem?_getD, List.getElem?_eq_getElem (by omega)]
      rfl), Option.some.injEq] at h5
  subst h1 h2 h3 h4 h5
  refine ⟨⟨a1, b1⟩, ?_⟩
  rw [hout, hu, hv, refRows_grid]
  unfold Entity.toks written
  simp only
  rw [lined_grid nu nv (fun j i => w.next + ((nu * j + i : Nat) : Int)) Tok.id, lined_grid nu nv (fun j i => a.weights.getD (nu * j + i) x0) Tok.d]
  have hc : ∀ b : Bool, (closedText b : Tok K) = logical b := by intro b; cases b <;> rfl
  rw [hc, hc]
  simp only [List.append_assoc, List.cons_append, List.nil_append]

variable [Field K] [LinearOrder K]

/-- clamped knots are clamped -/
theorem clamped_of {ks : List K} {p n : Nat} (h : Nurbs.ClampedKnots ks p n) : Clamped p ks := by
  have hl := h.length
  refine ⟨fun i hi => ?_, fun i hi => ?_⟩
  · rw [h.first i hi, h.first 0 (by omega)]
  · rw [h.last _ (by omega) (by omega), h.last _ (by omega) (by omega)]

/-- C99.  A consistent surface written to an open file: the file describes a surface with the
degrees, closed flags and knots of the written one, but its lists of control points and weights
run over v first, so the roles of u and v are exchanged in them.  The sizes conform to the
standard exactly when the net is square.  A reader gets the surface with the parameters
exchanged when the net is square and both directions have the same degree and knots. -/
theorem step_read_partial {w w' : Writer K} {a : Nurbs.Surface K} (hw : w.surface a = some w') (ho : w.isOpen = true) (hg : w.good = true)
    {p q nu nv : Nat} (ha : a.Valid p q nu nv)
    (hku : a.knotsU.length ≤ 2147483647) (hkv : a.knotsV.length ≤ 2147483647) :
    ∃ (e : Entity K) (pre post : List (Tok K)), w'.out = pre ++ e.toks (w.next + a.points.length) ++ post ∧
      e.uDegree = a.degreeU ∧ e.vDegree = a.degreeV ∧ e.uClosed = a.closedU ∧ e.vClosed = a.closedV ∧
      expand e.uMult e.uKnots = a.knotsU ∧ expand e.vMult e.vKnots = a.knotsV ∧
      (∀ pt : Int → P3 K, (∀ k : Nat, pt (w.next + k) = a.points.getD k ⟨0, 0, 0⟩) →
        ∀ i j, i < nu → j < nv → e.pt pt j i = a.pt nu i j ∧ e.wt j i = a.wt nu i j) ∧
      ((∃ m n, e.Conforms m n) ↔ nu = nv) ∧
      (nu = nv → p = q → a.knotsU = a.knotsV → ∀ pt : Int → P3 K, (∀ k : Nat, pt (w.next + k) = a.points.getD k ⟨0, 0, 0⟩) → ∀ k l u v,
        e.denom nu nv k l u v = a.denom p q nu nv l k v u ∧ e.numer pt nu nv k l u v = a.numer p q nu nv l k v u) := by
  have lu := ha.knotsU.length
  have lv := ha.knotsV.length
  obtain ⟨⟨k1, k2⟩, hout⟩ := surface_text hw ho hg ha.nbU ha.nbV ha.degreeU ha.degreeV (by omega) (by omega) hku hkv (by rw [ha.weights]) (0 : K)
  have d1 := knotData (ks := a.knotsU) (degree := p) k1
  have d2 := knotData (ks := a.knotsV) (degree := q) k2
  have x1 := d1.expand (clamped_of ha.knotsU)
  have x2 := d2.expand (clamped_of ha.knotsV)
  -- entries of the lists
  have hent : ∀ pt : Int → P3 K, (∀ k : Nat, pt (w.next + k) = a.points.getD k ⟨0, 0, 0⟩) → ∀ i j, i < nu → j < nv →
      (written a w.next nu nv p q 0).pt pt j i = a.pt nu i j ∧ (written a w.next nu nv p q 0).wt j i = a.wt nu i j := by
    intro pt hpt i j hi hj
    have e1 : ∀ {β : Type} (g : Nat → Nat → β) (d : β), ((((List.range nv).map fun j => (List.range nu).map (g j)).getD j []).getD i d) = g j i := by
      intro β g d
      simp [List.getD_eq_getElem?_getD, hi, hj]
    unfold Entity.pt Entity.wt written Nurbs.Surface.pt Nurbs.Surface.wt
    simp only
    rw [e1 (fun j i => w.next + ((nu * j + i : Nat) : Int)), e1 (fun j i => a.weights.getD (nu * j + i) 0), hpt, Nat.add_comm i]
    exact ⟨rfl, rfl⟩
  refine ⟨written a w.next nu nv p q 0, w.out ++ pointsToks w.next a.points ++ [nl], [nl, nl] ++ faceToks (w.next + a.points.length), by rw [hout]; simp only [List.append_assoc],
    rfl, rfl, rfl, rfl, x1, x2, hent, ?_, ?_⟩
  · have s1 : (written a w.next nu nv p q 0).uMult.sum = (nu : Int) + p + 1 := by
      show (mults p a.knotsU.length).sum = _
      rw [d1.sum, lu]; push_cast; ring
    have s2 : (written a w.next nu nv p q 0).vMult.sum = (nv : Int) + q + 1 := by
      show (mults q a.knotsV.length).sum = _
      rw [d2.sum, lv]; push_cast; ring
    have g1 : (written a w.next nu nv p q 0).uDegree = p := ha.degreeU
    have g2 : (written a w.next nu nv p q 0).vDegree = q := ha.degreeV
    constructor
    · rintro ⟨m, n, c⟩
      have r1 := c.rows.1
      have r2 := c.uSum
      rw [s1, g1] at r2
      have : (written a w.next nu nv p q 0).net.length = nv := by simp [written]
      omega
    · rintro rfl
      refine ⟨nu, nu, ⟨by simp [written], by simp [written]⟩, ⟨?_, ?_⟩, by rw [s1, g1], by rw [s2, g2]⟩
      · intro r hr
        simp only [written, List.mem_map] at hr
        obtain ⟨j, -, rfl⟩ := hr
        simp
      · intro r hr
        simp only [written, List.mem_map] at hr
        obtain ⟨j, -, rfl⟩ := hr
        simp
  · intro hn hpq hk pt hpt k l u v
    subst hn hpq
    have g1 : (written a w.next nu nu p p 0).uDegree.toNat = p := by show a.degreeU.toNat = p; rw [ha.degreeU]; rfl
    have g2 : (written a w.next nu nu p p 0).vDegree.toNat = p := by show a.degreeV.toNat = p; rw [ha.degreeV]; rfl
    have x1' : expand (written a w.next nu nu p p 0).uMult (written a w.next nu nu p p 0).uKnots = a.knotsV := by rw [← hk]; exact x1
    have x2' : expand (written a w.next nu nu p p 0).vMult (written a w.next nu nu p p 0).vKnots = a.knotsU := by rw [hk]; exact x2
    constructor
    · unfold Entity.denom Nurbs.Surface.denom
      rw [g1, g2, x1', x2']
      refine Finset.sum_congr rfl fun j hj => Finset.sum_congr rfl fun i hi => ?_
      rw [(hent pt hpt i j (Finset.mem_range.1 hi) (Finset.mem_range.1 hj)).2]
      ring
    · unfold Entity.numer Nurbs.Surface.numer
      rw [g1, g2, x1', x2']
      refine Finset.sum_congr rfl fun j hj => Finset.sum_congr rfl fun i hi => ?_
      obtain ⟨q1, q2⟩ := hent pt hpt i j (Finset.mem_range.1 hi) (Finset.mem_range.1 hj)
      rw [q1, q2]
      congr 1
      ring

/-! ### Concrete cases -/

/-- the bilinear patch with its scratch vectors -/
def patch' : Nurbs.Surface ℚ :=
  { patch with closedV := true, tempPointsU := [⟨0, 0, 0⟩, ⟨0, 0, 0⟩], tempPointsV := [⟨0, 0, 0⟩, ⟨0, 0, 0⟩], tempWeightsU := [0, 0], tempWeightsV := [0, 0] }

theorem patch'_valid : patch'.Valid 1 1 2 2 := by
  have hk : Nurbs.ClampedKnots ([0, 0, 1, 1] : List ℚ) 1 2 := by
    refine ⟨rfl, by decide, ?_, ?_⟩
    · intro i hi
      interval_cases i <;> rfl
    · intro i h1 h2
      interval_cases i <;> rfl
  exact ⟨rfl, rfl, rfl, rfl, rfl, rfl, hk, hk, by decide, by decide, by decide, by decide⟩

/-- the net of 5 times 2 points with its scratch vectors -/
def arcs' : Nurbs.Surface ℚ :=
  { arcs with tempPointsU := List.replicate 3 ⟨0, 0, 0⟩, tempPointsV := [⟨0, 0, 0⟩, ⟨0, 0, 0⟩], tempWeightsU := [0, 0, 0], tempWeightsV := [0, 0] }

theorem arcs'_valid : arcs'.Valid 2 1 5 2 := by
  have hu : Nurbs.ClampedKnots ([0, 0, 0, 1 / 2, 1 / 2, 1, 1, 1] : List ℚ) 2 5 := by
    refine ⟨rfl, by decide +kernel, ?_, ?_⟩
    · intro i hi
      interval_cases i <;> rfl
    · intro i h1 h2
      interval_cases i <;> rfl
  have hv : Nurbs.ClampedKnots ([0, 0, 1, 1] : List ℚ) 1 2 := by
    refine ⟨rfl, by decide, ?_, ?_⟩
    · intro i hi
      interval_cases i <;> rfl
    · intro i h1 h2
      interval_cases i <;> rfl
  exact ⟨rfl, rfl, rfl, rfl, rfl, rfl, hu, hv, by decide, by decide, by decide, by decide⟩

/-- a file just opened -/
def opened : Writer ℚ := Writer.new.open true

theorem opened_next : opened.next = 20 := by decide +kernel
theorem opened_ok : opened.isOpen = true ∧ opened.good = true := by decide +kernel

/-- C99, the negation: a consistent surface with a net of 5 times 2 points gives a file whose
sizes break the rules of the standard. -/
theorem step_not_conforming : ∃ (w' : Writer ℚ) (e : Entity ℚ) (pre post : List (Tok ℚ)),
    opened.surface arcs' = some w' ∧ w'.out = pre ++ e.toks 30 ++ post ∧ ¬ ∃ m n, e.Conforms m n := by
  have hwr : Writable arcs' := by constructor <;> decide
  obtain ⟨w', hw, -⟩ := surface_defined (w := opened) hwr (by rw [opened_next]; decide) (by rw [opened_next]; decide)
  obtain ⟨e, pre, post, ho, -, -, -, -, -, -, -, hc, -⟩ := step_read_partial hw opened_ok.1 opened_ok.2 arcs'_valid (by decide) (by decide)
  rw [opened_next, show (20 + (arcs'.points.length : Int)) = 30 from rfl] at ho
  exact ⟨w', e, pre, post, hw, ho, fun h => absurd (hc.1 h) (by decide)⟩

/-- C99, the negation: in the file of the bilinear patch the corner (1, 0) is where the patch
has its corner (0, 1). -/
theorem step_transposed : ∃ (w' : Writer ℚ) (e : Entity ℚ) (pre post : List (Tok ℚ)),
    opened.surface patch' = some w' ∧ w'.out = pre ++ e.toks 24 ++ post ∧ (∃ m n, e.Conforms m n) ∧ e.uClosed = false ∧ e.vClosed = true ∧
      ∀ pt : Int → P3 ℚ, (∀ k : Nat, pt (20 + k) = patch'.points.getD k ⟨0, 0, 0⟩) →
        e.denom 2 2 1 1 1 0 = 1 ∧ e.numer pt 2 2 1 1 1 0 = ⟨0, 1, 0⟩ ∧ patch'.at 1 0 = some ⟨1, 0, 0⟩ := by
  have hwr : Writable patch' := by constructor <;> decide
  obtain ⟨w', hw, -⟩ := surface_defined (w := opened) hwr (by rw [opened_next]; decide) (by rw [opened_next]; decide)
  obtain ⟨e, pre, post, ho, -, -, c1, c2, -, -, -, hc, hr⟩ := step_read_partial hw opened_ok.1 opened_ok.2 patch'_valid (by decide) (by decide)
  rw [opened_next, show (20 + (patch'.points.length : Int)) = 24 from rfl] at ho
  refine ⟨w', e, pre, post, hw, ho, hc.2 rfl, c1, c2, fun pt hpt => ?_⟩
  rw [opened_next] at hr
  obtain ⟨r1, r2⟩ := hr rfl rfl rfl pt hpt 1 1 1 0
  rw [r1, r2]
  refine ⟨?_, ?_, ?_⟩ <;> decide +kernel

end CAD.Step
