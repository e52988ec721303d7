import Verif.Model.Bezier
import Verif.Lemmas.Build
import Verif.Props.Measure
import Mathlib.Tactic.LinearCombination
import Mathlib.Tactic.FieldSimp
import Mathlib.Tactic.Positivity

/-! C40-C42, C75-C77: Bernstein polynomials, Bézier triangles, smooth meshes. -/

set_option linter.unusedSimpArgs false
set_option linter.unusedSectionVars false

namespace CAD

section
variable {K : Type} [Field K]

/-- **C40** the Bernstein polynomials of each degree sum to one -/
theorem bernstein_sum (u : K) :
    Bezier.b01 u + Bezier.b11 u = 1 ∧ Bezier.b02 u + Bezier.b12 u + Bezier.b22 u = 1 ∧
    Bezier.b03 u + Bezier.b13 u + Bezier.b23 u + Bezier.b33 u = 1 := by
  refine ⟨?_, ?_, ?_⟩ <;>
    simp only [Bezier.b01, Bezier.b11, Bezier.b02, Bezier.b12, Bezier.b22, Bezier.b03, Bezier.b13,
      Bezier.b23, Bezier.b33, Bezier.square, Bezier.cubic] <;> ring

/-- **C40** the Bernstein polynomials are the textbook ones -/
theorem bernstein_textbook (u : K) :
    Bezier.b02 u = (1 - u) ^ 2 ∧ Bezier.b12 u = 2 * u * (1 - u) ∧ Bezier.b22 u = u ^ 2 ∧
    Bezier.b03 u = (1 - u) ^ 3 ∧ Bezier.b13 u = 3 * u * (1 - u) ^ 2 ∧
    Bezier.b23 u = 3 * u ^ 2 * (1 - u) ∧ Bezier.b33 u = u ^ 3 := by
  refine ⟨?_, ?_, ?_, ?_, ?_, ?_, ?_⟩ <;>
    simp only [Bezier.b02, Bezier.b12, Bezier.b22, Bezier.b03, Bezier.b13,
      Bezier.b23, Bezier.b33, Bezier.square, Bezier.cubic] <;> ring

/-- **C40** they are symmetric under `u ↦ 1 - u` -/
theorem bernstein_symm (u : K) :
    Bezier.b01 (1 - u) = Bezier.b11 u ∧ Bezier.b02 (1 - u) = Bezier.b22 u ∧
    Bezier.b12 (1 - u) = Bezier.b12 u ∧ Bezier.b03 (1 - u) = Bezier.b33 u ∧
    Bezier.b13 (1 - u) = Bezier.b23 u := by
  refine ⟨?_, ?_, ?_, ?_, ?_⟩ <;>
    simp only [Bezier.b01, Bezier.b11, Bezier.b02, Bezier.b12, Bezier.b22, Bezier.b03, Bezier.b13,
      Bezier.b23, Bezier.b33, Bezier.square, Bezier.cubic] <;> ring

variable [LinearOrder K] [IsStrictOrderedRing K]

/-- **C40** they are non-negative on `[0, 1]` -/
theorem bernstein_nonneg (u : K) (h0 : 0 ≤ u) (h1 : u ≤ 1) :
    0 ≤ Bezier.b01 u ∧ 0 ≤ Bezier.b11 u ∧ 0 ≤ Bezier.b02 u ∧ 0 ≤ Bezier.b12 u ∧ 0 ≤ Bezier.b22 u ∧
    0 ≤ Bezier.b03 u ∧ 0 ≤ Bezier.b13 u ∧ 0 ≤ Bezier.b23 u ∧ 0 ≤ Bezier.b33 u := by
  have h : 0 ≤ 1 - u := by linarith
  refine ⟨?_, ?_, ?_, ?_, ?_, ?_, ?_, ?_, ?_⟩ <;>
    simp only [Bezier.b01, Bezier.b11, Bezier.b02, Bezier.b12, Bezier.b22, Bezier.b03, Bezier.b13,
      Bezier.b23, Bezier.b33, Bezier.square, Bezier.cubic] <;> positivity

end

namespace QuadBez
variable {K : Type} [Field K]

section
variable [DecidableEq K]

/-- **C41** the third parameter defaults to `1 - s - u`; passing that value, or any
value summing to one with the others, gives the same point -/
theorem eval_default (q : QuadBez K) (s u : K) :
    q.eval2 s u = q.evalBary s u (1 - s - u) ∧ ∀ v, s + u + v = 1 → q.eval s u v = q.eval2 s u := by
  constructor
  · simp [eval2, eval]
  · intro v h
    have hv : v = 1 - s - u := by linear_combination h
    subst hv
    simp only [eval2, eval]
    by_cases h1 : (1 - s - u) = -1 <;> simp [h1]

/-- **C41** the patch passes through its three corners -/
theorem eval_corners (q : QuadBez K) (h1 : q.w1 ≠ 0) (h2 : q.w2 ≠ 0) (h3 : q.w3 ≠ 0) :
    q.eval2 1 0 = some q.p1 ∧ q.eval2 0 1 = some q.p2 ∧ q.eval2 0 0 = some q.p3 := by
  refine ⟨?_, ?_, ?_⟩ <;> rw [(eval_default q _ _).1] <;>
    simp [evalBary, h1, h2, h3, P3.ext_iff, P3.div]

/-- **C41** a patch made from three points is plain barycentric interpolation -/
theorem eval_flat (p1 p2 p3 : P3 K) (h2 : (2 : K) ≠ 0) (s u : K) :
    (QuadBez.new.setPoints p1 p2 p3).eval2 s u = some (s • p1 + u • p2 + (1 - s - u) • p3) := by
  rw [(eval_default _ _ _).1]
  have hw : (1 : K) * s * s + 1 * u * u + 1 * (1 - s - u) * (1 - s - u) + 1 * 2 * s * u +
      1 * 2 * s * (1 - s - u) + 1 * 2 * u * (1 - s - u) = 1 := by ring
  simp only [evalBary, setPoints, new, hw, one_ne_zero, if_false, Option.some.injEq]
  simp only [P3.ext_iff, P3.div, P3.add_x, P3.add_y, P3.add_z, P3.smul_x, P3.smul_y, P3.smul_z, div_one]
  refine ⟨?_, ?_, ?_⟩ <;> field_simp <;> ring

/-- **C41** transforming the control points by an affine map transforms the patch;
the weights do not matter -/
theorem eval_affine (q : QuadBez K) (r1 r2 r3 t : P3 K) (s u v : K) :
    (q.applyTransform (affine r1 r2 r3 t)).eval s u v = (q.eval s u v).map (affine r1 r2 r3 t) := by
  unfold eval
  generalize (if v = -1 then 1 - s - u else v) = v
  simp only [evalBary, applyTransform]
  by_cases hw : q.w1 * s * s + q.w2 * u * u + q.w3 * v * v + q.w12 * 2 * s * u + q.w13 * 2 * s * v +
      q.w23 * 2 * u * v = 0
  · refine (if_pos hw).trans ?_
    simp only [if_pos hw, Option.map_none]
  · refine (if_neg hw).trans ?_
    simp only [if_neg hw, Option.map_some, Option.some.injEq]
    simp only [P3.ext_iff, affine, P3.dot, P3.div, P3.add_x, P3.add_y, P3.add_z, P3.smul_x, P3.smul_y,
      P3.smul_z]
    generalize hW : q.w1 * s * s + q.w2 * u * u + q.w3 * v * v + q.w12 * 2 * s * u + q.w13 * 2 * s * v +
      q.w23 * 2 * u * v = w at *
    refine ⟨?_, ?_, ?_⟩ <;> field_simp <;> rw [← hW] <;> ring

/-- **C41** along the side from the first to the second corner only the data of
that side matters, so patches sharing a side join without a gap -/
theorem eval_side (q q' : QuadBez K) (h1 : q.p1 = q'.p1) (h2 : q.p2 = q'.p2) (h3 : q.c12 = q'.c12)
    (h4 : q.w1 = q'.w1) (h5 : q.w2 = q'.w2) (h6 : q.w12 = q'.w12) (s : K) :
    q.eval2 s (1 - s) = q'.eval2 s (1 - s) := by
  rw [(eval_default _ _ _).1, (eval_default _ _ _).1]
  have e : 1 - s - (1 - s) = 0 := by ring
  simp [evalBary, e, h1, h2, h3, h4, h5, h6]

end

section
variable [LinearOrder K] [IsStrictOrderedRing K]

/-- **C41** with control points and weights set by hand the patch is the textbook rational
quadratic Bézier triangle -/
theorem eval_rational (q : QuadBez K) (p1 p2 p3 c12 c13 c23 : P3 K) (w1 w2 w3 w12 w13 w23 : K) (s u v : K) (hv : s + u + v = 1)
    (hw : w1 * s ^ 2 + w2 * u ^ 2 + w3 * v ^ 2 + 2 * w12 * (s * u) + 2 * w13 * (s * v) + 2 * w23 * (u * v) ≠ 0) :
    (((q.setPoints p1 p2 p3).setControlPoints c12 c13 c23).setWeights w1 w2 w3 w12 w13 w23).eval2 s u =
      some ((w1 * s ^ 2 + w2 * u ^ 2 + w3 * v ^ 2 + 2 * w12 * (s * u) + 2 * w13 * (s * v) + 2 * w23 * (u * v))⁻¹ •
        ((w1 * s ^ 2) • p1 + (w2 * u ^ 2) • p2 + (w3 * v ^ 2) • p3 +
          (2 * w12 * (s * u)) • c12 + (2 * w13 * (s * v)) • c13 + (2 * w23 * (u * v)) • c23)) := by
  obtain rfl : v = 1 - s - u := by linear_combination hv
  have e : w1 * s * s + w2 * u * u + w3 * (1 - s - u) * (1 - s - u) + w12 * 2 * s * u + w13 * 2 * s * (1 - s - u) + w23 * 2 * u * (1 - s - u) =
      w1 * s ^ 2 + w2 * u ^ 2 + w3 * (1 - s - u) ^ 2 + 2 * w12 * (s * u) + 2 * w13 * (s * (1 - s - u)) + 2 * w23 * (u * (1 - s - u)) := by ring
  simp only [eval2, eval, if_true, evalBary, setPoints, setControlPoints, setWeights, e]
  rw [if_neg hw]
  generalize w1 * s ^ 2 + w2 * u ^ 2 + w3 * (1 - s - u) ^ 2 + 2 * w12 * (s * u) + 2 * w13 * (s * (1 - s - u)) + 2 * w23 * (u * (1 - s - u)) = W at *
  congr 1
  ext <;> simp [P3.div] <;> field_simp

/-- **C41** setting the points again keeps the weights; setting points or control points by hand
keeps everything else -/
theorem setters_keep (q : QuadBez K) (p1 p2 p3 c12 c13 c23 : P3 K) (w1 w2 w3 w12 w13 w23 : K) :
    ((q.setWeights w1 w2 w3 w12 w13 w23).setPoints p1 p2 p3).setControlPoints c12 c13 c23 =
      ((q.setPoints p1 p2 p3).setControlPoints c12 c13 c23).setWeights w1 w2 w3 w12 w13 w23 := rfl

/-- a curved patch: at the middle of the side from the first to the second corner the control
point with weight 2 pulls the point -/
example : (((new.setPoints ⟨0, 0, 0⟩ ⟨2, 0, 0⟩ ⟨0, 2, 0⟩).setControlPoints ⟨1, 0, 3⟩ ⟨0, 1, 0⟩ ⟨1, 1, 0⟩).setWeights 1 1 1 2 1 1 : QuadBez ℚ).eval2 (1 / 2) (1 / 2) =
    some ⟨1, 0, 2⟩ := by decide +kernel

/-- all six weights are positive -/
def PosWeights (q : QuadBez K) : Prop :=
  0 < q.w1 ∧ 0 < q.w2 ∧ 0 < q.w3 ∧ 0 < q.w12 ∧ 0 < q.w13 ∧ 0 < q.w23

theorem weight_pos {q : QuadBez K} (hq : q.PosWeights) {s u v : K} (hs : 0 ≤ s) (hu : 0 ≤ u)
    (hv : 0 ≤ v) (h1 : s + u + v = 1) :
    0 < q.w1 * s * s + q.w2 * u * u + q.w3 * v * v + q.w12 * 2 * s * u + q.w13 * 2 * s * v +
      q.w23 * 2 * u * v := by
  obtain ⟨a, b, c, d, e, f⟩ := hq
  have h4 : 0 ≤ q.w12 * 2 * s * u := by positivity
  have h5 : 0 ≤ q.w13 * 2 * s * v := by positivity
  have h6 : 0 ≤ q.w23 * 2 * u * v := by positivity
  have h7 : 0 ≤ q.w1 * s * s := by positivity
  have h8 : 0 ≤ q.w2 * u * u := by positivity
  have h9 : 0 ≤ q.w3 * v * v := by positivity
  rcases hs.lt_or_eq with h | rfl
  · have : 0 < q.w1 * s * s := by positivity
    linarith
  rcases hu.lt_or_eq with h | rfl
  · have : 0 < q.w2 * u * u := by positivity
    linarith
  have : v = 1 := by linarith
  subst this
  linarith

/-- **C41** with positive weights every point of the patch is a convex combination
of the six control points -/
theorem eval_hull (q : QuadBez K) (hq : q.PosWeights) (s u : K) (hs : 0 ≤ s) (hu : 0 ≤ u)
    (h1 : s + u ≤ 1) : ∃ (p : P3 K) (a b c d e f : K), q.eval2 s u = some p ∧ 0 ≤ a ∧ 0 ≤ b ∧ 0 ≤ c ∧ 0 ≤ d ∧ 0 ≤ e ∧
      0 ≤ f ∧ a + b + c + d + e + f = 1 ∧
      p = a • q.p1 + b • q.p2 + c • q.p3 + d • q.c12 + e • q.c13 + f • q.c23 := by
  have hv : 0 ≤ 1 - s - u := by linarith
  have hw := weight_pos hq hs hu hv (by ring)
  rw [(eval_default q s u).1]
  generalize 1 - s - u = v at *
  simp only [evalBary, if_neg hw.ne']
  generalize hW : q.w1 * s * s + q.w2 * u * u + q.w3 * v * v + q.w12 * 2 * s * u + q.w13 * 2 * s * v +
      q.w23 * 2 * u * v = w at *
  obtain ⟨a, b, c, d, e, f⟩ := hq
  refine ⟨_, q.w1 * s * s / w, q.w2 * u * u / w, q.w3 * v * v / w, q.w12 * 2 * s * u / w,
    q.w13 * 2 * s * v / w, q.w23 * 2 * u * v / w, rfl, by positivity, by positivity, by positivity,
    by positivity, by positivity, by positivity, ?_, ?_⟩
  · rw [← add_div, ← add_div, ← add_div, ← add_div, ← add_div, hW, div_self hw.ne']
  · simp only [P3.ext_iff, P3.div, P3.add_x, P3.add_y, P3.add_z, P3.smul_x, P3.smul_y, P3.smul_z]
    refine ⟨?_, ?_, ?_⟩ <;> field_simp

theorem eval_defined (q : QuadBez K) (hq : q.PosWeights) (s u : K) (hs : 0 ≤ s) (hu : 0 ≤ u)
    (h1 : s + u ≤ 1) : ∃ p, q.eval2 s u = some p := by
  obtain ⟨p, -, -, -, -, -, -, h, -⟩ := eval_hull q hq s u hs hu h1
  exact ⟨p, h⟩

end

/-! ### Meshing -/

/-- first vertex of row `i` relative to the first new vertex -/
def row (n i : Nat) : Nat := ((List.range i).map fun k => n + 1 - k).sum

theorem row_succ (n i : Nat) : row n (i + 1) = row n i + (n + 1 - i) := by
  simp [row, List.range_succ]

theorem row_eq (n i : Nat) (hi : i ≤ n + 1) : 2 * row n i + i * i = i * (2 * n + 3) := by
  induction i with
  | zero => simp [row]
  | succ i ih =>
    rw [row_succ]
    have := ih (by omega)
    obtain ⟨k, hk⟩ : ∃ k, n + 1 - i = k ∧ n + 1 = i + k := ⟨n + 1 - i, rfl, by omega⟩
    rw [hk.1]
    nlinarith [hk.2]

theorem row_mono (n : Nat) {i j : Nat} (h : i ≤ j) : row n i ≤ row n j := by
  induction j, h using Nat.le_induction with
  | base => exact le_rfl
  | succ j _ ih => rw [row_succ]; omega

theorem flatMap_range_getElem? {β : Type} (f : Nat → List β) (k i j : Nat) (hi : i < k)
    (hj : j < (f i).length) :
    ((List.range k).flatMap f)[((List.range i).map fun x => (f x).length).sum + j]? = (f i)[j]? := by
  have hlen : ∀ i, ((List.range i).flatMap f).length = ((List.range i).map fun x => (f x).length).sum := by
    intro i; rw [List.length_flatMap]
  induction k with
  | zero => omega
  | succ k ih =>
    rw [List.range_succ, List.flatMap_append]
    rcases Nat.lt_succ_iff_lt_or_eq.1 hi with h | rfl
    · rw [List.getElem?_append_left, ih h]
      have h2 : ((List.range (i + 1)).map fun x => (f x).length).sum ≤
          ((List.range k).map fun x => (f x).length).sum := by
        clear ih hi
        induction k, (show i + 1 ≤ k from h) using Nat.le_induction with
        | base => exact le_rfl
        | succ k _ ih => rw [List.range_succ (n := k)]; simp; have := ih (by omega); omega
      rw [hlen]
      rw [List.range_succ] at h2
      simp at h2
      omega
    · rw [List.getElem?_append_right (by rw [hlen]; omega), hlen]
      simp

/-- the two triangles of a parallelogram of the second loop: between columns `c`,
`c + 1` of rows starting at `a` and `b` -/
def cellFaces (a b c : Int) : List (Int × Int × Int) :=
  [(a + c, b + c + 1, b + c), (a + c, a + c + 1, b + c + 1)]

/-- the triangles added for row `i` -/
def rowFaces (n : Nat) (base : Int) (i : Nat) : List (Int × Int × Int) :=
  (base + row n i, base + row n i + 1, base + row n (i + 1)) ::
    (List.range (n - 3 - i)).flatMap fun (j : Nat) =>
      cellFaces (base + row n (i + 1)) (base + row n (i + 2)) (j + 1)

/-- all triangles added -/
def bezFaces (n : Nat) (base : Int) : List (Int × Int × Int) := (List.range n).flatMap (rowFaces n base)

/-- grid parameters of a vertex -/
abbrev Par := Nat × Nat

/-- the same triangles by grid parameters `(is, iu)` -/
def rowPars (n i : Nat) : List (Par × Par × Par) :=
  ((i, 0), (i, 1), (i + 1, 0)) :: (List.range (n - 3 - i)).flatMap fun (j : Nat) =>
    [((i + 1, j + 1), (i + 2, j + 2), (i + 2, j + 1)), ((i + 1, j + 1), (i + 1, j + 2), (i + 2, j + 2))]

def bezPars (n : Nat) : List (Par × Par × Par) := (List.range n).flatMap (rowPars n)

/-- vertex id of a grid parameter -/
def parId (n : Nat) (base : Int) (x : Par) : Int := base + row n x.1 + x.2

theorem bezFaces_eq (n : Nat) (base : Int) : bezFaces n base =
    (bezPars n).map fun t => (parId n base t.1, parId n base t.2.1, parId n base t.2.2) := by
  unfold bezFaces bezPars
  rw [List.map_flatMap]
  congr 1
  funext i
  simp only [rowFaces, rowPars, List.map_cons, List.map_flatMap, List.map_nil, parId, cellFaces]
  congr 1
  · push_cast; simp
  · congr 1
    funext j
    push_cast
    simp only [List.cons.injEq, Prod.mk.injEq, and_true, true_and]
    omega

theorem bezPars_in {n : Nat} : ∀ t ∈ bezPars n, t.1.1 + t.1.2 ≤ n ∧ t.2.1.1 + t.2.1.2 ≤ n ∧
    t.2.2.1 + t.2.2.2 ≤ n := by
  intro t ht
  obtain ⟨i, hi, ht⟩ := List.mem_flatMap.1 ht
  rw [List.mem_range] at hi
  rcases List.mem_cons.1 ht with rfl | ht
  · simp only; omega
  · obtain ⟨j, hj, ht⟩ := List.mem_flatMap.1 ht
    rw [List.mem_range] at hj
    simp only [List.mem_cons, List.not_mem_nil, or_false] at ht
    rcases ht with rfl | rfl <;> simp only <;> omega

theorem length_rowPars (n i : Nat) : (rowPars n i).length = 1 + 2 * (n - 3 - i) := by
  simp only [rowPars, List.length_cons, List.length_flatMap, List.length_nil]
  simp
  ring

theorem length_bezPars (n : Nat) (hn : 2 ≤ n) : ((bezPars n).length : Int) = (n : Int) ^ 2 - 4 * n + 6 := by
  have key : ∀ k, k + 3 ≤ n → ((((List.range k).map fun i => (rowPars n i).length).sum : Nat) : Int) =
      k * (2 * n - 4 - k) := by
    intro k
    induction k with
    | zero => intro _; simp
    | succ k ih =>
      intro h
      rw [List.range_succ, List.map_append, List.sum_append, Nat.cast_add, ih (by omega)]
      simp only [List.map_cons, List.map_nil, List.sum_cons, List.sum_nil, add_zero, length_rowPars]
      have e : ((n - 3 - k : Nat) : Int) = n - 3 - k := by omega
      push_cast
      rw [e]; ring
  unfold bezPars
  rw [List.length_flatMap]
  rcases Nat.lt_or_ge n 3 with h | h
  · have : n = 2 := by omega
    subst this; rfl
  · obtain ⟨k, rfl⟩ : ∃ k, n = k + 3 := ⟨n - 3, by omega⟩
    have h3 : List.range (k + 3) = List.range k ++ [k, k + 1, k + 2] := by
      simp [List.range_succ]
    rw [h3, List.map_append, List.sum_append, Nat.cast_add, key k le_rfl]
    simp only [List.map_cons, List.map_nil, List.sum_cons, List.sum_nil, length_rowPars]
    have e1 : k + 3 - 3 - k = 0 := by omega
    have e2 : k + 3 - 3 - (k + 1) = 0 := by omega
    have e3 : k + 3 - 3 - (k + 2) = 0 := by omega
    rw [e1, e2, e3]
    push_cast
    ring

end QuadBez
end CAD
