import Verif.Props.NurbsSeams
import Verif.Props.NurbsContinuous
import Verif.Props.NurbsHeights
import Verif.Props.NurbsMesh

/-! C118: how fast NURBS curves and surfaces move, and how close their polylines and meshes are. -/

namespace CAD
namespace Nurbs
open BSpline Mesh Set

/-- a continuous function that is Lipschitz to the right of every point is Lipschitz -/
theorem lipschitz_of_right {f : ℝ → ℝ} {L : ℝ} (hc : ContinuousOn f (Icc 0 1))
    (hl : ∀ x, 0 ≤ x → x < 1 → ∃ y, x < y ∧ ∀ z, x < z → z < y → |f z - f x| ≤ L * (z - x)) {s t : ℝ} (hs : s ∈ Icc (0 : ℝ) 1) (ht : t ∈ Icc (0 : ℝ) 1) :
    |f t - f s| ≤ L * |t - s| := by
  wlog hst : s ≤ t generalizing s t with key
  · have := key ht hs (by linarith)
    rwa [abs_sub_comm, abs_sub_comm t s]
  rw [abs_of_nonneg (by linarith : 0 ≤ t - s)]
  have hc' : ContinuousOn f (Icc s t) := hc.mono (Icc_subset_Icc hs.1 ht.2)
  have cl : IsClosed ({x | |f x - f s| ≤ L * (x - s)} ∩ Icc s t) := by
    have c1 : ContinuousOn (fun x => (|f x - f s|, L * (x - s))) (Icc s t) :=
      ((hc'.sub continuousOn_const).abs).prodMk (by fun_prop)
    have := c1.preimage_isClosed_of_isClosed isClosed_Icc OrderClosedTopology.isClosed_le'
    rw [inter_comm] at this
    exact this
  have sub := cl.Icc_subset_of_forall_exists_gt (by simp) (by
    rintro x ⟨hx, hx1, hx2⟩ y hy
    obtain ⟨y', h1, h2⟩ := hl x (hs.1.trans hx1) (lt_of_lt_of_le hx2 ht.2)
    obtain ⟨z, hz1, hz2⟩ := exists_between (lt_min h1 hy)
    refine ⟨z, ?_, hz1, (hz2.le.trans (min_le_right _ _))⟩
    have a := h2 z hz1 (lt_of_lt_of_le hz2 (min_le_left _ _))
    have b : |f x - f s| ≤ L * (x - s) := hx
    have := abs_add_le (f z - f x) (f x - f s)
    rw [sub_add_sub_cancel] at this
    show |f z - f s| ≤ L * (z - s)
    linarith)
  exact sub ⟨hst, le_rfl⟩

/-! ### one span -/

theorem blendS_lip {a a' x y x' y' M E ε : ℝ} (ha0 : 0 ≤ a') (ha1 : a' ≤ 1) (ha : |a' - a| ≤ ε) (hx : |x| ≤ M) (hy : |y| ≤ M)
    (hx' : |x' - x| ≤ E) (hy' : |y' - y| ≤ E) : |blendS a' x' y' - blendS a x y| ≤ E + 2 * M * ε := by
  have e : blendS a' x' y' - blendS a x y = ((1 - a') * (x' - x) + a' * (y' - y)) + (a' - a) * (y - x) := by unfold blendS; ring
  have h1 : |(1 - a') * (x' - x) + a' * (y' - y)| ≤ E := by
    rw [abs_le] at hx' hy' ⊢
    constructor <;> nlinarith
  have h2 : |(a' - a) * (y - x)| ≤ ε * (2 * M) := by
    rw [abs_mul]
    have : |y - x| ≤ 2 * M := (abs_sub y x).trans (by linarith)
    exact mul_le_mul ha this (abs_nonneg _) ((abs_nonneg _).trans ha)
  rw [e]
  exact (abs_add_le _ _).trans (by linarith)

theorem levels_lip {p k : Nat} {A A' : Nat → Nat → ℝ} (hA : ∀ i j, i ≤ k → k < j → 0 ≤ A i j ∧ A i j ≤ 1)
    (hA' : ∀ i j, i ≤ k → k < j → 0 ≤ A' i j ∧ A' i j ≤ 1) {ε : ℝ} (hε : ∀ i j, i ≤ k → k < j → |A' i j - A i j| ≤ ε)
    {f f' : Nat → ℝ} {M E : ℝ} (hf : ∀ i, i ≤ k → k ≤ i + p → |f i| ≤ M) (hf' : ∀ i, i ≤ k → k ≤ i + p → |f' i - f i| ≤ E)
    {r : Nat} (hr : r ≤ p) : ∀ i, i ≤ k → k ≤ i + (p - r) →
      |levBy (fun i j => blendS (A i j)) p f r i| ≤ M ∧
      |levBy (fun i j => blendS (A' i j)) p f' r i - levBy (fun i j => blendS (A i j)) p f r i| ≤ E + r * (2 * M * ε) := by
  induction r with
  | zero =>
    intro i h1 h2
    exact ⟨hf i h1 (by omega), by simpa [levBy] using hf' i h1 (by omega)⟩
  | succ r ih =>
    intro i h1 h2
    obtain ⟨x1, x2⟩ := ih (by omega) (i - 1) (by omega) (by omega)
    obtain ⟨y1, y2⟩ := ih (by omega) i h1 (by omega)
    obtain ⟨a0, a1⟩ := hA i (i + (p - r)) h1 (by omega)
    obtain ⟨b0, b1⟩ := hA' i (i + (p - r)) h1 (by omega)
    constructor
    · exact blendS_abs a0 a1 x1 y1
    · have := blendS_lip b0 b1 (hε i (i + (p - r)) h1 (by omega)) x1 y1 x2 y2
      simp only [levBy]
      push_cast
      linarith

theorem levBy_center (A : Nat → Nat → ℝ) (p : Nat) (g x : Nat → ℝ) (m : ℝ) (r i : Nat) :
    levBy (fun i j => blendS (A i j)) p (fun i => g i * (x i - m)) r i =
      levBy (fun i j => blendS (A i j)) p (fun i => g i * x i) r i - m * levBy (fun i j => blendS (A i j)) p g r i := by
  induction r generalizing i with
  | zero => simp only [levBy]; ring
  | succ r ih => simp only [levBy, ih, blendS]; ring

theorem levBy_sub (A : Nat → Nat → ℝ) (p : Nat) (f g : Nat → ℝ) (m : ℝ) (r i : Nat) :
    levBy (fun i j => blendS (A i j)) p (fun i => f i - m * g i) r i =
      levBy (fun i j => blendS (A i j)) p f r i - m * levBy (fun i j => blendS (A i j)) p g r i := by
  induction r generalizing i with
  | zero => simp only [levBy]
  | succ r ih => simp only [levBy, ih, blendS]; ring

/-- two quotients with near numerators (about the same centre) and near denominators -/
theorem quot_lip {P P' N N' m R w a b : ℝ} (w0 : 0 < w) (hN : w ≤ N) (hN' : w ≤ N') (hP : |P - m * N| ≤ R * N)
    (ha : |(P' - m * N') - (P - m * N)| ≤ a) (hb : |N' - N| ≤ b) (R0 : 0 ≤ R) : |P' / N' - P / N| ≤ (a + R * b) / w := by
  have n : 0 < N := by linarith
  have n' : 0 < N' := by linarith
  have e : P' / N' - P / N = (((P' - m * N') - (P - m * N)) - (P - m * N) / N * (N' - N)) / N' := by field_simp; ring
  have q : |(P - m * N) / N| ≤ R := by rw [abs_div, abs_of_pos n, div_le_iff₀ n]; exact hP
  rw [e, abs_div, abs_of_pos n']
  have t : |((P' - m * N') - (P - m * N)) - (P - m * N) / N * (N' - N)| ≤ a + R * b := by
    refine (abs_sub _ _).trans (add_le_add ha ?_)
    rw [abs_mul]
    exact mul_le_mul q hb (abs_nonneg _) R0
  exact div_le_div₀ ((abs_nonneg _).trans t) t w0 hN'

/-- the quotients of one span as numbers -/
noncomputable def alphas (knots : List ℝ) (t : ℝ) (i j : Nat) : ℝ := (t - kn knots i) / (kn knots j - kn knots i)

theorem alphas_range {knots : List ℝ} {p n k : Nat} (hk : ClampedKnots knots p n) {t : ℝ} (hs : InSpan knots t k) (i j : Nat) (hi : i ≤ k) (hj : k < j) :
    0 ≤ alphas knots t i j ∧ alphas knots t i j ≤ 1 := by
  have m1 := hk.mono hi
  have m2 := hk.mono (show k + 1 ≤ j from hj)
  have lt : kn knots i < kn knots j := lt_of_le_of_lt m1 (lt_of_lt_of_le hs.1 m2)
  have a := m1.trans hs.2.1
  have b := hs.2.2.1.trans m2
  exact ⟨div_nonneg (by linarith) (by linarith), (div_le_one (by linarith)).2 (by linarith)⟩

theorem alphas_lip {knots : List ℝ} {p n k : Nat} (hk : ClampedKnots knots p n) {h : ℝ} (h0 : 0 < h)
    (hg : ∀ a ∈ knots, ∀ b ∈ knots, a < b → h ≤ b - a) {s t : ℝ} (hs : InSpan knots s k) (i j : Nat) (hi : i ≤ k) (hj : k < j) :
    |alphas knots t i j - alphas knots s i j| ≤ |t - s| / h := by
  have m1 := hk.mono hi
  have m2 := hk.mono (show k + 1 ≤ j from hj)
  have lt : kn knots i < kn knots j := lt_of_le_of_lt m1 (lt_of_lt_of_le hs.1 m2)
  have g := hg _ (kn_mem hk i) _ (kn_mem hk j) lt
  unfold alphas
  rw [← sub_div, sub_sub_sub_cancel_right, abs_div, abs_of_pos (by linarith : 0 < kn knots j - kn knots i)]
  exact div_le_div_of_nonneg_left (abs_nonneg _) h0 g

theorem alphas_some {knots : List ℝ} {p n k : Nat} (hk : ClampedKnots knots p n) {t : ℝ} (hs : InSpan knots t k) (i j : Nat) (hi : i ≤ k) (hj : k < j) :
    exactOps.alpha t (kn knots i) (kn knots j) = some (alphas knots t i j) := by
  have m1 := hk.mono hi
  have m2 := hk.mono (show k + 1 ≤ j from hj)
  have lt : kn knots i < kn knots j := lt_of_le_of_lt m1 (lt_of_lt_of_le hs.1 m2)
  simp only [exactOps, divR, if_neg (sub_ne_zero.2 lt.ne'), alphas]

/-- numerator (for a coordinate `x`) or denominator (`x = 1`) of a curve on one span -/
noncomputable def curveLev (c : Curve ℝ) (p k : Nat) (t : ℝ) (f : Nat → ℝ) : ℝ := levBy (fun i j => blendS (alphas c.knots t i j)) p f p k

theorem curve_at_levels {c : Curve ℝ} {p n k : Nat} (hv : c.Valid p n) {w : ℝ} (w0 : 0 < w) (hw : ∀ x ∈ c.weights, w ≤ x) {t : ℝ} (h0 : 0 ≤ t) (h1 : t ≤ 1)
    (hs : InSpan c.knots t k) : w ≤ curveLev c p k t c.hw ∧
    c.at t = some ⟨curveLev c p k t (fun i => c.hw i * (c.points.getD i ⟨0, 0, 0⟩).x) / curveLev c p k t c.hw,
      curveLev c p k t (fun i => c.hw i * (c.points.getD i ⟨0, 0, 0⟩).y) / curveLev c p k t c.hw,
      curveLev c p k t (fun i => c.hw i * (c.points.getD i ⟨0, 0, 0⟩).z) / curveLev c p k t c.hw⟩ := by
  obtain ⟨hpk, hkn⟩ := hs.range hv.knots
  have hA := alphas_range hv.knots hs
  have N : w ≤ curveLev c p k t c.hw := levels_ge (p := p) hA (g := c.hw) (w := w)
    (fun i h1 h2 => hw _ (List.mem_of_getElem? (getD_of_lt c.weights 0 (by rw [hv.weights]; omega)))) le_rfl k le_rfl (by omega)
  refine ⟨N, ?_⟩
  have hs' : InSpan c.knots (clamp t) k := by rw [clamp_of_mem h0 h1]; exact hs
  obtain ⟨_, _, _, _, e⟩ := evaluateBy_eq exactOps hv hs' _ (alphas_some hv.knots hs)
  have ne : levBy (fun i j => blendS (alphas c.knots t i j)) p c.hw p k ≠ 0 := (lt_of_lt_of_le w0 N).ne'
  rw [Curve.at, Curve.evaluate, e, levBy_exact_w]
  simp only [show ∀ P N, (exactOps : EvalOps ℝ).divide P N = divP P N from fun _ _ => rfl, divP, if_neg ne, Option.map_some,
    P3.div, levBy_exact_x, levBy_exact_y, levBy_exact_z]
  rfl

/-- one coordinate on one span -/
theorem curveLev_lip {c : Curve ℝ} {p n k : Nat} (hv : c.Valid p n) {w W R h m : ℝ} (w0 : 0 < w) (hw : ∀ x ∈ c.weights, w ≤ x ∧ x ≤ W) (h0 : 0 < h)
    (hk : ∀ a ∈ c.knots, ∀ b ∈ c.knots, a < b → h ≤ b - a) {s t : ℝ} (hs : InSpan c.knots s k) (ht : InSpan c.knots t k) {x : Nat → ℝ}
    (hx : ∀ i < n, |x i - m| ≤ R) :
    |curveLev c p k t (fun i => c.hw i * x i) / curveLev c p k t c.hw - curveLev c p k s (fun i => c.hw i * x i) / curveLev c p k s c.hw| ≤
      4 * p * (W / w) * R / h * |t - s| := by
  obtain ⟨hpk, hkn⟩ := hs.range hv.knots
  have R0 : 0 ≤ R := (abs_nonneg _).trans (hx k hkn)
  have wt : ∀ i, i ≤ k → k ≤ i + p → w ≤ c.hw i ∧ c.hw i ≤ W := fun i h1 h2 =>
    hw _ (List.mem_of_getElem? (getD_of_lt c.weights 0 (by rw [hv.weights]; omega)))
  have wW : w ≤ W := (wt k le_rfl (by omega)).1.trans (wt k le_rfl (by omega)).2
  have hA := alphas_range hv.knots hs
  have hA' := alphas_range hv.knots ht
  have hε := alphas_lip hv.knots h0 hk (t := t) hs
  have N := levels_ge (p := p) hA (g := c.hw) (w := w) (fun i h1 h2 => (wt i h1 h2).1) le_rfl k le_rfl (by omega)
  have N' := levels_ge (p := p) hA' (g := c.hw) (w := w) (fun i h1 h2 => (wt i h1 h2).1) le_rfl k le_rfl (by omega)
  have hxw : ∀ i, i ≤ k → k ≤ i + p → |c.hw i * (x i - m)| ≤ R * c.hw i := by
    intro i h1 h2
    have := (wt i h1 h2).1
    rw [abs_mul, abs_of_pos (by linarith : 0 < c.hw i), mul_comm]
    exact mul_le_mul_of_nonneg_right (hx i (by omega)) (by linarith)
  have P := levels_ratio (p := p) hA hxw le_rfl k le_rfl (by omega)
  have dP := (levels_lip (p := p) hA hA' hε (f := fun i => c.hw i * (x i - m)) (f' := fun i => c.hw i * (x i - m)) (M := W * R) (E := 0)
    (fun i h1 h2 => (hxw i h1 h2).trans (by rw [mul_comm]; exact mul_le_mul_of_nonneg_right (wt i h1 h2).2 R0)) (by simp) le_rfl k le_rfl (by omega)).2
  have dN := (levels_lip (p := p) hA hA' hε (f := c.hw) (f' := c.hw) (M := W) (E := 0)
    (fun i h1 h2 => by rw [abs_of_pos (by linarith [(wt i h1 h2).1])]; exact (wt i h1 h2).2) (by simp) le_rfl k le_rfl (by omega)).2
  rw [levBy_center] at P
  rw [levBy_center, levBy_center] at dP
  have := quot_lip w0 N N' P dP dN R0
  refine this.trans (le_of_eq ?_)
  field_simp
  ring

/-- **C118** A curve moves by at most `4 p κ R / h` per unit of the parameter, in each coordinate: `p` is the degree, `κ` the
ratio of the weights, `R` the half width of a box (with the centre `m`) around the control points, `h` the least distance of
two different knots. -/
theorem curve_lipschitz {c : Curve ℝ} {p n : Nat} (hv : c.Valid p n) {w W R h : ℝ} {m : P3 ℝ} (w0 : 0 < w) (hw : ∀ x ∈ c.weights, w ≤ x ∧ x ≤ W)
    (hp : ∀ q ∈ c.points, |q.x - m.x| ≤ R ∧ |q.y - m.y| ≤ R ∧ |q.z - m.z| ≤ R) (h0 : 0 < h)
    (hk : ∀ a ∈ c.knots, ∀ b ∈ c.knots, a < b → h ≤ b - a) (hm : ∀ x, 0 < x → x < 1 → c.knots.count x ≤ p)
    {s t : ℝ} (hs : s ∈ Icc (0 : ℝ) 1) (ht : t ∈ Icc (0 : ℝ) 1) :
    ∃ P Q, c.at s = some P ∧ c.at t = some Q ∧ |Q.x - P.x| ≤ 4 * p * (W / w) * R / h * |t - s| ∧
      |Q.y - P.y| ≤ 4 * p * (W / w) * R / h * |t - s| ∧ |Q.z - P.z| ≤ 4 * p * (W / w) * R / h * |t - s| := by
  obtain ⟨X, Y, Z, cx, cy, cz, e⟩ := evaluate_continuous hv (fun x hx => lt_of_lt_of_le w0 (hw x hx).1) hm
  have pt : ∀ i < n, c.points.getD i ⟨0, 0, 0⟩ ∈ c.points := fun i hi =>
    List.mem_of_getElem? (getD_of_lt c.points ⟨0, 0, 0⟩ (by rw [hv.points]; omega))
  have loc : ∀ x, 0 ≤ x → x < 1 → ∃ y, x < y ∧ ∀ z, x < z → z < y → |X z - X x| ≤ 4 * p * (W / w) * R / h * (z - x) ∧
      |Y z - Y x| ≤ 4 * p * (W / w) * R / h * (z - x) ∧ |Z z - Z x| ≤ 4 * p * (W / w) * R / h * (z - x) := by
    intro x x0 x1
    obtain ⟨k, hsx⟩ := exists_inSpan hv.knots x0 x1.le
    obtain ⟨hpk, hkn⟩ := hsx.range hv.knots
    have lt := hsx.2.2.2 x1
    refine ⟨kn c.knots (k + 1), lt, fun z z0 z1 => ?_⟩
    have zle : z < 1 := lt_of_lt_of_le z1 (hv.knots.le_one _)
    have hsz : InSpan c.knots z k := ⟨hsx.1, hsx.2.1.trans z0.le, z1.le, fun _ => z1⟩
    have ex := (curve_at_levels hv w0 (fun x hx => (hw x hx).1) x0 x1.le hsx).2
    have ez := (curve_at_levels hv w0 (fun x hx => (hw x hx).1) (x0.trans z0.le) zle.le hsz).2
    rw [e x ⟨x0, x1.le⟩, Option.some.injEq, P3.mk.injEq] at ex
    rw [e z ⟨x0.trans z0.le, zle.le⟩, Option.some.injEq, P3.mk.injEq] at ez
    rw [ex.1, ex.2.1, ex.2.2, ez.1, ez.2.1, ez.2.2, ← abs_of_pos (sub_pos.2 z0)]
    exact ⟨curveLev_lip hv w0 hw h0 hk hsx hsz fun i hi => (hp _ (pt i hi)).1,
      curveLev_lip hv w0 hw h0 hk hsx hsz fun i hi => (hp _ (pt i hi)).2.1,
      curveLev_lip hv w0 hw h0 hk hsx hsz fun i hi => (hp _ (pt i hi)).2.2⟩
  refine ⟨_, _, e s hs, e t ht, ?_, ?_, ?_⟩
  · exact lipschitz_of_right cx (fun x x0 x1 => (loc x x0 x1).imp fun y hy => ⟨hy.1, fun z a b => (hy.2 z a b).1⟩) hs ht
  · exact lipschitz_of_right cy (fun x x0 x1 => (loc x x0 x1).imp fun y hy => ⟨hy.1, fun z a b => (hy.2 z a b).2.1⟩) hs ht
  · exact lipschitz_of_right cz (fun x x0 x1 => (loc x x0 x1).imp fun y hy => ⟨hy.1, fun z a b => (hy.2 z a b).2.2⟩) hs ht

/-! ### surfaces -/

/-- numerator or denominator of a surface on one pair of spans -/
noncomputable def surfLev (s : Surface ℝ) (p q k l : Nat) (a b : ℝ) (f : Nat → Nat → ℝ) : ℝ :=
  levBy (fun i j => blendS (alphas s.knotsV b i j)) q (fun j => levBy (fun i j => blendS (alphas s.knotsU a i j)) p (fun i => f i j) p k) q l

theorem surface_at_levels {s : Surface ℝ} {p q nu nv k l : Nat} (hv : s.Valid p q nu nv) {w : ℝ} (w0 : 0 < w) (hw : ∀ x ∈ s.weights, w ≤ x) {a b : ℝ}
    (a0 : 0 ≤ a) (a1 : a ≤ 1) (b0 : 0 ≤ b) (b1 : b ≤ 1) (hs : InSpan s.knotsU a k) (hl : InSpan s.knotsV b l) :
    w ≤ surfLev s p q k l a b (fun i j => s.wt nu i j) ∧
    s.at a b = some ⟨surfLev s p q k l a b (fun i j => s.wt nu i j * (s.pt nu i j).x) / surfLev s p q k l a b (fun i j => s.wt nu i j),
      surfLev s p q k l a b (fun i j => s.wt nu i j * (s.pt nu i j).y) / surfLev s p q k l a b (fun i j => s.wt nu i j),
      surfLev s p q k l a b (fun i j => s.wt nu i j * (s.pt nu i j).z) / surfLev s p q k l a b (fun i j => s.wt nu i j)⟩ := by
  obtain ⟨hpk, hkn⟩ := hs.range hv.knotsU
  obtain ⟨hql, hln⟩ := hl.range hv.knotsV
  have hA := alphas_range hv.knotsU hs
  have hB := alphas_range hv.knotsV hl
  have N : w ≤ surfLev s p q k l a b (fun i j => s.wt nu i j) := levels_ge (p := q) hB (w := w)
    (fun j h3 h4 => levels_ge (p := p) hA (w := w)
      (fun i h1 h2 => hw _ (List.mem_of_getElem? (getD_of_lt s.weights 0 (by rw [hv.weights]; exact idx_lt (by omega) (by omega))))) le_rfl k le_rfl (by omega))
    le_rfl l le_rfl (by omega)
  refine ⟨N, ?_⟩
  have hs' : InSpan s.knotsU (clamp a) k := by rw [clamp_of_mem a0 a1]; exact hs
  have hl' : InSpan s.knotsV (clamp b) l := by rw [clamp_of_mem b0 b1]; exact hl
  obtain ⟨_, _, _, _, _, _, _, _, e⟩ := surface_evaluateBy_eq exactOps hv hs' hl' _ _ (alphas_some hv.knotsU hs) (alphas_some hv.knotsV hl)
  have ne := (lt_of_lt_of_le w0 N).ne'
  unfold surfLev at ne
  rw [Surface.at, Surface.evaluate, e]
  simp only [levBy_exact_w]
  simp only [show ∀ P N, (exactOps : EvalOps ℝ).divide P N = divP P N from fun _ _ => rfl, divP, if_neg ne, Option.map_some,
    P3.div, levBy_exact_x, levBy_exact_y, levBy_exact_z]
  rfl

/-- one coordinate on one pair of spans -/
theorem surfLev_lip {s : Surface ℝ} {p q nu nv k l : Nat} (hv : s.Valid p q nu nv) {w W R h g m : ℝ} (w0 : 0 < w) (hw : ∀ x ∈ s.weights, w ≤ x ∧ x ≤ W)
    (h0 : 0 < h) (g0 : 0 < g) (hku : ∀ a ∈ s.knotsU, ∀ b ∈ s.knotsU, a < b → h ≤ b - a) (hkv : ∀ a ∈ s.knotsV, ∀ b ∈ s.knotsV, a < b → g ≤ b - a)
    {a a' b b' : ℝ} (ha : InSpan s.knotsU a k) (ha' : InSpan s.knotsU a' k) (hb : InSpan s.knotsV b l) (hb' : InSpan s.knotsV b' l) {x : Nat → Nat → ℝ}
    (hx : ∀ i < nu, ∀ j < nv, |x i j - m| ≤ R) :
    |surfLev s p q k l a' b' (fun i j => s.wt nu i j * x i j) / surfLev s p q k l a' b' (fun i j => s.wt nu i j) -
      surfLev s p q k l a b (fun i j => s.wt nu i j * x i j) / surfLev s p q k l a b (fun i j => s.wt nu i j)| ≤
      4 * p * (W / w) * R / h * |a' - a| + 4 * q * (W / w) * R / g * |b' - b| := by
  obtain ⟨hpk, hkn⟩ := ha.range hv.knotsU
  obtain ⟨hql, hln⟩ := hb.range hv.knotsV
  have R0 : 0 ≤ R := (abs_nonneg _).trans (hx k hkn l hln)
  have wt : ∀ j, j ≤ l → l ≤ j + q → ∀ i, i ≤ k → k ≤ i + p → w ≤ s.wt nu i j ∧ s.wt nu i j ≤ W := fun j h3 h4 i h1 h2 =>
    hw _ (List.mem_of_getElem? (getD_of_lt s.weights 0 (by rw [hv.weights]; exact idx_lt (by omega) (by omega))))
  have wW : w ≤ W := (wt l le_rfl (by omega) k le_rfl (by omega)).1.trans (wt l le_rfl (by omega) k le_rfl (by omega)).2
  have hA := alphas_range hv.knotsU ha
  have hA' := alphas_range hv.knotsU ha'
  have hε := alphas_lip hv.knotsU h0 hku (t := a') ha
  have hB := alphas_range hv.knotsV hb
  have hB' := alphas_range hv.knotsV hb'
  have hδ := alphas_lip hv.knotsV g0 hkv (t := b') hb
  have N0 : ∀ {A : Nat → Nat → ℝ} (_ : ∀ i j, i ≤ k → k < j → 0 ≤ A i j ∧ A i j ≤ 1), ∀ j, j ≤ l → l ≤ j + q →
      w ≤ levBy (fun i j => blendS (A i j)) p (fun i => s.wt nu i j) p k := fun hA j h3 h4 =>
    levels_ge (p := p) hA (fun i h1 h2 => (wt j h3 h4 i h1 h2).1) le_rfl k le_rfl (by omega)
  have N := levels_ge (p := q) hB (N0 hA) le_rfl l le_rfl (by omega)
  have N' := levels_ge (p := q) hB' (N0 hA') le_rfl l le_rfl (by omega)
  have hxw : ∀ j, j ≤ l → l ≤ j + q → ∀ i, i ≤ k → k ≤ i + p → |s.wt nu i j * (x i j - m)| ≤ R * s.wt nu i j := by
    intro j h3 h4 i h1 h2
    have := (wt j h3 h4 i h1 h2).1
    rw [abs_mul, abs_of_pos (by linarith : 0 < s.wt nu i j), mul_comm]
    exact mul_le_mul_of_nonneg_right (hx i (by omega) j (by omega)) (by linarith)
  have hxM : ∀ j, j ≤ l → l ≤ j + q → ∀ i, i ≤ k → k ≤ i + p → |s.wt nu i j * (x i j - m)| ≤ W * R := fun j h3 h4 i h1 h2 =>
    (hxw j h3 h4 i h1 h2).trans (by rw [mul_comm]; exact mul_le_mul_of_nonneg_right (wt j h3 h4 i h1 h2).2 R0)
  have P0 := fun j h3 h4 => levels_ratio (p := p) hA (hxw j h3 h4) le_rfl k le_rfl (by omega)
  have P := levels_ratio (p := q) hB P0 le_rfl l le_rfl (by omega)
  have dP0 := fun j h3 h4 => levels_lip (p := p) hA hA' hε (f := fun i => s.wt nu i j * (x i j - m)) (f' := fun i => s.wt nu i j * (x i j - m))
    (M := W * R) (E := 0) (hxM j h3 h4) (by simp) le_rfl k le_rfl (by omega)
  have dP := (levels_lip (p := q) hB hB' hδ (fun j h3 h4 => (dP0 j h3 h4).1) (fun j h3 h4 => (dP0 j h3 h4).2) le_rfl l le_rfl (by omega)).2
  have dN0 := fun j h3 h4 => levels_lip (p := p) hA hA' hε (f := fun i => s.wt nu i j) (f' := fun i => s.wt nu i j) (M := W) (E := 0)
    (fun i h1 h2 => by rw [abs_of_pos (by linarith [(wt j h3 h4 i h1 h2).1])]; exact (wt j h3 h4 i h1 h2).2) (by simp) le_rfl k le_rfl (by omega)
  have dN := (levels_lip (p := q) hB hB' hδ (fun j h3 h4 => (dN0 j h3 h4).1) (fun j h3 h4 => (dN0 j h3 h4).2) le_rfl l le_rfl (by omega)).2
  simp only [levBy_center, levBy_sub] at P dP
  have := quot_lip w0 N N' P dP dN R0
  refine this.trans (le_of_eq ?_)
  field_simp
  ring

/-- **C118** A surface moves by at most `4 p κ R / h` per unit of the first parameter and `4 q κ R / g` per unit of the second
one, in each coordinate. -/
theorem surface_lipschitz {s : Surface ℝ} {p q nu nv : Nat} (hv : s.Valid p q nu nv) {w W R h g : ℝ} {m : P3 ℝ} (w0 : 0 < w)
    (hw : ∀ x ∈ s.weights, w ≤ x ∧ x ≤ W) (hp : ∀ q ∈ s.points, |q.x - m.x| ≤ R ∧ |q.y - m.y| ≤ R ∧ |q.z - m.z| ≤ R) (h0 : 0 < h) (g0 : 0 < g)
    (hku : ∀ a ∈ s.knotsU, ∀ b ∈ s.knotsU, a < b → h ≤ b - a) (hkv : ∀ a ∈ s.knotsV, ∀ b ∈ s.knotsV, a < b → g ≤ b - a)
    (hmu : ∀ x, 0 < x → x < 1 → s.knotsU.count x ≤ p) (hmv : ∀ x, 0 < x → x < 1 → s.knotsV.count x ≤ q)
    {a a' b b' : ℝ} (ha : a ∈ Icc (0 : ℝ) 1) (ha' : a' ∈ Icc (0 : ℝ) 1) (hb : b ∈ Icc (0 : ℝ) 1) (hb' : b' ∈ Icc (0 : ℝ) 1) :
    ∃ P Q, s.at a b = some P ∧ s.at a' b' = some Q ∧
      |Q.x - P.x| ≤ 4 * p * (W / w) * R / h * |a' - a| + 4 * q * (W / w) * R / g * |b' - b| ∧
      |Q.y - P.y| ≤ 4 * p * (W / w) * R / h * |a' - a| + 4 * q * (W / w) * R / g * |b' - b| ∧
      |Q.z - P.z| ≤ 4 * p * (W / w) * R / h * |a' - a| + 4 * q * (W / w) * R / g * |b' - b| := by
  obtain ⟨X, Y, Z, cx, cy, cz, e⟩ := surface_evaluate_continuous hv (fun x hx => lt_of_lt_of_le w0 (hw x hx).1) hmu hmv
  have pt : ∀ i < nu, ∀ j < nv, s.pt nu i j ∈ s.points := fun i hi j hj =>
    List.mem_of_getElem? (getD_of_lt s.points ⟨0, 0, 0⟩ (by rw [hv.points]; exact idx_lt hi hj))
  have locU : ∀ b ∈ Icc (0 : ℝ) 1, ∀ x, 0 ≤ x → x < 1 → ∃ y, x < y ∧ ∀ z, x < z → z < y →
      |X (z, b) - X (x, b)| ≤ 4 * p * (W / w) * R / h * (z - x) ∧ |Y (z, b) - Y (x, b)| ≤ 4 * p * (W / w) * R / h * (z - x) ∧
      |Z (z, b) - Z (x, b)| ≤ 4 * p * (W / w) * R / h * (z - x) := by
    intro b hb x x0 x1
    obtain ⟨k, hsx⟩ := exists_inSpan hv.knotsU x0 x1.le
    obtain ⟨l, hl⟩ := exists_inSpan hv.knotsV hb.1 hb.2
    have lt := hsx.2.2.2 x1
    refine ⟨kn s.knotsU (k + 1), lt, fun z z0 z1 => ?_⟩
    have zle : z < 1 := lt_of_lt_of_le z1 (hv.knotsU.le_one _)
    have hsz : InSpan s.knotsU z k := ⟨hsx.1, hsx.2.1.trans z0.le, z1.le, fun _ => z1⟩
    have ex := (surface_at_levels hv w0 (fun x hx => (hw x hx).1) x0 x1.le hb.1 hb.2 hsx hl).2
    have ez := (surface_at_levels hv w0 (fun x hx => (hw x hx).1) (x0.trans z0.le) zle.le hb.1 hb.2 hsz hl).2
    rw [e x ⟨x0, x1.le⟩ b hb, Option.some.injEq, P3.mk.injEq] at ex
    rw [e z ⟨x0.trans z0.le, zle.le⟩ b hb, Option.some.injEq, P3.mk.injEq] at ez
    rw [ex.1, ex.2.1, ex.2.2, ez.1, ez.2.1, ez.2.2, ← abs_of_pos (sub_pos.2 z0)]
    have c1 := surfLev_lip hv w0 hw h0 g0 hku hkv hsx hsz hl hl fun i hi j hj => (hp _ (pt i hi j hj)).1
    have c2 := surfLev_lip hv w0 hw h0 g0 hku hkv hsx hsz hl hl fun i hi j hj => (hp _ (pt i hi j hj)).2.1
    have c3 := surfLev_lip hv w0 hw h0 g0 hku hkv hsx hsz hl hl fun i hi j hj => (hp _ (pt i hi j hj)).2.2
    rw [sub_self, abs_zero, mul_zero, add_zero] at c1 c2 c3
    exact ⟨c1, c2, c3⟩
  have locV : ∀ a ∈ Icc (0 : ℝ) 1, ∀ x, 0 ≤ x → x < 1 → ∃ y, x < y ∧ ∀ z, x < z → z < y →
      |X (a, z) - X (a, x)| ≤ 4 * q * (W / w) * R / g * (z - x) ∧ |Y (a, z) - Y (a, x)| ≤ 4 * q * (W / w) * R / g * (z - x) ∧
      |Z (a, z) - Z (a, x)| ≤ 4 * q * (W / w) * R / g * (z - x) := by
    intro a ha x x0 x1
    obtain ⟨k, hk⟩ := exists_inSpan hv.knotsU ha.1 ha.2
    obtain ⟨l, hsx⟩ := exists_inSpan hv.knotsV x0 x1.le
    have lt := hsx.2.2.2 x1
    refine ⟨kn s.knotsV (l + 1), lt, fun z z0 z1 => ?_⟩
    have zle : z < 1 := lt_of_lt_of_le z1 (hv.knotsV.le_one _)
    have hsz : InSpan s.knotsV z l := ⟨hsx.1, hsx.2.1.trans z0.le, z1.le, fun _ => z1⟩
    have ex := (surface_at_levels hv w0 (fun x hx => (hw x hx).1) ha.1 ha.2 x0 x1.le hk hsx).2
    have ez := (surface_at_levels hv w0 (fun x hx => (hw x hx).1) ha.1 ha.2 (x0.trans z0.le) zle.le hk hsz).2
    rw [e a ha x ⟨x0, x1.le⟩, Option.some.injEq, P3.mk.injEq] at ex
    rw [e a ha z ⟨x0.trans z0.le, zle.le⟩, Option.some.injEq, P3.mk.injEq] at ez
    rw [ex.1, ex.2.1, ex.2.2, ez.1, ez.2.1, ez.2.2, ← abs_of_pos (sub_pos.2 z0)]
    have c1 := surfLev_lip hv w0 hw h0 g0 hku hkv hk hk hsx hsz fun i hi j hj => (hp _ (pt i hi j hj)).1
    have c2 := surfLev_lip hv w0 hw h0 g0 hku hkv hk hk hsx hsz fun i hi j hj => (hp _ (pt i hi j hj)).2.1
    have c3 := surfLev_lip hv w0 hw h0 g0 hku hkv hk hk hsx hsz fun i hi j hj => (hp _ (pt i hi j hj)).2.2
    rw [sub_self, abs_zero, mul_zero, zero_add] at c1 c2 c3
    exact ⟨c1, c2, c3⟩
  have inU : ∀ {F : ℝ × ℝ → ℝ}, ContinuousOn F (Icc 0 1 ×ˢ Icc 0 1) → ContinuousOn (fun x => F (x, b)) (Icc 0 1) := fun hF =>
    hF.comp (by fun_prop) fun x hx => ⟨hx, hb⟩
  have inV : ∀ {F : ℝ × ℝ → ℝ}, ContinuousOn F (Icc 0 1 ×ˢ Icc 0 1) → ContinuousOn (fun x => F (a', x)) (Icc 0 1) := fun hF =>
    hF.comp (by fun_prop) fun x hx => ⟨ha', hx⟩
  have both : ∀ {x y z A B : ℝ}, |y - x| ≤ A → |z - y| ≤ B → |z - x| ≤ A + B := by
    intro x y z A B h1 h2
    have := abs_add_le (y - x) (z - y)
    rw [show y - x + (z - y) = z - x by ring] at this
    linarith
  refine ⟨_, _, e a ha b hb, e a' ha' b' hb', ?_, ?_, ?_⟩
  · exact both (lipschitz_of_right (inU cx) (fun x x0 x1 => (locU b hb x x0 x1).imp fun y hy => ⟨hy.1, fun z c d => (hy.2 z c d).1⟩) ha ha')
      (lipschitz_of_right (inV cx) (fun x x0 x1 => (locV a' ha' x x0 x1).imp fun y hy => ⟨hy.1, fun z c d => (hy.2 z c d).1⟩) hb hb')
  · exact both (lipschitz_of_right (inU cy) (fun x x0 x1 => (locU b hb x x0 x1).imp fun y hy => ⟨hy.1, fun z c d => (hy.2 z c d).2.1⟩) ha ha')
      (lipschitz_of_right (inV cy) (fun x x0 x1 => (locV a' ha' x x0 x1).imp fun y hy => ⟨hy.1, fun z c d => (hy.2 z c d).2.1⟩) hb hb')
  · exact both (lipschitz_of_right (inU cz) (fun x x0 x1 => (locU b hb x x0 x1).imp fun y hy => ⟨hy.1, fun z c d => (hy.2 z c d).2.2⟩) ha ha')
      (lipschitz_of_right (inV cz) (fun x x0 x1 => (locV a' ha' x x0 x1).imp fun y hy => ⟨hy.1, fun z c d => (hy.2 z c d).2.2⟩) hb hb')

/-! ### polylines -/

/-- the bounds `curve_lipschitz` speaks about -/
structure CurveBounds (c : Curve ℝ) (p : Nat) (w W R h : ℝ) (m : P3 ℝ) : Prop where
  w0 : 0 < w
  h0 : 0 < h
  weight : ∀ x ∈ c.weights, w ≤ x ∧ x ≤ W
  point : ∀ q ∈ c.points, |q.x - m.x| ≤ R ∧ |q.y - m.y| ≤ R ∧ |q.z - m.z| ≤ R
  gap : ∀ a ∈ c.knots, ∀ b ∈ c.knots, a < b → h ≤ b - a
  mult : ∀ x, 0 < x → x < 1 → c.knots.count x ≤ p

/-- the bounds `surface_lipschitz` speaks about -/
structure SurfaceBounds (s : Surface ℝ) (p q : Nat) (w W R h g : ℝ) (m : P3 ℝ) : Prop where
  w0 : 0 < w
  h0 : 0 < h
  g0 : 0 < g
  weight : ∀ x ∈ s.weights, w ≤ x ∧ x ≤ W
  point : ∀ q ∈ s.points, |q.x - m.x| ≤ R ∧ |q.y - m.y| ≤ R ∧ |q.z - m.z| ≤ R
  gapU : ∀ a ∈ s.knotsU, ∀ b ∈ s.knotsU, a < b → h ≤ b - a
  gapV : ∀ a ∈ s.knotsV, ∀ b ∈ s.knotsV, a < b → g ≤ b - a
  multU : ∀ x, 0 < x → x < 1 → s.knotsU.count x ≤ p
  multV : ∀ x, 0 < x → x < 1 → s.knotsV.count x ≤ q

/-- every coordinate of the difference is at most `d` -/
def Near (d : ℝ) (P Q : P3 ℝ) : Prop := |Q.x - P.x| ≤ d ∧ |Q.y - P.y| ≤ d ∧ |Q.z - P.z| ≤ d

/-- a point of the unit interval lies in one of the `N` pieces -/
theorem exists_piece {N : Nat} (hN : 0 < N) {t : ℝ} (h0 : 0 ≤ t) (h1 : t ≤ 1) :
    ∃ (i : Nat) (l : ℝ), i < N ∧ 0 ≤ l ∧ l ≤ 1 ∧ t = ((i : ℝ) + l) / N := by
  have hN' : (0 : ℝ) < N := by exact_mod_cast hN
  rcases h1.eq_or_lt with rfl | h1
  · refine ⟨N - 1, 1, by omega, by norm_num, le_rfl, ?_⟩
    rw [Nat.cast_sub (by omega)]
    push_cast
    field_simp
    ring
  · refine ⟨⌊t * N⌋₊, t * N - ⌊t * N⌋₊, ?_, ?_, ?_, ?_⟩
    · rw [Nat.floor_lt (by positivity)]
      nlinarith
    · have := Nat.floor_le (show 0 ≤ t * N by positivity)
      linarith
    · have := Nat.lt_floor_add_one (t * N)
      linarith
    · field_simp
      ring

/-- **C118** The polyline of `to_polyline` and the curve are close: the point at a parameter and the point of the polyline at the
same place of its segment differ by at most `L / (20 n)` in each coordinate, `L = 4 p κ R / h`.  (The parameters `(i + l) / (10 n)`
run over all of `[0, 1]`, `exists_piece`.) -/
theorem polyline_near {c : Curve ℝ} {p n : Nat} (hv : c.Valid p n) {w W R h : ℝ} {m : P3 ℝ} (hb : CurveBounds c p w W R h m) :
    ∃ c' l, toPolyline c = some (c', l) ∧ l.length = 10 * n + 1 ∧ ∀ (i : Nat) (x : ℝ), i < 10 * n → 0 ≤ x → x ≤ 1 →
      ∃ A B P, l[i]? = some A ∧ l[i + 1]? = some B ∧ c.at ((i + x) / (10 * n : Nat)) = some P ∧
        Near (4 * p * (W / w) * R / h / (2 * (10 * n : Nat))) P ((1 - x) • A + x • B) := by
  obtain ⟨c', l, e, -, hl, hs⟩ := to_polyline_spec hv fun x hx => lt_of_lt_of_le hb.w0 (hb.weight x hx).1
  refine ⟨c', l, e, hl, fun i x hi x0 x1 => ?_⟩
  have n0 := hv.knots.p_lt_n
  set N : Nat := 10 * n with hN
  have N0 : 0 < N := by omega
  have N' : (0 : ℝ) < N := by exact_mod_cast N0
  have hiN : (i : ℝ) + 1 ≤ N := by exact_mod_cast hi
  obtain ⟨A, hA, eA⟩ := hs i (by omega)
  obtain ⟨B, hB, eB⟩ := hs (i + 1) (by omega)
  have i0 : (0 : ℝ) ≤ i := Nat.cast_nonneg i
  have in1 : (i : ℝ) / N ∈ Icc (0 : ℝ) 1 := ⟨by positivity, (div_le_one N').2 (by linarith)⟩
  have in2 : ((i : ℝ) + x) / N ∈ Icc (0 : ℝ) 1 := ⟨by positivity, (div_le_one N').2 (by linarith)⟩
  have in3 : ((i : ℝ) + 1) / N ∈ Icc (0 : ℝ) 1 := ⟨by positivity, (div_le_one N').2 (by linarith)⟩
  obtain ⟨P1, P2, e1, e2, c1⟩ := curve_lipschitz hv hb.w0 hb.weight hb.point hb.h0 hb.gap hb.mult in1 in2
  obtain ⟨P3', P4, e3, e4, c2⟩ := curve_lipschitz hv hb.w0 hb.weight hb.point hb.h0 hb.gap hb.mult in2 in3
  push_cast at eB
  rw [e1, Option.some.injEq] at eA
  rw [e4, Option.some.injEq] at eB
  rw [e2, Option.some.injEq] at e3
  subst eA eB e3
  refine ⟨P1, P4, P2, hA, hB, e2, ?_⟩
  have R0 : 0 ≤ R := by
    have : c.points[0]'(by rw [hv.points]; omega) ∈ c.points := List.getElem_mem _
    exact (abs_nonneg _).trans (hb.point _ this).1
  have W0 : 0 ≤ W := by
    have : c.weights[0]'(by rw [hv.weights]; omega) ∈ c.weights := List.getElem_mem _
    have := hb.weight _ this
    linarith [hb.w0]
  have w0 := hb.w0
  have h0 := hb.h0
  have L0 : 0 ≤ 4 * p * (W / w) * R / h := by positivity
  have key : ∀ {y1 y2 y3 : ℝ}, |y2 - y1| ≤ 4 * p * (W / w) * R / h * |((i : ℝ) + x) / N - i / N| →
      |y3 - y2| ≤ 4 * p * (W / w) * R / h * |((i : ℝ) + 1) / N - (i + x) / N| →
      |(1 - x) * y1 + x * y3 - y2| ≤ 4 * p * (W / w) * R / h / (2 * N) := by
    intro y1 y2 y3 h1 h2
    rw [show ((i : ℝ) + x) / N - i / N = x / N by ring, abs_of_nonneg (a := x / N) (by positivity)] at h1
    rw [show ((i : ℝ) + 1) / N - (i + x) / N = (1 - x) / N by ring, abs_of_nonneg (a := (1 - x) / N) (div_nonneg (by linarith) N'.le)] at h2
    revert h1 h2 L0
    generalize 4 * p * (W / w) * R / h = L
    intro L0 h1 h2
    rw [show (1 - x) * y1 + x * y3 - y2 = x * (y3 - y2) - (1 - x) * (y2 - y1) by ring]
    have a := abs_sub (x * (y3 - y2)) ((1 - x) * (y2 - y1))
    rw [abs_mul, abs_mul, abs_of_nonneg x0, abs_of_nonneg (by linarith : 0 ≤ 1 - x)] at a
    have b := mul_le_mul_of_nonneg_left h2 x0
    have c := mul_le_mul_of_nonneg_left h1 (by linarith : 0 ≤ 1 - x)
    have d : x * (L * ((1 - x) / N)) + (1 - x) * (L * (x / N)) = L / N * (2 * x * (1 - x)) := by ring
    have g : L / N * (2 * x * (1 - x)) ≤ L / N * (1 / 2) := mul_le_mul_of_nonneg_left (by nlinarith [sq_nonneg (2 * x - 1)]) (by positivity)
    have : L / (2 * N) = L / N * (1 / 2) := by field_simp
    linarith
  exact ⟨key c1.1 c2.1, key c1.2.1 c2.2.1, key c1.2.2 c2.2.2⟩

/-! ### meshes -/

/-- three corners of a cell against a point between them -/
theorem corner_near {f : ℝ → ℝ → ℝ} {Lu Lv U V : ℝ} (hU : 0 < U) (hV : 0 < V) (Lu0 : 0 ≤ Lu) (Lv0 : 0 ≤ Lv) {x y a b c : ℝ}
    {u1 v1 u2 v2 u3 v3 : ℝ} (a0 : 0 ≤ a) (b0 : 0 ≤ b) (c0 : 0 ≤ c) (abc : a + b + c = 1)
    (h1 : |f u1 v1 - f x y| ≤ Lu * |u1 - x| + Lv * |v1 - y|) (h2 : |f u2 v2 - f x y| ≤ Lu * |u2 - x| + Lv * |v2 - y|)
    (h3 : |f u3 v3 - f x y| ≤ Lu * |u3 - x| + Lv * |v3 - y|)
    (hu : a * |u1 - x| + b * |u2 - x| + c * |u3 - x| ≤ 1 / (2 * U)) (hv : a * |v1 - y| + b * |v2 - y| + c * |v3 - y| ≤ 1 / (2 * V)) :
    |a * f u1 v1 + b * f u2 v2 + c * f u3 v3 - f x y| ≤ (Lu / U + Lv / V) / 2 := by
  have e : a * f u1 v1 + b * f u2 v2 + c * f u3 v3 - f x y = a * (f u1 v1 - f x y) + b * (f u2 v2 - f x y) + c * (f u3 v3 - f x y) := by
    linear_combination (f x y) * abc
  have t := (abs_add_le (a * (f u1 v1 - f x y) + b * (f u2 v2 - f x y)) (c * (f u3 v3 - f x y))).trans
    (add_le_add_left (abs_add_le _ _) _)
  rw [abs_mul, abs_mul, abs_mul, abs_of_nonneg a0, abs_of_nonneg b0, abs_of_nonneg c0] at t
  have k1 := mul_le_mul_of_nonneg_left h1 a0
  have k2 := mul_le_mul_of_nonneg_left h2 b0
  have k3 := mul_le_mul_of_nonneg_left h3 c0
  have m1 := mul_le_mul_of_nonneg_left hu Lu0
  have m2 := mul_le_mul_of_nonneg_left hv Lv0
  have g : (Lu / U + Lv / V) / 2 = Lu * (1 / (2 * U)) + Lv * (1 / (2 * V)) := by field_simp
  rw [e, g]
  linarith

/-- the point of the surface, for all parameters of the unit square -/
noncomputable def Surface.pos (s : Surface ℝ) (u v : ℝ) : P3 ℝ := (s.at u v).getD ⟨0, 0, 0⟩

theorem lower_near {f : ℝ → ℝ → ℝ} {Lu Lv : ℝ} (Lu0 : 0 ≤ Lu) (Lv0 : 0 ≤ Lv)
    (hf : ∀ u ∈ Icc (0 : ℝ) 1, ∀ v ∈ Icc (0 : ℝ) 1, ∀ u' ∈ Icc (0 : ℝ) 1, ∀ v' ∈ Icc (0 : ℝ) 1, |f u' v' - f u v| ≤ Lu * |u' - u| + Lv * |v' - v|)
    {U V i j : Nat} (hi : i < U) (hj : j < V) {a b c : ℝ} (a0 : 0 ≤ a) (b0 : 0 ≤ b) (c0 : 0 ≤ c) (abc : a + b + c = 1) :
    |a * f (i / U) (j / V) + b * f ((i + 1) / U) (j / V) + c * f ((i + 1) / U) ((j + 1) / V) - f ((i + (b + c)) / U) ((j + c) / V)| ≤
      (Lu / U + Lv / V) / 2 := by
  have iU : (i : ℝ) + 1 ≤ U := by exact_mod_cast hi
  have jV : (j : ℝ) + 1 ≤ V := by exact_mod_cast hj
  have i0 : (0 : ℝ) ≤ i := Nat.cast_nonneg i
  have j0 : (0 : ℝ) ≤ j := Nat.cast_nonneg j
  have hU : (0 : ℝ) < U := by linarith
  have hV : (0 : ℝ) < V := by linarith
  have inU : ∀ {l : ℝ}, 0 ≤ l → l ≤ 1 → ((i : ℝ) + l) / U ∈ Icc (0 : ℝ) 1 := fun l0 l1 => ⟨by positivity, (div_le_one hU).2 (by linarith)⟩
  have inV : ∀ {l : ℝ}, 0 ≤ l → l ≤ 1 → ((j : ℝ) + l) / V ∈ Icc (0 : ℝ) 1 := fun l0 l1 => ⟨by positivity, (div_le_one hV).2 (by linarith)⟩
  have iz : (i : ℝ) / U ∈ Icc (0 : ℝ) 1 := by simpa using inU le_rfl zero_le_one
  have jz : (j : ℝ) / V ∈ Icc (0 : ℝ) 1 := by simpa using inV le_rfl zero_le_one
  have du : ∀ {x y : ℝ}, |((i : ℝ) + x) / U - (i + y) / U| = |x - y| / U := by
    intro x y; rw [← sub_div, add_sub_add_left_eq_sub, abs_div, abs_of_pos hU]
  have dv : ∀ {x y : ℝ}, |((j : ℝ) + x) / V - (j + y) / V| = |x - y| / V := by
    intro x y; rw [← sub_div, add_sub_add_left_eq_sub, abs_div, abs_of_pos hV]
  have du0 : ∀ {y : ℝ}, |(i : ℝ) / U - (i + y) / U| = |0 - y| / U := fun {y} => by rw [← du (x := 0) (y := y), add_zero]
  have dv0 : ∀ {y : ℝ}, |(j : ℝ) / V - (j + y) / V| = |0 - y| / V := fun {y} => by rw [← dv (x := 0) (y := y), add_zero]
  refine corner_near hU hV Lu0 Lv0 a0 b0 c0 abc (hf _ (inU (by linarith) (by linarith)) _ (inV c0 (by linarith)) _ iz _ jz)
    (hf _ (inU (by linarith) (by linarith)) _ (inV c0 (by linarith)) _ (inU zero_le_one le_rfl) _ jz)
    (hf _ (inU (by linarith) (by linarith)) _ (inV c0 (by linarith)) _ (inU zero_le_one le_rfl) _ (inV zero_le_one le_rfl)) ?_ ?_
  · rw [du, du0, abs_of_nonpos (by linarith : 0 - (b + c) ≤ 0), abs_of_nonneg (by linarith : 0 ≤ 1 - (b + c))]
    have : a * (-(0 - (b + c)) / U) + b * ((1 - (b + c)) / U) + c * ((1 - (b + c)) / U) = 2 * a * (1 - a) / U := by
      rw [show b = 1 - a - c by linarith]; ring
    rw [this, div_le_div_iff₀ hU (by positivity)]
    nlinarith [mul_nonneg hU.le (sq_nonneg (2 * a - 1))]
  · rw [dv, dv0, abs_of_nonpos (by linarith : 0 - c ≤ 0), abs_of_nonneg (by linarith : 0 ≤ 1 - c)]
    have : a * (-(0 - c) / V) + b * (-(0 - c) / V) + c * ((1 - c) / V) = 2 * c * (1 - c) / V := by
      rw [show b = 1 - a - c by linarith]; ring
    rw [this, div_le_div_iff₀ hV (by positivity)]
    nlinarith [mul_nonneg hV.le (sq_nonneg (2 * c - 1))]

theorem upper_near {f : ℝ → ℝ → ℝ} {Lu Lv : ℝ} (Lu0 : 0 ≤ Lu) (Lv0 : 0 ≤ Lv)
    (hf : ∀ u ∈ Icc (0 : ℝ) 1, ∀ v ∈ Icc (0 : ℝ) 1, ∀ u' ∈ Icc (0 : ℝ) 1, ∀ v' ∈ Icc (0 : ℝ) 1, |f u' v' - f u v| ≤ Lu * |u' - u| + Lv * |v' - v|)
    {U V i j : Nat} (hi : i < U) (hj : j < V) {a b c : ℝ} (a0 : 0 ≤ a) (b0 : 0 ≤ b) (c0 : 0 ≤ c) (abc : a + b + c = 1) :
    |a * f ((i + 1) / U) ((j + 1) / V) + b * f (i / U) ((j + 1) / V) + c * f (i / U) (j / V) - f ((i + a) / U) ((j + (a + b)) / V)| ≤
      (Lu / U + Lv / V) / 2 := by
  have k := lower_near (f := fun u v => f v u) Lv0 Lu0 (fun u hu v hv u' hu' v' hv' => by
    have := hf v hv u hu v' hv' u' hu'
    linarith) hj hi c0 b0 a0 (by linarith)
  have e : c * f (i / U) (j / V) + b * f (i / U) ((j + 1) / V) + a * f ((i + 1) / U) ((j + 1) / V) - f ((i + a) / U) ((j + (b + a)) / V) =
      a * f ((i + 1) / U) ((j + 1) / V) + b * f (i / U) ((j + 1) / V) + c * f (i / U) (j / V) - f ((i + a) / U) ((j + (a + b)) / V) := by
    rw [add_comm b a]; ring
  rw [e] at k
  linarith

/-- the flags of the surface are true: it closes where it is said to be closed -/
def ClosedTrue (s : Surface ℝ) : Prop :=
  (s.closedU = true → ∀ v ∈ Icc (0 : ℝ) 1, s.at 0 v = s.at 1 v) ∧ (s.closedV = true → ∀ u ∈ Icc (0 : ℝ) 1, s.at u 0 = s.at u 1)

theorem samplePos_eq {s : Surface ℝ} (hc : ClosedTrue s) {U V i j : Nat} (hi : i < U) (hj : j < V) :
    samplePos s U V (i, j) = s.pos (i / U) (j / V) ∧ samplePos s U V (wrap s.closedU i U, j) = s.pos ((i + 1) / U) (j / V) ∧
    samplePos s U V (i, wrap s.closedV j V) = s.pos (i / U) ((j + 1) / V) ∧
    samplePos s U V (wrap s.closedU i U, wrap s.closedV j V) = s.pos ((i + 1) / U) ((j + 1) / V) := by
  have iU : (i : ℝ) + 1 ≤ U := by exact_mod_cast hi
  have jV : (j : ℝ) + 1 ≤ V := by exact_mod_cast hj
  have i0 : (0 : ℝ) ≤ i := Nat.cast_nonneg i
  have j0 : (0 : ℝ) ≤ j := Nat.cast_nonneg j
  have hU : (0 : ℝ) < U := by linarith
  have hV : (0 : ℝ) < V := by linarith
  have gen : ∀ a b : Nat, samplePos s U V ((a : Int), (b : Int)) = s.pos (a / U) (b / V) := fun a b => by
    simp [samplePos, sample, Surface.pos]
  have cu : ∀ b : Nat, b ≤ V → samplePos s U V (wrap s.closedU i U, (b : Int)) = s.pos ((i + 1) / U) (b / V) := by
    intro b hb
    unfold wrap
    split_ifs with h
    · have e : (i : ℝ) + 1 = U := by
        have : (i : Int) + 1 = U := by omega
        exact_mod_cast this
      have := gen 0 b
      push_cast at this
      rw [this, e, zero_div, div_self hU.ne', Surface.pos, Surface.pos,
        hc.1 h.1 _ ⟨by positivity, (div_le_one hV).2 (by exact_mod_cast hb)⟩]
    · have := gen (i + 1) b
      push_cast at this
      exact this
  have cv : ∀ a : Nat, a ≤ U → samplePos s U V ((a : Int), wrap s.closedV j V) = s.pos (a / U) ((j + 1) / V) := by
    intro a ha
    unfold wrap
    split_ifs with h
    · have e : (j : ℝ) + 1 = V := by
        have : (j : Int) + 1 = V := by omega
        exact_mod_cast this
      have := gen a 0
      push_cast at this
      rw [this, e, zero_div, div_self hV.ne', Surface.pos, Surface.pos,
        hc.2 h.1 _ ⟨by positivity, (div_le_one hU).2 (by exact_mod_cast ha)⟩]
    · have := gen a (j + 1)
      push_cast at this
      exact this
  refine ⟨gen i j, cu j hj.le, cv i hi.le, ?_⟩
  by_cases h : s.closedV = true ∧ (j : Int) = V - 1
  · have e : (j : ℝ) + 1 = V := by
      have : (j : Int) + 1 = V := by omega
      exact_mod_cast this
    have w0 : wrap s.closedV j V = ((0 : Nat) : Int) := by unfold wrap; rw [if_pos h]; rfl
    rw [w0, cu 0 (by omega), e, div_self hV.ne', Nat.cast_zero, zero_div, Surface.pos, Surface.pos,
      hc.2 h.1 _ ⟨by positivity, (div_le_one hU).2 iU⟩]
  · have w1 : wrap s.closedV j V = ((j + 1 : Nat) : Int) := by unfold wrap; rw [if_neg h]; push_cast; rfl
    rw [w1, cu (j + 1) (by omega)]
    push_cast
    rfl

/-- **C118** The mesh of `to_mesh` and the surface are close, in both directions: every point of a triangle is near a point of the
surface, and every point of the surface is near a point of a triangle; each coordinate differs by at most half of
`Lu / U + Lv / V`, where `Lu = 4 p κ R / h`, `Lv = 4 q κ R / g`, `U = k nu` and `V = k nv`.  So the mesh converges to the surface
as the number `k` of segments grows. -/
theorem to_mesh_near {s : Surface ℝ} {p q nu nv : Nat} (hv : s.Valid p q nu nv) {w W R h g : ℝ} {m : P3 ℝ} (hb : SurfaceBounds s p q w W R h g m)
    (hc : ClosedTrue s) {k : Nat} (hk : 0 < k) (M : Mesh ℝ) :
    let d := (4 * p * (W / w) * R / h / (k * nu : Nat) + 4 * q * (W / w) * R / g / (k * nv : Nat)) / 2
    ∃ s' M', toMesh s M k true = some (s', M') ∧
      (∀ T ∈ M'.triangles, ∀ Q, InTriangle T Q → ∃ u ∈ Icc (0 : ℝ) 1, ∃ v ∈ Icc (0 : ℝ) 1, ∃ P, s.at u v = some P ∧ Near d P Q) ∧
      (∀ u ∈ Icc (0 : ℝ) 1, ∀ v ∈ Icc (0 : ℝ) 1, ∃ P, s.at u v = some P ∧ ∃ T ∈ M'.triangles, ∃ Q, InTriangle T Q ∧ Near d P Q) := by
  intro d
  have pw : ∀ x ∈ s.weights, 0 < x := fun x hx => lt_of_lt_of_le hb.w0 (hb.weight x hx).1
  obtain ⟨s', M', e, hok, ht⟩ := to_mesh_triangles hv pw hk M.clear (clear_ok M)
  have e' : toMesh s M k true = some (s', M') := by rw [← e]; rfl
  rw [triangles_eq M.clear, clear_soup, List.nil_append] at ht
  refine ⟨s', M', e', ?_⟩
  have nu0 := hv.knotsU.p_lt_n
  have nv0 := hv.knotsV.p_lt_n
  set U := k * nu with hU
  set V := k * nv with hV
  have U0 : 0 < U := Nat.mul_pos hk (by omega)
  have V0 : 0 < V := Nat.mul_pos hk (by omega)
  have U1 : (0 : ℝ) < U := by exact_mod_cast U0
  have V1 : (0 : ℝ) < V := by exact_mod_cast V0
  have R0 : 0 ≤ R := by
    have : s.points[0]'(by rw [hv.points]; exact Nat.mul_pos (by omega) (by omega)) ∈ s.points := List.getElem_mem _
    exact (abs_nonneg _).trans (hb.point _ this).1
  have W0 : 0 ≤ W := by
    have : s.weights[0]'(by rw [hv.weights]; exact Nat.mul_pos (by omega) (by omega)) ∈ s.weights := List.getElem_mem _
    have := hb.weight _ this
    linarith [hb.w0]
  have w0 := hb.w0
  have h0 := hb.h0
  have g0 := hb.g0
  have Lu0 : 0 ≤ 4 * p * (W / w) * R / h := by positivity
  have Lv0 : 0 ≤ 4 * q * (W / w) * R / g := by positivity
  have lip : ∀ u ∈ Icc (0 : ℝ) 1, ∀ v ∈ Icc (0 : ℝ) 1, ∀ u' ∈ Icc (0 : ℝ) 1, ∀ v' ∈ Icc (0 : ℝ) 1, s.at u v = some (s.pos u v) ∧
      |(s.pos u' v').x - (s.pos u v).x| ≤ 4 * p * (W / w) * R / h * |u' - u| + 4 * q * (W / w) * R / g * |v' - v| ∧
      |(s.pos u' v').y - (s.pos u v).y| ≤ 4 * p * (W / w) * R / h * |u' - u| + 4 * q * (W / w) * R / g * |v' - v| ∧
      |(s.pos u' v').z - (s.pos u v).z| ≤ 4 * p * (W / w) * R / h * |u' - u| + 4 * q * (W / w) * R / g * |v' - v| := by
    intro u hu v hv1 u' hu' v' hv'
    obtain ⟨P, Q, e1, e2, c1⟩ := surface_lipschitz hv hb.w0 hb.weight hb.point hb.h0 hb.g0 hb.gapU hb.gapV hb.multU hb.multV hu hu' hv1 hv'
    have p1 : s.pos u v = P := by rw [Surface.pos, e1]; rfl
    have p2 : s.pos u' v' = Q := by rw [Surface.pos, e2]; rfl
    rw [p1, p2]
    exact ⟨e1, c1⟩
  have lx := fun u hu v hv u' hu' v' hv' => (lip u hu v hv u' hu' v' hv').2.1
  have ly := fun u hu v hv u' hu' v' hv' => (lip u hu v hv u' hu' v' hv').2.2.1
  have lz := fun u hu v hv u' hu' v' hv' => (lip u hu v hv u' hu' v' hv').2.2.2
  have low : ∀ {i j : Nat} (hi : i < U) (hj : j < V) {a b c : ℝ} (a0 : 0 ≤ a) (b0 : 0 ≤ b) (c0 : 0 ≤ c) (abc : a + b + c = 1),
      Near d (s.pos ((i + (b + c)) / U) ((j + c) / V))
        (a • s.pos (i / U) (j / V) + b • s.pos ((i + 1) / U) (j / V) + c • s.pos ((i + 1) / U) ((j + 1) / V)) := by
    intro i j hi hj a b c a0 b0 c0 abc
    exact ⟨lower_near (f := fun u v => (s.pos u v).x) Lu0 Lv0 lx hi hj a0 b0 c0 abc, lower_near (f := fun u v => (s.pos u v).y) Lu0 Lv0 ly hi hj a0 b0 c0 abc,
      lower_near (f := fun u v => (s.pos u v).z) Lu0 Lv0 lz hi hj a0 b0 c0 abc⟩
  have upp : ∀ {i j : Nat} (hi : i < U) (hj : j < V) {a b c : ℝ} (a0 : 0 ≤ a) (b0 : 0 ≤ b) (c0 : 0 ≤ c) (abc : a + b + c = 1),
      Near d (s.pos ((i + a) / U) ((j + (a + b)) / V))
        (a • s.pos ((i + 1) / U) ((j + 1) / V) + b • s.pos (i / U) ((j + 1) / V) + c • s.pos (i / U) (j / V)) := by
    intro i j hi hj a b c a0 b0 c0 abc
    exact ⟨upper_near (f := fun u v => (s.pos u v).x) Lu0 Lv0 lx hi hj a0 b0 c0 abc, upper_near (f := fun u v => (s.pos u v).y) Lu0 Lv0 ly hi hj a0 b0 c0 abc,
      upper_near (f := fun u v => (s.pos u v).z) Lu0 Lv0 lz hi hj a0 b0 c0 abc⟩
  have inI : ∀ {N i : Nat} (_ : i < N) {l : ℝ} (_ : 0 ≤ l) (_ : l ≤ 1), ((i : ℝ) + l) / N ∈ Icc (0 : ℝ) 1 := by
    intro N i hi l l0 l1
    have : (i : ℝ) + 1 ≤ N := by exact_mod_cast hi
    have i0 : (0 : ℝ) ≤ i := Nat.cast_nonneg i
    exact ⟨div_nonneg (by linarith) (by linarith), (div_le_one (by linarith)).2 (by linarith)⟩
  constructor
  · intro T hT Q hQ
    rw [ht, surfaceSoup] at hT
    obtain ⟨t, ht', rfl⟩ := List.mem_map.1 hT
    obtain ⟨⟨j, i⟩, hc', ht'⟩ := List.mem_flatMap.1 ht'
    obtain ⟨h1, h2⟩ := mem_meshCells.1 hc'
    simp only at h1 h2
    obtain ⟨s1, s2, s3, s4⟩ := samplePos_eq hc h2 h1
    obtain ⟨a, b, c, a0, b0, c0, abc, rfl⟩ := hQ
    simp only [meshCell, List.mem_cons, List.not_mem_nil, or_false] at ht'
    rcases ht' with rfl | rfl
    · have hu := inI h2 (l := b + c) (by linarith) (by linarith)
      have hv' := inI h1 (l := c) c0 (by linarith)
      refine ⟨_, hu, _, hv', _, (lip _ hu _ hv' _ hu _ hv').1, ?_⟩
      simp only [s1, s2, s4]
      exact low h2 h1 a0 b0 c0 abc
    · have hu := inI h2 (l := a) a0 (by linarith)
      have hv' := inI h1 (l := a + b) (by linarith) (by linarith)
      refine ⟨_, hu, _, hv', _, (lip _ hu _ hv' _ hu _ hv').1, ?_⟩
      simp only [s1, s3, s4]
      exact upp h2 h1 a0 b0 c0 abc
  · intro u hu v hv'
    refine ⟨_, (lip _ hu _ hv' _ hu _ hv').1, ?_⟩
    obtain ⟨i, x, hi, x0, x1, rfl⟩ := exists_piece U0 hu.1 hu.2
    obtain ⟨j, y, hj, y0, y1, rfl⟩ := exists_piece V0 hv'.1 hv'.2
    obtain ⟨s1, s2, s3, s4⟩ := samplePos_eq hc hi hj
    have mem : ∀ t ∈ meshCell s.closedU s.closedV U V (j, i),
        (⟨samplePos s U V t.1, samplePos s U V t.2.1, samplePos s U V t.2.2⟩ : Tri3 ℝ) ∈ M'.triangles := fun t h => by
      rw [ht]
      exact List.mem_map_of_mem (List.mem_flatMap.2 ⟨_, mem_meshCells.2 ⟨hj, hi⟩, h⟩)
    rcases le_total y x with hxy | hxy
    · refine ⟨_, mem _ (by simp only [meshCell]; exact List.mem_cons_self), _, ⟨1 - x, x - y, y, by linarith, by linarith, y0, by ring, rfl⟩, ?_⟩
      simp only [s1, s2, s4]
      have := low hi hj (a := 1 - x) (b := x - y) (c := y) (by linarith) (by linarith) y0 (by ring)
      rwa [sub_add_cancel] at this
    · refine ⟨_, mem _ (by simp only [meshCell]; exact List.mem_cons_of_mem _ List.mem_cons_self), _,
        ⟨x, y - x, 1 - y, x0, by linarith, by linarith, by ring, rfl⟩, ?_⟩
      simp only [s1, s3, s4]
      have := upp hi hj (a := x) (b := y - x) (c := 1 - y) x0 (by linarith) (by linarith) (by ring)
      rwa [add_sub_cancel] at this

/-- **C118** convergence: for every `ε` all sufficiently fine meshes and the surface are within `ε` of each other -/
theorem to_mesh_converges {s : Surface ℝ} {p q nu nv : Nat} (hv : s.Valid p q nu nv) {w W R h g : ℝ} {m : P3 ℝ} (hb : SurfaceBounds s p q w W R h g m)
    (hc : ClosedTrue s) {ε : ℝ} (hε : 0 < ε) : ∃ k₀ : Nat, ∀ k ≥ k₀, ∀ M : Mesh ℝ, ∃ s' M', toMesh s M k true = some (s', M') ∧
      (∀ T ∈ M'.triangles, ∀ Q, InTriangle T Q → ∃ u ∈ Icc (0 : ℝ) 1, ∃ v ∈ Icc (0 : ℝ) 1, ∃ P, s.at u v = some P ∧ Near ε P Q) ∧
      (∀ u ∈ Icc (0 : ℝ) 1, ∀ v ∈ Icc (0 : ℝ) 1, ∃ P, s.at u v = some P ∧ ∃ T ∈ M'.triangles, ∃ Q, InTriangle T Q ∧ Near ε P Q) := by
  have nu0 := hv.knotsU.p_lt_n
  have nv0 := hv.knotsV.p_lt_n
  have R0 : 0 ≤ R := by
    have : s.points[0]'(by rw [hv.points]; exact Nat.mul_pos (by omega) (by omega)) ∈ s.points := List.getElem_mem _
    exact (abs_nonneg _).trans (hb.point _ this).1
  have W0 : 0 ≤ W := by
    have : s.weights[0]'(by rw [hv.weights]; exact Nat.mul_pos (by omega) (by omega)) ∈ s.weights := List.getElem_mem _
    have := hb.weight _ this
    linarith [hb.w0]
  have w0 := hb.w0
  have h0 := hb.h0
  have g0 := hb.g0
  have Lu0 : 0 ≤ 4 * p * (W / w) * R / h := by positivity
  have Lv0 : 0 ≤ 4 * q * (W / w) * R / g := by positivity
  obtain ⟨k₁, hk₁⟩ := exists_nat_gt ((4 * p * (W / w) * R / h + 4 * q * (W / w) * R / g) / (2 * ε))
  refine ⟨k₁ + 1, fun k hk M => ?_⟩
  obtain ⟨s', M', e, h1, h2⟩ := to_mesh_near hv hb hc (k := k) (by omega) M
  have k0 : (0 : ℝ) < k := by exact_mod_cast (by omega : 0 < k)
  have kk : (k₁ : ℝ) ≤ k := by exact_mod_cast (by omega : k₁ ≤ k)
  have le : (4 * p * (W / w) * R / h / (k * nu : Nat) + 4 * q * (W / w) * R / g / (k * nv : Nat)) / 2 ≤ ε := by
    have a : 4 * p * (W / w) * R / h / (k * nu : Nat) ≤ 4 * p * (W / w) * R / h / k :=
      div_le_div_of_nonneg_left Lu0 k0 (by exact_mod_cast Nat.le_mul_of_pos_right k (by omega))
    have b : 4 * q * (W / w) * R / g / (k * nv : Nat) ≤ 4 * q * (W / w) * R / g / k :=
      div_le_div_of_nonneg_left Lv0 k0 (by exact_mod_cast Nat.le_mul_of_pos_right k (by omega))
    have c := hk₁.trans_le kk
    rw [div_lt_iff₀ (by positivity)] at c
    have d : (4 * p * (W / w) * R / h + 4 * q * (W / w) * R / g) / k ≤ 2 * ε := by
      rw [div_le_iff₀ k0]
      linarith
    rw [add_div] at d
    linarith
  have mono : ∀ {d P Q}, d ≤ ε → Near d P Q → Near ε P Q := fun hd ⟨a, b, c⟩ => ⟨a.trans hd, b.trans hd, c.trans hd⟩
  refine ⟨s', M', e, fun T hT Q hQ => ?_, fun u hu v hv' => ?_⟩
  · obtain ⟨u, hu, v, hv', P, e, n⟩ := h1 T hT Q hQ
    exact ⟨u, hu, v, hv', P, e, mono le n⟩
  · obtain ⟨P, e, T, hT, Q, hQ, n⟩ := h2 u hu v hv'
    exact ⟨P, e, T, hT, Q, hQ, mono le n⟩

/-! ### Concrete cases -/

theorem arcR_bounds : CurveBounds arcR 2 (3 / 4) 1 (1 / 2) 1 ⟨1 / 2, 1 / 2, 0⟩ := by
  refine ⟨by norm_num, by norm_num, ?_, ?_, ?_, ?_⟩
  · intro x hx
    simp only [arcR, List.mem_cons, List.not_mem_nil, or_false] at hx
    rcases hx with rfl | rfl | rfl <;> norm_num
  · intro q hq
    simp only [arcR, List.mem_cons, List.not_mem_nil, or_false] at hq
    rcases hq with rfl | rfl | rfl <;> norm_num [abs_le]
  · intro a ha b hb hab
    simp only [arcR, List.mem_cons, List.not_mem_nil, or_false, or_self] at ha hb
    rcases ha with rfl | rfl | rfl | rfl | rfl | rfl <;> rcases hb with rfl | rfl | rfl | rfl | rfl | rfl <;> linarith
  · intro x x0 x1
    simp [arcR, x0.ne, x1.ne']

/-- the polyline of the arc (31 points) is within 4/45 of it -/
example : ∃ c' l, toPolyline arcR = some (c', l) ∧ l.length = 31 ∧ ∀ (i : Nat) (x : ℝ), i < 30 → 0 ≤ x → x ≤ 1 →
    ∃ A B P, l[i]? = some A ∧ l[i + 1]? = some B ∧ arcR.at ((i + x) / 30) = some P ∧ Near (4 / 45) P ((1 - x) • A + x • B) := by
  obtain ⟨c', l, e, hl, h⟩ := polyline_near arcR_valid arcR_bounds
  refine ⟨c', l, e, hl, fun i x hi x0 x1 => ?_⟩
  obtain ⟨A, B, P, e1, e2, e3, e4⟩ := h i x hi x0 x1
  norm_num at e3 e4
  exact ⟨A, B, P, e1, e2, e3, e4⟩

/-- the tube of `tubeR`, flagged as closed -/
noncomputable def tubeC (a b : ℝ) : Surface ℝ := { tubeR a b with closedU := true }

theorem tubeC_valid (a b : ℝ) : (tubeC a b).Valid 2 1 3 2 := by
  obtain ⟨h1, h2, h3, h4, h5, h6, h7, h8, h9, h10, h11, h12⟩ := tubeR_valid a b
  exact ⟨h1, h2, h3, h4, h5, h6, h7, h8, h9, h10, h11, h12⟩

theorem tubeC_closed (a b : ℝ) : ClosedTrue (tubeC a b) := by
  refine ⟨fun _ v hv => ?_, fun h => absurd h (by simp [tubeC, tubeR])⟩
  have hs := surface_sides (tubeC_valid a b)
  have c0 : IsColumn (tubeC a b) ((tubeC a b).col 1 3 2 0) 1 3 2 0 := ⟨col_valid (tubeC_valid a b) _, rfl, rfl, rfl⟩
  have c2 : IsColumn (tubeC a b) ((tubeC a b).col 1 3 2 0) 1 3 2 (3 - 1) := ⟨col_valid (tubeC_valid a b) _, rfl, rfl, rfl⟩
  rw [hs.1 (by show (0 : ℝ) < 1; norm_num) _ c0, hs.2.1 (by show (0 : ℝ) < 1; norm_num) _ c2]

theorem tubeC_bounds : SurfaceBounds (tubeC 0 2) 2 1 (3 / 4) 1 1 1 1 ⟨1, 1, 1⟩ := by
  refine ⟨by norm_num, by norm_num, by norm_num, ?_, ?_, ?_, ?_, ?_, ?_⟩
  · intro x hx
    simp only [tubeC, tubeR, List.mem_cons, List.not_mem_nil, or_false] at hx
    rcases hx with rfl | rfl | rfl | rfl | rfl | rfl <;> norm_num
  · intro q hq
    simp only [tubeC, tubeR, List.mem_cons, List.not_mem_nil, or_false] at hq
    rcases hq with rfl | rfl | rfl | rfl | rfl | rfl <;> norm_num
  · intro a ha b hb hab
    simp only [tubeC, tubeR, List.mem_cons, List.not_mem_nil, or_false, or_self] at ha hb
    rcases ha with rfl | rfl | rfl | rfl | rfl | rfl <;> rcases hb with rfl | rfl | rfl | rfl | rfl | rfl <;> linarith
  · intro a ha b hb hab
    simp only [tubeC, tubeR, List.mem_cons, List.not_mem_nil, or_false, or_self] at ha hb
    rcases ha with rfl | rfl | rfl | rfl <;> rcases hb with rfl | rfl | rfl | rfl <;> linarith
  · intro x x0 x1
    simp [tubeC, tubeR, x0.ne, x1.ne']
  · intro x x0 x1
    simp [tubeC, tubeR, x0.ne, x1.ne']

/-- with 100 segments every point of its mesh is within 0.032 of it -/
example (M : Mesh ℝ) : ∃ s' M', toMesh (tubeC 0 2) M 100 true = some (s', M') ∧
    ∀ T ∈ M'.triangles, ∀ Q, InTriangle T Q → ∃ u ∈ Icc (0 : ℝ) 1, ∃ v ∈ Icc (0 : ℝ) 1, ∃ P, (tubeC 0 2).at u v = some P ∧ Near (7 / 225) P Q := by
  obtain ⟨s', M', e, h, -⟩ := to_mesh_near (tubeC_valid 0 2) tubeC_bounds (tubeC_closed 0 2) (k := 100) (by norm_num) M
  refine ⟨s', M', e, ?_⟩
  norm_num at h
  exact h

end Nurbs
end CAD
