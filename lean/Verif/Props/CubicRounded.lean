import Verif.Model.CubicRounded
import Verif.Lemmas.Appr
import Verif.Props.SmoothMesh
import Verif.Props.BezierRounded
import Verif.Props.GeometryRounded
import Verif.Props.NurbsShapesMesh

/-! C139: Bernstein polynomials and point-normal triangles in floating point. -/

namespace CAD
namespace Bezier

/-- without rounding the models are those of exact arithmetic -/
theorem bernsteinR_id (u : ℝ) : b01R id u = b01 u ∧ b02R id u = b02 u ∧ b12R id u = b12 u ∧ b22R id u = b22 u ∧ b03R id u = b03 u ∧
    b13R id u = b13 u ∧ b23R id u = b23 u ∧ b33R id u = b33 u := ⟨rfl, rfl, rfl, rfl, rfl, rfl, rfl, rfl⟩

section
variable {U t : ℝ} {fl : ℝ → ℝ}

theorem basis_near (F : FlAt U 1 fl) (t0 : 0 ≤ t) (t1 : t ≤ 1) :
    |b01R fl t - (1 - t)| ≤ 2 * U ∧ |b02R fl t - (1 - t) ^ 2| ≤ 7 * U ∧ |b12R fl t - 2 * t * (1 - t)| ≤ 12 * U ∧ |b22R fl t - t ^ 2| ≤ 3 * U ∧
    |b03R fl t - (1 - t) ^ 3| ≤ 12 * U ∧ |b13R fl t - 3 * t * (1 - t) ^ 2| ≤ 31 * U ∧ |b23R fl t - 3 * t ^ 2 * (1 - t)| ≤ 25 * U ∧
    |b33R fl t - t ^ 3| ≤ 6 * U := by
  have T : Appr U 1 0 1 t t := Appr.exact (by rw [abs_of_nonneg t0]; linarith)
  have one : Appr U 1 0 1 (1 : ℝ) 1 := Appr.exact (by norm_num)
  have two : Appr U 1 0 2 (2 : ℝ) 2 := Appr.exact (by norm_num)
  have three : Appr U 1 0 3 (3 : ℝ) 3 := Appr.exact (by norm_num)
  have S := ((one.sub T).bound (b1 := 1) (by rw [abs_of_nonneg (by linarith)]; linarith)).round F (by norm_num) (by norm_num)
  norm_num at S
  have SS := (S.mul F.u0 F.u1 zero_le_one S (by norm_num) (by norm_num)).round F (by norm_num) (by norm_num)
  norm_num at SS
  have SSS := (SS.mul F.u0 F.u1 zero_le_one S (by norm_num) (by norm_num)).round F (by norm_num) (by norm_num)
  norm_num at SSS
  have TT := (T.mul F.u0 F.u1 zero_le_one T (by norm_num) (by norm_num)).round F (by norm_num) (by norm_num)
  norm_num at TT
  have TTT := (TT.mul F.u0 F.u1 zero_le_one T (by norm_num) (by norm_num)).round F (by norm_num) (by norm_num)
  norm_num at TTT
  have T2 := (two.mul F.u0 F.u1 zero_le_one T (by norm_num) (by norm_num)).round F (by norm_num) (by norm_num)
  norm_num at T2
  have T3 := (three.mul F.u0 F.u1 zero_le_one T (by norm_num) (by norm_num)).round F (by norm_num) (by norm_num)
  norm_num at T3
  have TT3 := (three.mul F.u0 F.u1 zero_le_one TT (by norm_num) (by norm_num)).round F (by norm_num) (by norm_num)
  norm_num at TT3
  have A12 := (T2.mul F.u0 F.u1 zero_le_one S (by norm_num) (by norm_num)).round F (by norm_num) (by norm_num)
  norm_num at A12
  have A13 := (T3.mul F.u0 F.u1 zero_le_one SS (by norm_num) (by norm_num)).round F (by norm_num) (by norm_num)
  norm_num at A13
  have A23 := (TT3.mul F.u0 F.u1 zero_le_one S (by norm_num) (by norm_num)).round F (by norm_num) (by norm_num)
  norm_num at A23
  have e : ∀ {k x y z : ℝ}, |x - y| ≤ k * (U * 1) → y = z → |x - z| ≤ k * U := fun h h' => by rw [mul_one, h'] at h; exact h
  have w : ∀ {k l x : ℝ}, |x| ≤ k * U → k ≤ l → |x| ≤ l * U := fun h h' => h.trans (mul_le_mul_of_nonneg_right h' F.u0)
  exact ⟨w (e S.near rfl) (by norm_num), w (e SS.near (by ring)) (by norm_num), w (e A12.near (by ring)) (by norm_num),
    w (e TT.near (by ring)) (by norm_num), w (e SSS.near (by ring)) (by norm_num), w (e A13.near (by ring)) (by norm_num),
    w (e A23.near (by ring)) (by norm_num), w (e TTT.near (by ring)) (by norm_num)⟩
end

/-- **C139** the Bernstein polynomials in double, at every parameter of [0, 1]: none is negative, each is within 2⁻⁴⁸ of its exact value, and for
each degree they sum to one within 2⁻⁴⁶ -/
theorem bernstein_double {t : ℝ} (t0 : 0 ≤ t) (t1 : t ≤ 1) :
    (∀ b ∈ [b01R double t, b02R double t, b12R double t, b22R double t, b03R double t, b13R double t, b23R double t, b33R double t], 0 ≤ b) ∧
    (|b01R double t - (1 - t)| ≤ 2 ^ (-48 : ℤ) ∧ |b02R double t - (1 - t) ^ 2| ≤ 2 ^ (-48 : ℤ) ∧
      |b12R double t - 2 * t * (1 - t)| ≤ 2 ^ (-48 : ℤ) ∧ |b22R double t - t ^ 2| ≤ 2 ^ (-48 : ℤ) ∧
      |b03R double t - (1 - t) ^ 3| ≤ 2 ^ (-48 : ℤ) ∧ |b13R double t - 3 * t * (1 - t) ^ 2| ≤ 2 ^ (-48 : ℤ) ∧
      |b23R double t - 3 * t ^ 2 * (1 - t)| ≤ 2 ^ (-48 : ℤ) ∧ |b33R double t - t ^ 3| ≤ 2 ^ (-48 : ℤ)) ∧
    |b01R double t + t - 1| ≤ 2 ^ (-46 : ℤ) ∧ |b02R double t + b12R double t + b22R double t - 1| ≤ 2 ^ (-46 : ℤ) ∧
    |b03R double t + b13R double t + b23R double t + b33R double t - 1| ≤ 2 ^ (-46 : ℤ) := by
  have F : FlAt (2 ^ (-53 : ℤ)) 1 double := QuadBez.flAt_double (zpow_le_one_of_nonpos₀ one_le_two (by norm_num)) (one_le_zpow₀ one_le_two (by norm_num))
  obtain ⟨h1, h2, h3, h4, h5, h6, h7, h8⟩ := basis_near F t0 t1
  have k : (2 : ℝ) ^ (-48 : ℤ) = 32 * 2 ^ (-53 : ℤ) := by norm_num
  have k' : (2 : ℝ) ^ (-46 : ℤ) = 128 * 2 ^ (-53 : ℤ) := by norm_num
  have U0 : (0 : ℝ) < 2 ^ (-53 : ℤ) := by positivity
  rw [k, k']
  generalize (2 : ℝ) ^ (-53 : ℤ) = U at *
  refine ⟨?_, ⟨by linarith, by linarith, by linarith, by linarith, by linarith, by linarith, by linarith, by linarith⟩, ?_, ?_, ?_⟩
  · have D : ∀ {x : ℝ}, 0 ≤ x → 0 ≤ double x := fun h => Nurbs.double_nonneg h
    have s0 : 0 ≤ double (1 - t) := D (by linarith)
    have a := D (mul_nonneg s0 s0)
    have b := D (mul_nonneg t0 t0)
    have c : 0 ≤ double (2 * t) := D (by linarith)
    have d : 0 ≤ double (3 * t) := D (by linarith)
    have e : 0 ≤ double (3 * double (t * t)) := D (by linarith)
    simp only [List.forall_mem_cons]
    exact ⟨s0, a, D (mul_nonneg c s0), b, D (mul_nonneg a s0), D (mul_nonneg d a), D (mul_nonneg e s0), D (mul_nonneg b t0), by simp⟩
  · rw [abs_le] at *
    constructor <;> linarith
  · rw [abs_le] at *
    constructor <;> nlinarith
  · rw [abs_le] at *
    constructor <;> nlinarith

example : (0 : ℝ) ≤ 1 / 3 ∧ (1 / 3 : ℝ) ≤ 1 := by norm_num

end Bezier

namespace CubicBez
open Rounded

/-- without rounding the model is that of exact arithmetic -/
theorem setNormalsR_id (q : CubicBez ℝ) (n1 n2 n3 : P3 ℝ) : q.setNormalsR id n1 n2 n3 = q.setNormals n1 n2 n3 := by
  have o : ∀ (p : P3 ℝ) (d : ℝ), overR id p d = (1 / d) • p := fun p d => by
    simp only [overR, P3.ext_iff, P3.smul_x, P3.smul_y, P3.smul_z, id]
    refine ⟨?_, ?_, ?_⟩ <;> ring
  have a : ∀ p q : P3 ℝ, Rounded.add id p q = p + q := fun _ _ => rfl
  have s : ∀ p q : P3 ℝ, Rounded.sub id p q = p - q := fun _ _ => rfl
  have m : ∀ (d : ℝ) (p : P3 ℝ), scale id d p = d • p := fun _ _ => rfl
  have d : ∀ p q : P3 ℝ, dot id p q = p.dot q := fun _ _ => rfl
  simp only [setNormalsR, setNormals, edgeControlR, edgeControl, o, a, s, m, d]

/-- the coordinates are at most `S` -/
def InBox (S : ℝ) (p : P3 ℝ) : Prop := |p.x| ≤ S ∧ |p.y| ≤ S ∧ |p.z| ≤ S

/-- the coordinates of two points are at most `d` apart -/
def Close (d : ℝ) (p q : P3 ℝ) : Prop := |p.x - q.x| ≤ d ∧ |p.y - q.y| ≤ d ∧ |p.z - q.z| ≤ d

section
variable {U S e e1 e2 b b1 b2 : ℝ} {fl : ℝ → ℝ}

/-- `Appr` for the three coordinates -/
structure ApprP (U S e b : ℝ) (p' p : P3 ℝ) : Prop where
  x : Appr U S e b p'.x p.x
  y : Appr U S e b p'.y p.y
  z : Appr U S e b p'.z p.z

theorem ApprP.add (F : FlAt U S fl) {p p' q q' : P3 ℝ} (h : ApprP U S e1 b1 p' p) (k : ApprP U S e2 b2 q' q) (he : e1 + e2 ≤ 500) (hb : b1 + b2 ≤ 100) :
    ApprP U S (e1 + e2 + (b1 + b2) + 1) (b1 + b2) (Rounded.add fl p' q') (p + q) :=
  ⟨(h.x.add k.x).round F he hb, (h.y.add k.y).round F he hb, (h.z.add k.z).round F he hb⟩

theorem ApprP.sub (F : FlAt U S fl) {p p' q q' : P3 ℝ} (h : ApprP U S e1 b1 p' p) (k : ApprP U S e2 b2 q' q) (he : e1 + e2 ≤ 500) (hb : b1 + b2 ≤ 100) :
    ApprP U S (e1 + e2 + (b1 + b2) + 1) (b1 + b2) (Rounded.sub fl p' q') (p - q) :=
  ⟨(h.x.sub k.x).round F he hb, (h.y.sub k.y).round F he hb, (h.z.sub k.z).round F he hb⟩

theorem over {x' x d : ℝ} (d0 : 0 < d) (h : Appr U S e b x' x) : Appr U S (e / d) (b / d) (x' / d) (1 / d * x) := by
  obtain ⟨h1, h2⟩ := h
  constructor
  · rw [show x' / d - 1 / d * x = (x' - x) / d by ring, abs_div, abs_of_pos d0, div_le_iff₀ d0]
    rw [show e / d * (U * S) * d = e * (U * S) * (d / d) by ring, div_self d0.ne', mul_one]; exact h1
  · rw [show 1 / d * x = x / d by ring, abs_div, abs_of_pos d0, div_le_iff₀ d0]
    rw [show b / d * S * d = b * S * (d / d) by ring, div_self d0.ne', mul_one]; exact h2

theorem ApprP.over (F : FlAt U S fl) {p p' : P3 ℝ} {d : ℝ} (d0 : 0 < d) (h : ApprP U S e b p' p) (he : e / d ≤ 500) (hb : b / d ≤ 100) :
    ApprP U S (e / d + b / d + 1) (b / d) (overR fl p' d) ((1 / d) • p) :=
  ⟨(CubicBez.over d0 h.x).round F he hb, (CubicBez.over d0 h.y).round F he hb, (CubicBez.over d0 h.z).round F he hb⟩

theorem ApprP.exact {p : P3 ℝ} (h : InBox S p) : ApprP U S 0 1 p p :=
  ⟨Appr.exact (by rw [one_mul]; exact h.1), Appr.exact (by rw [one_mul]; exact h.2.1), Appr.exact (by rw [one_mul]; exact h.2.2)⟩

theorem up (F : FlAt U S fl) {x' x : ℝ} (h : Appr U S e b x' x) (he : e ≤ e1) (hb : b ≤ b1) : Appr U S e1 b1 x' x :=
  (h.weaken (mul_nonneg F.u0 F.s0.le) he).bound (h.size.trans (mul_le_mul_of_nonneg_right hb F.s0.le))

theorem ApprP.up (F : FlAt U S fl) {p' p : P3 ℝ} (h : ApprP U S e b p' p) (he : e ≤ e1) (hb : b ≤ b1) : ApprP U S e1 b1 p' p :=
  ⟨CubicBez.up F h.x he hb, CubicBez.up F h.y he hb, CubicBez.up F h.z he hb⟩

theorem edge_near (F : FlAt U S fl) {p q n : P3 ℝ} (hp : InBox S p) (hq : InBox S q) (hn : InBox (65 / 64) n) :
    ApprP U S 27 4 (edgeControlR fl p q n) (edgeControl p q n) := by
  have P : ApprP U S 0 1 p p := .exact hp
  have Q : ApprP U S 0 1 q q := .exact hq
  have nx : Appr U 1 0 (65 / 64) n.x n.x := Appr.exact (by rw [mul_one]; exact hn.1)
  have ny : Appr U 1 0 (65 / 64) n.y n.y := Appr.exact (by rw [mul_one]; exact hn.2.1)
  have nz : Appr U 1 0 (65 / 64) n.z n.z := Appr.exact (by rw [mul_one]; exact hn.2.2)
  have D := Q.sub F P (by norm_num) (by norm_num)
  norm_num at D
  have us0 : 0 ≤ U * S := mul_nonneg F.u0 F.s0.le
  have m : ∀ {a' a c : ℝ}, Appr U S 3 2 a' a → Appr U 1 0 (65 / 64) c c → Appr U S 8 (17 / 8) (fl (a' * c)) (a * c) := fun h k =>
    up F ((h.mul' F.u0 F.u1 F.s0.le k (by norm_num) (by norm_num)).round F (by norm_num) (by norm_num)) (by norm_num) (by norm_num)
  have w1 := up F (((m D.x nx).add (m D.y ny)).round F (by norm_num) (by norm_num)) (e1 := 22) (b1 := 17 / 4) (by norm_num) (by norm_num)
  have w2 := up F ((w1.add (m D.z nz)).round F (by norm_num) (by norm_num)) (e1 := 38) (b1 := 51 / 8) (by norm_num) (by norm_num)
  have v : ∀ {a' a c : ℝ}, Appr U S 38 (51 / 8) a' a → Appr U 1 0 (65 / 64) c c → Appr U S 48 (13 / 2) (fl (a' * c)) (a * c) := fun h k =>
    up F ((h.mul' F.u0 F.u1 F.s0.le k (by norm_num) (by norm_num)).round F (by norm_num) (by norm_num)) (by norm_num) (by norm_num)
  have V : ApprP U S 48 (13 / 2) (scale fl (dot fl (Rounded.sub fl q p) n) n) (((q - p).dot n) • n) := ⟨v w2 nx, v w2 ny, v w2 nz⟩
  have A := (P.add F P (by norm_num) (by norm_num)).add F Q (by norm_num) (by norm_num)
  exact ((A.sub F V (by norm_num) (by norm_num)).over F (d := 3) (by norm_num) (by norm_num) (by norm_num)).up F (by norm_num) (by norm_num)

theorem center_near (F : FlAt U S fl) (c : CubicBez ℝ) {n1 n2 n3 : P3 ℝ} (h1 : InBox S c.p1) (h2 : InBox S c.p2) (h3 : InBox S c.p3)
    (k1 : InBox (65 / 64) n1) (k2 : InBox (65 / 64) n2) (k3 : InBox (65 / 64) n3) :
    ApprP U S 86 7 (c.setNormalsR fl n1 n2 n3).center (c.setNormals n1 n2 n3).center := by
  have s2 := (edge_near F h1 h2 k1).add F (edge_near F h2 h1 k2) (by norm_num) (by norm_num)
  have s3 := s2.add F (edge_near F h1 h3 k1) (by norm_num) (by norm_num)
  have s4 := s3.add F (edge_near F h3 h1 k3) (by norm_num) (by norm_num)
  have s5 := s4.add F (edge_near F h2 h3 k2) (by norm_num) (by norm_num)
  have s6 := (s5.add F (edge_near F h3 h2 k3) (by norm_num) (by norm_num)).over F (d := 6) (by norm_num) (by norm_num) (by norm_num)
  have V := (((ApprP.exact h1).add F (.exact h2) (by norm_num) (by norm_num)).add F (.exact h3) (by norm_num) (by norm_num)).over F (d := 3) (by norm_num)
    (by norm_num) (by norm_num)
  exact (s6.add F ((s6.sub F V (by norm_num) (by norm_num)).over F (d := 2) (by norm_num) (by norm_num) (by norm_num)) (by norm_num) (by norm_num)).up F
    (by norm_num) (by norm_num)
end

/-- a unit vector up to rounding: its squared length is one within 2⁻⁴⁶ -/
def NearUnit (n : P3 ℝ) : Prop := |n.dot n - 1| ≤ 2 ^ (-46 : ℤ)

theorem NearUnit.inBox {n : P3 ℝ} (h : NearUnit n) : InBox (65 / 64) n := by
  have h' : n.x * n.x + n.y * n.y + n.z * n.z - 1 ≤ 1 / 64 := (abs_le.1 h).2.trans (by norm_num)
  refine ⟨?_, ?_, ?_⟩ <;> refine abs_le_of_sq_le_sq ?_ (by norm_num) <;> nlinarith [mul_self_nonneg n.x, mul_self_nonneg n.y, mul_self_nonneg n.z]

/-- sizes at which the arithmetic neither overflows nor loses its accuracy by underflow -/
def Fits (S : ℝ) : Prop := 2 ^ (-900 : ℤ) ≤ S ∧ S ≤ 2 ^ (900 : ℤ)

theorem close_of {k e b S : ℝ} {p' p : P3 ℝ} (S0 : 0 < S) (h : ApprP (2 ^ (-53 : ℤ)) S e b p' p) (he : e * 2 ^ (-53 : ℤ) ≤ k) : Close (k * S) p' p := by
  have : e * (2 ^ (-53 : ℤ) * S) ≤ k * S := by rw [← mul_assoc]; exact mul_le_mul_of_nonneg_right he S0.le
  exact ⟨h.x.near.trans this, h.y.near.trans this, h.z.near.trans this⟩

/-- **C139** `set_normals` in double: the six control points of the sides are within 2⁻⁴⁸·S, the central one within 2⁻⁴⁶·S of the exact ones, in each
coordinate, for corners with coordinates up to `S`; the corners are kept -/
theorem set_normals_double (c : CubicBez ℝ) {n1 n2 n3 : P3 ℝ} {S : ℝ} (hS : Fits S) (h1 : InBox S c.p1) (h2 : InBox S c.p2) (h3 : InBox S c.p3)
    (k1 : NearUnit n1) (k2 : NearUnit n2) (k3 : NearUnit n3) :
    let r := c.setNormalsR double n1 n2 n3
    let x := c.setNormals n1 n2 n3
    (r.p1 = c.p1 ∧ r.p2 = c.p2 ∧ r.p3 = c.p3) ∧
    Close (2 ^ (-48 : ℤ) * S) r.c12 x.c12 ∧ Close (2 ^ (-48 : ℤ) * S) r.c21 x.c21 ∧ Close (2 ^ (-48 : ℤ) * S) r.c13 x.c13 ∧
    Close (2 ^ (-48 : ℤ) * S) r.c31 x.c31 ∧ Close (2 ^ (-48 : ℤ) * S) r.c23 x.c23 ∧ Close (2 ^ (-48 : ℤ) * S) r.c32 x.c32 ∧
    Close (2 ^ (-46 : ℤ) * S) r.center x.center := by
  have F := QuadBez.flAt_double hS.1 hS.2
  have e : ∀ {p q n : P3 ℝ}, InBox S p → InBox S q → NearUnit n → Close (2 ^ (-48 : ℤ) * S) (edgeControlR double p q n) (edgeControl p q n) :=
    fun a b d => close_of F.s0 (edge_near F a b d.inBox) (by norm_num)
  exact ⟨⟨rfl, rfl, rfl⟩, e h1 h2 k1, e h2 h1 k2, e h1 h3 k1, e h3 h1 k3, e h2 h3 k2, e h3 h2 k3,
    close_of F.s0 (center_near F c h1 h2 h3 k1.inBox k2.inBox k3.inBox) (by norm_num)⟩

theorem edge_tangent_double {p q n : P3 ℝ} {S : ℝ} (hS : Fits S) (hp : InBox S p) (hq : InBox S q) (hn : NearUnit n) :
    |(edgeControlR double p q n - p).dot n| ≤ 2 ^ (-44 : ℤ) * S := by
  have F := QuadBez.flAt_double hS.1 hS.2
  have S0 := F.s0
  obtain ⟨x, y, z⟩ := close_of (k := 2 ^ (-48 : ℤ)) S0 (edge_near F hp hq hn.inBox) (by norm_num)
  obtain ⟨nx, ny, nz⟩ := hn.inBox
  obtain ⟨px, py, pz⟩ := hp
  obtain ⟨qx, qy, qz⟩ := hq
  have d : ∀ {a b : ℝ}, |a| ≤ S → |b| ≤ S → |b - a| ≤ 2 * S := fun ha hb => (abs_sub _ _).trans (by linarith)
  have t : ∀ {a b A B : ℝ}, |a| ≤ A → |b| ≤ B → |a * b| ≤ A * B := fun {a b A B} ha hb => by
    rw [abs_mul]; exact mul_le_mul ha hb (abs_nonneg _) ((abs_nonneg _).trans ha)
  have three : ∀ {a b c A : ℝ}, |a| ≤ A → |b| ≤ A → |c| ≤ A → |a + b + c| ≤ 3 * A := fun {a b c A} ha hb hc => by
    have := abs_add_le (a + b) c
    have := abs_add_le a b
    linarith
  have w : |(q - p).dot n| ≤ 3 * (2 * S * (65 / 64)) := three (t (d px qx) nx) (t (d py qy) ny) (t (d pz qz) nz)
  have e : (edgeControlR double p q n - p).dot n = ((edgeControlR double p q n).x - (edgeControl p q n).x) * n.x +
      ((edgeControlR double p q n).y - (edgeControl p q n).y) * n.y + ((edgeControlR double p q n).z - (edgeControl p q n).z) * n.z +
      -(1 / 3) * ((q - p).dot n * (n.dot n - 1)) := by
    simp only [edgeControl, P3.dot, P3.sub_x, P3.sub_y, P3.sub_z, P3.smul_x, P3.smul_y, P3.smul_z, P3.add_x, P3.add_y, P3.add_z]
    ring
  rw [e]
  have a1 := three (t x nx) (t y ny) (t z nz)
  have a2 := t w hn
  refine (abs_add_le _ _).trans ?_
  rw [abs_mul (-(1 / 3) : ℝ)]
  have : |(-(1 / 3) : ℝ)| = 1 / 3 := by norm_num
  rw [this]
  have k1 : (2 : ℝ) ^ (-48 : ℤ) = 1 / 16 * 2 ^ (-44 : ℤ) := by norm_num
  have k2 : (2 : ℝ) ^ (-46 : ℤ) = 1 / 4 * 2 ^ (-44 : ℤ) := by norm_num
  rw [k1] at a1
  rw [k2] at a2
  have : 0 < (2 : ℝ) ^ (-44 : ℤ) * S := by positivity
  linarith

/-- **C139** the control points computed next to a corner lie in the tangent plane of that corner within 2⁻⁴⁴·S -/
theorem normals_tangent_double (c : CubicBez ℝ) {n1 n2 n3 : P3 ℝ} {S : ℝ} (hS : Fits S) (h1 : InBox S c.p1) (h2 : InBox S c.p2) (h3 : InBox S c.p3)
    (k1 : NearUnit n1) (k2 : NearUnit n2) (k3 : NearUnit n3) :
    let r := c.setNormalsR double n1 n2 n3
    |(r.c12 - c.p1).dot n1| ≤ 2 ^ (-44 : ℤ) * S ∧ |(r.c13 - c.p1).dot n1| ≤ 2 ^ (-44 : ℤ) * S ∧
    |(r.c21 - c.p2).dot n2| ≤ 2 ^ (-44 : ℤ) * S ∧ |(r.c23 - c.p2).dot n2| ≤ 2 ^ (-44 : ℤ) * S ∧
    |(r.c31 - c.p3).dot n3| ≤ 2 ^ (-44 : ℤ) * S ∧ |(r.c32 - c.p3).dot n3| ≤ 2 ^ (-44 : ℤ) * S :=
  ⟨edge_tangent_double hS h1 h2 k1, edge_tangent_double hS h1 h3 k1, edge_tangent_double hS h2 h1 k2, edge_tangent_double hS h2 h3 k2,
    edge_tangent_double hS h3 h1 k3, edge_tangent_double hS h3 h2 k3⟩

/-- **C139** whatever the rounding, neighbouring triangles compute exactly the same control points for their common side, read in either direction:
the surface has no cracks -/
theorem normals_side_rounded (fl : ℝ → ℝ) (c c' : CubicBez ℝ) (n1 n2 n3 n3' : P3 ℝ) :
    (c.p1 = c'.p1 → c.p2 = c'.p2 → (c.setNormalsR fl n1 n2 n3).c12 = (c'.setNormalsR fl n1 n2 n3').c12 ∧
      (c.setNormalsR fl n1 n2 n3).c21 = (c'.setNormalsR fl n1 n2 n3').c21) ∧
    (c'.p1 = c.p2 → c'.p2 = c.p1 → (c'.setNormalsR fl n2 n1 n3').c12 = (c.setNormalsR fl n1 n2 n3).c21 ∧
      (c'.setNormalsR fl n2 n1 n3').c21 = (c.setNormalsR fl n1 n2 n3).c12) := by
  refine ⟨fun h1 h2 => ?_, fun h1 h2 => ?_⟩ <;> simp [setNormalsR, h1, h2]

/-- **C139** with normals perpendicular to the sides the triangle stays flat within the rounding: the computed control points divide the sides in three
and the central one is the centroid, within 2⁻⁴⁶·S -/
theorem normals_flat_double (c : CubicBez ℝ) {n1 n2 n3 : P3 ℝ} {S : ℝ} (hS : Fits S) (h1 : InBox S c.p1) (h2 : InBox S c.p2) (h3 : InBox S c.p3)
    (k1 : NearUnit n1) (k2 : NearUnit n2) (k3 : NearUnit n3) (h12 : (c.p2 - c.p1).dot n1 = 0) (h13 : (c.p3 - c.p1).dot n1 = 0)
    (h21 : (c.p1 - c.p2).dot n2 = 0) (h23 : (c.p3 - c.p2).dot n2 = 0) (h31 : (c.p1 - c.p3).dot n3 = 0) (h32 : (c.p2 - c.p3).dot n3 = 0) :
    let r := c.setNormalsR double n1 n2 n3
    let d := 2 ^ (-48 : ℤ) * S
    Close d r.c12 ((2 / 3 : ℝ) • c.p1 + (1 / 3 : ℝ) • c.p2) ∧ Close d r.c21 ((2 / 3 : ℝ) • c.p2 + (1 / 3 : ℝ) • c.p1) ∧
    Close d r.c13 ((2 / 3 : ℝ) • c.p1 + (1 / 3 : ℝ) • c.p3) ∧ Close d r.c31 ((2 / 3 : ℝ) • c.p3 + (1 / 3 : ℝ) • c.p1) ∧
    Close d r.c23 ((2 / 3 : ℝ) • c.p2 + (1 / 3 : ℝ) • c.p3) ∧ Close d r.c32 ((2 / 3 : ℝ) • c.p3 + (1 / 3 : ℝ) • c.p2) ∧
    Close (2 ^ (-46 : ℤ) * S) r.center ((1 / 3 : ℝ) • (c.p1 + c.p2 + c.p3)) := by
  obtain ⟨-, a⟩ := set_normals_double c hS h1 h2 h3 k1 k2 k3
  obtain ⟨e1, e2, e3, e4, e5, e6, e7⟩ := normals_flat c n1 n2 n3 h12 h13 h21 h23 h31 h32
  rw [e1, e2, e3, e4, e5, e6, e7] at a
  exact a

/-- **C139** the normals may be those `Point3::normalized` computes: for every vector of ordinary length the computed one is a unit vector up to rounding -/
theorem normalized_near_unit {v : P3 ℝ} (h1 : 2 ^ (-400 : ℤ) ≤ v.norm) (h2 : v.norm ≤ 2 ^ (400 : ℤ)) :
    ∃ n, normalized double v = some n ∧ NearUnit n := by
  have v0 : 0 < v.norm := lt_of_lt_of_le (by positivity) h1
  have up : ∀ {a b : ℤ}, a ≤ b → (2 : ℝ) ^ a ≤ 2 ^ b := fun h => zpow_le_zpow_right₀ one_le_two h
  have F := QuadBez.flAt_double ((up (by norm_num)).trans h1) (h2.trans (up (by norm_num)))
  have s1 := mul_le_mul h1 h1 (by positivity) v0.le
  have s2 := mul_le_mul h2 h2 v0.le (by positivity)
  rw [← zpow_add₀ two_ne_zero] at s1 s2
  have F2 := QuadBez.flAt_double ((up (by norm_num)).trans s1) (s2.trans (up (by norm_num)))
  have i1 : (2 : ℝ) ^ (-400 : ℤ) ≤ 1 / v.norm := by
    rw [zpow_neg, ← one_div]; exact one_div_le_one_div_of_le v0 h2
  have i2 : 1 / v.norm ≤ (2 : ℝ) ^ (400 : ℤ) := by
    rw [div_le_iff₀ v0]
    have := mul_le_mul_of_nonneg_left h1 (zpow_nonneg (zero_le_two (α := ℝ)) 400)
    rw [← zpow_add₀ two_ne_zero] at this
    simpa using this
  have Fi := QuadBez.flAt_double ((up (by norm_num)).trans i1) (i2.trans (up (by norm_num)))
  have F1 : FlAt (2 ^ (-53 : ℤ)) 1 double := QuadBez.flAt_double (zpow_le_one_of_nonpos₀ one_le_two (by norm_num)) (one_le_zpow₀ one_le_two (by norm_num))
  obtain ⟨n, e, x, y, z⟩ := normalized_unit rfl F F2 Fi F1
  refine ⟨n, e, ?_⟩
  have sq : v.x * v.x + v.y * v.y + v.z * v.z = v.norm * v.norm := (P3.norm_sq v).symm
  have u1 : v.x / v.norm * (v.x / v.norm) + v.y / v.norm * (v.y / v.norm) + v.z / v.norm * (v.z / v.norm) = 1 := by
    have : v.norm ≠ 0 := v0.ne'
    field_simp
    nlinarith
  clear F F2 Fi F1 h1 h2 s1 s2 i1 i2 sq v0
  generalize v.x / v.norm = a at *
  generalize v.y / v.norm = b at *
  generalize v.z / v.norm = c at *
  have one : ∀ {t : ℝ}, t * t ≤ 1 → |t| ≤ 1 := fun h => abs_le_of_sq_le_sq (by nlinarith) zero_le_one
  have a1 := one (t := a) (by nlinarith [mul_self_nonneg b, mul_self_nonneg c])
  have b1 := one (t := b) (by nlinarith [mul_self_nonneg a, mul_self_nonneg c])
  have c1 := one (t := c) (by nlinarith [mul_self_nonneg a, mul_self_nonneg b])
  have k : ∀ {m t : ℝ}, |t| ≤ 1 → |m - t| ≤ 15 * 2 ^ (-53 : ℤ) → |m * m - t * t| ≤ 32 * 2 ^ (-53 : ℤ) := fun {m t} ht h => by
    have e : m * m - t * t = (m - t) * ((m - t) + 2 * t) := by ring
    have g : |(m - t) + 2 * t| ≤ 32 / 15 := by
      have := abs_add_le (m - t) (2 * t)
      rw [abs_mul, abs_two] at this
      exact this.trans ((add_le_add h (mul_le_mul_of_nonneg_left ht zero_le_two)).trans (by norm_num))
    rw [e, abs_mul]
    exact (mul_le_mul h g (abs_nonneg _) (by positivity)).trans (by linarith)
  have x2 := abs_le.1 (k a1 x)
  have y2 := abs_le.1 (k b1 y)
  have z2 := abs_le.1 (k c1 z)
  have k' : (2 : ℝ) ^ (-46 : ℤ) = 128 * 2 ^ (-53 : ℤ) := by norm_num
  have U0 : (0 : ℝ) < 2 ^ (-53 : ℤ) := by positivity
  unfold NearUnit P3.dot
  rw [k', abs_le]
  constructor <;> linarith

/-- the hypotheses hold for a triangle of ordinary size and a normal -/
example : Fits 8 ∧ InBox 8 ⟨1, 2, 5⟩ ∧ InBox 8 ⟨4, -6, 2⟩ ∧ InBox 8 ⟨0, 7, -8⟩ ∧ NearUnit ⟨3 / 5, 4 / 5, 0⟩ := by
  refine ⟨⟨?_, ?_⟩, ?_, ?_, ?_, ?_⟩
  · exact (zpow_le_one_of_nonpos₀ one_le_two (by norm_num)).trans (by norm_num)
  · rw [show (8 : ℝ) = 2 ^ (3 : ℤ) by norm_num]; exact zpow_le_zpow_right₀ one_le_two (by norm_num)
  all_goals simp only [InBox, NearUnit, P3.dot]; norm_num

end CubicBez
end CAD
