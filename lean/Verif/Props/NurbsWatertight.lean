import Verif.Lemmas.Boundary
import Verif.Props.NurbsHeights
import Verif.Props.Measure

/-! C90: the meshes of the NURBS solids are watertight; C91: a mesh turned into a NURBS
solid and back. -/

set_option linter.unusedSimpArgs false

namespace CAD
namespace Nurbs
open BSpline Mesh
variable {K : Type} [Field K] [LinearOrder K] [IsStrictOrderedRing K]

/-! ### sides of patches -/

/-- the point of the segment `p q` at `t` -/
def lerp (p q : P3 K) (t : K) : P3 K := (1 - t) • p + t • q

/-- sum of a weight over the `n` equal pieces of the segment `p q` -/
def side {G : Type*} [AddCommGroup G] (φ : P3 K × P3 K → G) (n : Nat) (p q : P3 K) : G :=
  ∑ i ∈ Finset.range n, φ (lerp p q ((i : K) / n), lerp p q (((i + 1 : Nat) : K) / n))

theorem side_self {G : Type*} [AddCommGroup G] {φ : P3 K × P3 K → G} (hφ : Anti φ) (n : Nat) (p : P3 K) : side φ n p p = 0 := by
  have : ∀ t : K, lerp p p t = p := fun t => by unfold lerp; module
  simp [side, this, hφ.self]

theorem side_swap {G : Type*} [AddCommGroup G] {φ : P3 K × P3 K → G} (hφ : Anti φ) (n : Nat) (p q : P3 K) :
    side φ n q p = - side φ n p q := by
  unfold side
  rw [← sum_reverse n (fun i => lerp p q ((i : K) / n)) hφ]
  refine Finset.sum_congr rfl fun i hi => ?_
  have hi := Finset.mem_range.1 hi
  have hn : (n : K) ≠ 0 := by
    have : 0 < n := by omega
    exact_mod_cast this.ne'
  have key : ∀ i ≤ n, lerp q p ((i : K) / n) = lerp p q (((n - i : Nat) : K) / n) := by
    intro i hi
    have : (((n - i : Nat) : K) / n) = 1 - (i : K) / n := by rw [Nat.cast_sub hi, sub_div, div_self hn]
    rw [this]
    unfold lerp
    module
  rw [key i (by omega), key (i + 1) (by omega)]

theorem side_anti {G : Type*} [AddCommGroup G] {φ : P3 K × P3 K → G} (hφ : Anti φ) (n : Nat) :
    Anti fun e => side φ n e.1 e.2 := ⟨fun p q => side_swap hφ n p q, fun p => side_self hφ n p⟩

theorem samplePos_at (s : Surface K) (U V i j : Nat) :
    samplePos s U V (i, j) = (s.at ((i : K) / U) ((j : K) / V)).getD ⟨0, 0, 0⟩ := rfl

theorem samplePos_i0 (s : Surface K) (U V i : Nat) :
    samplePos s U V (i, 0) = (s.at ((i : K) / U) 0).getD ⟨0, 0, 0⟩ := by simp [samplePos, sample]

theorem samplePos_0j (s : Surface K) (U V j : Nat) :
    samplePos s U V (0, j) = (s.at 0 ((j : K) / V)).getD ⟨0, 0, 0⟩ := by simp [samplePos, sample]

/-- the boundary of the mesh of a bilinear patch -/
theorem bdrySum_quad {G : Type*} [AddCommGroup G] {φ : P3 K × P3 K → G} (hφ : Anti φ) {S : Surface K} {p1 p2 p3 p4 : P3 K}
    (hat : ∀ u v, S.at u v = some ((1 - v) • ((1 - u) • p1 + u • p2) + v • ((1 - u) • p4 + u • p3)))
    (hu : S.closedU = false) (hv : S.closedV = false) {n : Nat} (hn : 0 < n) :
    bdrySum φ (surfaceSoup S n n) = side φ n p1 p2 + side φ n p2 p3 + side φ n p3 p4 + side φ n p4 p1 := by
  have hn0 : (n : K) ≠ 0 := by exact_mod_cast hn.ne'
  rw [surfaceSoup_eq, hu, hv, bdrySum_grid_open hφ (by simp), side_swap hφ n p4 p3, side_swap hφ n p1 p4]
  simp only [samplePos_i0, samplePos_0j]
  simp only [samplePos_at, hat, Option.getD_some, div_self hn0]
  have c1 : ∀ t : K, ((1 - 0 : K) • ((1 - t) • p1 + t • p2) + (0 : K) • ((1 - t) • p4 + t • p3)) = lerp p1 p2 t := by
    intro t; unfold lerp; module
  have c2 : ∀ t : K, ((1 - 1 : K) • ((1 - t) • p1 + t • p2) + (1 : K) • ((1 - t) • p4 + t • p3)) = lerp p4 p3 t := by
    intro t; unfold lerp; module
  have c3 : ∀ t : K, ((1 - t) • ((1 - 1 : K) • p1 + (1 : K) • p2) + t • ((1 - 1 : K) • p4 + (1 : K) • p3)) = lerp p2 p3 t := by
    intro t; unfold lerp; module
  have c4 : ∀ t : K, ((1 - t) • ((1 - 0 : K) • p1 + (0 : K) • p2) + t • ((1 - 0 : K) • p4 + (0 : K) • p3)) = lerp p1 p4 t := by
    intro t; unfold lerp; module
  simp only [c1, c2, c3, c4]
  unfold side
  abel

theorem isClosed_two (c : Curve K) (tol : K) (p q : P3 K) (h : c.points = [p, q]) :
    c.isClosed tol = some (decide ((p - q).normSq < tol * tol)) := by
  unfold Curve.isClosed
  rw [h]
  rfl

/-- a quad with its flags and weights -/
theorem quad_full (tol : K) (p1 p2 p3 p4 : P3 K) (ns : Surface K) :
    ∃ S, createQuad tol p1 p2 p3 p4 ns = some S ∧ S.Valid 1 1 2 2 ∧
      (∀ u v, S.at u v = some ((1 - v) • ((1 - u) • p1 + u • p2) + v • ((1 - u) • p4 + u • p3))) ∧
      S.closedU = (decide ((p1 - p2).normSq < tol * tol) && decide ((p4 - p3).normSq < tol * tol)) ∧
      S.closedV = ns.closedV ∧ S.weights = [1, 1, 1, 1] := by
  obtain ⟨S, e, hv, hat⟩ := quad_exact tol p1 p2 p3 p4 ns
  refine ⟨S, e, hv, hat, ?_⟩
  obtain ⟨c1, e1, h1, k1, w1, q1, a1⟩ := createCurveFromPoints_two p1 p2 Curve.new
  obtain ⟨c2, e2, h2, k2, w2, q2, a2⟩ := createCurveFromPoints_two p4 p3 Curve.new
  obtain ⟨b1, b2, pu, pv, wu, wv, hb1, hb2, e3, -⟩ := ruled_eq (c2 := c2) h1 tol ns
  have e' : createQuad tol p1 p2 p3 p4 ns = createRuled tol c1 c2 ns := by simp [createQuad, e1, e2]
  rw [e', e3, Option.some_inj] at e
  rw [isClosed_two c1 tol p1 p2 q1, Option.some_inj] at hb1
  rw [isClosed_two c2 tol p4 p3 q2, Option.some_inj] at hb2
  rw [← e, ← hb1, ← hb2]
  exact ⟨rfl, rfl, by simp [w1, w2]⟩

/-! ### the box -/

/-- the six quads of the box -/
theorem box_quads (tol x y z : K) (ht : 0 ≤ tol) (hx : tol ≤ x) (hy : tol ≤ y) (hz : tol ≤ z) :
    ∃ s1 s2 s3 s4 s5 s6 : Surface K, createBox tol x y z = some [s1, s2, s3, s4, s5, s6] ∧
      ∀ (S : Surface K) (a b c d : P3 K), (S, a, b, c, d) ∈
        [(s1, (⟨x / 2, y / 2, z / 2⟩ : P3 K), (⟨-x / 2, y / 2, z / 2⟩ : P3 K), (⟨-x / 2, -y / 2, z / 2⟩ : P3 K), (⟨x / 2, -y / 2, z / 2⟩ : P3 K)),
         (s2, ⟨x / 2, y / 2, -z / 2⟩, ⟨x / 2, -y / 2, -z / 2⟩, ⟨-x / 2, -y / 2, -z / 2⟩, ⟨-x / 2, y / 2, -z / 2⟩),
         (s3, ⟨x / 2, y / 2, z / 2⟩, ⟨x / 2, -y / 2, z / 2⟩, ⟨x / 2, -y / 2, -z / 2⟩, ⟨x / 2, y / 2, -z / 2⟩),
         (s4, ⟨-x / 2, -y / 2, z / 2⟩, ⟨-x / 2, y / 2, z / 2⟩, ⟨-x / 2, y / 2, -z / 2⟩, ⟨-x / 2, -y / 2, -z / 2⟩),
         (s5, ⟨-x / 2, -y / 2, z / 2⟩, ⟨-x / 2, -y / 2, -z / 2⟩, ⟨x / 2, -y / 2, -z / 2⟩, ⟨x / 2, -y / 2, z / 2⟩),
         (s6, ⟨x / 2, y / 2, z / 2⟩, ⟨x / 2, y / 2, -z / 2⟩, ⟨-x / 2, y / 2, -z / 2⟩, ⟨-x / 2, y / 2, z / 2⟩)] →
      S.Valid 1 1 2 2 ∧
      (∀ u v, S.at u v = some ((1 - v) • ((1 - u) • a + u • b) + v • ((1 - u) • d + u • c))) ∧
      S.closedU = false ∧ S.closedV = false ∧ S.weights = [1, 1, 1, 1] := by
  obtain ⟨s1, e1, v1, a1, f1, g1, w1⟩ := quad_full tol (⟨x / 2, y / 2, z / 2⟩ : P3 K) ⟨-x / 2, y / 2, z / 2⟩ ⟨-x / 2, -y / 2, z / 2⟩
    ⟨x / 2, -y / 2, z / 2⟩ Surface.new
  obtain ⟨s2, e2, v2, a2, f2, g2, w2⟩ := quad_full tol (⟨x / 2, y / 2, -z / 2⟩ : P3 K) ⟨x / 2, -y / 2, -z / 2⟩ ⟨-x / 2, -y / 2, -z / 2⟩
    ⟨-x / 2, y / 2, -z / 2⟩ s1
  obtain ⟨s3, e3, v3, a3, f3, g3, w3⟩ := quad_full tol (⟨x / 2, y / 2, z / 2⟩ : P3 K) ⟨x / 2, -y / 2, z / 2⟩ ⟨x / 2, -y / 2, -z / 2⟩
    ⟨x / 2, y / 2, -z / 2⟩ s2
  obtain ⟨s4, e4, v4, a4, f4, g4, w4⟩ := quad_full tol (⟨-x / 2, -y / 2, z / 2⟩ : P3 K) ⟨-x / 2, y / 2, z / 2⟩ ⟨-x / 2, y / 2, -z / 2⟩
    ⟨-x / 2, -y / 2, -z / 2⟩ s3
  obtain ⟨s5, e5, v5, a5, f5, g5, w5⟩ := quad_full tol (⟨-x / 2, -y / 2, z / 2⟩ : P3 K) ⟨-x / 2, -y / 2, -z / 2⟩ ⟨x / 2, -y / 2, -z / 2⟩
    ⟨x / 2, -y / 2, z / 2⟩ s4
  obtain ⟨s6, e6, v6, a6, f6, g6, w6⟩ := quad_full tol (⟨x / 2, y / 2, z / 2⟩ : P3 K) ⟨x / 2, y / 2, -z / 2⟩ ⟨-x / 2, y / 2, -z / 2⟩
    ⟨-x / 2, y / 2, z / 2⟩ s5
  have hxx : ¬ x * x < tol * tol := not_lt.2 (mul_self_le_mul_self ht hx)
  have hyy : ¬ y * y < tol * tol := not_lt.2 (mul_self_le_mul_self ht hy)
  have hzz : ¬ z * z < tol * tol := not_lt.2 (mul_self_le_mul_self ht hz)
  have q1 : ∀ a b c : K, ((⟨x / 2, a, b⟩ : P3 K) - ⟨-x / 2, a, b⟩).normSq = x * x := fun a b c => by simp [P3.normSq]; ring
  have g0 : (Surface.new : Surface K).closedV = false := rfl
  rw [g0] at g1
  rw [g1] at g2
  rw [g2] at g3
  rw [g3] at g4
  rw [g4] at g5
  rw [g5] at g6
  refine ⟨s1, s2, s3, s4, s5, s6, by simp [createBox, e1, e2, e3, e4, e5, e6, Solid.add], ?_⟩
  intro S a b c d hm
  simp only [List.mem_cons, List.not_mem_nil, or_false, Prod.mk.injEq] at hm
  have fx : ∀ a b : K, decide (((⟨x / 2, a, b⟩ : P3 K) - ⟨-x / 2, a, b⟩).normSq < tol * tol) = false := fun a b => by
    rw [decide_eq_false_iff_not, show ((⟨x / 2, a, b⟩ : P3 K) - ⟨-x / 2, a, b⟩).normSq = x * x by simp [P3.normSq]; ring]; exact hxx
  have fy : ∀ a b : K, decide (((⟨a, y / 2, b⟩ : P3 K) - ⟨a, -y / 2, b⟩).normSq < tol * tol) = false := fun a b => by
    rw [decide_eq_false_iff_not, show ((⟨a, y / 2, b⟩ : P3 K) - ⟨a, -y / 2, b⟩).normSq = y * y by simp [P3.normSq]; ring]; exact hyy
  have fy' : ∀ a b : K, decide (((⟨a, -y / 2, b⟩ : P3 K) - ⟨a, y / 2, b⟩).normSq < tol * tol) = false := fun a b => by
    rw [decide_eq_false_iff_not, show ((⟨a, -y / 2, b⟩ : P3 K) - ⟨a, y / 2, b⟩).normSq = y * y by simp [P3.normSq]; ring]; exact hyy
  have fz : ∀ a b : K, decide (((⟨a, b, z / 2⟩ : P3 K) - ⟨a, b, -z / 2⟩).normSq < tol * tol) = false := fun a b => by
    rw [decide_eq_false_iff_not, show ((⟨a, b, z / 2⟩ : P3 K) - ⟨a, b, -z / 2⟩).normSq = z * z by simp [P3.normSq]; ring]; exact hzz
  rw [fx, Bool.false_and] at f1
  rw [fy, Bool.false_and] at f2 f3
  rw [fy', Bool.false_and] at f4
  rw [fz, Bool.false_and] at f5 f6
  rcases hm with ⟨rfl, rfl, rfl, rfl, rfl⟩ | ⟨rfl, rfl, rfl, rfl, rfl⟩ | ⟨rfl, rfl, rfl, rfl, rfl⟩ |
    ⟨rfl, rfl, rfl, rfl, rfl⟩ | ⟨rfl, rfl, rfl, rfl, rfl⟩ | ⟨rfl, rfl, rfl, rfl, rfl⟩
  · exact ⟨v1, a1, f1, g1, w1⟩
  · exact ⟨v2, a2, f2, g2, w2⟩
  · exact ⟨v3, a3, f3, g3, w3⟩
  · exact ⟨v4, a4, f4, g4, w4⟩
  · exact ⟨v5, a5, f5, g5, w5⟩
  · exact ⟨v6, a6, f6, g6, w6⟩

/-- the sum of `det3` over triangles in one plane is a boundary sum -/
theorem det3_anti (o : P3 K) : Anti fun e : P3 K × P3 K => det3 o e.1 e.2 :=
  ⟨fun p q => by simp only [det3]; ring, fun p => by simp only [det3]; ring⟩

theorem side_det3 (o p q : P3 K) {n : Nat} (hn : 0 < n) : side (fun e => det3 o e.1 e.2) n p q = det3 o p q := by
  have hn0 : (n : K) ≠ 0 := by exact_mod_cast hn.ne'
  unfold side
  have : ∀ i ∈ Finset.range n, det3 o (lerp p q ((i : K) / n)) (lerp p q (((i + 1 : Nat) : K) / n)) = det3 o p q / n := by
    intro i _
    simp only [det3, lerp, P3.add_x, P3.add_y, P3.add_z, P3.smul_x, P3.smul_y, P3.smul_z]
    push_cast
    field_simp
    ring
  rw [Finset.sum_congr rfl this, Finset.sum_const, Finset.card_range, nsmul_eq_mul]
  field_simp

theorem det3_planar (o a b : P3 K) (α1 β1 α2 β2 α3 β3 : K) :
    det3 (o + α1 • a + β1 • b) (o + α2 • a + β2 • b) (o + α3 • a + β3 • b) =
      det3 o (o + α1 • a + β1 • b) (o + α2 • a + β2 • b) + det3 o (o + α2 • a + β2 • b) (o + α3 • a + β3 • b) +
      det3 o (o + α3 • a + β3 • b) (o + α1 • a + β1 • b) := by
  simp only [det3, P3.add_x, P3.add_y, P3.add_z, P3.smul_x, P3.smul_y, P3.smul_z]
  ring

theorem mem_surfaceSoup {s : Surface K} {U V : Nat} {t : Tri3 K} (h : t ∈ surfaceSoup s U V) :
    (∃ i j : Nat, t.p1 = samplePos s U V (i, j)) ∧ (∃ i j : Nat, t.p2 = samplePos s U V (i, j)) ∧
      ∃ i j : Nat, t.p3 = samplePos s U V (i, j) := by
  have hp : ∀ p : Int × Int, ∃ i j : Nat, samplePos s U V p = samplePos s U V (i, j) :=
    fun p => ⟨p.1.toNat, p.2.toNat, rfl⟩
  unfold surfaceSoup at h
  obtain ⟨q, -, rfl⟩ := List.mem_map.1 h
  exact ⟨hp _, hp _, hp _⟩

/-- The volume under a planar patch is that of its two triangles. -/
theorem volume_quad {S : Surface K} {o a b : P3 K} {p1 p2 p3 p4 : P3 K} {α2 β2 α3 β3 α4 β4 : K}
    (h1 : p1 = o) (h2 : p2 = o + α2 • a + β2 • b) (h3 : p3 = o + α3 • a + β3 • b) (h4 : p4 = o + α4 • a + β4 • b)
    (hat : ∀ u v, S.at u v = some ((1 - v) • ((1 - u) • p1 + u • p2) + v • ((1 - u) • p4 + u • p3)))
    (hu : S.closedU = false) (hv : S.closedV = false) {n : Nat} (hn : 0 < n) :
    ((surfaceSoup S n n).map fun t => det3 t.p1 t.p2 t.p3).sum = det3 p1 p2 p3 + det3 p1 p3 p4 := by
  have hpl : ∀ i j : Nat, ∃ α β : K, samplePos S n n (i, j) = o + α • a + β • b := by
    intro i j
    rw [samplePos_at, hat, Option.getD_some, h1, h2, h3, h4]
    generalize (i : K) / n = u
    generalize (j : K) / n = v
    exact ⟨(1 - v) * u * α2 + v * ((1 - u) * α4 + u * α3), (1 - v) * u * β2 + v * ((1 - u) * β4 + u * β3), by module⟩
  have e : ((surfaceSoup S n n).map fun t => det3 t.p1 t.p2 t.p3).sum =
      bdrySum (fun e : P3 K × P3 K => det3 o e.1 e.2) (surfaceSoup S n n) := by
    rw [bdrySum_eq]
    congr 1
    refine List.map_congr_left fun t ht => ?_
    obtain ⟨⟨i1, j1, e1⟩, ⟨i2, j2, e2⟩, ⟨i3, j3, e3⟩⟩ := mem_surfaceSoup ht
    obtain ⟨α1, β1, f1⟩ := hpl i1 j1
    obtain ⟨α2, β2, f2⟩ := hpl i2 j2
    obtain ⟨α3, β3, f3⟩ := hpl i3 j3
    rw [e1, e2, e3, f1, f2, f3]
    exact det3_planar o a b _ _ _ _ _ _
  rw [e, bdrySum_quad (det3_anti o) hat hu hv hn, side_det3 _ _ _ hn, side_det3 _ _ _ hn, side_det3 _ _ _ hn,
    side_det3 _ _ _ hn, h1]
  simp only [det3]
  ring

theorem length_surfaceSoup (s : Surface K) (U V : Nat) : (surfaceSoup s U V).length = 2 * U * V := by
  have := length_meshFaces s.closedU s.closedV 0 U V
  simpa [meshFaces, surfaceSoup] using this

theorem box_valid {x y z tol : K} (ht : 0 < tol) (hx : tol ≤ x) (hy : tol ≤ y) (hz : tol ≤ z) {k : Nat} (hk : 0 < k) (m : Mesh K) :
    ∃ s1 s2 s3 s4 s5 s6 m', createBox tol x y z = some [s1, s2, s3, s4, s5, s6] ∧
      toMeshSolid [s1, s2, s3, s4, s5, s6] m k = some m' ∧ m'.OK ∧
      m'.triangles = surfaceSoup s1 (k * 2) (k * 2) ++ (surfaceSoup s2 (k * 2) (k * 2) ++ (surfaceSoup s3 (k * 2) (k * 2) ++
        (surfaceSoup s4 (k * 2) (k * 2) ++ (surfaceSoup s5 (k * 2) (k * 2) ++ surfaceSoup s6 (k * 2) (k * 2))))) ∧
      ∀ (S : Surface K) (a b c d : P3 K), (S, a, b, c, d) ∈
        [(s1, (⟨x / 2, y / 2, z / 2⟩ : P3 K), (⟨-x / 2, y / 2, z / 2⟩ : P3 K), (⟨-x / 2, -y / 2, z / 2⟩ : P3 K), (⟨x / 2, -y / 2, z / 2⟩ : P3 K)),
         (s2, ⟨x / 2, y / 2, -z / 2⟩, ⟨x / 2, -y / 2, -z / 2⟩, ⟨-x / 2, -y / 2, -z / 2⟩, ⟨-x / 2, y / 2, -z / 2⟩),
         (s3, ⟨x / 2, y / 2, z / 2⟩, ⟨x / 2, -y / 2, z / 2⟩, ⟨x / 2, -y / 2, -z / 2⟩, ⟨x / 2, y / 2, -z / 2⟩),
         (s4, ⟨-x / 2, -y / 2, z / 2⟩, ⟨-x / 2, y / 2, z / 2⟩, ⟨-x / 2, y / 2, -z / 2⟩, ⟨-x / 2, -y / 2, -z / 2⟩),
         (s5, ⟨-x / 2, -y / 2, z / 2⟩, ⟨-x / 2, -y / 2, -z / 2⟩, ⟨x / 2, -y / 2, -z / 2⟩, ⟨x / 2, -y / 2, z / 2⟩),
         (s6, ⟨x / 2, y / 2, z / 2⟩, ⟨x / 2, y / 2, -z / 2⟩, ⟨-x / 2, y / 2, -z / 2⟩, ⟨-x / 2, y / 2, z / 2⟩)] →
      (∀ u v, S.at u v = some ((1 - v) • ((1 - u) • a + u • b) + v • ((1 - u) • d + u • c))) ∧
      S.closedU = false ∧ S.closedV = false := by
  obtain ⟨s1, s2, s3, s4, s5, s6, e, h⟩ := box_quads tol x y z ht.le hx hy hz
  have hv : ∀ s ∈ ([s1, s2, s3, s4, s5, s6] : Solid K), s.Valid 1 1 2 2 ∧ s.weights = [1, 1, 1, 1] := by
    intro s hs
    simp only [List.mem_cons, List.not_mem_nil, or_false] at hs
    rcases hs with rfl | rfl | rfl | rfl | rfl | rfl
    · obtain ⟨h1, -, -, -, h2⟩ := h _ _ _ _ _ (.head _); exact ⟨h1, h2⟩
    · obtain ⟨h1, -, -, -, h2⟩ := h _ _ _ _ _ (.tail _ (.head _)); exact ⟨h1, h2⟩
    · obtain ⟨h1, -, -, -, h2⟩ := h _ _ _ _ _ (.tail _ (.tail _ (.head _))); exact ⟨h1, h2⟩
    · obtain ⟨h1, -, -, -, h2⟩ := h _ _ _ _ _ (.tail _ (.tail _ (.tail _ (.head _)))); exact ⟨h1, h2⟩
    · obtain ⟨h1, -, -, -, h2⟩ := h _ _ _ _ _ (.tail _ (.tail _ (.tail _ (.tail _ (.head _))))); exact ⟨h1, h2⟩
    · obtain ⟨h1, -, -, -, h2⟩ := h _ _ _ _ _ (.tail _ (.tail _ (.tail _ (.tail _ (.tail _ (.head _)))))); exact ⟨h1, h2⟩
  obtain ⟨m', e', hok, ht'⟩ := to_mesh_solid [s1, s2, s3, s4, s5, s6] (fun s hs => ⟨1, 1, 2, 2, (hv s hs).1⟩)
    (fun s hs w hw => by rw [(hv s hs).2] at hw; simp at hw; rw [hw]; exact one_pos) hk m
  refine ⟨s1, s2, s3, s4, s5, s6, m', e, e', hok, ?_, fun S a b c d hm => ?_⟩
  · rw [ht']
    have hn : ∀ s ∈ ([s1, s2, s3, s4, s5, s6] : Solid K), surfaceSoup s (k * s.nbU.toNat) (k * s.nbV.toNat) = surfaceSoup s (k * 2) (k * 2) := by
      intro s hs
      rw [(hv s hs).1.nbU, (hv s hs).1.nbV]
      rfl
    rw [List.flatMap_congr hn]
    simp only [List.flatMap_cons, List.flatMap_nil, List.append_nil]
  · obtain ⟨-, h1, h2, h3, -⟩ := h S a b c d hm
    exact ⟨h1, h2, h3⟩

/-- C90, box.  For sides not below the closing tolerance of the curves and every
resolution, the mesh of the NURBS box is watertight and consistently oriented, it has
`48 k²` triangles, and its volume is exactly the volume of the box (so the orientation
is outward); whatever the target mesh held. -/
theorem box_mesh_watertight {x y z tol : K} (ht : 0 < tol) (hx : tol ≤ x) (hy : tol ≤ y) (hz : tol ≤ z) {k : Nat} (hk : 0 < k)
    (m : Mesh K) :
    ∃ B m', createBox tol x y z = some B ∧ toMeshSolid B m k = some m' ∧ m'.OK ∧ ClosedSoup m'.triangles ∧
      m'.triangles.length = 48 * k ^ 2 ∧ Measure.volume m' = some (x * y * z) := by
  obtain ⟨s1, s2, s3, s4, s5, s6, m', e, e', hok, hT, h⟩ := box_valid ht hx hy hz hk m
  obtain ⟨a1, f1, g1⟩ := h _ _ _ _ _ (.head _)
  obtain ⟨a2, f2, g2⟩ := h _ _ _ _ _ (.tail _ (.head _))
  obtain ⟨a3, f3, g3⟩ := h _ _ _ _ _ (.tail _ (.tail _ (.head _)))
  obtain ⟨a4, f4, g4⟩ := h _ _ _ _ _ (.tail _ (.tail _ (.tail _ (.head _))))
  obtain ⟨a5, f5, g5⟩ := h _ _ _ _ _ (.tail _ (.tail _ (.tail _ (.tail _ (.head _)))))
  obtain ⟨a6, f6, g6⟩ := h _ _ _ _ _ (.tail _ (.tail _ (.tail _ (.tail _ (.tail _ (.head _))))))
  have hn : 0 < k * 2 := by omega
  refine ⟨_, m', e, e', hok, closedSoup_of_bdrySum _ fun φ hφ => ?_, ?_, ?_⟩
  · rw [hT]
    simp only [bdrySum_append]
    rw [bdrySum_quad hφ a1 f1 g1 hn, bdrySum_quad hφ a2 f2 g2 hn, bdrySum_quad hφ a3 f3 g3 hn, bdrySum_quad hφ a4 f4 g4 hn,
      bdrySum_quad hφ a5 f5 g5 hn, bdrySum_quad hφ a6 f6 g6 hn]
    have sw := side_swap hφ (k * 2)
    generalize (⟨x / 2, y / 2, z / 2⟩ : P3 K) = p1 at *
    generalize (⟨x / 2, -y / 2, z / 2⟩ : P3 K) = p2 at *
    generalize (⟨-x / 2, -y / 2, z / 2⟩ : P3 K) = p3 at *
    generalize (⟨-x / 2, y / 2, z / 2⟩ : P3 K) = p4 at *
    generalize (⟨x / 2, y / 2, -z / 2⟩ : P3 K) = p5 at *
    generalize (⟨x / 2, -y / 2, -z / 2⟩ : P3 K) = p6 at *
    generalize (⟨-x / 2, -y / 2, -z / 2⟩ : P3 K) = p7 at *
    generalize (⟨-x / 2, y / 2, -z / 2⟩ : P3 K) = p8 at *
    rw [sw p1 p2, sw p2 p3, sw p3 p4, sw p1 p4, sw p5 p6, sw p6 p7, sw p7 p8, sw p5 p8, sw p1 p5, sw p2 p6, sw p3 p7, sw p4 p8]
    ring
  · rw [hT]
    simp only [List.length_append, length_surfaceSoup]
    ring
  · rw [measures_are_sums m' hok, hT]
    simp only [List.map_append, List.sum_append]
    rw [volume_quad (S := s1) (o := ⟨x / 2, y / 2, z / 2⟩) (a := ⟨x, 0, 0⟩) (b := ⟨0, y, 0⟩) (α2 := -1) (β2 := 0) (α3 := -1) (β3 := -1)
        (α4 := 0) (β4 := -1) rfl (by ext <;> simp <;> ring) (by ext <;> simp <;> ring) (by ext <;> simp <;> ring) a1 f1 g1 hn,
      volume_quad (S := s2) (o := ⟨x / 2, y / 2, -z / 2⟩) (a := ⟨x, 0, 0⟩) (b := ⟨0, y, 0⟩) (α2 := 0) (β2 := -1) (α3 := -1) (β3 := -1)
        (α4 := -1) (β4 := 0) rfl (by ext <;> simp <;> ring) (by ext <;> simp <;> ring) (by ext <;> simp <;> ring) a2 f2 g2 hn,
      volume_quad (S := s3) (o := ⟨x / 2, y / 2, z / 2⟩) (a := ⟨0, 0, z⟩) (b := ⟨0, y, 0⟩) (α2 := 0) (β2 := -1) (α3 := -1) (β3 := -1)
        (α4 := -1) (β4 := 0) rfl (by ext <;> simp <;> ring) (by ext <;> simp <;> ring) (by ext <;> simp <;> ring) a3 f3 g3 hn,
      volume_quad (S := s4) (o := ⟨-x / 2, -y / 2, z / 2⟩) (a := ⟨0, 0, z⟩) (b := ⟨0, y, 0⟩) (α2 := 0) (β2 := 1) (α3 := -1) (β3 := 1)
        (α4 := -1) (β4 := 0) rfl (by ext <;> simp <;> ring) (by ext <;> simp <;> ring) (by ext <;> simp <;> ring) a4 f4 g4 hn,
      volume_quad (S := s5) (o := ⟨-x / 2, -y / 2, z / 2⟩) (a := ⟨0, 0, z⟩) (b := ⟨x, 0, 0⟩) (α2 := -1) (β2 := 0) (α3 := -1) (β3 := 1)
        (α4 := 0) (β4 := 1) rfl (by ext <;> simp <;> ring) (by ext <;> simp <;> ring) (by ext <;> simp <;> ring) a5 f5 g5 hn,
      volume_quad (S := s6) (o := ⟨x / 2, y / 2, z / 2⟩) (a := ⟨0, 0, z⟩) (b := ⟨x, 0, 0⟩) (α2 := -1) (β2 := 0) (α3 := -1) (β3 := -1)
        (α4 := 0) (β4 := -1) rfl (by ext <;> simp <;> ring) (by ext <;> simp <;> ring) (by ext <;> simp <;> ring) a6 f6 g6 hn]
    simp only [det3]
    congr 1
    ring

theorem mem_surfaceSoup_open {s : Surface K} {U V : Nat} (hu : s.closedU = false) (hv : s.closedV = false) {t : Tri3 K}
    (h : t ∈ surfaceSoup s U V) :
    ∃ i j : Nat, t = ⟨samplePos s U V (i, j), samplePos s U V ((i + 1 : Nat), j), samplePos s U V ((i + 1 : Nat), (j + 1 : Nat))⟩ ∨
      t = ⟨samplePos s U V ((i + 1 : Nat), (j + 1 : Nat)), samplePos s U V (i, (j + 1 : Nat)), samplePos s U V (i, j)⟩ := by
  unfold surfaceSoup at h
  obtain ⟨q, hq, rfl⟩ := List.mem_map.1 h
  obtain ⟨⟨j, i⟩, -, hq⟩ := List.mem_flatMap.1 hq
  have w : ∀ (a b : Int), wrap false a b = a + 1 := fun a b => by simp [wrap]
  simp only [meshCell, hu, hv, w, List.mem_cons, List.not_mem_nil, or_false] at hq
  refine ⟨i, j, ?_⟩
  push_cast
  rcases hq with rfl | rfl
  · exact Or.inl rfl
  · exact Or.inr rfl

theorem norm_scale (c : ℝ) (p : P3 ℝ) : (c • p).norm = |c| * p.norm := by
  unfold P3.norm
  simp only [P3.smul_x, P3.smul_y, P3.smul_z]
  rw [show c * p.x * (c * p.x) + c * p.y * (c * p.y) + c * p.z * (c * p.z) = c ^ 2 * (p.x * p.x + p.y * p.y + p.z * p.z) by ring,
    Real.sqrt_mul (sq_nonneg c), Real.sqrt_sq_eq_abs]

/-- The area of the mesh of a parallelogram is the area of the parallelogram. -/
theorem surface_quad {S : Surface ℝ} {a b : P3 ℝ} {p1 p2 p3 p4 : P3 ℝ}
    (h2 : p2 = p1 + a) (h3 : p3 = p1 + a + b) (h4 : p4 = p1 + b)
    (hat : ∀ u v, S.at u v = some ((1 - v) • ((1 - u) • p1 + u • p2) + v • ((1 - u) • p4 + u • p3)))
    (hu : S.closedU = false) (hv : S.closedV = false) {n : Nat} (hn : 0 < n) :
    ((surfaceSoup S n n).map Tri3.surface).sum = (a.cross b).norm := by
  have hn0 : (n : ℝ) ≠ 0 := by exact_mod_cast hn.ne'
  have hpl : ∀ i j : Nat, samplePos S n n (i, j) = p1 + ((i : ℝ) / n) • a + ((j : ℝ) / n) • b := by
    intro i j
    rw [samplePos_at, hat, Option.getD_some, h2, h3, h4]
    generalize (i : ℝ) / n = u
    generalize (j : ℝ) / n = v
    module
  have e : ∀ t ∈ surfaceSoup S n n, t.surface = (a.cross b).norm / (2 * n * n) := by
    intro t ht
    have ho : t.orthogonal = (1 / (n * n) : ℝ) • a.cross b := by
      obtain ⟨i, j, rfl | rfl⟩ := mem_surfaceSoup_open hu hv ht
      all_goals
        simp only [hpl, Tri3.orthogonal]
        ext <;> simp [P3.cross] <;> field_simp <;> ring
    unfold Tri3.surface
    rw [ho, norm_scale, abs_of_nonneg (by positivity)]
    field_simp
  rw [List.map_congr_left e, List.map_const', List.sum_replicate, length_surfaceSoup, nsmul_eq_mul]
  push_cast
  field_simp

/-- C90, box: the area of the mesh is exactly the area of the box. -/
theorem box_mesh_surface {x y z tol : ℝ} (ht : 0 < tol) (hx : tol ≤ x) (hy : tol ≤ y) (hz : tol ≤ z) {k : Nat} (hk : 0 < k)
    (m : Mesh ℝ) :
    ∃ B m', createBox tol x y z = some B ∧ toMeshSolid B m k = some m' ∧
      Measure.surface m' = some (2 * (x * y + y * z + z * x)) := by
  obtain ⟨s1, s2, s3, s4, s5, s6, m', e, e', hok, hT, h⟩ := box_valid ht hx hy hz hk m
  obtain ⟨a1, f1, g1⟩ := h _ _ _ _ _ (.head _)
  obtain ⟨a2, f2, g2⟩ := h _ _ _ _ _ (.tail _ (.head _))
  obtain ⟨a3, f3, g3⟩ := h _ _ _ _ _ (.tail _ (.tail _ (.head _)))
  obtain ⟨a4, f4, g4⟩ := h _ _ _ _ _ (.tail _ (.tail _ (.tail _ (.head _))))
  obtain ⟨a5, f5, g5⟩ := h _ _ _ _ _ (.tail _ (.tail _ (.tail _ (.tail _ (.head _)))))
  obtain ⟨a6, f6, g6⟩ := h _ _ _ _ _ (.tail _ (.tail _ (.tail _ (.tail _ (.tail _ (.head _))))))
  have hn : 0 < k * 2 := by omega
  have nz : ∀ c : ℝ, (⟨0, 0, c⟩ : P3 ℝ).norm = |c| := fun c => by simp [P3.norm, P3.normSq, Real.sqrt_mul_self_eq_abs]
  have ny : ∀ c : ℝ, (⟨0, c, 0⟩ : P3 ℝ).norm = |c| := fun c => by simp [P3.norm, P3.normSq, Real.sqrt_mul_self_eq_abs]
  have nx : ∀ c : ℝ, (⟨c, 0, 0⟩ : P3 ℝ).norm = |c| := fun c => by simp [P3.norm, P3.normSq, Real.sqrt_mul_self_eq_abs]
  have px : 0 < x := ht.trans_le hx
  have py : 0 < y := ht.trans_le hy
  have pz : 0 < z := ht.trans_le hz
  refine ⟨_, m', e, e', ?_⟩
  rw [surface_is_sum m' hok, hT]
  simp only [List.map_append, List.sum_append]
  rw [surface_quad (S := s1) (a := ⟨-x, 0, 0⟩) (b := ⟨0, -y, 0⟩) (by ext <;> simp <;> ring) (by ext <;> simp <;> ring)
      (by ext <;> simp <;> ring) a1 f1 g1 hn,
    surface_quad (S := s2) (a := ⟨0, -y, 0⟩) (b := ⟨-x, 0, 0⟩) (by ext <;> simp <;> ring) (by ext <;> simp <;> ring)
      (by ext <;> simp <;> ring) a2 f2 g2 hn,
    surface_quad (S := s3) (a := ⟨0, -y, 0⟩) (b := ⟨0, 0, -z⟩) (by ext <;> simp <;> ring) (by ext <;> simp <;> ring)
      (by ext <;> simp <;> ring) a3 f3 g3 hn,
    surface_quad (S := s4) (a := ⟨0, y, 0⟩) (b := ⟨0, 0, -z⟩) (by ext <;> simp <;> ring) (by ext <;> simp <;> ring)
      (by ext <;> simp <;> ring) a4 f4 g4 hn,
    surface_quad (S := s5) (a := ⟨0, 0, -z⟩) (b := ⟨x, 0, 0⟩) (by ext <;> simp <;> ring) (by ext <;> simp <;> ring)
      (by ext <;> simp <;> ring) a5 f5 g5 hn,
    surface_quad (S := s6) (a := ⟨0, 0, -z⟩) (b := ⟨-x, 0, 0⟩) (by ext <;> simp <;> ring) (by ext <;> simp <;> ring)
      (by ext <;> simp <;> ring) a6 f6 g6 hn]
  simp only [P3.cross, mul_zero, zero_mul, sub_zero, zero_sub, nx, ny, nz, mul_neg, neg_mul, neg_neg, neg_zero, abs_neg]
  rw [abs_of_pos (mul_pos px py), abs_of_pos (mul_pos py px), abs_of_pos (mul_pos py pz), abs_of_pos (mul_pos pz px)]
  congr 1
  ring

/-- the hypotheses of the box theorems hold for a box of `1 × 2 × 3` -/
example : ∃ B m', createBox (1 / 1000000 : ℚ) 1 2 3 = some B ∧ toMeshSolid B Mesh.new (2 : Nat) = some m' ∧ m'.OK ∧
    ClosedSoup m'.triangles ∧ m'.triangles.length = 48 * 2 ^ 2 ∧ Measure.volume m' = some (1 * 2 * 3) :=
  box_mesh_watertight (by norm_num) (by norm_num) (by norm_num) (by norm_num) (by norm_num) Mesh.new

/-- C90, the negation for thin boxes: when a side is shorter than the tolerance, the curves
along it are taken for closed and the mesh has holes. -/
theorem thin_box_open : ∃ B m', createBox (1 / 1000000 : ℚ) (1 / 2000000) 1 1 = some B ∧ toMeshSolid B Mesh.new 1 = some m' ∧
    ¬ ClosedSoup m'.triangles := by
  refine ⟨((createBox (1 / 1000000 : ℚ) (1 / 2000000) 1 1).getD []), ((toMeshSolid ((createBox (1 / 1000000 : ℚ) (1 / 2000000) 1 1).getD [])
    Mesh.new 1).getD Mesh.new), ?_, ?_, ?_⟩ <;> decide +kernel

/-! ### surfaces of revolution -/

/-- Anything that is on arc `j` the `j`-th quarter turn of the rational arc is symmetric: at
`1 - u` it has the opposite angle. -/
theorem arc_mirror {r2 : K} {T : Type} (f : K → T) (g : (P3 K → P3 K) → T)
    (main : ∀ (u : K) (j : Nat), j < 4 → InSpan (knotsCircle : List K) (clamp u) (2 * j + 2) →
      let x := 4 * u - j
      let D := (1 - x) ^ 2 + r2 * x * (1 - x) + x ^ 2
      f u = g fun P => turn^[j] (spin (((1 - x) ^ 2 + r2 * x * (1 - x)) / D) ((x ^ 2 + r2 * x * (1 - x)) / D) P))
    {u : K} (h0 : 0 ≤ u) (h1 : u ≤ 1) :
    ∃ c s : K, f u = g (spin c s) ∧ f (1 - u) = g (spin c (-s)) := by
  obtain ⟨k, hk⟩ := exists_inSpan (knotsCircle_clamped (K := K)) (clamp_nonneg u) (clamp_le_one u)
  obtain ⟨j, hj, rfl⟩ := knotsCircle_span hk
  have hm := main u j hj hk
  rw [clamp_of_mem h0 h1] at hk
  have hcl : clamp (1 - u) = 1 - u := clamp_of_mem (by linarith) (by linarith)
  have tt : ∀ c s : K, (fun P => turn (spin c s P)) = spin (-s) c := fun c s => funext fun P => turn_spin c s P
  have t2 : ∀ c s : K, (fun P => turn (turn (spin c s P))) = spin (-c) (-s) := fun c s => funext fun P => by
    rw [turn_spin, turn_spin]
  have t3 : ∀ c s : K, (fun P => turn (turn (turn (spin c s P)))) = spin s (-c) := fun c s => funext fun P => by
    rw [turn_spin, turn_spin, turn_spin, neg_neg]
  by_cases hx : 4 * u - j = 0
  · -- at a knot
    have hm' : f u = g (turn^[j]) := by
      simp only at hm
      rw [hm, hx]
      congr 1
      funext P
      norm_num [spin]
    obtain rfl | rfl | rfl | rfl : j = 0 ∨ j = 1 ∨ j = 2 ∨ j = 3 := by omega
    · have hu : u = 0 := by push_cast at hx; linarith
      subst hu
      have := main (1 - 0) 3 (by omega) (by
        rw [hcl]; refine ⟨?_, ?_, ?_, ?_⟩ <;> simp [kn, knotsCircle] <;> norm_num)
      refine ⟨1, 0, by rw [hm']; congr 1; funext P; simp [spin], ?_⟩
      rw [this]
      congr 1; funext P; norm_num [spin, turn]
    · have hu : u = 1 / 4 := by push_cast at hx; linarith
      subst hu
      have := main (1 - 1 / 4) 3 (by omega) (by
        rw [hcl]; refine ⟨?_, ?_, ?_, ?_⟩ <;> simp [kn, knotsCircle] <;> norm_num)
      refine ⟨0, 1, by rw [hm']; congr 1; funext P; simp [spin, turn], ?_⟩
      rw [this]
      congr 1; funext P; norm_num [spin, turn]
    · have hu : u = 1 / 2 := by push_cast at hx; linarith
      subst hu
      have := main (1 - 1 / 2) 2 (by omega) (by
        rw [hcl]; refine ⟨?_, ?_, ?_, ?_⟩ <;> simp [kn, knotsCircle] <;> norm_num)
      refine ⟨-1, 0, by rw [hm']; congr 1; funext P; simp [spin, turn], ?_⟩
      rw [this]
      congr 1; funext P; norm_num [spin, turn]
    · have hu : u = 3 / 4 := by push_cast at hx; linarith
      subst hu
      have := main (1 - 3 / 4) 1 (by omega) (by
        rw [hcl]; refine ⟨?_, ?_, ?_, ?_⟩ <;> simp [kn, knotsCircle] <;> norm_num)
      refine ⟨0, -1, by rw [hm']; congr 1; funext P; simp [spin, turn], ?_⟩
      rw [this]
      congr 1; funext P; norm_num [spin, turn]
  · have hs : InSpan (knotsCircle : List K) (1 - u) (2 * (3 - j) + 2) := by
      obtain ⟨a1, a2, a3, a4⟩ := hk
      obtain rfl | rfl | rfl | rfl : j = 0 ∨ j = 1 ∨ j = 2 ∨ j = 3 := by omega
      all_goals
        simp [kn, knotsCircle] at a2 a3
        push_cast at hx
      · have : 0 < u := lt_of_le_of_ne h0 fun h => hx (by rw [← h]; norm_num)
        refine ⟨?_, ?_, ?_, fun _ => ?_⟩ <;> simp [kn, knotsCircle] <;> linarith
      · have : 1 / 4 < u := lt_of_le_of_ne (by linarith) fun h => hx (by rw [← h]; norm_num)
        refine ⟨?_, ?_, ?_, fun _ => ?_⟩ <;> simp [kn, knotsCircle] <;> linarith
      · have : 1 / 2 < u := lt_of_le_of_ne (by linarith) fun h => hx (by rw [← h]; norm_num)
        refine ⟨?_, ?_, ?_, fun _ => ?_⟩ <;> simp [kn, knotsCircle] <;> linarith
      · have : 3 / 4 < u := lt_of_le_of_ne (by linarith) fun h => hx (by rw [← h]; norm_num)
        refine ⟨?_, ?_, ?_, fun _ => ?_⟩ <;> simp [kn, knotsCircle] <;> linarith
    have hm2 := main (1 - u) (3 - j) (by omega) (by rw [hcl]; exact hs)
    have hx' : 4 * (1 - u) - ((3 - j : Nat) : K) = 1 - (4 * u - j) := by
      rw [Nat.cast_sub (by omega)]
      push_cast
      ring
    simp only at hm hm2
    rw [hx'] at hm2
    generalize 4 * u - (j : K) = x at hm hm2
    have d1 : (1 - (1 - x)) ^ 2 + r2 * (1 - x) * (1 - (1 - x)) = x ^ 2 + r2 * x * (1 - x) := by ring
    have d2 : (1 - x) ^ 2 + r2 * (1 - x) * (1 - (1 - x)) = (1 - x) ^ 2 + r2 * x * (1 - x) := by ring
    have d3 : x ^ 2 + r2 * x * (1 - x) + (1 - x) ^ 2 = (1 - x) ^ 2 + r2 * x * (1 - x) + x ^ 2 := by ring
    rw [d1, d2, d3] at hm2
    generalize ((1 - x) ^ 2 + r2 * x * (1 - x)) / ((1 - x) ^ 2 + r2 * x * (1 - x) + x ^ 2) = c at hm hm2
    generalize (x ^ 2 + r2 * x * (1 - x)) / ((1 - x) ^ 2 + r2 * x * (1 - x) + x ^ 2) = s at hm hm2
    obtain rfl | rfl | rfl | rfl : j = 0 ∨ j = 1 ∨ j = 2 ∨ j = 3 := by omega
    all_goals
      simp only [Nat.sub_zero, Nat.reduceSub, Nat.sub_self, Function.iterate_succ, Function.iterate_zero, id, Function.comp] at hm hm2
      simp only [tt, t2, t3] at hm hm2
    · exact ⟨_, _, hm, hm2⟩
    · exact ⟨_, _, hm, hm2⟩
    · exact ⟨_, _, hm, by rw [hm2, neg_neg]⟩
    · exact ⟨_, _, hm, by rw [hm2, neg_neg]⟩

/-- `S` is on each of the four arcs the turned rational arc of the profile `nc` -/
def Arcs (r2 : K) (nc : Curve K) (S : Surface K) : Prop :=
  ∀ (u : K) (j : Nat), j < 4 → InSpan (knotsCircle : List K) (clamp u) (2 * j + 2) →
      let x := 4 * u - j
      let D := (1 - x) ^ 2 + r2 * x * (1 - x) + x ^ 2
      (fun v => S.at u v) = fun v => (nc.at v).map
        fun P => turn^[j] (spin (((1 - x) ^ 2 + r2 * x * (1 - x)) / D) ((x ^ 2 + r2 * x * (1 - x)) / D) P)

/-- A surface of revolution with its flags, its weights and its symmetry. -/
theorem revolve_full {nc : Curve K} {q n : Nat} (h : nc.Valid q n) (hw : ∀ w ∈ nc.weights, 0 < w) (tol : K) {r2 : K}
    (hr : r2 * r2 = 2) (h2 : 0 < r2) (ns : Surface K) :
    ∃ S, revolve tol r2 nc ns = some S ∧ S.Valid 2 q 9 n ∧ S.closedU = true ∧ nc.isClosed tol = some S.closedV ∧
      (∀ w ∈ S.weights, 0 < w) ∧ (∀ v, S.at 0 v = nc.at v) ∧ (∀ v, S.at 1 v = nc.at v) ∧
      Arcs r2 nc S ∧
      ∀ u, 0 ≤ u → u ≤ 1 → ∃ c s : K, ∀ v, S.at u v = (nc.at v).map (spin c s) ∧ S.at (1 - u) v = (nc.at v).map (spin c (-s)) := by
  obtain ⟨S, e, hv, hU, hV, hc, hcv, hpair⟩ := revolve_valid h tol r2 ns
  obtain ⟨S', e', -, -, -, -, hz, ho, -⟩ := revolve_spec h tol hr h2 ns
  obtain ⟨b, pu, pv, wu, wv, hb, e3, -⟩ := revolve_eq h tol r2 ns
  rw [e, Option.some_inj] at e' e3
  subst e'
  have hA : Arcs r2 nc S := fun u j hj hk => funext fun v => revolve_arc h hr h2 hv hU hV hpair hj hk v
  refine ⟨S, e, hv, hc, hcv, ?_, hz, ho, hA, fun u h0 h1 => ?_⟩
  · rw [e3]
    simp only [List.mem_flatMap, List.mem_range]
    rintro w ⟨i, hi, hw'⟩
    have hpos : 0 < nc.weights.getD i 0 := by
      have : i < nc.weights.length := by rw [h.weights]; exact hi
      rw [List.getD_eq_getElem?_getD, List.getElem?_eq_getElem this, Option.getD_some]
      exact hw _ (List.getElem_mem this)
    simp only [circleWts, List.mem_cons, List.not_mem_nil, or_false] at hw'
    rcases hw' with rfl | rfl | rfl | rfl | rfl | rfl | rfl | rfl | rfl <;> first | exact hpos | exact div_pos hpos h2
  · obtain ⟨c, s, a1, a2⟩ := arc_mirror (fun u v => S.at u v) (fun t v => (nc.at v).map t) hA h0 h1
    exact ⟨c, s, fun v => ⟨congrFun a1 v, congrFun a2 v⟩⟩

theorem mapPoints_valid {S : Surface K} {p q nu nv : Nat} (h : S.Valid p q nu nv) (f : P3 K → P3 K) :
    (S.mapPoints f).Valid p q nu nv :=
  ⟨h.degreeU, h.degreeV, h.nbU, h.nbV, by simpa [Surface.mapPoints] using h.points, h.weights,
      h.knotsU, h.knotsV, h.tempPointsU, h.tempPointsV, h.tempWeightsU, h.tempWeightsV⟩

/-- sum of a weight over `n` pieces of a curve -/
def ring {G : Type*} [AddCommGroup G] (φ : P3 K × P3 K → G) (n : Nat) (R : K → P3 K) : G :=
  ∑ i ∈ Finset.range n, φ (R ((i : K) / n), R (((i + 1 : Nat) : K) / n))

theorem ring_const {G : Type*} [AddCommGroup G] {φ : P3 K × P3 K → G} (hφ : Anti φ) (n : Nat) {R : K → P3 K} {p : P3 K}
    (h : ∀ t, 0 ≤ t → t ≤ 1 → R t = p) : ring φ n R = 0 := by
  unfold ring
  refine Finset.sum_eq_zero fun i hi => ?_
  have hi := Finset.mem_range.1 hi
  obtain ⟨a1, a2⟩ := frac_mem (K := K) (show i ≤ n by omega) (by omega)
  obtain ⟨b1, b2⟩ := frac_mem (K := K) (show i + 1 ≤ n by omega) (by omega)
  rw [h _ a1 a2, h _ b1 b2]
  exact hφ.self p

theorem ring_congr {G : Type*} [AddCommGroup G] {φ : P3 K × P3 K → G} (n : Nat) {R R' : K → P3 K}
    (h : ∀ t, 0 ≤ t → t ≤ 1 → R t = R' t) : ring φ n R = ring φ n R' := by
  unfold ring
  refine Finset.sum_congr rfl fun i hi => ?_
  have hi := Finset.mem_range.1 hi
  obtain ⟨a1, a2⟩ := frac_mem (K := K) (show i ≤ n by omega) (by omega)
  obtain ⟨b1, b2⟩ := frac_mem (K := K) (show i + 1 ≤ n by omega) (by omega)
  rw [h _ a1 a2, h _ b1 b2]

theorem ring_mirror {G : Type*} [AddCommGroup G] {φ : P3 K × P3 K → G} (hφ : Anti φ) (n : Nat) {R R' : K → P3 K}
    (h : ∀ t, 0 ≤ t → t ≤ 1 → R' t = R (1 - t)) : ring φ n R' = - ring φ n R := by
  unfold ring
  rw [← sum_reverse n (fun i => R ((i : K) / n)) hφ]
  refine Finset.sum_congr rfl fun i hi => ?_
  have hi := Finset.mem_range.1 hi
  have hn : (n : K) ≠ 0 := by
    have : 0 < n := by omega
    exact_mod_cast this.ne'
  have key : ∀ i ≤ n, R' ((i : K) / n) = R (((n - i : Nat) : K) / n) := by
    intro i hi
    obtain ⟨a1, a2⟩ := frac_mem (K := K) hi (by omega)
    rw [h _ a1 a2, Nat.cast_sub hi, sub_div, div_self hn]
  rw [key i (by omega), key (i + 1) (by omega)]

/-- the boundary of the mesh of a surface whose columns close up -/
theorem bdrySum_turned {G : Type*} [AddCommGroup G] {φ : P3 K × P3 K → G} (hφ : Anti φ) {S : Surface K}
    (hu : S.closedU = true) (hv : S.closedV = false) (hcl : ∀ v, S.at 0 v = S.at 1 v) {U V : Nat} (hU : 0 < U) (hV : 0 < V) :
    bdrySum φ (surfaceSoup S U V) =
      ring φ U (fun u => (S.at u 0).getD ⟨0, 0, 0⟩) - ring φ U (fun u => (S.at u 1).getD ⟨0, 0, 0⟩) := by
  have hU0 : (U : K) ≠ 0 := by exact_mod_cast hU.ne'
  have hV0 : (V : K) ≠ 0 := by exact_mod_cast hV.ne'
  have hcol : ∀ j : Int, samplePos S U V (0, j) = samplePos S U V (U, j) := by
    intro j
    simp only [samplePos, sample, Int.toNat_zero, Int.toNat_natCast, Nat.cast_zero, zero_div, div_self hU0]
    rw [hcl]
  rw [surfaceSoup_eq, hu, hv, bdrySum_grid_open hφ (fun j _ => hcol j)]
  simp only [hcol]
  rw [sub_self, add_zero]
  simp only [samplePos_i0]
  simp only [samplePos_at, div_self hV0]
  rfl

/-- C90, sphere.  For every radius and every resolution the mesh of the NURBS sphere is
watertight and consistently oriented; at the poles whole sides of triangles shrink to a
point. -/
theorem sphere_mesh_watertight (tol : K) {r2 : K} (hr : r2 * r2 = 2) (h2 : 0 < r2) (r : K) {k : Nat} (hk : 0 < k) (m : Mesh K) :
    ∃ B m', createSphereSolid tol r2 r = some B ∧ toMeshSolid B m k = some m' ∧ m'.OK ∧ ClosedSoup m'.triangles ∧
      m'.triangles.length = 2 * (9 * k) * (5 * k) := by
  obtain ⟨tp, tw, e, l1, l2⟩ := setDegree_curve (Curve.new : Curve K) 2
  simp only [Nat.cast_ofNat] at e
  obtain ⟨C, eC, hC, hC1, hC2, hC3⟩ : ∃ c : Curve K, sphereProfile r2 r = some c ∧ c.Valid 2 5 ∧ c.knots = knotsHalf ∧
      c.weights = [1, 1 / r2, 1, 1 / r2, 1] ∧
      c.points = [r • ⟨0, 0, -1⟩, r • ⟨0, 1, -1⟩, r • ⟨0, 1, 0⟩, r • ⟨0, 1, 1⟩, r • ⟨0, 0, 1⟩] := by
    refine ⟨_, by simp only [sphereProfile, e, Option.bind_eq_bind, Option.bind_some, Curve.setKnots,
      scaleKnots_self knotsHalf_clamped, Option.pure_def]; rfl,
      ⟨rfl, rfl, rfl, rfl, knotsHalf_clamped, l1.ge, l2.ge⟩, rfl, rfl, rfl⟩
  have hwC : ∀ w ∈ C.weights, 0 < w := by
    rw [hC2]
    simp [h2]
  have at0 : C.at 0 = some ⟨0, 0, -r⟩ := by
    rw [evaluate_zero hC (by rw [hC1]; simp [kn, knotsHalf]) (by rw [hC2]; simp), hC3]
    simp only [List.head?_cons, Option.some_inj]
    ext <;> simp
  have at1 : C.at 1 = some ⟨0, 0, r⟩ := by
    rw [evaluate_one hC (by rw [hC1]; simp [kn, knotsHalf]; norm_num) (by rw [hC2]; simp), hC3]
    simp only [List.getLast?_cons_cons, List.getLast?_singleton, Option.some_inj]
    ext <;> simp
  obtain ⟨S, eS, hv, cu, -, hw, c0, c1, -, hs⟩ := revolve_full hC hwC tol hr h2 Surface.new.clear
  have hv' := mapPoints_valid hv (mirrorY : P3 K → P3 K)
  have eB : createSphereSolid tol r2 r = some [S.mapPoints mirrorY] := by
    simp [createSphereSolid, createSphere, eC, eS, Solid.add]
  obtain ⟨m', e', hok, hT⟩ := to_mesh_solid [S.mapPoints mirrorY] (fun s hs => by
      rw [List.mem_singleton] at hs; rw [hs]; exact ⟨_, _, _, _, hv'⟩) (fun s hs => by
      rw [List.mem_singleton] at hs; rw [hs]; exact hw) hk m
  have hT' : m'.triangles = surfaceSoup (S.mapPoints mirrorY) (k * 9) (k * 5) := by
    rw [hT, List.flatMap_singleton, hv'.nbU, hv'.nbV]
    rfl
  refine ⟨_, m', eB, e', hok, closedSoup_of_bdrySum _ fun φ hφ => ?_, ?_⟩
  · rw [hT']
    have hpole : ∀ v p, C.at v = some p → p.x = 0 → p.y = 0 → ∀ u, 0 ≤ u → u ≤ 1 →
        ((S.mapPoints mirrorY).at u v).getD ⟨0, 0, 0⟩ = p := by
      intro v p hp hx hy u h0 h1
      obtain ⟨c, s, hcs⟩ := hs u h0 h1
      rw [mirrorY_at hv, (hcs v).1, hp]
      ext <;> simp [mirrorY, spin, hx, hy]
    rcases hcv : S.closedV with _ | _
    · rw [bdrySum_turned hφ (S := S.mapPoints mirrorY) cu hcv (fun v => by rw [mirrorY_at hv, mirrorY_at hv, c0, c1]) (by omega) (by omega),
        ring_const hφ _ (hpole 0 _ at0 rfl rfl), ring_const hφ _ (hpole 1 _ at1 rfl rfl), sub_self]
    · rw [surfaceSoup_eq, show (S.mapPoints mirrorY).closedU = true from cu, show (S.mapPoints mirrorY).closedV = true from hcv]
      exact bdrySum_grid_closed hφ
  · rw [hT', length_surfaceSoup]
    ring

/-- C90, torus.  For all radii and every resolution the mesh of the NURBS torus is
watertight and consistently oriented, also between its ends. -/
theorem torus_mesh_watertight {tol : K} (ht : 0 < tol) {r2 : K} (hr : r2 * r2 = 2) (h2 : 0 < r2) (major minor : K) {k : Nat}
    (hk : 0 < k) (m : Mesh K) :
    ∃ B m', createTorusSolid tol r2 major minor = some B ∧ toMeshSolid B m k = some m' ∧ m'.OK ∧ ClosedSoup m'.triangles ∧
      m'.triangles.length = 2 * (9 * k) * (9 * k) := by
  obtain ⟨tp, tw, e, l1, l2⟩ := setDegree_curve (Curve.new : Curve K).clear 2
  simp only [Nat.cast_ofNat] at e
  obtain ⟨C, eC, hv0, hw0, hp0⟩ : ∃ C : Curve K, createCircle r2 minor Curve.new = some C ∧ C.Valid 2 9 ∧
      C.weights = [1, 1 / r2, 1, 1 / r2, 1, 1 / r2, 1, 1 / r2, 1] ∧
      C.points = [minor • ⟨1, 0, 0⟩, minor • ⟨1, 1, 0⟩, minor • ⟨0, 1, 0⟩, minor • ⟨-1, 1, 0⟩, minor • ⟨-1, 0, 0⟩,
        minor • ⟨-1, -1, 0⟩, minor • ⟨0, -1, 0⟩, minor • ⟨1, -1, 0⟩, minor • ⟨1, 0, 0⟩] := by
    refine ⟨_, by simp only [createCircle, e, Option.bind_eq_bind, Option.bind_some, Curve.setKnots,
      scaleKnots_self knotsCircle_clamped, Option.pure_def]; rfl,
      ⟨rfl, rfl, rfl, rfl, knotsCircle_clamped, l1.ge, l2.ge⟩, rfl, rfl⟩
  have hv : (C.mapPoints fun p => (⟨p.x + major, -p.z, p.y⟩ : P3 K)).Valid 2 9 :=
    ⟨hv0.degree, by simpa [Curve.mapPoints] using hv0.points, hv0.nbPoints, hv0.weights, hv0.knots, hv0.tempPoints, hv0.tempWeights⟩
  have hwC : ∀ w ∈ (C.mapPoints fun p => (⟨p.x + major, -p.z, p.y⟩ : P3 K)).weights, 0 < w := by
    simp only [Curve.mapPoints, hw0]
    simp [h2]
  obtain ⟨S, eS, hS, cu, cv, hw, -⟩ := revolve_full hv hwC tol hr h2 Surface.new.clear
  have hcv : S.closedV = true := by
    have : (C.mapPoints fun p => (⟨p.x + major, -p.z, p.y⟩ : P3 K)).isClosed tol = some true := by
      unfold Curve.isClosed
      simp only [Curve.mapPoints, hp0]
      have hq : ∀ P : P3 K, (P - P).normSq < tol * tol := fun P => by
        simpa [P3.normSq] using mul_pos ht ht
      exact congrArg some (decide_eq_true (hq _))
    rw [this, Option.some_inj] at cv
    exact cv.symm
  have hS' := mapPoints_valid hS (mirrorY : P3 K → P3 K)
  have eB : createTorusSolid tol r2 major minor = some [S.mapPoints mirrorY] := by
    simp [createTorusSolid, createTorus, eC, eS, Solid.add]
  obtain ⟨m', e', hok, hT⟩ := to_mesh_solid [S.mapPoints mirrorY] (fun s hs => by
      rw [List.mem_singleton] at hs; rw [hs]; exact ⟨_, _, _, _, hS'⟩) (fun s hs => by
      rw [List.mem_singleton] at hs; rw [hs]; exact hw) hk m
  have hT' : m'.triangles = surfaceSoup (S.mapPoints mirrorY) (k * 9) (k * 9) := by
    rw [hT, List.flatMap_singleton, hS'.nbU, hS'.nbV]
    rfl
  refine ⟨_, m', eB, e', hok, closedSoup_of_bdrySum _ fun φ hφ => ?_, ?_⟩
  · rw [hT', surfaceSoup_eq, show (S.mapPoints mirrorY).closedU = true from cu, show (S.mapPoints mirrorY).closedV = true from hcv]
    exact bdrySum_grid_closed hφ
  · rw [hT', length_surfaceSoup]
    ring

/-- C90, cylinder.  For every radius and height not below the closing tolerance and every
resolution the mesh of the NURBS cylinder is watertight and consistently oriented: the
rims of both disks are the rims of the side, run through the other way. -/
theorem cylinder_mesh_watertight {tol : K} (ht : 0 < tol) {r2 : K} (hr : r2 * r2 = 2) (h2 : 0 < r2) {r h : K} (hr' : tol ≤ |r|)
    (hh : tol ≤ |h|) {k : Nat} (hk : 0 < k) (m : Mesh K) :
    ∃ B m', createCylinder tol r2 r h = some B ∧ toMeshSolid B m k = some m' ∧ m'.OK ∧ ClosedSoup m'.triangles ∧
      m'.triangles.length = 3 * (2 * (9 * k) * (2 * k)) := by
  -- the disk
  obtain ⟨tp, tw, e, l1, l2⟩ := setDegree_curve (Curve.new : Curve K) 1
  obtain ⟨c', e1, hc, -, hcw, hcp, hca⟩ := line_curve (⟨0, 0, 0⟩ : P3 K) ⟨r, 0, 0⟩
    { (Curve.new : Curve K) with degree := ((1 : Nat) : Int), tempPoints := tp, tempWeights := tw } rfl l1.ge l2.ge
  simp only [Nat.cast_one] at e e1
  obtain ⟨D, eD, hD, cuD, cvD, hwD, d0, d1, hAD, hsD⟩ := revolve_full hc (by rw [hcw]; simp) tol hr h2 Surface.new.clear
  have eDisk : createDisk tol r2 r Surface.new = some D := by
    simp only [createDisk, e, Option.bind_eq_bind, Option.bind_some, e1]
    exact eD
  have sq : ∀ a : K, tol ≤ |a| → ¬ a * a < tol * tol := fun a ha => by
    rw [not_lt, ← abs_mul_abs_self a]
    exact mul_self_le_mul_self ht.le ha
  have cvD' : D.closedV = false := by
    rw [isClosed_two _ tol _ _ hcp, Option.some_inj] at cvD
    rw [← cvD, decide_eq_false_iff_not]
    have := sq r hr'
    simpa [P3.normSq] using this
  -- the side
  obtain ⟨L, eL, hL, -, hLw, hLp, hLa⟩ := createCurveFromPoints_two (⟨r, 0, -h / 2⟩ : P3 K) ⟨r, 0, h / 2⟩ Curve.new
  obtain ⟨S, eS, hS, cuS, cvS, hwS, s0, s1, hAS, -⟩ := revolve_full hL (by rw [hLw]; simp) tol hr h2 Surface.new
  have cvS' : S.closedV = false := by
    rw [isClosed_two _ tol _ _ hLp, Option.some_inj] at cvS
    rw [← cvS, decide_eq_false_iff_not]
    have : ((⟨r, 0, -h / 2⟩ : P3 K) - ⟨r, 0, h / 2⟩).normSq = h * h := by simp [P3.normSq]; ring
    rw [this]
    exact sq h hh
  have hmap1 := mapPoints_at hD (fun p => ⟨p.x, -p.y, p.z - h / 2⟩) ⟨1, 0, 0⟩ ⟨0, -1, 0⟩ ⟨0, 0, 1⟩ ⟨0, 0, -(h / 2)⟩
      (fun P => by ext <;> simp [affine, P3.dot]; ring)
  have hmap3 := mapPoints_at hD (fun p => ⟨p.x, p.y, p.z + h / 2⟩) ⟨1, 0, 0⟩ ⟨0, 1, 0⟩ ⟨0, 0, 1⟩ ⟨0, 0, h / 2⟩
      (fun P => by ext <;> simp [affine, P3.dot])
  have hv1 := mapPoints_valid hD (fun p => (⟨p.x, -p.y, p.z - h / 2⟩ : P3 K))
  have hv2 := mapPoints_valid hS (mirrorY : P3 K → P3 K)
  have hv3 := mapPoints_valid hD (fun p => (⟨p.x, p.y, p.z + h / 2⟩ : P3 K))
  generalize hS1 : D.mapPoints (fun p => (⟨p.x, -p.y, p.z - h / 2⟩ : P3 K)) = S1 at *
  generalize hS2 : S.mapPoints (mirrorY : P3 K → P3 K) = S2 at *
  generalize hS3 : D.mapPoints (fun p => (⟨p.x, p.y, p.z + h / 2⟩ : P3 K)) = S3 at *
  have eB : createCylinder tol r2 r h = some [S1, S2, S3] := by
    simp only [createCylinder, eDisk, eL, eS, Option.bind_eq_bind, Option.bind_some, Option.pure_def, Solid.add,
      List.nil_append, List.singleton_append, List.cons_append, hS1, hS2, hS3]
  have hB : ∀ s ∈ ([S1, S2, S3] : Solid K), s.Valid 2 1 9 2 ∧ ∀ w ∈ s.weights, 0 < w := by
    intro s hs
    simp only [List.mem_cons, List.not_mem_nil, or_false] at hs
    rcases hs with rfl | rfl | rfl
    · exact ⟨hv1, by rw [← hS1]; exact hwD⟩
    · exact ⟨hv2, by rw [← hS2]; exact hwS⟩
    · exact ⟨hv3, by rw [← hS3]; exact hwD⟩
  obtain ⟨m', e', hok, hT⟩ := to_mesh_solid [S1, S2, S3] (fun s hs => ⟨_, _, _, _, (hB s hs).1⟩) (fun s hs => (hB s hs).2) hk m
  have hT' : m'.triangles = surfaceSoup S1 (k * 9) (k * 2) ++ (surfaceSoup S2 (k * 9) (k * 2) ++ surfaceSoup S3 (k * 9) (k * 2)) := by
    rw [hT]
    simp only [List.flatMap_cons, List.flatMap_nil, List.append_nil, hv1.nbU, hv1.nbV, hv2.nbU, hv2.nbV, hv3.nbU, hv3.nbV]
    rfl
  refine ⟨_, m', eB, e', hok, closedSoup_of_bdrySum _ fun φ hφ => ?_, ?_⟩
  · rw [hT', bdrySum_append, bdrySum_append]
    have hk9 : 0 < k * 9 := by omega
    have hk2 : 0 < k * 2 := by omega
    rw [bdrySum_turned hφ (S := S1) (by rw [← hS1]; exact cuD) (by rw [← hS1]; exact cvD') (fun v => by rw [hmap1, hmap1, d0, d1]) hk9 hk2,
      bdrySum_turned hφ (S := S2) (by rw [← hS2]; exact cuS) (by rw [← hS2]; exact cvS')
        (fun v => by rw [← hS2, mirrorY_at hS, mirrorY_at hS, s0, s1]) hk9 hk2,
      bdrySum_turned hφ (S := S3) (by rw [← hS3]; exact cuD) (by rw [← hS3]; exact cvD') (fun v => by rw [hmap3, hmap3, d0, d1]) hk9 hk2]
    have z1 : ring φ (k * 9) (fun u => (S1.at u 0).getD ⟨0, 0, 0⟩) = 0 := by
      refine ring_const (p := ⟨0, 0, -(h / 2)⟩) hφ _ fun u h0 h1 => ?_
      obtain ⟨c, s, hcs⟩ := hsD u h0 h1
      rw [hmap1, (hcs 0).1, hca]
      ext <;> simp [spin]
    have z3 : ring φ (k * 9) (fun u => (S3.at u 0).getD ⟨0, 0, 0⟩) = 0 := by
      refine ring_const (p := ⟨0, 0, h / 2⟩) hφ _ fun u h0 h1 => ?_
      obtain ⟨c, s, hcs⟩ := hsD u h0 h1
      rw [hmap3, (hcs 0).1, hca]
      ext <;> simp [spin]
    -- the angle of the disk and of the side at the same `u` are the same
    have hang : ∀ u, 0 ≤ u → u ≤ 1 → ∃ c s : K, (∀ v, D.at u v = (c'.setEqualsWeights.at v).map (spin c s)) ∧
        (∀ v, S.at u v = (L.at v).map (spin c s)) ∧ ∀ v, S.at (1 - u) v = (L.at v).map (spin c (-s)) := by
      intro u h0 h1
      obtain ⟨c, s, a1, a2⟩ := arc_mirror (r2 := r2) (fun u => (fun v => D.at u v, fun v => S.at u v))
        (fun t => (fun v => (c'.setEqualsWeights.at v).map t, fun v => (L.at v).map t))
        (fun u j hj hk => Prod.ext (hAD u j hj hk) (hAS u j hj hk)) h0 h1
      exact ⟨c, s, fun v => congrFun (Prod.mk.inj a1).1 v, fun v => congrFun (Prod.mk.inj a1).2 v,
        fun v => congrFun (Prod.mk.inj a2).2 v⟩
    have b1 : ring φ (k * 9) (fun u => (S2.at u 0).getD ⟨0, 0, 0⟩) = ring φ (k * 9) (fun u => (S1.at u 1).getD ⟨0, 0, 0⟩) := by
      refine ring_congr _ fun u h0 h1 => ?_
      obtain ⟨c, s, a1, a2, -⟩ := hang u h0 h1
      rw [hmap1, a1, ← hS2, mirrorY_at hS, a2, hca, hLa]
      ext <;> simp [spin, mirrorY]
      ring
    have b2 : ring φ (k * 9) (fun u => (S3.at u 1).getD ⟨0, 0, 0⟩) = - ring φ (k * 9) (fun u => (S2.at u 1).getD ⟨0, 0, 0⟩) := by
      refine ring_mirror hφ _ fun u h0 h1 => ?_
      obtain ⟨c, s, a1, -, a2⟩ := hang u h0 h1
      rw [hmap3, a1, ← hS2, mirrorY_at hS, a2, hca, hLa]
      ext <;> simp [spin, mirrorY]
    rw [z1, z3, b1, b2]
    abel
  · rw [hT']
    simp only [List.length_append, length_surfaceSoup]
    ring

/-- the hypotheses hold for the square root of two, a radius of 2 and a height of 5 -/
example : ∃ B m', createCylinder (1 / 1000000) (Real.sqrt 2) 2 5 = some B ∧ toMeshSolid B Mesh.new (4 : Nat) = some m' ∧ m'.OK ∧
    ClosedSoup m'.triangles ∧ m'.triangles.length = 3 * (2 * (9 * 4) * (2 * 4)) :=
  cylinder_mesh_watertight (by norm_num) (Real.mul_self_sqrt (by norm_num)) (Real.sqrt_pos.2 (by norm_num))
    (by rw [abs_of_pos] <;> norm_num) (by rw [abs_of_pos] <;> norm_num) (by norm_num) Mesh.new

/-! ### C91: from a mesh to a NURBS solid and back -/

/-- `create_from_mesh` makes the surfaces one after the other from the stored triangles. -/
theorem createFromMesh_forall (tol : K) {m : Mesh K} (hm : m.OK)
    (hl : ∀ i : Nat, (i : Int) < m.nbTriangles → m.isTriangleUnlinked i = some false) :
    ∃ B, createFromMesh tol m = some B ∧
      List.Forall₂ (fun t S => createTriangle tol t.p1 t.p2 t.p3 Surface.new = some S) m.triangles B := by
  have hlen : m.nbTriangles = m.view.faces.length := (answers_view m).nbTriangles
  have hv := ((ok_iff m).1 hm).valid
  have htri : ∀ i < m.nbTriangles.toNat, ∃ t, m.getTriangle (i : Nat) = some t := by
    intro i hi
    rw [hlen, Int.toNat_natCast] at hi
    rw [getTriangle_eq, getI_natCast, List.getElem?_eq_getElem hi, Option.bind_some]
    obtain ⟨h1, h2, h3⟩ := hv _ (List.getElem_mem hi)
    obtain ⟨a, ha, la⟩ := h1.exists
    obtain ⟨b, hb, lb⟩ := h2.exists
    obtain ⟨c, hc, lc⟩ := h3.exists
    exact ⟨⟨m.view.points[a], m.view.points[b], m.view.points[c]⟩, by
      simp only [AMesh.tri, ha, hb, hc, getI_natCast, List.getElem?_eq_getElem la, List.getElem?_eq_getElem lb,
        List.getElem?_eq_getElem lc, Option.bind_eq_bind, Option.bind_some, Option.pure_def]⟩
  unfold createFromMesh Mesh.triangles
  obtain ⟨B, e, h1⟩ := loopN_inv (n := m.nbTriangles.toNat) (s := ([] : Solid K)) (f := fun i (n : Solid K) => do
      let t ← m.getTriangle i
      let s ← createTriangle tol t.p1 t.p2 t.p3 Surface.new
      return n.add s)
    (fun k B => List.Forall₂ (fun t S => createTriangle tol t.p1 t.p2 t.p3 Surface.new = some S)
      ((List.range k).filterMap fun (i : Nat) => if m.isTriangleUnlinked i = some false then m.getTriangle i else none) B)
    (by simp) (by
      intro i hi B hB
      obtain ⟨t, ht⟩ := htri i hi
      obtain ⟨S, eS, -⟩ := triangle_exact tol t.p1 t.p2 t.p3 Surface.new
      refine ⟨B ++ [S], ?_, ?_⟩
      · simp only [ht, eS, Option.bind_eq_bind, Option.bind_some, Option.pure_def]
        rfl
      · rw [List.range_succ, List.filterMap_append]
        refine List.rel_append hB ?_
        simp only [List.filterMap_cons, List.filterMap_nil, hl i (by omega), if_true, ht]
        exact .cons eS .nil)
  exact ⟨B, e, h1⟩

/-- the sum of anything over the triangles of the mesh of an open surface -/
theorem sum_surfaceSoup_open {M : Type*} [AddCommMonoid M] {s : Surface K} {U V : Nat} (hu : s.closedU = false)
    (hv : s.closedV = false) (f : Tri3 K → M) :
    ((surfaceSoup s U V).map f).sum = ∑ j ∈ Finset.range V, ∑ i ∈ Finset.range U,
      (f ⟨samplePos s U V (i, j), samplePos s U V ((i + 1 : Nat), j), samplePos s U V ((i + 1 : Nat), (j + 1 : Nat))⟩ +
       f ⟨samplePos s U V ((i + 1 : Nat), (j + 1 : Nat)), samplePos s U V (i, (j + 1 : Nat)), samplePos s U V (i, j)⟩) := by
  rw [← sum_product_range V U (fun c => f ⟨samplePos s U V (c.2, c.1), samplePos s U V ((c.2 + 1 : Nat), c.1),
      samplePos s U V ((c.2 + 1 : Nat), (c.1 + 1 : Nat))⟩ +
       f ⟨samplePos s U V ((c.2 + 1 : Nat), (c.1 + 1 : Nat)), samplePos s U V (c.2, (c.1 + 1 : Nat)), samplePos s U V (c.2, c.1)⟩)]
  unfold surfaceSoup
  have w : ∀ (a b : Int), wrap false a b = a + 1 := fun a b => by simp [wrap]
  induction meshCells U V with
  | nil => rfl
  | cons c l ih =>
    rw [List.flatMap_cons, List.map_append, List.map_append, List.sum_append, ih, List.map_cons, List.sum_cons]
    congr 1
    simp [meshCell, hu, hv, w]

theorem triangle_full {tol : K} {t : Tri3 K} (hs : tol * tol ≤ (t.p1 - t.p2).normSq) {S : Surface K}
    (e : createTriangle tol t.p1 t.p2 t.p3 Surface.new = some S) :
    S.Valid 1 1 2 2 ∧
      (∀ u v, S.at u v = some ((1 - v) • ((1 - u) • t.p1 + u • t.p2) + v • ((1 - u) • t.p3 + u • t.p3))) ∧
      S.closedU = false ∧ S.closedV = false ∧ S.weights = [1, 1, 1, 1] := by
  obtain ⟨S', e', h1, h2, h3, h4, h5⟩ := quad_full tol t.p1 t.p2 t.p3 t.p3 Surface.new
  unfold createTriangle at e
  rw [e, Option.some_inj] at e'
  subst e'
  exact ⟨h1, h2, by rw [h3, decide_eq_false (not_lt.2 hs), Bool.false_and], h4, h5⟩

theorem from_mesh_core {tol : K} {m : Mesh K} (hm : m.OK)
    (hl : ∀ i : Nat, (i : Int) < m.nbTriangles → m.isTriangleUnlinked i = some false)
    (hs : ∀ t ∈ m.triangles, tol * tol ≤ (t.p1 - t.p2).normSq) {k : Nat} (hk : 0 < k) (M : Mesh K) :
    ∃ B m', createFromMesh tol m = some B ∧ toMeshSolid B M k = some m' ∧ m'.OK ∧
      List.Forall₂ (fun t S => createTriangle tol t.p1 t.p2 t.p3 Surface.new = some S) m.triangles B ∧
      m'.triangles = B.flatMap fun s => surfaceSoup s (k * 2) (k * 2) := by
  obtain ⟨B, e, hB⟩ := createFromMesh_forall tol hm hl
  have hval : ∀ s ∈ B, s.Valid 1 1 2 2 ∧ s.weights = [1, 1, 1, 1] := by
    have : ∀ (ts : List (Tri3 K)) (B : Solid K), (∀ t ∈ ts, tol * tol ≤ (t.p1 - t.p2).normSq) →
        List.Forall₂ (fun t S => createTriangle tol t.p1 t.p2 t.p3 Surface.new = some S) ts B →
        ∀ s ∈ B, s.Valid 1 1 2 2 ∧ s.weights = [1, 1, 1, 1] := by
      intro ts B hts hB
      induction hB with
      | nil => simp
      | @cons t S ts B hS _ ih =>
        intro s hs
        rcases List.mem_cons.1 hs with rfl | hs
        · obtain ⟨h1, -, -, -, h5⟩ := triangle_full (hts t (by simp)) hS
          exact ⟨h1, h5⟩
        · exact ih (fun t ht => hts t (by simp [ht])) s hs
    exact this _ _ hs hB
  obtain ⟨m', e', hok, hT⟩ := to_mesh_solid B (fun s hs => ⟨1, 1, 2, 2, (hval s hs).1⟩)
    (fun s hs w hw => by rw [(hval s hs).2] at hw; simp at hw; rw [hw]; exact one_pos) hk M
  refine ⟨B, m', e, e', hok, hB, ?_⟩
  rw [hT]
  refine List.flatMap_congr fun s hs => ?_
  rw [(hval s hs).1.nbU, (hval s hs).1.nbV]
  rfl

/-- C91.  A mesh turned into a NURBS solid with `create_from_mesh` and meshed again at any
resolution: each triangle becomes `8 k²` triangles, a watertight mesh stays watertight,
and the volume does not change. -/
theorem from_mesh_to_mesh {tol : K} {m : Mesh K} (hm : m.OK)
    (hl : ∀ i : Nat, (i : Int) < m.nbTriangles → m.isTriangleUnlinked i = some false)
    (hs : ∀ t ∈ m.triangles, tol * tol ≤ (t.p1 - t.p2).normSq) {k : Nat} (hk : 0 < k) (M : Mesh K) :
    ∃ B m', createFromMesh tol m = some B ∧ toMeshSolid B M k = some m' ∧ m'.OK ∧
      m'.triangles.length = 8 * k ^ 2 * m.triangles.length ∧ (ClosedSoup m.triangles → ClosedSoup m'.triangles) ∧
      Measure.volume m' = Measure.volume m := by
  obtain ⟨B, m', e, e', hok, hB, hT'⟩ := from_mesh_core hm hl hs hk M
  have hn : 0 < k * 2 := by omega
  refine ⟨B, m', e, e', hok, ?_, ?_, ?_⟩
  · rw [hT', List.length_flatMap]
    simp only [length_surfaceSoup, List.map_const', List.sum_replicate, smul_eq_mul, ← hB.length_eq]
    ring
  · intro hc
    refine closedSoup_of_bdrySum _ fun φ hφ => ?_
    rw [← bdrySum_closed hc (side_anti hφ (k * 2)), hT', bdrySum_flatMap, bdrySum_eq]
    revert hs
    generalize m.triangles = ts at hB
    clear hc hT' e e'
    intro hs
    induction hB with
    | nil => rfl
    | @cons t S ts B hS _ ih =>
      obtain ⟨-, h2, h3, h4, -⟩ := triangle_full (hs t (by simp)) hS
      rw [List.map_cons, List.sum_cons, List.map_cons, List.sum_cons, ih (fun t ht => hs t (by simp [ht])),
        bdrySum_quad hφ h2 h3 h4 hn, side_self hφ, add_zero]
  · rw [measures_are_sums m' hok, measures_are_sums m hm, hT']
    congr 2
    revert hs
    generalize m.triangles = ts at hB
    clear hT' e e'
    intro hs
    induction hB with
    | nil => rfl
    | @cons t S ts B hS _ ih =>
      obtain ⟨-, h2, h3, h4, -⟩ := triangle_full (hs t (by simp)) hS
      rw [List.flatMap_cons, List.map_append, List.sum_append, List.map_cons, List.sum_cons, ih (fun t ht => hs t (by simp [ht]))]
      congr 1
      rw [volume_quad (S := S) (o := t.p1) (a := t.p2 - t.p1) (b := t.p3 - t.p1) (α2 := 1) (β2 := 0) (α3 := 0) (β3 := 1)
        (α4 := 0) (β4 := 1) rfl (by module) (by module) (by module) h2 h3 h4 hn]
      simp only [det3]
      ring

theorem triangle_surface {S : Surface ℝ} {t : Tri3 ℝ}
    (hat : ∀ u v, S.at u v = some ((1 - v) • ((1 - u) • t.p1 + u • t.p2) + v • ((1 - u) • t.p3 + u • t.p3)))
    (hu : S.closedU = false) (hv : S.closedV = false) {n : Nat} (hn : 0 < n) :
    ((surfaceSoup S n n).map Tri3.surface).sum = t.surface := by
  have hn0 : (n : ℝ) ≠ 0 := by exact_mod_cast hn.ne'
  have hpos : (0 : ℝ) < n := by exact_mod_cast hn
  have hpl : ∀ i j : Nat, samplePos S n n (i, j) = (1 - (j : ℝ) / n) • ((1 - (i : ℝ) / n) • t.p1 + ((i : ℝ) / n) • t.p2) +
      ((j : ℝ) / n) • t.p3 := by
    intro i j
    rw [samplePos_at, hat, Option.getD_some]
    generalize (i : ℝ) / n = u
    generalize (j : ℝ) / n = v
    module
  rw [sum_surfaceSoup_open hu hv]
  have key : ∀ j ∈ Finset.range n, ∑ i ∈ Finset.range n,
      ((⟨samplePos S n n (i, j), samplePos S n n ((i + 1 : Nat), j), samplePos S n n ((i + 1 : Nat), (j + 1 : Nat))⟩ : Tri3 ℝ).surface +
       (⟨samplePos S n n ((i + 1 : Nat), (j + 1 : Nat)), samplePos S n n (i, (j + 1 : Nat)), samplePos S n n (i, j)⟩ : Tri3 ℝ).surface) =
      ((1 - (j : ℝ) / n) ^ 2 - (1 - ((j + 1 : Nat) : ℝ) / n) ^ 2) * t.surface := by
    intro j hj
    have hj := Finset.mem_range.1 hj
    have a1 : 0 ≤ 1 - (j : ℝ) / n := by
      rw [sub_nonneg, div_le_one hpos]; exact_mod_cast hj.le
    have a2 : 0 ≤ 1 - ((j + 1 : Nat) : ℝ) / n := by
      rw [sub_nonneg, div_le_one hpos]; exact_mod_cast hj
    have b : ∀ i ∈ Finset.range n,
      ((⟨samplePos S n n (i, j), samplePos S n n ((i + 1 : Nat), j), samplePos S n n ((i + 1 : Nat), (j + 1 : Nat))⟩ : Tri3 ℝ).surface +
       (⟨samplePos S n n ((i + 1 : Nat), (j + 1 : Nat)), samplePos S n n (i, (j + 1 : Nat)), samplePos S n n (i, j)⟩ : Tri3 ℝ).surface) =
       ((1 - (j : ℝ) / n) + (1 - ((j + 1 : Nat) : ℝ) / n)) / (n * n) * t.surface := by
      intro i _
      have o1 : (⟨samplePos S n n (i, j), samplePos S n n ((i + 1 : Nat), j), samplePos S n n ((i + 1 : Nat), (j + 1 : Nat))⟩ :
          Tri3 ℝ).orthogonal = ((1 - (j : ℝ) / n) / (n * n)) • t.orthogonal := by
        simp only [hpl, Tri3.orthogonal]
        push_cast
        ext <;> simp [P3.cross] <;> field_simp <;> ring
      have o2 : (⟨samplePos S n n ((i + 1 : Nat), (j + 1 : Nat)), samplePos S n n (i, (j + 1 : Nat)), samplePos S n n (i, j)⟩ :
          Tri3 ℝ).orthogonal = ((1 - ((j + 1 : Nat) : ℝ) / n) / (n * n)) • t.orthogonal := by
        simp only [hpl, Tri3.orthogonal]
        push_cast
        ext <;> simp [P3.cross] <;> field_simp <;> ring
      unfold Tri3.surface
      rw [o1, o2, norm_scale, norm_scale, abs_of_nonneg (div_nonneg a1 (by positivity)), abs_of_nonneg (div_nonneg a2 (by positivity))]
      ring
    rw [Finset.sum_congr rfl b, Finset.sum_const, Finset.card_range, nsmul_eq_mul]
    push_cast
    field_simp
    ring
  rw [Finset.sum_congr rfl key, ← Finset.sum_mul, Finset.sum_range_sub' (fun j : Nat => (1 - (j : ℝ) / n) ^ 2)]
  simp [hn0]

/-- C91: the area does not change either. -/
theorem from_mesh_to_mesh_surface {tol : ℝ} {m : Mesh ℝ} (hm : m.OK)
    (hl : ∀ i : Nat, (i : Int) < m.nbTriangles → m.isTriangleUnlinked i = some false)
    (hs : ∀ t ∈ m.triangles, tol * tol ≤ (t.p1 - t.p2).normSq) {k : Nat} (hk : 0 < k) (M : Mesh ℝ) :
    ∃ B m', createFromMesh tol m = some B ∧ toMeshSolid B M k = some m' ∧ Measure.surface m' = Measure.surface m := by
  obtain ⟨B, m', e, e', hok, hB, hT⟩ := from_mesh_core hm hl hs hk M
  have hn : 0 < k * 2 := by omega
  refine ⟨B, m', e, e', ?_⟩
  rw [surface_is_sum m' hok, surface_is_sum m hm, hT]
  congr 1
  revert hs
  generalize m.triangles = ts at hB
  clear hT e e'
  intro hs
  induction hB with
  | nil => rfl
  | @cons t S ts B hS _ ih =>
    obtain ⟨-, h2, h3, h4, -⟩ := triangle_full (hs t (by simp)) hS
    rw [List.flatMap_cons, List.map_append, List.sum_append, List.map_cons, List.sum_cons, ih (fun t ht => hs t (by simp [ht])),
      triangle_surface h2 h3 h4 hn]

/-- two triangles with opposite orientation on the corners `(0,0,0)`, `(x,0,0)`, `(0,1,0)` -/
def pillow (x : ℚ) : Res (Mesh ℚ) := do
  let (m, _) := (Mesh.new : Mesh ℚ).addVertex ⟨0, 0, 0⟩
  let (m, _) := m.addVertex ⟨x, 0, 0⟩
  let (m, _) := m.addVertex ⟨0, 1, 0⟩
  let (m, _) ← m.addTriangle 0 1 2
  let (m, _) ← m.addTriangle 0 2 1
  return m

/-- the hypotheses of C91 hold for a closed mesh -/
example : ∃ m, pillow 1 = some m ∧ m.triangles.length = 2 ∧ ClosedSoup m.triangles ∧
    (∀ i < 2, m.isTriangleUnlinked (i : Nat) = some false) ∧
    (∀ t ∈ m.triangles, (1 / 1000000 * (1 / 1000000) : ℚ) ≤ (t.p1 - t.p2).normSq) := by
  refine ⟨(pillow 1).getD Mesh.new, ?_, ?_, ?_, ?_, ?_⟩ <;> decide +kernel

/-- C91, the negation for small triangles: when the first side of a triangle is shorter than
the tolerance, the way there and back opens a closed mesh. -/
theorem from_small_mesh_open : ∃ m B m', pillow (1 / 2000000) = some m ∧ ClosedSoup m.triangles ∧
    createFromMesh (1 / 1000000) m = some B ∧ toMeshSolid B Mesh.new 1 = some m' ∧ ¬ ClosedSoup m'.triangles := by
  refine ⟨(pillow (1 / 2000000)).getD Mesh.new, (createFromMesh (1 / 1000000) ((pillow (1 / 2000000)).getD Mesh.new)).getD [],
    (toMeshSolid ((createFromMesh (1 / 1000000) ((pillow (1 / 2000000)).getD Mesh.new)).getD []) Mesh.new 1).getD Mesh.new,
    ?_, ?_, ?_, ?_, ?_⟩ <;> decide +kernel

end Nurbs
end CAD
