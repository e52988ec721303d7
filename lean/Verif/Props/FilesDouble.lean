import Verif.Model.FilesDouble
import Verif.Props.FactoryMeasured
import Verif.Props.Float32
import Verif.Props.Decimal
import Verif.Props.GeometryRounded

/-! C127: volume and area of a mesh that went through a file. -/

namespace CAD
open Rounded Nurbs

/-- the numbers a `double` variable can hold, without the upper end of the range -/
def IsDouble (x : ℝ) : Prop := Representable 53 (-1074) x

theorem ratOf_eq {x : ℝ} (h : IsDouble x) : (ratOf x : ℝ) = x := by
  obtain ⟨m, e, -, -, h⟩ := h
  have : ∃ q : ℚ, (q : ℝ) = x := ⟨(m : ℚ) * 2 ^ e, by rw [h]; push_cast; rfl⟩
  unfold ratOf
  rw [dif_pos this]
  exact this.choose_spec

/-- a point whose coordinates moved by a fraction `ε` of themselves and `η` -/
theorem moved_norm {ε η : ℝ} (hε : 0 ≤ ε) (hη : 0 ≤ η) {p q : P3 ℝ} (hx : |q.x - p.x| ≤ ε * |p.x| + η) (hy : |q.y - p.y| ≤ ε * |p.y| + η)
    (hz : |q.z - p.z| ≤ ε * |p.z| + η) : (q - p).norm ≤ ε * p.norm + 2 * η := by
  have mono : ∀ {a b : P3 ℝ}, |a.x| ≤ b.x → |a.y| ≤ b.y → |a.z| ≤ b.z → a.norm ≤ b.norm := by
    intro a b h1 h2 h3
    refine Real.sqrt_le_sqrt ?_
    have := mul_self_le_mul_self (abs_nonneg _) h1
    have := mul_self_le_mul_self (abs_nonneg _) h2
    have := mul_self_le_mul_self (abs_nonneg _) h3
    rw [abs_mul_abs_self] at *
    linarith
  have h := mono (a := q - p) (b := ε • ⟨|p.x|, |p.y|, |p.z|⟩ + ⟨η, η, η⟩) (by simpa using hx) (by simpa using hy) (by simpa using hz)
  have h1 := Rounded.norm_add_le (ε • (⟨|p.x|, |p.y|, |p.z|⟩ : P3 ℝ)) ⟨η, η, η⟩
  have h2 : (ε • (⟨|p.x|, |p.y|, |p.z|⟩ : P3 ℝ)).norm = ε * p.norm := by
    rw [P3.norm_smul, abs_of_nonneg hε]
    congr 1
    unfold P3.norm
    simp only [abs_mul_abs_self]
  have h3 : (⟨η, η, η⟩ : P3 ℝ).norm ≤ 2 * η := by
    unfold P3.norm
    refine Real.sqrt_le_iff.2 ⟨by linarith, ?_⟩
    simp only
    nlinarith
  linarith

/-- volume and surface of meshes with the same list of triangles, moved by `f` -/
theorem measures_moved {R δ : ℝ} {A B : Mesh ℝ} (hA : A.OK) (hB : B.OK) (iA : InBall R A) (f : P3 ℝ → P3 ℝ)
    (e : B.triangles = A.triangles.map (Tri3.map f)) (h : ∀ t ∈ A.triangles, ∀ p ∈ [t.p1, t.p2, t.p3], (f p - p).norm ≤ δ) (hδ : 0 ≤ δ) :
    ∃ V V' S S', Measure.volume A = some V ∧ Measure.volume B = some V' ∧ Measure.surface A = some S ∧ Measure.surface B = some S' ∧
      |V' - V| ≤ A.triangles.length * ((R + δ) ^ 2 * δ / 2) ∧ |S' - S| ≤ A.triangles.length * (3 * (R + δ) * δ) ∧ InBall (R + δ) B := by
  have big : ∀ {p : P3 ℝ}, p.norm ≤ R → (f p - p).norm ≤ δ → (f p).norm ≤ R + δ := by
    intro p h1 h2
    have := Rounded.norm_add_le p (f p - p)
    rw [show p + (f p - p) = f p by ext <;> simp] at this
    linarith
  have iB : ∀ t ∈ A.triangles, Inside (R + δ) t ∧ Inside (R + δ) (t.map f) := by
    intro t ht
    have := h t ht
    simp only [List.mem_cons, List.not_mem_nil, or_false, forall_eq_or_imp, forall_eq] at this
    obtain ⟨d1, d2, d3⟩ := this
    have i := iA t ht
    exact ⟨⟨i.1.trans (by linarith), i.2.trans (by linarith), i.3.trans (by linarith)⟩, ⟨big i.1 d1, big i.2 d2, big i.3 d3⟩⟩
  refine ⟨_, _, _, _, measures_are_sums A hA, measures_are_sums B hB, surface_is_sum A hA, surface_is_sum B hB, ?_, ?_, ?_⟩
  · rw [← sub_div, abs_div, abs_of_pos (show (0 : ℝ) < 6 by norm_num), div_le_iff₀ (by norm_num), e, List.map_map]
    refine (sum_sub_le A.triangles _ _ (e := 3 * (R + δ) ^ 2 * δ) fun t ht => ?_).trans (le_of_eq (by ring))
    have := h t ht
    simp only [List.mem_cons, List.not_mem_nil, or_false, forall_eq_or_imp, forall_eq] at this
    obtain ⟨d1, d2, d3⟩ := this
    obtain ⟨i, j⟩ := iB t ht
    exact det_sub_le i.1 i.2 j.2 j.3 d1 d2 d3
  · rw [e, List.map_map]
    refine (sum_sub_le A.triangles _ _ (e := 3 * (R + δ) * δ) fun t ht => ?_)
    have := h t ht
    simp only [List.mem_cons, List.not_mem_nil, or_false, forall_eq_or_imp, forall_eq] at this
    obtain ⟨d1, d2, d3⟩ := this
    obtain ⟨i, j⟩ := iB t ht
    exact area_sub_le i j d1 d2 d3
  · unfold InBall
    rw [e]
    intro t ht
    obtain ⟨s, hs, rfl⟩ := List.mem_map.1 ht
    exact (iB s hs).2

/-- the same, measured in `double` after the move by at most a fraction `ε` of the size -/
theorem measured_moved {R ε : ℝ} {A B : Mesh ℝ} (hA : A.OK) (hB : B.OK) (iA : InBall R A) (hR : 1 ≤ R) (hR' : R ≤ 2 ^ 150)
    (f : P3 ℝ → P3 ℝ) (e : B.triangles = A.triangles.map (Tri3.map f))
    (h : ∀ t ∈ A.triangles, ∀ p ∈ [t.p1, t.p2, t.p3], (f p - p).norm ≤ ε * R) (hε : 0 ≤ ε) (hε' : ε ≤ 1 / 1000) (hN : A.triangles.length ≤ 2 ^ 40) :
    ∃ V W S T, Measure.volume A = some V ∧ Rounded.volume double B = some W ∧ Measure.surface A = some S ∧ Rounded.surface double B = some T ∧
      |W - V| ≤ (ε + (A.triangles.length + 60) * 2 ^ (-52 : ℤ)) * A.triangles.length * R ^ 3 ∧
      |T - S| ≤ (4 * ε + 5 * (A.triangles.length + 20) * 2 ^ (-52 : ℤ)) * A.triangles.length * R ^ 2 ∧
      ((ε + (A.triangles.length + 60) * 2 ^ (-52 : ℤ)) * A.triangles.length * R ^ 3 ≤ V → Rounded.isOrientedOutside double B = some true) ∧
      (V < -((ε + (A.triangles.length + 60) * 2 ^ (-52 : ℤ)) * A.triangles.length * R ^ 3) → Rounded.isOrientedOutside double B = some false) := by
  have R0 : 0 < R := by linarith
  obtain ⟨V, V', S, S', h1, h2, h3, h4, h5, h6, h7⟩ := measures_moved hA hB iA f e h (by positivity)
  have hlen : B.triangles.length = A.triangles.length := by rw [e, List.length_map]
  have hRε : R + ε * R ≤ 1.001 * R := by nlinarith
  have R' : 1 ≤ 1.001 * R := by linarith
  obtain ⟨V'', W, S'', T, k1, k2, k3, k4, k5, k6, k7, k8⟩ := measures_double B hB R'
    (by
      have : (2 : ℝ) ^ 200 = 2 ^ 50 * 2 ^ 150 := by rw [← pow_add]
      rw [this]
      have p : (0 : ℝ) < 2 ^ 150 := by positivity
      generalize (2 : ℝ) ^ 150 = w at *
      norm_num
      linarith)
    (h7.mono hRε) (by rw [hlen]; exact hN)
  rw [h2, Option.some.injEq] at k1
  rw [h4, Option.some.injEq] at k3
  subst k1 k3
  rw [hlen] at k5 k6 k7 k8
  have u2 : (2 : ℝ) ^ (-52 : ℤ) = 2 * 2 ^ (-53 : ℤ) := by rw [← zpow_one_add₀ (by norm_num)]; norm_num
  rw [u2]
  have u0 : (0 : ℝ) < 2 ^ (-53 : ℤ) := by positivity
  have N0 : (0 : ℝ) ≤ A.triangles.length := Nat.cast_nonneg _
  generalize (2 : ℝ) ^ (-53 : ℤ) = u at *
  generalize (A.triangles.length : ℝ) = N at *
  have a1 : N * ((R + ε * R) ^ 2 * (ε * R) / 2) ≤ ε * N * R ^ 3 := by
    have : (R + ε * R) ^ 2 ≤ (1.001 * R) ^ 2 := by gcongr
    have c : (R + ε * R) ^ 2 ≤ 2 * R ^ 2 := by nlinarith [sq_nonneg R]
    calc N * ((R + ε * R) ^ 2 * (ε * R) / 2) ≤ N * (2 * R ^ 2 * (ε * R) / 2) := by gcongr
      _ = _ := by ring
  have a2 : N * (3 * (R + ε * R) * (ε * R)) ≤ 4 * ε * N * R ^ 2 := by
    calc N * (3 * (R + ε * R) * (ε * R)) ≤ N * (3 * (1.001 * R) * (ε * R)) := by gcongr
      _ = (3.003 * ε * N * R ^ 2) := by ring
      _ ≤ _ := by gcongr; norm_num
  have b1 : (N + 60) * N * (1.001 * R) ^ 3 * u ≤ (N + 60) * (2 * u) * N * R ^ 3 := by
    calc (N + 60) * N * (1.001 * R) ^ 3 * u = 1.001 ^ 3 * ((N + 60) * u * N * R ^ 3) := by ring
      _ ≤ 2 * ((N + 60) * u * N * R ^ 3) := by
        refine mul_le_mul_of_nonneg_right (by norm_num) (by positivity)
      _ = _ := by ring
  have b2 : 5 * (N + 20) * N * (1.001 * R) ^ 2 * u ≤ 5 * (N + 20) * (2 * u) * N * R ^ 2 := by
    calc 5 * (N + 20) * N * (1.001 * R) ^ 2 * u = 1.001 ^ 2 * (5 * (N + 20) * u * N * R ^ 2) := by ring
      _ ≤ 2 * (5 * (N + 20) * u * N * R ^ 2) := by
        refine mul_le_mul_of_nonneg_right (by norm_num) (by positivity)
      _ = _ := by ring
  refine ⟨V, W, S, T, h1, k2, h3, k4, ?_, ?_, fun hV => k7 ?_, fun hV => k8 ?_⟩
  · have := abs_sub_le W V' V
    nlinarith
  · have := abs_sub_le T S' S
    nlinarith
  · have := (abs_le.1 h5).1
    nlinarith
  · have := (abs_le.1 h5).2
    nlinarith

namespace Stl

theorem through_near {x : ℝ} (h : IsDouble x) (hx : |x| ≤ 2 ^ 127) : |decD (encD x) - x| ≤ 2 ^ (-24 : ℤ) * |x| + 2 ^ (-150 : ℤ) := by
  have e := ratOf_eq h
  have hb : |ratOf x| < 2 ^ 128 - 2 ^ 103 := by
    have : ((|ratOf x| : ℚ) : ℝ) ≤ ((2 ^ 127 : ℚ) : ℝ) := by push_cast; rw [e]; exact hx
    exact lt_of_le_of_lt (Rat.cast_le.1 this) (by norm_num)
  have := F32.f32_near hb
  have h2 : ((|F32.dec (F32.enc (ratOf x)) - ratOf x| : ℚ) : ℝ) ≤ ((max (|ratOf x| * 2 ^ (-24 : ℤ)) (2 ^ (-150 : ℤ)) : ℚ) : ℝ) := Rat.cast_le.2 this
  push_cast at h2
  rw [e] at h2
  refine h2.trans (max_le ?_ ?_)
  · rw [mul_comm]
    have : (0 : ℝ) ≤ 2 ^ (-150 : ℤ) := by positivity
    linarith
  · have : (0 : ℝ) ≤ 2 ^ (-24 : ℤ) * |x| := by positivity
    linarith

/-- C127.  A mesh of `double` coordinates saved as STL and loaded by any program has, as that program
measures it in `double`, the volume and the area of the mesh before saving, up to the stated
fractions; it is found to be oriented outside exactly as before when the volume is not almost 0. -/
theorem stl_measured {m : Mesh ℝ} (hm : m.OK) (hn : 3 * m.triangles.length ≤ 2147483647) (hd : ∀ t ∈ m.triangles, ∀ x ∈ coords t, IsDouble x)
    {R : ℝ} (hR : 1 ≤ R) (hR' : R ≤ 2 ^ 127) (hb : InBall R m) :
    ∃ bytes, save encD m = some bytes ∧ ∀ m0 : Mesh ℝ, ∃ m', load decD (some bytes) m0 = some (true, m') ∧
      ∃ V W S T, Measure.volume m = some V ∧ Rounded.volume double m' = some W ∧ Measure.surface m = some S ∧ Rounded.surface double m' = some T ∧
      |W - V| ≤ (2 ^ (-23 : ℤ) + (m.triangles.length + 60) * 2 ^ (-52 : ℤ)) * m.triangles.length * R ^ 3 ∧
      |T - S| ≤ (2 ^ (-21 : ℤ) + 5 * (m.triangles.length + 20) * 2 ^ (-52 : ℤ)) * m.triangles.length * R ^ 2 ∧
      ((2 ^ (-23 : ℤ) + (m.triangles.length + 60) * 2 ^ (-52 : ℤ)) * m.triangles.length * R ^ 3 ≤ V → Rounded.isOrientedOutside double m' = some true) ∧
      (V < -((2 ^ (-23 : ℤ) + (m.triangles.length + 60) * 2 ^ (-52 : ℤ)) * m.triangles.length * R ^ 3) →
        Rounded.isOrientedOutside double m' = some false) := by
  obtain ⟨bytes, e, h⟩ := stl_roundtrip (enc := encD) (fun x => F32.length_enc _) decD hm hn
  refine ⟨bytes, e, fun m0 => ?_⟩
  obtain ⟨m', e', hok, ht, -⟩ := h m0
  refine ⟨m', e', ?_⟩
  have key : ∀ t ∈ m.triangles, ∀ p ∈ [t.p1, t.p2, t.p3], (throughFile encD decD p - p).norm ≤ 2 ^ (-23 : ℤ) * R := by
    intro t ht p hp
    have hdt := hd t ht
    have i := hb t ht
    have pd : IsDouble p.x ∧ IsDouble p.y ∧ IsDouble p.z ∧ p.norm ≤ R := by
      simp only [coords, List.mem_cons, List.not_mem_nil, or_false, forall_eq_or_imp, forall_eq] at hdt hp
      rcases hp with rfl | rfl | rfl
      · exact ⟨hdt.1, hdt.2.1, hdt.2.2.1, i.1⟩
      · exact ⟨hdt.2.2.2.1, hdt.2.2.2.2.1, hdt.2.2.2.2.2.1, i.2⟩
      · exact ⟨hdt.2.2.2.2.2.2.1, hdt.2.2.2.2.2.2.2.1, hdt.2.2.2.2.2.2.2.2, i.3⟩
    obtain ⟨dx, dy, dz, pR⟩ := pd
    have co := coords_le_norm p
    have nR := pR.trans hR'
    have := moved_norm (ε := 2 ^ (-24 : ℤ)) (η := 2 ^ (-150 : ℤ)) (by positivity) (by positivity) (p := p) (q := throughFile encD decD p)
      (through_near dx (co.1.trans nR)) (through_near dy (co.2.1.trans nR)) (through_near dz (co.2.2.trans nR))
    have e1 : (2 : ℝ) ^ (-23 : ℤ) = 2 * 2 ^ (-24 : ℤ) := by rw [← zpow_one_add₀ (by norm_num)]; norm_num
    have e2 : 2 * (2 : ℝ) ^ (-150 : ℤ) ≤ 2 ^ (-24 : ℤ) := by
      rw [← zpow_one_add₀ (by norm_num)]
      exact zpow_le_zpow_right₀ (by norm_num) (by norm_num)
    rw [e1]
    have u0 : (0 : ℝ) < 2 ^ (-24 : ℤ) := by positivity
    generalize (2 : ℝ) ^ (-24 : ℤ) = u at *
    generalize (2 : ℝ) ^ (-150 : ℤ) = w at *
    nlinarith
  have := measured_moved hm hok hb hR (hR'.trans (pow_le_pow_right₀ (by norm_num) (by norm_num))) _ ht key (by positivity)
    (by rw [show (2 : ℝ) ^ (-23 : ℤ) = 1 / 2 ^ 23 by norm_num]; norm_num) (le_trans (by omega) (show 2147483647 ≤ 2 ^ 40 by norm_num))
  rw [show (4 : ℝ) * 2 ^ (-23 : ℤ) = 2 ^ (-21 : ℤ) by norm_num] at this
  exact this

end Stl

namespace Obj

theorem codecD_reads : codecD.Reads fun x => double (roundG (ratOf x) : ℝ) := by
  constructor
  · intro x
    exact codecG_reads.ne (ratOf x)
  · intro x
    exact codecG_reads.token (ratOf x)
  · intro x r hr
    have := codecG_reads.scan (ratOf x) r hr
    simp only [codecG] at this
    simp only [codecD, this]
    rfl

theorem through_near {x : ℝ} (h : IsDouble x) (hx : |x| ≤ 2 ^ 150) :
    |double (roundG (ratOf x) : ℝ) - x| ≤ (51 / 10000000) * |x| + 2 ^ (-1075 : ℤ) := by
  have e := ratOf_eq h
  have := roundG_near (ratOf x)
  have h2 : ((|roundG (ratOf x) - ratOf x| : ℚ) : ℝ) ≤ ((|ratOf x| * (5 / 1000000) : ℚ) : ℝ) := Rat.cast_le.2 this
  push_cast at h2
  rw [e] at h2
  generalize (roundG (ratOf x) : ℝ) = y at *
  have hy : |y| ≤ |x| * (1 + 5 / 1000000) := by
    have := abs_sub_abs_le_abs_sub y x
    linarith
  have r := double_rounds.err y (by
    refine hy.trans ?_
    have : (2 : ℝ) ^ (1023 : ℤ) = 2 ^ 873 * 2 ^ 150 := by
      rw [← pow_add, ← zpow_natCast]; rfl
    rw [this]
    have p : (0 : ℝ) < 2 ^ 150 := by positivity
    have q : (2 : ℝ) ≤ 2 ^ 873 := by
      calc (2 : ℝ) = 2 ^ 1 := by norm_num
        _ ≤ _ := pow_le_pow_right₀ (by norm_num) (by norm_num)
    generalize (2 : ℝ) ^ 150 = w at *
    generalize (2 : ℝ) ^ 873 = z at *
    nlinarith)
  have t := abs_sub_le (double y) y x
  have u1 : (2 : ℝ) ^ (-53 : ℤ) ≤ 1 / 100000000 := by norm_num
  have u0 : (0 : ℝ) < 2 ^ (-53 : ℤ) := by positivity
  have x0 := abs_nonneg x
  have y0 := abs_nonneg y
  generalize (2 : ℝ) ^ (-53 : ℤ) = u at *
  generalize (2 : ℝ) ^ (-1075 : ℤ) = w at *
  nlinarith

/-- C127.  The same for OBJ files with their six digits. -/
theorem obj_measured {col : Int → List Char} (hcol : ColorOK col) {m : Mesh ℝ} (hm : m.OK) (hn : m.nbVertices ≤ 2147483647)
    (hN : m.triangles.length ≤ 2 ^ 40) (hd : ∀ i p, m.getVertex i = some p → ∀ x ∈ [p.x, p.y, p.z], IsDouble x)
    {R : ℝ} (hR : 1 ≤ R) (hR' : R ≤ 2 ^ 150) (hb : ∀ i p, m.getVertex i = some p → p.norm ≤ R) :
    ∃ text, save codecD col m = some text ∧ ∀ m0 : Mesh ℝ, ∃ m', load codecD (some text) m0 = some (true, m') ∧
      ∃ V W S T, Measure.volume m = some V ∧ Rounded.volume double m' = some W ∧ Measure.surface m = some S ∧ Rounded.surface double m' = some T ∧
      |W - V| ≤ (6 / 1000000 + (m.triangles.length + 60) * 2 ^ (-52 : ℤ)) * m.triangles.length * R ^ 3 ∧
      |T - S| ≤ (24 / 1000000 + 5 * (m.triangles.length + 20) * 2 ^ (-52 : ℤ)) * m.triangles.length * R ^ 2 ∧
      ((6 / 1000000 + (m.triangles.length + 60) * 2 ^ (-52 : ℤ)) * m.triangles.length * R ^ 3 ≤ V → Rounded.isOrientedOutside double m' = some true) ∧
      (V < -((6 / 1000000 + (m.triangles.length + 60) * 2 ^ (-52 : ℤ)) * m.triangles.length * R ^ 3) →
        Rounded.isOrientedOutside double m' = some false) := by
  obtain ⟨text, e, h⟩ := obj_roundtrip codecD_reads hcol hm hn
  refine ⟨text, e, fun m0 => ?_⟩
  obtain ⟨m', e', hok, hv, hg, hc, -⟩ := h m0
  refine ⟨m', e', ?_⟩
  obtain ⟨a1, a2⟩ := MeshUtil.triangles_pos hm
  obtain ⟨b1, b2⟩ := MeshUtil.triangles_pos hok
  set f : P3 ℝ → P3 ℝ := mapP fun x => double (roundG (ratOf x) : ℝ) with hf
  have ht : m'.triangles = m.triangles.map (Tri3.map f) := by
    rw [a1, b1, hc, List.map_map]
    apply List.map_congr_left
    intro c hcm
    obtain ⟨p1, p2, p3⟩ := a2 c hcm
    obtain ⟨q1, q2, q3⟩ := b2 c (by rw [hc]; exact hcm)
    rw [hg, p1, Option.map_some, Option.some.injEq] at q1
    rw [hg, p2, Option.map_some, Option.some.injEq] at q2
    rw [hg, p3, Option.map_some, Option.some.injEq] at q3
    simp only [Function.comp, Tri3.map]
    ext1
    · exact q1.symm
    · exact q2.symm
    · exact q3.symm
  have near : ∀ i p, m.getVertex i = some p → (f p - p).norm ≤ 6 / 1000000 * R := by
    intro i p hp
    have hdp := hd i p hp
    simp only [List.mem_cons, List.not_mem_nil, or_false, forall_eq_or_imp, forall_eq] at hdp
    obtain ⟨dx, dy, dz⟩ := hdp
    have pR := hb i p hp
    have co := coords_le_norm p
    have nR := pR.trans hR'
    have := moved_norm (ε := 51 / 10000000) (η := 2 ^ (-1075 : ℤ)) (by norm_num) (by positivity) (p := p) (q := f p)
      (through_near dx (co.1.trans nR)) (through_near dy (co.2.1.trans nR)) (through_near dz (co.2.2.trans nR))
    have e2 : (2 : ℝ) ^ (-1075 : ℤ) ≤ 1 / 10000000 := by
      calc (2 : ℝ) ^ (-1075 : ℤ) ≤ 2 ^ (-24 : ℤ) := zpow_le_zpow_right₀ (by norm_num) (by norm_num)
        _ ≤ _ := by norm_num
    generalize (2 : ℝ) ^ (-1075 : ℤ) = w at *
    nlinarith
  have key : ∀ t ∈ m.triangles, ∀ p ∈ [t.p1, t.p2, t.p3], (f p - p).norm ≤ 6 / 1000000 * R := by
    intro t htm p hp
    rw [a1] at htm
    obtain ⟨c, hcm, rfl⟩ := List.mem_map.1 htm
    obtain ⟨p1, p2, p3⟩ := a2 c hcm
    simp only [List.mem_cons, List.not_mem_nil, or_false] at hp
    rcases hp with rfl | rfl | rfl
    · exact near _ _ p1
    · exact near _ _ p2
    · exact near _ _ p3
  have := measured_moved hm hok (InBall.of hb hm) hR hR' _ ht key (by norm_num) (by norm_num) hN
  rw [show (4 : ℝ) * (6 / 1000000) = 24 / 1000000 by norm_num] at this
  exact this

end Obj

/-! ### A concrete case -/

/-- a corner of the unit cube cut off -/
private noncomputable def corner : Mesh ℝ :=
  Mesh.new.build [⟨0, 0, 0⟩, ⟨1, 0, 0⟩, ⟨0, 1, 0⟩, ⟨0, 0, 1⟩] [(0, 2, 1), (0, 1, 3), (0, 3, 2), (1, 2, 3)]

private theorem corner_ok : corner.OK := Mesh.build_ok _ (by decide)

private theorem corner_triangles : corner.triangles =
    [⟨⟨0, 0, 0⟩, ⟨0, 1, 0⟩, ⟨1, 0, 0⟩⟩, ⟨⟨0, 0, 0⟩, ⟨1, 0, 0⟩, ⟨0, 0, 1⟩⟩, ⟨⟨0, 0, 0⟩, ⟨0, 0, 1⟩, ⟨0, 1, 0⟩⟩,
      ⟨⟨1, 0, 0⟩, ⟨0, 1, 0⟩, ⟨0, 0, 1⟩⟩] := by
  unfold corner
  rw [Factory.build_soup]
  simp [AMesh.tri, getI]

private theorem corner_vertex {i p} (h : corner.getVertex i = some p) :
    p = ⟨0, 0, 0⟩ ∨ p = ⟨1, 0, 0⟩ ∨ p = ⟨0, 1, 0⟩ ∨ p = ⟨0, 0, 1⟩ := by
  unfold corner at h
  rw [Mesh.build_getVertex] at h
  obtain ⟨k, -, hk⟩ := getI_eq_some_iff.1 h
  have := List.mem_of_getElem? hk
  simpa using this

private theorem corner_volume : Measure.volume corner = some (1 / 6) := by
  rw [measures_are_sums corner corner_ok, corner_triangles]
  norm_num [det3]

private theorem isDouble_zero : IsDouble 0 := ⟨0, 0, by norm_num, by norm_num, by norm_num⟩
private theorem isDouble_one : IsDouble 1 := ⟨1, 0, by norm_num, by norm_num, by norm_num⟩

private theorem corner_norm {p : P3 ℝ} (h : p = ⟨0, 0, 0⟩ ∨ p = ⟨1, 0, 0⟩ ∨ p = ⟨0, 1, 0⟩ ∨ p = ⟨0, 0, 1⟩) : p.norm ≤ 1 := by
  rcases h with rfl | rfl | rfl | rfl <;> simp [P3.norm]

private theorem corner_double {p : P3 ℝ} (h : p = ⟨0, 0, 0⟩ ∨ p = ⟨1, 0, 0⟩ ∨ p = ⟨0, 1, 0⟩ ∨ p = ⟨0, 0, 1⟩) :
    ∀ x ∈ [p.x, p.y, p.z], IsDouble x := by
  intro x hx
  have : x = 0 ∨ x = 1 := by
    rcases h with rfl | rfl | rfl | rfl <;> simp at hx <;> tauto
  rcases this with rfl | rfl
  · exact isDouble_zero
  · exact isDouble_one

/-- the tetrahedron is still oriented outside after OBJ, and its volume still 1/6 -/
example : ∃ text, Obj.save Obj.codecD (fun _ => ['0']) corner = some text ∧ ∀ m0 : Mesh ℝ, ∃ m' W, Obj.load Obj.codecD (some text) m0 = some (true, m') ∧
    Rounded.volume double m' = some W ∧ |W - 1 / 6| ≤ 1 / 10000 ∧ Rounded.isOrientedOutside double m' = some true := by
  obtain ⟨text, e, h⟩ := Obj.obj_measured (col := fun _ => ['0']) (by intro n; simp) corner_ok
    (by unfold corner; rw [Mesh.build_nbVertices]; norm_num)
    (by rw [corner_triangles]; norm_num) (R := 1) (fun i p hp => corner_double (corner_vertex hp)) le_rfl (by norm_num)
    (fun i p hp => corner_norm (corner_vertex hp))
  refine ⟨text, e, fun m0 => ?_⟩
  obtain ⟨m', e', V, W, S, T, h1, h2, -, -, h5, -, h7, -⟩ := h m0
  rw [corner_volume, Option.some.injEq] at h1
  subst h1
  rw [corner_triangles] at h5 h7
  exact ⟨m', W, e', h2, h5.trans (by norm_num), h7 (by norm_num)⟩

/-- and after STL -/
example : ∃ bytes, Stl.save Stl.encD corner = some bytes ∧ ∀ m0 : Mesh ℝ, ∃ m' W, Stl.load Stl.decD (some bytes) m0 = some (true, m') ∧
    Rounded.volume double m' = some W ∧ |W - 1 / 6| ≤ 1 / 1000000 ∧ Rounded.isOrientedOutside double m' = some true := by
  obtain ⟨bytes, e, h⟩ := Stl.stl_measured corner_ok (by rw [corner_triangles]; norm_num)
    (fun t ht x hx => by
      rw [corner_triangles] at ht
      have : x = 0 ∨ x = 1 := by
        simp only [List.mem_cons, List.not_mem_nil, or_false] at ht
        rcases ht with rfl | rfl | rfl | rfl <;> simp [Stl.coords] at hx <;> tauto
      rcases this with rfl | rfl
      · exact isDouble_zero
      · exact isDouble_one) (R := 1) le_rfl (by norm_num) (InBall.of (fun i p hp => corner_norm (corner_vertex hp)) corner_ok)
  refine ⟨bytes, e, fun m0 => ?_⟩
  obtain ⟨m', e', V, W, S, T, h1, h2, -, -, h5, -, h7, -⟩ := h m0
  rw [corner_volume, Option.some.injEq] at h1
  subst h1
  rw [corner_triangles] at h5 h7
  exact ⟨m', W, e', h2, h5.trans (by norm_num), h7 (by norm_num)⟩

end CAD
