import Verif.Props.FactoryRounded
import Verif.Props.Volumes

/-! C124, C125: the solids of `MeshFactory` and their measurements in `double`. -/

namespace CAD

namespace Nurbs
open Rounded

/-! ### Moving the vertices a little -/

theorem det_sub_le {R δ : ℝ} {a b c a' b' c' : P3 ℝ} (ha : a.norm ≤ R) (hb : b.norm ≤ R) (hb' : b'.norm ≤ R) (hc' : c'.norm ≤ R)
    (da : (a' - a).norm ≤ δ) (db : (b' - b).norm ≤ δ) (dc : (c' - c).norm ≤ δ) :
    |det3 a' b' c' - det3 a b c| ≤ 3 * R ^ 2 * δ := by
  have R0 : 0 ≤ R := (P3.norm_nonneg _).trans ha
  have d0 : 0 ≤ δ := (P3.norm_nonneg _).trans da
  have bound : ∀ {p q r : P3 ℝ} {A B D : ℝ}, p.norm ≤ A → q.norm ≤ B → r.norm ≤ D → |det3 p q r| ≤ A * (B * D) := by
    intro p q r A B D hp hq hr
    have e : det3 p q r = p.dot (q.cross r) := by simp only [det3, P3.dot, P3.cross]; ring
    rw [e]
    have A0 := (P3.norm_nonneg p).trans hp
    have B0 := (P3.norm_nonneg q).trans hq
    exact (dot_le _ _).2.trans (mul_le_mul hp ((cross_norm_le q r).trans (mul_le_mul hq hr (P3.norm_nonneg _) B0)) (P3.norm_nonneg _) A0)
  have e : det3 a' b' c' - det3 a b c = det3 (a' - a) b' c' + (det3 a (b' - b) c' + det3 a b (c' - c)) := by
    simp only [det3, P3.sub_x, P3.sub_y, P3.sub_z]; ring
  rw [e]
  have h1 := bound da hb' hc'
  have h2 := bound ha db hc'
  have h3 := bound ha hb dc
  have t1 := abs_add_le (det3 (a' - a) b' c') (det3 a (b' - b) c' + det3 a b (c' - c))
  have t2 := abs_add_le (det3 a (b' - b) c') (det3 a b (c' - c))
  nlinarith

theorem area_sub_le {R δ : ℝ} {t t' : Tri3 ℝ} (h : Inside R t) (h' : Inside R t') (d1 : (t'.p1 - t.p1).norm ≤ δ)
    (d2 : (t'.p2 - t.p2).norm ≤ δ) (d3 : (t'.p3 - t.p3).norm ≤ δ) : |t'.surface - t.surface| ≤ 3 * R * δ := by
  have R0 : 0 ≤ R := (P3.norm_nonneg _).trans h.p1
  have e0 : 0 ≤ δ := (P3.norm_nonneg _).trans d1
  have bound : ∀ {a b a' b' : P3 ℝ}, a.norm ≤ R → b'.norm ≤ R → (a' - a).norm ≤ δ → (b' - b).norm ≤ δ →
      (a'.cross b' - a.cross b).norm ≤ 2 * R * δ := by
    intro a b a' b' ha hb' da db
    have e : a'.cross b' - a.cross b = (a' - a).cross b' + a.cross (b' - b) := by
      ext <;> simp [P3.cross] <;> ring
    rw [e]
    have := Rounded.norm_add_le ((a' - a).cross b') (a.cross (b' - b))
    have h1 := (cross_norm_le (a' - a) b').trans (mul_le_mul da hb' (P3.norm_nonneg _) e0)
    have h2 := (cross_norm_le a (b' - b)).trans (mul_le_mul ha db (P3.norm_nonneg _) R0)
    linarith
  have e : t'.orthogonal - t.orthogonal = (t'.p1.cross t'.p2 - t.p1.cross t.p2) +
      ((t'.p2.cross t'.p3 - t.p2.cross t.p3) + (t'.p3.cross t'.p1 - t.p3.cross t.p1)) := by
    ext <;> simp [Tri3.orthogonal, P3.cross] <;> ring
  have n : (t'.orthogonal - t.orthogonal).norm ≤ 6 * R * δ := by
    rw [e]
    have a1 := Rounded.norm_add_le (t'.p1.cross t'.p2 - t.p1.cross t.p2) ((t'.p2.cross t'.p3 - t.p2.cross t.p3) + (t'.p3.cross t'.p1 - t.p3.cross t.p1))
    have a2 := Rounded.norm_add_le (t'.p2.cross t'.p3 - t.p2.cross t.p3) (t'.p3.cross t'.p1 - t.p3.cross t.p1)
    have b1 := bound h.p1 h'.p2 d1 d2
    have b2 := bound h.p2 h'.p3 d2 d3
    have b3 := bound h.p3 h'.p1 d3 d1
    linarith
  have up : t'.orthogonal.norm ≤ t.orthogonal.norm + (t'.orthogonal - t.orthogonal).norm := by
    have := Rounded.norm_add_le t.orthogonal (t'.orthogonal - t.orthogonal)
    rwa [show t.orthogonal + (t'.orthogonal - t.orthogonal) = t'.orthogonal by ext <;> simp] at this
  have down : t.orthogonal.norm ≤ t'.orthogonal.norm + (t'.orthogonal - t.orthogonal).norm := by
    have := Rounded.norm_sub_le t'.orthogonal (t'.orthogonal - t.orthogonal)
    rwa [show t'.orthogonal - (t'.orthogonal - t.orthogonal) = t.orthogonal by ext <;> simp] at this
  unfold Tri3.surface
  rw [abs_le]
  constructor <;> linarith

theorem sum_sub_le {T : Type} (l : List T) (f g : T → ℝ) {e : ℝ} (h : ∀ t ∈ l, |g t - f t| ≤ e) :
    |(l.map g).sum - (l.map f).sum| ≤ l.length * e := by
  induction l with
  | nil => simp
  | cons t l ih =>
    have a := h t (by simp)
    have b := ih fun x hx => h x (by simp [hx])
    simp only [List.map_cons, List.sum_cons, List.length_cons]
    have := abs_add_le (g t - f t) ((l.map g).sum - (l.map f).sum)
    rw [show g t + (l.map g).sum - (f t + (l.map f).sum) = g t - f t + ((l.map g).sum - (l.map f).sum) by ring]
    push_cast
    linarith

/-- the triangles of a mesh are inside the ball of radius `R` -/
def InBall (R : ℝ) (m : Mesh ℝ) : Prop := ∀ t ∈ m.triangles, Inside R t

theorem InBall.of {R : ℝ} {m : Mesh ℝ} (h : ∀ i p, m.getVertex i = some p → p.norm ≤ R) (hm : m.OK) : InBall R m := by
  obtain ⟨a, b⟩ := MeshUtil.triangles_pos hm
  unfold InBall
  rw [a]
  intro t ht
  obtain ⟨f, hf, rfl⟩ := List.mem_map.1 ht
  obtain ⟨b1, b2, b3⟩ := b f hf
  exact ⟨h _ _ b1, h _ _ b2, h _ _ b3⟩

theorem InBall.mono {R R' : ℝ} {m : Mesh ℝ} (h : InBall R m) (hR : R ≤ R') : InBall R' m :=
  fun t ht => ⟨(h t ht).1.trans hR, (h t ht).2.trans hR, (h t ht).3.trans hR⟩

theorem near_norm {R d : ℝ} {A B : Mesh ℝ} (n : MeshNear d A B) {i : Int} {p q : P3 ℝ} (hp : A.getVertex i = some p) (hq : B.getVertex i = some q)
    (h : p.norm ≤ R) : q.norm ≤ R + 2 * d := by
  obtain ⟨q', hq', hn⟩ := n.vertex i p hp
  rw [hq, Option.some.injEq] at hq'
  subst hq'
  have := Rounded.norm_add_le p (q - p)
  rw [show p + (q - p) = q by ext <;> simp] at this
  have := hn.norm
  linarith

theorem InBall.near {R d : ℝ} {A B : Mesh ℝ} (h : InBall R A) (n : MeshNear d A B) (hA : A.OK) (hB : B.OK) : InBall (R + 2 * d) B := by
  obtain ⟨a1, a2⟩ := MeshUtil.triangles_pos hA
  obtain ⟨b1, b2⟩ := MeshUtil.triangles_pos hB
  have c := n.cornerList
  unfold InBall
  rw [b1]
  intro t ht
  obtain ⟨f, hf, rfl⟩ := List.mem_map.1 ht
  obtain ⟨q1, q2, q3⟩ := b2 f hf
  rw [c] at hf
  obtain ⟨p1, p2, p3⟩ := a2 f hf
  have i := h _ (by rw [a1]; exact List.mem_map_of_mem hf)
  exact ⟨near_norm n p1 q1 i.1, near_norm n p2 q2 i.2, near_norm n p3 q3 i.3⟩

/-- volume and surface of two meshes with the same triangles and vertices `d` apart -/
theorem measures_near {R d : ℝ} {A B : Mesh ℝ} (hA : A.OK) (hB : B.OK) (n : MeshNear d A B) (iA : InBall R A) (iB : InBall R B) :
    ∃ V V' S S', Measure.volume A = some V ∧ Measure.volume B = some V' ∧ Measure.surface A = some S ∧ Measure.surface B = some S' ∧
      |V' - V| ≤ A.triangles.length * (R ^ 2 * d) ∧ |S' - S| ≤ A.triangles.length * (6 * R * d) ∧ B.triangles.length = A.triangles.length := by
  obtain ⟨a1, a2⟩ := MeshUtil.triangles_pos hA
  obtain ⟨b1, b2⟩ := MeshUtil.triangles_pos hB
  have c := n.cornerList
  refine ⟨_, _, _, _, measures_are_sums A hA, measures_are_sums B hB, surface_is_sum A hA, surface_is_sum B hB, ?_, ?_, ?_⟩
  rotate_left 2
  · rw [a1, b1, c, List.length_map, List.length_map]
  all_goals
    have near : ∀ i p q, A.getVertex i = some p → B.getVertex i = some q → (q - p).norm ≤ 2 * d := by
      intro i p q hp hq
      obtain ⟨q', hq', hn⟩ := n.vertex i p hp
      rw [hq, Option.some.injEq] at hq'
      subst hq'
      exact hn.norm
  · rw [← sub_div, abs_div, abs_of_pos (show (0 : ℝ) < 6 by norm_num), div_le_iff₀ (by norm_num), a1, b1, c, List.map_map, List.map_map, List.length_map]
    refine (sum_sub_le A.cornerList _ _ (e := 3 * R ^ 2 * (2 * d)) fun f hf => ?_).trans (le_of_eq (by ring))
    obtain ⟨p1, p2, p3⟩ := a2 f hf
    obtain ⟨q1, q2, q3⟩ := b2 f (by rw [c]; exact hf)
    have jA := iA _ (by rw [a1]; exact List.mem_map_of_mem hf)
    have jB := iB _ (by rw [b1, c]; exact List.mem_map_of_mem hf)
    exact det_sub_le jA.1 jA.2 jB.2 jB.3 (near _ _ _ p1 q1) (near _ _ _ p2 q2) (near _ _ _ p3 q3)
  · rw [a1, b1, c, List.map_map, List.map_map, List.length_map]
    refine (sum_sub_le A.cornerList _ _ (e := 3 * R * (2 * d)) fun f hf => ?_).trans (le_of_eq (by ring))
    obtain ⟨p1, p2, p3⟩ := a2 f hf
    obtain ⟨q1, q2, q3⟩ := b2 f (by rw [c]; exact hf)
    have jA := iA _ (by rw [a1]; exact List.mem_map_of_mem hf)
    have jB := iB _ (by rw [b1, c]; exact List.mem_map_of_mem hf)
    exact area_sub_le jA jB (near _ _ _ p1 q1) (near _ _ _ p2 q2) (near _ _ _ p3 q3)

/-- what `volume`, `surface` and `is_oriented_outside` say in `double` about a mesh with rounded
vertices, compared with the exact mesh -/
theorem measured_double {R d : ℝ} {A B : Mesh ℝ} (hA : A.OK) (hB : B.OK) (n : MeshNear d A B) (iA : InBall R A) (iB : InBall R B)
    (hR : 1 ≤ R) (hR' : R ≤ 2 ^ 200) (hN : A.triangles.length ≤ 2 ^ 40) :
    ∃ V W S T, Measure.volume A = some V ∧ Rounded.volume double B = some W ∧ Measure.surface A = some S ∧ Rounded.surface double B = some T ∧
      |W - V| ≤ (A.triangles.length + 60) * A.triangles.length * R ^ 3 * 2 ^ (-53 : ℤ) + A.triangles.length * (R ^ 2 * d) ∧
      |T - S| ≤ 5 * (A.triangles.length + 20) * A.triangles.length * R ^ 2 * 2 ^ (-53 : ℤ) + A.triangles.length * (6 * R * d) ∧
      ((A.triangles.length + 60) * A.triangles.length * R ^ 3 * 2 ^ (-53 : ℤ) + A.triangles.length * (R ^ 2 * d) ≤ V →
        Rounded.isOrientedOutside double B = some true) := by
  obtain ⟨V, V', S, S', h1, h2, h3, h4, h5, h6, h7⟩ := measures_near hA hB n iA iB
  obtain ⟨V'', W, S'', T, k1, k2, k3, k4, k5, k6, k7, -⟩ := measures_double B hB hR hR' (iB) (by rw [h7]; exact hN)
  rw [h2, Option.some.injEq] at k1
  rw [h4, Option.some.injEq] at k3
  subst k1 k3
  rw [h7] at k5 k6 k7
  refine ⟨V, W, S, T, h1, k2, h3, k4, ?_, ?_, fun hV => k7 ?_⟩
  · have := abs_sub_le W V' V; linarith
  · have := abs_sub_le T S' S; linarith
  · have := (abs_le.1 h5).1; linarith

/-- the same for a mesh of short edges -/
theorem measured_fine {R d e E : ℝ} {A B : Mesh ℝ} (hA : A.OK) (hB : B.OK) (n : MeshNear d A B) (iA : InBall R A) (iB : InBall R B)
    (edge : ∀ t ∈ A.triangles, (t.p1 - t.p2).norm ≤ e ∧ (t.p1 - t.p3).norm ≤ e) (hE : e + 4 * d ≤ E) (hE' : 2 ^ (-200 : ℤ) ≤ E)
    (hR : 1 ≤ R) (hR' : R ≤ 2 ^ 200) (hN : A.triangles.length ≤ 2 ^ 40) :
    ∃ V W S T, Measure.volume A = some V ∧ Rounded.volume double B = some W ∧ Measure.surface A = some S ∧ Rounded.surface double B = some T ∧
      |W - V| ≤ 0.21 * (A.triangles.length + 60) * A.triangles.length * (R * E ^ 2) * 2 ^ (-53 : ℤ) + A.triangles.length * (R ^ 2 * d) ∧
      |T - S| ≤ 1.01 * (A.triangles.length + 20) * A.triangles.length * E ^ 2 * 2 ^ (-53 : ℤ) + A.triangles.length * (6 * R * d) ∧
      (0.21 * (A.triangles.length + 60) * A.triangles.length * (R * E ^ 2) * 2 ^ (-53 : ℤ) + A.triangles.length * (R ^ 2 * d) ≤ V →
        Rounded.isOrientedOutside double B = some true) := by
  obtain ⟨V, V', S, S', h1, h2, h3, h4, h5, h6, h7⟩ := measures_near hA hB n iA iB
  have H := measureOK_double
  have R0 : 0 ≤ R := by linarith
  have E0 : 0 < E := lt_of_lt_of_le (by positivity) hE'
  have edgeB : ∀ t ∈ B.triangles, (t.p1 - t.p2).norm ≤ E ∧ (t.p1 - t.p3).norm ≤ E := by
    obtain ⟨a1, a2⟩ := MeshUtil.triangles_pos hA
    obtain ⟨b1, b2⟩ := MeshUtil.triangles_pos hB
    have c := n.cornerList
    rw [b1]
    intro t ht
    obtain ⟨f, hf, rfl⟩ := List.mem_map.1 ht
    obtain ⟨q1, q2, q3⟩ := b2 f hf
    rw [c] at hf
    obtain ⟨p1, p2, p3⟩ := a2 f hf
    have ed := edge _ (by rw [a1]; exact List.mem_map_of_mem hf)
    have near : ∀ {i j p p' q q'}, A.getVertex i = some p → B.getVertex i = some p' → A.getVertex j = some q → B.getVertex j = some q' →
        (p - q).norm ≤ e → (p' - q').norm ≤ E := by
      intro i j p p' q q' hp hp' hq hq' h
      obtain ⟨p'', e1, n1⟩ := n.vertex i p hp
      obtain ⟨q'', e2, n2⟩ := n.vertex j q hq
      rw [hp', Option.some.injEq] at e1
      rw [hq', Option.some.injEq] at e2
      subst e1 e2
      have t1 := Rounded.norm_add_le (p - q) ((p' - p) - (q' - q))
      rw [show (p - q) + ((p' - p) - (q' - q)) = p' - q' by ext <;> simp <;> ring] at t1
      have t2 := Rounded.norm_sub_le (p' - p) (q' - q)
      have := n1.norm
      have := n2.norm
      linarith
    exact ⟨near p1 q1 p2 q2 ed.1, near p1 q1 p3 q3 ed.2⟩
  have n1 : (A.triangles.length : ℝ) ≤ 2 ^ 40 := by exact_mod_cast hN
  have n0 : (0 : ℝ) ≤ A.triangles.length := Nat.cast_nonneg _
  have q : (A.triangles.length : ℝ) * 2 ^ (-53 : ℤ) ≤ 1 / 1000 := by
    refine (mul_le_mul_of_nonneg_right n1 (by positivity)).trans ?_
    norm_num
  have o3 : (10 * A.triangles.length + 10) * R ^ 3 ≤ (2 : ℝ) ^ (1023 : ℤ) := by
    refine (mul_le_mul (show (10 * (A.triangles.length : ℝ) + 10) ≤ 2 ^ (50 : ℤ) by norm_num at n1 ⊢; linarith)
      (pow_le_pow_left₀ R0 hR' 3) (by positivity) (by positivity)).trans ?_
    rw [← pow_mul, ← zpow_natCast, ← zpow_add₀ (by norm_num)]
    exact zpow_le_zpow_right₀ (by norm_num) (by norm_num)
  have o4 : (10 * A.triangles.length + 100) * R ^ 4 ≤ (2 : ℝ) ^ (1023 : ℤ) := by
    refine (mul_le_mul (show (10 * (A.triangles.length : ℝ) + 100) ≤ 2 ^ (50 : ℤ) by norm_num at n1 ⊢; linarith)
      (pow_le_pow_left₀ R0 hR' 4) (by positivity) (by positivity)).trans ?_
    rw [← pow_mul, ← zpow_natCast, ← zpow_add₀ (by norm_num)]
    exact zpow_le_zpow_right₀ (by norm_num) (by norm_num)
  rw [← h7] at q o3 o4
  obtain ⟨V'', W, k1, k2, k3⟩ := Rounded.volume_rounded H B hB hR (iB) q o3
  obtain ⟨S'', T, l1, l2, l3⟩ := Rounded.surface_rounded H B hB hR (iB) q o4
  rw [h2, Option.some.injEq] at k1
  rw [h4, Option.some.injEq] at l1
  subst k1 l1
  have hh : (2 : ℝ) ^ (-242 : ℤ) ≤ E / 1000 := by
    have : (2 : ℝ) ^ (-242 : ℤ) ≤ 2 ^ (-200 : ℤ) / 1000 := by
      rw [le_div_iff₀ (by norm_num)]
      refine (mul_le_mul_of_nonneg_left (show (1000 : ℝ) ≤ 2 ^ (42 : ℤ) by norm_num) (by positivity)).trans ?_
      rw [← zpow_add₀ (by norm_num)]
      norm_num
    exact this.trans (div_le_div_of_nonneg_right hE' (by norm_num))
  have hR1 : (2 : ℝ) ^ (-242 : ℤ) ≤ R / 1000 := by
    have : (2 : ℝ) ^ (-242 : ℤ) ≤ 2 ^ (-10 : ℤ) * (1 / 1) := by
      rw [div_one, mul_one]; exact zpow_le_zpow_right₀ (by norm_num) (by norm_num)
    have e : (2 : ℝ) ^ (-10 : ℤ) = 1 / 1024 := by norm_num
    rw [e] at this
    linarith
  have p0 : (0 : ℝ) < 2 ^ (-242 : ℤ) := by positivity
  generalize (2 : ℝ) ^ (-242 : ℤ) = h at *
  have sideB : ∀ t ∈ B.triangles, sides h t ≤ 1.0021 * E ^ 2 := by
    intro t ht
    obtain ⟨e1, e2⟩ := edgeB t ht
    unfold sides
    have a := P3.norm_nonneg (t.p1 - t.p2)
    have b := P3.norm_nonneg (t.p1 - t.p3)
    refine (mul_le_mul (show _ ≤ 1.001 * E by linarith) (show _ ≤ 1.001 * E by linarith) (by linarith) (by positivity)).trans ?_
    nlinarith [sq_nonneg E]
  have reachB : ∀ t ∈ B.triangles, reach h t ≤ 1.0032 * (R * E ^ 2) := by
    intro t ht
    have i1 := (iB t ht).p1
    have a := P3.norm_nonneg t.p1
    have s0 : 0 ≤ sides h t := by
      unfold sides
      have := P3.norm_nonneg (t.p1 - t.p2)
      have := P3.norm_nonneg (t.p1 - t.p3)
      positivity
    unfold reach
    refine (mul_le_mul (show _ ≤ 1.001 * R by linarith) (sideB t ht) s0 (by positivity)).trans ?_
    have : 0 ≤ R * E ^ 2 := by positivity
    nlinarith
  have w3 := sum_le_of_le B.triangles (reach h) reachB
  have w2 := sum_le_of_le B.triangles (sides h) sideB
  rw [h7] at w2 w3 k3 l3
  have v0 : (0 : ℝ) < 2 ^ (-53 : ℤ) := by positivity
  clear o3 o4 q n1 hR' hN hE'
  generalize (2 : ℝ) ^ (-53 : ℤ) = v at *
  generalize (A.triangles.length : ℝ) = N at *
  have g : |W - V'| ≤ 0.21 * (N + 60) * N * (R * E ^ 2) * v := by
    refine k3.trans ?_
    have m := mul_le_mul_of_nonneg_left w3 (show 0 ≤ (N + 60) * v by positivity)
    have : 0 ≤ (N + 60) * N * (R * E ^ 2) * v := by positivity
    linarith
  have g' : |T - S'| ≤ 1.01 * (N + 20) * N * E ^ 2 * v := by
    refine l3.trans ?_
    have m := mul_le_mul_of_nonneg_left w2 (show 0 ≤ (N + 20) * v by positivity)
    have : 0 ≤ (N + 20) * N * E ^ 2 * v := by positivity
    linarith
  refine ⟨V, W, S, T, h1, k2, h3, l2, ?_, ?_, fun hV => ?_⟩
  · have := abs_sub_le W V' V; linarith
  · have := abs_sub_le T S' S; linarith
  · have a := (abs_le.1 h5).1
    have b := (abs_le.1 g).1
    have : 0 ≤ W := by linarith
    simp [isOrientedOutside, k2, this]

end Nurbs
end CAD
