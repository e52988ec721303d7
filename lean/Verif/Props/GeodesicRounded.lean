import Verif.Lemmas.Rounding
import Verif.Lemmas.Ieee
import Verif.Props.GeodesicClosed
import Verif.Props.MergeStable

/-! C112: geodesic spheres computed in rounded arithmetic are watertight. -/

set_option linter.unusedSimpArgs false

namespace CAD

namespace Tessellate
variable {K : Type} [Field K]

/-- corresponding corners are related -/
def TriRel (R : P3 K → P3 K → Prop) (t t' : Tri3 K) : Prop := R t.p1 t'.p1 ∧ R t.p2 t'.p2 ∧ R t.p3 t'.p3

theorem forall₂_flatMap {α β γ δ : Type*} {R : α → β → Prop} {S : γ → δ → Prop} {f : α → List γ} {g : β → List δ} :
    ∀ {l : List α} {l' : List β}, List.Forall₂ R l l' → (∀ a b, R a b → List.Forall₂ S (f a) (g b)) →
      List.Forall₂ S (l.flatMap f) (l'.flatMap g)
  | _, _, .nil, _ => .nil
  | _, _, .cons h t, hS => by
    rw [List.flatMap_cons, List.flatMap_cons]
    exact List.rel_append (hS _ _ h) (forall₂_flatMap t hS)

theorem forall₂_diag {α : Type*} {R : α → α → Prop} {l : List α} (h : ∀ a ∈ l, R a a) : List.Forall₂ R l l := by
  induction l with
  | nil => exact .nil
  | cons a l ih => exact .cons (h a (by simp)) (ih fun b hb => h b (by simp [hb]))

/-- two tessellations with related points -/
theorem tessBy_rel {R : P3 K → P3 K → Prop} {I J : P3 K → P3 K → P3 K → Int → Int → Int → P3 K} {n : Int} {t t' : Tri3 K}
    (h : ∀ u v : Int, 0 ≤ u → 0 ≤ v → u + v ≤ n → R (I t.p1 t.p2 t.p3 u v n) (J t'.p1 t'.p2 t'.p3 u v n)) :
    List.Forall₂ (TriRel R) (tessBy I n t) (tessBy J n t') := by
  unfold tessBy
  refine forall₂_flatMap (forall₂_diag (R := fun a b => a = b ∧ a < n.toNat) fun s hs => ⟨rfl, List.mem_range.1 hs⟩) ?_
  rintro s _ ⟨rfl, hs⟩
  refine List.rel_append (.cons ⟨h _ _ (by omega) (by omega) (by omega), h _ _ (by omega) (by omega) (by omega),
    h _ _ (by omega) (by omega) (by omega)⟩ .nil) ?_
  refine forall₂_flatMap (forall₂_diag (R := fun a b => a = b ∧ a < s) fun j hj => ⟨rfl, List.mem_range.1 hj⟩) ?_
  rintro j _ ⟨rfl, hj⟩
  refine .cons ⟨h _ _ ?_ ?_ ?_, h _ _ ?_ ?_ ?_, h _ _ ?_ ?_ ?_⟩ (.cons ⟨h _ _ ?_ ?_ ?_, h _ _ ?_ ?_ ?_, h _ _ ?_ ?_ ?_⟩ .nil)
  all_goals omega

end Tessellate

namespace Icosa

/-- the corners of the icosahedron with another value for `τ` -/
noncomputable def vecW (t : ℝ) (v : Fin 12) : P3 ℝ :=
  ⟨(corner v).1.1 + (corner v).1.2 * t, (corner v).2.1.1 + (corner v).2.1.2 * t, (corner v).2.2.1 + (corner v).2.2.2 * t⟩

noncomputable def triW (t : ℝ) (F : Face) : Tri3 ℝ := ⟨vecW t F.1, vecW t F.2.1, vecW t F.2.2⟩

theorem corner_coef : ∀ v : Fin 12, (|(corner v).1.2| ≤ 1 ∧ |(corner v).2.1.2| ≤ 1 ∧ |(corner v).2.2.2| ≤ 1) ∧
    (|(corner v).1.1| + |(corner v).1.2| ≤ 1 ∧ |(corner v).2.1.1| + |(corner v).2.1.2| ≤ 1 ∧ |(corner v).2.2.1| + |(corner v).2.2.2| ≤ 1) := by
  decide +kernel

theorem coef_near {a b : ℤ} (hb : |b| ≤ 1) {t t' ε : ℝ} (h : |t' - t| ≤ ε) : |(a + b * t') - (a + b * t)| ≤ ε := by
  have hb' : |(b : ℝ)| ≤ 1 := by exact_mod_cast hb
  rw [show (a + b * t') - (a + b * t) = b * (t' - t) by ring, abs_mul]
  nlinarith [abs_nonneg (t' - t), abs_nonneg (b : ℝ)]

theorem coef_le {a b : ℤ} (h : |a| + |b| ≤ 1) : |(a : ℝ) + b * tau| ≤ 1 := by
  have h' : |(a : ℝ)| + |(b : ℝ)| ≤ 1 := by exact_mod_cast h
  obtain ⟨t1, t2⟩ := tau_bounds
  refine (abs_add_le _ _).trans ?_
  rw [abs_mul, abs_of_pos (by linarith : 0 < tau)]
  nlinarith [abs_nonneg (b : ℝ)]

theorem vecW_near {t ε : ℝ} (h : |t - tau| ≤ ε) (v : Fin 12) :
    |(vecW t v).x - (vec v).x| ≤ ε ∧ |(vecW t v).y - (vec v).y| ≤ ε ∧ |(vecW t v).z - (vec v).z| ≤ ε :=
  ⟨coef_near (corner_coef v).1.1 h, coef_near (corner_coef v).1.2.1 h, coef_near (corner_coef v).1.2.2 h⟩

theorem vec_le (v : Fin 12) : |(vec v).x| ≤ 1 ∧ |(vec v).y| ≤ 1 ∧ |(vec v).z| ≤ 1 :=
  ⟨coef_le (corner_coef v).2.1, coef_le (corner_coef v).2.2.1, coef_le (corner_coef v).2.2.2⟩

theorem convex_le {w f : Fin 12 → ℝ} (h0 : ∀ v, 0 ≤ w v) (h1 : ∑ v, w v = 1) (hf : ∀ v, |f v| ≤ 1) : |∑ v, w v * f v| ≤ 1 := by
  refine (Finset.abs_sum_le_sum_abs _ _).trans ?_
  rw [← h1]
  refine Finset.sum_le_sum fun v _ => ?_
  rw [abs_mul, abs_of_nonneg (h0 v)]
  nlinarith [hf v, h0 v, abs_nonneg (f v)]

theorem pt_le {n : ℤ} (hn : 1 ≤ n) {w : Wt} (h : GridW n w) : |(pt n w).x| ≤ 1 ∧ |(pt n w).y| ≤ 1 ∧ |(pt n w).z| ≤ 1 := by
  obtain ⟨F, hF, a, b⟩ := h.onFace hn
  exact ⟨convex_le a.nonneg b fun v => (vec_le v).1, convex_le a.nonneg b fun v => (vec_le v).2.1,
    convex_le a.nonneg b fun v => (vec_le v).2.2⟩

theorem pt_normSq {n : ℤ} (hn : 1 ≤ n) {w : Wt} (h : GridW n w) : 0.87 ≤ (pt n w).normSq := by
  obtain ⟨F, hF, a, b⟩ := h.onFace hn
  have := face_norm hF a.support b
  rw [tau_sq'] at this
  obtain ⟨t1, t2⟩ := tau_bounds
  change 1 ≤ 3 * (1 - tau) * (pt n w).normSq at this
  have := P3.normSq_nonneg (pt n w)
  nlinarith

end Icosa

namespace Rounded
open Mesh Icosa Factory Tessellate
variable {u η Ω r : ℝ} {n : ℤ} {fl : ℝ → ℝ}

/-- each coordinate is at most `ε` off -/
def Within (ε : ℝ) (p p' : P3 ℝ) : Prop := |p'.x - p.x| ≤ ε ∧ |p'.y - p.y| ≤ ε ∧ |p'.z - p.z| ≤ ε

/-- the points of the tessellated icosahedron -/
theorem interpolate_within (h : Unit1 u fl) (hn : 1 ≤ n) {t : ℝ} (ht : |t - tau| ≤ 9 * u) (F : Face) {i j : Int}
    (hi : 0 ≤ i) (hj : 0 ≤ j) (hij : i + j ≤ n) :
    Within (92 * u) (pt n (cell n F i j)) (interpolate fl (vecW t F.1) (vecW t F.2.1) (vecW t F.2.2) i j n) := by
  rw [← interpolate_eq hn]
  have hn' : (0 : ℝ) < n := by exact_mod_cast hn
  have frac : ∀ {k : Int}, 0 ≤ k → k ≤ n → 0 ≤ (k : ℝ) / n ∧ (k : ℝ) / n ≤ 1 := fun h0 h1 =>
    ⟨div_nonneg (by exact_mod_cast h0) hn'.le, (div_le_one hn').2 (by exact_mod_cast h1)⟩
  obtain ⟨i0, i1⟩ := frac hi (by omega)
  obtain ⟨j0, j1⟩ := frac hj (by omega)
  obtain ⟨a1, a2, a3⟩ := vecW_near ht F.1
  obtain ⟨b1, b2, b3⟩ := vecW_near ht F.2.1
  obtain ⟨c1, c2, c3⟩ := vecW_near ht F.2.2
  obtain ⟨a4, a5, a6⟩ := vec_le F.1
  obtain ⟨b4, b5, b6⟩ := vec_le F.2.1
  obtain ⟨c4, c5, c6⟩ := vec_le F.2.2
  exact ⟨interpolate_near h a1 b1 c1 a4 b4 c4 i0 i1 j0 j1, interpolate_near h a2 b2 c2 a5 b5 c5 i0 i1 j0 j1,
    interpolate_near h a3 b3 c3 a6 b6 c6 i0 i1 j0 j1⟩

/-- a rounded point of the tessellated icosahedron -/
def RelI (u : ℝ) (n : ℤ) (p p' : P3 ℝ) : Prop := ∃ w, GridW n w ∧ p = pt n w ∧ Within (92 * u) p p'

/-- a rounded point of the sphere -/
def RelS (u r : ℝ) (n : ℤ) (p p' : P3 ℝ) : Prop :=
  ∃ w, GridW n w ∧ p = project r (pt n w) ∧ Within (843 * (u * |r|)) p p'

open Classical in
/-- the loop body of `create_sphere_geodesic` as a function of the point -/
noncomputable def toSphere (fl : ℝ → ℝ) (r : ℝ) (p : P3 ℝ) : P3 ℝ :=
  ((normalized fl p).map (scale fl r)).getD 0

theorem toSphere_rel (s : InScope u η Ω r n) (h : Rounds u η Ω fl) {p p' : P3 ℝ} (hp : RelI u n p p') :
    (do let v ← normalized fl p'; some (scale fl r v)) = some (toSphere fl r p') ∧
      RelS u r n (project r p) (toSphere fl r p') := by
  obtain ⟨w, hw, rfl, hx, hy, hz⟩ := hp
  obtain ⟨x1, y1, z1⟩ := pt_le s.segs hw
  obtain ⟨v, hv, vx, vy, vz⟩ := normalized_near (s.unit1 h) hx hy hz x1 y1 z1 (pt_normSq s.segs hw)
  have e : toSphere fl r p' = scale fl r v := by simp [toSphere, hv]
  have hle : ∀ {c : ℝ}, c * c ≤ (pt n w).normSq → |1 / (pt n w).norm * c| ≤ 1 := by
    intro c hc
    have hN := P3.norm_pos (pt_ne_zero s.segs hw)
    rw [← P3.norm_sq, ← abs_mul_abs_self c] at hc
    have := abs_le_of_sq_le_sq' (by nlinarith : |c| ^ 2 ≤ (pt n w).norm ^ 2) hN.le
    rw [abs_mul, abs_of_pos (by positivity : 0 < 1 / (pt n w).norm), one_div, inv_mul_le_iff₀ hN, mul_one]
    exact this.2
  have nsq : (pt n w).normSq = (pt n w).x * (pt n w).x + (pt n w).y * (pt n w).y + (pt n w).z * (pt n w).z := rfl
  have sx := mul_self_nonneg (pt n w).x
  have sy := mul_self_nonneg (pt n w).y
  have sz := mul_self_nonneg (pt n w).z
  refine ⟨by rw [e, hv]; rfl, w, hw, rfl, ?_⟩
  rw [e]
  have co : ∀ {c v : ℝ}, |v - 1 / (pt n w).norm * c| ≤ 840 * u → c * c ≤ (pt n w).normSq →
      |fl (r * v) - r / (pt n w).norm * c| ≤ 843 * (u * |r|) := by
    intro c v hv hc
    have := scale_near s h hv (hle hc)
    rwa [show r * (1 / (pt n w).norm * c) = r / (pt n w).norm * c by ring] at this
  exact ⟨co vx (by rw [nsq]; linarith), co vy (by rw [nsq]; linarith), co vz (by rw [nsq]; linarith)⟩

/-- the comparison of `merge_vertices` in rounded arithmetic tells equal grid points from different ones -/
theorem near_rel (s : InScope u η Ω r n) (h : Rounds u η Ω fl) {p q p' q' : P3 ℝ} (hp : RelS u r n p p') (hq : RelS u r n q q') :
    nearTol fl (fl (fl (fl (r / fl (951 / 1000)) / n) / 20)) p' q' = MeshUtil.nearTol (r / (951 / 1000) / n / 20) p q := by
  obtain ⟨w, hw, rfl, px, py, pz⟩ := hp
  obtain ⟨w', hw', rfl, qx, qy, qz⟩ := hq
  have hle : ∀ {w}, GridW n w → |(project r (pt n w)).x| ≤ |r| ∧ |(project r (pt n w)).y| ≤ |r| ∧ |(project r (pt n w)).z| ≤ |r| := by
    intro w hw
    have hN := project_norm (r := r) (pt_ne_zero s.segs hw)
    have e : (project r (pt n w)).normSq = (project r (pt n w)).x ^ 2 + (project r (pt n w)).y ^ 2 + (project r (pt n w)).z ^ 2 := by
      simp only [P3.normSq]; ring
    rw [e] at hN
    have sx := sq_nonneg (project r (pt n w)).x
    have sy := sq_nonneg (project r (pt n w)).y
    have sz := sq_nonneg (project r (pt n w)).z
    exact ⟨sq_le_sq.1 (by linarith), sq_le_sq.1 (by linarith), sq_le_sq.1 (by linarith)⟩
  obtain ⟨p1, p2, p3⟩ := hle hw
  obtain ⟨q1, q2, q3⟩ := hle hw'
  obtain ⟨d1, d2⟩ := distSq_near s h px py pz qx qy qz p1 p2 p3 q1 q2 q3
  obtain ⟨t1, t2⟩ := tol_near s h
  have hρ := s.seg_pos
  have hρρ : 0 < seg r n * seg r n := by positivity
  have hn' : (0 : ℝ) < n := by exact_mod_cast s.segs
  have htol : r / (951 / 1000) / n / 20 ≠ 0 := by
    have := s.rad
    have := hn'.ne'
    positivity
  rw [Bool.eq_iff_iff, MeshUtil.nearTol_iff]
  unfold nearTol
  simp only [decide_eq_true_eq]
  by_cases e : w = w'
  · subst e
    rw [P3.distSq_self] at d1 d2 ⊢
    refine iff_of_true ?_ (mul_self_pos.2 htol)
    linarith
  · refine iff_of_false ?_ (not_lt.2 (project_apart s.segs r hw hw' e))
    rw [not_lt]
    have key := grid_apart s.segs hw hw' e
    rw [project_distSq] at d1 d2
    generalize ((1 / (pt n w).norm) • pt n w - (1 / (pt n w').norm) • pt n w').norm = d at key d1 d2
    have hd : 1 / (n : ℝ) * (1 / 4.8) ≤ d := by
      norm_num at key ⊢; linarith
    have hd2 := mul_self_le_mul_self (by positivity) hd
    have e2 : seg r n * seg r n = r ^ 2 * (1 / (n : ℝ) * (1 / (n : ℝ))) := by
      unfold seg; rw [← sq_abs r]; field_simp
    have : 0.04 * (seg r n * seg r n) ≤ r ^ 2 * d ^ 2 := by
      rw [e2]
      have := mul_le_mul_of_nonneg_left hd2 (sq_nonneg r)
      have h3 : 0 ≤ r ^ 2 * (1 / (n : ℝ) * (1 / (n : ℝ))) := by positivity
      have h4 : r ^ 2 * (1 / (n : ℝ) * (1 / 4.8) * (1 / (n : ℝ) * (1 / 4.8))) = r ^ 2 * (1 / (n : ℝ) * (1 / (n : ℝ))) / 23.04 := by
        norm_num; ring
      rw [h4] at this
      have : r ^ 2 * (d * d) = r ^ 2 * d ^ 2 := by ring
      linarith
    linarith

theorem forall₂_map₂ {α β γ δ : Type*} {R : α → β → Prop} {S : γ → δ → Prop} {f : α → γ} {g : β → δ} {l : List α} {l' : List β}
    (h : List.Forall₂ R l l') (hS : ∀ a b, R a b → S (f a) (g b)) : List.Forall₂ S (l.map f) (l'.map g) := by
  rw [List.forall₂_map_left_iff, List.forall₂_map_right_iff]
  exact h.imp fun a b => hS a b

theorem forall₂_get {α β : Type*} {R : α → β → Prop} {l : List α} {l' : List β} (h : List.Forall₂ R l l') {k : ℕ} {a : α} {b : β}
    (ha : l[k]? = some a) (hb : l'[k]? = some b) : R a b := by
  obtain ⟨ka, rfl⟩ := List.getElem?_eq_some_iff.1 ha
  obtain ⟨kb, rfl⟩ := List.getElem?_eq_some_iff.1 hb
  exact (List.forall₂_iff_get.1 h).2 k ka kb

/-- the triangles of the rounded sphere before merging -/
noncomputable def roundSoup (fl : ℝ → ℝ) (r : ℝ) (n : ℤ) (t : ℝ) : List (Tri3 ℝ) :=
  ((faces.map (triW t)).flatMap (tessBy (interpolate fl) n)).map (Tri3.map (toSphere fl r))

theorem roundI_rel (s : InScope u η Ω r n) (h : Rounds u η Ω fl) {t : ℝ} (ht : |t - tau| ≤ 9 * u) :
    List.Forall₂ (TriRel (RelI u n)) ((faces.map tri).flatMap (tess n)) ((faces.map (triW t)).flatMap (tessBy (interpolate fl) n)) := by
  refine forall₂_flatMap (R := fun a b => ∃ F ∈ faces, a = tri F ∧ b = triW t F) ?_ ?_
  · refine forall₂_map₂ (forall₂_diag (R := fun a b => a = b ∧ a ∈ faces) fun a ha => ⟨rfl, ha⟩) ?_
    rintro F _ ⟨rfl, hF⟩
    exact ⟨F, hF, rfl, rfl⟩
  · rintro _ _ ⟨F, hF, rfl, rfl⟩
    refine tessBy_rel (I := Tessellate.interpolate) fun i j hi hj hij => ?_
    refine ⟨cell n F i j, cell_grid hF hi hj hij, interpolate_eq s.segs F i j, ?_⟩
    have := interpolate_within (s.unit1 h) s.segs ht F hi hj hij
    rw [← interpolate_eq s.segs] at this
    exact this

theorem roundSoup_rel (s : InScope u η Ω r n) (h : Rounds u η Ω fl) {t : ℝ} (ht : |t - tau| ≤ 9 * u) {ico : Mesh ℝ}
    (hi : Factory.createIcosahedron 1 Mesh.new = some ico) : List.Forall₂ (TriRel (RelS u r n)) (geoSoup r n ico) (roundSoup fl r n t) := by
  unfold geoSoup roundSoup
  rw [icosa_faces hi]
  refine forall₂_map₂ (roundI_rel s h ht) ?_
  rintro a b ⟨h1, h2, h3⟩
  exact ⟨(toSphere_rel s h h1).2, (toSphere_rel s h h2).2, (toSphere_rel s h h3).2⟩

theorem roundSoup_eq (s : InScope u η Ω r n) (h : Rounds u η Ω fl) (m : Mesh ℝ) :
    ∃ t, |t - tau| ≤ 9 * u ∧ createSphereGeodesic fl r n m =
      MeshUtil.mergeVerticesBy (nearTol fl (fl (fl (fl (r / fl (951 / 1000)) / n) / 20))) 0 (m.clear.addSoup (roundSoup fl r n t)) := by
  refine ⟨_, icosa_t (s.unit1 h), ?_⟩
  have ht := icosa_t (s.unit1 h)
  unfold createSphereGeodesic createIcosahedron
  simp only
  generalize fl (fl (fl (fl (Real.sqrt 5) - 1) / 2) * 1) = t at ht ⊢
  obtain ⟨ico, h1, h2, h3⟩ := icosaWith_tris 1 t Mesh.new
  have e : ico.triangles = faces.map (triW t) := by
    rw [h3]; simp [faces, triW, vecW, corner]
  simp only [h1, Tessellate.computeBy_eq _ h2.ok, Option.bind_eq_bind, Option.bind_some, e]
  have hcc : m.clear.clear = m.clear := rfl
  rw [hcc]
  have key := mapVertices_soup m.clear (fun v => do let n ← normalized fl v; some (scale fl r n)) (toSphere fl r)
    ((faces.map (triW t)).flatMap (tessBy (interpolate fl) n)) rfl (by
      intro x hx v hv
      obtain ⟨k, hk⟩ := List.mem_iff_getElem?.1 hx
      have rel := roundI_rel s h ht
      obtain ⟨y, hy⟩ : ∃ y, ((faces.map tri).flatMap (tess n))[k]? = some y := by
        have := rel.length_eq
        obtain ⟨hk', _⟩ := List.getElem?_eq_some_iff.1 hk
        exact ⟨_, List.getElem?_eq_getElem (this ▸ hk')⟩
      obtain ⟨a, b, c⟩ := forall₂_get rel hy hk
      simp only [Tri3.pts, List.mem_cons, List.not_mem_nil, or_false] at hv
      rcases hv with rfl | rfl | rfl
      exacts [(toSphere_rel s h a).1, (toSphere_rel s h b).1, (toSphere_rel s h c).1])
  simp only [Option.bind_eq_bind, Option.bind_assoc, Option.bind_some] at key
  rw [key]
  rfl

/-- rounding errors do not turn a triangle round whose sides are not too long -/
theorem det_stable {ρ : ℝ} (hρ : 0 < ρ) (hr : ρ ≤ r) {t t' : Tri3 ℝ} (h1 : Within (0.000843 * ρ) t.p1 t'.p1)
    (h2 : Within (0.000843 * ρ) t.p2 t'.p2) (h3 : Within (0.000843 * ρ) t.p3 t'.p3)
    (hx : |t.p1.x| ≤ r) (hy : |t.p1.y| ≤ r) (hz : |t.p1.z| ≤ r)
    (a : t.p1.distSq t.p2 ≤ 1.76 * ρ ^ 2) (b : t.p3.distSq t.p1 ≤ 1.76 * ρ ^ 2)
    (hd : 0.75 * (r * ρ ^ 2) ≤ t.p1.dot t.orthogonal) : 0 < t'.p1.dot t'.orthogonal := by
  have co : ∀ {c e f : ℝ}, c ^ 2 + e ^ 2 + f ^ 2 ≤ 1.76 * ρ ^ 2 → |c| ≤ 1.33 * ρ ∧ |e| ≤ 1.33 * ρ ∧ |f| ≤ 1.33 * ρ := by
    intro c e f h
    have : ∀ {g : ℝ}, g ^ 2 ≤ 1.76 * ρ ^ 2 → |g| ≤ 1.33 * ρ := by
      intro g hg
      refine abs_le_of_sq_le_sq ?_ (by positivity)
      nlinarith [sq_nonneg ρ]
    exact ⟨this (by nlinarith [sq_nonneg e, sq_nonneg f]), this (by nlinarith [sq_nonneg c, sq_nonneg f]),
      this (by nlinarith [sq_nonneg e, sq_nonneg c])⟩
  have r0 : 0 < r := hρ.trans_le hr
  obtain ⟨a1, a2, a3⟩ := co (c := t.p2.x - t.p1.x) (e := t.p2.y - t.p1.y) (f := t.p2.z - t.p1.z) (by
    refine le_trans (le_of_eq ?_) a; simp only [P3.distSq]; ring)
  obtain ⟨b1, b2, b3⟩ := co (c := t.p3.x - t.p1.x) (e := t.p3.y - t.p1.y) (f := t.p3.z - t.p1.z) (by
    refine le_trans (le_of_eq ?_) b; simp only [P3.distSq]; ring)
  have df : ∀ {c e c' e' : ℝ}, |c' - c| ≤ 0.000843 * ρ → |e' - e| ≤ 0.000843 * ρ → |(c' - e') - (c - e)| ≤ 0.0017 * ρ := by
    intro c e c' e' hc he
    rw [show (c' - e') - (c - e) = (c' - c) - (e' - e) by ring]
    have := abs_sub (c' - c) (e' - e)
    linarith
  have pr : ∀ {c e c' e' : ℝ}, |c' - c| ≤ 0.0017 * ρ → |e' - e| ≤ 0.0017 * ρ → |c| ≤ 1.33 * ρ → |e| ≤ 1.33 * ρ →
      |c' * e' - c * e| ≤ 0.00453 * ρ ^ 2 ∧ |c * e| ≤ 1.77 * ρ ^ 2 := by
    intro c e c' e' hc he hc1 he1
    refine ⟨(mul_near hc he hc1 he1).trans (by nlinarith [sq_nonneg ρ]), ?_⟩
    rw [abs_mul]
    have := mul_le_mul hc1 he1 (abs_nonneg e) (by positivity)
    nlinarith [sq_nonneg ρ]
  have cr : ∀ {x x' c e f g c' e' f' g' : ℝ}, |x' - x| ≤ 0.000843 * ρ → |x| ≤ r → |c' - c| ≤ 0.0017 * ρ → |e' - e| ≤ 0.0017 * ρ →
      |f' - f| ≤ 0.0017 * ρ → |g' - g| ≤ 0.0017 * ρ → |c| ≤ 1.33 * ρ → |e| ≤ 1.33 * ρ → |f| ≤ 1.33 * ρ → |g| ≤ 1.33 * ρ →
      |x' * (c' * e' - f' * g') - x * (c * e - f * g)| ≤ 0.02 * (r * ρ ^ 2) := by
    intro x x' c e f g c' e' f' g' hx hxr hc he hf hg hc1 he1 hf1 hg1
    obtain ⟨p1, p2⟩ := pr hc he hc1 he1
    obtain ⟨q1, q2⟩ := pr hf hg hf1 hg1
    have d1 : |(c' * e' - f' * g') - (c * e - f * g)| ≤ 0.00906 * ρ ^ 2 := by
      rw [show (c' * e' - f' * g') - (c * e - f * g) = (c' * e' - c * e) - (f' * g' - f * g) by ring]
      have := abs_sub (c' * e' - c * e) (f' * g' - f * g)
      linarith
    have d2 : |c * e - f * g| ≤ 3.54 * ρ ^ 2 := by
      have := abs_sub (c * e) (f * g)
      linarith
    refine (mul_near hx d1 hxr d2).trans ?_
    have e1 : 0 ≤ ρ ^ 2 := sq_nonneg ρ
    have e2 := mul_le_mul_of_nonneg_right hr e1
    nlinarith
  have k1 := cr h1.1 hx (df h2.2.1 h1.2.1) (df h3.2.2 h1.2.2) (df h2.2.2 h1.2.2) (df h3.2.1 h1.2.1) a2 b3 a3 b2
  have k2 := cr h1.2.1 hy (df h2.2.2 h1.2.2) (df h3.1 h1.1) (df h2.1 h1.1) (df h3.2.2 h1.2.2) a3 b1 a1 b3
  have k3 := cr h1.2.2 hz (df h2.1 h1.1) (df h3.2.1 h1.2.1) (df h2.2.1 h1.2.1) (df h3.1 h1.1) a1 b2 a2 b1
  have pos : 0 < r * ρ ^ 2 := by positivity
  simp only [P3.dot, Tri3.orthogonal, P3.cross, P3.sub_x, P3.sub_y, P3.sub_z] at hd ⊢
  have l1 := (abs_le.1 k1).1
  have l2 := (abs_le.1 k2).1
  have l3 := (abs_le.1 k3).1
  linarith

theorem within_norm {ε : ℝ} {p p' : P3 ℝ} (h : Within ε p p') : |p'.norm - p.norm| ≤ (p' - p).norm ∧ (p' - p).norm ≤ 1.7321 * ε := by
  obtain ⟨h1, h2, h3⟩ := h
  have hε : 0 ≤ ε := (abs_nonneg _).trans h1
  constructor
  · have a := norm_triangle_ineq (p' - p) p
    have b := norm_triangle_ineq (p - p') p'
    rw [sub_add_cancel] at a b
    rw [MeshUtil.norm_sub_comm p p'] at b
    rw [abs_le]; constructor <;> linarith
  · refine abs_le_of_sq_le_sq' ?_ (by positivity) |>.2
    rw [pow_two, P3.norm_sq]
    have sq : ∀ {a : ℝ}, |a| ≤ ε → a ^ 2 ≤ ε ^ 2 := fun ha => sq_le_sq' (by linarith [(abs_le.1 ha).1]) (abs_le.1 ha).2
    have a1 := sq h1
    have a2 := sq h2
    have a3 := sq h3
    simp only [P3.normSq, P3.sub_x, P3.sub_y, P3.sub_z]
    nlinarith [sq_nonneg ε]

theorem soup_cornerList (m : Mesh ℝ) (ts) : (m.clear.addSoup ts).cornerList = freshCorners 0 ts.length := build_cornerList m _ _

theorem soup_nbVertices (m : Mesh ℝ) (ts) : (m.clear.addSoup ts).nbVertices = (ts.flatMap Tri3.pts).length := build_nbVertices m _ _

theorem soup_getVertex (m : Mesh ℝ) (ts) (i) : (m.clear.addSoup ts).getVertex i = getI (ts.flatMap Tri3.pts) i := build_getVertex m _ _ i

/-- **C112** `create_sphere_geodesic(r, n)` computed with rounding errors in every operation is
still a watertight surface with exactly the topology of the ideal one: `10n² + 2` vertices at
different places, `30n²` edges, each used once in both directions, `20n²` triangles.  The
vertices are on the sphere up to a relative error of `1500u`, for `r > 0` the triangles are
outward, and no side is longer than `4/3·|r|/n`.  `InScope` says that `n` is small against the
precision (`u·n ≤ 10⁻⁶`) and that `r²` and `(r/n)²` neither overflow nor underflow. -/
theorem geodesic_rounded (h : Rounds u η Ω fl) (s : InScope u η Ω r n) (m : Mesh ℝ) :
    ∃ x, createSphereGeodesic fl r n m = some x ∧
      Polyhedron (10 * n.toNat ^ 2 + 2) (30 * n.toNat ^ 2) (20 * n.toNat ^ 2) x ∧
      (∀ i j p, x.getVertex i = some p → x.getVertex j = some p → i = j) ∧
      (∀ i p, x.getVertex i = some p → |p.norm - (|r|)| ≤ 1500 * u * |r|) ∧
      (0 < r → ∀ t ∈ x.triangles, 0 < t.p1.dot t.orthogonal) ∧
      (∀ t ∈ x.triangles, ∀ e ∈ t.dirEdges, (e.1 - e.2).norm ≤ 4 / 3 * (|r| / n)) := by
  obtain ⟨y, w1, w2, w3, w4, w5, w6, -⟩ := geodesic_watertight r s.rad n s.segs m
  obtain ⟨ico, h1, h2, -, h3⟩ := geodesic_eq r n m
  obtain ⟨t, ht, e⟩ := roundSoup_eq s h m
  have rel := roundSoup_rel s h ht h1
  have relp : List.Forall₂ (RelS u r n) ((geoSoup r n ico).flatMap Tri3.pts) ((roundSoup fl r n t).flatMap Tri3.pts) :=
    forall₂_flatMap rel fun a b hab => .cons hab.1 (.cons hab.2.1 (.cons hab.2.2 .nil))
  have vrel : ∀ i p p', (m.clear.addSoup (geoSoup r n ico)).getVertex i = some p →
      (m.clear.addSoup (roundSoup fl r n t)).getVertex i = some p' → RelS u r n p p' := by
    intro i p p' hp hp'
    rw [soup_getVertex] at hp hp'
    obtain ⟨k, rfl, hk⟩ := getI_eq_some_iff.1 hp
    rw [getI_natCast] at hp'
    exact forall₂_get relp hk hp'
  obtain ⟨y', x, m1, m2, m3, m4, m5, m6, m7, m8⟩ := MeshUtil.mergeBy_stable
    (near := MeshUtil.nearTol (r / (951 / 1000) / n / 20))
    (near' := nearTol fl (fl (fl (fl (r / fl (951 / 1000)) / n) / 20)))
    ((clear_ok m).addSoup (geoSoup r n ico)) ((clear_ok m).addSoup (roundSoup fl r n t))
    (by rw [soup_cornerList, soup_cornerList, rel.length_eq])
    (by rw [soup_nbVertices, soup_nbVertices, relp.length_eq])
    (fun i j p q p' q' hp hq hp' hq' => near_rel s h (vrel i p p' hp hp') (vrel j q q' hq hq')) 0 0
  obtain rfl : y' = y := by
    rw [h3] at w1
    exact Option.some.inj (m1.symm.trans w1)
  have prel : ∀ k p', x.getVertex k = some p' → ∃ p, y'.getVertex k = some p ∧ RelS u r n p p' := by
    intro k p' hp'
    obtain ⟨p, i, a, b, c⟩ := m8 k p' hp'
    exact ⟨p, a, vrel i p p' b c⟩
  have hρ := s.seg_pos
  have hε : 843 * (u * |r|) ≤ 0.000843 * seg r n := by have := s.u_rad; linarith
  have trel : ∀ t' ∈ x.triangles, ∃ t ∈ y'.triangles, TriRel (RelS u r n) t t' := by
    intro t' ht'
    rw [(MeshUtil.triangles_pos m3).1] at ht'
    obtain ⟨f, hf, rfl⟩ := List.mem_map.1 ht'
    obtain ⟨a, b, c⟩ := (MeshUtil.triangles_pos m3).2 f hf
    rw [m5] at hf
    refine ⟨⟨MeshUtil.posOf y' f.1, MeshUtil.posOf y' f.2.1, MeshUtil.posOf y' f.2.2⟩, ?_, ?_⟩
    · rw [(MeshUtil.triangles_pos w2.ok).1]
      exact List.mem_map.2 ⟨f, hf, rfl⟩
    · obtain ⟨a', b', c'⟩ := (MeshUtil.triangles_pos w2.ok).2 f hf
      obtain ⟨p, p1, p2⟩ := prel _ _ a
      obtain ⟨q, q1, q2⟩ := prel _ _ b
      obtain ⟨o, o1, o2⟩ := prel _ _ c
      rw [a'] at p1; rw [b'] at q1; rw [c'] at o1
      cases p1; cases q1; cases o1
      exact ⟨p2, q2, o2⟩
  have hw : ∀ {p p'}, RelS u r n p p' → Within (0.000843 * seg r n) p p' := by
    rintro p p' ⟨w, hw, -, a, b, c⟩
    exact ⟨a.trans hε, b.trans hε, c.trans hε⟩
  have hnorm : ∀ {p p'}, RelS u r n p p' → p.norm = |r| := by
    rintro p p' ⟨w, hw, rfl, -⟩
    have := project_norm (r := r) (pt_ne_zero s.segs hw)
    rw [P3.norm_eq, this, Real.sqrt_sq_eq_abs]
  have hτ : 12 * ((Real.sqrt 5 - 1) / 2) ^ 4 * r ^ 2 / (n : ℝ) ^ 2 ≤ 1.76 * seg r n ^ 2 := by
    have : (Real.sqrt 5 - 1) / 2 = tau := rfl
    rw [this]
    obtain ⟨t1, t2⟩ := tau_bounds
    have e4 : tau ^ 4 = 2 - 3 * tau := by
      have := tau_sq'
      linear_combination (tau ^ 2 - tau + 2) * this
    have : 12 * tau ^ 4 ≤ 1.76 := by rw [e4]; norm_num at *; linarith
    have e5 : 12 * tau ^ 4 * r ^ 2 / (n : ℝ) ^ 2 = 12 * tau ^ 4 * seg r n ^ 2 := by
      unfold seg; rw [div_pow, sq_abs]; ring
    rw [e5]
    exact mul_le_mul_of_nonneg_right this (sq_nonneg _)
  refine ⟨x, e.trans m2, ⟨m3, ?_, ?_, m4, ?_, ?_⟩, ?_, ?_, ?_, ?_⟩
  · rw [m6]; exact w2.vertices
  · rw [m7]; exact w2.triangles
  · rw [m5]; exact w2.closed
  · rw [m5]; exact w2.edges
  · intro i j p' hi hj
    obtain ⟨p, p1, p2⟩ := prel i p' hi
    obtain ⟨q, q1, q2⟩ := prel j p' hj
    have a := (near_rel s h p2 p2).symm.trans (near_rel s h p2 q2)
    obtain ⟨w, hw, rfl, -⟩ := p2
    obtain ⟨w', hw', rfl, -⟩ := q2
    by_cases hww : w = w'
    · subst hww; exact w3 i j _ p1 q1
    · exfalso
      have b := project_apart s.segs r hw hw' hww
      have hn' : (0 : ℝ) < n := by exact_mod_cast s.segs
      have htol : r / (951 / 1000) / n / 20 ≠ 0 := by
        have := s.rad
        have := hn'.ne'
        positivity
      have c : MeshUtil.nearTol (r / (951 / 1000) / n / 20) (project r (pt n w)) (project r (pt n w)) = true := by
        rw [MeshUtil.nearTol_iff, P3.distSq_self]; exact mul_self_pos.2 htol
      rw [a, MeshUtil.nearTol_iff] at c
      exact absurd c (not_lt.2 b)
  · intro i p' hi
    obtain ⟨p, p1, p2⟩ := prel i p' hi
    have a := hnorm p2
    obtain ⟨w, hw, -, hp⟩ := p2
    obtain ⟨b, c⟩ := within_norm hp
    rw [a] at b
    have : 0 ≤ u * |r| := mul_nonneg s.prec0 (abs_nonneg r)
    norm_num at c
    linarith
  · intro hr t' ht'
    obtain ⟨t, ht, c1, c2, c3⟩ := trel t' ht'
    have d := w5 hr t ht
    have e1 := (w6 t ht (t.p1, t.p2) (by simp [Tri3.dirEdges])).trans hτ
    have e3 := (w6 t ht (t.p3, t.p1) (by simp [Tri3.dirEdges])).trans hτ
    have hN := hnorm c1
    have hle : ∀ {c : ℝ}, c * c ≤ t.p1.normSq → |c| ≤ r := by
      intro c hc
      rw [← P3.norm_sq, hN, abs_mul_abs_self] at hc
      exact abs_le_of_sq_le_sq (by nlinarith) hr.le
    have nsq : t.p1.normSq = t.p1.x * t.p1.x + t.p1.y * t.p1.y + t.p1.z * t.p1.z := rfl
    have sx := mul_self_nonneg t.p1.x
    have sy := mul_self_nonneg t.p1.y
    have sz := mul_self_nonneg t.p1.z
    have hseg := s.seg_le
    rw [abs_of_pos hr] at hseg
    refine det_stable hρ hseg (hw c1) (hw c2) (hw c3) (hle (by rw [nsq]; linarith)) (hle (by rw [nsq]; linarith))
      (hle (by rw [nsq]; linarith)) e1 e3 ?_
    refine le_trans (le_of_eq ?_) d
    unfold seg
    rw [abs_of_pos hr]
    norm_num; ring
  · intro t' ht' e' he'
    obtain ⟨t, ht, c1, c2, c3⟩ := trel t' ht'
    have key : ∀ {p q p' q' : P3 ℝ}, RelS u r n p p' → RelS u r n q q' → p.distSq q ≤ 1.76 * seg r n ^ 2 → (p' - q').norm ≤ 4 / 3 * seg r n := by
      intro p q p' q' hp hq hd
      have a := (within_norm (hw hp)).2
      have b := (within_norm (hw hq)).2
      have c : (p - q).norm ≤ 1.327 * seg r n := by
        refine abs_le_of_sq_le_sq' ?_ (by positivity) |>.2
        rw [pow_two, P3.norm_sq, ← P3.distSq_eq]
        nlinarith [sq_nonneg (seg r n)]
      have d := MeshUtil.dist_triangle p' p q'
      have d' := MeshUtil.dist_triangle p q q'
      rw [MeshUtil.norm_sub_comm q q'] at d'
      norm_num at a b c ⊢
      linarith
    simp only [Tri3.dirEdges, List.mem_cons, List.not_mem_nil, or_false] at he'
    rcases he' with rfl | rfl | rfl
    · exact key c1 c2 ((w6 t ht (t.p1, t.p2) (by simp [Tri3.dirEdges])).trans hτ)
    · exact key c2 c3 ((w6 t ht (t.p2, t.p3) (by simp [Tri3.dirEdges])).trans hτ)
    · exact key c3 c1 ((w6 t ht (t.p3, t.p1) (by simp [Tri3.dirEdges])).trans hτ)

/-- IEEE double rounding meets the assumptions of `geodesic_rounded` -/
theorem double_rounds : Rounds (2 ^ (-53 : ℤ)) (2 ^ (-1075 : ℤ)) (2 ^ (1023 : ℤ)) double where
  err x _ := by
    have := ieee_err (p := 53) (emin := -1074) x
    norm_num at this ⊢
    exact this

theorem inScope_double {r : ℝ} {n : ℤ} (h1 : 1 ≤ n) (h2 : n < 2 ^ 31) (r1 : 2 ^ (-400 : ℤ) ≤ |r|) (r2 : |r| ≤ 2 ^ (500 : ℤ)) :
    InScope (2 ^ (-53 : ℤ)) (2 ^ (-1075 : ℤ)) (2 ^ (1023 : ℤ)) r n := by
  have n1 : (1 : ℝ) ≤ n := by exact_mod_cast h1
  have n2 : (n : ℝ) ≤ 2 ^ (31 : ℤ) := by
    have : (n : ℝ) < 2 ^ 31 := by exact_mod_cast h2
    exact_mod_cast this.le
  have n3 : (n : ℝ) ^ 2 ≤ 2 ^ (62 : ℤ) := by
    have := pow_le_pow_left₀ (by linarith) n2 2
    refine this.trans (le_of_eq ?_)
    rw [← zpow_natCast, ← zpow_mul]; norm_num
  have sq1 : (2 : ℝ) ^ (-800 : ℤ) ≤ r ^ 2 := by
    have := pow_le_pow_left₀ (by positivity) r1 2
    rw [sq_abs, ← zpow_natCast, ← zpow_mul] at this
    exact this
  have sq2 : r ^ 2 ≤ (2 : ℝ) ^ (1000 : ℤ) := by
    have := pow_le_pow_left₀ (abs_nonneg r) r2 2
    rw [sq_abs, ← zpow_natCast (2 ^ (500 : ℤ)), ← zpow_mul] at this
    exact this
  have mono : ∀ {a b : ℤ}, a ≤ b → (2 : ℝ) ^ a ≤ 2 ^ b := fun h => zpow_le_zpow_right₀ (by norm_num) h
  have mul2 : ∀ a b : ℤ, (2 : ℝ) ^ a * 2 ^ b = 2 ^ (a + b) := fun a b => (zpow_add₀ (by norm_num) a b).symm
  have h100 : (100 : ℝ) ≤ 2 ^ (7 : ℤ) := by norm_num
  refine ⟨h1, ?_, by positivity, ?_, mono (by norm_num), ?_, ?_, h100.trans (mono (by norm_num)), ?_, ?_⟩
  · rintro rfl
    rw [abs_zero] at r1
    exact absurd r1 (not_le.2 (by positivity))
  · refine (mul_le_mul_of_nonneg_left n2 (by positivity)).trans ?_
    rw [mul2]; norm_num
  · refine (mul_le_mul_of_nonneg_left n2 (by positivity)).trans
      (le_trans ?_ (mul_le_mul_of_nonneg_left r1 (by positivity)))
    rw [mul2, mul2]; exact mono (by norm_num)
  · refine (mul_le_mul_of_nonneg_left n3 (by positivity)).trans
      (le_trans ?_ (mul_le_mul_of_nonneg_left sq1 (by positivity)))
    rw [mul2, mul2]; exact mono (by norm_num)
  · refine (mul_le_mul h100 r2 (abs_nonneg r) (by positivity)).trans ?_
    rw [mul2]; exact mono (by norm_num)
  · refine (mul_le_mul h100 sq2 (sq_nonneg r) (by positivity)).trans ?_
    rw [mul2]; exact mono (by norm_num)

/-- **C112** for IEEE doubles, rounded to nearest: every number of segments that fits an `int`,
every radius between `2⁻⁴⁰⁰` and `2⁵⁰⁰`. -/
theorem geodesic_double {r : ℝ} {n : ℤ} (h1 : 1 ≤ n) (h2 : n < 2 ^ 31) (r1 : 2 ^ (-400 : ℤ) ≤ |r|) (r2 : |r| ≤ 2 ^ (500 : ℤ))
    (m : Mesh ℝ) : ∃ x, createSphereGeodesic double r n m = some x ∧
      Polyhedron (10 * n.toNat ^ 2 + 2) (30 * n.toNat ^ 2) (20 * n.toNat ^ 2) x ∧
      (∀ i j p, x.getVertex i = some p → x.getVertex j = some p → i = j) ∧
      (∀ i p, x.getVertex i = some p → |p.norm - (|r|)| ≤ 1500 * 2 ^ (-53 : ℤ) * |r|) ∧
      (0 < r → ∀ t ∈ x.triangles, 0 < t.p1.dot t.orthogonal) ∧
      (∀ t ∈ x.triangles, ∀ e ∈ t.dirEdges, (e.1 - e.2).norm ≤ 4 / 3 * (|r| / n)) :=
  geodesic_rounded double_rounds (inScope_double h1 h2 r1 r2) m

/-- the sphere of radius 10 with 7 segments: 492 vertices, 1470 edges, 980 triangles -/
example : ∃ x, createSphereGeodesic double 10 7 Mesh.new = some x ∧ Polyhedron 492 1470 980 x := by
  obtain ⟨x, h1, h2, -⟩ := geodesic_double (r := 10) (n := 7) (by norm_num) (by norm_num)
    (by
      rw [abs_of_pos (by norm_num)]
      exact (zpow_le_zpow_right₀ (by norm_num) (by norm_num : (-400 : ℤ) ≤ 0)).trans (by norm_num))
    (by
      rw [abs_of_pos (by norm_num)]
      exact le_trans (by norm_num) (zpow_le_zpow_right₀ (by norm_num : (1 : ℝ) ≤ 2) (by norm_num : (4 : ℤ) ≤ 500))) Mesh.new
  exact ⟨x, h1, h2⟩

/-- with `fl x = x` the rounded model is the exact one -/
theorem exact_model (r : ℝ) (n : ℤ) (m : Mesh ℝ) : createSphereGeodesic (fun x => x) r n m = Factory.createSphereGeodesic r n m := by
  have e1 : interpolate (fun x => x) = Tessellate.interpolate := by
    funext a b c i j k
    simp only [interpolate, Tessellate.interpolate, add, scale, sub]
    rfl
  have e2 : ∀ p : P3 ℝ, normalized (fun x => x) p = p.normalized := by
    intro p
    have : normSq (fun x => x) p = p.normSq := rfl
    unfold normalized P3.normalized
    rw [this, if_neg (not_lt.2 (P3.normSq_nonneg p)), ← P3.norm_eq]
    rfl
  have e3 : ∀ tol, nearTol (fun x => x) tol = MeshUtil.nearTol tol := fun tol => rfl
  unfold createSphereGeodesic Factory.createSphereGeodesic
  simp only [e1, e2, e3]
  rfl

end Rounded
end CAD
