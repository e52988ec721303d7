import Verif.Props.PolylineRounded
import Verif.Props.MergeStable

/-! C119: `NurbsUtil::to_mesh` in rounded arithmetic. -/

namespace CAD
namespace Nurbs
open BSpline Mesh Set

variable {fl : ℝ → ℝ}

/-- an evaluation in rounded arithmetic does not depend on earlier evaluations -/
theorem surface_rounded_run {s : Surface ℝ} {p q nu nv : Nat} (h : s.Valid p q nu nv) (hu : Apart fl s.knotsU) (hv : Apart fl s.knotsV)
    {a b : ℝ} {x : P3 ℝ} (hx : s.atRounded fl a b = some x) {t : Surface ℝ} (h' : t.Valid p q nu nv) (hs : s.SameShape t) :
    ∃ t', t.evaluateBy (roundedOps fl) a b = some (t', x) ∧ t'.Valid p q nu nv ∧ t.SameShape t' := by
  obtain ⟨k, hk⟩ := exists_inSpan h.knotsU (clamp_nonneg a) (clamp_le_one a)
  obtain ⟨l, hl⟩ := exists_inSpan h.knotsV (clamp_nonneg b) (clamp_le_one b)
  rw [surface_atRounded_eq h hk hl _ _ (alpha_some h.knotsU hu hk a) (alpha_some h.knotsV hv hl b)] at hx
  obtain ⟨e1, e2, e3, e4, e5, e6, e7, e8, e9, e10⟩ := hs
  rw [← e7] at hk hu
  rw [← e8] at hl hv
  obtain ⟨pu, wu, pv, wv, l1, l2, l3, l4, e⟩ := surface_evaluateBy_eq (roundedOps fl) h' hk hl _ _ (alpha_some h'.knotsU hu hk a)
    (alpha_some h'.knotsV hv hl b)
  simp only [Surface.wt, Surface.pt] at hx e
  rw [← e7, ← e8, ← e9, ← e10] at hx
  rw [hx] at e
  refine ⟨_, e, ⟨h'.degreeU, h'.degreeV, h'.nbU, h'.nbV, h'.points, h'.weights, h'.knotsU, h'.knotsV, ?_, ?_, ?_, ?_⟩,
    rfl, rfl, rfl, rfl, rfl, rfl, rfl, rfl, rfl, rfl⟩
  · have := h'.tempPointsU; simp only; omega
  · have := h'.tempPointsV; simp only; omega
  · have := h'.tempWeightsU; simp only; omega
  · have := h'.tempWeightsV; simp only; omega

/-- the parameters of `to_mesh` -/
theorem quot_near {u η Ω : ℝ} (H : Rounds u η Ω fl) (u0 : 0 ≤ u) (mono : Monotone fl) (z : fl 0 = 0) (o : fl 1 = 1) (hη : η ≤ u) (hΩ : 1 ≤ Ω)
    {i U : Nat} (hi : i ≤ U) (hU : 0 < U) :
    roundedQuot fl i U = some (fl ((i : ℝ) / U)) ∧ 0 ≤ fl ((i : ℝ) / U) ∧ fl ((i : ℝ) / U) ≤ 1 ∧ |fl ((i : ℝ) / U) - i / U| ≤ 2 * u := by
  have U0 : (0 : ℝ) < U := by exact_mod_cast hU
  have a : (0 : ℝ) ≤ (i : ℝ) / U := by positivity
  have b : (i : ℝ) / U ≤ 1 := (div_le_one U0).2 (by exact_mod_cast hi)
  refine ⟨if_neg U0.ne', z ▸ mono a, o ▸ mono b, ?_⟩
  have := H.err ((i : ℝ) / U) (by rw [abs_of_nonneg a]; linarith)
  rw [abs_of_nonneg a] at this
  nlinarith

/-- two meshes with the same triangles, whose vertices differ by at most `d` in each coordinate -/
structure MeshNear (d : ℝ) (A B : Mesh ℝ) : Prop where
  nbVertices : B.nbVertices = A.nbVertices
  nbTriangles : B.nbTriangles = A.nbTriangles
  triangle : ∀ t, B.getTriangleVertices t = A.getTriangleVertices t
  unlinked : ∀ t, B.isTriangleUnlinked t = A.isTriangleUnlinked t
  vertex : ∀ i P, A.getVertex i = some P → ∃ P', B.getVertex i = some P' ∧ Near d P P'

/-- the same on the data of the meshes -/
def Close (d : ℝ) (A B : Mesh ℝ) : Prop := B.kern.tris = A.kern.tris ∧ List.Forall₂ (Near d) A.kern.verts B.kern.verts

theorem Near.refl {d : ℝ} (hd : 0 ≤ d) (P : P3 ℝ) : Near d P P := by
  refine ⟨?_, ?_, ?_⟩ <;> rw [sub_self, abs_zero] <;> exact hd

theorem Near.mono {d d' : ℝ} {P Q : P3 ℝ} (h : Near d P Q) (hd : d ≤ d') : Near d' P Q := ⟨h.1.trans hd, h.2.1.trans hd, h.2.2.trans hd⟩

theorem Close.refl {d : ℝ} (hd : 0 ≤ d) (A : Mesh ℝ) : Close d A A := ⟨rfl, List.forall₂_same.2 fun P _ => Near.refl hd P⟩

theorem Close.meshNear {d : ℝ} {A B : Mesh ℝ} (h : Close d A B) : MeshNear d A B := by
  obtain ⟨ht, hv⟩ := h
  refine ⟨?_, ?_, ?_, ?_, ?_⟩
  · show (B.kern.verts.length : Int) = A.kern.verts.length
    rw [hv.length_eq]
  · show (B.kern.tris.length : Int) = A.kern.tris.length
    rw [ht]
  · intro t
    rcases A with ⟨⟨av, at'⟩, ac⟩
    rcases B with ⟨⟨bv, bt⟩, bc⟩
    dsimp only at ht
    subst ht
    rfl
  · intro t
    rcases A with ⟨⟨av, at'⟩, ac⟩
    rcases B with ⟨⟨bv, bt⟩, bc⟩
    dsimp only at ht
    subst ht
    rfl
  · intro i P hP
    rw [(answers_view A).getVertex] at hP
    obtain ⟨n, rfl, hn⟩ := getI_eq_some_iff.1 hP
    have hn' : A.kern.verts[n]? = some P := hn
    obtain ⟨hl, rfl⟩ := List.getElem?_eq_some_iff.1 hn'
    have hl' : n < B.kern.verts.length := by rw [← hv.length_eq]; exact hl
    exact ⟨B.kern.verts[n], by
      rw [(answers_view B).getVertex]
      exact getI_eq_some_iff.2 ⟨n, rfl, List.getElem?_eq_getElem hl'⟩, (List.forall₂_iff_get.1 hv).2 n hl hl'⟩

theorem forall₂_flatMap {α β : Type} {r : β → β → Prop} {f g : α → List β} (l : List α) (h : ∀ x ∈ l, List.Forall₂ r (f x) (g x)) :
    List.Forall₂ r (l.flatMap f) (l.flatMap g) := by
  induction l with
  | nil => exact List.Forall₂.nil
  | cons x l ih =>
    rw [List.flatMap_cons, List.flatMap_cons]
    exact List.rel_append (h x (by simp)) (ih fun y hy => h y (by simp [hy]))

/-- what a rounding must satisfy for `to_mesh`: small errors, monotone, exact at 0 and 1 -/
structure MeshOK (u η Ω e : ℝ) (fl : ℝ → ℝ) : Prop extends EvalOK u η Ω e fl where
  mono : Monotone fl
  zero : fl 0 = 0
  one : fl 1 = 1

/-- what a surface must satisfy: the bounds of `surface_rounded` and `surface_lipschitz` -/
structure SurfaceFits (u Ω e : ℝ) (s : Surface ℝ) (p q : Nat) (w W R h g : ℝ) : Prop where
  bounds : SurfaceBounds s p q w W R h g ⟨0, 0, 0⟩
  eh : e ≤ h
  eg : e ≤ g
  ew : e ≤ w
  eR : e ≤ R
  small : (21 * (p + q) + 2) * u * W ≤ w / 100
  range : 2 * (W + 1) * (R + 1) ≤ Ω

/-- the bound for the error of a vertex -/
noncomputable def meshError (u : ℝ) (p q : Nat) (w W R h g : ℝ) : ℝ :=
  (44 * (p + q) + 5) * u * (W / w) * R + (4 * p * (W / w) * R / h + 4 * q * (W / w) * R / g) * (2 * u)

/-- a sample in rounded arithmetic -/
theorem sample_rounded {u η Ω e : ℝ} (H : MeshOK u η Ω e fl) {s : Surface ℝ} {p q nu nv : Nat} (hv : s.Valid p q nu nv)
    {w W R h g : ℝ} (hf : SurfaceFits u Ω e s p q w W R h g) {U V i j : Nat} (hU : 0 < U) (hV : 0 < V) (hi : i ≤ U) (hj : j ≤ V) :
    ∃ P, s.atRounded fl (fl ((i : ℝ) / U)) (fl ((j : ℝ) / V)) = some P ∧ Near (meshError u p q w W R h g) (sample s U V i j) P := by
  have u0 := H.u0
  have hb := hf.bounds
  have w0 := hb.w0
  have h0 := hb.h0
  have g0 := hb.g0
  have hw : ∀ x ∈ s.weights, 0 < x := fun x hx => lt_of_lt_of_le w0 (hb.weight x hx).1
  have nu0 := hv.knotsU.p_lt_n
  have nv0 := hv.knotsV.p_lt_n
  have hp : ∀ q ∈ s.points, |q.x| ≤ R ∧ |q.y| ≤ R ∧ |q.z| ≤ R := by simpa using hb.point
  have R0 : 0 ≤ R := by
    have : s.points[0]'(by rw [hv.points]; exact Nat.mul_pos (by omega) (by omega)) ∈ s.points := List.getElem_mem _
    exact (abs_nonneg _).trans (hp _ this).1
  have W0 : 0 < W := by
    have : s.weights[0]'(by rw [hv.weights]; exact Nat.mul_pos (by omega) (by omega)) ∈ s.weights := List.getElem_mem _
    have := hb.weight _ this
    linarith
  have Ω1 : 1 ≤ Ω := by have := hf.range; nlinarith
  have hη : η ≤ u := by have := H.eta1; nlinarith [H.h0, H.h1]
  obtain ⟨-, a0, a1, ae⟩ := quot_near H.rounds u0 H.mono H.zero H.one hη Ω1 hi hU
  obtain ⟨-, b0, b1, be⟩ := quot_near H.rounds u0 H.mono H.zero H.one hη Ω1 hj hV
  obtain ⟨c0, c1⟩ := frac_mem (K := ℝ) hi hU
  obtain ⟨d0, d1⟩ := frac_mem (K := ℝ) hj hV
  obtain ⟨x, x', e1, e2, n1, n2, n3⟩ := surface_rounded H.toEvalOK hv hb.weight hp (fun a ha b hb' hab => hf.eh.trans (hb.gapU a ha b hb' hab))
    (fun a ha b hb' hab => hf.eg.trans (hb.gapV a ha b hb' hab)) hf.ew hf.eR hf.small hf.range a0 a1 b0 b1
  obtain ⟨P, Q, f1, f2, m1, m2, m3⟩ := surface_lipschitz hv w0 hb.weight hb.point h0 g0 hb.gapU hb.gapV hb.multU hb.multV
    (a := (i : ℝ) / U) (a' := fl ((i : ℝ) / U)) (b := (j : ℝ) / V) (b' := fl ((j : ℝ) / V)) ⟨c0, c1⟩ ⟨a0, a1⟩ ⟨d0, d1⟩ ⟨b0, b1⟩
  rw [e1, Option.some.injEq] at f2
  subst f2
  rw [sample_eq hv hw hU hV hi hj, Option.some.injEq] at f1
  subst f1
  have L1 : 0 ≤ 4 * p * (W / w) * R / h := by positivity
  have L2 : 0 ≤ 4 * q * (W / w) * R / g := by positivity
  have t1 := mul_le_mul_of_nonneg_left ae L1
  have t2 := mul_le_mul_of_nonneg_left be L2
  refine ⟨x', e2, ?_, ?_, ?_⟩ <;> unfold meshError
  · have := abs_sub_le x'.x x.x (sample s U V i j).x; linarith
  · have := abs_sub_le x'.y x.y (sample s U V i j).y; linarith
  · have := abs_sub_le x'.z x.z (sample s U V i j).z; linarith

theorem to_mesh_close {u η Ω e : ℝ} (H : MeshOK u η Ω e fl) {s : Surface ℝ} {p q nu nv : Nat} (hv : s.Valid p q nu nv)
    {w W R h g : ℝ} (hf : SurfaceFits u Ω e s p q w W R h g) {E : ℝ} (hE : meshError u p q w W R h g ≤ E) {k : Nat} (hk : 0 < k)
    {A B : Mesh ℝ} (hA : A.OK) (hB : B.OK) (hAB : Close E A B) (b : Bool) :
    ∃ s1 A' s2 B', toMesh s A k b = some (s1, A') ∧ toMeshRounded fl s B k b = some (s2, B') ∧ s.SameShape s1 ∧ s.SameShape s2 ∧
      A'.OK ∧ B'.OK ∧ Close E A' B' := by
  have hw : ∀ x ∈ s.weights, 0 < x := fun x hx => lt_of_lt_of_le hf.bounds.w0 (hf.bounds.weight x hx).1
  have nu0 := hv.knotsU.p_lt_n
  have nv0 := hv.knotsV.p_lt_n
  have hU : 0 < k * nu := Nat.mul_pos hk (by omega)
  have hV : 0 < k * nv := Nat.mul_pos hk (by omega)
  have U0 : ((k * nu : ℕ) : ℝ) ≠ 0 := by exact_mod_cast hU.ne'
  have V0 : ((k * nv : ℕ) : ℝ) ≠ 0 := by exact_mod_cast hV.ne'
  have W0 : 0 < W := by
    have : s.weights[0]'(by rw [hv.weights]; exact Nat.mul_pos (by omega) (by omega)) ∈ s.weights := List.getElem_mem _
    have := hf.bounds.weight _ this
    have := hf.bounds.w0
    linarith
  have R0 : 0 ≤ R := H.h0.le.trans hf.eR
  have Ω1 : 1 ≤ Ω := by have := hf.range; nlinarith
  have apU : Apart fl s.knotsU := H.apart hv.knotsU Ω1 fun a ha b hb hab => hf.eh.trans (hf.bounds.gapU a ha b hb hab)
  have apV : Apart fl s.knotsV := H.apart hv.knotsV Ω1 fun a ha b hb hab => hf.eg.trans (hf.bounds.gapV a ha b hb hab)
  obtain ⟨s1, -, hs1, e1⟩ := toMesh_eq hv hw hk A b
  obtain ⟨s2, -, hs2, e2⟩ := toMeshBy_eq (o := roundedOps fl) (quot := roundedQuot fl) hv hk
    (g := fun i j => (s.atRounded fl (fl ((i : ℝ) / (k * nu : ℕ))) (fl ((j : ℝ) / (k * nv : ℕ)))).getD ⟨0, 0, 0⟩) (fun i hi j hj => by
      refine ⟨_, _, if_neg U0, if_neg V0, fun t ht hst => ?_⟩
      obtain ⟨P, eP, -⟩ := sample_rounded H hv hf hU hV hi hj
      rw [eP]
      exact surface_rounded_run hv apU apV eP ht hst) B b
  have hc : Close E (if b then A.clear else A) (if b then B.clear else B) := by
    split_ifs
    · exact ⟨rfl, List.Forall₂.nil⟩
    · exact hAB
  have okA : (if b then A.clear else A).OK := by split_ifs; exacts [clear_ok A, hA]
  have okB : (if b then B.clear else B).OK := by split_ifs; exacts [clear_ok B, hB]
  have len := hc.2.length_eq
  have corners : ∀ n : Nat, ∀ f ∈ meshFaces s.closedU s.closedV n (k * nu) (k * nv), CornersIn (n + (k * nu + 1) * (k * nv + 1)) f := by
    intro n f hf
    obtain ⟨⟨a1, a2⟩, ⟨b1, b2⟩, c1, c2⟩ := meshFaces_range f hf
    refine ⟨⟨by omega, ?_⟩, ⟨by omega, ?_⟩, by omega, ?_⟩ <;> push_cast at * <;> assumption
  refine ⟨s1, _, s2, _, e1, e2, hs1, hs2, ?_, ?_, ?_, ?_⟩
  · exact (okA.pushPts _).pushTris (by
      rw [pushPts_verts, List.length_append, length_samples]; exact corners _)
  · exact (okB.pushPts _).pushTris (by
      rw [pushPts_verts, List.length_append, List.length_flatMap]
      simpa [mul_comm] using corners (if b then B.clear else B).kern.verts.length)
  · simp only [pushTris, pushPts]
    rw [hc.1, len]
  · simp only [pushTris_verts, pushPts_verts]
    refine List.rel_append hc.2 (forall₂_flatMap _ fun j hj => ?_)
    rw [List.forall₂_map_left_iff, List.forall₂_map_right_iff, List.forall₂_same]
    intro i hi
    rw [List.mem_range] at hi hj
    obtain ⟨P, eP, n⟩ := sample_rounded H hv hf hU hV (i := i) (j := j) (by omega) (by omega)
    rw [eP]
    exact n.mono hE

/-- **C119** `to_mesh` in rounded arithmetic makes a mesh with the same triangles as in exact
arithmetic; each vertex is within `meshError` of the exact one in every coordinate. -/
theorem to_mesh_rounded {u η Ω e : ℝ} (H : MeshOK u η Ω e fl) {s : Surface ℝ} {p q nu nv : Nat} (hv : s.Valid p q nu nv)
    {w W R h g : ℝ} (hf : SurfaceFits u Ω e s p q w W R h g) {k : Nat} (hk : 0 < k) (M : Mesh ℝ) (hM : M.OK) (b : Bool) :
    ∃ s1 M1 s2 M2, toMesh s M k b = some (s1, M1) ∧ toMeshRounded fl s M k b = some (s2, M2) ∧ s.SameShape s1 ∧ s.SameShape s2 ∧
      M1.OK ∧ M2.OK ∧ MeshNear (meshError u p q w W R h g) M1 M2 := by
  have E0 : 0 ≤ meshError u p q w W R h g := by
    obtain ⟨P, -, n⟩ := sample_rounded H hv hf (U := 1) (V := 1) (i := 0) (j := 0) one_pos one_pos zero_le_one zero_le_one
    exact (abs_nonneg _).trans n.1
  obtain ⟨s1, M1, s2, M2, e1, e2, hs1, hs2, o1, o2, c⟩ := to_mesh_close H hv hf le_rfl hk hM hM (Close.refl E0 M) b
  exact ⟨s1, M1, s2, M2, e1, e2, hs1, hs2, o1, o2, c.meshNear⟩

/-- **C119**, solids -/
theorem to_mesh_solid_rounded {u η Ω e : ℝ} (H : MeshOK u η Ω e fl) {E : ℝ} (hE : 0 ≤ E) (ns : Solid ℝ)
    (hns : ∀ s ∈ ns, ∃ p q nu nv w W R h g, s.Valid p q nu nv ∧ SurfaceFits u Ω e s p q w W R h g ∧ meshError u p q w W R h g ≤ E)
    {k : Nat} (hk : 0 < k) (M : Mesh ℝ) :
    ∃ M1 M2, toMeshSolid ns M k = some M1 ∧ toMeshSolidRounded fl ns M k = some M2 ∧ M1.OK ∧ M2.OK ∧ MeshNear E M1 M2 := by
  have key : ∀ (l : Solid ℝ) (A B : Mesh ℝ), A.OK → B.OK → Close E A B → (∀ s ∈ l, s ∈ ns) →
      ∃ A' B', l.foldlM (fun m f => do
          let a ← toMesh f m k false
          return a.2) A = some A' ∧ l.foldlM (fun m f => do
          let a ← toMeshRounded fl f m k false
          return a.2) B = some B' ∧ A'.OK ∧ B'.OK ∧ Close E A' B' := by
    intro l
    induction l with
    | nil => intro A B hA hB hc _; exact ⟨A, B, rfl, rfl, hA, hB, hc⟩
    | cons s l ih =>
      intro A B hA hB hc hl
      obtain ⟨p, q, nu, nv, w, W, R, h, g, hv, hf, he⟩ := hns s (hl s (by simp))
      obtain ⟨s1, A', s2, B', e1, e2, -, -, o1, o2, c⟩ := to_mesh_close H hv hf he hk hA hB hc false
      obtain ⟨A'', B'', e3, e4, r⟩ := ih A' B' o1 o2 c fun t ht => hl t (by simp [ht])
      refine ⟨A'', B'', ?_, ?_, r⟩
      · rw [List.foldlM_cons, e1]
        exact e3
      · rw [List.foldlM_cons, e2]
        exact e4
  obtain ⟨A, B, e1, e2, o1, o2, c⟩ := key ns M.clear M.clear (clear_ok M) (clear_ok M) (Close.refl hE _) fun s h => h
  exact ⟨A, B, e1, e2, o1, o2, c.meshNear⟩

theorem meshOK_double : MeshOK (2 ^ (-53 : ℤ)) (2 ^ (-1075 : ℤ)) (2 ^ (1023 : ℤ)) (2 ^ (-511 : ℤ)) double where
  toEvalOK := evalOK_double
  mono := ieee_mono (by norm_num)
  zero := ieee_zero
  one := by simpa [double] using ieee_int (p := 53) (emin := -1074) (by norm_num) (k := 1) (by norm_num)

/-- surfaces for which `to_mesh` in `double` is covered: no overflow, no underflow -/
structure DoubleSurface (s : Surface ℝ) (p q : Nat) (w W R h g : ℝ) : Prop where
  bounds : SurfaceBounds s p q w W R h g ⟨0, 0, 0⟩
  h0 : 2 ^ (-500 : ℤ) ≤ h
  g0 : 2 ^ (-500 : ℤ) ≤ g
  w0 : 2 ^ (-500 : ℤ) ≤ w
  wW : w ≤ W
  W1 : W ≤ 2 ^ (500 : ℤ)
  ratio : W ≤ 2 ^ 20 * w
  R0 : 2 ^ (-500 : ℤ) ≤ R
  R1 : R ≤ 2 ^ (500 : ℤ)
  p1 : p ≤ 1000
  q1 : q ≤ 1000

theorem DoubleSurface.fits {s : Surface ℝ} {p q : Nat} {w W R h g : ℝ} (H : DoubleSurface s p q w W R h g) :
    SurfaceFits (2 ^ (-53 : ℤ)) (2 ^ (1023 : ℤ)) (2 ^ (-511 : ℤ)) s p q w W R h g := by
  have le : (2 : ℝ) ^ (-511 : ℤ) ≤ 2 ^ (-500 : ℤ) := zpow_le_zpow_right₀ (by norm_num) (by norm_num)
  have pR : (p : ℝ) ≤ 1000 := by exact_mod_cast H.p1
  have qR : (q : ℝ) ≤ 1000 := by exact_mod_cast H.q1
  have p0 : (0 : ℝ) ≤ p := Nat.cast_nonneg p
  have q0 : (0 : ℝ) ≤ q := Nat.cast_nonneg q
  have hr : DoubleRange [] s.weights s.points w W R := ⟨by simp, H.bounds.weight, by simpa using H.bounds.point, H.w0, H.W1, H.ratio, H.R0, H.R1⟩
  exact ⟨H.bounds, le.trans H.h0, le.trans H.g0, le.trans H.w0, le.trans H.R0,
    small_double (by norm_num; linarith) H.bounds.w0 H.ratio (H.bounds.w0.le.trans H.wW), hr.over H.wW⟩

/-- **C119** for `double` -/
theorem to_mesh_double {s : Surface ℝ} {p q nu nv : Nat} (hv : s.Valid p q nu nv) {w W R h g : ℝ} (hf : DoubleSurface s p q w W R h g)
    {k : Nat} (hk : 0 < k) (M : Mesh ℝ) (hM : M.OK) (b : Bool) :
    ∃ s1 M1 s2 M2, toMesh s M k b = some (s1, M1) ∧ toMeshRounded double s M k b = some (s2, M2) ∧ s.SameShape s1 ∧ s.SameShape s2 ∧
      M1.OK ∧ M2.OK ∧ MeshNear (((44 * (p + q) + 5) * (W / w) * R + 8 * (p / h + q / g) * (W / w) * R) * 2 ^ (-53 : ℤ)) M1 M2 := by
  obtain ⟨s1, M1, s2, M2, e1, e2, hs1, hs2, o1, o2, c⟩ := to_mesh_rounded meshOK_double hv hf.fits hk M hM b
  refine ⟨s1, M1, s2, M2, e1, e2, hs1, hs2, o1, o2, ?_⟩
  have : meshError (2 ^ (-53 : ℤ)) p q w W R h g = ((44 * (p + q) + 5) * (W / w) * R + 8 * (p / h + q / g) * (W / w) * R) * 2 ^ (-53 : ℤ) := by
    unfold meshError
    ring
  rwa [this] at c

/-- a closed tube at 40 samples for each control point -/
example : ∃ s1 M1 s2 M2, toMesh (tubeC 0 2) Mesh.new 40 true = some (s1, M1) ∧
    toMeshRounded double (tubeC 0 2) Mesh.new 40 true = some (s2, M2) ∧ (tubeC 0 2).SameShape s1 ∧ (tubeC 0 2).SameShape s2 ∧ M1.OK ∧ M2.OK ∧
    MeshNear (((44 * ((2 : ℕ) + (1 : ℕ)) + 5) * (1 / (3 / 4)) * 2 + 8 * ((2 : ℕ) / 1 + (1 : ℕ) / 1) * (1 / (3 / 4)) * 2) * 2 ^ (-53 : ℤ)) M1 M2 := by
  have a : (2 : ℝ) ^ (-500 : ℤ) ≤ 2 ^ (-1 : ℤ) := zpow_le_zpow_right₀ (by norm_num) (by norm_num)
  have b : (2 : ℝ) ^ (1 : ℤ) ≤ 2 ^ (500 : ℤ) := zpow_le_zpow_right₀ (by norm_num) (by norm_num)
  rw [zpow_one] at b
  rw [zpow_neg_one] at a
  have t := tubeC_bounds
  refine to_mesh_double (tubeC_valid 0 2) ⟨⟨by norm_num, by norm_num, by norm_num, t.weight, fun q hq => ?_, t.gapU, t.gapV, t.multU, t.multV⟩,
    a.trans (by norm_num), a.trans (by norm_num), a.trans (by norm_num), by norm_num, le_trans (by norm_num) b, by norm_num,
    a.trans (by norm_num), b, by norm_num, by norm_num⟩
    (by norm_num) _ new_ok _
  simp only [tubeC, tubeR, List.mem_cons, List.not_mem_nil, or_false] at hq
  rcases hq with rfl | rfl | rfl | rfl | rfl | rfl <;> norm_num

end Nurbs
end CAD
