import Verif.Props.NurbsShapesDouble
import Verif.Props.NurbsMeshRounded
import Verif.Props.FactoryMeasured

/-! C131: meshes of the NURBS sphere, torus and cylinder made in `double`. -/

namespace CAD
namespace Nurbs
open BSpline Mesh Set

variable {fl : ℝ → ℝ}

/-- `to_mesh` of a surface in exact arithmetic and of another one in rounded arithmetic, whose samples
are near -/
theorem to_mesh_pair {s s' : Surface ℝ} {p q nu nv : Nat} (hv : s.Valid p q nu nv) (hv' : s'.Valid p q nu nv) (cu : s'.closedU = s.closedU)
    (cv : s'.closedV = s.closedV) (hw : ∀ x ∈ s.weights, 0 < x) (apU : Apart fl s'.knotsU) (apV : Apart fl s'.knotsV) {k : Nat} (hk : 0 < k) {E : ℝ}
    (sm : ∀ i ≤ k * nu, ∀ j ≤ k * nv, ∃ P, s'.atRounded fl (fl ((i : ℝ) / (k * nu : ℕ))) (fl ((j : ℝ) / (k * nv : ℕ))) = some P ∧
      Near E (sample s (k * nu) (k * nv) i j) P)
    {A B : Mesh ℝ} (hA : A.OK) (hB : B.OK) (hAB : Close E A B) (b : Bool) :
    ∃ s1 A' s2 B', toMesh s A k b = some (s1, A') ∧ toMeshRounded fl s' B k b = some (s2, B') ∧ A'.OK ∧ B'.OK ∧ Close E A' B' ∧
      ∀ P ∈ A'.kern.verts, P ∈ A.kern.verts ∨ ∃ a b, 0 ≤ a ∧ a ≤ 1 ∧ 0 ≤ b ∧ b ≤ 1 ∧ s.at a b = some P := by
  have nu0 := hv.knotsU.p_lt_n
  have nv0 := hv.knotsV.p_lt_n
  have hU : 0 < k * nu := Nat.mul_pos hk (by omega)
  have hV : 0 < k * nv := Nat.mul_pos hk (by omega)
  have U0 : ((k * nu : ℕ) : ℝ) ≠ 0 := by exact_mod_cast hU.ne'
  have V0 : ((k * nv : ℕ) : ℝ) ≠ 0 := by exact_mod_cast hV.ne'
  obtain ⟨s1, -, -, e1⟩ := toMesh_eq hv hw hk A b
  obtain ⟨s2, -, -, e2⟩ := toMeshBy_eq (o := roundedOps fl) (quot := roundedQuot fl) hv' hk
    (g := fun i j => (s'.atRounded fl (fl ((i : ℝ) / (k * nu : ℕ))) (fl ((j : ℝ) / (k * nv : ℕ)))).getD ⟨0, 0, 0⟩) (fun i hi j hj => by
      refine ⟨_, _, if_neg U0, if_neg V0, fun t ht hst => ?_⟩
      obtain ⟨P, eP, -⟩ := sm i hi j hj
      rw [eP]
      exact surface_rounded_run hv' apU apV eP ht hst) B b
  have hc : Close E (if b then A.clear else A) (if b then B.clear else B) := by
    split_ifs
    · exact ⟨rfl, List.Forall₂.nil⟩
    · exact hAB
  have okA : (if b then A.clear else A).OK := by split_ifs; exacts [clear_ok A, hA]
  have okB : (if b then B.clear else B).OK := by split_ifs; exacts [clear_ok B, hB]
  have len := hc.2.length_eq
  have corners : ∀ n : Nat, ∀ f ∈ meshFaces s.closedU s.closedV n (k * nu) (k * nv), CornersIn (n + (k * nu + 1) * (k * nv + 1)) f := by
    intro n f hf
    obtain ⟨⟨a1, a2⟩, ⟨b1, b2⟩, c1, c2⟩ := meshFaces_range f hf
    refine ⟨⟨by omega, ?_⟩, ⟨by omega, ?_⟩, by omega, ?_⟩ <;> push_cast at * <;> assumption
  rw [cu, cv] at e2
  refine ⟨s1, _, s2, _, e1, e2, ?_, ?_, ⟨?_, ?_⟩, ?_⟩
  · exact (okA.pushPts _).pushTris (by
      rw [pushPts_verts, List.length_append, length_samples]; exact corners _)
  · exact (okB.pushPts _).pushTris (by
      rw [pushPts_verts, List.length_append, List.length_flatMap]
      simpa [mul_comm] using corners (if b then B.clear else B).kern.verts.length)
  · simp only [pushTris, pushPts]
    rw [hc.1, len]
  · simp only [pushTris_verts, pushPts_verts]
    refine List.rel_append hc.2 (forall₂_flatMap _ fun j hj => ?_)
    rw [List.forall₂_map_left_iff, List.forall₂_map_right_iff, List.forall₂_same]
    intro i hi
    rw [List.mem_range] at hi hj
    obtain ⟨P, eP, n⟩ := sm i (by omega) j (by omega)
    rw [eP]
    exact n
  · rw [pushTris_verts, pushPts_verts]
    intro P hP
    rcases List.mem_append.1 hP with h | h
    · left
      split_ifs at h
      · exact absurd h List.not_mem_nil
      · exact h
    · right
      simp only [samples, List.mem_flatMap, List.mem_map, List.mem_range] at h
      obtain ⟨j, hj, i, hi, rfl⟩ := h
      obtain ⟨c0, c1⟩ := frac_mem (K := ℝ) (show i ≤ k * nu by omega) hU
      obtain ⟨d0, d1⟩ := frac_mem (K := ℝ) (show j ≤ k * nv by omega) hV
      exact ⟨_, _, c0, c1, d0, d1, sample_eq hv hw hU hV (by omega) (by omega)⟩

/-- an exact surface with the knots of a circle and the surface that `double` makes of it -/
structure ShapeOff (R : ℝ) (q n : Nat) (s s' : Surface ℝ) : Prop where
  q2 : q ≤ 2
  lo : 2 ^ (-400 : ℤ) ≤ R
  hi : R ≤ 2 ^ (400 : ℤ)
  valid : s.Valid 2 q 9 n
  valid' : s'.Valid 2 q 9 n
  off : SurfOff (10 * (2 ^ (-53 : ℤ) * R)) (6 * 2 ^ (-53 : ℤ)) 9 n s s'
  wt : ∀ i < 9, ∀ j < n, 1 / 2 ≤ s.wt 9 i j ∧ s.wt 9 i j ≤ 1
  pt : ∀ i < 9, ∀ j < n, Box R (s.pt 9 i j)
  ku : s.knotsU = knotsCircle
  kv : s.knotsV = knotsCircle ∧ q = 2 ∨ s.knotsV = knotsHalf ∧ q = 2 ∨ s.knotsV = knots01 ∧ q = 1
  cu : s'.closedU = s.closedU
  cv : s'.closedV = s.closedV

theorem knotsCircle_mult (x : ℝ) (h0 : 0 < x) (h1 : x < 1) : (knotsCircle : List ℝ).count x ≤ 2 := by
  simp only [knotsCircle, List.count_cons, List.count_nil, beq_iff_eq]
  have a : ¬ (0 : ℝ) = x := h0.ne
  have b : ¬ (1 : ℝ) = x := h1.ne'
  simp only [a, b, if_false]
  split_ifs <;> first | (exfalso; linarith) | norm_num

theorem knotsHalf_mult (x : ℝ) (h0 : 0 < x) (h1 : x < 1) : (knotsHalf : List ℝ).count x ≤ 2 := by
  simp only [knotsHalf, List.count_cons, List.count_nil, beq_iff_eq]
  have a : ¬ (0 : ℝ) = x := h0.ne
  have b : ¬ (1 : ℝ) = x := h1.ne'
  simp only [a, b, if_false]
  split_ifs <;> norm_num

theorem knots01_mult (x : ℝ) (h0 : 0 < x) (h1 : x < 1) : (knots01 : List ℝ).count x ≤ 1 := by
  simp only [knots01, List.count_cons, List.count_nil, beq_iff_eq]
  have a : ¬ (0 : ℝ) = x := h0.ne
  have b : ¬ (1 : ℝ) = x := h1.ne'
  simp [a, b]

theorem ShapeOff.qu {R : ℝ} {q n : Nat} {s s' : Surface ℝ} (h : ShapeOff R q n s s') : QuarterKnots s.knotsU := by
  rw [h.ku]; exact knotsCircle_quarter

theorem ShapeOff.qv {R : ℝ} {q n : Nat} {s s' : Surface ℝ} (h : ShapeOff R q n s s') : QuarterKnots s.knotsV := by
  rcases h.kv with ⟨e, -⟩ | ⟨e, -⟩ | ⟨e, -⟩ <;> rw [e]
  exacts [knotsCircle_quarter, knotsHalf_quarter, knots01_quarter]

theorem ShapeOff.mv {R : ℝ} {q n : Nat} {s s' : Surface ℝ} (h : ShapeOff R q n s s') (x : ℝ) (h0 : 0 < x) (h1 : x < 1) :
    s.knotsV.count x ≤ q := by
  rcases h.kv with ⟨e, rfl⟩ | ⟨e, rfl⟩ | ⟨e, rfl⟩ <;> rw [e]
  exacts [knotsCircle_mult x h0 h1, knotsHalf_mult x h0 h1, knots01_mult x h0 h1]

theorem quarter_apart {knots : List ℝ} {p n : Nat} (hk : ClampedKnots knots p n) (h : QuarterKnots knots) : Apart double knots :=
  evalOK_double.apart hk (one_le_zpow₀ (by norm_num) (by norm_num)) fun a ha b hb hab =>
    le_trans (le_trans (zpow_le_zpow_right₀ (by norm_num) (by norm_num : (-511 : ℤ) ≤ -2)) (by norm_num)) (h a ha b hb hab)

/-- a sample of the surface in `double`, at the parameter in `double` -/
theorem ShapeOff.sample {R : ℝ} {q n : Nat} {s s' : Surface ℝ} (h : ShapeOff R q n s s') {U V i j : Nat} (hU : 0 < U) (hV : 0 < V) (hi : i ≤ U)
    (hj : j ≤ V) : ∃ P, s'.atRounded double (double ((i : ℝ) / U)) (double ((j : ℝ) / V)) = some P ∧
      Near (700 * 2 ^ (-53 : ℤ) * R) (sample s U V i j) P := by
  have R0 := small_off h.lo
  have u0 : (0 : ℝ) < 2 ^ (-53 : ℤ) := by positivity
  have hη : (2 : ℝ) ^ (-1075 : ℤ) ≤ 2 ^ (-53 : ℤ) := zpow_le_zpow_right₀ (by norm_num) (by norm_num)
  have hΩ : (1 : ℝ) ≤ 2 ^ (1023 : ℤ) := one_le_zpow₀ (by norm_num) (by norm_num)
  have wt : ∀ x ∈ s.weights, 1 / 2 ≤ x ∧ x ≤ 1 := surf_weight_pos h.valid h.wt
  have hw : ∀ x ∈ s.weights, 0 < x := fun x hx => by linarith [(wt x hx).1]
  have pt : ∀ x ∈ s.points, Box R x := surf_point_box h.valid h.pt
  obtain ⟨-, a0, a1, ae⟩ := quot_near meshOK_double.rounds u0.le meshOK_double.mono meshOK_double.zero meshOK_double.one hη hΩ hi hU
  obtain ⟨-, b0, b1, be⟩ := quot_near meshOK_double.rounds u0.le meshOK_double.mono meshOK_double.zero meshOK_double.one hη hΩ hj hV
  obtain ⟨c0, c1⟩ := frac_mem (K := ℝ) hi hU
  obtain ⟨d0, d1⟩ := frac_mem (K := ℝ) hj hV
  obtain ⟨X, P, e1, e2, n1, n2, n3⟩ := surface_off_double h.q2 h.valid h.valid' h.lo h.hi h.off h.wt h.pt h.qu h.qv a0 a1 b0 b1
  obtain ⟨Y, Q, f1, f2, m1, m2, m3⟩ := surface_lipschitz (m := ⟨0, 0, 0⟩) (R := R) (h := 1 / 4) (g := 1 / 4) h.valid (by norm_num) wt
    (fun x hx => by simpa [Box] using pt x hx) (by norm_num) (by norm_num) h.qu h.qv
    (fun x h0 h1 => by rw [h.ku]; exact knotsCircle_mult x h0 h1) h.mv
    (a := (i : ℝ) / U) (a' := double ((i : ℝ) / U)) (b := (j : ℝ) / V) (b' := double ((j : ℝ) / V)) ⟨c0, c1⟩ ⟨a0, a1⟩ ⟨d0, d1⟩ ⟨b0, b1⟩
  rw [e1, Option.some.injEq] at f2
  subst f2
  rw [sample_eq h.valid hw hU hV hi hj, Option.some.injEq] at f1
  subst f1
  have q2 : (q : ℝ) ≤ 2 := by exact_mod_cast h.q2
  have q0 : (0 : ℝ) ≤ q := Nat.cast_nonneg q
  have t1 : 4 * (2 : ℕ) * (1 / (1 / 2)) * R / (1 / 4) * |double ((i : ℝ) / U) - i / U| ≤ 128 * (2 ^ (-53 : ℤ) * R) := by
    refine (mul_le_mul_of_nonneg_left ae (by positivity)).trans (le_of_eq ?_)
    push_cast
    ring
  have t2 : 4 * q * (1 / (1 / 2)) * R / (1 / 4) * |double ((j : ℝ) / V) - j / V| ≤ 128 * (2 ^ (-53 : ℤ) * R) := by
    refine (mul_le_mul_of_nonneg_left be (by positivity)).trans ?_
    have uR : 0 < 2 ^ (-53 : ℤ) * R := by positivity
    rw [show 4 * (q : ℝ) * (1 / (1 / 2)) * R / (1 / 4) * (2 * 2 ^ (-53 : ℤ)) = 64 * q * (2 ^ (-53 : ℤ) * R) by ring]
    exact mul_le_mul_of_nonneg_right (by linarith) uR.le
  have uR : 0 < 2 ^ (-53 : ℤ) * R := by positivity
  rw [mul_assoc] at n1 n2 n3
  refine ⟨P, e2, ?_, ?_, ?_⟩ <;> rw [mul_assoc] <;> generalize (2 : ℝ) ^ (-53 : ℤ) * R = v at *
  · have := abs_sub_le P.x X.x (Nurbs.sample s U V i j).x; linarith
  · have := abs_sub_le P.y X.y (Nurbs.sample s U V i j).y; linarith
  · have := abs_sub_le P.z X.z (Nurbs.sample s U V i j).z; linarith

/-- **C131** a solid made of such surfaces -/
theorem solid_mesh_off {R : ℝ} {ns ns' : Solid ℝ} (h : List.Forall₂ (fun s s' => ∃ q n, ShapeOff R q n s s') ns ns') {k : Nat}
    (hk : 0 < k) (m m' : Mesh ℝ) :
    ∃ M M', toMeshSolid ns m k = some M ∧ toMeshSolidRounded double ns' m' k = some M' ∧ M.OK ∧ M'.OK ∧
      Close (700 * 2 ^ (-53 : ℤ) * R) M M' ∧
      ∀ P ∈ M.kern.verts, ∃ s ∈ ns, ∃ a b, 0 ≤ a ∧ a ≤ 1 ∧ 0 ≤ b ∧ b ≤ 1 ∧ s.at a b = some P := by
  have key : ∀ (l l' : Solid ℝ), List.Forall₂ (fun s s' => ∃ q n, ShapeOff R q n s s') l l' → ∀ A B : Mesh ℝ, A.OK → B.OK →
      Close (700 * 2 ^ (-53 : ℤ) * R) A B →
      ∃ A' B', l.foldlM (fun m f => do
          let a ← toMesh f m k false
          return a.2) A = some A' ∧ l'.foldlM (fun m f => do
          let a ← toMeshRounded double f m k false
          return a.2) B = some B' ∧ A'.OK ∧ B'.OK ∧ Close (700 * 2 ^ (-53 : ℤ) * R) A' B' ∧
          ∀ P ∈ A'.kern.verts, P ∈ A.kern.verts ∨ ∃ s ∈ l, ∃ a b, 0 ≤ a ∧ a ≤ 1 ∧ 0 ≤ b ∧ b ≤ 1 ∧ s.at a b = some P := by
    intro l l' hl
    induction hl with
    | nil => intro A B hA hB hc; exact ⟨A, B, rfl, rfl, hA, hB, hc, fun P hP => Or.inl hP⟩
    | @cons s s' l l' hs _ ih =>
      intro A B hA hB hc
      obtain ⟨q, n, H⟩ := hs
      have n0 := H.valid.knotsV.p_lt_n
      have hw : ∀ x ∈ s.weights, 0 < x := fun x hx => by linarith [(surf_weight_pos H.valid H.wt x hx).1]
      have apU : Apart double s'.knotsU := by
        rw [H.off.knotsU]
        exact quarter_apart H.valid.knotsU H.qu
      have apV : Apart double s'.knotsV := by
        rw [H.off.knotsV]
        exact quarter_apart H.valid.knotsV H.qv
      obtain ⟨s1, A', s2, B', e1, e2, o1, o2, c, hP⟩ := to_mesh_pair H.valid H.valid' H.cu H.cv hw apU apV hk
        (fun i hi j hj => H.sample (Nat.mul_pos hk (by omega)) (Nat.mul_pos hk (by omega)) hi hj) hA hB hc false
      obtain ⟨A'', B'', e3, e4, o3, o4, c', hP'⟩ := ih A' B' o1 o2 c
      refine ⟨A'', B'', ?_, ?_, o3, o4, c', fun P h => ?_⟩
      · rw [List.foldlM_cons, e1]
        exact e3
      · rw [List.foldlM_cons, e2]
        exact e4
      · rcases hP' P h with h | ⟨t, ht, r⟩
        · rcases hP P h with h | r
          · exact Or.inl h
          · exact Or.inr ⟨s, by simp, r⟩
        · exact Or.inr ⟨t, by simp [ht], r⟩
  obtain ⟨A, B, e1, e2, o1, o2, c, hP⟩ := key ns ns' h m.clear m'.clear (clear_ok m) (clear_ok m') ⟨rfl, List.Forall₂.nil⟩
  refine ⟨A, B, e1, e2, o1, o2, c, fun P h => ?_⟩
  rcases hP P h with h | h
  · exact absurd h List.not_mem_nil
  · exact h

theorem Close.back {d : ℝ} {A B : Mesh ℝ} (h : Close d A B) {i : Int} {P' : P3 ℝ} (hP : B.getVertex i = some P') :
    ∃ P, A.getVertex i = some P ∧ P ∈ A.kern.verts ∧ Near d P P' := by
  rw [(answers_view B).getVertex] at hP
  obtain ⟨n, rfl, hn⟩ := getI_eq_some_iff.1 hP
  have hn' : B.kern.verts[n]? = some P' := hn
  obtain ⟨hl, rfl⟩ := List.getElem?_eq_some_iff.1 hn'
  have hl' : n < A.kern.verts.length := by rw [h.2.length_eq]; exact hl
  exact ⟨A.kern.verts[n], by
    rw [(answers_view A).getVertex]
    exact getI_eq_some_iff.2 ⟨n, rfl, List.getElem?_eq_getElem hl'⟩, List.getElem_mem hl', (List.forall₂_iff_get.1 h.2).2 n hl' hl⟩

/-! ### the flag `closed_v` -/

theorem double_ge {T x : ℝ} (hT : 2 ^ (-800 : ℤ) ≤ T) (hx : T ≤ x) : 0.99 * x ≤ double x := by
  have T0 : 0 < T := lt_of_lt_of_le (by positivity) hT
  have e := Rounded.double_err x
  have u : (2 : ℝ) ^ (-53 : ℤ) ≤ 1 / 1000 := by norm_num
  have η : (2 : ℝ) ^ (-1075 : ℤ) ≤ 1 / 1000 * T := by
    refine le_trans ?_ (mul_le_mul_of_nonneg_left hT (by norm_num))
    rw [show (-1075 : ℤ) = -275 + -800 by norm_num, zpow_add₀ (by norm_num)]
    refine mul_le_mul_of_nonneg_right ?_ (by positivity)
    exact le_trans (zpow_le_zpow_right₀ (by norm_num) (by norm_num : (-275 : ℤ) ≤ -10)) (by norm_num)
  rw [abs_of_pos (by linarith : 0 < x)] at e
  have := (abs_le.1 e).1
  generalize (2 : ℝ) ^ (-53 : ℤ) = u at *
  generalize (2 : ℝ) ^ (-1075 : ℤ) = η at *
  nlinarith

theorem tol_sq {tol : ℝ} (ht : 2 ^ (-400 : ℤ) ≤ tol) : 2 ^ (-800 : ℤ) ≤ tol * tol := by
  have := mul_self_le_mul_self (by positivity) ht
  rwa [← zpow_add₀ (by norm_num), show (-400 : ℤ) + -400 = -800 by norm_num] at this

theorem double_nonneg {x : ℝ} (h : 0 ≤ x) : 0 ≤ double x := meshOK_double.zero ▸ meshOK_double.mono h

/-- first and last control point far from each other in x or z -/
theorem open_double {c : Curve ℝ} {p q : P3 ℝ} {l : List (P3 ℝ)} (h : c.points = p :: (l ++ [q])) {tol : ℝ} (ht : 2 ^ (-400 : ℤ) ≤ tol)
    (hx : 1.5 * tol ≤ |double (p.x - q.x)| ∨ 1.5 * tol ≤ |double (p.z - q.z)|) : c.isClosedRounded double tol = some false := by
  have t0 := small_off ht
  have T := tol_sq ht
  have TT : 0 < tol * tol := mul_pos t0 t0
  have mono := meshOK_double.mono
  have e : c.isClosedRounded double tol = some (@decide (Rounded.normSq double (Rounded.sub double p q) < double (tol * tol)) (Classical.propDecidable _)) := by
    unfold Curve.isClosedRounded
    rw [h, if_neg (by simp), show (((p :: (l ++ [q])).length : Int) - 1) = ((l.length + 1 : Nat) : Int) by simp, getI_natCast,
      show (0 : Int) = ((0 : Nat) : Int) by rfl, getI_natCast]
    simp
  rw [e, Option.some.injEq, decide_eq_false_iff_not, not_lt]
  unfold Rounded.normSq Rounded.sub
  simp only
  have sq : ∀ x : ℝ, 1.5 * tol ≤ |x| → 2.2 * (tol * tol) ≤ double (x * x) := fun x hx => by
    have a : 2.25 * (tol * tol) ≤ x * x := by
      have := mul_self_le_mul_self (by linarith) hx
      rw [abs_mul_abs_self] at this
      linarith
    have := double_ge T (by linarith : tol * tol ≤ x * x)
    linarith
  have nn : ∀ x : ℝ, 0 ≤ double (x * x) := fun x => double_nonneg (mul_self_nonneg x)
  rcases hx with hx | hx
  · have a := sq _ hx
    have b := nn (double (p.y - q.y))
    have c := nn (double (p.z - q.z))
    have d := double_ge T (by linarith : tol * tol ≤ double (double (p.x - q.x) * double (p.x - q.x)) + double (double (p.y - q.y) * double (p.y - q.y)))
    exact mono (by linarith)
  · have a := sq _ hx
    have b := double_nonneg (add_nonneg (nn (double (p.x - q.x))) (nn (double (p.y - q.y))))
    exact mono (by linarith)

/-- first and last control point equal -/
theorem closed_double {c : Curve ℝ} {p : P3 ℝ} {l : List (P3 ℝ)} (h : c.points = p :: (l ++ [p])) {tol : ℝ} (ht : 2 ^ (-400 : ℤ) ≤ tol) :
    c.isClosedRounded double tol = some true := by
  have t0 := small_off ht
  have T := tol_sq ht
  have TT : 0 < tol * tol := mul_pos t0 t0
  have e : c.isClosedRounded double tol = some (@decide (Rounded.normSq double (Rounded.sub double p p) < double (tol * tol)) (Classical.propDecidable _)) := by
    unfold Curve.isClosedRounded
    rw [h, if_neg (by simp), show (((p :: (l ++ [p])).length : Int) - 1) = ((l.length + 1 : Nat) : Int) by simp, getI_natCast,
      show (0 : Int) = ((0 : Nat) : Int) by rfl, getI_natCast]
    simp
  have z : double 0 = 0 := meshOK_double.zero
  rw [e, Option.some.injEq, decide_eq_true_iff]
  unfold Rounded.normSq Rounded.sub
  simp only [sub_self, z, mul_zero, add_zero]
  have := double_ge T le_rfl
  have : 0 < tol * tol := mul_pos t0 t0
  linarith

/-- the exact test -/
theorem isClosed_ends {c : Curve ℝ} {p q : P3 ℝ} {l : List (P3 ℝ)} (h : c.points = p :: (l ++ [q])) (tol : ℝ) :
    c.isClosed tol = some (decide ((p - q).normSq < tol * tol)) := by
  unfold Curve.isClosed
  rw [h, if_neg (by simp), show (((p :: (l ++ [q])).length : Int) - 1) = ((l.length + 1 : Nat) : Int) by simp, getI_natCast,
    show (0 : Int) = ((0 : Nat) : Int) by rfl, getI_natCast]
  simp

theorem circle_points {r2 r : ℝ} {C : Curve ℝ} {nc : Curve ℝ} (h : createCircle r2 r nc = some C) :
    C.points = r • ⟨1, 0, 0⟩ :: ([r • ⟨1, 1, 0⟩, r • ⟨0, 1, 0⟩, r • ⟨-1, 1, 0⟩, r • ⟨-1, 0, 0⟩, r • ⟨-1, -1, 0⟩, r • ⟨0, -1, 0⟩,
      r • ⟨1, -1, 0⟩] ++ [r • ⟨1, 0, 0⟩]) := by
  obtain ⟨tp, tw, e, l1, l2⟩ := setDegree_curve nc.clear 2
  simp only [Nat.cast_ofNat] at e
  simp only [createCircle, e, Option.bind_eq_bind, Option.bind_some, Curve.setKnots, scaleKnots_self knotsCircle_clamped, Option.pure_def,
    Option.some.injEq] at h
  rw [← h]
  rfl

theorem circle_points_rounded {r : ℝ} {C : Curve ℝ} {nc : Curve ℝ} (h : createCircleRounded fl r nc = some C) :
    ∃ l, C.points = Rounded.scale fl r ⟨1, 0, 0⟩ :: (l ++ [Rounded.scale fl r ⟨1, 0, 0⟩]) := by
  obtain ⟨tp, tw, e, l1, l2⟩ := setDegree_curve nc.clear 2
  simp only [Nat.cast_ofNat] at e
  simp only [createCircleRounded, e, Option.bind_eq_bind, Option.bind_some, Curve.setKnots, scaleKnots_self knotsCircle_clamped, Option.pure_def,
    Option.some.injEq] at h
  rw [← h]
  exact ⟨[_, _, _, _, _, _, _], rfl⟩

theorem sphere_points {r2 r : ℝ} {C : Curve ℝ} (h : sphereProfile r2 r = some C) :
    ∃ l, C.points = r • ⟨0, 0, -1⟩ :: (l ++ [r • ⟨0, 0, 1⟩]) := by
  obtain ⟨tp, tw, e, l1, l2⟩ := setDegree_curve (Curve.new : Curve ℝ) 2
  simp only [Nat.cast_ofNat] at e
  simp only [sphereProfile, e, Option.bind_eq_bind, Option.bind_some, Curve.setKnots, scaleKnots_self knotsHalf_clamped, Option.pure_def,
    Option.some.injEq] at h
  rw [← h]
  exact ⟨[_, _, _], rfl⟩

theorem sphere_points_rounded {r : ℝ} {C : Curve ℝ} (h : sphereProfileRounded fl r = some C) :
    ∃ l, C.points = Rounded.scale fl r ⟨0, 0, -1⟩ :: (l ++ [Rounded.scale fl r ⟨0, 0, 1⟩]) := by
  obtain ⟨tp, tw, e, l1, l2⟩ := setDegree_curve (Curve.new : Curve ℝ) 2
  simp only [Nat.cast_ofNat] at e
  simp only [sphereProfileRounded, e, Option.bind_eq_bind, Option.bind_some, Curve.setKnots, scaleKnots_self knotsHalf_clamped, Option.pure_def,
    Option.some.injEq] at h
  rw [← h]
  exact ⟨[_, _, _], rfl⟩

/-! ### the shapes -/

theorem sphere_shape {r tol : ℝ} (hr : 2 ^ (-400 : ℤ) ≤ r) (hr' : r ≤ 2 ^ (400 : ℤ)) (ht : 2 ^ (-400 : ℤ) ≤ tol) (htr : tol ≤ r) :
    ∃ s s', createSphereSolid tol (Real.sqrt 2) r = some [s] ∧ createSphereSolidRounded double tol r = some [s'] ∧ ShapeOff r 2 5 s s' := by
  obtain ⟨C, C', e, e', hv, hv', hk, hk', hp, hw⟩ := sphereProfile_off hr
  obtain ⟨s, s', f, f', vs, vs', ku, kv, ⟨cu, cu', cv, cv'⟩, off, wt, pt⟩ := revolve_off hv hv' hr hk' hp hw tol Surface.new.clear Surface.new.clear
  have r0 := small_off hr
  have t0 := small_off ht
  have uR : 0 < 2 ^ (-53 : ℤ) * r := by positivity
  refine ⟨s.mapPoints mirrorY, s'.mapPoints mirrorY,
    by simp only [createSphereSolid, createSphere, e, f, Option.bind_eq_bind, Option.bind_some, Option.pure_def, Solid.add, List.nil_append],
    by simp only [createSphereSolidRounded, createSphereRounded, e', f', Option.bind_eq_bind, Option.bind_some, Option.pure_def, Solid.add,
      List.nil_append], ?_⟩
  have off' : SurfOff (10 * (2 ^ (-53 : ℤ) * r)) (6 * 2 ^ (-53 : ℤ)) 9 5 s s' :=
    ⟨off.knotsU, off.knotsV, fun i hi j hj => (off.points i hi j hj).mono (by linarith), off.weights⟩
  refine ⟨le_rfl, hr, hr', mapPoints_valid vs _, mapPoints_valid vs' _, off'.map vs vs' fun i hi j hj => (off'.points i hi j hj).mirror, wt,
    fun i hi j hj => by rw [mapPoints_pt vs _ hi hj]; exact (pt i hi j hj).mirror, ku, Or.inr (Or.inl ⟨kv.trans hk, rfl⟩), cu'.trans cu.symm, ?_⟩
  show s'.closedV = s.closedV
  obtain ⟨l, hl⟩ := sphere_points e
  obtain ⟨l', hl'⟩ := sphere_points_rounded e'
  rw [isClosed_ends hl, Option.some.injEq] at cv
  rw [open_double hl' ht (Or.inr ?_), Option.some.injEq] at cv'
  · rw [← cv, ← cv', eq_comm, decide_eq_false_iff_not, not_lt]
    simp [P3.normSq]
    nlinarith
  · have u1 : (2 : ℝ) ^ (-53 : ℤ) ≤ 1 / 1000 := by norm_num
    have ur1 : 2 ^ (-53 : ℤ) * r ≤ 1 / 1000 * r := mul_le_mul_of_nonneg_right u1 r0.le
    have a := (scale_off hr (x := 0) (y := 0) (z := -1) (by simp) (by simp) (by simp)).2.2
    have b := (scale_off hr (x := 0) (y := 0) (z := 1) (by simp) (by simp) (by simp)).2.2
    simp only [P3.smul_z] at a b
    generalize (Rounded.scale double r ⟨0, 0, -1⟩).z = z1 at *
    generalize (Rounded.scale double r ⟨0, 0, 1⟩).z = z2 at *
    rw [abs_le] at a b
    have d : |z1 - z2 - -2 * r| ≤ 1 / 100 * r := by rw [abs_le]; constructor <;> linarith
    have c := double_off (x := z1 - z2) (R := 3 * r) (by linarith) (by rw [abs_le] at d ⊢; constructor <;> linarith)
    rw [abs_le] at c d
    rw [abs_of_nonpos (by nlinarith)]
    nlinarith

theorem torus_shape {major minor tol : ℝ} (hm : 2 ^ (-400 : ℤ) ≤ minor) (hM : 0 ≤ major) (hM' : major + minor ≤ 2 ^ (400 : ℤ))
    (ht : 2 ^ (-400 : ℤ) ≤ tol) :
    ∃ s s', createTorusSolid tol (Real.sqrt 2) major minor = some [s] ∧ createTorusSolidRounded double tol major minor = some [s'] ∧
      ShapeOff (major + minor) 2 9 s s' := by
  obtain ⟨C, C', e, e', vC, vC', hk, hk', prof, hw⟩ := torusProfile_off hm hM
  have m0 := small_off hm
  have t0 := small_off ht
  have hR : 2 ^ (-400 : ℤ) ≤ major + minor := by linarith
  obtain ⟨s, s', f, f', vs, vs', ku, kv, ⟨cu, cu', cv, cv'⟩, off, wt, pt⟩ := revolve_off vC vC' hR hk' prof hw tol Surface.new.clear Surface.new.clear
  have uR : 0 < 2 ^ (-53 : ℤ) * (major + minor) := by positivity
  refine ⟨s.mapPoints mirrorY, s'.mapPoints mirrorY,
    by simp only [createTorusSolid, createTorus, e, f, Option.bind_eq_bind, Option.bind_some, Option.pure_def, Solid.add, List.nil_append],
    by simp only [createTorusSolidRounded, createTorusRounded, e', f', Option.bind_eq_bind, Option.bind_some, Option.pure_def, Solid.add,
      List.nil_append], ?_⟩
  have off' : SurfOff (10 * (2 ^ (-53 : ℤ) * (major + minor))) (6 * 2 ^ (-53 : ℤ)) 9 9 s s' :=
    ⟨off.knotsU, off.knotsV, fun i hi j hj => (off.points i hi j hj).mono (by linarith), off.weights⟩
  refine ⟨le_rfl, hR, hM', mapPoints_valid vs _, mapPoints_valid vs' _, off'.map vs vs' fun i hi j hj => (off'.points i hi j hj).mirror, wt,
    fun i hi j hj => by rw [mapPoints_pt vs _ hi hj]; exact (pt i hi j hj).mirror, ku, Or.inl ⟨kv.trans hk, rfl⟩, cu'.trans cu.symm, ?_⟩
  show s'.closedV = s.closedV
  have hl := circle_points e
  obtain ⟨l', hl'⟩ := circle_points_rounded e'
  rw [isClosed_ends (l := [_, _, _, _, _, _, _]) (by simp only [Curve.mapPoints, hl]; rfl), Option.some.injEq] at cv
  have hq : (C'.mapPoints fun p => (⟨double (p.x + major), -p.z, p.y⟩ : P3 ℝ)).points =
      (⟨double ((Rounded.scale double minor ⟨1, 0, 0⟩).x + major), -(Rounded.scale double minor ⟨1, 0, 0⟩).z,
        (Rounded.scale double minor ⟨1, 0, 0⟩).y⟩ : P3 ℝ) :: (l'.map (fun p => (⟨double (p.x + major), -p.z, p.y⟩ : P3 ℝ)) ++
      [⟨double ((Rounded.scale double minor ⟨1, 0, 0⟩).x + major), -(Rounded.scale double minor ⟨1, 0, 0⟩).z,
        (Rounded.scale double minor ⟨1, 0, 0⟩).y⟩]) := by
    simp only [Curve.mapPoints, hl', List.map_cons, List.map_append, List.map_nil]
  rw [closed_double hq ht, Option.some.injEq] at cv'
  rw [← cv, ← cv', eq_comm, decide_eq_true_iff]
  simpa [P3.normSq] using mul_pos t0 t0

theorem cylinder_shape {r h tol : ℝ} (hr : 2 ^ (-400 : ℤ) ≤ r) (hh : 2 * tol ≤ h) (hR' : r + h ≤ 2 ^ (400 : ℤ)) (ht : 2 ^ (-400 : ℤ) ≤ tol)
    (htr : 2 * tol ≤ r) :
    ∃ s1 s2 s3 s1' s2' s3', createCylinder tol (Real.sqrt 2) r h = some [s1, s2, s3] ∧
      createCylinderRounded double tol r h = some [s1', s2', s3'] ∧ ShapeOff (r + h) 1 2 s1 s1' ∧ ShapeOff (r + h) 1 2 s2 s2' ∧
      ShapeOff (r + h) 1 2 s3 s3' := by
  have r0 := small_off hr
  have t0 := small_off ht
  have h0 : 0 ≤ h := by linarith
  have R0 : 0 < r + h := by linarith
  have hR : 2 ^ (-400 : ℤ) ≤ r + h := by linarith
  have u0 : (0 : ℝ) < 2 ^ (-53 : ℤ) := by positivity
  have u1 : (2 : ℝ) ^ (-53 : ℤ) ≤ 1 / 1000 := by norm_num
  have uR : 0 < 2 ^ (-53 : ℤ) * (r + h) := by positivity
  have ur : 2 ^ (-53 : ℤ) * r ≤ 2 ^ (-53 : ℤ) * (r + h) := mul_le_mul_of_nonneg_left (by linarith) u0.le
  have z : double 0 = 0 := meshOK_double.zero
  obtain ⟨D, D', e, e', hv, hv', ku, kv, ho, hw, hp, du, du', cD, pD, dv, dv'⟩ := disk_off hr tol Surface.new Surface.new
  have flagD : D'.closedV = D.closedV := by
    rw [isClosed_ends (l := []) pD, Option.some.injEq] at dv
    rw [open_double (l := []) pD ht (Or.inl ?_), Option.some.injEq] at dv'
    · rw [← dv, ← dv', eq_comm, decide_eq_false_iff_not, not_lt]
      simp [P3.normSq]
      nlinarith
    · have c := double_off (x := 0 - r) (R := r) hr (by rw [zero_sub, abs_neg, abs_of_pos r0])
      rw [abs_le] at c
      rw [abs_of_nonpos (by nlinarith)]
      nlinarith
  obtain ⟨c, ec, vc, k1, w1, p1, -⟩ := createCurveFromPoints_two (⟨r, 0, -h / 2⟩ : P3 ℝ) ⟨r, 0, h / 2⟩ Curve.new
  obtain ⟨c', ec', vc', k1', w1', p1', -⟩ := createCurveFromPoints_two (⟨r, 0, double (-h / 2)⟩ : P3 ℝ) ⟨r, 0, double (h / 2)⟩ Curve.new
  have prof := sideProfile_off hr h0 p1 p1'
  obtain ⟨s, s', f, f', vs, vs', kus, kvs, ⟨su, su', sv, sv'⟩, off, wt, pt⟩ := revolve_off vc vc' hR (k1'.trans k1.symm) prof (by
      intro i hi
      rw [w1, w1', sub_self, abs_zero]
      obtain rfl | rfl : i = 0 ∨ i = 1 := by omega
      all_goals exact ⟨root_half.1, le_rfl, by simp only [List.getD, List.getElem?_cons_zero, List.getElem?_cons_succ, Option.getD_some]; positivity⟩)
    tol Surface.new Surface.new
  have flagS : s'.closedV = s.closedV := by
    rw [isClosed_ends (l := []) p1, Option.some.injEq] at sv
    rw [open_double (l := []) p1' ht (Or.inr ?_), Option.some.injEq] at sv'
    · rw [← sv, ← sv', eq_comm, decide_eq_false_iff_not, not_lt]
      simp [P3.normSq]
      nlinarith
    · have hh' : 2 ^ (-400 : ℤ) ≤ h := by linarith
      have a := double_off (x := h / 2) hh' (by rw [abs_of_nonneg (by linarith)]; linarith)
      have neg : double (-h / 2) = -double (h / 2) := by rw [neg_div]; exact ieee_neg _
      simp only [neg]
      have uh : 2 ^ (-53 : ℤ) * h ≤ 1 / 1000 * h := mul_le_mul_of_nonneg_right u1 h0
      generalize double (h / 2) = y at *
      rw [abs_le] at a
      have c := double_off (x := -y - y) (R := 2 * h) (by linarith) (by rw [abs_le]; constructor <;> linarith)
      rw [abs_le] at c
      rw [abs_of_nonpos (by nlinarith)]
      nlinarith
  have off' : SurfOff (10 * (2 ^ (-53 : ℤ) * (r + h))) (6 * 2 ^ (-53 : ℤ)) 9 2 s s' :=
    ⟨off.knotsU, off.knotsV, fun i hi j hj => (off.points i hi j hj).mono (by linarith), off.weights⟩
  refine ⟨D.mapPoints fun p => ⟨p.x, -p.y, p.z - h / 2⟩, s.mapPoints mirrorY, D.mapPoints fun p => ⟨p.x, p.y, p.z + h / 2⟩,
    D'.mapPoints fun p => ⟨p.x, -p.y, double (p.z - double (h / 2))⟩, s'.mapPoints mirrorY,
    D'.mapPoints fun p => ⟨p.x, p.y, double (p.z + double (h / 2))⟩, ?_, ?_, ?_, ?_, ?_⟩
  · simp only [createCylinder, e, ec, f, Option.bind_eq_bind, Option.bind_some, Option.pure_def, Solid.add, List.nil_append,
      List.singleton_append, List.cons_append]
  · simp only [createCylinderRounded, e', ec', f', Option.bind_eq_bind, Option.bind_some, Option.pure_def, Solid.add, List.nil_append,
      List.singleton_append, List.cons_append]
  · refine ⟨by norm_num, hR, hR', mapPoints_valid hv _, mapPoints_valid hv' _, ho.map hv hv' fun i hi j hj => ?_, hw, fun i hi j hj => ?_, ku,
      Or.inr (Or.inr ⟨kv, rfl⟩), du'.trans du.symm, flagD⟩
    · obtain ⟨o1, o2, o3⟩ := (ho.points i hi j hj).mirror
      have l := (lift_off (k := -(h / 2)) hr h0 (by rw [abs_neg, abs_of_nonneg (by linarith)]) (hp i hi j hj) (ho.points i hi j hj)).1
      rw [show double (-(h / 2)) = -double (h / 2) from ieee_neg _, ← sub_eq_add_neg, ← sub_eq_add_neg] at l
      exact ⟨o1.trans (by linarith), o2.trans (by linarith), l⟩
    · rw [mapPoints_pt hv _ hi hj]
      obtain ⟨b1, b2, b3⟩ := (hp i hi j hj).mirror
      have l := (lift_off (k := -(h / 2)) hr h0 (by rw [abs_neg, abs_of_nonneg (by linarith)]) (hp i hi j hj) (ho.points i hi j hj)).2
      exact ⟨b1.trans (by linarith), b2.trans (by linarith), by simpa [sub_eq_add_neg] using l⟩
  · exact ⟨by norm_num, hR, hR', mapPoints_valid vs _, mapPoints_valid vs' _, off'.map vs vs' fun i hi j hj => (off'.points i hi j hj).mirror, wt,
      fun i hi j hj => by rw [mapPoints_pt vs _ hi hj]; exact (pt i hi j hj).mirror, kus, Or.inr (Or.inr ⟨kvs.trans k1, rfl⟩),
      su'.trans su.symm, flagS⟩
  · refine ⟨by norm_num, hR, hR', mapPoints_valid hv _, mapPoints_valid hv' _, ho.map hv hv' fun i hi j hj => ?_, hw, fun i hi j hj => ?_, ku,
      Or.inr (Or.inr ⟨kv, rfl⟩), du'.trans du.symm, flagD⟩
    · obtain ⟨o1, o2, o3⟩ := ho.points i hi j hj
      have l := (lift_off (k := h / 2) hr h0 (abs_of_nonneg (by linarith)) (hp i hi j hj) (ho.points i hi j hj)).1
      exact ⟨o1.trans (by linarith), o2.trans (by linarith), l⟩
    · rw [mapPoints_pt hv _ hi hj]
      obtain ⟨b1, b2, b3⟩ := hp i hi j hj
      have l := (lift_off (k := h / 2) hr h0 (abs_of_nonneg (by linarith)) (hp i hi j hj) (ho.points i hi j hj)).2
      exact ⟨b1.trans (by linarith), b2.trans (by linarith), l⟩

/-! ### the meshes -/

theorem norm_le_of {P : P3 ℝ} {R : ℝ} (hR : 0 ≤ R) (h : P.x ^ 2 + P.y ^ 2 + P.z ^ 2 ≤ R ^ 2) : P.norm ≤ R := by
  unfold P3.norm
  exact Real.sqrt_le_iff.2 ⟨hR, by linarith [sq P.x, sq P.y, sq P.z]⟩

/-- volume, surface and orientation as measured in `double` -/
theorem shape_measured {R : ℝ} {M M' : Mesh ℝ} (hM : M.OK) (hM' : M'.OK) (c : Close (700 * 2 ^ (-53 : ℤ) * R) M M')
    (hi : ∀ P ∈ M.kern.verts, P.norm ≤ R) (h1 : 1 ≤ R) (h2 : R ≤ 2 ^ 199) (hN : M.triangles.length ≤ 2 ^ 40) :
    ∃ V W S T, Measure.volume M = some V ∧ Rounded.volume double M' = some W ∧ Measure.surface M = some S ∧ Rounded.surface double M' = some T ∧
      |W - V| ≤ (M.triangles.length + 760) * M.triangles.length * (1.001 * R) ^ 3 * 2 ^ (-53 : ℤ) ∧
      |T - S| ≤ 5 * (M.triangles.length + 860) * M.triangles.length * (1.001 * R) ^ 2 * 2 ^ (-53 : ℤ) ∧
      ((M.triangles.length + 760) * M.triangles.length * (1.001 * R) ^ 3 * 2 ^ (-53 : ℤ) ≤ V →
        Rounded.isOrientedOutside double M' = some true) := by
  have u0 : (0 : ℝ) < 2 ^ (-53 : ℤ) := by positivity
  have u1 : (2 : ℝ) ^ (-53 : ℤ) ≤ 1 / 10 ^ 10 := by norm_num
  have iA : InBall R M := InBall.of (fun i p hp => by
    rw [(answers_view M).getVertex] at hp
    obtain ⟨n, rfl, hn⟩ := getI_eq_some_iff.1 hp
    exact hi p (List.mem_of_getElem? hn)) hM
  have iB : InBall (1.001 * R) M' := (iA.near c.meshNear hM hM').mono (by
    generalize (2 : ℝ) ^ (-53 : ℤ) = u at *
    nlinarith)
  obtain ⟨V, W, S, T, a1, a2, a3, a4, a5, a6, a7⟩ := measured_double hM hM' c.meshNear (iA.mono (by linarith)) iB (by linarith)
    (by linarith [show (2 : ℝ) ^ 200 = 2 * 2 ^ 199 by rw [pow_succ]; ring, show (0 : ℝ) < 2 ^ 199 by positivity]) hN
  have N0 : (0 : ℝ) ≤ M.triangles.length := Nat.cast_nonneg _
  generalize (M.triangles.length : ℝ) = N at *
  have R0 : 0 < R := by linarith
  have t1 : N * ((1.001 * R) ^ 2 * (700 * 2 ^ (-53 : ℤ) * R)) ≤ 700 * N * (1.001 * R) ^ 3 * 2 ^ (-53 : ℤ) := by
    have : 0 ≤ N * R ^ 3 * 2 ^ (-53 : ℤ) := by positivity
    generalize (2 : ℝ) ^ (-53 : ℤ) = u at *
    nlinarith
  have t2 : N * (6 * (1.001 * R) * (700 * 2 ^ (-53 : ℤ) * R)) ≤ 4200 * N * (1.001 * R) ^ 2 * 2 ^ (-53 : ℤ) := by
    have : 0 ≤ N * R ^ 2 * 2 ^ (-53 : ℤ) := by positivity
    generalize (2 : ℝ) ^ (-53 : ℤ) = u at *
    nlinarith
  have s1 : (N + 60) * N * (1.001 * R) ^ 3 * 2 ^ (-53 : ℤ) + N * ((1.001 * R) ^ 2 * (700 * 2 ^ (-53 : ℤ) * R)) ≤
      (N + 760) * N * (1.001 * R) ^ 3 * 2 ^ (-53 : ℤ) := by
    refine (add_le_add_right t1 _).trans (le_of_eq ?_)
    ring
  refine ⟨V, W, S, T, a1, a2, a3, a4, a5.trans s1, a6.trans ?_, fun h => a7 (s1.trans h)⟩
  refine (add_le_add_right t2 _).trans (le_of_eq ?_)
  ring

/-- **C131** sphere.  The NURBS sphere made in `double` and meshed in `double` has the triangles of the
exact mesh, which is closed; its vertices are within `700 · 2⁻⁵³ r` of the exact ones in each
coordinate, and at a distance from the centre of `r` up to `1300 · 2⁻⁵³ r`. -/
theorem sphere_mesh_double {r tol : ℝ} (hr : 2 ^ (-400 : ℤ) ≤ r) (hr' : r ≤ 2 ^ (400 : ℤ)) (ht : 2 ^ (-400 : ℤ) ≤ tol) (htr : tol ≤ r)
    {k : Nat} (hk : 0 < k) (m m' : Mesh ℝ) :
    ∃ B B' M M', createSphereSolid tol (Real.sqrt 2) r = some B ∧ createSphereSolidRounded double tol r = some B' ∧
      toMeshSolid B m k = some M ∧ toMeshSolidRounded double B' m' k = some M' ∧ M'.OK ∧ ClosedSoup M.triangles ∧
      M.triangles.length = 2 * (9 * k) * (5 * k) ∧ MeshNear (700 * 2 ^ (-53 : ℤ) * r) M M' ∧
      (∀ i P, M'.getVertex i = some P → |P.norm - r| ≤ 1300 * 2 ^ (-53 : ℤ) * r) ∧
      (1 ≤ r → r ≤ 2 ^ 199 → k ≤ 2 ^ 16 → ∃ V W S T, Measure.volume M = some V ∧ Rounded.volume double M' = some W ∧
        Measure.surface M = some S ∧ Rounded.surface double M' = some T ∧
        |W - V| ≤ (90 * k ^ 2 + 760) * (90 * k ^ 2) * (1.001 * r) ^ 3 * 2 ^ (-53 : ℤ) ∧
        |T - S| ≤ 5 * (90 * k ^ 2 + 860) * (90 * k ^ 2) * (1.001 * r) ^ 2 * 2 ^ (-53 : ℤ) ∧
        ((90 * k ^ 2 + 760) * (90 * k ^ 2) * (1.001 * r) ^ 3 * 2 ^ (-53 : ℤ) ≤ V → Rounded.isOrientedOutside double M' = some true)) := by
  obtain ⟨s, s', e, e', H⟩ := sphere_shape hr hr' ht htr
  obtain ⟨M, M', f, f', o, o', c, on⟩ := solid_mesh_off (List.Forall₂.cons ⟨2, 5, H⟩ List.Forall₂.nil) hk m m'
  have s2 : Real.sqrt 2 * Real.sqrt 2 = 2 := Real.mul_self_sqrt (by norm_num)
  have s0 : 0 < Real.sqrt 2 := Real.sqrt_pos.2 (by norm_num)
  obtain ⟨B, M1, g, g', -, cl, len⟩ := sphere_mesh_watertight tol s2 s0 r hk m
  obtain rfl : [s] = B := Option.some_inj.1 (e.symm.trans g)
  obtain rfl : M = M1 := Option.some_inj.1 (f.symm.trans g')
  have r0 := small_off hr
  obtain ⟨S, es, -, heq⟩ := sphere_equation tol s2 s0 r Surface.new
  obtain rfl : S = s := by
    have : createSphereSolid tol (Real.sqrt 2) r = some [S] := by simp [createSphereSolid, es, Solid.add]
    simpa using this.symm.trans e
  have onS : ∀ P ∈ M.kern.verts, P.x ^ 2 + P.y ^ 2 + P.z ^ 2 = r ^ 2 := fun P hP => by
    obtain ⟨t, ht, a, b, -, -, -, -, eP⟩ := on P hP
    rw [List.mem_singleton] at ht
    subst ht
    obtain ⟨Q, hQ, h⟩ := heq a b
    rw [eP, Option.some.injEq] at hQ
    rwa [hQ]
  refine ⟨_, _, M, M', e, e', f, f', o', cl, len, c.meshNear, fun i P hP => ?_, fun h1 h2 hk' => ?_⟩
  · obtain ⟨Q, -, hQ, n⟩ := c.back hP
    have := within_radius (show Within _ Q P from n)
    rw [norm_of_sq r0.le (onS Q hQ)] at this
    refine this.trans ?_
    have : 0 < 2 ^ (-53 : ℤ) * r := by positivity
    rw [mul_assoc, mul_assoc]
    generalize (2 : ℝ) ^ (-53 : ℤ) * r = v at *
    linarith
  · have N : M.triangles.length ≤ 2 ^ 40 := by rw [len]; nlinarith
    have N' : (M.triangles.length : ℝ) = 90 * k ^ 2 := by rw [len]; push_cast; ring
    have := shape_measured o o' c (fun P hP => (norm_of_sq r0.le (onS P hP)).le) h1 h2 N
    rwa [N'] at this

theorem torus_ball {R r : ℝ} (hR : 0 ≤ R) (hr : 0 ≤ r) {P : P3 ℝ}
    (h : (P.x ^ 2 + P.y ^ 2 + P.z ^ 2 + R ^ 2 - r ^ 2) ^ 2 = 4 * R ^ 2 * (P.x ^ 2 + P.y ^ 2)) : P.x ^ 2 + P.y ^ 2 + P.z ^ 2 ≤ (R + r) ^ 2 := by
  by_contra hc
  rw [not_le] at hc
  have z := mul_nonneg (sq_nonneg R) (sq_nonneg P.z)
  -- with `t = |P|²`: `(t + R² - r²)² ≤ 4 R² t`, that is `(t - (R+r)²)(t - (R-r)²) ≤ 0`
  have k : (P.x ^ 2 + P.y ^ 2 + P.z ^ 2 - (R + r) ^ 2) * (P.x ^ 2 + P.y ^ 2 + P.z ^ 2 - (R - r) ^ 2) = -(4 * R ^ 2 * P.z ^ 2) := by
    linear_combination h
  have a : 0 < P.x ^ 2 + P.y ^ 2 + P.z ^ 2 - (R + r) ^ 2 := by linarith
  have b : 0 < P.x ^ 2 + P.y ^ 2 + P.z ^ 2 - (R - r) ^ 2 := by nlinarith
  have := mul_pos a b
  linarith

/-- **C131** torus -/
theorem torus_mesh_double {major minor tol : ℝ} (hm : 2 ^ (-400 : ℤ) ≤ minor) (hM : 0 ≤ major) (hM' : major + minor ≤ 2 ^ (400 : ℤ))
    (ht : 2 ^ (-400 : ℤ) ≤ tol) {k : Nat} (hk : 0 < k) (m m' : Mesh ℝ) :
    ∃ B B' M M', createTorusSolid tol (Real.sqrt 2) major minor = some B ∧ createTorusSolidRounded double tol major minor = some B' ∧
      toMeshSolid B m k = some M ∧ toMeshSolidRounded double B' m' k = some M' ∧ M'.OK ∧ ClosedSoup M.triangles ∧
      M.triangles.length = 2 * (9 * k) * (9 * k) ∧ MeshNear (700 * 2 ^ (-53 : ℤ) * (major + minor)) M M' ∧
      (∀ i P, M.getVertex i = some P → (P.x ^ 2 + P.y ^ 2 + P.z ^ 2 + major ^ 2 - minor ^ 2) ^ 2 = 4 * major ^ 2 * (P.x ^ 2 + P.y ^ 2)) ∧
      (1 ≤ major + minor → major + minor ≤ 2 ^ 199 → k ≤ 2 ^ 16 → ∃ V W S T, Measure.volume M = some V ∧ Rounded.volume double M' = some W ∧
        Measure.surface M = some S ∧ Rounded.surface double M' = some T ∧
        |W - V| ≤ (162 * k ^ 2 + 760) * (162 * k ^ 2) * (1.001 * (major + minor)) ^ 3 * 2 ^ (-53 : ℤ) ∧
        |T - S| ≤ 5 * (162 * k ^ 2 + 860) * (162 * k ^ 2) * (1.001 * (major + minor)) ^ 2 * 2 ^ (-53 : ℤ) ∧
        ((162 * k ^ 2 + 760) * (162 * k ^ 2) * (1.001 * (major + minor)) ^ 3 * 2 ^ (-53 : ℤ) ≤ V →
          Rounded.isOrientedOutside double M' = some true)) := by
  obtain ⟨s, s', e, e', H⟩ := torus_shape hm hM hM' ht
  obtain ⟨M, M', f, f', o, o', c, on⟩ := solid_mesh_off (List.Forall₂.cons ⟨2, 9, H⟩ List.Forall₂.nil) hk m m'
  have s2 : Real.sqrt 2 * Real.sqrt 2 = 2 := Real.mul_self_sqrt (by norm_num)
  have s0 : 0 < Real.sqrt 2 := Real.sqrt_pos.2 (by norm_num)
  have m0 := small_off hm
  obtain ⟨B, M1, g, g', -, cl, len⟩ := torus_mesh_watertight (small_off ht) s2 s0 major minor hk m
  obtain rfl : [s] = B := Option.some_inj.1 (e.symm.trans g)
  obtain rfl : M = M1 := Option.some_inj.1 (f.symm.trans g')
  obtain ⟨S, es, vS, heq⟩ := torus_equation tol s2 s0 major minor Surface.new
  obtain rfl : S.mapPoints mirrorY = s := by
    have : createTorusSolid tol (Real.sqrt 2) major minor = some [S.mapPoints mirrorY] := by simp [createTorusSolid, es, Solid.add]
    simpa using this.symm.trans e
  have onS : ∀ P ∈ M.kern.verts, (P.x ^ 2 + P.y ^ 2 + P.z ^ 2 + major ^ 2 - minor ^ 2) ^ 2 = 4 * major ^ 2 * (P.x ^ 2 + P.y ^ 2) := fun P hP => by
    obtain ⟨t, ht, a, b, -, -, -, -, eP⟩ := on P hP
    rw [List.mem_singleton] at ht
    subst ht
    obtain ⟨Q, hQ, h⟩ := heq a b
    rw [mirrorY_at vS, hQ, Option.map_some, Option.some.injEq] at eP
    rw [← eP]
    simpa [mirrorY] using h
  refine ⟨_, _, M, M', e, e', f, f', o', cl, len, c.meshNear, fun i P hP => ?_, fun h1 h2 hk' => ?_⟩
  · rw [(answers_view M).getVertex] at hP
    obtain ⟨n, rfl, hn⟩ := getI_eq_some_iff.1 hP
    exact onS P (List.mem_of_getElem? hn)
  · have N : M.triangles.length ≤ 2 ^ 40 := by rw [len]; nlinarith
    have N' : (M.triangles.length : ℝ) = 162 * k ^ 2 := by rw [len]; push_cast; ring
    have := shape_measured o o' c (fun P hP => norm_le_of (by linarith) (torus_ball hM m0.le (onS P hP))) h1 h2 N
    rwa [N'] at this

/-- **C131** cylinder -/
theorem cylinder_mesh_double {r h tol : ℝ} (hr : 2 ^ (-400 : ℤ) ≤ r) (hh : 2 * tol ≤ h) (hR' : r + h ≤ 2 ^ (400 : ℤ)) (ht : 2 ^ (-400 : ℤ) ≤ tol)
    (htr : 2 * tol ≤ r) {k : Nat} (hk : 0 < k) (m m' : Mesh ℝ) :
    ∃ B B' M M', createCylinder tol (Real.sqrt 2) r h = some B ∧ createCylinderRounded double tol r h = some B' ∧
      toMeshSolid B m k = some M ∧ toMeshSolidRounded double B' m' k = some M' ∧ M'.OK ∧ ClosedSoup M.triangles ∧
      M.triangles.length = 3 * (2 * (9 * k) * (2 * k)) ∧ MeshNear (700 * 2 ^ (-53 : ℤ) * (r + h)) M M' ∧
      (∀ i P, M.getVertex i = some P → P.x ^ 2 + P.y ^ 2 ≤ r ^ 2 ∧ |P.z| ≤ h / 2 ∧ (P.x ^ 2 + P.y ^ 2 = r ^ 2 ∨ |P.z| = h / 2)) ∧
      (1 ≤ r + h → r + h ≤ 2 ^ 199 → k ≤ 2 ^ 16 → ∃ V W S T, Measure.volume M = some V ∧ Rounded.volume double M' = some W ∧
        Measure.surface M = some S ∧ Rounded.surface double M' = some T ∧
        |W - V| ≤ (108 * k ^ 2 + 760) * (108 * k ^ 2) * (1.001 * (r + h)) ^ 3 * 2 ^ (-53 : ℤ) ∧
        |T - S| ≤ 5 * (108 * k ^ 2 + 860) * (108 * k ^ 2) * (1.001 * (r + h)) ^ 2 * 2 ^ (-53 : ℤ) ∧
        ((108 * k ^ 2 + 760) * (108 * k ^ 2) * (1.001 * (r + h)) ^ 3 * 2 ^ (-53 : ℤ) ≤ V →
          Rounded.isOrientedOutside double M' = some true)) := by
  obtain ⟨s1, s2, s3, s1', s2', s3', e, e', H1, H2, H3⟩ := cylinder_shape hr hh hR' ht htr
  obtain ⟨M, M', f, f', o, o', c, on⟩ := solid_mesh_off (List.Forall₂.cons ⟨1, 2, H1⟩ (List.Forall₂.cons ⟨1, 2, H2⟩ (List.Forall₂.cons ⟨1, 2, H3⟩
    List.Forall₂.nil))) hk m m'
  have t0 := small_off ht
  have r0 := small_off hr
  have h0 : 0 ≤ h := by linarith
  obtain ⟨B, M1, g, g', -, cl, len⟩ := cylinder_mesh_watertight t0 (Real.mul_self_sqrt (by norm_num : (0 : ℝ) ≤ 2)) (Real.sqrt_pos.2 (by norm_num))
    (r := r) (h := h) (by rw [abs_of_pos r0]; linarith) (by rw [abs_of_nonneg h0]; linarith) hk m
  obtain rfl : [s1, s2, s3] = B := Option.some_inj.1 (e.symm.trans g)
  obtain rfl : M = M1 := Option.some_inj.1 (f.symm.trans g')
  obtain ⟨S1, S2, S3, es, g1, g2, g3⟩ := cylinder_exact tol r h h0
  have E2 := Option.some_inj.1 (e.symm.trans es)
  simp only [List.cons.injEq, and_true] at E2
  obtain ⟨rfl, rfl, rfl⟩ := E2
  have onS : ∀ P ∈ M.kern.verts, P.x ^ 2 + P.y ^ 2 ≤ r ^ 2 ∧ |P.z| ≤ h / 2 ∧ (P.x ^ 2 + P.y ^ 2 = r ^ 2 ∨ |P.z| = h / 2) := fun P hP => by
    obtain ⟨t, ht, a, b, a0, a1, b0, b1, eP⟩ := on P hP
    simp only [List.mem_cons, List.not_mem_nil, or_false] at ht
    rcases ht with rfl | rfl | rfl
    · obtain ⟨z, xy⟩ := (g1 P).1 ⟨a, b, a0, a1, b0, b1, eP⟩
      have : |P.z| = h / 2 := by rw [z, abs_neg, abs_of_nonneg (by linarith)]
      exact ⟨xy, this.le, Or.inr this⟩
    · obtain ⟨z, xy⟩ := (g2 P).1 ⟨a, b, a0, a1, b0, b1, eP⟩
      exact ⟨xy.le, abs_le.2 ⟨by linarith, z.2⟩, Or.inl xy⟩
    · obtain ⟨z, xy⟩ := (g3 P).1 ⟨a, b, a0, a1, b0, b1, eP⟩
      have : |P.z| = h / 2 := by rw [z, abs_of_nonneg (by linarith)]
      exact ⟨xy, this.le, Or.inr this⟩
  refine ⟨_, _, M, M', e, e', f, f', o', cl, len, c.meshNear, fun i P hP => ?_, fun h1 h2 hk' => ?_⟩
  · rw [(answers_view M).getVertex] at hP
    obtain ⟨n, rfl, hn⟩ := getI_eq_some_iff.1 hP
    exact onS P (List.mem_of_getElem? hn)
  · have N : M.triangles.length ≤ 2 ^ 40 := by rw [len]; nlinarith
    have N' : (M.triangles.length : ℝ) = 108 * k ^ 2 := by rw [len]; push_cast; ring
    have := shape_measured o o' c (fun P hP => norm_le_of (by linarith) (by
      obtain ⟨a, b, -⟩ := onS P hP
      have z := mul_self_le_mul_self (abs_nonneg _) b
      rw [abs_mul_abs_self] at z
      nlinarith)) h1 h2 N
    rwa [N'] at this

/-- a sphere of radius 100 with 4 segments per control point, with the library's tolerance `1e-6` -/
example (m : Mesh ℝ) : ∃ B' M', createSphereSolidRounded double (1 / 1000000) 100 = some B' ∧ toMeshSolidRounded double B' m 4 = some M' ∧
    ∀ i P, M'.getVertex i = some P → |P.norm - 100| ≤ 1 / 10 ^ 10 := by
  have e : (2 : ℝ) ^ (-400 : ℤ) ≤ 1 / 1000000 :=
    le_trans (zpow_le_zpow_right₀ (by norm_num) (by norm_num : (-400 : ℤ) ≤ -20)) (by norm_num)
  have u : (100 : ℝ) ≤ 2 ^ (400 : ℤ) := le_trans (by norm_num : (100 : ℝ) ≤ 2 ^ (10 : ℤ)) (zpow_le_zpow_right₀ (by norm_num) (by norm_num))
  obtain ⟨B, B', M, M', -, e1, -, e2, -, -, -, -, h, -⟩ := sphere_mesh_double (r := 100) (e.trans (by norm_num)) u e (by norm_num)
    (show 0 < 4 by norm_num) m m
  exact ⟨B', M', e1, e2, fun i P hP => (h i P hP).trans (by norm_num)⟩

end Nurbs
end CAD
