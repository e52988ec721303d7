import Verif.Props.NurbsMesh
import Verif.Props.MeshPolygon

/-! C57: `NurbsUtil::create_from_z`; C79: `NurbsCurve::to_polyline`; C80:
`NurbsUtil::create_from_mesh`, `NurbsSolid::apply_transform`. -/

set_option linter.unusedSimpArgs false

namespace CAD
namespace Nurbs
open BSpline Mesh
variable {K : Type} [Field K] [LinearOrder K] [IsStrictOrderedRing K]

theorem zPoints_eq (z : List K) (X Y : Nat) (hz : X * Y ≤ z.length) :
    zPoints z X Y = some ((List.range X).flatMap fun (x : Nat) => (List.range Y).map fun (y : Nat) =>
      (⟨(x : K), (y : K), z.getD (x * Y + y) 0⟩ : P3 K)) := by
  unfold zPoints
  simp only [Int.toNat_natCast]
  obtain ⟨s, e, rfl⟩ := loopN_inv (n := X) (s := ([] : List (P3 K))) (f := fun (x : Nat) (l : List (P3 K)) =>
      loopN Y (fun (y : Nat) (l : List (P3 K)) => do
        let h ← getI z l.length
        return l ++ [⟨(x : K), (y : K), h⟩]) l)
    (fun x l => l = (List.range x).flatMap fun (x : Nat) => (List.range Y).map fun (y : Nat) =>
      (⟨(x : K), (y : K), z.getD (x * Y + y) 0⟩ : P3 K)) rfl (by
      rintro x hx l hl
      obtain ⟨s, e, rfl⟩ := loopN_inv (n := Y) (s := l) (f := fun (y : Nat) (l : List (P3 K)) => do
          let h ← getI z l.length
          return l ++ [⟨(x : K), (y : K), h⟩])
        (fun y l' => l' = l ++ (List.range y).map fun (y : Nat) => (⟨(x : K), (y : K), z.getD (x * Y + y) 0⟩ : P3 K)) (by simp) (by
          rintro y hy l' rfl
          have hlen : (l ++ (List.range y).map fun (y : Nat) => (⟨(x : K), (y : K), z.getD (x * Y + y) 0⟩ : P3 K)).length =
              x * Y + y := by
            rw [hl]
            simp [List.length_flatMap]
          have hlt : x * Y + y < z.length := by
            have : (x + 1) * Y ≤ X * Y := Nat.mul_le_mul_right _ hx
            rw [Nat.add_mul, one_mul] at this
            omega
          refine ⟨_, ?_, rfl⟩
          rw [hlen, getI_natCast, getD_of_lt z 0 hlt]
          simp only [Option.bind_eq_bind, Option.bind_some, Option.pure_def]
          rw [List.range_succ, List.map_append, ← List.append_assoc, List.map_singleton])
      refine ⟨_, e, ?_⟩
      rw [hl, List.range_succ (n := x), List.flatMap_append, List.flatMap_singleton])
  exact e

theorem uniform_scaled {p n : Nat} (hpn : p < n) :
    ∃ k, scaleKnots (uniformKnots (K := K) p n) = some k ∧ ClampedKnots k p n := by
  obtain ⟨c', e, h, -⟩ := setUniform_clamped (c := { (Curve.new : Curve K) with degree := p, nbPoints := n }) rfl rfl hpn
  unfold Curve.setUniform Curve.setKnots at e
  simp only at e
  cases hs : scaleKnots (uniformKnots (K := K) p n) with
  | none => rw [hs] at e; exact absurd e (by simp)
  | some k =>
    rw [hs] at e
    simp only [Option.bind_eq_bind, Option.bind_some, Option.pure_def, Option.some.injEq] at e
    rw [← e] at h
    exact ⟨k, rfl, h⟩

/-- C57.  Whatever the target held, `create_from_z` with enough heights gives a valid
surface with equal weights, and the control point number `x * Y + y` is `(x, y, z)` with
the height of the same number. -/
theorem create_from_z_points {X Y d : Nat} (hX : d < X) (hY : d < Y) (z : List K) (hz : X * Y ≤ z.length) (n : Surface K) :
    ∃ S, createFromZ z X Y d n = some S ∧ S.Valid d d X Y ∧ (∀ w ∈ S.weights, w = 1) ∧
      ∀ x y, x < X → y < Y → ∃ h, z[x * Y + y]? = some h ∧ S.points[x * Y + y]? = some ⟨(x : K), (y : K), h⟩ := by
  obtain ⟨pu, pv, wu, wv, e, l1, l2, l3, l4⟩ := setDegree_some n.clear d d
  obtain ⟨ku, eu, hu⟩ := uniform_scaled (K := K) hX
  obtain ⟨kv, ev, hv⟩ := uniform_scaled (K := K) hY
  obtain ⟨S, hS⟩ : ∃ S : Surface K, S = ⟨d, d, X, Y, n.closedU, n.closedV, ku, kv,
    List.replicate ((List.range X).flatMap fun (x : Nat) => (List.range Y).map fun (y : Nat) =>
      (⟨(x : K), (y : K), z.getD (x * Y + y) 0⟩ : P3 K)).length 1,
    (List.range X).flatMap fun (x : Nat) => (List.range Y).map fun (y : Nat) =>
      (⟨(x : K), (y : K), z.getD (x * Y + y) 0⟩ : P3 K), pu, pv, wu, wv⟩ := ⟨_, rfl⟩
  have hlen : ((List.range X).flatMap fun (x : Nat) => (List.range Y).map fun (y : Nat) =>
      (⟨(x : K), (y : K), z.getD (x * Y + y) 0⟩ : P3 K)).length = X * Y := by
    simp [List.length_flatMap]
  refine ⟨S, ?_, ?_, ?_, ?_⟩
  · unfold createFromZ
    rw [zPoints_eq z X Y hz]
    simp only [Option.bind_eq_bind, Option.bind_some, e, Surface.setPoints, Surface.setUniformU, Surface.setUniformV,
      Surface.setKnotsU, Surface.setKnotsV, eu, ev, Option.pure_def]
    rw [set_equals_weights_fresh _ rfl, hS]
    rfl
  · rw [hS]
    exact ⟨rfl, rfl, rfl, rfl, hlen, by rw [List.length_replicate, hlen], hu, hv, l1.ge, l2.ge, l3.ge, l4.ge⟩
  · rw [hS]
    exact fun w hw => List.eq_of_mem_replicate hw
  · intro x y hx hy
    have hlt : x * Y + y < z.length := by
      have : (x + 1) * Y ≤ X * Y := Nat.mul_le_mul_right _ hx
      rw [Nat.add_mul, one_mul] at this
      omega
    refine ⟨z.getD (x * Y + y) 0, getD_of_lt z 0 hlt, ?_⟩
    have := MeshUtil.range_grid_getElem? Y X (fun (x y : Nat) => (⟨(x : K), (y : K), z.getD (x * Y + y) 0⟩ : P3 K)) y x hy hx
    rw [hS, ← this, show y + Y * x = x * Y + y by ring]

/-- C57 for square tables: the surface is a grid, the control point in column `i` and row
`j` of the net is at `x = j`, `y = i` with the height of index `i + n j`. -/
theorem create_from_z_square_partial {N d : Nat} (hN : d < N) (z : List K) (hz : N * N ≤ z.length) (n : Surface K) :
    ∃ S, createFromZ z N N d n = some S ∧ S.Valid d d N N ∧
      ∀ i j, i < N → j < N → ∃ h, z[i + N * j]? = some h ∧ S.pt N i j = ⟨(j : K), (i : K), h⟩ := by
  obtain ⟨S, e, hv, -, hp⟩ := create_from_z_points hN hN z hz n
  refine ⟨S, e, hv, fun i j hi hj => ?_⟩
  obtain ⟨h, h1, h2⟩ := hp j i hj hi
  rw [show j * N + i = i + N * j by ring] at h1 h2
  refine ⟨h, h1, ?_⟩
  rw [Surface.pt, List.getD_eq_getElem?_getD, h2]
  rfl

/-- C57, the negation for other tables: the points are stored column by column but read
row by row, so neighbours in the net of a 2 by 3 table are not neighbours in the table:
the net is folded. -/
theorem create_from_z_scrambled :
    ((createFromZ ([0, 0, 0, 0, 0, 0] : List ℚ) 2 3 1 Surface.new).map fun S =>
      (S.pt 2 0 1, S.pt 2 1 1)) = some (⟨0, 2, 0⟩, ⟨1, 0, 0⟩) := by decide +kernel

/-- the general statement of C57 fails -/
theorem create_from_z_not_grid : ¬ ∀ (X Y : Nat) (z : List ℚ), 1 < X → 1 < Y → z.length = X * Y →
    ∃ S, createFromZ z X Y 1 Surface.new = some S ∧ ((∀ i j, i < X → j < Y → (S.pt X i j).x = i ∧ (S.pt X i j).y = j) ∨
      (∀ i j, i < X → j < Y → (S.pt X i j).x = j ∧ (S.pt X i j).y = i)) := by
  intro h
  obtain ⟨S, e, hS⟩ := h 2 3 [0, 0, 0, 0, 0, 0] (by omega) (by omega) rfl
  have := create_from_z_scrambled
  rw [show createFromZ ([0, 0, 0, 0, 0, 0] : List ℚ) 2 3 1 Surface.new = some S from e] at this
  simp only [Option.map_some, Option.some.injEq, Prod.mk.injEq] at this
  rcases hS with hS | hS
  · have := hS 0 1 (by omega) (by omega)
    rw [‹S.pt 2 0 1 = _ ∧ _›.1] at this
    norm_num at this
  · have := hS 0 1 (by omega) (by omega)
    rw [‹S.pt 2 0 1 = _ ∧ _›.1] at this
    norm_num at this

/-- Too few heights: the read is out of bounds. -/
theorem create_from_z_short (z : List K) : z.length = 0 → createFromZ z 1 1 0 Surface.new = none := by
  intro h
  obtain rfl := List.eq_nil_of_length_eq_zero h
  rfl

/-! ### C79: to_polyline -/

theorem polyLoop_exact {c : Curve K} {p n : Nat} (h : c.Valid p n) (hw : ∀ w ∈ c.weights, 0 < w) {N : Nat} (hN : 0 < N) :
    ∀ (r i : Nat) (c' : Curve K) (l : List (P3 K)), i + r = N + 1 → c'.Valid p n → c.SameShape c' →
      ∃ c'', polyLoopBy exactOps (fun t => t + 1 / (N : K)) (r + 1) ((i : K) / N) (c', l) = some (c'', l ++ (List.range r).map fun k =>
        (c.at (((i + k : Nat) : K) / N)).getD ⟨0, 0, 0⟩) ∧ c.SameShape c'' := by
  have hN' : (0 : K) < N := by exact_mod_cast hN
  intro r
  induction r with
  | zero =>
    intro i c' l hi hv hs
    refine ⟨c', ?_, hs⟩
    obtain rfl : i = N + 1 := by omega
    have : ¬ (((N + 1 : Nat) : K) / N ≤ 1) := by
      rw [div_le_one hN', not_le]
      exact_mod_cast Nat.lt_succ_self N
    rw [polyLoopBy, if_neg this]
    simp
  | succ r ih =>
    intro i c' l hi hv hs
    have hle : (i : K) / N ≤ 1 := by
      rw [div_le_one hN']
      exact_mod_cast (by omega : i ≤ N)
    have h0 : 0 ≤ (i : K) / N := by positivity
    have hd := evaluate_defined h hw h0 hle
    obtain ⟨x, hx⟩ := Option.isSome_iff_exists.1 hd
    have hx' : c'.at ((i : K) / N) = some x := by rw [evaluate_history_free h hv hs, hx]
    obtain ⟨⟨c1, y⟩, he, rfl⟩ := Option.map_eq_some_iff.1 hx'
    obtain ⟨hv1, hs1⟩ := evaluate_keeps hv he
    have hs2 : c.SameShape c1 := by
      obtain ⟨a1, a2, a3, a4, a5⟩ := hs
      obtain ⟨b1, b2, b3, b4, b5⟩ := hs1
      exact ⟨b1.trans a1, b2.trans a2, b3.trans a3, b4.trans a4, b5.trans a5⟩
    obtain ⟨c2, e2, hs3⟩ := ih (i + 1) c1 (l ++ [y]) (by omega) hv1 hs2
    refine ⟨c2, ?_, hs3⟩
    rw [polyLoopBy, if_pos hle]
    rw [Curve.evaluate] at he
    simp only [he, Option.bind_eq_bind, Option.bind_some]
    have ht : (i : K) / N + 1 / N = ((i + 1 : Nat) : K) / N := by push_cast; ring
    rw [ht, e2]
    congr 2
    rw [List.append_assoc, List.range_succ_eq_map, List.map_cons, List.map_map]
    congr 1
    simp only [Nat.add_zero, hx, List.singleton_append, Option.getD_some, List.cons.injEq, true_and]
    refine List.map_congr_left fun k _ => ?_
    simp only [Function.comp]
    rw [show i + 1 + k = i + k.succ by omega]

/-- C79.  `to_polyline` gives `10 n + 1` points, the points of the curve at the parameters
`i / (10 n)`, from the start to the end of the curve. -/
theorem to_polyline_spec {c : Curve K} {p n : Nat} (h : c.Valid p n) (hw : ∀ w ∈ c.weights, 0 < w) :
    ∃ c' l, toPolyline c = some (c', l) ∧ c.SameShape c' ∧ l.length = 10 * n + 1 ∧
      ∀ i : Nat, i ≤ 10 * n → ∃ P, l[i]? = some P ∧ c.at ((i : K) / (10 * n : Nat)) = some P := by
  have hn : 0 < n := lt_of_le_of_lt (Nat.zero_le _) h.knots.p_lt_n
  obtain ⟨c', e, hs⟩ := polyLoop_exact h hw (N := 10 * n) (by omega) (10 * n + 1) 0 c [] (by omega) h ⟨rfl, rfl, rfl, rfl, rfl⟩
  refine ⟨c', (List.range (10 * n + 1)).map fun k => (c.at (((0 + k : Nat) : K) / (10 * n : Nat))).getD ⟨0, 0, 0⟩,
    ?_, hs, ?_, ?_⟩
  rotate_left
  · simp
  · intro i hi
    have hpos : (0 : K) < (10 * n : Nat) := by exact_mod_cast (by omega : 0 < 10 * n)
    obtain ⟨x, hx⟩ := Option.isSome_iff_exists.1 (evaluate_defined h hw (u := (i : K) / (10 * n : Nat)) (by positivity)
      (by rw [div_le_one hpos]; exact_mod_cast hi))
    refine ⟨x, ?_, hx⟩
    rw [List.getElem?_map, List.getElem?_range (by omega)]
    simp only [Option.map_some, Nat.zero_add, hx, Option.getD_some]
  · unfold toPolyline toPolylineBy
    rw [if_neg (by intro h0; have := h.points; rw [h0] at this; simp at this; omega), h.points]
    have e1 : (1 : K) / ((n : K) * 10) = 1 / ((10 * n : Nat) : K) := by push_cast; rw [mul_comm]
    have e2 : ((0 : Nat) : K) / ((10 * n : Nat) : K) = 0 := by simp
    rw [e1]
    rw [e2] at e
    rw [e]
    simp

/-- An empty curve gives an empty polyline. -/
theorem to_polyline_empty (c : Curve K) (h : c.points = []) : toPolyline c = some (c, []) := by simp [toPolyline, toPolylineBy, h]

example : ((toPolyline quarter).map fun r => (r.2.length, r.2[0]?, r.2[15]?)) =
    some (31, some ⟨1, 0, 0⟩, some ⟨3 / 5, 4 / 5, 0⟩) := by decide +kernel

/-! ### C80: create_from_mesh, NurbsSolid::apply_transform -/

theorem triangle_hits {S : Surface K} {p1 p2 p3 : P3 K}
    (h : ∀ u v, S.at u v = some (((1 - v) * (1 - u)) • p1 + ((1 - v) * u) • p2 + v • p3)) (P : P3 K) :
    S.Hits P ↔ InTriangle ⟨p1, p2, p3⟩ P := by
  constructor
  · rintro ⟨u, v, u0, u1, v0, v1, e⟩
    rw [h, Option.some.injEq] at e
    exact ⟨_, _, _, mul_nonneg (by linarith) (by linarith), mul_nonneg (by linarith) u0, v0, by ring, e.symm⟩
  · rintro ⟨a, b, c, ha, hb, hc, hs, rfl⟩
    by_cases h1 : a + b = 0
    · obtain rfl : a = 0 := by linarith
      obtain rfl : b = 0 := by linarith
      obtain rfl : c = 1 := by linarith
      refine ⟨0, 1, le_rfl, zero_le_one, zero_le_one, le_rfl, ?_⟩
      rw [h]
      simp
    · have hp : 0 < a + b := lt_of_le_of_ne (add_nonneg ha hb) (Ne.symm h1)
      refine ⟨b / (a + b), c, by positivity, by rw [div_le_one hp]; linarith, hc, by linarith, ?_⟩
      have e1 : (1 - c) * (1 - b / (a + b)) = a := by
        rw [show 1 - c = a + b by linarith]
        field_simp
        ring
      have e2 : (1 - c) * (b / (a + b)) = b := by
        rw [show 1 - c = a + b by linarith]
        field_simp
      rw [h, e1, e2]

/-- `create_from_mesh` gives one surface for each stored triangle, and the surfaces
together cover exactly the stored triangles (linked or not). -/
theorem create_from_mesh_stored (tol : K) {m : Mesh K} (hm : m.OK) :
    ∃ B, createFromMesh tol m = some B ∧ (B.length : Int) = m.nbTriangles ∧
      ∀ P : P3 K, (∃ S ∈ B, S.Hits P) ↔ ∃ (i : Nat) (t : Tri3 K), m.getTriangle i = some t ∧ InTriangle t P := by
  have hl : m.nbTriangles = m.view.faces.length := (answers_view m).nbTriangles
  have hv := ((ok_iff m).1 hm).valid
  have htri : ∀ i < m.nbTriangles.toNat, ∃ t, m.getTriangle (i : Nat) = some t := by
    intro i hi
    rw [hl, Int.toNat_natCast] at hi
    rw [getTriangle_eq, getI_natCast, List.getElem?_eq_getElem hi, Option.bind_some]
    obtain ⟨h1, h2, h3⟩ := hv _ (List.getElem_mem hi)
    obtain ⟨a, ha, la⟩ := h1.exists
    obtain ⟨b, hb, lb⟩ := h2.exists
    obtain ⟨c, hc, lc⟩ := h3.exists
    exact ⟨⟨m.view.points[a], m.view.points[b], m.view.points[c]⟩, by
      simp only [AMesh.tri, ha, hb, hc, getI_natCast, List.getElem?_eq_getElem la, List.getElem?_eq_getElem lb,
        List.getElem?_eq_getElem lc, Option.bind_eq_bind, Option.bind_some, Option.pure_def]⟩
  unfold createFromMesh
  obtain ⟨B, e, h1, h2⟩ := loopN_inv (n := m.nbTriangles.toNat) (s := ([] : Solid K)) (f := fun i (n : Solid K) => do
      let t ← m.getTriangle i
      let s ← createTriangle tol t.p1 t.p2 t.p3 Surface.new
      return n.add s)
    (fun k B => B.length = k ∧ ∀ P : P3 K, (∃ S ∈ B, S.Hits P) ↔
      ∃ (i : Nat) (t : Tri3 K), i < k ∧ m.getTriangle i = some t ∧ InTriangle t P)
    ⟨rfl, fun P => by simp⟩ (by
      rintro i hi B ⟨h1, h2⟩
      obtain ⟨t, ht⟩ := htri i hi
      obtain ⟨S, eS, hS⟩ := triangle_exact tol t.p1 t.p2 t.p3 Surface.new
      refine ⟨B ++ [S], ?_, by simp [h1], fun P => ?_⟩
      · simp only [ht, eS, Option.bind_eq_bind, Option.bind_some, Option.pure_def]
        rfl
      · have e1 : (∃ S' ∈ B ++ [S], S'.Hits P) ↔ (∃ S' ∈ B, S'.Hits P) ∨ S.Hits P := by
          simp only [List.mem_append, List.mem_singleton, or_and_right, exists_or, exists_eq_left]
        rw [e1, h2, triangle_hits hS]
        constructor
        · rintro (⟨j, t', hj, ht', hP⟩ | hP)
          · exact ⟨j, t', by omega, ht', hP⟩
          · exact ⟨i, t, by omega, ht, hP⟩
        · rintro ⟨j, t', hj, ht', hP⟩
          rcases Nat.lt_succ_iff_lt_or_eq.1 hj with hj | rfl
          · exact Or.inl ⟨j, t', hj, ht', hP⟩
          · rw [ht, Option.some.injEq] at ht'
            subst ht'
            exact Or.inr hP)
  refine ⟨B, e, by rw [h1, hl]; simp, fun P => ?_⟩
  rw [h2]
  constructor
  · rintro ⟨i, t, -, h, hP⟩
    exact ⟨i, t, h, hP⟩
  · rintro ⟨i, t, h, hP⟩
    refine ⟨i, t, ?_, h, hP⟩
    by_contra hc
    rw [hl, Int.toNat_natCast] at hc
    rw [getTriangle_eq, getI_natCast, List.getElem?_eq_none (by omega)] at h
    simp at h

/-- C80.  For a mesh without unlinked triangles the solid is exactly the surface of the mesh. -/
theorem create_from_mesh_partial (tol : K) {m : Mesh K} (hm : m.OK)
    (hl : ∀ i : Nat, (i : Int) < m.nbTriangles → m.isTriangleUnlinked i = some false) :
    ∃ B, createFromMesh tol m = some B ∧ (B.length : Int) = m.nbTriangles ∧
      ∀ P : P3 K, (∃ S ∈ B, S.Hits P) ↔ ∃ t ∈ m.triangles, InTriangle t P := by
  obtain ⟨B, e, h1, h2⟩ := create_from_mesh_stored tol hm
  refine ⟨B, e, h1, fun P => ?_⟩
  rw [h2]
  have hlen : m.nbTriangles = m.view.faces.length := (answers_view m).nbTriangles
  constructor
  · rintro ⟨i, t, ht, hP⟩
    refine ⟨t, ?_, hP⟩
    rw [triangles_eq, soup, List.mem_filterMap]
    rw [getTriangle_eq, getI_natCast] at ht
    obtain ⟨f, hf, hft⟩ := Option.bind_eq_some_iff.1 ht
    have hi := (List.getElem?_eq_some_iff.1 hf).1
    have hu := hl i (by rw [hlen]; exact_mod_cast hi)
    rw [(answers_view m).unlinked, getI_natCast, hf] at hu
    simp only [Option.map_some, Option.some.injEq, Bool.not_eq_false'] at hu
    refine ⟨f.corners, ?_, hft⟩
    rw [AMesh.linkedCorners, List.mem_map]
    exact ⟨f, List.mem_filter.2 ⟨List.mem_of_getElem? hf, hu⟩, rfl⟩
  · rintro ⟨t, ht, hP⟩
    rw [triangles_eq, soup, List.mem_filterMap] at ht
    obtain ⟨c, hc, hct⟩ := ht
    rw [AMesh.linkedCorners, List.mem_map] at hc
    obtain ⟨f, hf, rfl⟩ := hc
    obtain ⟨i, hi⟩ := List.mem_iff_getElem?.1 (List.mem_of_mem_filter hf)
    exact ⟨i, t, by rw [getTriangle_eq, getI_natCast, hi, Option.bind_some, hct], hP⟩

/-- a mesh with one triangle that was unlinked again -/
def unlinkedMesh : Res (Mesh ℚ) := do
  let (m, _) := (Mesh.new : Mesh ℚ).addVertex ⟨0, 0, 0⟩
  let (m, _) := m.addVertex ⟨1, 0, 0⟩
  let (m, _) := m.addVertex ⟨0, 1, 0⟩
  let (m, _) ← m.addTriangle 0 1 2
  m.unlinkTriangle 0

/-- C80, the negation: unlinked triangles come back as surfaces. -/
theorem create_from_mesh_unlinked :
    ∃ m, unlinkedMesh = some m ∧ m.triangles = [] ∧ ((createFromMesh (1 / 1000) m).map List.length) = some 1 := by
  refine ⟨unlinkedMesh.getD Mesh.new, ?_, ?_, ?_⟩ <;> decide +kernel

/-- C80.  Transforming a solid of valid surfaces with an affine map moves exactly its points. -/
theorem solid_transform {B : Solid K} (hB : ∀ S ∈ B, ∃ p q nu nv : Nat, S.Valid p q nu nv) (f : P3 K → P3 K)
    (r1 r2 r3 t : P3 K) (hf : ∀ P, f P = affine r1 r2 r3 t P) :
    (B.applyTransform f).length = B.length ∧
      ∀ P, (∃ S ∈ B.applyTransform f, S.Hits P) ↔ ∃ Q, (∃ S ∈ B, S.Hits Q) ∧ P = f Q := by
  refine ⟨by simp [Solid.applyTransform], fun P => ?_⟩
  unfold Solid.applyTransform
  constructor
  · rintro ⟨S', hS', u, v, u0, u1, v0, v1, e⟩
    obtain ⟨S, hS, rfl⟩ := List.mem_map.1 hS'
    obtain ⟨p, q, nu, nv, h⟩ := hB S hS
    rw [mapPoints_at h f r1 r2 r3 t hf] at e
    obtain ⟨Q, hQ, rfl⟩ := Option.map_eq_some_iff.1 e
    exact ⟨Q, ⟨S, hS, u, v, u0, u1, v0, v1, hQ⟩, rfl⟩
  · rintro ⟨Q, ⟨S, hS, u, v, u0, u1, v0, v1, e⟩, rfl⟩
    obtain ⟨p, q, nu, nv, h⟩ := hB S hS
    refine ⟨_, List.mem_map_of_mem hS, u, v, u0, u1, v0, v1, ?_⟩
    rw [mapPoints_at h f r1 r2 r3 t hf, e, Option.map_some]

/-! ### C81: to_controlpoints_mesh -/

/-- C81.  The control-point mesh of a valid surface has one quad, two triangles, per
cell of the net, whose corners are the four control points of the cell; whatever the mesh
held before is gone. -/
theorem controlpoints_mesh {S : Surface ℝ} {p q nu nv : Nat} (h : S.Valid p q nu nv) (m : Mesh ℝ) :
    ∃ m' T, toControlpointsMesh S m = some m' ∧ m'.OK ∧ m'.triangles = T ∧ T.length = 2 * ((nu - 1) * (nv - 1)) ∧
      m'.nbVertices = 4 * ((nu - 1) * (nv - 1) : Nat) ∧
      ∀ i j, i < nu - 1 → j < nv - 1 → ∃ t u, T[2 * (i * (nv - 1) + j)]? = some t ∧ T[2 * (i * (nv - 1) + j) + 1]? = some u ∧
        ((t, u) = (⟨S.pt nu i j, S.pt nu (i + 1) j, S.pt nu (i + 1) (j + 1)⟩,
            ⟨S.pt nu (i + 1) (j + 1), S.pt nu i (j + 1), S.pt nu i j⟩) ∨
         (t, u) = (⟨S.pt nu (i + 1) j, S.pt nu (i + 1) (j + 1), S.pt nu i (j + 1)⟩,
            ⟨S.pt nu i (j + 1), S.pt nu i j, S.pt nu (i + 1) j⟩)) := by
  have hpt : ∀ i j : Nat, i < nu → j < nv → getI S.points ((j : Int) * S.nbU + i) = some (S.pt nu i j) := by
    intro i j hi hj
    have hlt : i + nu * j < S.points.length := by
      rw [h.points]
      calc i + nu * j < nu + nu * j := by omega
        _ = nu * (j + 1) := by ring
        _ ≤ nu * nv := Nat.mul_le_mul_left _ hj
    have : (j : Int) * S.nbU + i = ((i + nu * j : Nat) : Int) := by rw [h.nbU]; push_cast; ring
    rw [this, getI_natCast, getD_of_lt S.points ⟨0, 0, 0⟩ hlt]
    rfl
  let Q := fun (i j : Nat) (t u : Tri3 ℝ) =>
        ((t, u) = (⟨S.pt nu i j, S.pt nu (i + 1) j, S.pt nu (i + 1) (j + 1)⟩,
            ⟨S.pt nu (i + 1) (j + 1), S.pt nu i (j + 1), S.pt nu i j⟩) ∨
         (t, u) = (⟨S.pt nu (i + 1) j, S.pt nu (i + 1) (j + 1), S.pt nu i (j + 1)⟩,
            ⟨S.pt nu i (j + 1), S.pt nu i j, S.pt nu (i + 1) j⟩))
  -- invariant: the first `k` cells (`k = i (nv - 1) + j`) are done
  let I := fun (k : Nat) (m : Mesh ℝ) => m.OK ∧ m.triangles.length = 2 * k ∧ m.nbVertices = 4 * (k : Nat) ∧
    ∀ i j, j < nv - 1 → i * (nv - 1) + j < k → ∃ t u, m.triangles[2 * (i * (nv - 1) + j)]? = some t ∧
      m.triangles[2 * (i * (nv - 1) + j) + 1]? = some u ∧ Q i j t u
  have hstep : ∀ (i j : Nat) (m : Mesh ℝ), i < nu - 1 → j < nv - 1 → I (i * (nv - 1) + j) m → ∃ m',
      (do
        let p1 ← getI S.points (j * S.nbU + i)
        let p2 ← getI S.points (j * S.nbU + (i + 1))
        let p3 ← getI S.points ((j + 1) * S.nbU + (i + 1))
        let p4 ← getI S.points ((j + 1) * S.nbU + i)
        m.addQuadPts p1 p2 p3 p4 true) = some m' ∧ I (i * (nv - 1) + (j + 1)) m' := by
    rintro i j m hi hj ⟨hok, hlen, hnb, hT⟩
    have q1 := hpt i j (by omega) (by omega)
    have q2 := hpt (i + 1) j (by omega) (by omega)
    have q3 := hpt (i + 1) (j + 1) (by omega) (by omega)
    have q4 := hpt i (j + 1) (by omega) (by omega)
    push_cast at q2 q3 q4
    obtain ⟨m', t, u, e, hok', hT', hnb', htu, -⟩ := add_quad_points_optimal m hok (S.pt nu i j) (S.pt nu (i + 1) j)
      (S.pt nu (i + 1) (j + 1)) (S.pt nu i (j + 1)) true
    refine ⟨m', by simp only [q1, q2, q3, q4, Option.bind_eq_bind, Option.bind_some, e], hok', by rw [hT']; simp [hlen]; ring,
      by rw [hnb', hnb]; push_cast; ring, ?_⟩
    intro i' j' hj' hk
    rw [hT']
    by_cases hlt : i' * (nv - 1) + j' < i * (nv - 1) + j
    · obtain ⟨t', u', a, b, c⟩ := hT i' j' hj' hlt
      exact ⟨t', u', by rw [List.getElem?_append_left (by rw [hlen]; omega), a],
        by rw [List.getElem?_append_left (by rw [hlen]; omega), b], c⟩
    · have heq : i' * (nv - 1) + j' = i * (nv - 1) + j := by omega
      have hj2 : j' = j := by
        have := congrArg (· % (nv - 1)) heq
        simpa [Nat.mul_add_mod_self_right, Nat.mod_eq_of_lt hj', Nat.mod_eq_of_lt hj, Nat.add_mod] using this
      subst hj2
      have hi2 : i' = i := by
        have : i' * (nv - 1) = i * (nv - 1) := by omega
        exact Nat.eq_of_mul_eq_mul_right (by omega) this
      subst hi2
      refine ⟨t, u, ?_, ?_, ?_⟩
      · rw [List.getElem?_append_right (by rw [hlen]), hlen]
        simp
      · rw [List.getElem?_append_right (by rw [hlen]; omega), hlen]
        simp
      · rcases htu with h | ⟨-, h⟩
        · exact Or.inl h
        · exact Or.inr h
  obtain ⟨m', e, hI⟩ := loopN_inv (n := nu - 1) (s := m.clear) (f := fun (u : Nat) m =>
      loopN (nv - 1) (fun (v : Nat) m => do
        let p1 ← getI S.points (v * S.nbU + u)
        let p2 ← getI S.points (v * S.nbU + (u + 1))
        let p3 ← getI S.points ((v + 1) * S.nbU + (u + 1))
        let p4 ← getI S.points ((v + 1) * S.nbU + u)
        m.addQuadPts p1 p2 p3 p4 true) m) (fun i m => I (i * (nv - 1)) m)
    (by
      have hc : m.clear.OK := clear_ok m
      refine ⟨hc, by rw [triangles_eq, Nat.zero_mul]; rfl, by rw [Nat.zero_mul]; rfl, ?_⟩
      intro i j hj hk
      omega)
    (by
      intro i hi m hI
      obtain ⟨m', e, hI'⟩ := loopN_inv (n := nv - 1) (s := m) (f := fun (v : Nat) m => do
        let p1 ← getI S.points (v * S.nbU + i)
        let p2 ← getI S.points (v * S.nbU + (i + 1))
        let p3 ← getI S.points ((v + 1) * S.nbU + (i + 1))
        let p4 ← getI S.points ((v + 1) * S.nbU + i)
        m.addQuadPts p1 p2 p3 p4 true) (fun j m => I (i * (nv - 1) + j) m) hI
        (fun j hj m hm => hstep i j m hi hj hm)
      refine ⟨m', e, ?_⟩
      rw [Nat.add_mul, one_mul]
      exact hI')
  obtain ⟨h1, h2, h3, h4⟩ := hI
  refine ⟨m', m'.triangles, ?_, h1, rfl, h2, h3, ?_⟩
  · unfold toControlpointsMesh
    rw [h.nbU, h.nbV, show ((nu : Int) - 1).toNat = nu - 1 by omega, show ((nv : Int) - 1).toNat = nv - 1 by omega, ← h.nbU]
    exact e
  · intro i j hi hj
    refine h4 i j hj ?_
    calc i * (nv - 1) + j < i * (nv - 1) + (nv - 1) := by omega
      _ = (i + 1) * (nv - 1) := by ring
      _ ≤ (nu - 1) * (nv - 1) := Nat.mul_le_mul_right _ hi

end Nurbs
end CAD
