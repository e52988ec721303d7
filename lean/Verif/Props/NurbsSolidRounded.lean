import Verif.Props.NurbsMeshRounded
import Verif.Props.NurbsWatertight
import Verif.Props.Weld

/-! C120: a NURBS solid meshed in rounded arithmetic and welded by `merge_vertices` is watertight. -/

namespace CAD
open Mesh

/-- closed by vertex numbers: the directed edges, with multiplicity, are the reversed directed edges -/
def BalancedIds (fs : List (Int × Int × Int)) : Prop := (idEdges fs).Perm ((idEdges fs).map Prod.swap)

namespace MeshUtil

/-- a mesh with one vertex for each position is closed by ids when it is closed by positions -/
theorem balancedIds_of_soup {K : Type} [Zero K] {r : Mesh K} (hr : r.OK) (hd : DistinctPositions r) (h : ClosedSoup r.triangles) :
    BalancedIds r.cornerList := by
  classical
  have key : ∀ p : P3 K, ∃ i : Int, ∀ j, r.getVertex j = some p → j = i := by
    intro p
    by_cases hp : ∃ i, r.getVertex i = some p
    · obtain ⟨i, hi⟩ := hp
      exact ⟨i, fun j hj => hd j i p hj hi⟩
    · exact ⟨0, fun j hj => absurd ⟨j, hj⟩ hp⟩
  choose idOf hid using key
  have hE := edges_pos hr
  unfold ClosedSoup at h
  rw [hE] at h
  have h' := h.map fun e : P3 K × P3 K => (idOf e.1, idOf e.2)
  have e1 : ((idEdges r.cornerList).map fun e => (posOf r e.1, posOf r e.2)).map (fun e : P3 K × P3 K => (idOf e.1, idOf e.2)) =
      idEdges r.cornerList := by
    rw [List.map_map]
    conv_rhs => rw [← List.map_id (idEdges r.cornerList)]
    refine List.map_congr_left fun e he => ?_
    obtain ⟨a, b⟩ := edge_vertices hr he
    exact Prod.ext (hid _ _ a).symm (hid _ _ b).symm
  have e2 : (((idEdges r.cornerList).map fun e => (posOf r e.1, posOf r e.2)).map Prod.swap).map
      (fun e : P3 K × P3 K => (idOf e.1, idOf e.2)) = (idEdges r.cornerList).map Prod.swap := by
    rw [List.map_map, List.map_map]
    refine List.map_congr_left fun e he => ?_
    obtain ⟨a, b⟩ := edge_vertices hr he
    exact Prod.ext (hid _ _ b).symm (hid _ _ a).symm
  rw [e1, e2] at h'
  exact h'

end MeshUtil

namespace Nurbs
open BSpline MeshUtil

variable {fl : ℝ → ℝ}

theorem Near.norm {d : ℝ} {P Q : P3 ℝ} (h : Near d P Q) : (Q - P).norm ≤ 2 * d := by
  obtain ⟨h1, h2, h3⟩ := h
  have d0 : 0 ≤ d := (abs_nonneg _).trans h1
  rw [P3.norm_eq, Real.sqrt_le_left (by linarith)]
  simp only [P3.normSq, P3.sub_x, P3.sub_y, P3.sub_z]
  have a := sq_le_sq' (abs_le.1 h1).1 (abs_le.1 h1).2
  have b := sq_le_sq' (abs_le.1 h2).1 (abs_le.1 h2).2
  have c := sq_le_sq' (abs_le.1 h3).1 (abs_le.1 h3).2
  nlinarith

theorem MeshNear.cornerList {d : ℝ} {A B : Mesh ℝ} (h : MeshNear d A B) : B.cornerList = A.cornerList := by
  unfold Mesh.cornerList
  simp only [h.nbTriangles, h.triangle, h.unlinked]

/-- **C120** A closed solid, meshed in rounded arithmetic and welded.  `m1` is the mesh in exact
arithmetic, closed by positions; its different vertices are farther apart than the tolerance.
The comparison `near'` may answer anything for distances within `ε` of the tolerance. -/
theorem solid_weld_rounded {u η Ω e : ℝ} (H : MeshOK u η Ω e fl) {E : ℝ} (hE : 0 ≤ E) (ns : Solid ℝ)
    (hns : ∀ s ∈ ns, ∃ p q nu nv w W R h g, s.Valid p q nu nv ∧ SurfaceFits u Ω e s p q w W R h g ∧ meshError u p q w W R h g ≤ E)
    {k : Nat} (hk : 0 < k) (M m1 : Mesh ℝ) (h1 : toMeshSolid ns M k = some m1) (hc : ClosedSoup m1.triangles)
    {tol ε : ℝ} (hε : 0 ≤ ε) (htol : ε + 4 * E < tol)
    (hgap : ∀ i j P Q, m1.getVertex i = some P → m1.getVertex j = some Q → P ≠ Q → tol + ε + 4 * E ≤ (P - Q).norm)
    (near' : P3 ℝ → P3 ℝ → Bool) (hlt : ∀ p q : P3 ℝ, (p - q).norm < tol - ε → near' p q = true)
    (hge : ∀ p q : P3 ℝ, tol + ε ≤ (p - q).norm → near' p q = false) :
    ∃ m2 r, toMeshSolidRounded fl ns M k = some m2 ∧ mergeVerticesBy near' 0 m2 = some r ∧ r.OK ∧ BalancedIds r.cornerList ∧
      r.cornerList.length = m1.cornerList.length := by
  obtain ⟨A, m2, e1, e2, o1, o2, c⟩ := to_mesh_solid_rounded H hE ns hns hk M
  rw [h1, Option.some.injEq] at e1
  subst e1
  have t0 : 0 < tol := by linarith
  obtain ⟨r, r', f1, f2, f3, f4, f5, -⟩ := merge_rounding m1 m2 o1 o2 c.cornerList c.nbVertices tol (2 * E) ε t0.le
    (fun i p p' hp hp' => by
      obtain ⟨q, hq, n⟩ := c.vertex i p hp
      rw [hp', Option.some.injEq] at hq
      subst hq
      exact n.norm) near' hlt hge (fun i j p q hp hq => by
      by_cases hpq : p = q
      · left
        rw [hpq, sub_self, P3.norm_eq_zero.2 rfl]
        linarith
      · right
        have := hgap i j p q hp hq hpq
        linarith) hε
  obtain ⟨r2, g1, g2, g3, g4, -, -⟩ := merge_welds m1 o1 tol t0.ne' (fun i j p q hp hq hpq => by
    have := hgap i j p q hp hq hpq
    by_contra hlt'
    rw [not_le, distSq_lt_iff t0.le] at hlt'
    linarith)
  rw [f1, Option.some.injEq] at g1
  subst g1
  refine ⟨m2, r', e2, f2, f3, ?_, ?_⟩
  · rw [f4]
    exact balancedIds_of_soup g2 g4 (by rw [g3]; exact hc)
  · have a := (triangles_pos g2).1
    have b := (triangles_pos o1).1
    rw [f4, ← List.length_map (as := r.cornerList), ← a, g3, b, List.length_map]

/-- the vertices of the mesh of a solid are the samples of its surfaces -/
theorem toMeshSolid_vertex {K : Type} [Field K] [LinearOrder K] [IsStrictOrderedRing K] (ns : Solid K)
    (hv : ∀ s ∈ ns, ∃ p q nu nv, s.Valid p q nu nv) (hw : ∀ s ∈ ns, ∀ w ∈ s.weights, 0 < w)
    {k : Nat} (hk : 0 < k) (m : Mesh K) :
    ∃ m', toMeshSolid ns m k = some m' ∧ ∀ i P, m'.getVertex i = some P → ∃ s ∈ ns, ∃ i j, i ≤ k * s.nbU.toNat ∧ j ≤ k * s.nbV.toNat ∧
      P = sample s (k * s.nbU.toNat) (k * s.nbV.toNat) i j := by
  unfold toMeshSolid toMeshSolidBy
  have key : ∀ (l : Solid K) (M : Mesh K), (∀ s ∈ l, s ∈ ns) →
      ∃ m', l.foldlM (fun m f => do
        let a ← toMesh f m k false
        return a.2) M = some m' ∧ ∀ P ∈ m'.kern.verts, P ∈ M.kern.verts ∨ ∃ s ∈ l, P ∈ samples s (k * s.nbU.toNat) (k * s.nbV.toNat) := by
    intro l
    induction l with
    | nil => intro M _; exact ⟨M, rfl, fun P h => .inl h⟩
    | cons s l ih =>
      intro M hl
      obtain ⟨p, q, nu, nv, hs⟩ := hv s (hl s (by simp))
      obtain ⟨s', -, -, e⟩ := toMesh_eq hs (hw s (hl s (by simp))) hk M false
      obtain ⟨m', e', h'⟩ := ih _ fun t ht => hl t (by simp [ht])
      refine ⟨m', ?_, fun P hP => ?_⟩
      · rw [List.foldlM_cons, e]
        exact e'
      · rcases h' P hP with h | ⟨t, ht, h⟩
        · rw [pushTris_verts, pushPts_verts, List.mem_append] at h
          rcases h with h | h
          · exact .inl h
          · exact .inr ⟨s, by simp, by rw [hs.nbU, hs.nbV]; exact h⟩
        · exact .inr ⟨t, by simp [ht], h⟩
  obtain ⟨m', e, h⟩ := key ns m.clear fun _ h => h
  refine ⟨m', e, fun i P hP => ?_⟩
  rw [(answers_view m').getVertex] at hP
  obtain ⟨n, rfl, hn⟩ := getI_eq_some_iff.1 hP
  have hP : P ∈ m'.kern.verts := List.mem_of_getElem? hn
  rcases h P hP with h | ⟨s, hs, h⟩
  · exact absurd h (by simp [Mesh.clear, KernLT.clear])
  · unfold samples at h
    obtain ⟨j, hj, h⟩ := List.mem_flatMap.1 h
    obtain ⟨i, hi, rfl⟩ := List.mem_map.1 h
    rw [List.mem_range] at hi hj
    exact ⟨s, hs, i, j, by omega, by omega, rfl⟩

theorem knots_two {knots : List ℝ} (h : ClampedKnots knots 1 2) : knots = [0, 0, 1, 1] := by
  have l := h.length
  have a := h.first 0 (by norm_num)
  have b := h.first 1 (by norm_num)
  have c := h.last 2 (by norm_num) (by norm_num)
  have d := h.last 3 (by norm_num) (by norm_num)
  match knots, l with
  | [k0, k1, k2, k3], _ =>
    simp at a b c d
    rw [a, b, c, d]

/-- the control points of a bilinear surface -/
theorem bilinear_points {S : Surface ℝ} (h : S.Valid 1 1 2 2) (hw : S.weights = [1, 1, 1, 1]) {a b c d : P3 ℝ}
    (hat : ∀ u v, S.at u v = some ((1 - v) • ((1 - u) • a + u • b) + v • ((1 - u) • d + u • c))) : S.points = [a, b, d, c] := by
  have ku := knots_two h.knotsU
  have kv := knots_two h.knotsV
  obtain ⟨h1, h2, h3, h4⟩ := surface_corners h (by rw [hw]; simp) (by rw [ku]; norm_num [kn]) (by rw [ku]; norm_num [kn])
    (by rw [kv]; norm_num [kn]) (by rw [kv]; norm_num [kn])
  rw [hat, Option.some.injEq] at h1 h2 h3 h4
  have l := h.points
  match hp : S.points, l with
  | [q0, q1, q2, q3], _ =>
    simp [Surface.pt, hp] at h1 h2 h3 h4
    rw [h1, h2, h3, h4]

/-- the quads of the box meet the conditions -/
theorem box_fits {S : Surface ℝ} (h : S.Valid 1 1 2 2) (hw : S.weights = [1, 1, 1, 1]) {a b c d : P3 ℝ}
    (hat : ∀ u v, S.at u v = some ((1 - v) • ((1 - u) • a + u • b) + v • ((1 - u) • d + u • c))) {R : ℝ}
    (hR : ∀ q ∈ [a, b, c, d], |q.x| ≤ R ∧ |q.y| ≤ R ∧ |q.z| ≤ R) (R0 : 2 ^ (-500 : ℤ) ≤ R) (R1 : R ≤ 2 ^ (500 : ℤ)) :
    DoubleSurface S 1 1 1 1 R 1 1 := by
  have ku := knots_two h.knotsU
  have kv := knots_two h.knotsV
  have one : (1 : ℝ) ≤ 2 ^ (500 : ℤ) := one_le_zpow₀ (by norm_num) (by norm_num)
  have one' : (2 : ℝ) ^ (-500 : ℤ) ≤ 1 := zpow_le_one_of_nonpos₀ (by norm_num) (by norm_num)
  have gap : ∀ a ∈ ([0, 0, 1, 1] : List ℝ), ∀ b ∈ ([0, 0, 1, 1] : List ℝ), a < b → 1 ≤ b - a := by
    intro a ha b hb hab
    simp only [List.mem_cons, List.not_mem_nil, or_false] at ha hb
    rcases ha with rfl | rfl | rfl | rfl <;> rcases hb with rfl | rfl | rfl | rfl <;> linarith
  refine ⟨⟨by norm_num, by norm_num, by norm_num, ?_, ?_, ?_, ?_, ?_, ?_⟩, one', one', one', le_rfl, one, by norm_num, R0, R1,
    by norm_num, by norm_num⟩
  · rw [hw]; simp
  · rw [bilinear_points h hw hat]
    intro q hq
    simp only [sub_zero]
    exact hR q (by simp at hq ⊢; tauto)
  · rw [ku]; exact gap
  · rw [kv]; exact gap
  · intro x x0 x1; rw [ku]; simp [x0.ne, x1.ne']
  · intro x x0 x1; rw [kv]; simp [x0.ne, x1.ne']

/-- a coordinate of a grid of `n` steps -/
def OnGrid (x : ℝ) (n : Nat) (c : ℝ) : Prop := ∃ a : ℤ, c = x * (a / n) - x / 2

theorem OnGrid.gap {x : ℝ} {n : Nat} {c d : ℝ} (hx : 0 < x) (hn : 0 < n) (h1 : OnGrid x n c) (h2 : OnGrid x n d) (h : c ≠ d) :
    x / n ≤ |c - d| := by
  obtain ⟨a, rfl⟩ := h1
  obtain ⟨b, rfl⟩ := h2
  have n0 : (0 : ℝ) < n := by exact_mod_cast hn
  have e : x * ((a : ℝ) / n) - x / 2 - (x * ((b : ℝ) / n) - x / 2) = x / n * ((a - b : ℤ) : ℝ) := by push_cast; ring
  rw [e, abs_mul, abs_of_pos (div_pos hx n0)]
  have ab : a - b ≠ 0 := by
    intro h'
    apply h
    rw [sub_eq_zero.1 h']
  have : (1 : ℝ) ≤ |((a - b : ℤ) : ℝ)| := by exact_mod_cast Int.one_le_abs ab
  have := mul_le_mul_of_nonneg_left this (div_pos hx n0).le
  linarith

theorem box_grid {x y z tol : ℝ} (ht : 0 ≤ tol) (hx : tol ≤ x) (hy : tol ≤ y) (hz : tol ≤ z) :
    ∃ B, createBox tol x y z = some B ∧ ∀ S ∈ B, S.Valid 1 1 2 2 ∧ S.weights = [1, 1, 1, 1] ∧
      (∃ a b c d, (∀ u v, S.at u v = some ((1 - v) • ((1 - u) • a + u • b) + v • ((1 - u) • d + u • c))) ∧
        ∀ q ∈ [a, b, c, d], |q.x| ≤ x / 2 ∧ |q.y| ≤ y / 2 ∧ |q.z| ≤ z / 2) ∧
      ∀ n, 0 < n → ∀ i j, OnGrid x n (sample S n n i j).x ∧ OnGrid y n (sample S n n i j).y ∧ OnGrid z n (sample S n n i j).z := by
  obtain ⟨s1, s2, s3, s4, s5, s6, e, h⟩ := box_quads tol x y z ht hx hy hz
  refine ⟨_, e, fun S hS => ?_⟩
  have x0 : |x / 2| ≤ x / 2 := (abs_of_nonneg (by linarith)).le
  have y0 : |y / 2| ≤ y / 2 := (abs_of_nonneg (by linarith)).le
  have z0 : |z / 2| ≤ z / 2 := (abs_of_nonneg (by linarith)).le
  have x1 : |-x / 2| ≤ x / 2 := by rw [neg_div, abs_neg]; exact x0
  have y1 : |-y / 2| ≤ y / 2 := by rw [neg_div, abs_neg]; exact y0
  have z1 : |-z / 2| ≤ z / 2 := by rw [neg_div, abs_neg]; exact z0
  have g0 : ∀ (w : ℝ) (n : Nat), OnGrid w n (-w / 2) := fun w n => ⟨0, by push_cast; ring⟩
  have g1 : ∀ (w : ℝ) (n : Nat), 0 < n → OnGrid w n (w / 2) := fun w n hn => ⟨n, by
    have : (n : ℝ) ≠ 0 := by exact_mod_cast hn.ne'
    push_cast; field_simp; ring⟩
  have g2 : ∀ (w : ℝ) (n i : Nat), 0 < n → OnGrid w n (w / 2 - w * (i / n)) := fun w n i hn => ⟨n - i, by
    have : (n : ℝ) ≠ 0 := by exact_mod_cast hn.ne'
    push_cast; field_simp; ring⟩
  have g3 : ∀ (w : ℝ) (n i : Nat), OnGrid w n (w * (i / n) - w / 2) := fun w n i => ⟨i, by push_cast; rfl⟩
  simp only [List.mem_cons, List.not_mem_nil, or_false] at hS
  rcases hS with rfl | rfl | rfl | rfl | rfl | rfl
  · obtain ⟨h1, h2, -, -, h3⟩ := h _ _ _ _ _ (.head _)
    refine ⟨h1, h3, ⟨_, _, _, _, h2, by simp [x0, x1, y0, y1, z0, z1]⟩, fun n hn i j => ?_⟩
    simp only [sample, h2, Option.getD_some, P3.add_x, P3.add_y, P3.add_z, P3.smul_x, P3.smul_y, P3.smul_z]
    refine ⟨?_, ?_, ?_⟩
    · convert g2 x n i hn using 1; ring
    · convert g2 y n j hn using 1; ring
    · convert g1 z n hn using 1; ring
  · obtain ⟨h1, h2, -, -, h3⟩ := h _ _ _ _ _ (.tail _ (.head _))
    refine ⟨h1, h3, ⟨_, _, _, _, h2, by simp [x0, x1, y0, y1, z0, z1]⟩, fun n hn i j => ?_⟩
    simp only [sample, h2, Option.getD_some, P3.add_x, P3.add_y, P3.add_z, P3.smul_x, P3.smul_y, P3.smul_z]
    refine ⟨?_, ?_, ?_⟩
    · convert g2 x n j hn using 1; ring
    · convert g2 y n i hn using 1; ring
    · convert g0 z n using 1; ring
  · obtain ⟨h1, h2, -, -, h3⟩ := h _ _ _ _ _ (.tail _ (.tail _ (.head _)))
    refine ⟨h1, h3, ⟨_, _, _, _, h2, by simp [x0, x1, y0, y1, z0, z1]⟩, fun n hn i j => ?_⟩
    simp only [sample, h2, Option.getD_some, P3.add_x, P3.add_y, P3.add_z, P3.smul_x, P3.smul_y, P3.smul_z]
    refine ⟨?_, ?_, ?_⟩
    · convert g1 x n hn using 1; ring
    · convert g2 y n i hn using 1; ring
    · convert g2 z n j hn using 1; ring
  · obtain ⟨h1, h2, -, -, h3⟩ := h _ _ _ _ _ (.tail _ (.tail _ (.tail _ (.head _))))
    refine ⟨h1, h3, ⟨_, _, _, _, h2, by simp [x0, x1, y0, y1, z0, z1]⟩, fun n hn i j => ?_⟩
    simp only [sample, h2, Option.getD_some, P3.add_x, P3.add_y, P3.add_z, P3.smul_x, P3.smul_y, P3.smul_z]
    refine ⟨?_, ?_, ?_⟩
    · convert g0 x n using 1; ring
    · convert g3 y n i using 1; ring
    · convert g2 z n j hn using 1; ring
  · obtain ⟨h1, h2, -, -, h3⟩ := h _ _ _ _ _ (.tail _ (.tail _ (.tail _ (.tail _ (.head _)))))
    refine ⟨h1, h3, ⟨_, _, _, _, h2, by simp [x0, x1, y0, y1, z0, z1]⟩, fun n hn i j => ?_⟩
    simp only [sample, h2, Option.getD_some, P3.add_x, P3.add_y, P3.add_z, P3.smul_x, P3.smul_y, P3.smul_z]
    refine ⟨?_, ?_, ?_⟩
    · convert g3 x n j using 1; ring
    · convert g0 y n using 1; ring
    · convert g2 z n i hn using 1; ring
  · obtain ⟨h1, h2, -, -, h3⟩ := h _ _ _ _ _ (.tail _ (.tail _ (.tail _ (.tail _ (.tail _ (.head _))))))
    refine ⟨h1, h3, ⟨_, _, _, _, h2, by simp [x0, x1, y0, y1, z0, z1]⟩, fun n hn i j => ?_⟩
    simp only [sample, h2, Option.getD_some, P3.add_x, P3.add_y, P3.add_z, P3.smul_x, P3.smul_y, P3.smul_z]
    refine ⟨?_, ?_, ?_⟩
    · convert g2 x n j hn using 1; ring
    · convert g1 y n hn using 1; ring
    · convert g2 z n i hn using 1; ring

theorem abs_le_norm (P : P3 ℝ) : |P.x| ≤ P.norm ∧ |P.y| ≤ P.norm ∧ |P.z| ≤ P.norm := by
  refine ⟨?_, ?_, ?_⟩ <;> rw [P3.norm_eq] <;> refine Real.abs_le_sqrt ?_ <;> unfold P3.normSq <;> nlinarith [sq_nonneg P.x, sq_nonneg P.y, sq_nonneg P.z]

/-- **C120**, the box.  Meshed in `double` with any resolution and welded with a tolerance between
the rounding error and the distance of neighbouring samples, the NURBS box is watertight by
vertex numbers. -/
theorem box_weld_double {x y z tol0 L : ℝ} (ht : 0 < tol0) (hx : tol0 ≤ x) (hy : tol0 ≤ y) (hz : tol0 ≤ z) (hxL : x ≤ L) (hyL : y ≤ L)
    (hzL : z ≤ L) (L0 : 2 ^ (-499 : ℤ) ≤ L) (L1 : L ≤ 2 ^ (500 : ℤ)) {k : Nat} (hk : 0 < k) (M : Mesh ℝ) {tol ε : ℝ} (hε : 0 ≤ ε)
    (h0 : ε + L * 2 ^ (-45 : ℤ) < tol) (h1 : tol + ε + L * 2 ^ (-45 : ℤ) ≤ min x (min y z) / (2 * k))
    (near' : P3 ℝ → P3 ℝ → Bool) (hlt : ∀ p q : P3 ℝ, (p - q).norm < tol - ε → near' p q = true)
    (hge : ∀ p q : P3 ℝ, tol + ε ≤ (p - q).norm → near' p q = false) :
    ∃ B m r, createBox tol0 x y z = some B ∧ toMeshSolidRounded double B M k = some m ∧ mergeVerticesBy near' 0 m = some r ∧ r.OK ∧
      BalancedIds r.cornerList ∧ r.cornerList.length = 48 * k ^ 2 := by
  obtain ⟨B, m1, e1, e2, ok, hc, hl, -⟩ := box_mesh_watertight ht hx hy hz hk M
  obtain ⟨B', e1', hB⟩ := box_grid ht.le hx hy hz
  rw [e1, Option.some.injEq] at e1'
  subst e1'
  obtain ⟨m1', e2', hV⟩ := toMeshSolid_vertex B (fun s hs => ⟨1, 1, 2, 2, (hB s hs).1⟩)
    (fun s hs w hw => by rw [(hB s hs).2.1] at hw; simp at hw; rw [hw]; exact one_pos) hk M
  rw [e2, Option.some.injEq] at e2'
  subst e2'
  have Lp : 0 < L := by linarith
  have k0 : (0 : ℝ) < k := by exact_mod_cast hk
  have hu : (2 : ℝ) ^ (-45 : ℤ) = 256 * 2 ^ (-53 : ℤ) := by norm_num
  have u0 : (0 : ℝ) < 2 ^ (-53 : ℤ) := by positivity
  have Lu := mul_pos Lp u0
  obtain ⟨m, r, f1, f2, f3, f4, f5⟩ := solid_weld_rounded meshOK_double (E := L * 2 ^ (-47 : ℤ)) (by positivity) B (fun s hs => by
    obtain ⟨v, hw, ⟨a, b, c, d, hat, hR⟩, -⟩ := hB s hs
    have hd := box_fits v hw hat (R := L / 2) (fun q hq => by
      obtain ⟨q1, q2, q3⟩ := hR q hq
      exact ⟨by linarith, by linarith, by linarith⟩) (by
        rw [show (-499 : ℤ) = -500 + 1 by norm_num, zpow_add₀ (by norm_num), zpow_one] at L0
        generalize (2 : ℝ) ^ (-500 : ℤ) = t at *
        linarith) (le_trans (by linarith) L1)
    refine ⟨1, 1, 2, 2, 1, 1, L / 2, 1, 1, v, hd.fits, ?_⟩
    unfold meshError
    rw [show (2 : ℝ) ^ (-47 : ℤ) = 64 * 2 ^ (-53 : ℤ) by norm_num]
    generalize (2 : ℝ) ^ (-53 : ℤ) = t at *
    push_cast
    nlinarith) hk M m1 e2 hc hε (tol := tol) (by
      rw [show (2 : ℝ) ^ (-47 : ℤ) = 64 * 2 ^ (-53 : ℤ) by norm_num]
      rw [hu] at h0
      linarith) (fun i j P Q hP hQ hPQ => by
      obtain ⟨s, hs, i1, j1, -, -, rfl⟩ := hV i P hP
      obtain ⟨s', hs', i2, j2, -, -, rfl⟩ := hV j Q hQ
      obtain ⟨v, -, -, g⟩ := hB s hs
      obtain ⟨v', -, -, g'⟩ := hB s' hs'
      rw [v.nbU, v.nbV, v'.nbU, v'.nbV, Int.toNat_natCast] at *
      obtain ⟨a1, a2, a3⟩ := g (k * 2) (by omega) i1 j1
      obtain ⟨b1, b2, b3⟩ := g' (k * 2) (by omega) i2 j2
      generalize sample s (k * 2) (k * 2) i1 j1 = P at *
      generalize sample s' (k * 2) (k * 2) i2 j2 = Q at *
      have n0 : 0 < k * 2 := by omega
      obtain ⟨c1, c2, c3⟩ := abs_le_norm (P - Q)
      have fin : min x (min y z) / (2 * k) ≤ (P - Q).norm := by
        have kk : ((k * 2 : ℕ) : ℝ) = 2 * k := by push_cast; ring
        by_cases hx' : P.x = Q.x
        · by_cases hy' : P.y = Q.y
          · have hz' : P.z ≠ Q.z := fun hz' => hPQ (P3.ext hx' hy' hz')
            have := a3.gap (lt_of_lt_of_le ht hz) n0 b3 hz'
            rw [kk] at this
            have m : min x (min y z) / (2 * k) ≤ z / (2 * k) :=
              div_le_div_of_nonneg_right ((min_le_right _ _).trans (min_le_right _ _)) (by positivity)
            rw [P3.sub_z] at c3
            linarith
          · have := a2.gap (lt_of_lt_of_le ht hy) n0 b2 hy'
            rw [kk] at this
            have m : min x (min y z) / (2 * k) ≤ y / (2 * k) :=
              div_le_div_of_nonneg_right ((min_le_right _ _).trans (min_le_left _ _)) (by positivity)
            rw [P3.sub_y] at c2
            linarith
        · have := a1.gap (lt_of_lt_of_le ht hx) n0 b1 hx'
          rw [kk] at this
          have m : min x (min y z) / (2 * k) ≤ x / (2 * k) := div_le_div_of_nonneg_right (min_le_left _ _) (by positivity)
          rw [P3.sub_x] at c1
          linarith
      refine le_trans ?_ fin
      rw [show (2 : ℝ) ^ (-47 : ℤ) = 64 * 2 ^ (-53 : ℤ) by norm_num]
      rw [hu] at h1
      linarith) near' hlt hge
  refine ⟨B, m, r, e1, f1, f2, f3, f4, ?_⟩
  rw [f5, ← hl, (triangles_pos ok).1, List.length_map]

/-- a box of 2 × 3 × 4, 40 samples for each side, welded at 1/1000 -/
example (M : Mesh ℝ) : ∃ B m r, createBox (1 / 1000000) 2 3 4 = some B ∧ toMeshSolidRounded double B M 20 = some m ∧
    mergeVerticesBy (nearTol (1 / 1000)) 0 m = some r ∧ r.OK ∧ BalancedIds r.cornerList ∧ r.cornerList.length = 48 * 20 ^ 2 := by
  have a : (2 : ℝ) ^ (-499 : ℤ) ≤ 2 ^ (0 : ℤ) := zpow_le_zpow_right₀ (by norm_num) (by norm_num)
  have b : (2 : ℝ) ^ (2 : ℤ) ≤ 2 ^ (500 : ℤ) := zpow_le_zpow_right₀ (by norm_num) (by norm_num)
  rw [zpow_zero] at a
  refine box_weld_double (L := 4) (tol := 1 / 1000) (ε := 0) (by norm_num) (by norm_num) (by norm_num) (by norm_num) (by norm_num) (by norm_num)
    le_rfl (a.trans (by norm_num)) (le_trans (by norm_num) b) (by norm_num) M le_rfl (by norm_num) (by norm_num) _ ?_ ?_
  · intro p q h
    rw [nearTol_iff, distSq_lt_iff (by norm_num)]
    linarith
  · intro p q h
    rw [← Bool.not_eq_true, nearTol_iff, distSq_lt_iff (by norm_num)]
    linarith

/-! ### without welding the box is not watertight -/

/-- a segment in `double` -/
theorem two_points_double {c : Curve ℝ} (h : c.Valid 1 2) (hw : c.weights = [1, 1]) {p q : P3 ℝ} (hp : c.points = [p, q])
    (kp : Kept double p) (kq : Kept double q) {t : ℝ} (h0 : 0 ≤ t) (h1 : t ≤ 1) (ht : double t = t) :
    c.atRounded double t = (roundedOps double).divide (Rounded.add double (Rounded.scale double (double (1 - t)) p) (Rounded.scale double t q))
      (double (double (1 - t) + t)) := by
  have ks := knots_two h.knots
  have k1 : kn c.knots 1 = 0 := by rw [ks]; rfl
  have k2 : kn c.knots 2 = 1 := by rw [ks]; rfl
  have hs : InSpan c.knots (clamp t) 1 := by
    rw [clamp_of_mem h0 h1]
    exact ⟨by rw [k1, k2]; exact one_pos, by rw [k1]; exact h0, by rw [k2]; exact h1, by rw [k2]; exact id⟩
  have ap : Apart double c.knots := apart_double (by rw [ks]; simp [isDouble_zero, isDouble_one])
  have one : double 1 = 1 := isDouble_one.keep
  rw [atRounded_eq h hs _ (alpha_some h.knots ap hs t)]
  have hp0 : (roundedOps double).weigh 1 p = p := by
    obtain ⟨a, b, c⟩ := kp
    simp [roundedOps, Rounded.scale, a, b, c]
  have hq0 : (roundedOps double).weigh 1 q = q := by
    obtain ⟨a, b, c⟩ := kq
    simp [roundedOps, Rounded.scale, a, b, c]
  simp only [levBy, Curve.hw, hw, hp, k1, k2, Nat.sub_self, sub_zero, one, ht, div_one]
  simp [roundedOps, Rounded.scale, kp.1, kp.2.1, kp.2.2, kq.1, kq.2.1, kq.2.2, ht, k1, k2, one, keeps_double.idem]

theorem third_double : double (2 / 6) = (6004799503160661 : ℕ) / 2 ^ 54 := by
  have b := ieee_eval (p := 53) (emin := -1074) (x := 2 / 6) 6004799503160661 (-54) (by norm_num) (by norm_num [abs_of_pos])
    (by norm_num [abs_of_pos]) (by norm_num [abs_lt])
  rw [double, b]
  norm_num

theorem two_thirds_double : double (4 / 6) = (12009599006321322 : ℕ) / 2 ^ 54 := by
  have b := ieee_eval (p := 53) (emin := -1074) (x := 4 / 6) 6004799503160661 (-53) (by norm_num) (by norm_num [abs_of_pos])
    (by norm_num [abs_of_pos]) (by norm_num [abs_lt])
  rw [double, b]
  norm_num

/-- a certificate for `double_nat` -/
theorem double_54 {x : ℝ} (m r : ℕ) (h : rnd53 m = r) (hx : x = m / 2 ^ 54) : double x = r / 2 ^ 54 := by
  rw [hx, double_nat m (by norm_num), h]

/-- **C90/C120: the negation without welding.**  The box of side 2 meshed with 3 segments per
control point: the sample number 2 of 6 on the common edge of the first and the fifth face is
the same point in exact arithmetic, but in `double` the faces, which run along the edge in
opposite directions, get two different points. -/
theorem box_cracks_double : ∃ s1 s2 s3 s4 s5 s6 P Q, createBox (1 / 1000000) 2 2 2 = some [s1, s2, s3, s4, s5, s6] ∧
    s1.at (2 / 6) 1 = s5.at 0 (4 / 6) ∧
    s1.atRounded double (double (2 / 6)) (double (6 / 6)) = some P ∧ s5.atRounded double (double (0 / 6)) (double (4 / 6)) = some Q ∧ P ≠ Q := by
  obtain ⟨s1, s2, s3, s4, s5, s6, e, h⟩ := box_quads (1 / 1000000 : ℝ) 2 2 2 (by norm_num) (by norm_num) (by norm_num) (by norm_num)
  obtain ⟨v1, a1, -, -, w1⟩ := h _ _ _ _ _ (.head _)
  obtain ⟨v5, a5, -, -, w5⟩ := h _ _ _ _ _ (.tail _ (.tail _ (.tail _ (.tail _ (.head _)))))
  have p1 := bilinear_points v1 w1 a1
  have p5 := bilinear_points v5 w5 a5
  have ku1 := knots_two v1.knotsU
  have kv1 := knots_two v1.knotsV
  have ku5 := knots_two v5.knotsU
  have kv5 := knots_two v5.knotsV
  have one : double 1 = 1 := isDouble_one.keep
  have ap : Apart double [0, 0, 1, 1] := apart_double (by simp [isDouble_zero, isDouble_one])
  have r1 : IsRow s1 (s1.row 1 2 1) 1 2 (2 - 1) := ⟨row_valid v1 _, rfl, rfl, rfl⟩
  have c5 : IsColumn s5 (s5.col 1 2 2 0) 1 2 2 0 := ⟨col_valid v5 _, rfl, rfl, rfl⟩
  have t1 := (surface_sides_rounded keeps_double v1 (by rw [ku1]; exact ap) (by rw [kv1]; exact ap) (by rw [w1]; simp [one])).2.2.2
    (by rw [kv1]; norm_num [kn]) _ r1 (double (2 / 6))
  have t5 := (surface_sides_rounded keeps_double v5 (by rw [ku5]; exact ap) (by rw [kv5]; exact ap) (by rw [w5]; simp [one])).1
    (by rw [ku5]; norm_num [kn]) _ c5 (double (4 / 6))
  have hw1 : (s1.row 1 2 1).weights = [1, 1] := by simp [Surface.row, Surface.wt, w1, List.range_succ]
  have hw5 : (s5.col 1 2 2 0).weights = [1, 1] := by simp [Surface.col, Surface.wt, w5, List.range_succ]
  have hp1 : (s1.row 1 2 1).points = [⟨1, -1, 1⟩, ⟨-1, -1, 1⟩] := by simp [Surface.row, Surface.pt, p1, List.range_succ]
  have hp5 : (s5.col 1 2 2 0).points = [⟨-1, -1, 1⟩, ⟨1, -1, 1⟩] := by simp [Surface.col, Surface.pt, p5, List.range_succ]
  have neg : double (-1) = -1 := by have := ieee_neg (p := 53) (emin := -1074) 1; rw [double] at one ⊢; rw [this, one]
  rw [two_points_double r1.1 hw1 hp1 ⟨one, neg, one⟩ ⟨neg, neg, one⟩ (by rw [third_double]; positivity) (by rw [third_double]; norm_num)
    (keeps_double.idem _)] at t1
  rw [two_points_double c5.1 hw5 hp5 ⟨neg, neg, one⟩ ⟨one, neg, one⟩ (by rw [two_thirds_double]; positivity) (by rw [two_thirds_double]; norm_num)
    (keeps_double.idem _)] at t5
  have dneg : ∀ x : ℝ, double (-x) = -double x := fun x => ieee_neg (p := 53) (emin := -1074) x
  have f1 : double (1 - double (2 / 6)) = (12009599006321324 : ℕ) / 2 ^ 54 := by
    rw [third_double]
    exact double_54 12009599006321323 _ (by decide +kernel) (by norm_num)
  have f2 : double (double (1 - double (2 / 6)) + double (2 / 6)) = 1 := by
    rw [f1, third_double, double_54 18014398509481985 18014398509481984 (by decide +kernel) (by norm_num)]
    norm_num
  have f3 : double (double (1 - double (2 / 6)) + -double (2 / 6)) = (6004799503160663 : ℕ) / 2 ^ 54 := by
    rw [f1, third_double]
    exact double_54 6004799503160663 _ (by decide +kernel) (by norm_num)
  have g1 : double (1 - double (4 / 6)) = (6004799503160662 : ℕ) / 2 ^ 54 := by
    rw [two_thirds_double]
    exact double_54 6004799503160662 _ (by decide +kernel) (by norm_num)
  have g2 : double (double (1 - double (4 / 6)) + double (4 / 6)) = 1 := by
    rw [g1, two_thirds_double, double_54 18014398509481984 18014398509481984 (by decide +kernel) (by norm_num)]
    norm_num
  have g3 : double (-double (1 - double (4 / 6)) + double (4 / 6)) = (6004799503160660 : ℕ) / 2 ^ 54 := by
    rw [g1, two_thirds_double]
    exact double_54 6004799503160660 _ (by decide +kernel) (by norm_num)
  rw [f2] at t1
  rw [g2] at t5
  have dv : ∀ P : P3 ℝ, (roundedOps double).divide P 1 = some ⟨double (P.x / 1), double (P.y / 1), double (P.z / 1)⟩ :=
    fun P => if_neg one_ne_zero
  rw [dv] at t1 t5
  refine ⟨s1, s2, s3, s4, s5, s6, _, _, e, ?_, by rw [div_self (by norm_num), one]; exact t1,
    by rw [zero_div, show double 0 = 0 from ieee_zero]; exact t5, ?_⟩
  · rw [a1, a5]
    norm_num [P3.ext_iff]
  · intro hPQ
    have := congrArg P3.x hPQ
    have f4 := keeps_double.idem (double (1 - double (2 / 6)) + -double (2 / 6))
    have g4 := keeps_double.idem (-double (1 - double (4 / 6)) + double (4 / 6))
    rw [f3] at f4
    rw [g3] at g4
    simp only [Rounded.add, Rounded.scale, mul_one, mul_neg, dneg, keeps_double.idem, div_one, f3, g3, f4, g4] at this
    norm_num at this

end Nurbs
end CAD
