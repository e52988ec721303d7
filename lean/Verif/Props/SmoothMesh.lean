import Verif.Props.BezierMesh
import Mathlib.Tactic.LinearCombination
import Mathlib.Tactic.NormNum

/-! C75-C77: smooth meshes, the smooth sphere, point-normal triangles. -/

set_option linter.unusedSimpArgs false
set_option linter.unusedSectionVars false

namespace CAD
open Mesh
namespace SmoothMesh
variable {K : Type}

theorem addMesh_eq (m v : SmoothMesh K) : m.addMesh v = some ⟨m.tris ++ v.tris⟩ := by
  have key : ∀ k ≤ v.tris.length, loopN k (fun i (m : SmoothMesh K) => do
      let t ← v.triangle i
      return (⟨m.tris ++ [t]⟩ : SmoothMesh K)) m = some ⟨m.tris ++ v.tris.take k⟩ := by
    intro k
    induction k with
    | zero => intro _; simp [loopN_zero]
    | succ k ih =>
      intro hk
      rw [loopN_succ, ih (by omega)]
      have h : v.triangle k = some (v.tris[k]) := by
        unfold triangle; rw [getI_natCast]; simp
      rw [List.take_succ_eq_append_getElem (show k < v.tris.length by omega)]
      simp [h]
  have := key v.tris.length le_rfl
  unfold addMesh nbTriangles
  rw [List.take_length] at this
  exact this

/-- **C75** appending another smooth mesh: its patches follow, in order -/
theorem append_spec (m v : SmoothMesh K) : ∃ r, m.addMesh v = some r ∧
    r.nbTriangles = m.nbTriangles + v.nbTriangles ∧
    (∀ i, i < m.nbTriangles → r.triangle i = m.triangle i) ∧
    ∀ i, 0 ≤ i → r.triangle (m.nbTriangles + i) = v.triangle i := by
  refine ⟨_, addMesh_eq m v, ?_, ?_, ?_⟩
  · simp [nbTriangles]
  · intro i hi
    unfold triangle nbTriangles at *
    by_cases h0 : 0 ≤ i
    · lift i to Nat using h0
      rw [getI_natCast, getI_natCast, List.getElem?_append_left (by omega)]
    · rw [getI_none_of_not (fun h => h0 h.1), getI_none_of_not (fun h => h0 h.1)]
  · intro i hi
    unfold triangle nbTriangles
    lift i to Nat using hi
    rw [← Nat.cast_add, getI_natCast, getI_natCast, List.getElem?_append_right (by omega)]
    simp

/-- **C75** assigning from another object makes an equal copy whatever the target held -/
theorem assign_spec (m v : SmoothMesh K) : m.assign v = some v := by
  unfold assign; rw [addMesh_eq]; rfl

/-- **C75** (disagreement) assigning a smooth mesh to itself empties it -/
theorem assign_self_empties (fuel : Nat) (m : SmoothMesh K) :
    m.assignSelf fuel = .done SmoothMesh.new := by
  unfold assignSelf addMeshSelf clear
  cases fuel <;> simp [loopFuel, nbTriangles, new]

/-- **C75** (disagreement) appending a non-empty smooth mesh to itself never ends -/
theorem append_self_diverges (m : SmoothMesh K) (h : 0 < m.nbTriangles) (fuel : Nat) :
    ∃ i s, m.addMeshSelf fuel = .running i s := by
  have key : ∀ (fuel i : Nat) (s : SmoothMesh K), (i : Int) < s.nbTriangles →
      ∃ j t, loopFuel nbTriangles (fun i (m : SmoothMesh K) => do
        let t ← m.triangle i
        return (⟨m.tris ++ [t]⟩ : SmoothMesh K)) fuel i s = .running j t := by
    intro fuel
    induction fuel with
    | zero => intro i s h; exact ⟨i, s, by simp [loopFuel, h]⟩
    | succ n ih =>
      intro i s h
      have hi : i < s.tris.length := by simp only [nbTriangles] at h; exact_mod_cast h
      have ht : s.triangle i = some s.tris[i] := by unfold triangle; simp [hi]
      simp only [loopFuel, h, if_true, ht]
      have := ih (i + 1) ⟨s.tris ++ [s.tris[i]]⟩ (by simp [nbTriangles]; omega)
      push_cast at this
      exact this
  have := key fuel 0 m h
  exact this

example : 0 < (SmoothMesh.new.addFlatTriangle ⟨1, 0, 0⟩ ⟨0, 1, 0⟩ ⟨0, 0, 1⟩ : SmoothMesh ℚ).nbTriangles := by
  decide

variable [Field K]

/-- **C75** transforming a smooth mesh transforms each patch once -/
theorem transform_spec (m : SmoothMesh K) (t : P3 K → P3 K) :
    (m.applyTransform t).nbTriangles = m.nbTriangles ∧
    ∀ i, (m.applyTransform t).triangle i = (m.triangle i).map fun q => q.applyTransform t := by
  constructor
  · simp [nbTriangles, applyTransform]
  · intro i
    unfold triangle applyTransform
    rw [getI_map]

variable [LinearOrder K] [IsStrictOrderedRing K]

/-- vertices and triangles one patch adds, given its grid values -/
theorem grid_exists (q : QuadBez K) (hq : q.PosWeights) (n : Nat) (hn : 1 ≤ n) :
    ∃ g : QuadBez.Par → P3 K, ∀ x : QuadBez.Par, x.1 + x.2 ≤ n →
      q.eval2 ((x.1 : K) / n) ((x.2 : K) / n) = some (g x) := by
  have hdef : ∀ x : QuadBez.Par, ∃ p, x.1 + x.2 ≤ n → q.eval2 ((x.1 : K) / n) ((x.2 : K) / n) = some p := by
    intro x
    by_cases hx : x.1 + x.2 ≤ n
    · have hn0 : (0 : K) < n := by exact_mod_cast hn
      obtain ⟨p, hp⟩ := QuadBez.eval_defined q hq ((x.1 : K) / n) ((x.2 : K) / n) (by positivity) (by positivity)
        (by rw [← add_div, div_le_one hn0]; exact_mod_cast hx)
      exact ⟨p, fun _ => hp⟩
    · exact ⟨⟨0, 0, 0⟩, fun h => absurd h hx⟩
  choose g hg using hdef
  exact ⟨g, hg⟩

/-- move every vertex of a mesh -/
def mapMesh (A : P3 K → P3 K) (m : Mesh K) : Mesh K :=
  { m with kern := { m.kern with verts := m.kern.verts.map A } }

theorem patch_commutes (q : QuadBez K) (hq : q.PosWeights) (n : Nat) (hn : 1 ≤ n) (r1 r2 r3 t : P3 K)
    (m : Mesh K) :
    (q.applyTransform (affine r1 r2 r3 t)).addToMesh (mapMesh (affine r1 r2 r3 t) m) n =
      (q.addToMesh m n).map (mapMesh (affine r1 r2 r3 t)) := by
  obtain ⟨g, hg⟩ := grid_exists q hq n hn
  rw [QuadBez.addToMesh_eq q n g hg, QuadBez.addToMesh_eq _ n (fun x => affine r1 r2 r3 t (g x)) ?_]
  · simp [mapMesh, pushPts, pushTris, QuadBez.bezPts, List.map_flatMap]
    rfl
  · intro x hx
    unfold QuadBez.eval2
    rw [QuadBez.eval_affine]
    have := hg x hx
    unfold QuadBez.eval2 at this
    rw [this]; rfl

/-- **C75** transforming a smooth mesh and meshing it is the same as meshing it and
transforming the mesh -/
theorem transform_commutes (s : SmoothMesh K) (hs : ∀ q ∈ s.tris, q.PosWeights) (n : Nat) (hn : 1 ≤ n)
    (r1 r2 r3 t : P3 K) : ∃ m, s.addToMesh Mesh.new n = some m ∧
      (s.applyTransform (affine r1 r2 r3 t)).addToMesh Mesh.new n = m.applyTransform (affine r1 r2 r3 t) := by
  set A := affine r1 r2 r3 t with hA
  have key : ∀ k ≤ s.tris.length, ∃ m, loopN k (fun i m => do
        let t ← s.triangle i
        t.addToMesh m n) Mesh.new = some m ∧
      loopN k (fun i m => do
        let t ← (s.applyTransform A).triangle i
        t.addToMesh m n) Mesh.new = some (mapMesh A m) := by
    intro k
    induction k with
    | zero => intro _; exact ⟨Mesh.new, rfl, rfl⟩
    | succ k ih =>
      intro hk
      obtain ⟨m, h1, h2⟩ := ih (by omega)
      have ht : s.triangle k = some (s.tris[k]) := by unfold triangle; rw [getI_natCast]; simp
      have hq := hs s.tris[k] (List.getElem_mem _)
      obtain ⟨g, hg⟩ := grid_exists _ hq n hn
      have e := QuadBez.addToMesh_eq _ n g hg m
      refine ⟨(m.pushPts (QuadBez.bezPts n g)).pushTris (QuadBez.bezFaces n m.kern.verts.length), ?_, ?_⟩
      · rw [loopN_succ, h1]; simp only [Option.bind_eq_bind, Option.bind_some, ht]; exact e
      · rw [loopN_succ, h2]
        simp only [Option.bind_eq_bind, Option.bind_some, (transform_spec s A).2, ht, Option.map_some]
        rw [hA, patch_commutes _ hq n hn, e]; rfl
  obtain ⟨m, h1, h2⟩ := key s.tris.length le_rfl
  refine ⟨m, h1, ?_⟩
  rw [applyTransform_eq]
  unfold addToMesh
  rw [show (s.applyTransform A).tris.length = s.tris.length by simp [applyTransform]]
  exact h2

theorem sphere_weights (d : K) (m : SmoothMesh K) : ∀ q ∈ (m.createSphere d).tris, q.PosWeights := by
  intro q hq
  simp only [createSphere, clear, addTriangle, List.nil_append, List.cons_append, List.mem_cons,
    List.not_mem_nil, or_false] at hq
  rcases hq with rfl | rfl | rfl | rfl | rfl | rfl | rfl | rfl <;>
    exact ⟨one_pos, one_pos, one_pos, one_pos, one_pos, one_pos⟩

/-- the hypotheses of `transform_commutes` hold for the sphere -/
example : ∃ m, (SmoothMesh.new.createSphere (2 : ℚ)).addToMesh Mesh.new (3 : Nat) = some m ∧
    ((SmoothMesh.new.createSphere (2 : ℚ)).applyTransform
      (affine ⟨0, -1, 0⟩ ⟨1, 0, 0⟩ ⟨0, 0, 1⟩ ⟨5, 6, 7⟩)).addToMesh Mesh.new (3 : Nat) =
    m.applyTransform (affine ⟨0, -1, 0⟩ ⟨1, 0, 0⟩ ⟨0, 0, 1⟩ ⟨5, 6, 7⟩) :=
  transform_commutes _ (sphere_weights _ _) 3 (by omega) _ _ _ _

/-! ### The smooth sphere -/

theorem patch_eval (d ex ey ez s u : K) :
    (spherePatch ⟨ex * d, 0, 0⟩ ⟨0, ey * d, 0⟩ ⟨0, 0, ez * d⟩ ⟨ex * d, ey * d, 0⟩ ⟨ex * d, 0, ez * d⟩
      ⟨0, ey * d, ez * d⟩).eval2 s u =
      some ⟨ex * d * (s * (2 - s)), ey * d * (u * (2 - u)), ez * d * ((1 - s - u) * (2 - (1 - s - u)))⟩ := by
  rw [(QuadBez.eval_default _ _ _).1]
  have hw : (1 : K) * s * s + 1 * u * u + 1 * (1 - s - u) * (1 - s - u) + 1 * 2 * s * u +
      1 * 2 * s * (1 - s - u) + 1 * 2 * u * (1 - s - u) = 1 := by ring
  simp only [QuadBez.evalBary, spherePatch, QuadBez.setControlPoints, QuadBez.setPoints, QuadBez.new, hw,
    one_ne_zero, if_false, Option.some.injEq]
  simp only [P3.ext_iff, P3.div, P3.add_x, P3.add_y, P3.add_z, P3.smul_x, P3.smul_y, P3.smul_z, div_one]
  refine ⟨?_, ?_, ?_⟩ <;> ring

/-- **C76** `create_sphere` makes one patch for each octant; on the octant with signs
`(ex, ey, ez)` the point at `(s, u, v)` is
`(ex d s(2-s), ey d u(2-u), ez d v(2-v))` with `v = 1-s-u`.  On the side `s = 0`
this does not depend on `ex` (and so on), so neighbouring patches join. -/
theorem sphere_patches (d : K) (m : SmoothMesh K) (ex ey ez : K) (hx : ex = 1 ∨ ex = -1)
    (hy : ey = 1 ∨ ey = -1) (hz : ez = 1 ∨ ez = -1) :
    (m.createSphere d).nbTriangles = 8 ∧
    ∃ (i : Int) (q : QuadBez K), (m.createSphere d).triangle i = some q ∧
      q.p1 = ⟨ex * d, 0, 0⟩ ∧ q.p2 = ⟨0, ey * d, 0⟩ ∧ q.p3 = ⟨0, 0, ez * d⟩ ∧
      ∀ s u : K, q.eval2 s u =
        some ⟨ex * d * (s * (2 - s)), ey * d * (u * (2 - u)), ez * d * ((1 - s - u) * (2 - (1 - s - u)))⟩ := by
  refine ⟨rfl, ?_⟩
  have key : ∃ i, (m.createSphere d).triangle i = some (spherePatch ⟨ex * d, 0, 0⟩ ⟨0, ey * d, 0⟩
      ⟨0, 0, ez * d⟩ ⟨ex * d, ey * d, 0⟩ ⟨ex * d, 0, ez * d⟩ ⟨0, ey * d, ez * d⟩) := by
    rcases hx with rfl | rfl <;> rcases hy with rfl | rfl <;> rcases hz with rfl | rfl <;>
      simp only [one_mul, neg_mul]
    · exact ⟨0, rfl⟩
    · exact ⟨3, rfl⟩
    · exact ⟨2, rfl⟩
    · exact ⟨7, rfl⟩
    · exact ⟨1, rfl⟩
    · exact ⟨6, rfl⟩
    · exact ⟨4, rfl⟩
    · exact ⟨5, rfl⟩
  obtain ⟨i, hi⟩ := key
  exact ⟨i, _, hi, rfl, rfl, rfl, fun s u => patch_eval d ex ey ez s u⟩

theorem schur_sorted (a b c : K) (hc : 0 ≤ c) (h1 : c ≤ b) (h2 : b ≤ a) :
    0 ≤ a * (a - b) * (a - c) + b * (b - a) * (b - c) + c * (c - a) * (c - b) := by
  have e : a * (a - b) * (a - c) + b * (b - a) * (b - c) + c * (c - a) * (c - b) =
      (a - b) ^ 2 * (a + b - c) + c * ((a - c) * (b - c)) := by ring
  rw [e]
  have x1 : 0 ≤ a + b - c := by linarith
  have x2 : 0 ≤ a - c := by linarith
  have x3 : 0 ≤ b - c := by linarith
  positivity

theorem shape_bounds (s u v : K) (hs : 0 ≤ s) (hu : 0 ≤ u) (hv : 0 ≤ v) (h1 : s + u + v = 1) :
    25 / 27 ≤ (s * (2 - s)) ^ 2 + (u * (2 - u)) ^ 2 + (v * (2 - v)) ^ 2 ∧
    (s * (2 - s)) ^ 2 + (u * (2 - u)) ^ 2 + (v * (2 - v)) ^ 2 ≤ 9 / 8 := by
  have hv' : v = 1 - s - u := by linarith
  have e : (s * (2 - s)) ^ 2 + (u * (2 - u)) ^ 2 + (v * (2 - v)) ^ 2 =
      1 + 2 * (s * u + s * v + u * v) ^ 2 - 8 * (s * u * v) := by subst hv'; ring
  rw [e]
  have a1 : 0 ≤ s * u * v := by positivity
  have a0 : 0 ≤ s * u + s * v + u * v := by positivity
  -- e3 ≤ e2² / 3
  have a2 : 3 * (s * u * v) ≤ (s * u + s * v + u * v) ^ 2 := by
    have : 3 * (s * u * v) = 3 * (s * u * v) * (s + u + v) := by rw [h1]; ring
    rw [this]
    nlinarith [sq_nonneg (s * u - s * v), sq_nonneg (s * u - u * v), sq_nonneg (s * v - u * v)]
  have a3 : s * u + s * v + u * v ≤ 1 / 3 := by
    have : (s + u + v) ^ 2 = 1 := by rw [h1]; ring
    nlinarith [sq_nonneg (s - u), sq_nonneg (s - v), sq_nonneg (u - v)]
  -- Schur
  have a4 : 4 * (s * u + s * v + u * v) - 1 ≤ 9 * (s * u * v) := by
    have schur : 0 ≤ s * (s - u) * (s - v) + u * (u - s) * (u - v) + v * (v - s) * (v - u) := by
      rcases le_total s u with h | h <;> rcases le_total s v with h' | h' <;> rcases le_total u v with h'' | h''
      · linarith [schur_sorted v u s hs h h'']
      · linarith [schur_sorted u v s hs h' h'']
      · have : u = v := by linarith
        subst this
        linarith [schur_sorted u u s hs h le_rfl]
      · linarith [schur_sorted u s v hv h' h]
      · linarith [schur_sorted v s u hu h h']
      · have : u = v := by linarith
        subst this
        linarith [schur_sorted u u s hs h' le_rfl]
      · linarith [schur_sorted s v u hu h'' h']
      · linarith [schur_sorted s u v hv h'' h]
    have e2 : s * (s - u) * (s - v) + u * (u - s) * (u - v) + v * (v - s) * (v - u) =
        1 - 4 * (s * u + s * v + u * v) + 9 * (s * u * v) := by subst hv'; ring
    linarith
  generalize s * u + s * v + u * v = e2 at *
  generalize s * u * v = e3 at *
  constructor
  · nlinarith
  · rcases le_total e2 (1 / 4) with h | h
    · nlinarith
    · nlinarith

/-- **C76** (disagreement, measured) the "sphere" is not a sphere: every point `p` of
every patch satisfies `25/27 d² ≤ |p|² ≤ 9/8 d²`, and both bounds are attained,
the first at the middle of a patch and the second at the middle of its sides -/
theorem sphere_radius_partial (d : K) (m : SmoothMesh K) (i : Int) (q : QuadBez K)
    (hq : (m.createSphere d).triangle i = some q) :
    (∀ s u : K, 0 ≤ s → 0 ≤ u → s + u ≤ 1 → ∃ p, q.eval2 s u = some p ∧
      25 / 27 * d ^ 2 ≤ p.normSq ∧ p.normSq ≤ 9 / 8 * d ^ 2) ∧
    q.p1.normSq = d ^ 2 ∧ q.p2.normSq = d ^ 2 ∧ q.p3.normSq = d ^ 2 ∧
    (∃ p, q.eval2 (1 / 3) (1 / 3) = some p ∧ p.normSq = 25 / 27 * d ^ 2) ∧
    (∃ p, q.eval2 (1 / 2) (1 / 2) = some p ∧ p.normSq = 9 / 8 * d ^ 2) := by
  have key : ∃ ex ey ez : K, ex ^ 2 = 1 ∧ ey ^ 2 = 1 ∧ ez ^ 2 = 1 ∧ q = spherePatch ⟨ex * d, 0, 0⟩
      ⟨0, ey * d, 0⟩ ⟨0, 0, ez * d⟩ ⟨ex * d, ey * d, 0⟩ ⟨ex * d, 0, ez * d⟩ ⟨0, ey * d, ez * d⟩ := by
    have hm : q ∈ (m.createSphere d).tris := by
      unfold triangle at hq
      obtain ⟨j, -, hj⟩ := (getI_eq_some_iff).1 hq
      exact List.mem_of_getElem? hj
    simp only [createSphere, clear, addTriangle, List.nil_append, List.cons_append, List.mem_cons,
      List.not_mem_nil, or_false] at hm
    rcases hm with rfl | rfl | rfl | rfl | rfl | rfl | rfl | rfl
    · exact ⟨1, 1, 1, by norm_num, by norm_num, by norm_num, by simp⟩
    · exact ⟨-1, 1, 1, by norm_num, by norm_num, by norm_num, by simp⟩
    · exact ⟨1, -1, 1, by norm_num, by norm_num, by norm_num, by simp⟩
    · exact ⟨1, 1, -1, by norm_num, by norm_num, by norm_num, by simp⟩
    · exact ⟨-1, -1, 1, by norm_num, by norm_num, by norm_num, by simp⟩
    · exact ⟨-1, -1, -1, by norm_num, by norm_num, by norm_num, by simp⟩
    · exact ⟨-1, 1, -1, by norm_num, by norm_num, by norm_num, by simp⟩
    · exact ⟨1, -1, -1, by norm_num, by norm_num, by norm_num, by simp⟩
  obtain ⟨ex, ey, ez, hx, hy, hz, rfl⟩ := key
  have hn : ∀ a b c : K, (P3.mk (ex * d * a) (ey * d * b) (ez * d * c)).normSq = d ^ 2 * (a ^ 2 + b ^ 2 + c ^ 2) := by
    intro a b c
    simp only [P3.normSq, P3.dot]
    linear_combination d ^ 2 * a ^ 2 * hx + d ^ 2 * b ^ 2 * hy + d ^ 2 * c ^ 2 * hz
  refine ⟨?_, ?_, ?_, ?_, ?_, ?_⟩
  · intro s u hs hu h1
    refine ⟨_, patch_eval d ex ey ez s u, ?_⟩
    rw [hn]
    obtain ⟨h2, h3⟩ := shape_bounds s u (1 - s - u) hs hu (by linarith) (by ring)
    have hd := sq_nonneg d
    constructor <;> nlinarith
  · simpa [spherePatch, QuadBez.setControlPoints, QuadBez.setPoints] using hn 1 0 0
  · simpa [spherePatch, QuadBez.setControlPoints, QuadBez.setPoints] using hn 0 1 0
  · simpa [spherePatch, QuadBez.setControlPoints, QuadBez.setPoints] using hn 0 0 1
  · refine ⟨_, patch_eval d ex ey ez _ _, ?_⟩
    rw [hn]; norm_num; ring
  · refine ⟨_, patch_eval d ex ey ez _ _, ?_⟩
    rw [hn]; norm_num; ring

/-- **C76** (disagreement) the patches are not consistently oriented: seen from
outside, a patch is counter-clockwise exactly on the octants with an even number
of negative signs -/
theorem sphere_orientation (d : K) (hd : 0 < d) (m : SmoothMesh K) :
    (∃ i q, (m.createSphere d).triangle i = some q ∧ 0 < q.p1.dot (q.p2.cross q.p3)) ∧
    (∃ i q, (m.createSphere d).triangle i = some q ∧ q.p1.dot (q.p2.cross q.p3) < 0) := by
  have h3 : 0 < d * (d * d) := by positivity
  refine ⟨⟨0, _, rfl, ?_⟩, ⟨1, _, rfl, ?_⟩⟩
  · simp [spherePatch, QuadBez.setControlPoints, QuadBez.setPoints, P3.dot, P3.cross, h3]
  · simp [spherePatch, QuadBez.setControlPoints, QuadBez.setPoints, P3.dot, P3.cross, h3]

end SmoothMesh

/-! ### Point-normal triangles -/

namespace CubicBez
variable {K : Type} [Field K] [LinearOrder K] [IsStrictOrderedRing K]

theorem edgeControl_tangent (p q n : P3 K) (hn : n.dot n = 1) : (edgeControl p q n - p).dot n = 0 := by
  simp only [edgeControl, P3.dot, P3.sub_x, P3.sub_y, P3.sub_z, P3.smul_x, P3.smul_y, P3.smul_z, P3.add_x,
    P3.add_y, P3.add_z] at *
  linear_combination -(1 / 3 : K) * ((q.x - p.x) * n.x + (q.y - p.y) * n.y + (q.z - p.z) * n.z) * hn

/-- **C77** with unit normals the control points next to a corner lie in the tangent
plane of that corner, so each boundary curve is tangent to the given normals there -/
theorem normals_tangent (c : CubicBez K) (n1 n2 n3 : P3 K) (h1 : n1.dot n1 = 1) (h2 : n2.dot n2 = 1)
    (h3 : n3.dot n3 = 1) :
    let r := c.setNormals n1 n2 n3
    r.p1 = c.p1 ∧ r.p2 = c.p2 ∧ r.p3 = c.p3 ∧
    (r.c12 - c.p1).dot n1 = 0 ∧ (r.c13 - c.p1).dot n1 = 0 ∧ (r.c21 - c.p2).dot n2 = 0 ∧
    (r.c23 - c.p2).dot n2 = 0 ∧ (r.c31 - c.p3).dot n3 = 0 ∧ (r.c32 - c.p3).dot n3 = 0 :=
  ⟨rfl, rfl, rfl, edgeControl_tangent _ _ _ h1, edgeControl_tangent _ _ _ h1, edgeControl_tangent _ _ _ h2,
    edgeControl_tangent _ _ _ h2, edgeControl_tangent _ _ _ h3, edgeControl_tangent _ _ _ h3⟩

example : (P3.mk (3/5) (4/5) 0 : P3 ℚ).dot ⟨3/5, 4/5, 0⟩ = 1 := by simp only [P3.dot]; norm_num

/-- **C77** the control points of a side depend only on the end points and normals of
that side (read from either side), so neighbouring triangles share their side -/
theorem normals_side (c c' : CubicBez K) (n1 n2 n3 n3' : P3 K) (h1 : c.p1 = c'.p1) (h2 : c.p2 = c'.p2) :
    (c.setNormals n1 n2 n3).c12 = (c'.setNormals n1 n2 n3').c12 ∧
    (c.setNormals n1 n2 n3).c21 = (c'.setNormals n1 n2 n3').c21 ∧
    (∀ c'' : CubicBez K, c''.p1 = c.p2 → c''.p2 = c.p1 → ∀ n, (c''.setNormals n2 n1 n).c12 =
      (c.setNormals n1 n2 n3).c21 ∧ (c''.setNormals n2 n1 n).c21 = (c.setNormals n1 n2 n3).c12) := by
  refine ⟨by simp [setNormals, h1, h2], by simp [setNormals, h1, h2], fun c'' e1 e2 n => ?_⟩
  simp [setNormals, e1, e2]

/-- **C77** when every normal is perpendicular to its sides the triangle stays flat:
the side control points divide the sides in three and the central one is the
centroid -/
theorem normals_flat (c : CubicBez K) (n1 n2 n3 : P3 K)
    (h12 : (c.p2 - c.p1).dot n1 = 0) (h13 : (c.p3 - c.p1).dot n1 = 0)
    (h21 : (c.p1 - c.p2).dot n2 = 0) (h23 : (c.p3 - c.p2).dot n2 = 0)
    (h31 : (c.p1 - c.p3).dot n3 = 0) (h32 : (c.p2 - c.p3).dot n3 = 0) :
    let r := c.setNormals n1 n2 n3
    r.c12 = (2 / 3 : K) • c.p1 + (1 / 3 : K) • c.p2 ∧ r.c21 = (2 / 3 : K) • c.p2 + (1 / 3 : K) • c.p1 ∧
    r.c13 = (2 / 3 : K) • c.p1 + (1 / 3 : K) • c.p3 ∧ r.c31 = (2 / 3 : K) • c.p3 + (1 / 3 : K) • c.p1 ∧
    r.c23 = (2 / 3 : K) • c.p2 + (1 / 3 : K) • c.p3 ∧ r.c32 = (2 / 3 : K) • c.p3 + (1 / 3 : K) • c.p2 ∧
    r.center = (1 / 3 : K) • (c.p1 + c.p2 + c.p3) := by
  simp only [setNormals, edgeControl, h12, h13, h21, h23, h31, h32]
  simp only [P3.ext_iff, P3.sub_x, P3.sub_y, P3.sub_z, P3.smul_x, P3.smul_y, P3.smul_z, P3.add_x,
    P3.add_y, P3.add_z]
  refine ⟨?_, ?_, ?_, ?_, ?_, ?_, ?_⟩ <;> refine ⟨?_, ?_, ?_⟩ <;> ring

example : ((⟨4, 5, 0⟩ - ⟨1, 1, 0⟩ : P3 ℚ)).dot ⟨0, 0, 1⟩ = 0 := by
  simp only [P3.dot, P3.sub_x, P3.sub_y, P3.sub_z]; norm_num

end CubicBez
end CAD
