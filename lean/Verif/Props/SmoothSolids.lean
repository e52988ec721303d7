import Verif.Props.SmoothMesh
import Verif.Props.Platonic
import Verif.Lemmas.Boundary

/-! C92: the flat solids of `SmoothMeshFactory` and the meshes made of them. -/

set_option linter.unusedSimpArgs false

namespace CAD
open Mesh
variable {K : Type}

/-- the same oriented triangle, starting from any of its corners (specification) -/
def Tri3.Rot (t u : Tri3 K) : Prop := u = t ∨ u = ⟨t.p2, t.p3, t.p1⟩ ∨ u = ⟨t.p3, t.p1, t.p2⟩

/-- the triangle seen from the other side (specification) -/
def Tri3.flip (t : Tri3 K) : Tri3 K := ⟨t.p3, t.p2, t.p1⟩

/-- a mesh whose directed edges pair up by vertex ids is closed as a set of triangles -/
theorem closedSoup_of_ids [Zero K] {r : Mesh K} (hr : r.OK) (h : ClosedIds r.cornerList) : ClosedSoup r.triangles := by
  have hv := linkedCorners_valid ((ok_iff r).1 hr).valid
  rw [cornerList_eq] at h
  rw [triangles_eq]
  unfold soup
  generalize r.view.linkedCorners = fs at *
  set pos : Int → P3 K := fun i => ((getI r.view.points i).getD ⟨0, 0, 0⟩) with hpos
  have e : fs.filterMap r.view.tri = fs.map fun f => (⟨pos f.1, pos f.2.1, pos f.2.2⟩ : Tri3 K) := by
    rw [← List.filterMap_eq_map]
    apply List.filterMap_congr
    intro f hf
    obtain ⟨h1, h2, h3⟩ := hv f hf
    obtain ⟨p, hp⟩ := Option.isSome_iff_exists.1 (getI_isSome_iff.2 h1)
    obtain ⟨q, hq⟩ := Option.isSome_iff_exists.1 (getI_isSome_iff.2 h2)
    obtain ⟨w, hw⟩ := Option.isSome_iff_exists.1 (getI_isSome_iff.2 h3)
    simp only [AMesh.tri, hpos, hp, hq, hw, Option.bind_eq_bind, Option.bind_some, Option.getD_some, pure, Function.comp_apply]
  rw [e]
  have e2 : (fs.map fun f => (⟨pos f.1, pos f.2.1, pos f.2.2⟩ : Tri3 K)).flatMap Tri3.dirEdges =
      (idEdges fs).map fun e => (pos e.1, pos e.2) := by
    simp [idEdges, List.flatMap_map, List.map_flatMap, Tri3.dirEdges]
  unfold ClosedSoup
  rw [e2, List.map_map]
  have hp : (idEdges fs).Perm ((idEdges fs).map Prod.swap) := by
    rw [List.perm_ext_iff_of_nodup h.once (h.once.map Prod.swap_injective)]
    intro e
    rw [List.mem_map]
    exact ⟨fun he => ⟨_, h.reverse e he, Prod.swap_swap e⟩, by rintro ⟨a, ha, rfl⟩; exact h.reverse a ha⟩
  have := hp.map fun e : Int × Int => (pos e.1, pos e.2)
  rw [List.map_map] at this
  exact this

namespace SmoothMesh

/-- the patches are the triangles `ts`, in order and with the same orientation, and
each patch is flat and runs linearly over its triangle (specification) -/
def FlatCopy [Field K] [DecidableEq K] (s : SmoothMesh K) (ts : List (Tri3 K)) : Prop :=
  List.Forall₂ (fun (q : QuadBez K) t => Tri3.Rot ⟨q.p1, q.p2, q.p3⟩ t ∧
    ∀ a b : K, q.eval2 a b = some (a • q.p1 + b • q.p2 + (1 - a - b) • q.p3)) s.tris ts

section
variable [Field K] [LinearOrder K] [IsStrictOrderedRing K]

theorem flat_rot0 {p1 p2 p3 : P3 K} {qs : List (QuadBez K)} {ts : List (Tri3 K)}
    (h : FlatCopy ⟨qs⟩ ts) : FlatCopy ⟨QuadBez.new.setPoints p1 p2 p3 :: qs⟩ (⟨p1, p2, p3⟩ :: ts) :=
  List.Forall₂.cons ⟨Or.inl rfl, fun a b => QuadBez.eval_flat p1 p2 p3 two_ne_zero a b⟩ h

theorem flat_rot1 {p1 p2 p3 : P3 K} {qs : List (QuadBez K)} {ts : List (Tri3 K)}
    (h : FlatCopy ⟨qs⟩ ts) : FlatCopy ⟨QuadBez.new.setPoints p1 p2 p3 :: qs⟩ (⟨p2, p3, p1⟩ :: ts) :=
  List.Forall₂.cons ⟨Or.inr (Or.inl rfl), fun a b => QuadBez.eval_flat p1 p2 p3 two_ne_zero a b⟩ h

theorem flat_nil : FlatCopy (⟨[]⟩ : SmoothMesh K) [] := List.Forall₂.nil

/-- **C92** the smooth tetrahedron, box and octahedron have exactly the faces of the
meshes made by `MeshFactory`, with the same orientation, and their patches are flat -/
theorem flat_solids (d x y z : K) (m : SmoothMesh K) (m' : Mesh K) :
    (∃ r, Factory.createTetrahedron d m' = some r ∧ (m.createTetrahedron d).FlatCopy r.triangles) ∧
    (∃ r, Factory.createBox x y z m' = some r ∧ (m.createBox x y z).FlatCopy r.triangles) ∧
    (∃ r, Factory.createOctahedron d m' = some r ∧ (m.createOctahedron d).FlatCopy r.triangles) := by
  refine ⟨?_, ?_, ?_⟩
  · obtain ⟨r, h1, -, h2⟩ := Factory.tetra_tris d m'
    refine ⟨r, h1, ?_⟩
    rw [h2]
    exact flat_rot0 (flat_rot0 (flat_rot0 (flat_rot0 flat_nil)))
  · obtain ⟨r, h1, -, h2⟩ := Factory.box_tris x y z m'
    refine ⟨r, h1, ?_⟩
    rw [h2]
    exact flat_rot0 (flat_rot1 (flat_rot0 (flat_rot1 (flat_rot0 (flat_rot1 (flat_rot0 (flat_rot1
      (flat_rot0 (flat_rot1 (flat_rot0 (flat_rot1 flat_nil)))))))))))
  · obtain ⟨r, h1, -, h2⟩ := Factory.octa_tris d m'
    refine ⟨r, h1, ?_⟩
    rw [h2]
    exact flat_rot0 (flat_rot0 (flat_rot0 (flat_rot0 (flat_rot0 (flat_rot0 (flat_rot0 (flat_rot0 flat_nil)))))))

end

/-- **C92** the same for the smooth dodecahedron and icosahedron -/
theorem flat_solids_golden (d : ℝ) (m : SmoothMesh ℝ) (m' : Mesh ℝ) :
    (∃ r, Factory.createDodecahedron d m' = some r ∧ (m.createDodecahedron d).FlatCopy r.triangles) ∧
    (∃ r, Factory.createIcosahedron d m' = some r ∧ (m.createIcosahedron d).FlatCopy r.triangles) := by
  refine ⟨?_, ?_⟩
  · obtain ⟨r, h1, -, h2⟩ := Factory.dodeca_tris d m'
    refine ⟨r, h1, ?_⟩
    rw [h2]
    simp only [createDodecahedron, addFlatPentagon, addFlatTriangle, addTriangle, clear, List.nil_append,
      List.cons_append]
    iterate 36 apply flat_rot0
    exact flat_nil
  · obtain ⟨r, h1, -, h2⟩ := Factory.icosa_tris d m'
    refine ⟨r, h1, ?_⟩
    rw [h2]
    simp only [createIcosahedron, addFlatTriangle, addTriangle, clear, List.nil_append, List.cons_append]
    iterate 20 apply flat_rot0
    exact flat_nil

/-- number of triangles that `add_to_mesh` makes of one patch (specification) -/
def pieces (n : Nat) : Nat := if n = 1 then 1 else n * n + 6 - 4 * n

section
variable [Field K] [LinearOrder K] [IsStrictOrderedRing K]

/-- `l` consists of small copies of `T`, turned over (specification) -/
def Turned (n : Nat) (T : Tri3 K) (l : List (Tri3 K)) : Prop :=
  l.length = pieces n ∧ (∀ t ∈ l, InTriangle T t.p1 ∧ InTriangle T t.p2 ∧ InTriangle T t.p3 ∧
    ((n : K) ^ 2) • t.vecArea = (-1 : K) • T.vecArea) ∧
  (n = 1 → ∃ t, l = [t] ∧ Tri3.Rot T.flip t)

theorem turned_rot {n : Nat} {T U : Tri3 K} (h : Tri3.Rot T U) {l : List (Tri3 K)} (hl : Turned n T l) :
    Turned n U l := by
  have hin : ∀ p, InTriangle T p → InTriangle U p := by
    intro p hp
    obtain ⟨a, b, c, ha, hb, hc, h1, h2⟩ := hp
    rcases h with rfl | rfl | rfl
    · exact ⟨a, b, c, ha, hb, hc, h1, h2⟩
    · refine ⟨b, c, a, hb, hc, ha, by linarith, ?_⟩
      rw [h2]; simp only [P3.ext_iff, P3.add_x, P3.add_y, P3.add_z]; refine ⟨?_, ?_, ?_⟩ <;> ring
    · refine ⟨c, a, b, hc, ha, hb, by linarith, ?_⟩
      rw [h2]; simp only [P3.ext_iff, P3.add_x, P3.add_y, P3.add_z]; refine ⟨?_, ?_, ?_⟩ <;> ring
  have hv : U.vecArea = T.vecArea := by
    rcases h with rfl | rfl | rfl
    · rfl
    all_goals
      simp only [Tri3.vecArea, P3.cross, P3.ext_iff, P3.sub_x, P3.sub_y, P3.sub_z]
      refine ⟨?_, ?_, ?_⟩ <;> ring
  refine ⟨hl.1, fun t ht => ?_, fun hn => ?_⟩
  · obtain ⟨h1, h2, h3, h4⟩ := hl.2.1 t ht
    exact ⟨hin _ h1, hin _ h2, hin _ h3, by rw [hv]; exact h4⟩
  · obtain ⟨t, e, ht⟩ := hl.2.2 hn
    refine ⟨t, e, ?_⟩
    rcases h with rfl | rfl | rfl
    · exact ht
    all_goals
      rcases ht with rfl | rfl | rfl
      all_goals first
        | exact Or.inl rfl
        | exact Or.inr (Or.inl rfl)
        | exact Or.inr (Or.inr rfl)

theorem turned_patch (q : QuadBez K)
    (hq : ∀ a b : K, q.eval2 a b = some (a • q.p1 + b • q.p2 + (1 - a - b) • q.p3))
    (m : Mesh K) (hm : m.OK) (n : Nat) (hn : 1 ≤ n) :
    ∃ m' l, q.addToMesh m n = some m' ∧ m'.OK ∧ m'.triangles = m.triangles ++ l ∧
      Turned n ⟨q.p1, q.p2, q.p3⟩ l := by
  have e : q.addToMesh m n = (QuadBez.new.setPoints q.p1 q.p2 q.p3).addToMesh m n := by
    rw [QuadBez.addToMesh_eq q n _ (fun x _ => hq _ _),
      QuadBez.addToMesh_eq _ n _ (fun x _ => QuadBez.eval_flat q.p1 q.p2 q.p3 two_ne_zero _ _)]
  obtain ⟨m', l, h1, h2, h3, h4⟩ := QuadBez.add_to_mesh_flat q.p1 q.p2 q.p3 m hm n hn
  obtain ⟨m'', g, cells, k1, k2, hg, -, -, -, k3, -, k4, k5⟩ :=
    QuadBez.add_to_mesh_partial (QuadBez.new.setPoints q.p1 q.p2 q.p3)
      ⟨one_pos, one_pos, one_pos, one_pos, one_pos, one_pos⟩ m hm n hn
  rw [h1] at k1
  cases k1
  refine ⟨m', l, by rw [e, h1], k2, h2, h3, h4, ?_⟩
  intro hn1
  subst hn1
  rw [h2] at k3
  have k3 := List.append_cancel_left k3
  rw [if_pos rfl] at k5
  obtain ⟨c, rfl⟩ := List.length_eq_one_iff.1 k5
  have g00 : g (0, 0) = q.p3 := by
    have := hg 0 0 (by omega)
    rw [QuadBez.eval_flat _ _ _ two_ne_zero, Option.some.injEq] at this
    rw [← this]; simp [P3.ext_iff]
  have g01 : g (0, 1) = q.p2 := by
    have := hg 0 1 (by omega)
    rw [QuadBez.eval_flat _ _ _ two_ne_zero, Option.some.injEq] at this
    rw [← this]; simp [P3.ext_iff]
  have g10 : g (1, 0) = q.p1 := by
    have := hg 1 0 (by omega)
    rw [QuadBez.eval_flat _ _ _ two_ne_zero, Option.some.injEq] at this
    rw [← this]; simp [P3.ext_iff]
  refine ⟨_, k3, ?_⟩
  obtain ⟨⟨a1, a2⟩, ⟨b1, b2⟩, c1, c2⟩ := c
  obtain ⟨i1, i2, i3, i4⟩ := k4 _ (List.mem_singleton.2 rfl)
  simp only at i1 i2 i3 i4 ⊢
  have cases3 : ∀ x y : Nat, x + y ≤ 1 → (x = 0 ∧ y = 0) ∨ (x = 0 ∧ y = 1) ∨ (x = 1 ∧ y = 0) := by omega
  rcases cases3 a1 a2 i1 with ⟨rfl, rfl⟩ | ⟨rfl, rfl⟩ | ⟨rfl, rfl⟩ <;>
  rcases cases3 b1 b2 i2 with ⟨rfl, rfl⟩ | ⟨rfl, rfl⟩ | ⟨rfl, rfl⟩ <;>
  rcases cases3 c1 c2 i3 with ⟨rfl, rfl⟩ | ⟨rfl, rfl⟩ | ⟨rfl, rfl⟩ <;>
  first
    | (exfalso; revert i4; decide)
    | (rw [g00, g01, g10]; first
        | exact Or.inl rfl
        | exact Or.inr (Or.inl rfl)
        | exact Or.inr (Or.inr rfl))

theorem turned_mesh (s : SmoothMesh K) (ts : List (Tri3 K)) (hs : s.FlatCopy ts) (m : Mesh K) (hm : m.OK)
    (n : Nat) (hn : 1 ≤ n) :
    ∃ m' ls, s.addToMesh m n = some m' ∧ m'.OK ∧ m'.triangles = m.triangles ++ ls.flatten ∧
      List.Forall₂ (Turned n) ts ls := by
  have hlen := hs.length_eq
  obtain ⟨m', h1, h2, ls, h3, h4⟩ := loopN_inv (n := s.tris.length) (s := m) (f := fun i m => do
      let t ← s.triangle i
      t.addToMesh m n) (fun i m' => m'.OK ∧ ∃ ls : List (List (Tri3 K)), m'.triangles = m.triangles ++ ls.flatten ∧
        List.Forall₂ (Turned n) (ts.take i) ls)
    ⟨hm, [], by simp, by simp⟩ (by
      rintro i hi m1 ⟨hok, ls, e1, e2⟩
      have ht : s.triangle i = some (s.tris[i]) := by unfold triangle; rw [getI_natCast]; simp
      have hti : i < ts.length := by omega
      obtain ⟨k1, k2⟩ := (List.forall₂_iff_get.1 hs).2 i hi hti
      obtain ⟨m2, l, j1, j2, j3, j4⟩ := turned_patch s.tris[i] k2 m1 hok n hn
      refine ⟨m2, by simp only [ht, Option.bind_eq_bind, Option.bind_some]; exact j1, j2, ls ++ [l], ?_, ?_⟩
      · rw [j3, e1]; simp
      · rw [List.take_succ_eq_append_getElem hti]
        exact List.rel_append e2 (List.Forall₂.cons (turned_rot k1 j4) List.Forall₂.nil))
  refine ⟨m', ls, h1, h2, h3, ?_⟩
  rwa [hlen, List.take_length] at h4

theorem sum_turned {n : Nat} (f : Tri3 K → K) (k : K)
    {ts : List (Tri3 K)} {ls : List (List (Tri3 K))} (h : List.Forall₂ (Turned n) ts ls)
    (hf : ∀ T t : Tri3 K, InTriangle T t.p1 → ((n : K) ^ 2) • t.vecArea = (-1 : K) • T.vecArea → f t = k * f T) :
    (ls.flatten.map f).sum = pieces n * k * (ts.map f).sum := by
  induction h with
  | nil => simp
  | @cons T l ts ls h1 h2 ih =>
    have : ∀ l' : List (Tri3 K), (∀ t ∈ l', f t = k * f T) → (l'.map f).sum = l'.length * (k * f T) := by
      intro l' hl'
      induction l' with
      | nil => simp
      | cons t l' ih' =>
        rw [List.map_cons, List.sum_cons, hl' t (by simp), ih' (fun t ht => hl' t (List.mem_cons_of_mem _ ht)),
          List.length_cons]
        push_cast; ring
    rw [List.flatten_cons, List.map_append, List.sum_append, ih, List.map_cons, List.sum_cons,
      this l (fun t ht => hf T t (h1.2.1 t ht).1 (h1.2.1 t ht).2.2.2), h1.1]
    ring

/-- **C92** meshing a flat smooth solid whose patches are the triangles `ts` with `n`
segments never fails, and all vertices of the mesh lie on `ts`; but the mesh is turned
inside out, and only `pieces n` of the `n²` small triangles of each patch are there: its
volume is that of `ts` times `-(pieces n) / n²`.  With one segment it is closed whenever
`ts` is. -/
theorem flat_mesh_partial (s : SmoothMesh K) (ts : List (Tri3 K)) (hs : s.FlatCopy ts) (n : Nat) (hn : 1 ≤ n) :
    ∃ m', s.addToMesh Mesh.new n = some m' ∧ m'.OK ∧
      (∀ t ∈ m'.triangles, ∃ T ∈ ts, InTriangle T t.p1 ∧ InTriangle T t.p2 ∧ InTriangle T t.p3) ∧
      m'.triangles.length = ts.length * pieces n ∧
      Measure.volume m' = some (-(pieces n / (n : K) ^ 2) * ((ts.map fun t => det3 t.p1 t.p2 t.p3).sum / 6)) ∧
      (n = 1 → ClosedSoup ts → ClosedSoup m'.triangles) := by
  obtain ⟨m', ls, h1, h2, h3, h4⟩ := turned_mesh s ts hs Mesh.new Mesh.new_ok n hn
  have hn0 : (n : K) ≠ 0 := by exact_mod_cast (by omega : n ≠ 0)
  have e0 : (Mesh.new : Mesh K).triangles = [] := rfl
  rw [e0, List.nil_append] at h3
  refine ⟨m', h1, h2, ?_, ?_, ?_, ?_⟩
  · intro t ht
    rw [h3, List.mem_flatten] at ht
    obtain ⟨l, hl, ht⟩ := ht
    obtain ⟨i, hi, rfl⟩ := List.mem_iff_getElem.1 hl
    have hlen := h4.length_eq
    have := (List.forall₂_iff_get.1 h4).2 i (by omega) hi
    obtain ⟨j1, j2, j3, -⟩ := this.2.1 t ht
    exact ⟨_, List.get_mem _ _, j1, j2, j3⟩
  · rw [h3]
    clear h1 h2 h3 hs
    induction h4 with
    | nil => simp
    | cons a b ih => rw [List.flatten_cons, List.length_append, ih, a.1, List.length_cons]; ring
  · rw [measures_are_sums m' h2, h3]
    rw [sum_turned (fun t => det3 t.p1 t.p2 t.p3) (-(1 / (n : K) ^ 2)) h4]
    · congr 1; field_simp
    · rintro T t ⟨a, b, c, -, -, -, hsum, e⟩ hv
      have hd : ∀ t : Tri3 K, det3 t.p1 t.p2 t.p3 =
          t.p1.x * t.vecArea.x + t.p1.y * t.vecArea.y + t.p1.z * t.vecArea.z := by
        intro t
        simp only [det3, Tri3.vecArea, P3.cross, P3.sub_x, P3.sub_y, P3.sub_z]; ring
      have hd2 : T.p1.x * T.vecArea.x + T.p1.y * T.vecArea.y + T.p1.z * T.vecArea.z =
          t.p1.x * T.vecArea.x + t.p1.y * T.vecArea.y + t.p1.z * T.vecArea.z := by
        rw [e]
        obtain rfl : a = 1 - b - c := by linear_combination hsum
        simp only [Tri3.vecArea, P3.cross, P3.sub_x, P3.sub_y, P3.sub_z, P3.add_x, P3.add_y, P3.add_z,
          P3.smul_x, P3.smul_y, P3.smul_z]; ring
      simp only [P3.ext_iff, P3.smul_x, P3.smul_y, P3.smul_z] at hv
      show det3 _ _ _ = _ * det3 _ _ _
      rw [hd t, hd T, hd2]
      field_simp
      linear_combination t.p1.x * hv.1 + t.p1.y * hv.2.1 + t.p1.z * hv.2.2
  · intro hn1 hc
    subst hn1
    rw [h3]
    apply closedSoup_of_bdrySum
    intro φ hφ
    rw [← neg_eq_zero, ← bdrySum_closed hc hφ]
    clear h1 h2 h3 hs hc e0
    induction h4 with
    | nil => simp [bdrySum]
    | @cons T l ts ls a b ih =>
      obtain ⟨t, rfl, ht⟩ := a.2.2 rfl
      rw [List.flatten_cons, List.singleton_append, bdrySum_cons, bdrySum_cons, neg_add, ih]
      have h1 := hφ.swap T.p1 T.p2
      have h2 := hφ.swap T.p2 T.p3
      have h3 := hφ.swap T.p3 T.p1
      rcases ht with rfl | rfl | rfl <;> simp only [Tri3.flip, h1, h2, h3] <;> ring

end

/-- **C92** likewise for the area, measured with `MeshUtil`: it is that of `ts` times
`(pieces n) / n²`, less than the whole for every `n ≥ 2` -/
theorem flat_mesh_surface_partial (s : SmoothMesh ℝ) (ts : List (Tri3 ℝ)) (hs : s.FlatCopy ts) (n : Nat) (hn : 1 ≤ n) :
    (∃ m', s.addToMesh Mesh.new n = some m' ∧
      Measure.surface m' = some (pieces n / (n : ℝ) ^ 2 * (ts.map Tri3.surface).sum)) ∧
    (2 ≤ n → (pieces n / (n : ℝ) ^ 2 : ℝ) < 1) := by
  constructor
  · obtain ⟨m', ls, h1, h2, h3, h4⟩ := turned_mesh s ts hs Mesh.new Mesh.new_ok n hn
    have hn0 : (0 : ℝ) < n := by exact_mod_cast hn
    have e0 : (Mesh.new : Mesh ℝ).triangles = [] := rfl
    rw [e0, List.nil_append] at h3
    refine ⟨m', h1, ?_⟩
    rw [surface_is_sum m' h2, h3, sum_turned Tri3.surface (1 / (n : ℝ) ^ 2) h4]
    · congr 1; ring
    · rintro T t - hv
      have ho : ∀ t : Tri3 ℝ, t.orthogonal.norm = t.vecArea.norm := by
        intro t
        congr 1
        simp only [Tri3.orthogonal, Tri3.vecArea, P3.cross, P3.ext_iff, P3.sub_x, P3.sub_y, P3.sub_z]
        refine ⟨?_, ?_, ?_⟩ <;> ring
      have hv' : t.vecArea = (-(1 / (n : ℝ) ^ 2)) • T.vecArea := by
        simp only [P3.ext_iff, P3.smul_x, P3.smul_y, P3.smul_z] at hv ⊢
        refine ⟨?_, ?_, ?_⟩ <;> field_simp
        · linarith [hv.1]
        · linarith [hv.2.1]
        · linarith [hv.2.2]
      unfold Tri3.surface
      rw [ho t, ho T, hv']
      rw [P3.norm_smul, abs_neg, abs_of_pos (by positivity)]
      ring
  · intro h
    have : n * n + 6 - 4 * n < n * n := by
      have : 0 < n * n := by nlinarith
      omega
    unfold pieces
    rw [if_neg (by omega), div_lt_one (by positivity), sq]
    exact_mod_cast this

/-- **C92** the five flat solids meshed with one segment: a closed mesh with the volume of
the textbook solid and the opposite sign, that is turned inside out -/
theorem solids_inside_out (d x y z : ℝ) (m : SmoothMesh ℝ) :
    ∃ tetra box octa dodeca icosa : Mesh ℝ,
      (m.createTetrahedron d).addToMesh Mesh.new 1 = some tetra ∧
      (m.createBox x y z).addToMesh Mesh.new 1 = some box ∧
      (m.createOctahedron d).addToMesh Mesh.new 1 = some octa ∧
      (m.createDodecahedron d).addToMesh Mesh.new 1 = some dodeca ∧
      (m.createIcosahedron d).addToMesh Mesh.new 1 = some icosa ∧
      ClosedSoup tetra.triangles ∧ ClosedSoup box.triangles ∧ ClosedSoup octa.triangles ∧
      ClosedSoup dodeca.triangles ∧ ClosedSoup icosa.triangles ∧
      Measure.volume tetra = some (-(8 / 3 * d ^ 3)) ∧ Measure.volume box = some (-(x * y * z)) ∧
      Measure.volume octa = some (-(4 / 3 * d ^ 3)) ∧
      Measure.volume dodeca = some (-((15 + 7 * Real.sqrt 5) / 4 * ((Real.sqrt 5 - 1) * d) ^ 3)) ∧
      Measure.volume icosa = some (-(5 * (3 + Real.sqrt 5) / 12 * ((Real.sqrt 5 - 1) * d) ^ 3)) := by
  have key : ∀ (s : SmoothMesh ℝ) (r : Mesh ℝ) (V E F : Nat) (v : ℝ), s.FlatCopy r.triangles → Factory.Polyhedron V E F r →
      Measure.volume r = some v → ∃ m', s.addToMesh Mesh.new 1 = some m' ∧ ClosedSoup m'.triangles ∧
        Measure.volume m' = some (-v) := by
    intro s r V E F v hs hp hv
    obtain ⟨m', h1, -, -, -, h2, h3⟩ := flat_mesh_partial s _ hs 1 le_rfl
    refine ⟨m', h1, h3 rfl (closedSoup_of_ids hp.ok hp.closed), ?_⟩
    rw [measures_are_sums r hp.ok, Option.some.injEq] at hv
    rw [h2, hv]
    simp [pieces]
  obtain ⟨⟨r1, e1, f1⟩, ⟨r2, e2, f2⟩, r3, e3, f3⟩ := flat_solids d x y z m Mesh.new
  obtain ⟨⟨r4, e4, f4⟩, r5, e5, f5⟩ := flat_solids_golden d m Mesh.new
  obtain ⟨_, t1, p1, -, -, -, v1⟩ := Factory.tetrahedron_spec d Mesh.new
  obtain ⟨_, t2, p2, -, -, v2⟩ := Factory.box_spec x y z Mesh.new
  obtain ⟨_, t3, p3, -, -, -, v3⟩ := Factory.octahedron_spec d Mesh.new
  obtain ⟨_, t4, p4, -, -, -, v4⟩ := Factory.dodecahedron_spec d Mesh.new
  obtain ⟨_, t5, p5, -, -, -, v5⟩ := Factory.icosahedron_spec d Mesh.new
  cases e1.symm.trans t1
  cases e2.symm.trans t2
  cases e3.symm.trans t3
  cases e4.symm.trans t4
  cases e5.symm.trans t5
  obtain ⟨m1, a1, b1, c1⟩ := key _ _ _ _ _ _ f1 p1 v1
  obtain ⟨m2, a2, b2, c2⟩ := key _ _ _ _ _ _ f2 p2 v2
  obtain ⟨m3, a3, b3, c3⟩ := key _ _ _ _ _ _ f3 p3 v3
  obtain ⟨m4, a4, b4, c4⟩ := key _ _ _ _ _ _ f4 p4 v4
  obtain ⟨m5, a5, b5, c5⟩ := key _ _ _ _ _ _ f5 p5 v5
  exact ⟨m1, m2, m3, m4, m5, a1, a2, a3, a4, a5, b1, b2, b3, b4, b5, c1, c2, c3, c4, c5⟩

/-- Concrete: the smooth box 2 × 4 × 6 with one segment has volume -48 and is closed; with
two segments half of the triangles are missing and it is open. -/
example : (((SmoothMesh.new : SmoothMesh ℚ).createBox 2 4 6).addToMesh Mesh.new 1).map (fun m =>
    (Measure.volume m, m.nbTriangles)) = some (some (-48), 12) := by decide +kernel

example : (((SmoothMesh.new : SmoothMesh ℚ).createBox 2 4 6).addToMesh Mesh.new 2).map (fun m =>
    (Measure.volume m, m.nbTriangles, decide (ClosedSoup m.triangles))) = some (some (-24), 24, false) := by
  decide +kernel

end SmoothMesh
end CAD
