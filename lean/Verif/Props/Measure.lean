import Verif.Props.MeshPolygon
import Verif.Props.Vector
import Verif.Props.Transform
import Mathlib.LinearAlgebra.Matrix.NonsingularInverse
import Mathlib.LinearAlgebra.Matrix.Notation

/-! Properties C12–C16 (and the measures of C06): volume, surface and the checks. -/

set_option linter.unusedSimpArgs false

namespace CAD
variable {K : Type}
open Mesh

namespace Mesh

theorem soup_applyTransform {m m' : Mesh K} {f : P3 K → P3 K} (h : m.applyTransform f = some m') :
    m'.soup = m.soup.map (Tri3.map f) := by
  rw [applyTransform_eq] at h
  simp only [Option.some.injEq] at h
  subst h
  unfold soup
  rw [List.map_filterMap]
  apply List.filterMap_congr
  intro c _
  simp only [AMesh.tri, view_points, getI_map]
  cases getI m.kern.verts c.1 <;> cases getI m.kern.verts c.2.1 <;>
    cases getI m.kern.verts c.2.2 <;> rfl

theorem OK.applyTransform {m m' : Mesh K} (hm : m.OK) {f : P3 K → P3 K}
    (h : m.applyTransform f = some m') : m'.OK :=
  hm.step (op := .applyTransform f) (id := 0) (by simp [Mesh.step, h])

theorem OK.addMesh {m o m' : Mesh K} (hm : m.OK) (h : m.addMesh o = some m') : m'.OK :=
  hm.step (op := .addMesh o) (id := 0) (by simp [Mesh.step, h])

theorem OK.assign {m o m' : Mesh K} (hm : m.OK) (h : m.assign o = some m') : m'.OK :=
  hm.step (op := .assign o) (id := 0) (by simp [Mesh.step, h])

theorem OK.unlinkTriangle {m m' : Mesh K} (hm : m.OK) {i} (h : m.unlinkTriangle i = some m') :
    m'.OK :=
  hm.step (op := .unlinkTriangle i) (id := 0) (by simp [Mesh.step, h])

theorem tri_shift {m o : Mesh K} (c : Int × Int × Int) (hc : CornersIn o.kern.verts.length c)
    (col : Int) :
    ((m.setColor col).pushPts o.kern.verts).view.tri (AMesh.shift m.kern.verts.length c) =
      o.view.tri c := by
  have key : ∀ i, InRange o.kern.verts.length i →
      getI (m.kern.verts ++ o.kern.verts) (i + m.kern.verts.length) = getI o.kern.verts i := by
    intro i hi
    obtain ⟨n, rfl, hn⟩ := hi.exists
    have : ((n : Int) + (m.kern.verts.length : Int)) = ((m.kern.verts.length + n : Nat) : Int) := by
      push_cast; ring
    rw [this, getI_natCast, getI_natCast, List.getElem?_append_right (by omega)]
    simp
  obtain ⟨h1, h2, h3⟩ := hc
  have e : ((m.setColor col).pushPts o.kern.verts).view.points = m.kern.verts ++ o.kern.verts := rfl
  simp only [AMesh.tri, e, AMesh.shift, key _ h1, key _ h2, key _ h3, view_points]

theorem soup_addMesh {m o m' : Mesh K} (hm : m.OK) (ho : o.OK) (h : m.addMesh o = some m') :
    m'.soup = m.soup ++ o.soup := by
  rw [addMesh_eq] at h
  simp only at h
  split at h
  case isFalse => simp at h
  simp only [Option.some.injEq] at h
  have ho' := (ok_iff o).1 ho
  have hm2 : (m.setColor o.color).OK := (ok_iff _).2 ((ok_iff m).1 hm |> fun h => ⟨h.1, h.2⟩)
  rw [← h, soup_pushTris, soup_pushPts hm2, soup_setColor]
  congr 1
  unfold soup
  rw [List.filterMap_map]
  apply List.filterMap_congr
  intro c hc
  exact tri_shift c (linkedCorners_valid ho'.valid c hc) _

theorem soup_assign {m o m' : Mesh K} (h : m.assign o = some m') : m'.soup = o.soup := by
  rw [assign_eq] at h
  split at h
  case isFalse => simp at h
  simp only [Option.some.injEq] at h
  subst h
  rw [soup_pushTris]
  rfl

end Mesh

/-! ### C13 -/

/-- Volume and surface are the sums over the linked triangles. -/
theorem measures_are_sums (m : Mesh K) [Field K] (hm : m.OK) :
    Measure.volume m = some ((m.triangles.map fun t => det3 t.p1 t.p2 t.p3).sum / 6) := by
  rw [volume_perm hm (List.Perm.refl _)]
  simp only [vol6_eq]

theorem surface_is_sum (m : Mesh ℝ) (hm : m.OK) :
    Measure.surface m = some (m.triangles.map Tri3.surface).sum :=
  surface_perm hm (List.Perm.refl _)

/-- Unlinking a linked triangle removes exactly its contribution from volume and
surface; unlinking an unlinked one changes neither. -/
theorem unlink_measures (m m' : Mesh ℝ) (hm : m.OK) (i : Int) (t : Tri3 ℝ)
    (ht : m.getTriangle i = some t) (h : m.unlinkTriangle i = some m') (V S : ℝ)
    (hV : Measure.volume m = some V) (hS : Measure.surface m = some S) :
    (m.isTriangleUnlinked i = some false →
      Measure.volume m' = some (V - det3 t.p1 t.p2 t.p3 / 6) ∧
      Measure.surface m' = some (S - t.surface)) ∧
    (m.isTriangleUnlinked i = some true →
      Measure.volume m' = some V ∧ Measure.surface m' = some S) := by
  have hm' := hm.unlinkTriangle h
  have h' := (ok_iff m).1 hm
  rw [unlinkTriangle_eq m h'.near] at h
  split at h
  case isFalse => simp at h
  simp only [Option.some.injEq] at h
  rw [volume_eq hm, Option.some.injEq] at hV
  rw [surface_eq hm, Option.some.injEq] at hS
  rw [volume_eq hm', surface_eq hm']
  rw [getTriangle_eq] at ht
  obtain ⟨f, hf, ht⟩ := Option.bind_eq_some_iff.1 ht
  obtain ⟨n, rfl, hn⟩ := getI_eq_some_iff.1 hf
  simp only [Int.toNat_natCast] at h
  have ht : m.view.tri f.corners = some t := by simpa [hn] using ht
  refine ⟨fun hl => ?_, fun hl => ?_⟩
  · rw [(answers_view m).unlinked] at hl
    simp only [hf, Option.map_some, Option.some.injEq, Bool.not_eq_false'] at hl
    have e1 := total_unl (fun t => t.p1.dot t.orthogonal) m n f hn hl t ht
    have e2 := total_unl Tri3.surface m n f hn hl t ht
    rw [h] at e1 e2
    simp only [vol6_eq] at e1 hV ⊢
    exact ⟨congrArg some (by linarith), congrArg some (by linarith)⟩
  · rw [(answers_view m).unlinked] at hl
    simp only [hf, Option.map_some, Option.some.injEq, Bool.not_eq_true'] at hl
    rw [← h, total_unl_unlinked _ m n f hn hl, total_unl_unlinked _ m n f hn hl, hV, hS]
    exact ⟨rfl, rfl⟩

/-- Adding a triangle adds its contribution. -/
theorem add_triangle_measures (m m' : Mesh ℝ) (hm : m.OK) (a b c id : Int) (p q r : P3 ℝ)
    (h1 : m.getVertex a = some p) (h2 : m.getVertex b = some q) (h3 : m.getVertex c = some r)
    (h : m.addTriangle a b c = some (m', id)) (V S : ℝ)
    (hV : Measure.volume m = some V) (hS : Measure.surface m = some S) :
    m'.triangles = m.triangles ++ [⟨p, q, r⟩] ∧
    Measure.volume m' = some (V + det3 p q r / 6) ∧
    Measure.surface m' = some (S + (Tri3.mk p q r).surface) := by
  have hm' : m'.OK := hm.step (op := .addTriangle a b c) h
  rw [addTriangle_eq] at h
  split at h
  case isFalse => simp at h
  simp only [Option.some.injEq, Prod.mk.injEq] at h
  have e : m'.triangles = m.triangles ++ [⟨p, q, r⟩] := by
    rw [triangles_eq, triangles_eq, ← h.1, soup_pushTris]
    simp [tri_eq_some h1 h2 h3]
  refine ⟨e, ?_, ?_⟩
  · rw [measures_are_sums m hm, Option.some.injEq] at hV
    rw [measures_are_sums m' hm', e, ← hV]
    simp; ring
  · rw [surface_is_sum m hm, Option.some.injEq] at hS
    rw [surface_is_sum m' hm', e, ← hS]
    simp

/-- Copying or assigning keeps the triangles, hence volume and surface. -/
theorem copy_measures (m o m' : Mesh ℝ) (hm : m.OK) (ho : o.OK) (h : m.assign o = some m') :
    m'.triangles = o.triangles ∧ Measure.volume m' = Measure.volume o ∧
      Measure.surface m' = Measure.surface o := by
  have e : m'.triangles = o.triangles := by rw [triangles_eq, triangles_eq, soup_assign h]
  have hm' := hm.assign h
  exact ⟨e, by rw [measures_are_sums _ hm', measures_are_sums _ ho, e],
    by rw [surface_is_sum _ hm', surface_is_sum _ ho, e]⟩

/-- C06, C13: appending a mesh appends its triangles; volumes and surfaces add. -/
theorem append_measures (m o m' : Mesh ℝ) (hm : m.OK) (ho : o.OK) (h : m.addMesh o = some m') :
    m'.triangles = m.triangles ++ o.triangles ∧
    (∀ V W, Measure.volume m = some V → Measure.volume o = some W →
      Measure.volume m' = some (V + W)) ∧
    (∀ V W, Measure.surface m = some V → Measure.surface o = some W →
      Measure.surface m' = some (V + W)) := by
  have e : m'.triangles = m.triangles ++ o.triangles := by
    rw [triangles_eq, triangles_eq, triangles_eq, soup_addMesh hm ho h]
  have hm' := hm.addMesh h
  refine ⟨e, ?_, ?_⟩
  · intro V W hV hW
    rw [measures_are_sums _ hm, Option.some.injEq] at hV
    rw [measures_are_sums _ ho, Option.some.injEq] at hW
    rw [measures_are_sums _ hm', e, ← hV, ← hW]
    simp; ring
  · intro V W hV hW
    rw [surface_is_sum _ hm, Option.some.injEq] at hV
    rw [surface_is_sum _ ho, Option.some.injEq] at hW
    rw [surface_is_sum _ hm', e, ← hV, ← hW]
    simp

/-! ### C12 -/

/-- `apply_transform` moves each triangle by the transform and keeps the mesh
closed. -/
theorem transform_triangles (m m' : Mesh K) (f : P3 K → P3 K) (h : m.applyTransform f = some m') :
    m'.triangles = m.triangles.map (Tri3.map f) ∧
      (ClosedSoup m.triangles → ClosedSoup m'.triangles) := by
  have e : m'.triangles = m.triangles.map (Tri3.map f) := by
    rw [triangles_eq, triangles_eq, soup_applyTransform h]
  refine ⟨e, fun hc => ?_⟩
  rw [e]
  unfold ClosedSoup at *
  have key : ∀ ts : List (Tri3 K), (ts.map (Tri3.map f)).flatMap Tri3.dirEdges =
      (ts.flatMap Tri3.dirEdges).map (Prod.map f f) := by
    intro ts
    induction ts with
    | nil => rfl
    | cons t ts ih => simp only [List.map_cons, List.flatMap_cons, List.map_append, ih]; rfl
  rw [key]
  have := hc.map (Prod.map f f)
  rw [List.map_map] at this ⊢
  exact this

/-- The vector areas of a closed surface cancel. -/
theorem closed_vecArea [Field K] [CharZero K] (ts : List (Tri3 K)) (hc : ClosedSoup ts) :
    (ts.map Tri3.vecArea).sum = 0 := by
  have e : ∀ ts : List (Tri3 K), (ts.map Tri3.vecArea).sum =
      ((ts.flatMap Tri3.dirEdges).map fun e => e.1.cross e.2).sum := by
    intro ts
    induction ts with
    | nil => rfl
    | cons t ts ih =>
      simp only [List.map_cons, List.sum_cons, List.flatMap_cons, List.map_append, List.sum_append, ih]
      congr 1
      ext <;> simp [Tri3.vecArea, Tri3.dirEdges] <;> ring
  have h1 := (hc.map fun e => e.1.cross e.2).sum_eq
  rw [← e, List.map_map] at h1
  have h2 : ∀ es : List (P3 K × P3 K),
      (es.map ((fun e => e.1.cross e.2) ∘ Prod.swap)).sum = - (es.map fun e => e.1.cross e.2).sum := by
    intro es
    induction es with
    | nil => simp
    | cons x es ih =>
      simp only [List.map_cons, List.sum_cons, ih, Function.comp, neg_add]
      congr 1
      ext <;> simp <;> ring
  rw [h2, ← e] at h1
  have hx := congrArg P3.x h1
  have hy := congrArg P3.y h1
  have hz := congrArg P3.z h1
  simp only [P3.neg_x, P3.neg_y, P3.neg_z] at hx hy hz
  ext
  · exact self_eq_neg.1 hx
  · exact self_eq_neg.1 hy
  · exact self_eq_neg.1 hz

theorem det3_affine [Field K] (r1 r2 r3 t p q r : P3 K) :
    det3 (affine r1 r2 r3 t p) (affine r1 r2 r3 t q) (affine r1 r2 r3 t r) =
      det3 r1 r2 r3 * det3 p q r +
      t.dot (Tri3.map (affine r1 r2 r3 ⟨0, 0, 0⟩) ⟨p, q, r⟩).vecArea := by
  simp [det3, affine, P3.dot, Tri3.vecArea, Tri3.map, P3.cross]; ring

theorem vecArea_closed_affine [Field K] [CharZero K] (ts : List (Tri3 K)) (hc : ClosedSoup ts)
    (r1 r2 r3 t : P3 K) :
    ((ts.map (Tri3.map (affine r1 r2 r3 t))).map fun t => det3 t.p1 t.p2 t.p3).sum =
      det3 r1 r2 r3 * (ts.map fun t => det3 t.p1 t.p2 t.p3).sum := by
  have hlin : ∀ ts : List (Tri3 K),
      ((ts.map (Tri3.map (affine r1 r2 r3 t))).map fun t => det3 t.p1 t.p2 t.p3).sum =
      det3 r1 r2 r3 * (ts.map fun t => det3 t.p1 t.p2 t.p3).sum +
      t.dot ((ts.map (Tri3.map (affine r1 r2 r3 ⟨0, 0, 0⟩))).map Tri3.vecArea).sum := by
    intro ts
    induction ts with
    | nil => simp [P3.dot]
    | cons u us ih =>
      simp only [List.map_cons, List.sum_cons, ih]
      have := det3_affine r1 r2 r3 t u.p1 u.p2 u.p3
      simp only [Tri3.map, P3.dot, P3.add_x, P3.add_y, P3.add_z] at this ⊢
      rw [this]; ring
  rw [hlin]
  have hc' : ClosedSoup (ts.map (Tri3.map (affine r1 r2 r3 ⟨0, 0, 0⟩))) := by
    unfold ClosedSoup at *
    have key : ∀ (f : P3 K → P3 K) (ts : List (Tri3 K)), (ts.map (Tri3.map f)).flatMap Tri3.dirEdges =
        (ts.flatMap Tri3.dirEdges).map (Prod.map f f) := by
      intro f ts
      induction ts with
      | nil => rfl
      | cons t ts ih => simp only [List.map_cons, List.flatMap_cons, List.map_append, ih]; rfl
    rw [key]
    have := hc.map (Prod.map (affine r1 r2 r3 ⟨0, 0, 0⟩) (affine r1 r2 r3 ⟨0, 0, 0⟩))
    rw [List.map_map] at this ⊢
    exact this
  rw [closed_vecArea _ hc']
  simp [P3.dot]

/-- The volume of a closed mesh is multiplied by the determinant under any affine
map, whatever its translation part. -/
theorem volume_affine [Field K] [CharZero K] (m m' : Mesh K) (hm : m.OK)
    (hc : ClosedSoup m.triangles) (r1 r2 r3 t : P3 K)
    (h : m.applyTransform (affine r1 r2 r3 t) = some m') (V : K)
    (hV : Measure.volume m = some V) : Measure.volume m' = some (det3 r1 r2 r3 * V) := by
  have hm' := hm.applyTransform h
  rw [measures_are_sums m hm, Option.some.injEq] at hV
  rw [measures_are_sums m' hm', (transform_triangles m m' _ h).1, vecArea_closed_affine _ hc, ← hV]
  rw [mul_div_assoc]

/-- Translating a closed mesh does not change its volume. -/
theorem volume_translation [Field K] [CharZero K] (m m' : Mesh K) (hm : m.OK)
    (hc : ClosedSoup m.triangles) (t : P3 K)
    (h : m.applyTransform (Transform.translation t) = some m') :
    Measure.volume m' = Measure.volume m := by
  have e : Transform.translation t = affine ⟨1, 0, 0⟩ ⟨0, 1, 0⟩ ⟨0, 0, 1⟩ t := by
    funext p; simp [Transform.translation, affine, P3.dot]; rfl
  rw [e] at h
  rw [measures_are_sums m hm, volume_affine m m' hm hc _ _ _ _ h _ (measures_are_sums m hm)]
  simp [det3]

/-- `Scale(x, y, z)` multiplies the volume by xyz (for any mesh). -/
theorem volume_scale [Field K] (m m' : Mesh K) (hm : m.OK) (x y z : K)
    (h : m.applyTransform (Transform.scale x y z) = some m') (V : K)
    (hV : Measure.volume m = some V) : Measure.volume m' = some (x * y * z * V) := by
  have hm' := hm.applyTransform h
  rw [measures_are_sums m hm, Option.some.injEq] at hV
  rw [measures_are_sums m' hm', (transform_triangles m m' _ h).1, ← hV]
  congr 1
  rw [← mul_div_assoc]
  congr 1
  rw [← List.sum_map_mul_left, List.map_map]
  congr 1
  apply List.map_congr_left
  intro t _
  simp [det3, Tri3.map, Transform.scale]; ring

/-- A matrix with orthonormal rows multiplies the volume of a closed mesh by its
determinant, which is 1 for a rotation and -1 for a reflection. -/
theorem volume_isometry [Field K] [LinearOrder K] [IsStrictOrderedRing K] (m m' : Mesh K)
    (hm : m.OK) (hc : ClosedSoup m.triangles) (r1 r2 r3 t : P3 K)
    (o1 : r1.dot r1 = 1) (o2 : r2.dot r2 = 1) (o3 : r3.dot r3 = 1) (o4 : r1.dot r2 = 0)
    (o5 : r1.dot r3 = 0) (o6 : r2.dot r3 = 0)
    (h : m.applyTransform (affine r1 r2 r3 t) = some m') (V : K)
    (hV : Measure.volume m = some V) :
    (0 < det3 r1 r2 r3 → Measure.volume m' = some V) ∧
    (det3 r1 r2 r3 < 0 → Measure.volume m' = some (-V)) := by
  have hd : det3 r1 r2 r3 * det3 r1 r2 r3 = 1 := by
    have : det3 r1 r2 r3 * det3 r1 r2 r3 =
      r1.dot r1 * (r2.dot r2 * r3.dot r3 - r2.dot r3 * r2.dot r3) -
      r1.dot r2 * (r1.dot r2 * r3.dot r3 - r2.dot r3 * r1.dot r3) +
      r1.dot r3 * (r1.dot r2 * r2.dot r3 - r2.dot r2 * r1.dot r3) := by
      simp only [det3, P3.dot]; ring
    rw [this, o1, o2, o3, o4, o5, o6]; ring
  have hv := volume_affine m m' hm hc r1 r2 r3 t h V hV
  rw [hv]
  rcases mul_self_eq_one_iff.1 hd with e | e
  · exact ⟨fun _ => by rw [e, one_mul], fun h => absurd h (by rw [e]; exact not_lt.2 zero_le_one)⟩
  · refine ⟨fun h => absurd h (by rw [e]; exact not_lt.2 (by simp)), fun _ => by rw [e, neg_one_mul]⟩

/-! ### C14 -/

/-- A matrix with orthonormal rows keeps distances. -/
theorem affine_distSq [Field K] (r1 r2 r3 t : P3 K)
    (o1 : r1.dot r1 = 1) (o2 : r2.dot r2 = 1) (o3 : r3.dot r3 = 1) (o4 : r1.dot r2 = 0)
    (o5 : r1.dot r3 = 0) (o6 : r2.dot r3 = 0) (p q : P3 K) :
    (affine r1 r2 r3 t p).distSq (affine r1 r2 r3 t q) = p.distSq q := by
  let M : Matrix (Fin 3) (Fin 3) K := !![r1.x, r1.y, r1.z; r2.x, r2.y, r2.z; r3.x, r3.y, r3.z]
  simp only [P3.dot] at o1 o2 o3 o4 o5 o6
  have h1 : M * M.transpose = 1 := by
    ext i j
    fin_cases i <;> fin_cases j <;>
      simp [M, Matrix.mul_apply, Fin.sum_univ_three] <;> grind
  have h2 := mul_eq_one_comm.1 h1
  have c : ∀ i j, (M.transpose * M) i j = (1 : Matrix (Fin 3) (Fin 3) K) i j := by
    intro i j; rw [h2]
  have c00 := c 0 0
  have c01 := c 0 1
  have c02 := c 0 2
  have c11 := c 1 1
  have c12 := c 1 2
  have c22 := c 2 2
  simp [M, Matrix.mul_apply, Fin.sum_univ_three] at c00 c01 c02 c11 c12 c22
  simp only [affine, P3.distSq, P3.dot]
  linear_combination (p.x - q.x) ^ 2 * c00 + (p.y - q.y) ^ 2 * c11 + (p.z - q.z) ^ 2 * c22 +
    2 * (p.x - q.x) * (p.y - q.y) * c01 + 2 * (p.x - q.x) * (p.z - q.z) * c02 +
    2 * (p.y - q.y) * (p.z - q.z) * c12

/-- twice the squared area in terms of the squared edge lengths -/
theorem orth_normSq [Field K] [CharZero K] (t : Tri3 K) :
    4 * t.orthogonal.normSq = 4 * t.p1.distSq t.p2 * t.p1.distSq t.p3 -
      (t.p1.distSq t.p2 + t.p1.distSq t.p3 - t.p2.distSq t.p3) ^ 2 := by
  simp only [Tri3.orthogonal, P3.normSq, P3.distSq, P3.cross, P3.sub_x, P3.sub_y, P3.sub_z]
  ring

/-- A map multiplying all distances by `k` multiplies triangle areas by `k²`. -/
theorem tri_surface_similar (f : P3 ℝ → P3 ℝ) (k : ℝ)
    (hf : ∀ p q, (f p).distSq (f q) = k ^ 2 * p.distSq q) (t : Tri3 ℝ) :
    (t.map f).surface = k ^ 2 * t.surface := by
  have e : (t.map f).orthogonal.normSq = (k ^ 2) ^ 2 * t.orthogonal.normSq := by
    have h1 := orth_normSq (t.map f)
    have h2 := orth_normSq t
    simp only [Tri3.map, hf] at h1 ⊢
    linear_combination h1 / 4 - (k^2)^2 * h2 / 4
  unfold Tri3.surface
  rw [P3.norm_eq, P3.norm_eq, e, Real.sqrt_mul (by positivity), Real.sqrt_sq (by positivity)]
  ring

/-- Surface under an isometry or similarity: multiplied by `k²`. -/
theorem surface_similar (m m' : Mesh ℝ) (hm : m.OK) (f : P3 ℝ → P3 ℝ) (k : ℝ)
    (hf : ∀ p q, (f p).distSq (f q) = k ^ 2 * p.distSq q)
    (h : m.applyTransform f = some m') (S : ℝ) (hS : Measure.surface m = some S) :
    Measure.surface m' = some (k ^ 2 * S) := by
  have hm' := hm.applyTransform h
  rw [surface_is_sum m hm, Option.some.injEq] at hS
  rw [surface_is_sum m' hm', (transform_triangles m m' _ h).1, ← hS, ← List.sum_map_mul_left,
    List.map_map]
  congr 2
  apply List.map_congr_left
  intro t _
  exact tri_surface_similar f k hf t

/-- Translations, rotations and reflections (orthonormal rows) keep the surface;
`Scale(s, s, s)` multiplies it by s². -/
theorem surface_rigid (m m' : Mesh ℝ) (hm : m.OK) (S : ℝ) (hS : Measure.surface m = some S) :
    (∀ t, m.applyTransform (Transform.translation t) = some m' → Measure.surface m' = some S) ∧
    (∀ s, m.applyTransform (Transform.scale s s s) = some m' →
      Measure.surface m' = some (s ^ 2 * S)) ∧
    (∀ r1 r2 r3 t, r1.dot r1 = 1 → r2.dot r2 = 1 → r3.dot r3 = 1 → r1.dot r2 = 0 →
      r1.dot r3 = 0 → r2.dot r3 = 0 → m.applyTransform (affine r1 r2 r3 t) = some m' →
      Measure.surface m' = some S) := by
  refine ⟨fun t h => ?_, fun s h => ?_, fun r1 r2 r3 t o1 o2 o3 o4 o5 o6 h => ?_⟩
  · have := surface_similar m m' hm _ 1 (fun p q => by
      simp only [Transform.translation, P3.distSq, P3.add_x, P3.add_y, P3.add_z]; ring) h S hS
    simpa using this
  · exact surface_similar m m' hm _ s (fun p q => by
      simp only [Transform.scale, P3.distSq]; ring) h S hS
  · have := surface_similar m m' hm _ 1 (fun p q => by
      rw [affine_distSq r1 r2 r3 t o1 o2 o3 o4 o5 o6 p q]; ring) h S hS
    simpa using this

/-- Surface is non-negative, and zero only if every linked triangle has collinear
corners. -/
theorem surface_nonneg_zero (m : Mesh ℝ) (hm : m.OK) (S : ℝ) (hS : Measure.surface m = some S) :
    0 ≤ S ∧ (S = 0 ↔ ∀ t ∈ m.triangles, Collinear3 t.p1 t.p2 t.p3) := by
  rw [surface_is_sum m hm, Option.some.injEq] at hS
  have hn : ∀ t : Tri3 ℝ, 0 ≤ t.surface := fun t => by
    unfold Tri3.surface; have := P3.norm_nonneg t.orthogonal; positivity
  subst hS
  refine ⟨List.sum_nonneg (by simpa using fun t _ => hn t), ?_⟩
  generalize m.triangles = ts
  induction ts with
  | nil => simp
  | cons t ts ih =>
    have h0 : 0 ≤ (ts.map Tri3.surface).sum := List.sum_nonneg (by simpa using fun t _ => hn t)
    simp only [List.map_cons, List.sum_cons, List.forall_mem_cons, ← ih]
    rw [← triangle_surface_zero_iff]
    constructor
    · intro h; constructor <;> linarith [hn t]
    · rintro ⟨h1, h2⟩; linarith

/-! ### C15, C16 -/

theorem loopRet_go_spec {β : Type} (body : Nat → Res (Option β)) (d : β) (l : List Nat) (P : Nat → Prop)
    (r : β) (hb : ∀ i ∈ l, (P i ∧ body i = some none) ∨ (¬ P i ∧ body i = some (some r))) :
    ((∀ i ∈ l, P i) ∧ loopRet.go body d l = some d) ∨
    (¬ (∀ i ∈ l, P i) ∧ loopRet.go body d l = some r) := by
  induction l with
  | nil => left; exact ⟨by simp, rfl⟩
  | cons i is ih =>
    rcases hb i (by simp) with ⟨hp, e⟩ | ⟨hp, e⟩
    · rcases ih (fun j hj => hb j (by simp [hj])) with ⟨h1, h2⟩ | ⟨h1, h2⟩
      · left
        refine ⟨by simpa using ⟨hp, h1⟩, ?_⟩
        simp [loopRet.go, e, h2]
      · right
        refine ⟨fun h => h1 fun j hj => h j (by simp [hj]), ?_⟩
        simp [loopRet.go, e, h2]
    · right
      exact ⟨fun h => hp (h i (by simp)), by simp [loopRet.go, e]⟩

theorem loopRet_spec {β : Type} (n : Nat) (body : Nat → Res (Option β)) (d r : β) (P : Nat → Prop)
    (hb : ∀ i < n, (P i ∧ body i = some none) ∨ (¬ P i ∧ body i = some (some r))) :
    ((∀ i < n, P i) ∧ loopRet n body d = some d) ∨
    (¬ (∀ i < n, P i) ∧ loopRet n body d = some r) := by
  have := loopRet_go_spec body d (List.range n) P r (by simpa using hb)
  simpa [loopRet] using this

theorem mem_triangles (m : Mesh K) (t : Tri3 K) :
    t ∈ m.triangles ↔ ∃ i : Nat, (i : Int) < m.nbTriangles ∧ m.isTriangleUnlinked i = some false ∧
      m.getTriangle i = some t := by
  unfold triangles
  simp only [List.mem_filterMap, List.mem_range]
  constructor
  · rintro ⟨i, hi, h⟩
    split at h
    · exact ⟨i, by omega, by assumption, h⟩
    · simp at h
  · rintro ⟨i, hi, h1, h2⟩
    exact ⟨i, by omega, by simp [h1, h2]⟩

/-- `has_no_degenerated_triangles` is exact. -/
theorem no_degenerated_exact (m : Mesh ℝ) (hm : m.OK) :
    ∃ b, Measure.hasNoDegeneratedTriangles m = some b ∧
      (b = true ↔ ∀ t ∈ m.triangles, ¬ Collinear3 t.p1 t.p2 t.p3) := by
  have h' := (ok_iff m).1 hm
  have hb : m.nbTriangles = ((m.view.faces.length : Nat) : Int) := (answers_view m).nbTriangles
  have key := loopRet_spec m.nbTriangles.toNat (fun i => (do
    let u ← m.isTriangleUnlinked i
    if u then return none
    let t ← m.getTriangle i
    if t.surface = 0 then return some false
    return none : Res (Option Bool))) true false
    (fun i => ∀ t, m.isTriangleUnlinked i = some false → m.getTriangle i = some t → t.surface ≠ 0) (by
      intro i hi
      have hi' : i < m.view.faces.length := by omega
      obtain ⟨t, ht⟩ := AMesh.tri_isSome (h'.valid _ (List.getElem_mem hi'))
      have e1 : m.getTriangle i = some t := by
        rw [getTriangle_eq]; simp [List.getElem?_eq_getElem hi', ht]
      have e2 : m.isTriangleUnlinked i = some (!m.view.faces[i].linked) := by
        rw [(answers_view m).unlinked]; simp [List.getElem?_eq_getElem hi']
      cases hl : m.view.faces[i].linked
      · left
        rw [hl] at e2
        simp [e1, e2]
      · rw [hl] at e2
        by_cases hs : t.surface = 0
        · right; simp [e1, e2, hs]
        · left; simp [e1, e2, hs])
  have conv : (∀ i < m.nbTriangles.toNat, ∀ t, m.isTriangleUnlinked i = some false →
      m.getTriangle i = some t → t.surface ≠ 0) ↔
      ∀ t ∈ m.triangles, ¬ Collinear3 t.p1 t.p2 t.p3 := by
    constructor
    · intro h t ht
      obtain ⟨i, hi, h1, h2⟩ := (mem_triangles m t).1 ht
      rw [← triangle_surface_zero_iff]
      exact h i (by omega) t h1 h2
    · intro h i hi t h1 h2 h0
      exact h t ((mem_triangles m t).2 ⟨i, by omega, h1, h2⟩) ((triangle_surface_zero_iff t).1 h0)
  rcases key with ⟨k1, k2⟩ | ⟨k1, k2⟩
  · exact ⟨true, k2, by simpa using conv.1 k1⟩
  · exact ⟨false, k2, by simpa using fun h => k1 (conv.2 h)⟩

/-- What `is_closed` really computes on a consistent mesh: whether there is no
linked triangle at all (neighbour ids are never set). -/
theorem is_closed_iff_empty (m : Mesh K) (hm : m.OK) :
    ∃ b, Measure.isClosed m = some b ∧ (b = true ↔ m.triangles = []) := by
  have h' := (ok_iff m).1 hm
  have hb : m.nbTriangles = ((m.view.faces.length : Nat) : Int) := (answers_view m).nbTriangles
  have e2 : ∀ (i : Nat) (hi' : i < m.view.faces.length),
      m.isTriangleUnlinked i = some (!m.view.faces[i].linked) := by
    intro i hi'
    rw [(answers_view m).unlinked]; simp [List.getElem?_eq_getElem hi']
  have key := loopRet_spec m.nbTriangles.toNat (fun i => (do
    let u ← m.isTriangleUnlinked i
    if u then return none
    let (t1, t2, t3) ← m.getNearTriangles i
    if t1 = -1 ∨ t2 = -1 ∨ t3 = -1 then return some false
    return none : Res (Option Bool))) true false
    (fun i => m.isTriangleUnlinked i = some true) (by
      intro i hi
      have hi' : i < m.view.faces.length := by omega
      have e2 := e2 i hi'
      cases hl : m.view.faces[i].linked
      · left
        rw [hl] at e2
        simp [e2]
      · right
        rw [hl] at e2
        have hi2 : i < m.kern.tris.length := by simpa using hi'
        have hr : InRange m.kern.tris.length (i : Int) := inRange_natCast.2 hi2
        have hr' : 0 ≤ (i : Int) ∧ (i : Int) < m.kern.nbTriangles := hr
        have e3 : m.getNearTriangles i = some (m.kern.tris[i].t1, m.kern.tris[i].t2, m.kern.tris[i].t3) := by
          simp [getNearTriangles, KernLT.getNearTriangles, assertIdx_eq, hr, assert, hr',
            getI_natCast, List.getElem?_eq_getElem hi2]
        have := hm.near i _ _ _ e3
        simp [e2, e3, this])
  have conv : (∀ i < m.nbTriangles.toNat, m.isTriangleUnlinked i = some true) ↔
      m.triangles = [] := by
    constructor
    · intro h
      rw [List.eq_nil_iff_forall_not_mem]
      intro t ht
      obtain ⟨i, hi, h1, h2⟩ := (mem_triangles m t).1 ht
      have := h i (by omega)
      rw [h1] at this; simp at this
    · intro h i hi
      have hi' : i < m.view.faces.length := by omega
      by_contra hne
      have e2 := e2 i hi'
      have hl : m.isTriangleUnlinked i = some false := by
        rw [e2] at hne ⊢
        cases hx : m.view.faces[i].linked <;> simp_all
      obtain ⟨t, ht⟩ := AMesh.tri_isSome (h'.valid _ (List.getElem_mem hi'))
      have e1 : m.getTriangle i = some t := by
        rw [getTriangle_eq]; simp [List.getElem?_eq_getElem hi', ht]
      have := (mem_triangles m t).2 ⟨i, by omega, hl, e1⟩
      rw [h] at this; cases this
  rcases key with ⟨k1, k2⟩ | ⟨k1, k2⟩
  · exact ⟨true, k2, by simpa using conv.1 k1⟩
  · exact ⟨false, k2, by simpa using fun h => k1 (conv.2 h)⟩

/-- C15 is false of the code: as soon as a mesh has a linked triangle, `is_closed`
answers false, even if the directed edges cancel. Partial: the answer is right on
meshes without linked triangles and on all meshes that are not closed. -/
theorem is_closed_partial (m : Mesh K) (hm : m.OK)
    (h : m.triangles = [] ∨ ¬ ClosedSoup m.triangles) :
    ∃ b, Measure.isClosed m = some b ∧ (b = true ↔ ClosedSoup m.triangles) := by
  obtain ⟨b, h1, h2⟩ := is_closed_iff_empty m hm
  refine ⟨b, h1, h2.trans ?_⟩
  rcases h with h | h
  · simp [h, ClosedSoup]
  · refine ⟨fun e => ?_, fun c => absurd c h⟩
    simp [e, ClosedSoup]

/-- the boundary of a tetrahedron, as a history -/
def tetraOps : List (MOp ℚ) :=
  [.addVertex ⟨0, 0, 0⟩, .addVertex ⟨1, 0, 0⟩, .addVertex ⟨0, 1, 0⟩, .addVertex ⟨0, 0, 1⟩,
   .addTriangle 0 2 1, .addTriangle 0 1 3, .addTriangle 0 3 2, .addTriangle 1 2 3]

/-- A closed mesh of positive volume on which `is_closed` answers false. -/
theorem is_closed_wrong : ∃ m ids, Mesh.run tetraOps = some (m, ids) ∧ ClosedSoup m.triangles ∧
    m.triangles ≠ [] ∧ Measure.volume m = some (1 / 6) ∧ Measure.isClosed m = some false := by
  have h : ((Mesh.run tetraOps).map fun r => (decide (ClosedSoup r.1.triangles),
      decide (r.1.triangles ≠ []), Measure.volume r.1, Measure.isClosed r.1)) =
      some (true, true, some (1 / 6), some false) := by
    decide +kernel
  obtain ⟨⟨m, ids⟩, h1, h2⟩ := Option.map_eq_some_iff.1 h
  simp only [Prod.mk.injEq, decide_eq_true_eq] at h2
  exact ⟨m, ids, h1, h2.1, h2.2.1, h2.2.2.1, h2.2.2.2⟩

/-- `is_clean` therefore accepts no mesh with a linked triangle. -/
theorem is_clean_never (m : Mesh ℝ) (hm : m.OK) (h : m.triangles ≠ []) :
    Measure.isClean m = some false := by
  obtain ⟨b, h1, h2⟩ := is_closed_iff_empty m hm
  obtain ⟨d, hd, _⟩ := no_degenerated_exact m hm
  obtain rfl : b = false := by
    cases b
    · rfl
    · exact absurd (h2.1 rfl) h
  unfold Measure.isClean Measure.isOrientedOutside
  rw [hd, h1, volume_eq hm]
  cases d
  · rfl
  · simp only [Option.bind_eq_bind, Option.bind_some, Option.pure_def]
    split
    · simp_all
    · split <;> simp_all

end CAD
