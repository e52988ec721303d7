import Verif.Model.FactoryRounded
import Verif.Props.TransformRounded
import Verif.Props.NurbsSolidRounded
import Verif.Props.Surfaces
import Verif.Props.Platonic

/-! C124: the solids of `MeshFactory` in floating point. -/

namespace CAD

/-! ### Two runs that differ in the vertices only -/

/-- if the first run succeeds, so does the second, with a related result -/
def Sim {A B : Type} (r : A → B → Prop) (x : Res A) (y : Res B) : Prop := ∀ a, x = some a → ∃ b, y = some b ∧ r a b

theorem Sim.some {A B : Type} {r : A → B → Prop} {a : A} {b : B} (h : r a b) : Sim r (some a) (some b) := by
  rintro _ ⟨⟩; exact ⟨b, rfl, h⟩

theorem Sim.bind {A B A' B' : Type} {r : A → B → Prop} {s : A' → B' → Prop} {x : Res A} {y : Res B} {f : A → Res A'} {g : B → Res B'}
    (h : Sim r x y) (hf : ∀ a b, r a b → Sim s (f a) (g b)) : Sim s (x >>= f) (y >>= g) := by
  intro a' ha'
  obtain ⟨a, ha, e⟩ := Option.bind_eq_some_iff.1 ha'
  obtain ⟨b, hb, hr⟩ := h a ha
  obtain ⟨b', hb', hs⟩ := hf a b hr a' e
  exact ⟨b', by rw [hb]; exact hb', hs⟩

theorem Sim.step {A B : Type} {r : A → B → Prop} {x : Res A} {y : Res B} {f : A → Res A} {g : B → Res B}
    (h : Sim r x y) (hf : ∀ a b, r a b → Sim r (f a) (g b)) : Sim r (x >>= f) (y >>= g) := h.bind hf

theorem Sim.foldlM {A B T : Type} {r : A → B → Prop} {f : A → T → Res A} {g : B → T → Res B} : ∀ (l : List T),
    (∀ t ∈ l, ∀ a b, r a b → Sim r (f a t) (g b t)) → ∀ {a : A} {b : B}, r a b → Sim r (l.foldlM f a) (l.foldlM g b)
  | [], _, a, b, h => Sim.some h
  | t :: l, hf, a, b, h => by
    rw [List.foldlM_cons, List.foldlM_cons]
    exact (hf t (by simp) a b h).bind fun a' b' h' => Sim.foldlM l (fun t ht => hf t (by simp [ht])) h'

theorem Sim.loopN {A B : Type} {r : A → B → Prop} {n : Nat} {f : Nat → A → Res A} {g : Nat → B → Res B}
    (hf : ∀ i < n, ∀ a b, r a b → Sim r (f i a) (g i b)) {a : A} {b : B} (h : r a b) : Sim r (loopN n f a) (loopN n g b) :=
  Sim.foldlM _ (fun i hi => hf i (List.mem_range.1 hi)) h

namespace Nurbs.Close
open Mesh Nurbs
variable {d : ℝ} {A B : Mesh ℝ}

theorem clear (A B : Mesh ℝ) : Close d A.clear B.clear := ⟨rfl, List.Forall₂.nil⟩

theorem nbVertices (h : Close d A B) : B.nbVertices = A.nbVertices := h.meshNear.nbVertices

theorem addVertex (h : Close d A B) {p q : P3 ℝ} (hpq : Near d p q) : Close d (A.addVertex p).1 (B.addVertex q).1 :=
  ⟨h.1, List.rel_append h.2 (List.Forall₂.cons hpq List.Forall₂.nil)⟩

theorem addVertices {ps qs : List (P3 ℝ)} (hpq : List.Forall₂ (Near d) ps qs) : ∀ {A B : Mesh ℝ}, Close d A B →
    Close d (Factory.addVertices A ps) (Factory.addVertices B qs) := by
  induction hpq with
  | nil => exact fun h => h
  | cons a _ ih => exact fun h => ih (h.addVertex a)

theorem kAddTriangle (h : Close d A B) (a b c : Int) :
    Sim (fun x y => Close d x.1 y.1) (A.kAddTriangle a b c) (B.kAddTriangle a b c) := by
  obtain ⟨⟨av, at'⟩, ac⟩ := A
  obtain ⟨⟨bv, bt⟩, bc⟩ := B
  obtain ⟨h1, h2⟩ := h
  dsimp only at h1 h2
  subst h1
  have l := h2.length_eq
  simp only [Mesh.kAddTriangle, KernLT.addTriangle, KernLT.addTriangleJunk, l]
  intro x hx
  simp only [Option.bind_eq_bind, Option.bind_eq_some_iff, Option.pure_def] at hx ⊢
  obtain ⟨y, ⟨u1, e1, u2, e2, u3, e3, hy⟩, hx⟩ := hx
  refine ⟨_, ⟨_, ⟨u1, e1, u2, e2, u3, e3, rfl⟩, rfl⟩, ?_⟩
  rw [← Option.some.inj hx, ← Option.some.inj hy]
  simp only [ite_self]
  exact ⟨rfl, h2⟩

theorem asserts {T U : Type} {r : T → U → Prop} {c c' : Prop} [Decidable c] [Decidable c'] (e : c → c') {x : Res T} {y : Res U} (h : Sim r x y) :
    Sim r (assert c >>= fun _ => x) (assert c' >>= fun _ => y) := by
  intro a ha
  by_cases hc : c
  · simp only [assert, hc, if_true] at ha
    obtain ⟨b, hb, hr⟩ := h a ha
    exact ⟨b, by simp only [assert, e hc, if_true]; exact hb, hr⟩
  · simp [assert, hc] at ha

theorem addTriangle (h : Close d A B) (a b c : Int) : Sim (fun x y => Close d x.1 y.1) (A.addTriangle a b c) (B.addTriangle a b c) := by
  have e : B.kern.nbVertices = A.kern.nbVertices := h.nbVertices
  unfold Mesh.addTriangle
  rw [e]
  exact asserts id <| asserts id <| asserts id <| asserts id <| asserts id <| asserts id <| h.kAddTriangle a b c

theorem addTriangles (fs : List (Int × Int × Int)) (h : Close d A B) : Sim (Close d) (Factory.addTriangles A fs) (Factory.addTriangles B fs) :=
  Sim.foldlM fs (fun f _ a b hab => (hab.addTriangle _ _ _).bind fun _ _ h => Sim.some h) h

theorem addQuad (h : Close d A B) (a b c e : Int) : Sim (Close d) (A.addQuad a b c e) (B.addQuad a b c e) := by
  have n : B.kern.nbVertices = A.kern.nbVertices := h.nbVertices
  unfold Mesh.addQuad
  rw [n]
  exact asserts id <| asserts id <| asserts id <| asserts id <| asserts id <| asserts id <| asserts id <| asserts id <|
    (h.kAddTriangle _ _ _).bind fun _ _ h => (h.kAddTriangle _ _ _).bind fun _ _ h => Sim.some h

theorem addQuads (fs : List (Int × Int × Int × Int)) (h : Close d A B) : Sim (Close d) (Factory.addQuads A fs) (Factory.addQuads B fs) :=
  Sim.foldlM fs (fun _ _ _ _ hab => hab.addQuad _ _ _ _) h

theorem addPentagon (h : Close d A B) (a b c e f : Int) : Sim (Close d) (A.addPentagon a b c e f) (B.addPentagon a b c e f) := by
  have n : B.kern.nbVertices = A.kern.nbVertices := h.nbVertices
  unfold Mesh.addPentagon
  rw [n]
  exact asserts id <| asserts id <| asserts id <| asserts id <| asserts id <| asserts id <| asserts id <| asserts id <| asserts id <|
    asserts id <| (h.kAddTriangle _ _ _).bind fun _ _ h => (h.kAddTriangle _ _ _).bind fun _ _ h => (h.kAddTriangle _ _ _).bind fun _ _ h => Sim.some h

theorem addPentagons (fs : List (Int × Int × Int × Int × Int)) (h : Close d A B) :
    Sim (Close d) (Factory.addPentagons A fs) (Factory.addPentagons B fs) :=
  Sim.foldlM fs (fun _ _ _ _ hab => hab.addPentagon _ _ _ _ _) h

theorem ok (h : Close d A B) (hA : A.OK) : B.OK := by
  obtain ⟨⟨av, at'⟩, ac⟩ := A
  obtain ⟨⟨bv, bt⟩, bc⟩ := B
  obtain ⟨h1, h2⟩ := h
  dsimp only at h1 h2
  subst h1
  have l := h2.length_eq
  refine ⟨hA.near, fun i a b c hi => ?_⟩
  have := hA.corners i a b c hi
  simp only [Mesh.nbVertices, KernLT.nbVertices, l] at this ⊢
  exact this

end Nurbs.Close

namespace Factory
open Real Transform Nurbs

variable {u : ℝ} {fl C S : ℝ → ℝ}

/-! ### Angles and vertices -/

theorem apprLe {s e b x' x k : ℝ} (h : Appr u s e b x' x) (us0 : 0 ≤ u * s) (he : e ≤ k) : |x' - x| ≤ k * (u * s) :=
  h.near.trans (mul_le_mul_of_nonneg_right he us0)

theorem pi_lit (hu : 1 / 100000000000000000000 ≤ u) : Appr u 1 1 3.2 3.14159265358979323846264338 π := by
  have a := pi_gt_d20
  have b := pi_lt_d20
  refine ⟨?_, ?_⟩
  · rw [abs_le]; constructor <;> norm_num at a b hu ⊢ <;> linarith
  · rw [abs_of_pos pi_pos]; norm_num at b ⊢; linarith

/-- the angle of the `i`-th of `L` steps -/
theorem angle_near (F : FlAt u 1 fl) (hu : 1 / 100000000000000000000 ≤ u) {i L : Int} (h0 : 0 ≤ i) (h1 : i ≤ L) (hL : 0 < L) :
    |angleR fl i L - (i : ℝ) / L * 2 * π| ≤ 50 * u := by
  have u0 := F.u0
  have u1 := F.u1
  have L0 : (0 : ℝ) < L := by exact_mod_cast hL
  have i0 : (0 : ℝ) ≤ i := by exact_mod_cast h0
  have q : |(i : ℝ) / L| ≤ 1 := by
    rw [abs_of_nonneg (by positivity), div_le_one L0]; exact_mod_cast h1
  have a : Appr u 1 0 1 ((i : ℝ) / L) (i / L) := Appr.exact (by simpa using q)
  have b := a.round F (by norm_num) (by norm_num)
  have t : Appr u 1 0 2 (2 : ℝ) 2 := Appr.exact (by norm_num)
  have c := (Appr.mul' u0 u1 zero_le_one b t (by norm_num) (by norm_num)).round F (by norm_num) (by norm_num)
  have p := (pi_lit hu).round F (by norm_num) (by norm_num)
  have e := (Appr.mul' u0 u1 zero_le_one c p (by norm_num) (by norm_num)).round F (by norm_num) (by norm_num)
  have := apprLe e (by linarith) (show _ ≤ 50 by norm_num)
  rwa [mul_one] at this

/-- the angle of the `i`-th of `L` steps of half a turn -/
theorem half_near (F : FlAt u 1 fl) (hu : 1 / 100000000000000000000 ≤ u) {i L : Int} (h0 : 0 ≤ i) (h1 : i ≤ L) (hL : 0 < L) :
    |halfAngleR fl i L - (i : ℝ) / L * π| ≤ 50 * u := by
  have u0 := F.u0
  have u1 := F.u1
  have L0 : (0 : ℝ) < L := by exact_mod_cast hL
  have i0 : (0 : ℝ) ≤ i := by exact_mod_cast h0
  have q : |(i : ℝ) / L| ≤ 1 := by
    rw [abs_of_nonneg (by positivity), div_le_one L0]; exact_mod_cast h1
  have a : Appr u 1 0 1 ((i : ℝ) / L) (i / L) := Appr.exact (by simpa using q)
  have b := a.round F (by norm_num) (by norm_num)
  have p := (pi_lit hu).round F (by norm_num) (by norm_num)
  have e := (Appr.mul' u0 u1 zero_le_one b p (by norm_num) (by norm_num)).round F (by norm_num) (by norm_num)
  have := apprLe e (by linarith) (show _ ≤ 50 by norm_num)
  rwa [mul_one] at this

theorem cos_near (T : LibTrig u C S) {x y : ℝ} (h : |x - y| ≤ 50 * u) : Appr u 1 52 1 (C x) (cos y) := by
  refine ⟨?_, by rw [mul_one]; exact abs_cos_le_one y⟩
  have a := T.cos x
  have b := abs_cos_sub_cos_le x y
  have c := abs_sub_le (C x) (cos x) (cos y)
  linarith

theorem sin_near (T : LibTrig u C S) {x y : ℝ} (h : |x - y| ≤ 50 * u) : Appr u 1 52 1 (S x) (sin y) := by
  refine ⟨?_, by rw [mul_one]; exact abs_sin_le_one y⟩
  have a := T.sin x
  have b := abs_sin_sub_sin_le x y
  have c := abs_sub_le (S x) (sin x) (sin y)
  linarith

theorem neg_near {d x' x : ℝ} (h : |x' - x| ≤ d) : |(-x') - (-x)| ≤ d := by
  rw [show -x' - -x = -(x' - x) by ring, abs_neg]; exact h

/-- a point of the cylinder -/
theorem cylinder_vertex (F1 : FlAt u 1 fl) {s : ℝ} (F : FlAt u s fl) (T : LibTrig u C S) (hu : 1 / 100000000000000000000 ≤ u)
    {r : ℝ} (hr : |r| ≤ s) {i L : Int} (h0 : 0 ≤ i) (h1 : i ≤ L) (hL : 0 < L) :
    |fl (C (angleR fl i L) * r) - cos ((i : ℝ) / L * 2 * π) * r| ≤ 100 * (u * s) ∧
    |fl (S (angleR fl i L) * r) - sin ((i : ℝ) / L * 2 * π) * r| ≤ 100 * (u * s) := by
  have u0 := F.u0
  have u1 := F.u1
  have us0 : 0 ≤ u * s := mul_nonneg u0 F.s0.le
  have a := angle_near F1 hu h0 h1 hL
  have R : Appr u s 0 1 r r := Appr.exact (by simpa using hr)
  exact ⟨apprLe ((Appr.mul u0 u1 F.s0.le (cos_near T a) R (by norm_num) (by norm_num)).round F (by norm_num) (by norm_num)) us0 (by norm_num),
    apprLe ((Appr.mul u0 u1 F.s0.le (sin_near T a) R (by norm_num) (by norm_num)).round F (by norm_num) (by norm_num)) us0 (by norm_num)⟩

/-- half of a number -/
theorem half_size {s : ℝ} (F : FlAt u s fl) {h : ℝ} (hh : |h| ≤ 2 * s) : |fl (h / 2) - h / 2| ≤ 100 * (u * s) := by
  have us0 : 0 ≤ u * s := mul_nonneg F.u0 F.s0.le
  have R : Appr u s 0 1 (h / 2) (h / 2) := Appr.exact (by rw [abs_div, abs_two]; linarith)
  exact apprLe (R.round F (by norm_num) (by norm_num)) us0 (by norm_num)

/-- a point of the sphere -/
theorem sphere_vertex (F1 : FlAt u 1 fl) {s : ℝ} (F : FlAt u s fl) (T : LibTrig u C S) (hu : 1 / 100000000000000000000 ≤ u)
    {r : ℝ} (hr : |r| ≤ s) {x y x' y' : ℝ} (hx : |x' - x| ≤ 50 * u) (hy : |y' - y| ≤ 50 * u) :
    |fl (fl (r * S y') * C x') - r * sin y * cos x| ≤ 115 * (u * s) ∧
    |fl (fl (r * S y') * S x') - r * sin y * sin x| ≤ 115 * (u * s) ∧ |fl (r * C y') - r * cos y| ≤ 115 * (u * s) := by
  have u0 := F.u0
  have u1 := F.u1
  have us0 : 0 ≤ u * s := mul_nonneg u0 F.s0.le
  have R : Appr u s 0 1 r r := Appr.exact (by simpa using hr)
  have a := (Appr.mul' u0 u1 F.s0.le R (sin_near T hy) (by norm_num) (by norm_num)).round F (by norm_num) (by norm_num)
  have b := (Appr.mul' u0 u1 F.s0.le R (cos_near T hy) (by norm_num) (by norm_num)).round F (by norm_num) (by norm_num)
  exact ⟨apprLe ((Appr.mul' u0 u1 F.s0.le a (cos_near T hx) (by norm_num) (by norm_num)).round F (by norm_num) (by norm_num)) us0 (by norm_num),
    apprLe ((Appr.mul' u0 u1 F.s0.le a (sin_near T hx) (by norm_num) (by norm_num)).round F (by norm_num) (by norm_num)) us0 (by norm_num),
    apprLe b us0 (by norm_num)⟩

/-- a point of the torus -/
theorem torus_vertex (F1 : FlAt u 1 fl) {s : ℝ} (F : FlAt u s fl) (T : LibTrig u C S) (hu : 1 / 100000000000000000000 ≤ u)
    {R r : ℝ} (hs : |R| + |r| ≤ s) {x y x' y' : ℝ} (hx : |x' - x| ≤ 50 * u) (hy : |y' - y| ≤ 50 * u) :
    |fl (fl (R + fl (r * C y')) * C x') - (R + r * cos y) * cos x| ≤ 115 * (u * s) ∧
    |fl (fl (R + fl (r * C y')) * S x') - (R + r * cos y) * sin x| ≤ 115 * (u * s) ∧ |fl (r * S y') - r * sin y| ≤ 115 * (u * s) := by
  have u0 := F.u0
  have u1 := F.u1
  have us0 : 0 ≤ u * s := mul_nonneg u0 F.s0.le
  have A : Appr u s 0 1 R R := Appr.exact (by linarith [abs_nonneg r])
  have B : Appr u s 0 1 r r := Appr.exact (by linarith [abs_nonneg R])
  have a := (Appr.mul' u0 u1 F.s0.le B (sin_near T hy) (by norm_num) (by norm_num)).round F (by norm_num) (by norm_num)
  have b := (Appr.mul' u0 u1 F.s0.le B (cos_near T hy) (by norm_num) (by norm_num)).round F (by norm_num) (by norm_num)
  have c := ((A.add b).bound (b1 := 1) (by
    have h1 := abs_add_le R (r * cos y)
    have h2 : |r * cos y| ≤ |r| * 1 := by rw [abs_mul]; exact mul_le_mul_of_nonneg_left (abs_cos_le_one y) (abs_nonneg r)
    linarith)).round F (by norm_num) (by norm_num)
  exact ⟨apprLe ((Appr.mul' u0 u1 F.s0.le c (cos_near T hx) (by norm_num) (by norm_num)).round F (by norm_num) (by norm_num)) us0 (by norm_num),
    apprLe ((Appr.mul' u0 u1 F.s0.le c (sin_near T hx) (by norm_num) (by norm_num)).round F (by norm_num) (by norm_num)) us0 (by norm_num),
    apprLe a us0 (by norm_num)⟩

/-! ### The meshes -/

theorem cylinder_close (F1 : FlAt u 1 fl) {s : ℝ} (F : FlAt u s fl) (T : LibTrig u C S) (hu : 1 / 100000000000000000000 ≤ u)
    {h r : ℝ} (hr : |r| ≤ s) (hh : |h| ≤ 2 * s) {n : Int} (hn : 0 ≤ n) (m : Mesh ℝ) :
    Sim (Close (100 * (u * s))) (createCylinder h r n m) (createCylinderR fl C S h r n m) := by
  have us0 : 0 ≤ u * s := mul_nonneg F.u0 F.s0.le
  have z := half_size F hh
  have z' := neg_near z
  have o : |(0 : ℝ) - 0| ≤ 100 * (u * s) := by rw [sub_zero, abs_zero]; positivity
  unfold createCylinder createCylinderR
  refine (Sim.loopN (fun i hi A B hAB => Sim.some ?_) (Close.clear m m)).step fun A B hAB => ?_
  · have hv := cylinder_vertex F1 F T hu hr (i := i) (L := 2 + 4 * n) (by omega) (by omega) (by omega)
    simp only [Int.cast_natCast] at hv
    exact hAB.addVertices (List.Forall₂.cons ⟨hv.1, hv.2, z⟩ (List.Forall₂.cons ⟨hv.1, hv.2, z'⟩ List.Forall₂.nil))
  · have hAB := hAB.addVertices (ps := [⟨0, 0, h / 2⟩, ⟨0, 0, -(h / 2)⟩]) (qs := [⟨0, 0, fl (h / 2)⟩, ⟨0, 0, -fl (h / 2)⟩])
      (List.Forall₂.cons ⟨o, o, z⟩ (List.Forall₂.cons ⟨o, o, z'⟩ List.Forall₂.nil))
    refine (Sim.loopN (fun i _ A B hAB => hAB.addQuad _ _ _ _) hAB).step fun A B hAB => ?_
    refine (hAB.addQuad _ _ _ _).step fun A B hAB => ?_
    refine (Sim.loopN (fun i _ A B hAB => hAB.addTriangles _) hAB).step fun A B hAB => ?_
    refine (hAB.addTriangles _).step fun A B hAB => ?_
    refine (Sim.loopN (fun i _ A B hAB => hAB.addTriangles _) hAB).step fun A B hAB => ?_
    exact hAB.addTriangles _

theorem sphere_close (F1 : FlAt u 1 fl) {s : ℝ} (F : FlAt u s fl) (T : LibTrig u C S) (hu : 1 / 100000000000000000000 ≤ u)
    {r : ℝ} (hr : |r| ≤ s) {n : Int} (hn : 0 ≤ n) (m : Mesh ℝ) :
    Sim (Close (115 * (u * s))) (createSphereUv r n m) (createSphereUvR fl C S r n m) := by
  have us0 : 0 ≤ u * s := mul_nonneg F.u0 F.s0.le
  have hN : (4 * n).tdiv 2 = 2 * n := by rw [Int.tdiv_eq_ediv_of_nonneg (by omega)]; omega
  unfold createSphereUv createSphereUvR
  simp only [hN]
  refine (Sim.loopN (fun i hi A B hAB => Sim.loopN (fun j hj A B hAB => Sim.some (hAB.addVertex ?_)) hAB) (Close.clear m m)).step fun A B hAB => ?_
  rotate_left
  · have a := angle_near F1 hu (i := i) (L := 2 + 4 * n) (by omega) (by omega) (by omega)
    have b := half_near F1 hu (i := (j : Int) + 1) (L := 2 + 2 * n) (by omega) (by omega) (by omega)
    have hv := sphere_vertex F1 F T hu hr a b
    push_cast at hv ⊢
    exact hv
  · have hAB := hAB.addVertices (ps := [⟨0, 0, r⟩, ⟨0, 0, -r⟩]) (List.forall₂_same.2 fun P _ => Near.refl (by positivity) P)
    rw [hAB.nbVertices]
    refine Sim.loopN (fun i _ A B hAB => ?_) hAB
    refine (hAB.addTriangles _).step fun A B hAB => ?_
    refine (Sim.loopN (fun i _ A B hAB => hAB.addQuad _ _ _ _) hAB).step fun A B hAB => ?_
    exact hAB.addTriangles _

theorem torus_close (F1 : FlAt u 1 fl) {s : ℝ} (F : FlAt u s fl) (T : LibTrig u C S) (hu : 1 / 100000000000000000000 ≤ u)
    {R r : ℝ} (hs : |R| + |r| ≤ s) {n : Int} (hn : 0 ≤ n) (m : Mesh ℝ) :
    Sim (Close (115 * (u * s))) (createTorus R r n m) (createTorusR fl C S R r n m) := by
  have us0 : 0 ≤ u * s := mul_nonneg F.u0 F.s0.le
  have hN : (4 * n).tdiv 2 = 2 * n := by rw [Int.tdiv_eq_ediv_of_nonneg (by omega)]; omega
  have e : (m.clear.isEmpty = false) = False := by simp [Mesh.isEmpty, Mesh.clear, KernLT.nbTriangles, KernLT.clear]
  unfold createTorus createTorusR
  simp only [hN, e, if_false]
  refine (Sim.loopN (fun i hi A B hAB => Sim.loopN (fun j hj A B hAB => Sim.some (hAB.addVertex ?_)) hAB) (Close.clear m m)).step fun A B hAB => ?_
  rotate_left
  · have a := angle_near F1 hu (i := i) (L := 2 + 4 * n) (by omega) (by omega) (by omega)
    have b := angle_near F1 hu (i := j) (L := 2 + 4 + 2 * n) (by omega) (by omega) (by omega)
    have hv := torus_vertex F1 F T hu hs a b
    simp only [Int.cast_natCast] at hv ⊢
    exact hv
  · exact Sim.loopN (fun i _ A B hAB => Sim.loopN (fun j _ A B hAB => hAB.addQuad _ _ _ _) hAB) hAB

theorem dodecahedron_close (F1 : FlAt u 1 fl) {s : ℝ} (F : FlAt u s fl) {d : ℝ} (hd : |d| ≤ s) (m : Mesh ℝ) :
    Sim (Close (30 * (u * s))) (createDodecahedron d m) (createDodecahedronR fl d m) := by
  have u0 := F.u0
  have u1 := F.u1
  have us0 : 0 ≤ u * s := mul_nonneg u0 F.s0.le
  have q1 : (2.236 : ℝ) ≤ √5 := Real.le_sqrt_of_sq_le (by norm_num)
  have q2 : √5 ≤ 2.24 := Real.sqrt_le_iff.2 ⟨by norm_num, by norm_num⟩
  have a : Appr u 1 0 2.24 (√5) (√5) := Appr.exact (by rw [abs_of_nonneg (by positivity)]; linarith)
  have o : Appr u 1 0 1 (1 : ℝ) 1 := Appr.exact (by norm_num)
  have b := ((a.round F1 (by norm_num) (by norm_num)).add o).round F1 (by norm_num) (by norm_num)
  have c : Appr u 1 3.75 1.62 (fl (fl √5 + 1) / 2) ((√5 + 1) / 2) := by
    obtain ⟨h1, h2⟩ := b
    refine ⟨?_, ?_⟩
    · rw [← sub_div, abs_div, abs_two]
      norm_num at h1 ⊢
      linarith
    · rw [abs_of_nonneg (by positivity)]; linarith
  have t1 := c.round F1 (by norm_num) (by norm_num)
  have t2 : Appr u 1 3 0.62 (1 / fl (fl (fl √5 + 1) / 2)) (1 / ((√5 + 1) / 2)) := by
    obtain ⟨h1, h2⟩ := t1
    rw [mul_one] at h1
    have t0 : (1.618 : ℝ) ≤ (√5 + 1) / 2 := by linarith
    generalize (√5 + 1) / 2 = t at *
    generalize fl (fl (fl √5 + 1) / 2) = t' at *
    have h3 : |t' - t| ≤ 6.4 * u := h1.trans (mul_le_mul_of_nonneg_right (by norm_num) u0)
    have h4 := (abs_le.1 h3).1
    have t0' : (1.6 : ℝ) ≤ t' := by norm_num at u1 t0 h4 ⊢; linarith
    refine ⟨?_, ?_⟩
    · have p : (2.5 : ℝ) ≤ t' * t := by nlinarith
      rw [div_sub_div _ _ (by linarith) (by linarith), abs_div, abs_of_pos (show 0 < t' * t by linarith), div_le_iff₀ (by linarith)]
      have e : |1 * t - t' * 1| = |t' - t| := by rw [← abs_neg]; congr 1; ring
      rw [e]
      refine h3.trans ?_
      have := mul_le_mul_of_nonneg_left p u0
      norm_num at this ⊢
      linarith
    · rw [abs_of_pos (by positivity), div_le_iff₀ (by linarith)]; norm_num at t0 ⊢; linarith
  have t2 := t2.round F1 (by norm_num) (by norm_num)
  have D : Appr u s 0 1 d d := Appr.exact (by simpa using hd)
  have w1 := apprLe ((Appr.mul u0 u1 F.s0.le t1 D (by norm_num) (by norm_num)).round F (by norm_num) (by norm_num)) us0 (show _ ≤ 30 by norm_num)
  have w2 := apprLe ((Appr.mul u0 u1 F.s0.le t2 D (by norm_num) (by norm_num)).round F (by norm_num) (by norm_num)) us0 (show _ ≤ 30 by norm_num)
  have v1 := neg_near w1
  have v2 := neg_near w2
  have z : |(0 : ℝ) - 0| ≤ 30 * (u * s) := by rw [sub_zero, abs_zero]; positivity
  have k : |d - d| ≤ 30 * (u * s) := by rw [sub_self, abs_zero]; positivity
  have k' := neg_near k
  unfold createDodecahedron createDodecahedronR
  refine (Close.addVertices ?_ (Close.clear m m)).addPentagons _
  repeat' first | exact List.Forall₂.nil | refine List.Forall₂.cons ⟨?_, ?_, ?_⟩ ?_
  all_goals first | exact k | exact k' | exact z | exact w1 | exact w2 | exact v1 | exact v2

theorem icosahedron_close (F1 : FlAt u 1 fl) {s : ℝ} (F : FlAt u s fl) {d : ℝ} (hd : |d| ≤ s) (m : Mesh ℝ) :
    Sim (Close (30 * (u * s))) (createIcosahedron d m) (Rounded.createIcosahedron fl d m) := by
  have u0 := F.u0
  have u1 := F.u1
  have us0 : 0 ≤ u * s := mul_nonneg u0 F.s0.le
  have q1 : (2.236 : ℝ) ≤ √5 := Real.le_sqrt_of_sq_le (by norm_num)
  have q2 : √5 ≤ 2.24 := Real.sqrt_le_iff.2 ⟨by norm_num, by norm_num⟩
  have a : Appr u 1 0 2.24 (√5) (√5) := Appr.exact (by rw [abs_of_nonneg (by positivity)]; linarith)
  have o : Appr u 1 0 1 (1 : ℝ) 1 := Appr.exact (by norm_num)
  have b := ((a.round F1 (by norm_num) (by norm_num)).sub o).round F1 (by norm_num) (by norm_num)
  have c : Appr u 1 3.75 1 (fl (fl √5 - 1) / 2) ((√5 - 1) / 2) := by
    obtain ⟨h1, h2⟩ := b
    refine ⟨?_, ?_⟩
    · rw [← sub_div, abs_div, abs_two]
      norm_num at h1 ⊢
      linarith
    · rw [abs_of_nonneg (by linarith)]; linarith
  have t := c.round F1 (by norm_num) (by norm_num)
  have D : Appr u s 0 1 d d := Appr.exact (by simpa using hd)
  have w := apprLe ((Appr.mul u0 u1 F.s0.le t D (by norm_num) (by norm_num)).round F (by norm_num) (by norm_num)) us0 (show _ ≤ 30 by norm_num)
  have v := neg_near w
  have z : |(0 : ℝ) - 0| ≤ 30 * (u * s) := by rw [sub_zero, abs_zero]; positivity
  have k : |d - d| ≤ 30 * (u * s) := by rw [sub_self, abs_zero]; positivity
  have k' := neg_near k
  unfold createIcosahedron Rounded.createIcosahedron icosahedronWith
  refine (Close.addVertices ?_ (Close.clear m m)).addTriangles _
  repeat' first | exact List.Forall₂.nil | refine List.Forall₂.cons ⟨?_, ?_, ?_⟩ ?_
  all_goals first | exact k | exact k' | exact z | exact w | exact v

theorem box_close {s : ℝ} (F : FlAt u s fl) {x y z : ℝ} (hx : |x| ≤ 2 * s) (hy : |y| ≤ 2 * s) (hz : |z| ≤ 2 * s) (m : Mesh ℝ) :
    Sim (Close (2 * (u * s))) (createBox x y z m) (createBoxR fl x y z m) := by
  have us0 : 0 ≤ u * s := mul_nonneg F.u0 F.s0.le
  have half : ∀ {h : ℝ}, |h| ≤ 2 * s → |fl (h / 2) - h / 2| ≤ 2 * (u * s) := fun {h} hh => by
    have R : Appr u s 0 1 (h / 2) (h / 2) := Appr.exact (by rw [abs_div, abs_two]; linarith)
    exact apprLe (R.round F (by norm_num) (by norm_num)) us0 (by norm_num)
  have a := half hx
  have b := half hy
  have c := half hz
  have a' := neg_near a
  have b' := neg_near b
  have c' := neg_near c
  unfold createBox createBoxR
  refine (Close.addVertices ?_ (Close.clear m m)).addQuads _
  repeat' first | exact List.Forall₂.nil | refine List.Forall₂.cons ⟨?_, ?_, ?_⟩ ?_
  all_goals first | exact a | exact b | exact c | exact a' | exact b' | exact c'

end Factory
end CAD
