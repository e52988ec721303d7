import Verif.Lemmas.Build
import Verif.Model.MeshUtil
import Verif.Props.Measure
import Mathlib.Tactic.Linarith

/-! C19-C21: `merge_vertices` and `remove_empty_triangles`. -/

set_option linter.unusedSimpArgs false
set_option linter.unusedSectionVars false

namespace CAD
namespace MeshUtil
open Mesh
variable {K : Type} [Field K] [LinearOrder K]

/-- points `i` and `j` of the list are closer than the tolerance -/
def Near (ps : List (P3 K)) (near : P3 K → P3 K → Bool) (i j : Nat) : Prop :=
  ∃ p q, ps[i]? = some p ∧ ps[j]? = some q ∧ near p q

/-- what the alias vector says after the first loop, for entry `i` -/
def AliasAt (ps : List (P3 K)) (near : P3 K → P3 K → Bool) (al : List Int) (i j : Nat) (a : Int) : Prop :=
  (a = -1 ∧ ∀ k < j, al[k]? = some (-1) → ¬ Near ps near i k) ∨
  (∃ k : Nat, k < j ∧ a = k ∧ al[k]? = some (-1) ∧ Near ps near i k)

theorem AliasAt.congr {ps : List (P3 K)} {near : P3 K → P3 K → Bool} {al al' : List Int} {i j : Nat} {a : Int}
    (h : AliasAt ps near al i j a) (he : ∀ k < j, al'[k]? = al[k]?) :
    AliasAt ps near al' i j a := by
  rcases h with ⟨h1, h2⟩ | ⟨k, h1, h2, h3, h4⟩
  · exact Or.inl ⟨h1, fun k hk hal => h2 k hk (by rwa [he k hk] at hal)⟩
  · exact Or.inr ⟨k, h1, h2, by rwa [he k h1], h4⟩

theorem findAliases_spec (m : Mesh K) (near : P3 K → P3 K → Bool) :
    ∃ al, findAliases near m (List.replicate m.nbVertices.toNat (-1)) = some al ∧
      al.length = m.kern.verts.length ∧
      ∀ i < m.kern.verts.length, ∃ a, al[i]? = some a ∧ AliasAt m.kern.verts near al i i a := by
  have hN : m.nbVertices.toNat = m.kern.verts.length := by
    simp [Mesh.nbVertices, KernLT.nbVertices]
  unfold findAliases
  rw [hN]
  set N := m.kern.verts.length with hNdef
  have hget : ∀ i (h : i < N), m.getVertex i = some (m.kern.verts[i]'h) := by
    intro i hi
    rw [(answers_view m).getVertex]; simp
  obtain ⟨al, h1, h2, h3, _⟩ := loopN_inv (n := N) (s := List.replicate N (-1 : Int))
    (f := fun (i : Nat) al => (do
      let v1 ← m.getVertex i
      loopN i (fun (j : Nat) al => do
        let aj ← getI al j
        if 0 ≤ aj then return al
        let v2 ← m.getVertex j
        if near v1 v2 then setI al i j else return al) al : Res (List Int)))
    (fun i al => al.length = N ∧
      (∀ k < i, ∃ a, al[k]? = some a ∧ AliasAt m.kern.verts near al k k a) ∧
      (∀ k, i ≤ k → k < N → al[k]? = some (-1)))
    ⟨by simp, by simp, fun k _ hk => by simp [List.getElem?_replicate, hk]⟩ (by
      rintro i hi al ⟨hl, hA, hB⟩
      have hpi : m.kern.verts[i]? = some m.kern.verts[i] := List.getElem?_eq_getElem hi
      obtain ⟨al', h', a, rfl, ha⟩ := loopN_inv (n := i) (s := al)
        (f := fun (j : Nat) al => (do
          let aj ← getI al j
          if 0 ≤ aj then return al
          let v2 ← m.getVertex j
          if near m.kern.verts[i] v2 then setI al i j else return al : Res (List Int)))
        (fun j al' => ∃ a, al' = al.set i a ∧ AliasAt m.kern.verts near al i j a)
        ⟨-1, by
          apply List.ext_getElem?
          intro k
          by_cases hk : i = k
          · subst hk; rw [hB i le_rfl hi]; simp [hl, hi]
          · rw [List.getElem?_set_ne hk], Or.inl ⟨rfl, fun k hk => by omega⟩⟩ (by
          rintro j hj al' ⟨a, rfl, ha⟩
          have hjN : j < N := by omega
          obtain ⟨b, hb, _⟩ := hA j hj
          have hb' : (al.set i a)[j]? = some b := by
            rw [List.getElem?_set_ne (by omega)]; exact hb
          have hpj : m.kern.verts[j]? = some m.kern.verts[j] := List.getElem?_eq_getElem hjN
          simp only [getI_natCast, hb', hget j hjN, Option.bind_eq_bind, Option.bind_some]
          have hlift : ∀ a, (b = -1 → ¬ Near m.kern.verts near i j) →
              AliasAt m.kern.verts near al i j a → AliasAt m.kern.verts near al i (j + 1) a := by
            rintro a hn (⟨h1, h2⟩ | ⟨k, h1, h2, h3, h4⟩)
            · refine Or.inl ⟨h1, fun k hk hal => ?_⟩
              rcases Nat.lt_succ_iff_lt_or_eq.1 hk with h | rfl
              · exact h2 k h hal
              · rw [hb] at hal; exact hn (by simpa using hal)
            · exact Or.inr ⟨k, by omega, h2, h3, h4⟩
          by_cases hb0 : 0 ≤ b
          · refine ⟨al.set i a, by simp [hb0], a, rfl, hlift a (fun h => by omega) ha⟩
          · by_cases hd : near m.kern.verts[i] m.kern.verts[j]
            · refine ⟨al.set i j, ?_, j, rfl, Or.inr ⟨j, by omega, rfl, ?_, _, _, hpi, hpj, hd⟩⟩
              · simp only [hb0, hd, if_true, if_false]
                rw [setI_of_inRange _ (by simpa [inRange_natCast, hl] using hi)]
                simp
              · rw [hb]
                rcases (hA j hj) with ⟨c, hc, (⟨h, _⟩ | ⟨k, _, h, _⟩)⟩
                · rw [hb] at hc; simp only [Option.some.injEq] at hc; rw [hc, h]
                · rw [hb] at hc; simp only [Option.some.injEq] at hc; omega
            · refine ⟨al.set i a, by simp [hb0, hd], a, rfl, hlift a (fun _ hn => ?_) ha⟩
              obtain ⟨p, q, hp, hq, h⟩ := hn
              rw [hpi] at hp; rw [hpj] at hq
              simp only [Option.some.injEq] at hp hq
              subst hp hq
              exact hd h)
      refine ⟨al.set i a, ?_, by simp [hl], ?_, ?_⟩
      · simp only [hget i hi, Option.bind_eq_bind, Option.bind_some]
        exact h'
      · intro k hk
        rcases Nat.lt_succ_iff_lt_or_eq.1 hk with h | rfl
        · obtain ⟨b, hb, hb'⟩ := hA k h
          refine ⟨b, by rw [List.getElem?_set_ne (by omega)]; exact hb, hb'.congr fun l hl => ?_⟩
          rw [List.getElem?_set_ne (by omega)]
        · refine ⟨a, by simp [hl, hi], ha.congr fun l hl => ?_⟩
          rw [List.getElem?_set_ne (by omega)]
      · intro k h1 h2
        rw [List.getElem?_set_ne (by omega)]
        exact hB k (by omega) h2)
  exact ⟨al, h1, h2, h3⟩

/-- number of kept vertices before `k` -/
def cnt (al : List Int) (k : Nat) : Nat := (al.take k).countP (· = -1)

/-- points kept among the first `k` -/
def keptPts (ps : List (P3 K)) (al : List Int) (k : Nat) : List (P3 K) :=
  (((ps.zip al).take k).filter (·.2 = -1)).map Prod.fst

/-- new vertex id of old vertex `k` -/
def newId (al : List Int) (k : Nat) : Int :=
  match al[k]? with
  | none => 0
  | some a => if a = -1 then cnt al k else cnt al a.toNat

/-- `AliasAt` for every entry -/
structure AliasOK (ps : List (P3 K)) (near : P3 K → P3 K → Bool) (al : List Int) : Prop where
  len : al.length = ps.length
  at' : ∀ i < ps.length, ∃ a, al[i]? = some a ∧ AliasAt ps near al i i a

theorem keptPts_succ {ps : List (P3 K)} {al : List Int} (hl : al.length = ps.length) {k : Nat}
    (hk : k < ps.length) : keptPts ps al (k + 1) =
      keptPts ps al k ++ if al[k]'(by omega) = -1 then [ps[k]] else [] := by
  unfold keptPts
  have hz : k < (ps.zip al).length := by simp [hl, hk]
  have : (ps.zip al).take (k + 1) = (ps.zip al).take k ++ [(ps.zip al)[k]] := by
    rw [List.take_add_one, List.getElem?_eq_getElem hz]; rfl
  rw [this, List.filter_append, List.map_append]
  congr 1
  by_cases h : al[k]'(by omega) = -1 <;> simp [h]

theorem cnt_succ {al : List Int} {k : Nat} (hk : k < al.length) :
    cnt al (k + 1) = cnt al k + if al[k] = -1 then 1 else 0 := by
  unfold cnt
  have : al.take (k + 1) = al.take k ++ [al[k]] := by
    rw [List.take_add_one, List.getElem?_eq_getElem hk]; rfl
  rw [this, List.countP_append]
  by_cases h : al[k] = -1 <;> simp [h]

theorem keptPts_length {ps : List (P3 K)} {al : List Int} (hl : al.length = ps.length) {k : Nat}
    (hk : k ≤ ps.length) : (keptPts ps al k).length = cnt al k := by
  induction k with
  | zero => simp [keptPts, cnt]
  | succ k ih =>
    rw [keptPts_succ hl (by omega), cnt_succ (by omega), List.length_append, ih (by omega)]
    split <;> simp

theorem keptPts_prefix {ps : List (P3 K)} {al : List Int} (hl : al.length = ps.length) {k n : Nat}
    (hkn : k ≤ n) (hn : n ≤ ps.length) : ∃ l, keptPts ps al n = keptPts ps al k ++ l := by
  induction n, hkn using Nat.le_induction with
  | base => exact ⟨[], by simp⟩
  | succ n h ih =>
    obtain ⟨l, hl'⟩ := ih (by omega)
    rw [keptPts_succ hl (by omega), hl', List.append_assoc]
    exact ⟨_, rfl⟩

/-- a kept vertex is found at its new id -/
theorem keptPts_get {ps : List (P3 K)} {al : List Int} (hl : al.length = ps.length) {k : Nat}
    (hk : k < ps.length) (ha : al[k]? = some (-1)) :
    (keptPts ps al ps.length)[cnt al k]? = some ps[k] := by
  obtain ⟨l, hl'⟩ := keptPts_prefix hl (k := k + 1) (n := ps.length) hk le_rfl
  have hak : al[k]'(by omega) = -1 := by
    rw [List.getElem?_eq_getElem (by omega)] at ha; simpa using ha
  rw [hl', keptPts_succ hl hk, if_pos hak, List.append_assoc]
  rw [List.getElem?_append_right (by rw [keptPts_length hl hk.le]), keptPts_length hl hk.le]
  simp

theorem readdVertices_spec (mOld m0 : Mesh K) (near : P3 K → P3 K → Bool) (al : List Int)
    (h : AliasOK mOld.kern.verts near al) (h0 : m0.kern.verts = []) :
    ∃ B, readdVertices mOld al.length (m0, al) =
        some (m0.pushPts (keptPts mOld.kern.verts al mOld.kern.verts.length), B) ∧
      ∀ k < mOld.kern.verts.length, B[k]? = some (newId al k) := by
  unfold readdVertices
  set ps := mOld.kern.verts with hps
  rw [h.len]
  obtain ⟨s, h1, h2, h3, h4, h5⟩ := loopN_inv (n := ps.length) (s := (m0, al))
    (f := fun (i : Nat) (s : Mesh K × List Int) => (do
      let ai ← getI s.2 i
      if ai = -1 then
        let p ← mOld.getVertex i
        let r := s.1.addVertex p
        let al ← setI s.2 i r.2
        return (r.1, al)
      else
        let iAlias ← getI s.2 ai
        let al ← setI s.2 i iAlias
        return (s.1, al) : Res (Mesh K × List Int)))
    (fun i s => s.1 = m0.pushPts (keptPts ps al i) ∧ s.2.length = ps.length ∧
      (∀ k < i, s.2[k]? = some (newId al k)) ∧ (∀ k, i ≤ k → s.2[k]? = al[k]?))
    ⟨by simp [keptPts, pushPts_nil], h.len, by simp, by simp⟩ (by
      rintro i hi ⟨mm, B⟩ ⟨hm, hB, hlo, hhi⟩
      simp only at hm hB hlo hhi
      subst hm
      have hget : mOld.getVertex i = some ps[i] := by
        rw [(answers_view mOld).getVertex]; simp [hps]
      obtain ⟨a, ha, hat⟩ := h.at' i hi
      have hBi : B[i]? = some a := by rw [hhi i le_rfl, ha]
      have hai : al[i]'(by have := h.len; omega) = a := by
        rw [List.getElem?_eq_getElem (by have := h.len; omega)] at ha; simpa using ha
      have hset : ∀ b, setI B (i : Int) b = some (B.set i b) := by
        intro b
        rw [setI_of_inRange _ (by rw [inRange_natCast, hB]; exact hi)]; simp
      have hset' : ∀ b, b = newId al i → (B.set i b).length = ps.length ∧
          (∀ k < i + 1, (B.set i b)[k]? = some (newId al k)) ∧
          (∀ k, i + 1 ≤ k → (B.set i b)[k]? = al[k]?) := by
        rintro b rfl
        refine ⟨by simp [hB], fun k hk => ?_, fun k hk => ?_⟩
        · rcases Nat.lt_succ_iff_lt_or_eq.1 hk with h | rfl
          · rw [List.getElem?_set_ne (by omega)]; exact hlo k h
          · simp [hB, hi]
        · rw [List.getElem?_set_ne (by omega)]; exact hhi k (by omega)
      rw [keptPts_succ h.len hi, hai]
      simp only [getI_natCast, hBi, Option.bind_eq_bind, Option.bind_some]
      by_cases h1 : a = -1
      · subst h1
        simp only [if_true, hget, Option.bind_some, addVertex_eq, hset, pushPts_push]
        refine ⟨_, rfl, rfl, hset' _ ?_⟩
        simp only [newId, ha, if_true, pushPts_verts, h0, List.nil_append]
        rw [keptPts_length h.len hi.le]
      · simp only [h1, if_false, List.append_nil]
        rcases hat with ⟨hm1, _⟩ | ⟨k, hk, rfl, hk1, _⟩
        · exact absurd hm1 h1
        · simp only [getI_natCast, hlo k hk, Option.bind_some, hset]
          refine ⟨_, rfl, rfl, hset' _ ?_⟩
          simp only [newId, ha, hk1, if_true, if_neg h1, Int.toNat_natCast])
  refine ⟨s.2, ?_, h4⟩
  rw [← h2]; exact h1

/-- image of a corner triple -/
def mapCorners (g : Int → Int) (f : Int × Int × Int) : Int × Int × Int := (g f.1, g f.2.1, g f.2.2)

/-- every old vertex has a valid new one, itself or a near one -/
theorem newId_spec {ps : List (P3 K)} {near : P3 K → P3 K → Bool} {al : List Int} (h : AliasOK ps near al)
    {k : Nat} (hk : k < ps.length) :
    ∃ j : Nat, newId al k = j ∧ j < (keptPts ps al ps.length).length ∧
      ∃ q, (keptPts ps al ps.length)[j]? = some q ∧ (q = ps[k] ∨ near ps[k] q) := by
  obtain ⟨a, ha, hat⟩ := h.at' k hk
  rcases hat with ⟨rfl, _⟩ | ⟨j, hj, rfl, hj1, p, q, hp, hq, hd⟩
  · have := keptPts_get h.len hk ha
    exact ⟨cnt al k, by simp [newId, ha], (List.getElem?_eq_some_iff.1 this).1, _, this, Or.inl rfl⟩
  · have hj' : j < ps.length := by omega
    have := keptPts_get h.len hj' hj1
    refine ⟨cnt al j, by simp only [newId, ha]; rw [if_neg (by omega)]; simp,
      (List.getElem?_eq_some_iff.1 this).1, _, this, Or.inr ?_⟩
    rw [List.getElem?_eq_getElem hk] at hp; rw [List.getElem?_eq_getElem hj'] at hq
    simp only [Option.some.injEq] at hp hq
    rw [hp, hq]; exact hd

theorem foldlM_pushTris (l : List (Int × Int × Int)) (g : Int × Int × Int → Int × Int × Int)
    (m : Mesh K) :
    l.foldlM (fun (s : Mesh K) f => (some (s.pushTris [g f]) : Res (Mesh K))) m =
      some (m.pushTris (l.map g)) := by
  induction l generalizing m with
  | nil => simp
  | cons t l ih => simp [List.foldlM_cons, ih]

/-- re-adding one triangle with new ids -/
def readdTri (B : List Int) (f : Int × Int × Int) (s : Mesh K) : Res (Mesh K) := do
  let n1 ← getI B f.1
  let n2 ← getI B f.2.1
  let n3 ← getI B f.2.2
  assert (n1 < s.nbVertices)
  assert (n2 < s.nbVertices)
  assert (n3 < s.nbVertices)
  let (m, _) ← s.addTriangle n1 n2 n3
  return m

/-- closed form of `merge_vertices` -/
theorem mergeBy_eq (near : P3 K → P3 K → Bool) (junk : Int) {m : Mesh K} (hm : m.OK) :
    ∃ al, findAliases near m (List.replicate m.nbVertices.toNat (-1)) = some al ∧
      AliasOK m.kern.verts near al ∧ mergeVerticesBy near junk m =
      some ((m.clear.pushPts (keptPts m.kern.verts al m.kern.verts.length)).pushTris
        (m.view.linkedCorners.map (mapCorners fun i => newId al i.toNat))) := by
  obtain ⟨al, h1, h2, h3⟩ := findAliases_spec m near
  have hA : AliasOK m.kern.verts near al := ⟨h2, h3⟩
  refine ⟨al, h1, hA, ?_⟩
  have hval : ∀ f ∈ m.view.linkedCorners, CornersIn m.kern.verts.length f :=
    linkedCorners_valid ((ok_iff m).1 hm).valid
  unfold mergeVerticesBy
  simp only [h1, Option.bind_eq_bind, Option.bind_some, Mesh.copyConstruct, assign_eq]
  rw [if_pos (fun f hf => hval f hf)]
  set mOld := (Mesh.mk ⟨[], m.kern.verts⟩ m.color).pushTris m.view.linkedCorners with hOld
  have hv : mOld.kern.verts = m.kern.verts := rfl
  have hlc : mOld.view.linkedCorners = m.view.linkedCorners := by
    unfold AMesh.linkedCorners
    rw [hOld, view_pushTris]
    have : (Mesh.mk ⟨[], m.kern.verts⟩ m.color).view.faces = [] := rfl
    rw [this, List.nil_append, List.filter_map]
    simp only [Function.comp_def, List.filter_true, List.map_map, List.map_id']
    rfl
  obtain ⟨B, hB1, hB2⟩ := readdVertices_spec mOld m.clear near al (by rw [hv]; exact hA) rfl
  rw [hv] at hB1 hB2
  simp only [Option.bind_some, hB1]
  unfold readdTriangles
  set M := m.clear.pushPts (keptPts m.kern.verts al m.kern.verts.length) with hM
  rw [loop_linked mOld _ (readdTri B)]
  · rw [hlc]
    have hMv : M.kern.verts = keptPts m.kern.verts al m.kern.verts.length := rfl
    clear hlc hOld
    clear_value mOld
    have key : ∀ (l : List (Int × Int × Int)) (s : Mesh K),
        s.kern.verts = keptPts m.kern.verts al m.kern.verts.length →
        (∀ f ∈ l, CornersIn m.kern.verts.length f) →
        l.foldlM (fun s f => readdTri B f s) s =
        some (s.pushTris (l.map (mapCorners fun i => newId al i.toNat))) := by
      intro l
      induction l with
      | nil => intro s _ _; simp
      | cons f l ih =>
        intro s hs hl
        obtain ⟨f1, f2, f3⟩ := f
        obtain ⟨c1, c2, c3⟩ := hl (f1, f2, f3) (by simp)
        obtain ⟨k1, rfl, hk1⟩ := c1.exists
        obtain ⟨k2, rfl, hk2⟩ := c2.exists
        obtain ⟨k3, rfl, hk3⟩ := c3.exists
        obtain ⟨j1, e1, l1, -⟩ := newId_spec hA hk1
        obtain ⟨j2, e2, l2, -⟩ := newId_spec hA hk2
        obtain ⟨j3, e3, l3, -⟩ := newId_spec hA hk3
        rw [← hs] at l1 l2 l3
        have hc : CornersIn s.kern.verts.length ((j1 : Int), (j2 : Int), (j3 : Int)) :=
          ⟨inRange_natCast.2 l1, inRange_natCast.2 l2, inRange_natCast.2 l3⟩
        have n1 : (j1 : Int) < s.nbVertices := by
          simp only [Mesh.nbVertices, KernLT.nbVertices]; omega
        have n2 : (j2 : Int) < s.nbVertices := by
          simp only [Mesh.nbVertices, KernLT.nbVertices]; omega
        have n3 : (j3 : Int) < s.nbVertices := by
          simp only [Mesh.nbVertices, KernLT.nbVertices]; omega
        have hone : readdTri B ((k1 : Int), (k2 : Int), (k3 : Int)) s =
            some (s.pushTris [((j1 : Int), (j2 : Int), (j3 : Int))]) := by
          unfold readdTri
          simp only [getI_natCast, hB2 k1 hk1, hB2 k2 hk2, hB2 k3 hk3, Option.bind_eq_bind,
            Option.bind_some, e1, e2, e3, assert, n1, n2, n3, if_true, addTriangle_eq, if_pos hc]
          rfl
        rw [List.foldlM_cons, hone]
        simp only [Option.bind_eq_bind, Option.bind_some]
        rw [ih _ (by simpa using hs) (fun f hf => hl f (by simp [hf]))]
        simp [mapCorners, e1, e2, e3]
    exact key _ M hMv (fun f hf => hval f hf)
  · intro i f s hf hl
    rw [(answers_view mOld).unlinked]; simp [hf, hl]
  · intro i f s hf hl
    rw [(answers_view mOld).unlinked, (answers_view mOld).corners]; simp [hf, hl, readdTri]

/-- closed form of `merge_vertices` -/
theorem mergeVertices_eq (junk : Int) {m : Mesh K} (hm : m.OK) (tol : K) :
    ∃ al, AliasOK m.kern.verts (nearTol tol) al ∧ mergeVerticesJunk junk m tol =
      some ((m.clear.pushPts (keptPts m.kern.verts al m.kern.verts.length)).pushTris
        (m.view.linkedCorners.map (mapCorners fun i => newId al i.toNat))) := by
  obtain ⟨al, -, h⟩ := mergeBy_eq (nearTol tol) junk hm
  exact ⟨al, h⟩

theorem nearTol_iff {tol : K} {p q : P3 K} : nearTol tol p q = true ↔ p.distSq q < tol * tol := by
  simp [nearTol]

theorem nearTol_comm [IsStrictOrderedRing K] {tol : K} {p q : P3 K} : nearTol tol p q = nearTol tol q p := by
  simp [nearTol, P3.distSq_comm]

theorem keptPts_sublist (ps : List (P3 K)) (al : List Int) (h : al.length = ps.length) (k : Nat) :
    (keptPts ps al k).Sublist ps := by
  unfold keptPts
  have h1 : ((ps.zip al).map Prod.fst) = ps := by
    rw [List.map_fst_zip (by omega)]
  conv_rhs => rw [← h1]
  exact ((List.filter_sublist (l := (ps.zip al).take k)).trans (List.take_sublist _ _)).map _

theorem cnt_mono {al : List Int} {i j : Nat} (h : i ≤ j) : cnt al i ≤ cnt al j := by
  unfold cnt
  exact (List.take_sublist_take_left h).countP_le

/-- entries of the kept list come from kept indices -/
theorem keptPts_index {ps : List (P3 K)} {al : List Int} (hl : al.length = ps.length) {n : Nat}
    (hn : n ≤ ps.length) {i : Nat} {p : P3 K} (h : (keptPts ps al n)[i]? = some p) :
    ∃ k < n, al[k]? = some (-1) ∧ ps[k]? = some p ∧ cnt al k = i := by
  induction n with
  | zero => simp [keptPts] at h
  | succ n ih =>
    rw [keptPts_succ hl (by omega)] at h
    by_cases hi : i < (keptPts ps al n).length
    · rw [List.getElem?_append_left hi] at h
      obtain ⟨k, hk, h1⟩ := ih (by omega) h
      exact ⟨k, by omega, h1⟩
    · rw [List.getElem?_append_right (by omega)] at h
      split at h
      · rename_i ha
        have h0 : i - (keptPts ps al n).length = 0 := by
          by_contra hne
          rw [List.getElem?_eq_none (by simp; omega)] at h
          simp at h
        rw [h0] at h
        refine ⟨n, by omega, by rw [List.getElem?_eq_getElem (by omega), ha],
          by rw [List.getElem?_eq_getElem (by omega)]; simpa using h, ?_⟩
        rw [keptPts_length hl (by omega)] at hi h0
        omega
      · simp at h

variable [IsStrictOrderedRing K]

theorem keptPts_apart {ps : List (P3 K)} {tol : K} {al : List Int} (h : AliasOK ps (nearTol tol) al)
    {i j : Nat} (hij : i ≠ j) {p q : P3 K} (hp : (keptPts ps al ps.length)[i]? = some p)
    (hq : (keptPts ps al ps.length)[j]? = some q) : tol * tol ≤ p.distSq q := by
  obtain ⟨k, hk, hka, hkp, rfl⟩ := keptPts_index h.len le_rfl hp
  obtain ⟨l, hl, hla, hlq, rfl⟩ := keptPts_index h.len le_rfl hq
  have hne : k ≠ l := fun e => hij (by rw [e])
  rcases lt_or_gt_of_ne hne with hlt | hlt
  · obtain ⟨a, ha, hat⟩ := h.at' l hl
    rw [hla] at ha
    simp only [Option.some.injEq] at ha
    subst ha
    rcases hat with ⟨_, h2⟩ | ⟨x, _, hx, _⟩
    · by_contra hc
      exact h2 k hlt hka ⟨q, p, hlq, hkp, by rw [nearTol_iff, P3.distSq_comm]; exact not_le.1 hc⟩
    · omega
  · obtain ⟨a, ha, hat⟩ := h.at' k hk
    rw [hka] at ha
    simp only [Option.some.injEq] at ha
    subst ha
    rcases hat with ⟨_, h2⟩ | ⟨x, _, hx, _⟩
    · by_contra hc
      exact h2 l hlt hla ⟨p, q, hkp, hlq, nearTol_iff.2 (not_le.1 hc)⟩
    · omega

/-- a corner after merging: unchanged, or moved by less than the tolerance -/
def Moved (tol : K) (p q : P3 K) : Prop := q = p ∨ p.distSq q < tol * tol

/-- **C19** After `merge_vertices`: remaining vertices are pairwise at least `tol`
apart, they are vertices of the input, and the linked triangles correspond in
order with each corner moved by less than `tol` or not at all.  The value of the
uninitialised colour of the temporary is irrelevant. -/
theorem merge_respects_tolerance (junk : Int) (m : Mesh K) (hm : m.OK) (tol : K) :
    ∃ r, mergeVerticesJunk junk m tol = some r ∧
      (∀ i j p q, i ≠ j → r.getVertex i = some p → r.getVertex j = some q →
        tol * tol ≤ p.distSq q) ∧
      (∀ i p, r.getVertex i = some p → ∃ j, m.getVertex j = some p) ∧
      List.Forall₂ (fun t t' => Moved tol t.p1 t'.p1 ∧ Moved tol t.p2 t'.p2 ∧ Moved tol t.p3 t'.p3)
        m.triangles r.triangles := by
  obtain ⟨al, hA, h⟩ := mergeVertices_eq junk hm tol
  refine ⟨_, h, ?_, ?_, ?_⟩
  · intro i j p q hij hp hq
    rw [(answers_view _).getVertex] at hp hq
    obtain ⟨i', rfl, hi⟩ := getI_eq_some_iff.1 hp
    obtain ⟨j', rfl, hj⟩ := getI_eq_some_iff.1 hq
    exact keptPts_apart hA (by simpa using hij) hi hj
  · intro i p hp
    rw [(answers_view _).getVertex] at hp
    obtain ⟨i', rfl, hi⟩ := getI_eq_some_iff.1 hp
    obtain ⟨k, hk, _, hkp, _⟩ := keptPts_index hA.len le_rfl hi
    exact ⟨k, by rw [(answers_view m).getVertex, getI_natCast]; exact hkp⟩
  · rw [triangles_eq, triangles_eq, soup_pushTris]
    set M := m.clear.pushPts (keptPts m.kern.verts al m.kern.verts.length) with hM
    have h0 : M.soup = [] := rfl
    rw [h0, List.nil_append]
    unfold soup
    have hval : ∀ f ∈ m.view.linkedCorners, CornersIn m.kern.verts.length f :=
      linkedCorners_valid ((ok_iff m).1 hm).valid
    generalize m.view.linkedCorners = l at hval
    induction l with
    | nil => simp
    | cons f l ih =>
      obtain ⟨f1, f2, f3⟩ := f
      obtain ⟨c1, c2, c3⟩ := hval (f1, f2, f3) (by simp)
      obtain ⟨k1, rfl, hk1⟩ := c1.exists
      obtain ⟨k2, rfl, hk2⟩ := c2.exists
      obtain ⟨k3, rfl, hk3⟩ := c3.exists
      obtain ⟨j1, e1, l1, q1, g1, d1⟩ := newId_spec hA hk1
      obtain ⟨j2, e2, l2, q2, g2, d2⟩ := newId_spec hA hk2
      obtain ⟨j3, e3, l3, q3, g3, d3⟩ := newId_spec hA hk3
      have t1 : m.view.tri ((k1 : Int), (k2 : Int), (k3 : Int)) =
          some ⟨m.kern.verts[k1], m.kern.verts[k2], m.kern.verts[k3]⟩ := by
        simp [AMesh.tri, hk1, hk2, hk3]
      have t2 : M.view.tri (mapCorners (fun i => newId al i.toNat) ((k1 : Int), (k2 : Int), (k3 : Int))) =
          some ⟨q1, q2, q3⟩ := by
        have hMv : M.view.points = keptPts m.kern.verts al m.kern.verts.length := rfl
        simp [AMesh.tri, mapCorners, e1, e2, e3, hMv, g1, g2, g3, -view_points]
      simp only [List.map_cons, List.filterMap_cons, t1, t2]
      exact List.Forall₂.cons ⟨d1.imp_right nearTol_iff.1, d2.imp_right nearTol_iff.1, d3.imp_right nearTol_iff.1⟩ (ih (fun f hf => hval f (by simp [hf])))

/-- **C20** `merge_vertices` keeps the number and order of the linked triangles
(all triangles of the result are linked), keeps ids valid, never adds vertices
(the result's vertices are a subsequence of the input's) and keeps the colour. -/
theorem merge_keeps_triangles (m : Mesh K) (hm : m.OK) (tol : K) :
    ∃ r, mergeVertices m tol = some r ∧ r.OK ∧
      r.nbTriangles = m.triangles.length ∧
      (∀ i, 0 ≤ i → i < r.nbTriangles → r.isTriangleUnlinked i = some false) ∧
      r.triangles.length = m.triangles.length ∧
      r.nbVertices ≤ m.nbVertices ∧
      r.view.points.Sublist m.view.points ∧
      r.getColor = m.getColor := by
  obtain ⟨r, hr, _, _, h3⟩ := merge_respects_tolerance 0 m hm tol
  obtain ⟨al, hA, h⟩ := mergeVertices_eq 0 hm tol
  have hval : ∀ f ∈ m.view.linkedCorners, CornersIn m.kern.verts.length f :=
    linkedCorners_valid ((ok_iff m).1 hm).valid
  have hlen : m.triangles.length = m.view.linkedCorners.length := by
    rw [triangles_eq]
    unfold soup
    generalize m.view.linkedCorners = l at hval
    induction l with
    | nil => rfl
    | cons f l ih =>
      obtain ⟨t, ht⟩ := AMesh.tri_isSome (a := m.view) (f := f) (hval f (by simp))
      have ih := ih (fun f hf => hval f (by simp [hf]))
      simp only [List.filterMap_cons, show m.view.tri f = some t from ht, List.length_cons, ih]
  have hsub := keptPts_sublist m.kern.verts al hA.len m.kern.verts.length
  have hr' := hr
  rw [h, Option.some.injEq] at hr'
  refine ⟨r, hr, ?_, ?_, ?_, h3.length_eq.symm, ?_, ?_, ?_⟩
  · rw [← hr']
    refine ((clear_ok m).pushPts _).pushTris ?_
    intro f hf
    obtain ⟨f, hf', rfl⟩ := List.mem_map.1 hf
    obtain ⟨c1, c2, c3⟩ := hval f hf'
    obtain ⟨f1, f2, f3⟩ := f
    obtain ⟨k1, rfl, hk1⟩ := c1.exists
    obtain ⟨k2, rfl, hk2⟩ := c2.exists
    obtain ⟨k3, rfl, hk3⟩ := c3.exists
    obtain ⟨j1, e1, l1, -⟩ := newId_spec hA hk1
    obtain ⟨j2, e2, l2, -⟩ := newId_spec hA hk2
    obtain ⟨j3, e3, l3, -⟩ := newId_spec hA hk3
    simp only [mapCorners, Int.toNat_natCast, e1, e2, e3]
    exact ⟨inRange_natCast.2 l1, inRange_natCast.2 l2, inRange_natCast.2 l3⟩
  · rw [← hr', hlen]
    simp [Mesh.nbTriangles, KernLT.nbTriangles, pushTris, Mesh.clear, KernLT.clear]
  · intro i h1 h2
    lift i to Nat using h1
    rw [← hr'] at h2 ⊢
    have hi : i < m.view.linkedCorners.length := by
      simp only [Mesh.nbTriangles, KernLT.nbTriangles, pushTris, Mesh.clear, KernLT.clear,
        pushPts_tris, List.nil_append, List.length_map] at h2
      omega
    rw [(answers_view _).unlinked, view_pushTris, getI_natCast]
    have : (m.clear.pushPts (keptPts m.kern.verts al m.kern.verts.length)).view.faces = [] := rfl
    rw [this]
    simp [hi]
  · rw [← hr']
    have := hsub.length_le
    simp only [Mesh.nbVertices, KernLT.nbVertices, pushTris_verts, pushPts_verts, Mesh.clear,
      KernLT.clear, List.nil_append]
    omega
  · rw [← hr']; exact hsub
  · rw [← hr']; rfl

/-- when no two points are near, nothing is an alias -/
theorem alias_trivial {ps : List (P3 K)} {tol : K} {al : List Int} (h : AliasOK ps (nearTol tol) al)
    (hap : ∀ (i j : Nat) (p q : P3 K), i ≠ j → ps[i]? = some p → ps[j]? = some q →
      tol * tol ≤ p.distSq q) :
    keptPts ps al ps.length = ps ∧ ∀ k < ps.length, newId al k = k := by
  have hm1 : ∀ k < ps.length, al[k]? = some (-1) := by
    intro k hk
    obtain ⟨a, ha, (⟨rfl, _⟩ | ⟨j, hj, _, _, p, q, hp, hq, hd⟩)⟩ := h.at' k hk
    · exact ha
    · exact absurd (nearTol_iff.1 hd) (not_lt.2 (hap k j p q (by omega) hp hq))
  have hcnt : ∀ k ≤ ps.length, cnt al k = k := by
    intro k hk
    induction k with
    | zero => rfl
    | succ k ih =>
      have h1 := hm1 k (by omega)
      rw [List.getElem?_eq_getElem (by have := h.len; omega)] at h1
      rw [cnt_succ (by have := h.len; omega), ih (by omega), if_pos (by simpa using h1)]
  constructor
  · apply (keptPts_sublist ps al h.len ps.length).eq_of_length
    rw [keptPts_length h.len le_rfl, hcnt _ le_rfl]
  · intro k hk
    simp only [newId, hm1 k hk, if_true, hcnt k hk.le]

/-- merging a mesh whose vertices are far apart only drops unlinked triangles -/
theorem merge_far (m : Mesh K) (hm : m.OK) (tol : K)
    (hap : ∀ i j p q, i ≠ j → m.getVertex i = some p → m.getVertex j = some q →
      tol * tol ≤ p.distSq q) :
    mergeVertices m tol =
      some ((m.clear.pushPts m.kern.verts).pushTris m.view.linkedCorners) := by
  obtain ⟨al, hA, h⟩ := mergeVertices_eq 0 hm tol
  have hval : ∀ f ∈ m.view.linkedCorners, CornersIn m.kern.verts.length f :=
    linkedCorners_valid ((ok_iff m).1 hm).valid
  obtain ⟨h1, h2⟩ := alias_trivial hA (fun i j p q hij hp hq => hap i j p q (by simpa using hij)
    (by rw [(answers_view m).getVertex, getI_natCast]; exact hp)
    (by rw [(answers_view m).getVertex, getI_natCast]; exact hq))
  unfold mergeVertices
  rw [h, h1]
  congr 2
  have : ∀ f ∈ m.view.linkedCorners, mapCorners (fun i => newId al i.toNat) f = f := by
    intro f hf
    obtain ⟨f1, f2, f3⟩ := f
    obtain ⟨c1, c2, c3⟩ := hval _ hf
    obtain ⟨k1, rfl, hk1⟩ := c1.exists
    obtain ⟨k2, rfl, hk2⟩ := c2.exists
    obtain ⟨k3, rfl, hk3⟩ := c3.exists
    simp only [mapCorners, Int.toNat_natCast, h2 _ hk1, h2 _ hk2, h2 _ hk3]
  conv_rhs => rw [← List.map_id m.view.linkedCorners]
  exact List.map_congr_left this

/-- **C20** a second `merge_vertices` with the same tolerance changes nothing -/
theorem merge_idempotent (m r : Mesh K) (hm : m.OK) (tol : K) (h : mergeVertices m tol = some r) :
    mergeVertices r tol = some r := by
  obtain ⟨r', hr', hok, -⟩ := merge_keeps_triangles m hm tol
  rw [h, Option.some.injEq] at hr'
  subst hr'
  obtain ⟨r', hr', hap, -⟩ := merge_respects_tolerance 0 m hm tol
  have e : r' = r := by
    have : mergeVerticesJunk 0 m tol = some r := h
    rw [this, Option.some.injEq] at hr'
    exact hr'.symm
  subst e
  rw [merge_far r' hok tol hap]
  obtain ⟨al, hA, h'⟩ := mergeVertices_eq 0 hm tol
  rw [hr', Option.some.injEq] at h'
  subst h'
  congr 1
  set fs := m.view.linkedCorners.map (mapCorners fun i => newId al i.toNat) with hfs
  have hlc : ((m.clear.pushPts (keptPts m.kern.verts al m.kern.verts.length)).pushTris
      fs).view.linkedCorners = fs := by
    unfold AMesh.linkedCorners
    rw [view_pushTris]
    have : (m.clear.pushPts (keptPts m.kern.verts al m.kern.verts.length)).view.faces = [] := rfl
    rw [this, List.nil_append, List.filter_map]
    simp only [Function.comp_def, List.filter_true, List.map_map, List.map_id']
  rw [hlc]
  simp [pushTris, pushPts, Mesh.clear, KernLT.clear]

/-- **C20** with tolerance 0 no vertex changes and the linked triangles are the same -/
theorem merge_zero (m : Mesh K) (hm : m.OK) :
    ∃ r, mergeVertices m 0 = some r ∧ (∀ i, r.getVertex i = m.getVertex i) ∧
      r.triangles = m.triangles := by
  have h := merge_far m hm 0 (fun i j p q _ _ _ => by
    rw [mul_zero]; exact P3.distSq_nonneg p q)
  refine ⟨_, h, ?_, ?_⟩
  · intro i
    rw [(answers_view _).getVertex, (answers_view m).getVertex]; rfl
  · rw [triangles_eq, triangles_eq, soup_pushTris]
    rfl

/-- A concrete mesh with two near vertices and an unlinked triangle. -/
def nearOps : List (MOp ℚ) :=
  [.addTrianglePts ⟨0, 0, 0⟩ ⟨1, 0, 0⟩ ⟨0, 1, 0⟩, .addTrianglePts ⟨1, 1 / 100, 0⟩ ⟨1, 1, 0⟩ ⟨0, 1, 0⟩,
    .unlinkTriangle 0, .flipTriangle 1]

example : ((Mesh.run nearOps).bind fun r => (mergeVertices r.1 (1 / 10)).map fun m =>
    (m.nbVertices, m.nbTriangles, m.getTriangleVertices 0)) = some (4, 1, some (1, 2, 3)) := by
  decide +kernel

/-- all three edges are at least `tol` long -/
def LongEdges (tol : K) (t : Tri3 K) : Prop :=
  tol * tol ≤ t.p1.distSq t.p2 ∧ tol * tol ≤ t.p2.distSq t.p3 ∧ tol * tol ≤ t.p3.distSq t.p1

/-- **C21** `remove_empty_triangles` unlinks exactly the linked triangles with an
edge shorter than `tol`; nothing else changes; a second call changes nothing. -/
theorem remove_empty_exact (m : Mesh K) (hm : m.OK) (tol : K) :
    ∃ r, removeEmptyTriangles m tol = some r ∧ r.OK ∧
      r.nbVertices = m.nbVertices ∧ (∀ i, r.getVertex i = m.getVertex i) ∧
      r.nbTriangles = m.nbTriangles ∧
      (∀ i, r.getTriangleVertices i = m.getTriangleVertices i) ∧
      r.getColor = m.getColor ∧
      (∀ i t, m.getTriangle i = some t → (r.isTriangleUnlinked i = some false ↔
        m.isTriangleUnlinked i = some false ∧ LongEdges tol t)) ∧
      removeEmptyTriangles r tol = some r := by
  classical
  have hok := (ok_iff m).1 hm
  have hN : m.nbTriangles.toNat = m.view.faces.length := by
    rw [(answers_view m).nbTriangles]; simp
  let body : Nat → Mesh K → Res (Mesh K) := fun i m => do
    let u ← m.isTriangleUnlinked i
    if u then return m
    let t ← m.getTriangle i
    if (t.p1 - t.p2).normSq < tol * tol then m.unlinkTriangle i
    else if (t.p2 - t.p3).normSq < tol * tol then m.unlinkTriangle i
    else if (t.p3 - t.p1).normSq < tol * tol then m.unlinkTriangle i
    else return m
  have hbody : ∀ (i : Nat) (s : Mesh K) (f : AFace) (t : Tri3 K), s.OK → s.view.faces[i]? = some f →
      s.view.tri f.corners = some t → body i s = some (if f.linked = true ∧ ¬ LongEdges tol t then s.unl i else s) := by
    intro i s f t hs hf ht
    have hu : s.isTriangleUnlinked i = some (!f.linked) := by
      rw [(answers_view s).unlinked]; simp [hf]
    have hg : s.getTriangle i = some t := by rw [getTriangle_eq]; simp [hf, ht]
    have hunl : s.unlinkTriangle i = some (s.unl i) := by
      rw [unlinkTriangle_eq s ((ok_iff s).1 hs).near, if_pos]
      · simp
      · rw [inRange_natCast]; have := (List.getElem?_eq_some_iff.1 hf).1; simpa using this
    simp only [body, hu, hg, hunl, Option.bind_eq_bind, Option.bind_some]
    cases hl : f.linked
    · simp
    · simp only [Bool.not_true, Bool.false_eq_true, if_false, true_and, LongEdges, P3.distSq_eq]
      by_cases h1 : (t.p1 - t.p2).normSq < tol * tol
      · simp [h1, not_le.2 h1]
      · by_cases h2 : (t.p2 - t.p3).normSq < tol * tol
        · simp [h1, h2, not_le.2 h2]
        · by_cases h3 : (t.p3 - t.p1).normSq < tol * tol
          · simp [h1, h2, h3, not_le.2 h3]
          · simp [h1, h2, h3, not_lt.1 h1, not_lt.1 h2, not_lt.1 h3]
  have htri : ∀ f ∈ m.view.faces, ∃ t, m.view.tri f.corners = some t := fun f hf =>
    AMesh.tri_isSome (hok.valid f hf)
  -- the processed face
  let proc : AFace → AFace := fun f =>
    if f.linked = true ∧ ∃ t, m.view.tri f.corners = some t ∧ ¬ LongEdges tol t then
      { f with linked := false } else f
  have hproc : ∀ f, (proc f).corners = f.corners := by
    intro f; simp only [proc]; split <;> rfl
  obtain ⟨r, h1, h2, h3, h4, h5⟩ := loopN_inv (n := m.view.faces.length) (s := m) (f := body)
    (fun i s => s.OK ∧ s.view.points = m.view.points ∧ s.view.color = m.view.color ∧
      ∀ k, s.view.faces[k]? = if k < i then (m.view.faces[k]?).map proc else m.view.faces[k]?)
    ⟨hm, rfl, rfl, by simp⟩ (by
      rintro i hi s ⟨hs, hp, hc, hf⟩
      have hfi : s.view.faces[i]? = some m.view.faces[i] := by
        rw [hf i]; simp
      obtain ⟨t, ht⟩ := htri _ (List.getElem_mem hi)
      have ht' : s.view.tri m.view.faces[i].corners = some t := by
        rw [← ht]; unfold AMesh.tri; rw [hp]
      rw [hbody i s _ t hs hfi ht']
      by_cases hcond : m.view.faces[i].linked = true ∧ ¬ LongEdges tol t
      · rw [if_pos hcond]
        refine ⟨_, rfl, hs.unl i, by rw [view_unl]; exact hp, by rw [view_unl]; exact hc, ?_⟩
        intro k
        rw [view_unl]
        simp only [List.getElem?_modify]
        by_cases hk : i = k
        · subst hk
          have : proc m.view.faces[i] = { m.view.faces[i] with linked := false } := by
            simp only [proc]; rw [if_pos ⟨hcond.1, t, ht, hcond.2⟩]
          rw [hfi, if_pos (by omega), List.getElem?_eq_getElem hi]
          simp only [Option.map_some, this, if_true]
          rfl
        · rw [hf k]
          by_cases hlt : k < i
          · rw [if_pos hlt, if_pos (by omega)]
            cases m.view.faces[k]? <;> simp [hk]
          · rw [if_neg hlt, if_neg (by omega)]
            cases m.view.faces[k]? <;> simp [hk]
      · rw [if_neg hcond]
        refine ⟨s, rfl, hs, hp, hc, fun k => ?_⟩
        rw [hf k]
        by_cases hk : k = i
        · subst hk
          have : proc m.view.faces[k] = m.view.faces[k] := by
            simp only [proc]
            rw [if_neg]
            rintro ⟨ha, t', ht'', hb⟩
            rw [ht, Option.some.injEq] at ht''
            subst ht''
            exact hcond ⟨ha, hb⟩
          rw [if_neg (by omega), if_pos (by omega), List.getElem?_eq_getElem hi, Option.map_some, this]
        · by_cases hlt : k < i
          · rw [if_pos hlt, if_pos (by omega)]
          · rw [if_neg hlt, if_neg (by omega)])
  have h5' : r.view.faces = m.view.faces.map proc := by
    apply List.ext_getElem?
    intro k
    rw [h5 k, List.getElem?_map]
    split
    · rfl
    · rw [List.getElem?_eq_none (by omega)]; rfl
  have hr : removeEmptyTriangles m tol = some r := by
    unfold removeEmptyTriangles; rw [hN]; exact h1
  refine ⟨r, hr, h2, ?_, ?_, ?_, ?_, h4, ?_, ?_⟩
  · rw [(answers_view r).nbVertices, (answers_view m).nbVertices, h3]
  · intro i; rw [(answers_view r).getVertex, (answers_view m).getVertex, h3]
  · rw [(answers_view r).nbTriangles, (answers_view m).nbTriangles, h5']; simp
  · intro i
    rw [(answers_view r).corners, (answers_view m).corners, h5', getI_map]
    cases getI m.view.faces i <;> simp [hproc]
  · intro i t ht
    rw [(answers_view r).unlinked, (answers_view m).unlinked, h5', getI_map]
    rw [getTriangle_eq] at ht
    obtain ⟨f, hf, ht⟩ := Option.bind_eq_some_iff.1 ht
    rw [hf]
    simp only [Option.map_some, Option.some.injEq, proc, ht, exists_eq_left']
    by_cases hl : f.linked = true ∧ ¬ LongEdges tol t
    · rw [if_pos hl]; simp [hl.2]
    · rw [if_neg hl]
      cases hk : f.linked
      · simp
      · simp only [hk, true_and, not_not] at hl; simp [hl]
  · have hN' : r.nbTriangles.toNat = m.view.faces.length := by
      rw [(answers_view r).nbTriangles, h5']; simp
    obtain ⟨r', e1, e2⟩ := loopN_inv (n := m.view.faces.length) (s := r) (f := body)
      (fun _ s => s = r) rfl (by
        rintro i hi s rfl
        obtain ⟨t, ht⟩ := htri _ (List.getElem_mem hi)
        have hfi : s.view.faces[i]? = some (proc m.view.faces[i]) := by
          rw [h5', List.getElem?_map, List.getElem?_eq_getElem hi, Option.map_some]
        have ht' : s.view.tri (proc m.view.faces[i]).corners = some t := by
          rw [hproc, ← ht]; unfold AMesh.tri; rw [h3]
        refine ⟨s, ?_, rfl⟩
        rw [hbody i s _ t h2 hfi ht', if_neg]
        rintro ⟨ha, hb⟩
        simp only [proc, ht, Option.some.injEq, exists_eq_left'] at ha
        split at ha
        · simp at ha
        · rename_i hn; exact hn ⟨ha, hb⟩)
    subst e2
    unfold removeEmptyTriangles; rw [hN']; exact e1

example : ((Mesh.run nearOps).bind fun r => (removeEmptyTriangles r.1 (11 / 10)).map fun m =>
    (m.isTriangleUnlinked 1, m.isTriangleUnlinked 2)) = some (some true, some true) := by
  decide +kernel

end MeshUtil
end CAD
