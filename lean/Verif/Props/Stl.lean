import Verif.Lemmas.Topology
import Verif.Model.Stl
import Verif.Lemmas.Bytes
import Verif.Lemmas.Build
import Mathlib.Tactic.Ring
import Mathlib.Tactic.Linarith
import Mathlib.Tactic.IntervalCases

/-! STL files: C62, C63. -/

namespace CAD
set_option linter.unusedSimpArgs false

namespace Stl
variable {K : Type}

/-! ### writing -/

theorem save_eq (enc : K → List Byte) {m : Mesh K} (hm : m.OK) :
    save enc m = some (List.replicate 80 0 ++ le32 (m.triangles.length : Int) ++ m.triangles.flatMap (facet enc)) := by
  unfold save
  rw [Mesh.loop_soup hm _ (fun _ (n : Int) => some (n + 1)) (fun i s hu => by simp [hu]) (fun i t s hu ht => by simp [hu])]
  have h1 : ∀ (l : List (Tri3 K)) (n : Int), l.foldlM (fun n (_ : Tri3 K) => (some (n + 1) : Res Int)) n = some (n + l.length) := by
    intro l
    induction l with
    | nil => simp
    | cons t l ih =>
      intro n
      rw [List.foldlM_cons]
      simp only [Option.bind_eq_bind, Option.bind_some, ih, List.length_cons]
      congr 1
      push_cast
      ring
  rw [h1]
  simp only [Option.bind_eq_bind, Option.bind_some]
  rw [Mesh.loop_soup hm _ (fun t out => some (out ++ facet enc t)) (fun i s hu => by simp [hu])
    (fun i t s hu ht => by simp [hu, ht])]
  have h2 : ∀ (l : List (Tri3 K)) (o : List Byte), l.foldlM (fun o t => (some (o ++ facet enc t) : Res (List Byte))) o =
      some (o ++ l.flatMap (facet enc)) := by
    intro l
    induction l with
    | nil => simp
    | cons t l ih =>
      intro o
      rw [List.foldlM_cons]
      simp only [Option.bind_eq_bind, Option.bind_some, ih, List.flatMap_cons, List.append_assoc]
  rw [h2, zero_add]

theorem length_facet {enc : K → List Byte} (he : ∀ x, (enc x).length = 4) (t : Tri3 K) : (facet enc t).length = 50 := by
  simp [facet, coords, he]

/-- C62.  The file has 84 bytes and 50 for each linked triangle. -/
theorem stl_length {enc : K → List Byte} (he : ∀ x, (enc x).length = 4) {m : Mesh K} (hm : m.OK) :
    ∃ bytes, save enc m = some bytes ∧ bytes.length = 84 + 50 * m.triangles.length := by
  refine ⟨_, save_eq enc hm, ?_⟩
  have : ∀ l : List (Tri3 K), (l.flatMap (facet enc)).length = 50 * l.length := by
    intro l
    induction l with
    | nil => rfl
    | cons t l ih => rw [List.flatMap_cons, List.length_append, ih, length_facet he, List.length_cons]; ring
  simp only [List.length_append, this, List.length_replicate, length_le32]

/-! ### reading -/

theorem skipVar_append (n : Nat) (a rest : List Byte) (h : a.length = 4 * n) :
    skipVar n ⟨a ++ rest, true⟩ = some ⟨rest, true⟩ := by
  obtain ⟨s, e, hs⟩ := loopN_inv (n := n) (s := (⟨a ++ rest, true⟩ : IStream)) (f := fun _ s => do
      let (s, _) ← s.read 4 [0, 0, 0, 0]
      return s) (fun i s => s = ⟨a.drop (4 * i) ++ rest, true⟩) (by simp) (by
    rintro i hi s rfl
    refine ⟨_, ?_, rfl⟩
    have hd : a.drop (4 * i) = (a.drop (4 * i)).take 4 ++ a.drop (4 * (i + 1)) := by
      conv_lhs => rw [← List.take_append_drop 4 (a.drop (4 * i))]
      rw [List.drop_drop]
      congr 2
    have hl : ((a.drop (4 * i)).take 4).length = 4 := by
      rw [List.length_take, List.length_drop]; omega
    conv_lhs => rw [hd, List.append_assoc]
    rw [IStream.read_append _ _ _ 4 (by rw [hl]; rfl) (by rw [hl]; simp)]
    rfl)
  unfold skipVar
  rw [e, hs, List.drop_eq_nil_of_le (by omega)]
  rfl

theorem readVars_append {enc : K → List Byte} (he : ∀ x, (enc x).length = 4) (xs : List K) (rest : List Byte) :
    ∀ v : List (List Byte), v.length = xs.length → (∀ b ∈ v, b.length = 4) →
      readVars v ⟨xs.flatMap enc ++ rest, true⟩ = some (⟨rest, true⟩, xs.map enc) := by
  induction xs with
  | nil =>
    intro v hv _
    rw [List.length_eq_zero_iff.1 hv]
    rfl
  | cons x xs ih =>
    intro v hv hb
    cases v with
    | nil => simp at hv
    | cons b v =>
      have hb4 : b.length = 4 := hb b (by simp)
      unfold readVars
      rw [List.flatMap_cons, List.append_assoc, IStream.read_append _ _ _ 4 (by rw [he]; rfl) (by rw [he, hb4])]
      simp only [Option.bind_eq_bind, Option.bind_some]
      rw [ih v (by simpa using hv) (fun b h => hb b (by simp [h]))]
      simp only [Option.bind_some, Option.pure_def, Option.some.injEq, Prod.mk.injEq, true_and, List.map_cons, List.cons.injEq]
      refine ⟨?_, trivial⟩
      rw [List.drop_eq_nil_of_le (by rw [he, hb4]), List.append_nil]

theorem readVars_some : ∀ (v : List (List Byte)) (s : IStream), (∀ b ∈ v, b.length = 4) →
    ∃ s' v', readVars v s = some (s', v') ∧ v'.length = v.length ∧ ∀ b ∈ v', b.length = 4 := by
  intro v
  induction v with
  | nil => intro s _; exact ⟨s, [], rfl, rfl, by simp⟩
  | cons b v ih =>
    intro s h
    obtain ⟨s1, b1, e1, h1⟩ := IStream.read_some s b 4 (by rw [h b (by simp)]; norm_num)
    obtain ⟨s2, v2, e2, h2, h3⟩ := ih s1 (fun b hb => h b (by simp [hb]))
    refine ⟨s2, b1 :: v2, ?_, by simp [h2], ?_⟩
    · unfold readVars
      rw [e1]
      simp only [Option.bind_eq_bind, Option.bind_some]
      rw [e2]
      rfl
    · intro x hx
      rcases List.mem_cons.1 hx with rfl | hx
      · rw [h1, h b (by simp)]
      · exact h3 x hx

theorem skipVar_some (n : Nat) (s : IStream) : ∃ s', skipVar n s = some s' := by
  obtain ⟨s', e, -⟩ := loopN_inv (n := n) (s := s) (f := fun _ s => do
      let (s, _) ← s.read 4 [0, 0, 0, 0]
      return s) (fun _ _ => True) trivial (by
    rintro i hi s -
    obtain ⟨s1, b1, e1, -⟩ := IStream.read_some s [0, 0, 0, 0] 4 (by norm_num)
    exact ⟨s1, by simp only [e1, Option.bind_eq_bind, Option.bind_some]; rfl, trivial⟩)
  exact ⟨s', e⟩

theorem addFacet_eq (m : Mesh K) (t : Tri3 K) (h : m.nbVertices + 3 ≤ 2147483647) :
    addFacet m t = some (m.addSoup [t]) := by
  have h0 : m.nbVertices = m.kern.verts.length := rfl
  have e := Mesh.addTrianglePts_soup m t.p1 t.p2 t.p3
  unfold Mesh.addTrianglePts at e
  unfold addFacet
  simp only [Mesh.addVertex_eq] at e ⊢
  have hn : ((((m.pushPts [t.p1]).pushPts [t.p2]).pushPts [t.p3]).nbVertices) = m.nbVertices + 3 := by
    simp [Mesh.nbVertices, KernLT.nbVertices, Mesh.pushPts]
  rw [hn, int32_bind (by omega) h]
  simp only [Mesh.pushPts_verts, List.length_append, List.length_cons, List.length_nil, zero_add] at e
  rw [show m.nbVertices + 3 - 3 = (m.kern.verts.length : Int) by omega,
    show m.nbVertices + 3 - 2 = ((m.kern.verts.length + 1 : Nat) : Int) by omega,
    show m.nbVertices + 3 - 1 = ((m.kern.verts.length + 1 + 1 : Nat) : Int) by omega, e]
  rfl

theorem addFacet_none (m : Mesh K) (t : Tri3 K) (h : 2147483647 < m.nbVertices + 3) : addFacet m t = none := by
  unfold addFacet
  simp only [Mesh.addVertex_eq]
  have hn : ((((m.pushPts [t.p1]).pushPts [t.p2]).pushPts [t.p3]).nbVertices) = m.nbVertices + 3 := by
    simp [Mesh.nbVertices, KernLT.nbVertices, Mesh.pushPts]
  rw [hn]
  have : int32 (m.nbVertices + 3) = none := by
    unfold int32
    rw [if_neg (by omega)]
  rw [this]
  rfl

/-- what a coordinate becomes on its way through the file -/
def throughFile (enc : K → List Byte) (dec : List Byte → K) (p : P3 K) : P3 K :=
  ⟨dec (enc p.x), dec (enc p.y), dec (enc p.z)⟩

theorem readFacet_eq {enc : K → List Byte} (he : ∀ x, (enc x).length = 4) (dec : List Byte → K) (t : Tri3 K) (rest : List Byte)
    (v : List (List Byte)) (hv : v.length = 9) (hb : ∀ b ∈ v, b.length = 4) (m : Mesh K) (h : m.nbVertices + 3 ≤ 2147483647) :
    readFacet dec (⟨facet enc t ++ rest, true⟩, v, m) =
      some (⟨rest, true⟩, (coords t).map enc, m.addSoup [t.map (throughFile enc dec)]) := by
  unfold readFacet facet
  simp only
  rw [List.append_assoc, List.append_assoc, skipVar_append 3 _ _ (by simp)]
  simp only [Option.bind_eq_bind, Option.bind_some]
  rw [readVars_append he (coords t) _ v (by rw [hv]; rfl) hb]
  simp only [Option.bind_eq_bind, Option.bind_some]
  rw [IStream.read_append _ _ _ 2 (by rfl) (by simp)]
  simp only [Option.bind_eq_bind, Option.bind_some]
  rw [show corners dec ((coords t).map enc) = t.map (throughFile enc dec) from rfl, addFacet_eq m _ h]
  rfl

theorem facets_cons (dec : List Byte → K) (n : Nat) (r) :
    loopN (n + 1) (fun _ st => readFacet dec st) r = (readFacet dec r).bind (loopN n fun _ st => readFacet dec st) := by
  unfold loopN
  rw [List.range_succ_eq_map, List.foldlM_cons]
  congr 1
  funext st
  rw [List.foldlM_map]

theorem nbVertices_addSoup' (m : Mesh K) (ts) : (m.clear.addSoup ts).nbVertices = 3 * (ts.length : Int) := by
  rw [Mesh.nbVertices_addSoup]
  have : m.clear.nbVertices = 0 := rfl
  rw [this]; ring

/-- C62.  A mesh saved as STL and loaded again (into any mesh) is the list of its linked
triangles in the same order, with the coordinates rounded by the conversion to `float`;
each loaded triangle has its own three vertices, all are linked, and there are no other vertices. -/
theorem stl_roundtrip {enc : K → List Byte} (he : ∀ x, (enc x).length = 4) (dec : List Byte → K) {m : Mesh K} (hm : m.OK)
    (hn : 3 * m.triangles.length ≤ 2147483647) :
    ∃ bytes, save enc m = some bytes ∧ ∀ m0 : Mesh K, ∃ m', load dec (some bytes) m0 = some (true, m') ∧ m'.OK ∧
      m'.triangles = m.triangles.map (Tri3.map (throughFile enc dec)) ∧
      m'.nbTriangles = m.triangles.length ∧ m'.nbVertices = 3 * m.triangles.length ∧
      (∀ i p, m'.getVertex i = some p → ∃ t ∈ m'.triangles, p = t.p1 ∨ p = t.p2 ∨ p = t.p3) ∧
      m'.cornerList = (List.range m.triangles.length).map (fun (k : Nat) => (3 * (k : Int), 3 * (k : Int) + 1, 3 * (k : Int) + 2)) := by
  refine ⟨_, save_eq enc hm, fun m0 => ?_⟩
  refine ⟨m0.clear.addSoup (m.triangles.map (Tri3.map (throughFile enc dec))), ?_, (Mesh.clear_ok m0).addSoup _, ?_, ?_, ?_, ?_, ?_⟩
  · unfold load loadFrom
    simp only
    rw [List.append_assoc, skipVar_append 20 _ _ (by simp)]
    simp only [Option.bind_eq_bind, Option.bind_some]
    rw [IStream.read_append _ _ _ 4 (by simp) (by simp)]
    simp only [Option.bind_eq_bind, Option.bind_some, length_le32]
    rw [show List.drop 4 ([0, 0, 0, 0] : List Byte) = [] from rfl, List.append_nil,
      dec32_le32 (by omega) (by omega), Int.toNat_natCast]
    have key : ∀ (ts : List (Tri3 K)) (us : List (Tri3 K)) (v : List (List Byte)), v.length = 9 → (∀ b ∈ v, b.length = 4) →
        3 * (ts.length + us.length) ≤ 2147483647 → ∃ v',
        loopN ts.length (fun _ st => readFacet dec st) (⟨ts.flatMap (facet enc), true⟩, v, m0.clear.addSoup us) =
          some (⟨[], true⟩, v', m0.clear.addSoup (us ++ ts.map (Tri3.map (throughFile enc dec)))) := by
      intro ts
      induction ts with
      | nil =>
        intro us v _ _ _
        exact ⟨v, by simp [loopN_zero]⟩
      | cons t ts ih =>
        intro us v hv hb hl
        obtain ⟨v', hv'⟩ := ih (us ++ [t.map (throughFile enc dec)]) ((coords t).map enc) rfl (by
          intro b hb
          obtain ⟨x, -, rfl⟩ := List.mem_map.1 hb
          exact he x) (by simp only [List.length_append, List.length_cons, List.length_nil] at hl ⊢; omega)
        refine ⟨v', ?_⟩
        have hb2 : (m0.clear.addSoup us).nbVertices + 3 ≤ 2147483647 := by
          rw [nbVertices_addSoup']; simp only [List.length_cons] at hl; omega
        rw [List.length_cons, facets_cons, List.flatMap_cons, readFacet_eq he dec t _ v hv hb _ hb2, Option.bind_some,
          Mesh.addSoup_append, hv', List.append_assoc]
        rfl
    obtain ⟨v', hv'⟩ := key m.triangles [] (List.replicate 9 [0, 0, 0, 0]) rfl (by
      intro b hb
      rw [List.eq_of_mem_replicate hb]
      rfl) (by simpa using hn)
    rw [Mesh.addSoup_nil] at hv'
    rw [hv']
    rfl
  · rw [Mesh.triangles_eq, Mesh.soup_addSoup (Mesh.clear_ok m0), Mesh.clear_soup, List.nil_append]
  · rw [Mesh.nbTriangles_addSoup]
    simp [show m0.clear.nbTriangles = 0 from rfl]
  · rw [nbVertices_addSoup']
    simp
  · intro i p hp
    rw [Mesh.triangles_eq, Mesh.soup_addSoup (Mesh.clear_ok m0), Mesh.clear_soup, List.nil_append]
    rw [(Mesh.answers_view _).getVertex] at hp
    have hv : (m0.clear.addSoup (m.triangles.map (Tri3.map (throughFile enc dec)))).view.points =
        (m.triangles.map (Tri3.map (throughFile enc dec))).flatMap Tri3.pts := rfl
    rw [hv] at hp
    obtain ⟨k, -, hk⟩ := getI_eq_some_iff.1 hp
    obtain ⟨t, ht, hpt⟩ := List.mem_flatMap.1 (List.mem_of_getElem? hk)
    exact ⟨t, ht, by simpa [Tri3.pts] using hpt⟩
  · have hb : m0.clear.addSoup (m.triangles.map (Tri3.map (throughFile enc dec))) =
        m0.build ((m.triangles.map (Tri3.map (throughFile enc dec))).flatMap Tri3.pts)
          (freshCorners 0 (m.triangles.map (Tri3.map (throughFile enc dec))).length) := rfl
    rw [hb, Mesh.build_cornerList, List.length_map]
    unfold freshCorners
    apply List.map_congr_left
    intro k _
    simp

/-- C62.  When every coordinate is a `float` value the triangles come back exactly; so do all
quantities computed from the triangles. -/
theorem stl_roundtrip_exact {enc : K → List Byte} (he : ∀ x, (enc x).length = 4) {dec : List Byte → K} {m : Mesh K} (hm : m.OK)
    (hn : 3 * m.triangles.length ≤ 2147483647)
    (hf : ∀ t ∈ m.triangles, ∀ x ∈ coords t, dec (enc x) = x) :
    ∃ bytes, save enc m = some bytes ∧ ∀ m0 : Mesh K, ∃ m', load dec (some bytes) m0 = some (true, m') ∧ m'.OK ∧
      m'.triangles = m.triangles := by
  obtain ⟨bytes, e, h⟩ := stl_roundtrip he dec hm hn
  refine ⟨bytes, e, fun m0 => ?_⟩
  obtain ⟨m', e', hok, ht, -, -⟩ := h m0
  refine ⟨m', e', hok, ?_⟩
  rw [ht]
  conv_rhs => rw [← List.map_id m.triangles]
  apply List.map_congr_left
  rintro ⟨⟨a, b, c⟩, ⟨d, e, f⟩, ⟨g, h, i⟩⟩ ht
  have hx := hf _ ht
  simp only [coords, List.mem_cons, List.not_mem_nil, or_false, forall_eq_or_imp, forall_eq] at hx
  obtain ⟨h1, h2, h3, h4, h5, h6, h7, h8, h9⟩ := hx
  simp only [Tri3.map, throughFile, id, h1, h2, h3, h4, h5, h6, h7, h8, h9]

/-- C62.  Saving what was loaded gives the same file again. -/
theorem stl_resave {enc : K → List Byte} (he : ∀ x, (enc x).length = 4) {dec : List Byte → K}
    (hf : ∀ x, enc (dec (enc x)) = enc x) {m : Mesh K} (hm : m.OK) (hn : 3 * m.triangles.length ≤ 2147483647) :
    ∃ bytes, save enc m = some bytes ∧ ∀ m0 : Mesh K, ∃ m', load dec (some bytes) m0 = some (true, m') ∧
      save enc m' = some bytes := by
  obtain ⟨bytes, e, h⟩ := stl_roundtrip he dec hm hn
  refine ⟨bytes, e, fun m0 => ?_⟩
  obtain ⟨m', e', hok, ht, -, -⟩ := h m0
  refine ⟨m', e', ?_⟩
  rw [← e, save_eq enc hok, save_eq enc hm, ht, List.length_map, List.flatMap_map]
  congr 3
  funext t
  simp only [facet, coords, Tri3.map, throughFile, List.flatMap_cons, List.flatMap_nil, hf]

/-! ### any bytes -/

/-- the number of facets a file declares; missing bytes count as zero -/
def declared (bytes : List Byte) : Int :=
  dec32 ((bytes.drop 80).take 4 ++ List.replicate (4 - (bytes.length - 80)) 0)

theorem skipVar_any (n : Nat) (bytes : List Byte) :
    ∃ s, skipVar n ⟨bytes, true⟩ = some s ∧ (4 * n ≤ bytes.length → s = ⟨bytes.drop (4 * n), true⟩) ∧
      (bytes.length < 4 * n → s.ok = false) := by
  obtain ⟨s, e, h1, h2⟩ := loopN_inv (n := n) (s := (⟨bytes, true⟩ : IStream)) (f := fun _ s => do
      let (s, _) ← s.read 4 [0, 0, 0, 0]
      return s) (fun i s => (4 * i ≤ bytes.length → s = ⟨bytes.drop (4 * i), true⟩) ∧ (bytes.length < 4 * i → s.ok = false))
    ⟨fun _ => by simp, fun h => by omega⟩ (by
    rintro i hi s ⟨h1, h2⟩
    by_cases h : 4 * i ≤ bytes.length
    · rw [h1 h]
      refine ⟨⟨bytes.drop (4 * (i + 1)), decide (4 ≤ bytes.length - 4 * i)⟩, ?_, ?_, ?_⟩
      · simp [IStream.read, assert, List.drop_drop]
        ring_nf
      · intro h
        congr 1
        exact decide_eq_true (by omega)
      · intro h
        exact decide_eq_false (by omega)
    · have : s = ⟨s.rest, false⟩ := by
        rw [← h2 (by omega)]
      rw [this]
      refine ⟨⟨s.rest, false⟩, ?_, fun h => by omega, fun _ => rfl⟩
      rw [IStream.read_failed _ _ _ (by norm_num)]
      rfl)
  exact ⟨s, e, h1, h2⟩

theorem readFacet_any (dec : List Byte → K) (s : IStream) (v : List (List Byte)) (hv : v.length = 9)
    (hb : ∀ b ∈ v, b.length = 4) (m : Mesh K) :
    ∃ s' v' t, v'.length = 9 ∧ (∀ b ∈ v', b.length = 4) ∧
      readFacet dec (s, v, m) = (addFacet m t).map fun m' => (s', v', m') := by
  obtain ⟨s1, e1⟩ := skipVar_some 3 s
  obtain ⟨s2, v2, e2, h2, h3⟩ := readVars_some v s1 hb
  obtain ⟨s3, b3, e3, -⟩ := IStream.read_some s2 [0, 0, 0, 0] 2 (by norm_num)
  refine ⟨s3, v2, corners dec v2, by rw [h2, hv], h3, ?_⟩
  unfold readFacet
  simp only [e1, Option.bind_eq_bind, Option.bind_some, e2, e3]
  cases addFacet m (corners dec v2) <;> rfl

theorem loadFrom_eq (dec : List Byte → K) (bytes : List Byte) (m : Mesh K) :
    ∃ s, loadFrom dec bytes m = (loopN (declared bytes).toNat (fun _ st => readFacet dec st)
      (s, List.replicate 9 [0, 0, 0, 0], m)).map (·.2.2) := by
  obtain ⟨s, e, h1, h2⟩ := skipVar_any 20 bytes
  unfold loadFrom
  rw [e]
  simp only [Option.bind_eq_bind, Option.bind_some]
  by_cases h : 4 * 20 ≤ bytes.length
  · rw [h1 h]
    refine ⟨⟨(bytes.drop 80).drop 4, decide (4 ≤ bytes.length - 80)⟩, ?_⟩
    have : IStream.read ⟨bytes.drop (4 * 20), true⟩ 4 [0, 0, 0, 0] = some (⟨(bytes.drop 80).drop 4, decide (4 ≤ bytes.length - 80)⟩,
        (bytes.drop 80).take 4 ++ List.replicate (4 - (bytes.length - 80)) 0) := by
      simp only [IStream.read, assert, List.length_drop]
      simp
      have : ∀ k, List.drop (min 4 k) ([0, 0, 0, 0] : List Byte) = List.replicate (4 - k) 0 := by
        intro k
        by_cases hk : k < 4
        · interval_cases k <;> rfl
        · rw [show min 4 k = 4 by omega, show 4 - k = 0 by omega]
          rfl
      exact this _
    rw [this]
    simp only [Option.bind_some, declared]
    cases loopN _ _ _ <;> rfl
  · have hs : s = ⟨s.rest, false⟩ := by
      rw [← h2 (by omega)]
    rw [hs, IStream.read_failed _ _ _ (by norm_num)]
    refine ⟨⟨s.rest, false⟩, ?_⟩
    have : declared bytes = dec32 [0, 0, 0, 0] := by
      unfold declared
      rw [List.drop_eq_nil_of_le (by omega), show bytes.length - 80 = 0 by omega]
      rfl
    simp only [Option.bind_some, this]
    cases loopN _ _ _ <;> rfl

theorem facets_any (dec : List Byte → K) (m0 : Mesh K) (n : Nat) : ∀ (s : IStream) (v : List (List Byte)) (us : List (Tri3 K)),
    v.length = 9 → (∀ b ∈ v, b.length = 4) →
    (3 * (us.length + n : Int) ≤ 2147483647 → ∃ r ts, ts.length = n ∧ loopN n (fun _ st => readFacet dec st) (s, v, m0.clear.addSoup us) = some r ∧
      r.2.2 = m0.clear.addSoup (us ++ ts)) ∧
    (2147483647 < 3 * (us.length + n : Int) → 0 < n → loopN n (fun _ st => readFacet dec st) (s, v, m0.clear.addSoup us) = none) := by
  induction n with
  | zero =>
    intro s v us _ _
    exact ⟨fun _ => ⟨_, [], rfl, rfl, by simp⟩, fun _ h => by omega⟩
  | succ n ih =>
    intro s v us hv hb
    obtain ⟨s', v', t, hv', hb', e⟩ := readFacet_any dec s v hv hb (m0.clear.addSoup us)
    obtain ⟨i1, i2⟩ := ih s' v' (us ++ [t]) hv' hb'
    rw [facets_cons, e]
    constructor
    · intro h
      rw [addFacet_eq _ _ (by rw [nbVertices_addSoup']; push_cast at h; omega)]
      simp only [Option.map_some, Option.bind_some]
      rw [Mesh.addSoup_append]
      obtain ⟨r, ts, hl, e', hr⟩ := i1 (by simp only [List.length_append, List.length_cons, List.length_nil]; push_cast at h ⊢; omega)
      exact ⟨r, t :: ts, by simp [hl], e', by rw [hr]; simp⟩
    · intro h _
      by_cases h' : (m0.clear.addSoup us).nbVertices + 3 ≤ 2147483647
      · rw [addFacet_eq _ _ h']
        simp only [Option.map_some, Option.bind_some]
        rw [Mesh.addSoup_append]
        rw [nbVertices_addSoup'] at h'
        apply i2
        · simp only [List.length_append, List.length_cons, List.length_nil]; push_cast at h ⊢; omega
        · by_contra hn
          have : n = 0 := by omega
          subst this
          push_cast at h
          omega
      · rw [addFacet_none _ _ (by omega)]
        rfl

/-- C63.  Any bytes whose declared count is not absurd load, into any mesh: the result is a
consistent mesh with exactly the declared number of triangles, three vertices each.  Where
bytes are missing the values of the facet before are used again. -/
theorem stl_load_any_partial (dec : List Byte → K) (bytes : List Byte) (hn : 3 * declared bytes ≤ 2147483647) (m0 : Mesh K) :
    ∃ m', load dec (some bytes) m0 = some (true, m') ∧ m'.OK ∧ m'.triangles.length = (declared bytes).toNat ∧
      m'.nbTriangles = max 0 (declared bytes) ∧ m'.nbVertices = 3 * max 0 (declared bytes) := by
  obtain ⟨s, e⟩ := loadFrom_eq dec bytes m0.clear
  obtain ⟨r, ts, hl, e', hr⟩ := (facets_any dec m0 (declared bytes).toNat s (List.replicate 9 [0, 0, 0, 0]) [] rfl (by
      intro b hb
      rw [List.eq_of_mem_replicate hb]
      rfl)).1 (by simp; omega)
  rw [Mesh.addSoup_nil] at e'
  refine ⟨m0.clear.addSoup ts, ?_, (Mesh.clear_ok m0).addSoup _, ?_, ?_, ?_⟩
  · unfold load
    simp only [e, e', Option.map_some, Option.bind_eq_bind, Option.bind_some, hr, List.nil_append]
    rfl
  · rw [Mesh.triangles_eq, Mesh.soup_addSoup (Mesh.clear_ok m0), Mesh.clear_soup, List.nil_append, hl]
  · rw [Mesh.nbTriangles_addSoup, hl, show m0.clear.nbTriangles = 0 from rfl]
    omega
  · rw [nbVertices_addSoup', hl]
    omega

/-- C63, the limit: a file of 84 bytes can declare more triangles than vertex ids exist; the
loader does not look at the size of the file and overflows `int`. -/
theorem stl_load_overflow (dec : List Byte → K) (bytes : List Byte) (hn : 2147483647 < 3 * declared bytes) (m0 : Mesh K) :
    load dec (some bytes) m0 = none := by
  obtain ⟨s, e⟩ := loadFrom_eq dec bytes m0.clear
  have h := (facets_any dec m0 (declared bytes).toNat s (List.replicate 9 [0, 0, 0, 0]) [] rfl (by
      intro b hb
      rw [List.eq_of_mem_replicate hb]
      rfl)).2 (by simp; omega) (by omega)
  rw [Mesh.addSoup_nil] at h
  unfold load
  simp only [e, h]
  rfl

/-- C63.  A file that cannot be opened gives `false`, but the mesh has been emptied. -/
theorem stl_load_missing (dec : List Byte → K) (m0 : Mesh K) : load dec none m0 = some (false, m0.clear) ∧ m0.clear.triangles = [] :=
  ⟨rfl, by rw [Mesh.triangles_eq, Mesh.clear_soup]⟩

/-! ### concrete cases -/

/-- two triangles, one of them unlinked -/
def sample : Res (Mesh ℤ) := do
  let m := Mesh.new
  let (m, _) ← m.addTrianglePts ⟨0, 0, 0⟩ ⟨1, 0, 0⟩ ⟨0, 1, 0⟩
  let (m, _) ← m.addTrianglePts ⟨0, 0, 7⟩ ⟨1, 0, 7⟩ ⟨0, -1, 7⟩
  m.unlinkTriangle 0

example : (do let m ← sample; let b ← save le32 m; return b.length : Res Nat) = some 134 := by decide +kernel
example : (do
    let m ← sample
    let b ← save le32 m
    let (_, m') ← load dec32 (some b) Mesh.new
    return m'.triangles : Res _) = some [⟨⟨0, 0, 7⟩, ⟨1, 0, 7⟩, ⟨0, -1, 7⟩⟩] := by decide +kernel
/-- a file that ends after the count still gives the declared triangles, all zero -/
example : (do
    let (_, m') ← load dec32 (some (List.replicate 80 0 ++ le32 2)) Mesh.new
    return m'.triangles : Res _) = some [⟨⟨0, 0, 0⟩, ⟨0, 0, 0⟩, ⟨0, 0, 0⟩⟩, ⟨⟨0, 0, 0⟩, ⟨0, 0, 0⟩, ⟨0, 0, 0⟩⟩] := by decide +kernel
example : declared (List.replicate 80 0 ++ le32 2000000000) = 2000000000 := by decide +kernel

end Stl
end CAD
