import Verif.Props.Obj

/-! C95, C96: OBJ files of other programs, and the exact text of the files that are written. -/

set_option linter.unusedSimpArgs false

namespace CAD.Obj
open Mesh
variable {K : Type}

/-! ### lines -/

/-- white space only -/
abbrev Blank (s : List Char) : Prop := ∀ ch ∈ s, isSpace ch = true

/-- no white space -/
abbrev Token (s : List Char) : Prop := ∀ ch ∈ s, isSpace ch = false

/-- nothing follows, or white space -/
def Sep (r : List Char) : Prop := ∀ ch r', r = ch :: r' → isSpace ch = true

/-- a word from which the number `x` is read -/
structure RealTok (c : Codec K) (t : List Char) (x : K) : Prop where
  ne : t ≠ []
  token : Token t
  scan : ∀ r, Sep r → c.scan (t ++ r) = some (x, r)

/-- the number with these decimal digits -/
def decimal (ds : List Char) : Nat := ds.foldl (fun a ch => 10 * a + (ch.toNat - 48)) 0

/-- digits, at least one -/
def Digits (ds : List Char) : Prop := ds ≠ [] ∧ ∀ ch ∈ ds, isDigit ch = true

/-- a word that denotes a whole number -/
inductive IntTok : List Char → Int → Prop
  | plain {ds : List Char} : Digits ds → IntTok ds (decimal ds)
  | plus {ds : List Char} : Digits ds → IntTok ('+' :: ds) (decimal ds)
  | minus {ds : List Char} : Digits ds → IntTok ('-' :: ds) (-(decimal ds : Int))

/-- what a line says -/
inductive Item (K : Type)
  | vertex (p : P3 K)
  | face (a b d : Int)
  | other

/-- `LineIs c l i`: the line `l` says `i`.  A vertex may be followed by anything (a weight, a
colour), a face too (a fourth corner). -/
inductive LineIs (c : Codec K) : List Char → Item K → Prop
  | vertex {s0 s1 s2 s3 tx ty tz r : List Char} {x y z : K} : Blank s0 → Blank s1 → s1 ≠ [] → Blank s2 → s2 ≠ [] → Blank s3 → s3 ≠ [] →
      RealTok c tx x → RealTok c ty y → RealTok c tz z → Sep r →
      LineIs c (s0 ++ 'v' :: (s1 ++ (tx ++ (s2 ++ (ty ++ (s3 ++ (tz ++ r))))))) (.vertex ⟨x, y, z⟩)
  | face {s0 s1 s2 s3 ta tb td r : List Char} {a b d : Int} : Blank s0 → Blank s1 → s1 ≠ [] → Blank s2 → s2 ≠ [] → Blank s3 → s3 ≠ [] →
      IntTok ta a → IntTok tb b → IntTok td d → Sep r →
      LineIs c (s0 ++ 'f' :: (s1 ++ (ta ++ (s2 ++ (tb ++ (s3 ++ (td ++ r))))))) (.face a b d)
  | other {s0 w r : List Char} : Blank s0 → Token w → (w ≠ [] ∨ r = []) → w ≠ ['v'] → w ≠ ['f'] → Sep r → LineIs c (s0 ++ (w ++ r)) .other

/-- every face refers to vertices of lines before it; `n` vertices are there already -/
def FacesBack : Nat → List (Item K) → Prop
  | _, [] => True
  | n, .vertex _ :: l => FacesBack (n + 1) l
  | n, .face a b d :: l => (1 ≤ a ∧ a ≤ n) ∧ (1 ≤ b ∧ b ≤ n) ∧ (1 ≤ d ∧ d ≤ n) ∧ FacesBack n l
  | n, .other :: l => FacesBack n l

/-- the vertices, in order -/
def verticesOf : List (Item K) → List (P3 K)
  | [] => []
  | .vertex p :: l => p :: verticesOf l
  | _ :: l => verticesOf l

/-- the faces, in order, with corners counted from 0 -/
def facesOf : List (Item K) → List (Int × Int × Int)
  | [] => []
  | .face a b d :: l => (a - 1, b - 1, d - 1) :: facesOf l
  | _ :: l => facesOf l

/-! ### reading words -/

theorem blank_drop {s t : List Char} (hs : Blank s) (ht : ∀ ch t', t = ch :: t' → isSpace ch = false) : (s ++ t).dropWhile isSpace = t :=
  (takeWhile_append_stop isSpace s t hs ht).2

theorem token_head {t r : List Char} (h1 : t ≠ []) (h2 : Token t) : ∀ ch t', t ++ r = ch :: t' → isSpace ch = false := by
  intro ch t' e
  cases t with
  | nil => exact absurd rfl h1
  | cons a t =>
    rw [List.cons_append, List.cons.injEq] at e
    rw [← e.1]
    exact h2 a (by simp)

theorem sep_blank {s r : List Char} (h1 : Blank s) (h2 : s ≠ []) : Sep (s ++ r) := by
  intro ch r' e
  cases s with
  | nil => exact absurd rfl h2
  | cons a s =>
    rw [List.cons_append, List.cons.injEq] at e
    rw [← e.1]
    exact h1 a (by simp)

theorem isEmpty_append {t : List Char} (r : List Char) (h : t ≠ []) : (t ++ r).isEmpty = false := by
  cases t with
  | nil => exact absurd rfl h
  | cons => rfl

theorem real_tok {c : Codec K} {s t r : List Char} {x : K} (hs : Blank s) (ht : RealTok c t x) (hr : Sep r) :
    SS.real c ⟨s ++ (t ++ r), true⟩ = (⟨r, true⟩, some x) := by
  unfold SS.real
  simp only [if_true, blank_drop hs (token_head ht.ne ht.token), isEmpty_append r ht.ne, ht.scan r hr]
  rfl

theorem space_not_digit {ch : Char} (h : isSpace ch = true) : isDigit ch = false := by
  cases hd : isDigit ch
  · rfl
  · rw [isDigit_not_space hd] at h; cases h

theorem digit_not_sign {ch : Char} (h : isDigit ch = true) : ch ≠ '-' ∧ ch ≠ '+' := by
  constructor <;> · rintro rfl; simp [isDigit] at h

theorem IntTok.ne {t : List Char} {i : Int} (h : IntTok t i) : t ≠ [] := by
  cases h with
  | plain h => exact h.1
  | plus h => simp
  | minus h => simp

theorem IntTok.token {t : List Char} {i : Int} (h : IntTok t i) : Token t := by
  intro ch hc
  cases h with
  | plain h => exact isDigit_not_space (h.2 ch hc)
  | plus h =>
    rcases List.mem_cons.1 hc with rfl | hc
    · rfl
    · exact isDigit_not_space (h.2 ch hc)
  | minus h =>
    rcases List.mem_cons.1 hc with rfl | hc
    · rfl
    · exact isDigit_not_space (h.2 ch hc)

/-- `operator>>(istream&, int&)` on a word that is a number of 32 bits -/
theorem scanInt_tok {t r : List Char} {i : Int} (h : IntTok t i) (hr : Sep r) (h1 : -2147483648 ≤ i) (h2 : i ≤ 2147483647) :
    scanInt (t ++ r) = (i, true, r) := by
  have key : ∀ ds : List Char, Digits ds → (ds ++ r).takeWhile isDigit = ds ∧ (ds ++ r).dropWhile isDigit = r ∧ ds.isEmpty = false := by
    intro ds hd
    obtain ⟨e1, e2⟩ := takeWhile_append_stop isDigit ds r hd.2 (fun x r' e => space_not_digit (hr x r' e))
    refine ⟨e1, e2, ?_⟩
    cases ds with
    | nil => exact absurd rfl hd.1
    | cons => rfl
  unfold scanInt
  cases h with
  | plain hd =>
    obtain ⟨e1, e2, e3⟩ := key _ hd
    have hh : (t ++ r).head? ≠ some '-' ∧ (t ++ r).head? ≠ some '+' := by
      cases t with
      | nil => exact absurd rfl hd.1
      | cons a l =>
        have := digit_not_sign (hd.2 a (by simp))
        simp [this.1, this.2]
    simp only [if_neg hh.1, hh.1, hh.2, or_self, if_false, e1, e2, e3, Bool.false_eq_true]
    rw [show (t.foldl (fun a ch => 10 * a + (ch.toNat - 48)) 0) = decimal t from rfl, if_neg (by omega), if_neg (by omega)]
  | plus hd =>
    obtain ⟨e1, e2, e3⟩ := key _ hd
    rename_i ds
    simp only [List.cons_append, List.head?_cons, Option.some.injEq, List.tail_cons, or_true, if_true, e1, e2, e3, Bool.false_eq_true,
      if_false, show ¬ ('+' = '-') by decide]
    rw [show (ds.foldl (fun a ch => 10 * a + (ch.toNat - 48)) 0) = decimal ds from rfl, if_neg (by omega), if_neg (by omega)]
  | minus hd =>
    obtain ⟨e1, e2, e3⟩ := key _ hd
    rename_i ds
    simp only [List.cons_append, List.head?_cons, List.tail_cons, true_or, if_true, e1, e2, e3, Bool.false_eq_true, if_false]
    rw [show (ds.foldl (fun a ch => 10 * a + (ch.toNat - 48)) 0) = decimal ds from rfl, if_neg (by omega), if_neg (by omega)]

theorem int_tok {s t r : List Char} {i : Int} (hs : Blank s) (ht : IntTok t i) (hr : Sep r) (h1 : -2147483648 ≤ i) (h2 : i ≤ 2147483647) :
    SS.int ⟨s ++ (t ++ r), true⟩ = (⟨r, true⟩, some i) := by
  unfold SS.int
  simp only [if_true, blank_drop hs (token_head ht.ne ht.token), isEmpty_append r ht.ne, scanInt_tok ht hr h1 h2]
  rfl

theorem word_tok {s t r : List Char} (hs : Blank s) (ht : Token t) (h : t ≠ [] ∨ r = []) (hr : Sep r) :
    (SS.word ⟨s ++ (t ++ r), true⟩).2 = t ∧ (t ≠ [] → (SS.word ⟨s ++ (t ++ r), true⟩).1 = ⟨r, true⟩) := by
  have hd : (s ++ (t ++ r)).dropWhile isSpace = t ++ r := by
    apply blank_drop hs
    rcases h with h | rfl
    · exact token_head h ht
    · intro ch t' e
      rw [List.append_nil] at e
      subst e
      exact ht ch (by simp)
  obtain ⟨e1, e2⟩ := takeWhile_append_stop (fun ch => !isSpace ch) t r (fun x hx => by simp [ht x hx]) (fun x r' e => by simp [hr x r' e])
  unfold SS.word
  simp only [if_true, hd, e1, e2, true_and]
  intro hne
  rw [isEmpty_append r hne]
  rfl

theorem blank_word {s r : List Char} {ch : Char} (hc : isSpace ch = false) (hs : Blank s) (hr : Sep r) :
    SS.word ⟨s ++ ch :: r, true⟩ = (⟨r, true⟩, [ch]) := by
  have := word_tok (t := [ch]) (r := r) hs (by intro x hx; rw [List.mem_singleton] at hx; rw [hx]; exact hc) (Or.inl (by simp)) hr
  have e : s ++ ([ch] ++ r) = s ++ ch :: r := rfl
  rw [e] at this
  exact Prod.ext (this.2 (by simp)) this.1

/-- what a line of a file does to the mesh -/
theorem loadLine_item {c : Codec K} {l : List Char} {i : Item K} (h : LineIs c l i) (m : Mesh K)
    (hi : ∀ a b d, i = .face a b d → ∀ k ∈ [a, b, d], -2147483647 ≤ k ∧ k ≤ 2147483647) :
    loadLine c m l = match i with
      | .vertex p => some (m.pushPts [p])
      | .face a b d => (m.addTriangle (a - 1) (b - 1) (d - 1)).map (·.1)
      | .other => some m := by
  cases h with
  | @vertex s0 s1 s2 s3 tx ty tz r x y z b0 b1 n1 b2 n2 b3 n3 hx hy hz hr =>
    unfold loadLine
    rw [show (s0 ++ 'v' :: (s1 ++ (tx ++ (s2 ++ (ty ++ (s3 ++ (tz ++ r))))))).isEmpty = false by cases s0 <;> rfl]
    rw [blank_word rfl b0 (sep_blank b1 n1)]
    simp only [Bool.false_eq_true, if_false, if_true]
    unfold loadVertex
    rw [real_tok b1 hx (sep_blank b2 n2)]
    simp only
    rw [real_tok b2 hy (sep_blank b3 n3)]
    simp only
    rw [real_tok b3 hz hr]
    rfl
  | @face s0 s1 s2 s3 ta tb td r a b d b0 b1 n1 b2 n2 b3 n3 ha hb hd hr =>
    have hi := hi a b d rfl
    obtain ⟨ha1, ha2⟩ := hi a (by simp)
    obtain ⟨hb1, hb2⟩ := hi b (by simp)
    obtain ⟨hd1, hd2⟩ := hi d (by simp)
    unfold loadLine
    rw [show (s0 ++ 'f' :: (s1 ++ (ta ++ (s2 ++ (tb ++ (s3 ++ (td ++ r))))))).isEmpty = false by cases s0 <;> rfl]
    rw [blank_word rfl b0 (sep_blank b1 n1)]
    simp only [Bool.false_eq_true, if_false]
    rw [if_neg (by decide), if_pos trivial]
    unfold loadFace
    rw [int_tok b1 ha (sep_blank b2 n2) (by omega) ha2]
    simp only
    rw [int_tok b2 hb (sep_blank b3 n3) (by omega) hb2]
    simp only
    rw [int_tok b3 hd hr (by omega) hd2]
    simp only [Option.bind_eq_bind, Option.bind_some]
    rw [int32_eq (by omega) (by omega), Option.bind_some, int32_eq (by omega) (by omega), Option.bind_some,
      int32_eq (by omega) (by omega), Option.bind_some]
    cases m.addTriangle (a - 1) (b - 1) (d - 1) <;> rfl
  | @other s0 w r b0 hw hwr hv hf hr =>
    obtain ⟨e, -⟩ := word_tok b0 hw hwr hr
    unfold loadLine
    split
    · rfl
    · generalize hsw : SS.word ⟨s0 ++ (w ++ r), true⟩ = q at e
      obtain ⟨q1, q2⟩ := q
      simp only at e
      subst e
      simp only [if_neg hv, if_neg hf]

/-- what the lines of a file do, as long as the faces refer back -/
theorem load_items {c : Codec K} {ls : List (List Char)} {is : List (Item K)} (h : List.Forall₂ (LineIs c) ls is) :
    ∀ m : Mesh K, FacesBack m.kern.verts.length is → (m.kern.verts.length + (verticesOf is).length : Int) ≤ 2147483647 →
    ls.foldlM (loadLine c) m = some ((m.pushPts (verticesOf is)).pushTris (facesOf is)) ∧
      ∀ f ∈ facesOf is, CornersIn (m.kern.verts.length + (verticesOf is).length) f := by
  induction h with
  | nil => intro m _ _; simp [verticesOf, facesOf, Mesh.pushPts_nil, Mesh.pushTris]
  | @cons l i ls is hl _ ih =>
    intro m hb hn
    cases i with
    | vertex p =>
      have hlen : (m.pushPts [p]).kern.verts.length = m.kern.verts.length + 1 := by simp [Mesh.pushPts_verts]
      obtain ⟨e, hc⟩ := ih (m.pushPts [p]) (by rw [hlen]; exact hb) (by
        rw [hlen]; simp only [verticesOf, List.length_cons] at hn; push_cast at hn ⊢; omega)
      rw [List.foldlM_cons, loadLine_item hl m (by rintro _ _ _ ⟨⟩)]
      simp only [Option.bind_eq_bind, Option.bind_some]
      rw [e]
      refine ⟨by simp [verticesOf, facesOf, Mesh.pushPts], ?_⟩
      intro f hf
      have := hc f hf
      rw [hlen] at this
      simp only [verticesOf, List.length_cons]
      rw [show m.kern.verts.length + ((verticesOf is).length + 1) = m.kern.verts.length + 1 + (verticesOf is).length by omega]
      exact this
    | face a b d =>
      obtain ⟨⟨a1, a2⟩, ⟨b1, b2⟩, ⟨d1, d2⟩, hb⟩ := hb
      have hv : verticesOf (.face a b d :: is) = verticesOf is := rfl
      rw [hv] at hn ⊢
      have hcor : CornersIn m.kern.verts.length (a - 1, b - 1, d - 1) := ⟨⟨by simp; omega, by simp; omega⟩, ⟨by simp; omega, by simp; omega⟩,
        ⟨by simp; omega, by simp; omega⟩⟩
      rw [List.foldlM_cons, loadLine_item hl m (by
        intro a' b' d' e k hk
        obtain ⟨rfl, rfl, rfl⟩ : a = a' ∧ b = b' ∧ d = d' := by simpa using e
        simp only [List.mem_cons, List.not_mem_nil, or_false] at hk
        omega)]
      simp only
      rw [Mesh.addTriangle_eq, if_pos hcor]
      simp only [Option.map_some, Option.bind_eq_bind, Option.bind_some]
      obtain ⟨e, hc⟩ := ih (m.pushTris [(a - 1, b - 1, d - 1)]) hb hn
      rw [e]
      refine ⟨?_, ?_⟩
      · rw [Mesh.pushTris_pushPts]
        simp [facesOf, Mesh.pushTris]
      · intro f hf
        rw [facesOf, List.mem_cons] at hf
        rcases hf with rfl | hf
        · obtain ⟨⟨x1, x2⟩, ⟨y1, y2⟩, ⟨z1, z2⟩⟩ := hcor
          refine ⟨⟨x1, ?_⟩, ⟨y1, ?_⟩, ⟨z1, ?_⟩⟩ <;> push_cast <;> omega
        · exact hc f hf
    | other =>
      rw [List.foldlM_cons, loadLine_item hl m (by rintro _ _ _ ⟨⟩)]
      exact ih m hb hn

theorem lines_intercalate : ∀ {ls : List (List Char)}, ls ≠ [] → (∀ l ∈ ls, '\n' ∉ l) → lines (['\n'].intercalate ls) = ls
  | [l], _, h => by
    have : ∀ l : List Char, '\n' ∉ l → lines l = [l] := by
      intro l
      induction l with
      | nil => intro _; rfl
      | cons a l ih =>
        intro h
        rw [lines, if_neg (by rintro rfl; simp at h), ih (by intro hh; exact h (by simp [hh]))]
    rw [show ['\n'].intercalate [l] = l by simp [List.intercalate]]
    exact this l (h l (by simp))
  | l :: l' :: ls, _, h => by
    have e : ['\n'].intercalate (l :: l' :: ls) = l ++ '\n' :: ['\n'].intercalate (l' :: ls) := by
      simp [List.intercalate]
    rw [e, lines_append (h l (by simp)), lines_intercalate (by simp) (fun x hx => h x (by simp [hx]))]

/-- C95.  A file of vertices with three numbers and faces with three plain numbers, in any
order, with any white space (also the carriage returns of other systems), other lines, and
additional text after the third number, loads completely when every face refers to vertices
before it: the mesh has exactly these vertices and these faces, in order.  (`_partial`: the format
also has references counted back from the end, references to later vertices, and faces of four
corners; see `obj_load_bad_face` and `obj_load_quad`.) -/
theorem obj_load_foreign_partial {c : Codec K} {ls : List (List Char)} {is : List (Item K)} (hne : ls ≠ []) (hnl : ∀ l ∈ ls, '\n' ∉ l)
    (h : List.Forall₂ (LineIs c) ls is) (hf : FacesBack 0 is) (hn : ((verticesOf is).length : Int) ≤ 2147483647) (m0 : Mesh K) :
    ∃ m', load c (some (['\n'].intercalate ls)) m0 = some (true, m') ∧ m'.OK ∧ m'.nbVertices = (verticesOf is).length ∧
      (∀ i : Nat, m'.getVertex i = (verticesOf is)[i]?) ∧ m'.cornerList = facesOf is ∧ m'.nbTriangles = (facesOf is).length := by
  have h0 : m0.clear.kern.verts.length = 0 := rfl
  obtain ⟨e, hc⟩ := load_items h m0.clear (by rw [h0]; exact hf) (by rw [h0]; simpa using hn)
  have hview : ((m0.clear.pushPts (verticesOf is)).pushTris (facesOf is)).view =
      ⟨verticesOf is, (facesOf is).map (⟨·, true⟩), m0.clear.color⟩ := by
    rw [Mesh.view_pushTris]
    rfl
  have ha := Mesh.answers_view ((m0.clear.pushPts (verticesOf is)).pushTris (facesOf is))
  rw [hview] at ha
  refine ⟨(m0.clear.pushPts (verticesOf is)).pushTris (facesOf is), ?_, ?_, ha.nbVertices, ?_, ?_, ?_⟩
  · unfold load
    simp only [lines_intercalate hne hnl, e, Option.bind_eq_bind, Option.bind_some]
    rfl
  · refine ((Mesh.clear_ok m0).pushPts _).pushTris fun f hf => ?_
    have := hc f hf
    rw [Mesh.pushPts_verts, List.length_append]
    exact this
  · intro i
    rw [ha.getVertex, getI_natCast]
  · rw [Mesh.cornerList_eq, hview]
    have key : ∀ l : List (Int × Int × Int), ((l.map fun f => (⟨f, true⟩ : AFace)).filter AFace.linked).map AFace.corners = l := by
      intro l
      induction l with
      | nil => rfl
      | cons f l ih => rw [List.map_cons, List.filter_cons_of_pos rfl, List.map_cons, ih]
    exact key _
  · rw [ha.nbTriangles, List.length_map]

/-- C95, the negation: a face that refers to a vertex counted from the end (a negative number), to
a later vertex, or to number 0, is handed to the mesh with an id that does not exist. -/
theorem obj_load_bad_face {c : Codec K} {ls post : List (List Char)} {is : List (Item K)} {l : List Char} {a b d : Int}
    (hnl : ∀ l' ∈ ls ++ l :: post, '\n' ∉ l') (h : List.Forall₂ (LineIs c) ls is) (hf : FacesBack 0 is)
    (hn : ((verticesOf is).length : Int) ≤ 2147483647) (hl : LineIs c l (.face a b d))
    (hr : ∀ k ∈ [a, b, d], -2147483647 ≤ k ∧ k ≤ 2147483647) (hbad : ∃ k ∈ [a, b, d], k ≤ 0 ∨ (verticesOf is).length < k) (m0 : Mesh K) :
    load c (some (['\n'].intercalate (ls ++ l :: post))) m0 = none := by
  have h0 : m0.clear.kern.verts.length = 0 := rfl
  obtain ⟨e, hc⟩ := load_items h m0.clear (by rw [h0]; exact hf) (by rw [h0]; simpa using hn)
  have hv : ((m0.clear.pushPts (verticesOf is)).pushTris (facesOf is)).kern.verts.length = (verticesOf is).length := by
    show (m0.clear.pushPts (verticesOf is)).kern.verts.length = _
    rw [Mesh.pushPts_verts, List.length_append, h0, Nat.zero_add]
  unfold load
  simp only [lines_intercalate (by simp) hnl, List.foldlM_append, e, Option.bind_eq_bind, Option.bind_some, List.foldlM_cons]
  rw [loadLine_item hl _ (by
    intro a' b' d' e k hk
    obtain ⟨rfl, rfl, rfl⟩ : a = a' ∧ b = b' ∧ d = d' := by simpa using e
    exact hr k hk)]
  simp only
  rw [Mesh.addTriangle_eq, if_neg]
  · rfl
  · rw [hv]
    rintro ⟨⟨x1, x2⟩, ⟨y1, y2⟩, ⟨z1, z2⟩⟩
    obtain ⟨k, hk, hk2⟩ := hbad
    simp only [List.mem_cons, List.not_mem_nil, or_false] at hk
    simp only at x1 x2 y1 y2 z1 z2
    rcases hk with rfl | rfl | rfl <;> omega

/-! ### the text that is written -/

/-- C96.  The text of a saved mesh: a line `v x y z` for every vertex (with its colour, when the
mesh has one), an empty line, a line `f i j k` for every linked triangle with vertices counted from 1. -/
theorem obj_text {c : Codec K} (col : Int → List Char) {m : Mesh K} (hm : m.OK) (hn : m.nbVertices ≤ 2147483647) {color : List Char}
    (hcol : (m.getColor = -1 ∧ color = []) ∨ ∃ r g b : Nat, r < 256 ∧ g < 256 ∧ b < 256 ∧ m.getColor = 65536 * r + 256 * g + b ∧
      color = ' ' :: col r ++ ' ' :: col g ++ ' ' :: col b) :
    ∃ ps : List (P3 K), (ps.length : Int) = m.nbVertices ∧ (∀ i : Nat, m.getVertex i = ps[i]?) ∧
      save c col m = some ((ps.flatMap fun p => "v ".toList ++ c.fmt p.x ++ ' ' :: c.fmt p.y ++ ' ' :: c.fmt p.z ++ color ++ ['\n']) ++ ['\n'] ++
        m.cornerList.flatMap fun f => "f ".toList ++ showInt (f.1 + 1) ++ ' ' :: showInt (f.2.1 + 1) ++ ' ' :: showInt (f.2.2 + 1) ++ ['\n']) := by
  have ha := Mesh.answers_view m
  refine ⟨m.view.points, ha.nbVertices.symm, fun i => by rw [ha.getVertex, getI_natCast], ?_⟩
  have hc : colorText col m.getColor = color := by
    unfold colorText
    rcases hcol with ⟨h, rfl⟩ | ⟨r, g, b, hr, hg, hb, h, rfl⟩
    · rw [if_neg (by omega)]
    · rw [if_pos (by omega), h, show (65536 * (r : Int) + 256 * g + b) / 65536 = r by omega,
        show (65536 * (r : Int) + 256 * g + b) / 256 % 256 = g by omega, show (65536 * (r : Int) + 256 * g + b) % 256 = b by omega]
      simp
  unfold save
  rw [mesh_eq c col _ hm le_rfl (by simpa [Writer.open, Writer.new] using hn)]
  simp only [Option.bind_eq_bind, Option.bind_some]
  rw [Mesh.cornerList_eq]
  simp only [Writer.open, Writer.new, Writer.put, Writer.close, unlines, meshLines, vline, fline, pointText, hc, List.flatMap_append,
    List.flatMap_map, Bool.not_true, Bool.false_eq_true, or_self, if_false, if_true, and_self, List.nil_append, List.getElem?_cons_zero,
    List.flatMap_cons, List.flatMap_nil, List.append_nil, List.append_assoc, List.cons_append, add_zero, Function.comp_def,
    Option.some.injEq]
  rfl

/-- C96, the negation for the colours with an opacity the renderer and `Mesh::set_color` also accept:
opaque blue, 0xFF0000FF, has red -256 / 255 in the file. -/
theorem obj_color_opaque (col : Int → List Char) : colorText col (-16776961) = ' ' :: col (-256) ++ ' ' :: col 0 ++ ' ' :: col 255 := by
  unfold colorText
  rw [if_pos (by decide)]
  simp

/-- C95, the negation: of a face with four corners only the first three are kept, a hole is left. -/
theorem obj_load_quad (c : Codec K) (m : Mesh K) : loadLine c m "f 1 2 3 4".toList = loadLine c m "f 1 2 3".toList := rfl

/-! ### concrete cases -/

example : IntTok "-12".toList (-12) := IntTok.minus (ds := "12".toList) ⟨by decide, by decide⟩

/-- a file with a comment, a carriage return, colours and a normal -/
def sampleText : List Char := "# cube\r\nv 1 2 3 0 0 1\n v -4\t5 6\nv 7 8 +9\nvn 0 0 1\n\nf 1 3 2 \r\n".toList

/-- numbers with a sign -/
def codecS : Codec ℤ := ⟨showInt, fun r => if r.head? = some '+' then scanZ r.tail else scanZ r, 0⟩

example : ((load codecS (some sampleText) Mesh.new).map fun x => (x.1, x.2.nbVertices, x.2.getVertex 2, x.2.cornerList)) =
    some (true, 3, some ⟨7, 8, 9⟩, [(0, 2, 1)]) := by rfl

theorem realTok_digits {ds : List Char} (h : Digits ds) : RealTok codecZ ds (decimal ds : ℤ) := by
  refine ⟨h.1, fun ch hc => isDigit_not_space (h.2 ch hc), fun r hr => ?_⟩
  obtain ⟨e1, e2⟩ := takeWhile_append_stop isDigit ds r h.2 (fun x r' e => space_not_digit (hr x r' e))
  obtain ⟨h1, h2⟩ := h
  cases ds with
  | nil => exact absurd rfl h1
  | cons a l =>
    have := digit_not_sign (h2 a (by simp))
    show scanZ _ = _
    unfold scanZ
    rw [List.cons_append] at e1 e2
    simp only [List.cons_append, List.head?_cons, Option.some.injEq, this.1, if_false, e1, e2, List.isEmpty_cons, Bool.false_eq_true]
    rfl

/-- the hypotheses of `obj_load_foreign_partial`: a vertex with tabs, a normal, a face with a carriage return -/
example : List.Forall₂ (LineIs codecZ) ["v\t1 20 3".toList, "vn 0 0 1".toList, "f 1 1 +1\r".toList] [.vertex ⟨1, 20, 3⟩, .other, .face 1 1 1] ∧
    FacesBack 0 [Item.vertex (⟨1, 20, 3⟩ : P3 ℤ), .other, .face 1 1 1] := by
  have d : ∀ ds : List Char, ds ≠ [] → (∀ ch ∈ ds, isDigit ch = true) → Digits ds := fun _ h1 h2 => ⟨h1, h2⟩
  have hb : Blank [' '] := by decide
  refine ⟨.cons ?_ (.cons ?_ (.cons ?_ .nil)), by simp [FacesBack]⟩
  · exact LineIs.vertex (s0 := []) (s1 := ['\t']) (s2 := [' ']) (s3 := [' ']) (r := []) (by decide) (by decide) (by simp) hb (by simp) hb
      (by simp) (realTok_digits (d ['1'] (by simp) (by decide))) (realTok_digits (d ['2', '0'] (by simp) (by decide)))
      (realTok_digits (d ['3'] (by simp) (by decide))) (by rintro _ _ ⟨⟩)
  · exact LineIs.other (s0 := []) (w := ['v', 'n']) (r := " 0 0 1".toList) (by decide) (by decide) (by simp) (by simp) (by simp) (by
      intro ch r' e; rw [← (List.cons.inj e).1]; rfl)
  · exact LineIs.face (s0 := []) (s1 := [' ']) (s2 := [' ']) (s3 := [' ']) (r := ['\r']) (by decide) hb (by simp) hb (by simp) hb
      (by simp) (IntTok.plain (d ['1'] (by simp) (by decide))) (IntTok.plain (d ['1'] (by simp) (by decide)))
      (IntTok.plus (d ['1'] (by simp) (by decide))) (by intro ch r' e; rw [← (List.cons.inj e).1]; rfl)

end CAD.Obj
