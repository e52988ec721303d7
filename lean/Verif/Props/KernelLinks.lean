import Verif.Lemmas.Mesh

/-! Neighbour links in the kernel of linked triangles (C15): removing a triangle. -/

namespace CAD.KernLT
variable {K : Type}

/-- the three neighbours a triangle records -/
def _root_.CAD.TriLT.links (t : TriLT) : List Int := [t.t1, t.t2, t.t3]

/-- neighbours are recorded on both sides: `i` has `j` as often as `j` has `i`, no triangle is
its own neighbour, and all neighbours exist (`-1` is none) -/
def Linked (k : KernLT K) : Prop :=
  (∀ (i j : Nat) (s t : TriLT), k.tris[i]? = some s → k.tris[j]? = some t → s.links.count (j : Int) = t.links.count (i : Int)) ∧
  (∀ (i : Nat) (s : TriLT), k.tris[i]? = some s → (i : Int) ∉ s.links) ∧
  ∀ s ∈ k.tris, ∀ l ∈ s.links, l = -1 ∨ InRange k.tris.length l

theorem clear_step (t : TriLT) (i : Int) (hi : i ≠ -1) :
    (i ∈ t.links → (clearBackLink t i).links.count i + 1 = t.links.count i) ∧ (i ∉ t.links → clearBackLink t i = t) ∧
    ((clearBackLink t i).links.map fun l => if l = i then -1 else l) = (t.links.map fun l => if l = i then -1 else l) ∧
    (clearBackLink t i).v1 = t.v1 ∧ (clearBackLink t i).v2 = t.v2 ∧ (clearBackLink t i).v3 = t.v3 ∧
    (clearBackLink t i).unlinked = t.unlinked ∧ (clearBackLink t i).reserved = t.reserved := by
  obtain ⟨a, b, c, x, y, z, u, r⟩ := t
  unfold clearBackLink TriLT.links
  simp only
  have h1 : ((-1 : Int) = i) = False := by simp [Ne.symm hi]
  by_cases hx : x = i <;> by_cases hy : y = i <;> by_cases hz : z = i <;>
    simp [List.count_cons, hx, hy, hz, Ne.symm hi, h1, @eq_comm Int i]

theorem clear_times (t : TriLT) (i : Int) (hi : i ≠ -1) (n : Nat) (hn : t.links.count i = n) :
    (fun t => clearBackLink t i)^[n] t = { t with t1 := if t.t1 = i then -1 else t.t1, t2 := if t.t2 = i then -1 else t.t2, t3 := if t.t3 = i then -1 else t.t3 } := by
  induction n generalizing t with
  | zero =>
    have : i ∉ t.links := List.count_eq_zero.1 hn
    simp only [TriLT.links, List.mem_cons, List.not_mem_nil, or_false, not_or] at this
    obtain ⟨h1, h2, h3⟩ := this
    simp [Ne.symm h1, Ne.symm h2, Ne.symm h3]
  | succ n ih =>
    obtain ⟨h1, -, h3, h4, h5, h6, h7, h8⟩ := clear_step t i hi
    have hm : i ∈ t.links := List.count_pos_iff.1 (by omega)
    rw [Function.iterate_succ_apply, ih _ (by have := h1 hm; omega), h4, h5, h6, h7, h8]
    simp only [TriLT.links, List.map_cons, List.map_nil, List.cons.injEq, and_true] at h3
    rw [h3.1, h3.2.1, h3.2.2]

theorem unlinkNear_modify {tris : List TriLT} {l i : Int} (h : l = -1 ∨ InRange tris.length l) :
    unlinkNear tris l i = some (if l = -1 then tris else tris.modify l.toNat fun t => clearBackLink t i) := by
  unfold unlinkNear
  by_cases h0 : l = -1
  · simp [h0]
  · have h := h.resolve_left h0
    obtain ⟨n, rfl, hn⟩ := h.exists
    rw [if_pos h0, if_neg h0, getI_natCast, List.getElem?_eq_getElem hn]
    simp only [bind, Option.bind]
    rw [setI_of_inRange _ h]
    congr 1
    apply List.ext_getElem?
    intro j
    rw [List.getElem?_modify]
    by_cases hj : n = j
    · subst hj; simp [hn]
    · simp [hj]

/-- **C15** (what the links would be for): when the neighbours are recorded on both sides,
`unlink_triangle(i)` takes `i` out of the neighbours of all other triangles, one entry for one
shared edge, and changes nothing else but the mark of `i`. -/
theorem unlink_links {k : KernLT K} (hk : k.Linked) {i : Nat} {s : TriLT} (hi : k.tris[i]? = some s) :
    ∃ k', k.unlinkTriangle (i : Int) = some k' ∧ k'.verts = k.verts ∧ k'.tris.length = k.tris.length ∧
      k'.tris[i]? = some { s with unlinked := -1 } ∧
      ∀ (j : Nat) (t : TriLT), j ≠ i → k.tris[j]? = some t → ∃ t', k'.tris[j]? = some t' ∧
        t'.links = t.links.map (fun l => if l = (i : Int) then -1 else l) ∧ (i : Int) ∉ t'.links ∧
        t'.v1 = t.v1 ∧ t'.v2 = t.v2 ∧ t'.v3 = t.v3 ∧ t'.unlinked = t.unlinked ∧ t'.reserved = t.reserved := by
  obtain ⟨hsym, hself, hin⟩ := hk
  have hlt : i < k.tris.length := by
    by_contra h
    rw [List.getElem?_eq_none (by omega)] at hi
    cases hi
  have hr : InRange k.tris.length (i : Int) := inRange_natCast.2 hlt
  have hmem : s ∈ k.tris := List.mem_of_getElem? hi
  have hs1 := hin s hmem s.t1 (by simp [TriLT.links])
  have hs2 := hin s hmem s.t2 (by simp [TriLT.links])
  have hs3 := hin s hmem s.t3 (by simp [TriLT.links])
  let md (l : Int) (ts : List TriLT) : List TriLT := if l = -1 then ts else ts.modify l.toNat fun t => clearBackLink t i
  have mlen : ∀ l ts, (md l ts).length = ts.length := by
    intro l ts; simp only [md]; split <;> simp
  have mget : ∀ l (ts : List TriLT) (j : Nat), (l = -1 ∨ InRange ts.length l) →
      (md l ts)[j]? = ts[j]?.map (fun t => if l = (j : Int) then clearBackLink t i else t) := by
    intro l ts j h
    simp only [md]
    by_cases h0 : l = -1
    · subst h0
      rw [if_pos rfl]
      have : ¬ ((-1 : Int) = j) := by omega
      simp [this]
    · rw [if_neg h0, List.getElem?_modify]
      have := (h.resolve_left h0).1
      by_cases hj : l = (j : Int)
      · subst hj
        simp
      · have : ¬ l.toNat = j := by omega
        simp [hj, this]
  have hrun : k.unlinkTriangle (i : Int) = some { k with tris := md s.t3 (md s.t2 (md s.t1 (k.tris.set i { s with unlinked := -1 }))) } := by
    unfold unlinkTriangle
    rw [assertIdx_eq, if_pos hr, getI_natCast, hi]
    simp only [bind, Option.bind]
    rw [setI_of_inRange _ hr]
    simp only [getNearTriangles, assertIdx_eq, List.length_set, if_pos hr, bind, Option.bind, getI_natCast, Int.toNat_natCast]
    rw [List.getElem?_set_self hlt]
    simp only [pure]
    rw [unlinkNear_modify (by simpa using hs1)]
    simp only
    rw [unlinkNear_modify (show s.t2 = -1 ∨ InRange (md s.t1 (k.tris.set i { s with unlinked := -1 })).length s.t2 by rw [mlen]; simpa using hs2)]
    simp only
    rw [unlinkNear_modify (show s.t3 = -1 ∨ InRange (md s.t2 (md s.t1 (k.tris.set i { s with unlinked := -1 }))).length s.t3 by rw [mlen, mlen]; simpa using hs3)]
  refine ⟨_, hrun, rfl, by simp [mlen], ?_, ?_⟩
  · have hn := hself i s hi
    simp only [TriLT.links, List.mem_cons, List.not_mem_nil, or_false, not_or] at hn
    simp only
    rw [mget _ _ _ (by rw [mlen, mlen]; simpa using hs3), mget _ _ _ (by rw [mlen]; simpa using hs2), mget _ _ _ (by simpa using hs1),
      List.getElem?_set_self hlt]
    simp [Ne.symm hn.1, Ne.symm hn.2.1, Ne.symm hn.2.2]
  · intro j t hj ht
    simp only
    rw [mget _ _ _ (by rw [mlen, mlen]; simpa using hs3), mget _ _ _ (by rw [mlen]; simpa using hs2), mget _ _ _ (by simpa using hs1),
      List.getElem?_set_ne (Ne.symm hj), ht]
    simp only [Option.map_some]
    have hcount := hsym i j s t hi ht
    have hc := clear_times t (i : Int) (by omega) _ rfl
    rw [← hcount] at hc
    have hiter : (fun t => clearBackLink t (i : Int))^[s.links.count (j : Int)] t =
        (if s.t3 = (j : Int) then clearBackLink (if s.t2 = (j : Int) then clearBackLink (if s.t1 = (j : Int) then clearBackLink t i else t) i else (if s.t1 = (j : Int) then clearBackLink t i else t)) i
          else (if s.t2 = (j : Int) then clearBackLink (if s.t1 = (j : Int) then clearBackLink t i else t) i else (if s.t1 = (j : Int) then clearBackLink t i else t))) := by
      simp only [TriLT.links]
      by_cases h1 : s.t1 = (j : Int) <;> by_cases h2 : s.t2 = (j : Int) <;> by_cases h3 : s.t3 = (j : Int) <;>
        simp [List.count_cons, h1, h2, h3]
    rw [← hiter, hc]
    refine ⟨_, rfl, by simp [TriLT.links], ?_, rfl, rfl, rfl, rfl, rfl⟩
    simp only [TriLT.links, List.mem_cons, List.not_mem_nil, or_false, not_or]
    refine ⟨?_, ?_, ?_⟩ <;> split <;> omega

/-- three triangles in a strip, the middle one removed -/
def strip : KernLT ℚ := ⟨[⟨0, 1, 2, -1, 1, -1, 0, 0⟩, ⟨2, 1, 3, 0, 2, -1, 0, 0⟩, ⟨2, 3, 4, 1, -1, -1, 0, 0⟩], []⟩

example : (strip.unlinkTriangle 1).map (fun k => k.tris.map TriLT.links) = some [[-1, -1, -1], [0, 2, -1], [-1, -1, -1]] := by decide

theorem strip_linked : strip.Linked := by
  have hcase : ∀ (i : Nat) (s : TriLT), strip.tris[i]? = some s → (i = 0 ∧ s = ⟨0, 1, 2, -1, 1, -1, 0, 0⟩) ∨ (i = 1 ∧ s = ⟨2, 1, 3, 0, 2, -1, 0, 0⟩) ∨ (i = 2 ∧ s = ⟨2, 3, 4, 1, -1, -1, 0, 0⟩) := by
    intro i s h
    match i, h with
    | 0, h => left; exact ⟨rfl, (Option.some.inj h).symm⟩
    | 1, h => right; left; exact ⟨rfl, (Option.some.inj h).symm⟩
    | 2, h => right; right; exact ⟨rfl, (Option.some.inj h).symm⟩
    | n + 3, h => simp [strip] at h
  refine ⟨?_, ?_, ?_⟩
  · intro i j s t hs ht
    rcases hcase i s hs with ⟨rfl, rfl⟩ | ⟨rfl, rfl⟩ | ⟨rfl, rfl⟩ <;> rcases hcase j t ht with ⟨rfl, rfl⟩ | ⟨rfl, rfl⟩ | ⟨rfl, rfl⟩ <;> decide
  · intro i s hs
    rcases hcase i s hs with ⟨rfl, rfl⟩ | ⟨rfl, rfl⟩ | ⟨rfl, rfl⟩ <;> decide
  · decide

end CAD.KernLT
