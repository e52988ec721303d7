import Mathlib.Data.List.Nodup
import Verif.Model.Step
import Verif.Props.ImageUtil

/-! STEP files (C66, C67, C86). -/

namespace CAD.Step
set_option linter.unusedSimpArgs false
variable {K : Type}

/-! ### Specification: the ids in a file -/

/-- the text goes on with an equals sign -/
def startsEq : List (Tok K) → Bool
  | .eq _ :: _ => true
  | _ => false

/-- the ids a file defines, `#n = …` -/
def defs : List (Tok K) → List Int
  | [] => []
  | .id n :: l => if startsEq l then n :: defs l else defs l
  | _ :: l => defs l

/-- the ids a file refers to, `#n` anywhere else -/
def refs : List (Tok K) → List Int
  | [] => []
  | .id n :: l => if startsEq l then refs l else n :: refs l
  | _ :: l => refs l

/-- a comma separated list in parentheses -/
def tuple (l : List (Tok K)) : List (Tok K) := [.s "("] ++ l.intersperse (.s ",") ++ [.s ")"]

/-- no id is defined twice, every id referred to is defined -/
def FileOK (f : List (Tok K)) : Prop := (defs f).Nodup ∧ ∀ r ∈ refs f, r ∈ defs f

/-- the control net of a surface is not larger than its table of points -/
abbrev NetOK (a : Nurbs.Surface K) : Prop := a.nbU.toNat * a.nbV.toNat ≤ a.points.length

/-- the surfaces a call writes -/
def Op.surfaces : Op K → List (Nurbs.Surface K)
  | .surface a => [a]
  | .solid l => l
  | _ => []

/-- `degree + 1` equal knots at both ends -/
def Clamped (degree : Nat) (ks : List K) : Prop :=
  (∀ i ≤ degree, ks[i]? = ks[0]?) ∧ ∀ i ≤ degree, ks[ks.length - 1 - i]? = ks[ks.length - 1]?

/-- the knot vector that multiplicities and knots stand for -/
def expand (m : List Int) (k : List K) : List K := (m.zip k).flatMap fun x => List.replicate x.1.toNat x.2

/-- a list of multiplicities and a list of knots describe a knot vector -/
structure KnotData (degree : Nat) (ks : List K) (m : List Int) (k : List K) : Prop where
  count : m.length = k.length
  sum : m.sum = ks.length
  expand : Clamped degree ks → expand m k = ks
  distinct : (∀ i j, degree ≤ i → i < j → j < ks.length - degree → ks[i]? ≠ ks[j]?) → k.Nodup

/-! ### Lemmas on ids -/

/-- not cut in the middle of an id -/
def Ended (a : List (Tok K)) : Prop := ∀ n, a.getLast? ≠ some (.id n)

theorem startsEq_append (a b : List (Tok K)) (h : a ≠ []) : startsEq (a ++ b) = startsEq a := by
  cases a with
  | nil => exact absurd rfl h
  | cons t l => cases t <;> rfl

theorem Ended.tail {t : Tok K} {l : List (Tok K)} (h : Ended (t :: l)) : Ended l := by
  intro n hn
  apply h n
  cases l with
  | nil => simp at hn
  | cons u l => simpa using hn

theorem defs_append (a b : List (Tok K)) (h : Ended a) : defs (a ++ b) = defs a ++ defs b := by
  induction a with
  | nil => rfl
  | cons t l ih =>
    have ih := ih h.tail
    cases t with
    | id n =>
      have hl : l ≠ [] := by rintro rfl; exact h n rfl
      simp only [List.cons_append, defs, startsEq_append l b hl, ih]
      split <;> rfl
    | _ => simp only [List.cons_append, defs, ih]

theorem refs_append (a b : List (Tok K)) (h : Ended a) : refs (a ++ b) = refs a ++ refs b := by
  induction a with
  | nil => rfl
  | cons t l ih =>
    have ih := ih h.tail
    cases t with
    | id n =>
      have hl : l ≠ [] := by rintro rfl; exact h n rfl
      simp only [List.cons_append, refs, startsEq_append l b hl, ih]
      split <;> rfl
    | _ => simp only [List.cons_append, refs, ih]

theorem Ended.append {a b : List (Tok K)} (ha : Ended a) (hb : Ended b) : Ended (a ++ b) := by
  intro n h
  rw [List.getLast?_append] at h
  cases hb' : b.getLast? with
  | none => rw [hb'] at h; exact ha n (by simpa using h)
  | some t => rw [hb'] at h; exact hb n (by rw [hb']; simpa using h)

theorem ended_snoc (a : List (Tok K)) (t : String) : Ended (a ++ [.s t]) := by
  intro n h
  simp at h

theorem noEq_defs {a : List (Tok K)} (h : ∀ b, Tok.eq b ∉ a) : defs a = [] ∧ ∀ r ∈ refs a, Tok.id r ∈ a := by
  induction a with
  | nil => exact ⟨rfl, by simp [refs]⟩
  | cons t l ih =>
    obtain ⟨h1, h2⟩ := ih (fun b hb => h b (List.mem_cons_of_mem _ hb))
    have hs : startsEq l = false := by
      cases l with
      | nil => rfl
      | cons u l =>
        cases u with
        | eq b => exact absurd (by simp) (h b)
        | _ => rfl
    cases t with
    | id n =>
      simp only [defs, refs, hs, Bool.false_eq_true, if_false]
      refine ⟨h1, fun r hr => ?_⟩
      rcases List.mem_cons.1 hr with rfl | hr
      · exact List.mem_cons_self
      · exact List.mem_cons_of_mem _ (h2 r hr)
    | _ => exact ⟨h1, fun r hr => List.mem_cons_of_mem _ (h2 r hr)⟩

theorem refs_points (n : Int) (ps : List (P3 K)) : Ended (pointsToks n ps) ∧ refs (pointsToks n ps) = [] ∧
    defs (pointsToks n ps) = (List.range ps.length).map fun (i : Nat) => n + (i : Int) := by
  induction ps generalizing n with
  | nil => exact ⟨fun m h => by simp [pointsToks] at h, rfl, rfl⟩
  | cons p ps ih =>
    obtain ⟨h1, h2, h3⟩ := ih (n + 1)
    have he : Ended (pointToks n p) := fun m h => by simp [pointToks, nl] at h
    refine ⟨he.append h1, ?_, ?_⟩
    · show refs (pointToks n p ++ _) = _
      rw [refs_append _ _ he, h2]
      rfl
    · show defs (pointToks n p ++ _) = _
      rw [defs_append _ _ he, h3, List.length_cons, List.range_succ_eq_map, List.map_cons, List.map_map]
      show n :: _ = _
      simp only [Nat.cast_zero, add_zero, List.cons.injEq, true_and]
      refine List.map_congr_left fun i _ => ?_
      simp only [Function.comp, Nat.succ_eq_add_one, Nat.cast_add, Nat.cast_one]
      ring

/-- tokens that are neither ids nor equals signs -/
def Plain (l : List (Tok K)) : Prop := ∀ t ∈ l, (∀ n, t ≠ .id n) ∧ ∀ b, t ≠ .eq b

theorem Plain.append {a b : List (Tok K)} (ha : Plain a) (hb : Plain b) : Plain (a ++ b) :=
  fun t h => (List.mem_append.1 h).elim (ha t) (hb t)

theorem plain_s {t : String} : Plain [(.s t : Tok K)] := by simp [Plain]

theorem plain_mult {degree len : Int} {l : List (Tok K)} (h : multToks degree len = some l) : Plain l := by
  unfold multToks at h
  simp only [bind, Option.bind_eq_some_iff] at h
  obtain ⟨_, -, d, -, h⟩ := h
  simp only [pure, Option.some.injEq] at h
  subst h
  intro t ht
  simp only [List.mem_append, List.mem_cons, List.mem_flatMap, List.not_mem_nil, or_false] at ht
  rcases ht with ((rfl | rfl | rfl) | ⟨_, _, rfl | rfl⟩) | rfl | rfl <;> simp

theorem loopN_plain {n : Nat} {f : Nat → List (Tok K) → Res (List (Tok K))} {l : List (Tok K)}
    (hf : ∀ i t t', Plain t → f i t = some t' → Plain t') (h : loopN n f [] = some l) : Plain l := by
  induction n generalizing l with
  | zero => simp only [loopN_zero, Option.some.injEq] at h; subst h; simp [Plain]
  | succ n ih =>
    rw [loopN_succ, Option.bind_eq_some_iff] at h
    obtain ⟨t, h1, h2⟩ := h
    exact hf _ _ _ (ih h1) h2

theorem plain_knots {degree : Int} {ks : List K} {l : List (Tok K)} (h : knotToks degree ks = some l) : Plain l := by
  unfold knotToks at h
  simp only [bind, Option.bind_eq_some_iff] at h
  obtain ⟨_, -, t, ht, h⟩ := h
  simp only [pure, Option.some.injEq] at h
  subst h
  refine (plain_s.append (loopN_plain ?_ ht)).append plain_s
  intro i t t' hp h
  rw [Option.bind_eq_some_iff] at h
  obtain ⟨x, -, h⟩ := h
  simp only [pure, Option.some.injEq] at h
  subst h
  refine hp.append ?_
  intro u hu
  split at hu <;> simp at hu
  · rcases hu with rfl | rfl <;> simp
  · subst hu; simp

theorem plain_weights {ws : List K} {nu nv : Int} {l : List (Tok K)} (h : weightRows ws nu nv = some l) : Plain l := by
  unfold weightRows at h
  refine loopN_plain ?_ h
  intro j t t' hp h
  simp only [bind, Option.bind_eq_some_iff] at h
  obtain ⟨r, hr, h⟩ := h
  simp only [pure, Option.some.injEq] at h
  subst h
  refine (hp.append ?_).append ?_
  · unfold weightRow at hr
    simp only [bind, Option.bind_eq_some_iff] at hr
    obtain ⟨u, hu, hr⟩ := hr
    simp only [pure, Option.some.injEq] at hr
    subst hr
    refine (plain_s.append (loopN_plain ?_ hu)).append plain_s
    intro i t t' hp h
    rw [Option.bind_eq_some_iff] at h
    obtain ⟨x, -, h⟩ := h
    simp only [pure, Option.some.injEq] at h
    subst h
    refine hp.append ?_
    intro u hu
    unfold comma at hu
    split at hu <;> simp at hu
    · rcases hu with rfl | rfl <;> simp
    · subst hu; simp
  · split <;> simp [Plain, nl]

theorem refRows_mem {start nu nv : Int} {t : Tok K} (h : t ∈ refRows start nu nv) :
    (∃ x, t = .s x) ∨ ∃ j i : Nat, j < nv.toNat ∧ i < nu.toNat ∧ t = .id (start + nu.toNat * j + i) := by
  unfold refRows at h
  rw [List.mem_flatMap] at h
  obtain ⟨j, hj, h⟩ := h
  rw [List.mem_append] at h
  rcases h with h | h
  · simp only [refRow, List.mem_append, List.mem_flatMap, List.mem_cons, List.not_mem_nil, or_false] at h
    rcases h with (h | ⟨i, hi, h | h⟩) | h
    · exact Or.inl ⟨_, h⟩
    · exact Or.inr ⟨j, i, List.mem_range.1 hj, List.mem_range.1 hi, h⟩
    · unfold comma at h
      split at h
      · exact Or.inl ⟨_, List.mem_singleton.1 h⟩
      · simp at h
    · exact Or.inl ⟨_, h⟩
  · split at h
    · simp only [nl, List.mem_cons, List.not_mem_nil, or_false] at h
      rcases h with h | h <;> exact Or.inl ⟨_, h⟩
    · simp at h

/-- the shape of the text of a surface -/
theorem surfaceToks_shape {p0 n : Int} {a : Nurbs.Surface K} {t : List (Tok K)} (h : surfaceToks p0 n a = some t) :
    ∃ pre post, t = [nl, .id n, .eq false] ++ (pre ++ refRows p0 a.nbU a.nbV ++ post ++ [nl]) ∧ Plain pre ∧ Plain post := by
  unfold surfaceToks at h
  simp only [bind, Option.bind_eq_some_iff] at h
  obtain ⟨mu, h1, mv, h2, ku, h3, kv, h4, ws, h5, h⟩ := h
  simp only [pure, Option.some.injEq] at h
  refine ⟨[.s "(", nl, .s "BOUNDED_SURFACE()", nl, .s "B_SPLINE_SURFACE(", .i a.degreeU, .s ",", .i a.degreeV, .s ",(", nl],
    [nl, .s "),.UNSPECIFIED.,", closedText a.closedU, .s ",", closedText a.closedV, .s ",.F.", .s ")", nl] ++
    [.s "B_SPLINE_SURFACE_WITH_KNOTS(", nl] ++ mu ++ [.s ",", nl] ++ mv ++ [.s ",", nl] ++
    ku ++ [.s ",", nl] ++ kv ++ [.s ",", nl] ++
    [.s ".UNSPECIFIED.)", nl, .s "GEOMETRIC_REPRESENTATION_ITEM()", nl, .s "RATIONAL_B_SPLINE_SURFACE((", nl] ++
    ws ++ [nl, .s "))", nl, .s "REPRESENTATION_ITEM('')", nl, .s "SURFACE()", nl, .s ");", nl], ?_, ?_, ?_⟩
  · rw [← h]
    simp only [List.append_assoc, List.cons_append, List.nil_append]
  · simp [Plain, nl]
  · have hn : Plain [(.s "," : Tok K), nl] := by simp [Plain, nl]
    refine .append (.append (.append (.append (.append (.append (.append (.append (.append (.append (.append (.append ?_ ?_) (plain_mult h1)) hn) (plain_mult h2)) hn) (plain_knots h3)) hn) (plain_knots h4)) hn) ?_) (plain_weights h5)) ?_
    all_goals simp [Plain, nl, closedText]

/-- the text of one surface: its ids are `next` … and it refers to itself and to the header -/
theorem block_surface {next n : Int} {a : Nurbs.Surface K} {t : List (Tok K)} (hn : n = next + a.points.length)
    (h : surfaceToks next n a = some t) :
    Ended (pointsToks next a.points ++ t ++ faceToks n) ∧
    (defs (pointsToks next a.points ++ t ++ faceToks n)).Nodup ∧
    (∀ x, x ∈ defs (pointsToks next a.points ++ t ++ faceToks n) ↔ next ≤ x ∧ x < n + 6) ∧
    (NetOK a → ∀ r ∈ refs (pointsToks next a.points ++ t ++ faceToks n), r = 12 ∨ next ≤ r ∧ r < n + 6) := by
  obtain ⟨pre, post, rfl, hpre, hpost⟩ := surfaceToks_shape h
  obtain ⟨e1, r1, d1⟩ := refs_points next a.points
  have e2 : Ended ([nl, .id n, .eq false] ++ (pre ++ refRows next a.nbU a.nbV ++ post ++ [nl])) := by
    rw [← List.append_assoc]
    exact ended_snoc _ _
  have hne : ∀ b, Tok.eq b ∉ pre ++ refRows next a.nbU a.nbV ++ post ++ [nl] := by
    intro b hb
    simp only [List.mem_append] at hb
    rcases hb with ((hb | hb) | hb) | hb
    · exact (hpre _ hb).2 b rfl
    · rcases refRows_mem hb with ⟨x, hx⟩ | ⟨j, i, _, _, hx⟩ <;> cases hx
    · exact (hpost _ hb).2 b rfl
    · simp [nl] at hb
  obtain ⟨hd, hr⟩ := noEq_defs hne
  have d2 : defs ([nl, .id n, .eq false] ++ (pre ++ refRows next a.nbU a.nbV ++ post ++ [nl])) = [n] := by
    simp only [nl, List.cons_append, List.nil_append, defs, startsEq, if_true] at hd ⊢
    rw [hd]
  have r2 : refs ([nl, .id n, .eq false] ++ (pre ++ refRows next a.nbU a.nbV ++ post ++ [nl])) =
      refs (pre ++ refRows next a.nbU a.nbV ++ post ++ [nl]) := by
    simp only [nl, List.cons_append, List.nil_append, refs, startsEq, if_true]
  have d3 : defs (faceToks n : List (Tok K)) = [n + 1, n + 2, n + 3, n + 4, n + 5] := rfl
  have r3 : refs (faceToks n : List (Tok K)) = [n, n + 2 - 1, n + 3 - 1, n + 4 - 1, 12, n + 5 - 1] := rfl
  have hde : defs (pointsToks next a.points ++ ([nl, .id n, .eq false] ++ (pre ++ refRows next a.nbU a.nbV ++ post ++ [nl])) ++ faceToks n) =
      ((List.range a.points.length).map fun (i : Nat) => next + (i : Int)) ++ [n] ++ [n + 1, n + 2, n + 3, n + 4, n + 5] := by
    rw [defs_append _ _ (e1.append e2), defs_append _ _ e1, d1, d2, d3]
  have hmem : ∀ x, x ∈ ((List.range a.points.length).map fun (i : Nat) => next + (i : Int)) ↔ next ≤ x ∧ x < n := by
    intro x
    rw [List.mem_map]
    constructor
    · rintro ⟨i, hi, rfl⟩
      rw [List.mem_range] at hi
      omega
    · rintro ⟨h1, h2⟩
      exact ⟨(x - next).toNat, List.mem_range.2 (by omega), by omega⟩
  refine ⟨(e1.append e2).append (fun m h => by simp [faceToks, nl] at h), ?_, ?_, ?_⟩
  · rw [hde, List.append_assoc, List.nodup_append]
    refine ⟨(List.nodup_range).map (fun i j h => by simpa using h), by simp, ?_⟩
    intro x hx y hy
    have := (hmem x).1 hx
    simp only [List.cons_append, List.nil_append, List.mem_cons, List.not_mem_nil, or_false] at hy
    omega
  · intro x
    rw [hde, List.append_assoc, List.mem_append, hmem]
    simp only [List.cons_append, List.nil_append, List.mem_cons, List.not_mem_nil, or_false]
    omega
  · intro hnet r hrr
    rw [refs_append _ _ (e1.append e2), refs_append _ _ e1, r1, r2, r3, List.nil_append, List.mem_append] at hrr
    rcases hrr with h | h
    · have h := hr r h
      simp only [List.mem_append] at h
      rcases h with ((h | h) | h) | h
      · exact absurd rfl ((hpre _ h).1 r)
      · rcases refRows_mem h with ⟨x, hx⟩ | ⟨j, i, hj, hi, hx⟩
        · cases hx
        · rw [Tok.id.injEq] at hx
          right
          have : a.nbU.toNat * j + i < a.points.length := by
            refine lt_of_lt_of_le ?_ hnet
            calc _ < a.nbU.toNat * j + a.nbU.toNat := by omega
              _ = a.nbU.toNat * (j + 1) := by ring
              _ ≤ _ := Nat.mul_le_mul_left _ hj
          have h2 : ((a.nbU.toNat * j + i : Nat) : Int) = a.nbU.toNat * j + i := by push_cast; ring
          have h3 : (0 : Int) ≤ a.nbU.toNat * j := by positivity
          omega
      · exact absurd rfl ((hpost _ h).1 r)
      · simp [nl] at h
    · simp only [List.mem_cons, List.not_mem_nil, or_false] at h
      omega

/-! ### All sessions -/

/-- what holds between two calls -/
structure Inv (w : Writer K) (net : Prop) : Prop where
  files : ∀ f ∈ w.files, (defs f).Nodup ∧ (net → ∀ r ∈ refs f, r ∈ defs f)
  out : w.isOpen = true → Ended w.out ∧ (defs w.out).Nodup ∧ (net → ∀ r ∈ refs w.out, r ∈ defs w.out) ∧
    12 ∈ defs w.out ∧ (w.good = true → ∀ x ∈ defs w.out, x < w.next)

theorem Inv.open {w : Writer K} {net : Prop} (h : Inv w net) (can : Bool) : Inv (w.open can) net := by
  unfold Writer.open Writer.openFile
  by_cases hc : w.isOpen = true ∨ (!can) = true
  · rw [if_pos hc]
    unfold Writer.put
    rw [if_neg (by simp)]
    refine ⟨h.files, fun ho => ?_⟩
    obtain ⟨a, b, c, d, e⟩ := h.out ho
    exact ⟨a, b, c, d, fun hg => by simp at hg⟩
  · rw [if_neg hc]
    unfold Writer.put
    rw [if_pos (by simp)]
    refine ⟨h.files, fun _ => ?_⟩
    simp only [List.nil_append]
    refine ⟨fun n hn => by simp [header, nl] at hn, ?_, ?_, ?_, ?_⟩
    · show ([10, 11, 12, 13, 14] : List Int).Nodup
      decide
    · intro _ r hr
      have hr : r ∈ ([11, 12, 14, 13] : List Int) := hr
      show r ∈ ([10, 11, 12, 13, 14] : List Int)
      simp at hr ⊢
      omega
    · show (12 : Int) ∈ ([10, 11, 12, 13, 14] : List Int)
      decide
    · intro _ x hx
      have hx : x ∈ ([10, 11, 12, 13, 14] : List Int) := hx
      simp at hx
      show x < 20
      omega

theorem Inv.close {w : Writer K} {net : Prop} (h : Inv w net) : Inv w.close net := by
  unfold Writer.close
  split
  · next ho =>
    obtain ⟨a, b, c, d, e⟩ := h.out ho
    refine ⟨?_, fun hh => by simp at hh⟩
    intro f hf
    simp only [List.mem_append, List.mem_singleton] at hf
    unfold Writer.put at hf
    split at hf
    · rcases hf with hf | rfl
      · exact h.files f hf
      · simp only
        have d1 : defs (footer : List (Tok K)) = [] := rfl
        have d2 : refs (footer : List (Tok K)) = [] := rfl
        rw [defs_append _ _ a, refs_append _ _ a, d1, d2, List.append_nil, List.append_nil]
        exact ⟨b, c⟩
    · rcases hf with hf | rfl
      · exact h.files f hf
      · exact ⟨b, c⟩
  · exact h

theorem Inv.surface {w w' : Writer K} {net : Prop} (h : Inv w net) {a : Nurbs.Surface K} (hn : net → NetOK a)
    (hw : w.surface a = some w') : Inv w' net := by
  unfold Writer.surface at hw
  simp only [bind, Option.bind_eq_some_iff] at hw
  obtain ⟨n, h1, _, -, t, ht, m, h2, hw⟩ := hw
  simp only [pure, Option.some.injEq] at hw
  have hn1 : n = w.next + a.points.length := by
    unfold int32 at h1
    split at h1
    · exact (Option.some.inj h1).symm
    · cases h1
  have hm : m = n + 6 := by
    unfold int32 at h2
    split at h2
    · exact (Option.some.inj h2).symm
    · cases h2
  obtain ⟨b1, b2, b3, b4⟩ := block_surface hn1 ht
  subst hw
  unfold Writer.put
  split
  · next hc =>
    refine ⟨h.files, fun ho => ?_⟩
    obtain ⟨c1, c2, c3, c4, c5⟩ := h.out hc.1
    have c5 := c5 hc.2
    simp only
    rw [defs_append _ _ c1, refs_append _ _ c1]
    refine ⟨c1.append b1, ?_, ?_, List.mem_append_left _ c4, ?_⟩
    · rw [List.nodup_append]
      refine ⟨c2, b2, fun x hx y hy => ?_⟩
      have := c5 x hx
      have := (b3 y).1 hy
      omega
    · intro hN r hr
      rw [List.mem_append] at hr ⊢
      rcases hr with hr | hr
      · exact Or.inl (c3 hN r hr)
      · rcases b4 (hn hN) r hr with rfl | hr
        · exact Or.inl c4
        · exact Or.inr ((b3 r).2 hr)
    · intro _ x hx
      rw [List.mem_append] at hx
      rcases hx with hx | hx
      · have := c5 x hx
        omega
      · have := (b3 x).1 hx
        omega
  · refine ⟨h.files, fun ho => ?_⟩
    obtain ⟨c1, c2, c3, c4, c5⟩ := h.out ho
    exact ⟨c1, c2, c3, c4, fun hg => by simp at hg⟩

theorem Inv.solid {net : Prop} {l : List (Nurbs.Surface K)} (hn : net → ∀ a ∈ l, NetOK a) {w w' : Writer K} (h : Inv w net)
    (hw : w.solid l = some w') : Inv w' net := by
  unfold Writer.solid at hw
  induction l generalizing w with
  | nil =>
    simp only [List.foldlM_nil, pure, Option.some.injEq] at hw
    subst hw
    exact h
  | cons a l ih =>
    simp only [List.foldlM_cons, bind, Option.bind_eq_some_iff] at hw
    obtain ⟨w1, h1, h2⟩ := hw
    exact ih (fun hN b hb => hn hN b (List.mem_cons_of_mem _ hb)) (h.surface (fun hN => hn hN a List.mem_cons_self) h1) h2

theorem Inv.run {net : Prop} {ops : List (Op K)} (hn : net → ∀ o ∈ ops, ∀ a ∈ o.surfaces, NetOK a) {w w' : Writer K} (h : Inv w net)
    (hw : ops.foldlM Op.run w = some w') : Inv w' net := by
  induction ops generalizing w with
  | nil =>
    simp only [List.foldlM_nil, pure, Option.some.injEq] at hw
    subst hw
    exact h
  | cons o ops ih =>
    simp only [List.foldlM_cons, bind, Option.bind_eq_some_iff] at hw
    obtain ⟨w1, h1, h2⟩ := hw
    refine ih (fun hN b hb => hn hN b (List.mem_cons_of_mem _ hb)) ?_ h2
    have ho := fun hN => hn hN o List.mem_cons_self
    cases o with
    | «open» can =>
      simp only [Op.run, Option.some.injEq] at h1
      subst h1
      exact h.open can
    | close =>
      simp only [Op.run, Option.some.injEq] at h1
      subst h1
      exact h.close
    | surface a => exact h.surface (fun hN => ho hN a (by simp [Op.surfaces])) h1
    | solid l => exact h.solid (fun hN => ho hN) h1

theorem Inv.session {net : Prop} {ops : List (Op K)} (hn : net → ∀ o ∈ ops, ∀ a ∈ o.surfaces, NetOK a)
    {files : List (List (Tok K))} (h : session ops = some files) :
    ∀ f ∈ files, (defs f).Nodup ∧ (net → ∀ r ∈ refs f, r ∈ defs f) := by
  unfold Step.session at h
  simp only [bind, Option.bind_eq_some_iff] at h
  obtain ⟨w, h1, h⟩ := h
  simp only [pure, Option.some.injEq] at h
  subst h
  have h0 : Inv (Writer.new : Writer K) net := ⟨by simp [Writer.new], by simp [Writer.new]⟩
  exact ((h0.run hn h1).close).files

/-- C66.  Whatever is done with a writer (opening, also twice or without success, writing
surfaces and solids, closing, in any order), in every file no id is defined twice, and, when
no surface has a net larger than its table of points, every id referred to is defined. -/
theorem step_ids {ops : List (Op K)} {files : List (List (Tok K))} (h : session ops = some files) :
    (∀ f ∈ files, (defs f).Nodup) ∧
    ((∀ o ∈ ops, ∀ a ∈ o.surfaces, NetOK a) → ∀ f ∈ files, FileOK f) :=
  ⟨fun f hf => (Inv.session (net := False) (fun h => h.elim) h f hf).1,
    fun hn f hf =>
      have := Inv.session (net := True) (fun _ => hn) h f hf
      ⟨this.1, this.2 trivial⟩⟩

/-! ### The lists in the text -/

/-- a table of tokens as a list of rows -/
def grid (nu nv : Nat) (g : Nat → Nat → Tok K) : List (Tok K) :=
  (((List.range nv).map fun j => tuple ((List.range nu).map (g j))).intersperse [.s ",", nl]).flatten

theorem intersperse_snoc {α : Type} (l : List α) (a s : α) :
    (l ++ [a]).intersperse s = (l.flatMap fun x => [x, s]) ++ [a] := by
  induction l with
  | nil => rfl
  | cons x l ih =>
    cases l with
    | nil => rfl
    | cons y l =>
      simp only [List.cons_append, List.intersperse_cons_cons, List.flatMap_cons, List.nil_append] at ih ⊢
      rw [ih]

theorem flatMap_comma {α : Type} (n : Nat) (f : Nat → α) (s : α) :
    ((List.range n).flatMap fun i => f i :: if (i : Int) + 1 ≠ n then [s] else []) = ((List.range n).map f).intersperse s := by
  cases n with
  | zero => rfl
  | succ n =>
    rw [List.range_succ, List.flatMap_append, List.map_append, List.map_singleton, intersperse_snoc, List.flatMap_map]
    congr 1
    · refine List.flatMap_congr fun i hi => ?_
      rw [List.mem_range] at hi
      rw [if_pos (by push_cast; omega)]
    · simp

theorem flatten_flatMap' {α β : Type} (l : List α) (g : α → List (List β)) :
    (l.flatMap g).flatten = l.flatMap fun x => (g x).flatten := by
  induction l with
  | nil => rfl
  | cons a l ih => rw [List.flatMap_cons, List.flatten_append, ih, List.flatMap_cons]

theorem flatMap_rows {α : Type} (n : Nat) (f : Nat → List α) (s : List α) :
    ((List.range n).flatMap fun i => f i ++ if (i : Int) + 1 ≠ n then s else []) = (((List.range n).map f).intersperse s).flatten := by
  cases n with
  | zero => rfl
  | succ n =>
    rw [List.range_succ, List.flatMap_append, List.map_append, List.map_singleton, intersperse_snoc, List.flatMap_map,
      List.flatten_append, flatten_flatMap']
    congr 1
    · refine List.flatMap_congr fun i hi => ?_
      rw [List.mem_range] at hi
      rw [if_pos (by push_cast; omega)]
      simp
    · simp

theorem loopN_flatMap {α β : Type} {n : Nat} {g : Nat → Res α} {v : Nat → α} {h : Nat → α → List β}
    (hg : ∀ i < n, g i = some (v i)) :
    loopN n (fun i (t : List β) => (g i).bind fun x => some (t ++ h i x)) [] = some ((List.range n).flatMap fun i => h i (v i)) := by
  induction n with
  | zero => rfl
  | succ n ih =>
    rw [loopN_succ, ih (fun i hi => hg i (by omega)), List.range_succ, List.flatMap_append]
    simp only [Option.bind_some]
    rw [hg n (by omega)]
    simp

theorem refRows_grid (start : Int) (nu nv : Nat) :
    refRows start nu nv = (grid nu nv fun j i => .id (start + (nu * j + i : Nat)) : List (Tok K)) := by
  unfold refRows grid
  rw [← flatMap_rows, Int.toNat_natCast]
  refine List.flatMap_congr fun j _ => ?_
  unfold refRow tuple comma
  rw [Int.toNat_natCast, ← flatMap_comma]
  congr 3
  refine List.flatMap_congr fun i _ => ?_
  congr 2
  push_cast
  ring

theorem weightRow_tuple {ws : List K} {nu j : Nat} {w : Nat → K} (h : ∀ i < nu, ws[nu * j + i]? = some (w i)) :
    weightRow ws nu j = some (tuple ((List.range nu).map fun i => .d (w i))) := by
  have := loopN_flatMap (n := nu) (g := fun i => getI ws ((nu : Int) * j + i)) (v := w)
    (h := fun i x => (.d x : Tok K) :: comma i nu) (by
      intro i hi
      have e : (nu : Int) * j + i = ((nu * j + i : Nat) : Int) := by push_cast; ring
      simp only [e]
      rw [getI_natCast]
      exact h i hi)
  unfold weightRow
  rw [Int.toNat_natCast]
  simp only [bind, pure]
  rw [this, Option.bind_some]
  unfold tuple comma
  rw [← flatMap_comma]

theorem weightRows_grid {ws : List K} {nu nv : Nat} (w : Nat → K) (hw : ∀ i < nu * nv, ws[i]? = some (w i)) :
    weightRows ws nu nv = some (grid nu nv fun j i => .d (w (nu * j + i))) := by
  have := loopN_flatMap (n := nv) (g := fun j => weightRow ws nu j)
    (v := fun j => tuple ((List.range nu).map fun i => .d (w (nu * j + i))))
    (h := fun j r => r ++ if (j : Int) + 1 ≠ nv then [(.s "," : Tok K), nl] else []) (by
      intro j hj
      refine weightRow_tuple fun i hi => hw _ ?_
      calc _ < nu * j + nu := by omega
        _ = nu * (j + 1) := by ring
        _ ≤ _ := Nat.mul_le_mul_left _ hj)
  unfold weightRows grid
  rw [← flatMap_rows, Int.toNat_natCast]
  simp only [bind, pure, List.append_assoc]
  exact this

/-- the multiplicities in the file -/
def mults (degree len : Nat) : List Int := [(degree : Int) + 1] ++ List.replicate (len - 2 * degree - 2) 1 ++ [(degree : Int) + 1]

/-- the knots in the file -/
def listed (degree : Nat) (ks : List K) : List K := (ks.drop degree).take (ks.length - 2 * degree)

theorem multToks_some {degree len : Nat} (hd : degree < 2147483647) (h : 2 * degree + 2 ≤ len) (hl : len ≤ 2147483647) :
    multToks degree len = some (tuple ((mults degree len).map .i) : List (Tok K)) := by
  unfold multToks
  have hu : usize ((len : Int) - degree * 2 - 2) = ((len - 2 * degree - 2 : Nat) : Int) := by
    unfold usize
    rw [Int.emod_eq_of_lt (by omega) (by omega)]
    omega
  have hi : int32 ((degree : Int) + 1) = some ((degree : Int) + 1) := int32_eq (by omega) (by omega)
  simp only [hu, bind, pure, hi, Option.bind_some]
  have ha : assert (((len - 2 * degree - 2 : Nat) : Int) ≤ 2147483647) = some () := by
    unfold CAD.assert
    rw [if_pos (by omega)]
  rw [ha, Option.bind_some, Int.toNat_natCast]
  have hr : List.replicate (len - 2 * degree - 2) (1 : Int) = (List.range (len - 2 * degree - 2)).map fun _ => 1 := by simp
  unfold tuple mults
  rw [List.map_append, List.map_singleton, intersperse_snoc, hr, List.map_append, List.map_singleton, List.map_map,
    List.flatMap_append, List.flatMap_map]
  simp [Function.comp]

theorem knotToks_some {degree : Nat} {ks : List K} (h : 2 * degree + 2 ≤ ks.length) (hl : ks.length ≤ 2147483647) :
    knotToks degree ks = some (tuple ((listed degree ks).map .d)) := by
  have h1 : usize ((ks.length : Int) - degree) = ((ks.length - degree : Nat) : Int) := by
    unfold usize
    rw [Int.emod_eq_of_lt (by omega) (by omega)]
    omega
  have h2 : usize ((ks.length : Int) - degree - 1) = ((ks.length - degree - 1 : Nat) : Int) := by
    unfold usize
    rw [Int.emod_eq_of_lt (by omega) (by omega)]
    omega
  have hlen : (listed degree ks).length = ks.length - 2 * degree := by
    unfold listed
    rw [List.length_take, List.length_drop]
    omega
  have hne : listed degree ks ≠ [] := by
    intro h0
    rw [h0] at hlen
    simp at hlen
    omega
  obtain ⟨x0, -⟩ := List.exists_cons_of_ne_nil hne
  have hget : ∀ i < ks.length - 2 * degree, getI ks ((degree : Int) + i) = some ((listed degree ks).getD i x0) := by
    intro i hi
    have e : (degree : Int) + i = ((degree + i : Nat) : Int) := by push_cast; ring
    rw [e, getI_natCast, List.getD_eq_getElem?_getD]
    unfold listed
    rw [List.getElem?_take_of_lt hi, List.getElem?_drop]
    rw [List.getElem?_eq_getElem (by omega)]
    rfl
  have key := loopN_flatMap (n := ks.length - 2 * degree) (g := fun i => getI ks ((degree : Int) + i))
    (v := fun i => (listed degree ks).getD i x0)
    (h := fun k x => (.d x : Tok K) :: if (degree : Int) + k ≠ ((ks.length - degree - 1 : Nat) : Int) then [.s ","] else []) hget
  unfold knotToks
  simp only [h1, h2, bind, pure]
  rw [if_pos (by omega)]
  have ha : CAD.assert (((ks.length - degree : Nat) : Int) ≤ 2147483647 ∨ ((ks.length - degree : Nat) : Int) - degree ≤ 0) = some () := by
    unfold CAD.assert
    rw [if_pos (Or.inl (by omega))]
  have hc : (((ks.length - degree : Nat) : Int) - degree).toNat = ks.length - 2 * degree := by omega
  rw [ha, Option.bind_some, hc, key, Option.bind_some]
  unfold tuple
  congr 3
  have hm : (listed degree ks).map (.d : K → Tok K) = (List.range (ks.length - 2 * degree)).map fun i => .d ((listed degree ks).getD i x0) := by
    apply List.ext_getElem
    · simp [hlen]
    · intro i hi1 hi2
      rw [List.getElem_map, List.getElem_map, List.getElem_range, List.getD_eq_getElem?_getD, List.getElem?_eq_getElem]
      rfl
  rw [hm, ← flatMap_comma]
  refine List.flatMap_congr fun i hi => ?_
  rw [List.mem_range] at hi
  congr 1
  have : ((degree : Int) + i ≠ ((ks.length - degree - 1 : Nat) : Int)) ↔ ((i : Int) + 1 ≠ ((ks.length - 2 * degree : Nat) : Int)) := by omega
  simp only [this]

/-- the loops over the knots end only when there are enough knots -/
theorem multToks_defined {degree len : Nat} {l : List (Tok K)} (hd : degree ≤ 2147483647) (hl : len ≤ 9223372036854775807)
    (h : multToks degree len = some l) : 2 * degree + 2 ≤ len ∧ degree < 2147483647 := by
  unfold multToks at h
  simp only [bind, Option.bind_eq_some_iff] at h
  obtain ⟨_, ha, d, h1, -⟩ := h
  unfold CAD.assert at ha
  split at ha
  · next hu =>
    unfold int32 at h1
    split at h1
    · next hi =>
      refine ⟨?_, by omega⟩
      by_contra hc
      unfold usize at hu
      have : ((len : Int) - degree * 2 - 2) % 18446744073709551616 = (len : Int) - degree * 2 - 2 + 18446744073709551616 := by omega
      omega
    · cases h1
  · cases ha

theorem split_listed {degree : Nat} {ks : List K} (h : 2 * degree + 2 ≤ ks.length) :
    ∃ x mid y, listed degree ks = x :: (mid ++ [y]) ∧ mid.length = ks.length - 2 * degree - 2 ∧
      ks = ks.take degree ++ (x :: (mid ++ [y])) ++ ks.drop (ks.length - degree) := by
  have hlen : (listed degree ks).length = ks.length - 2 * degree := by
    unfold listed
    rw [List.length_take, List.length_drop]
    omega
  have hks : ks = ks.take degree ++ listed degree ks ++ ks.drop (ks.length - degree) := by
    conv_lhs => rw [← List.take_append_drop degree ks, ← List.take_append_drop (ks.length - 2 * degree) (ks.drop degree)]
    rw [List.append_assoc, List.drop_drop, show degree + (ks.length - 2 * degree) = ks.length - degree by omega]
    rfl
  generalize listed degree ks = l at hlen hks
  cases l with
  | nil => simp at hlen; omega
  | cons x r =>
    rcases List.eq_nil_or_concat r with rfl | ⟨mid, y, rfl⟩
    · simp at hlen; omega
    · rw [List.concat_eq_append] at hlen hks
      refine ⟨x, mid, y, by rw [List.concat_eq_append], ?_, hks⟩
      simp only [List.length_cons, List.length_append, List.length_nil] at hlen
      omega

theorem knotData {degree : Nat} {ks : List K} (h : 2 * degree + 2 ≤ ks.length) :
    KnotData degree ks (mults degree ks.length) (listed degree ks) := by
  obtain ⟨x, mid, y, hl, hm, hks⟩ := split_listed h
  have hlen : (listed degree ks).length = ks.length - 2 * degree := by
    unfold listed
    rw [List.length_take, List.length_drop]
    omega
  have hget : ∀ i < ks.length - 2 * degree, (listed degree ks)[i]? = ks[degree + i]? := by
    intro i hi
    unfold listed
    rw [List.getElem?_take_of_lt hi, List.getElem?_drop]
  refine ⟨?_, ?_, ?_, ?_⟩
  · rw [hlen]
    simp only [mults, List.length_append, List.length_cons, List.length_nil, List.length_replicate]
    omega
  · simp only [mults, List.sum_append, List.sum_cons, List.sum_nil, List.sum_replicate, nsmul_eq_mul, mul_one]
    omega
  · rintro ⟨c1, c2⟩
    have hx : ks[degree]? = some x := by
      have := hget 0 (by omega)
      rw [hl] at this
      simpa using this.symm
    have hy : ks[ks.length - 1 - degree]? = some y := by
      have := hget (ks.length - 2 * degree - 1) (by omega)
      rw [hl, show degree + (ks.length - 2 * degree - 1) = ks.length - 1 - degree by omega,
        show ks.length - 2 * degree - 1 = mid.length + 1 by omega] at this
      rw [← this]
      simp
    have h1 : ks.take degree = List.replicate degree x := by
      rw [List.eq_replicate_iff]
      refine ⟨by rw [List.length_take]; omega, fun b hb => ?_⟩
      obtain ⟨i, hi, rfl⟩ := List.getElem_of_mem hb
      rw [List.length_take] at hi
      have := c1 i (by omega)
      rw [← c1 degree le_rfl, hx, List.getElem?_eq_getElem (by omega)] at this
      rw [List.getElem_take]
      exact Option.some.inj this
    have h2 : ks.drop (ks.length - degree) = List.replicate degree y := by
      rw [List.eq_replicate_iff]
      refine ⟨by rw [List.length_drop]; omega, fun b hb => ?_⟩
      obtain ⟨i, hi, rfl⟩ := List.getElem_of_mem hb
      rw [List.length_drop] at hi
      have := c2 (degree - 1 - i) (by omega)
      rw [← c2 degree le_rfl, hy, List.getElem?_eq_getElem (by omega)] at this
      rw [List.getElem_drop, ← Option.some.inj this]
      congr 1
      omega
    conv_rhs => rw [hks, h1, h2]
    rw [hl]
    unfold Step.expand mults
    rw [← hm, List.append_assoc, List.cons_append, List.nil_append, List.zip_cons_cons, List.zip_append (by simp)]
    have hmid : (((List.replicate mid.length (1 : Int)).zip mid).flatMap fun q => List.replicate q.1.toNat q.2) = mid := by
      clear hm hks hl
      induction mid with
      | nil => rfl
      | cons z mid ih =>
        rw [List.length_cons, List.replicate_succ, List.zip_cons_cons, List.flatMap_cons, ih]
        rfl
    have ht : ((degree : Int) + 1).toNat = degree + 1 := by omega
    rw [List.flatMap_cons, List.flatMap_append, hmid]
    simp only [List.zip_cons_cons, List.zip_nil_right, List.flatMap_cons, List.flatMap_nil, List.append_nil, ht]
    rw [List.replicate_succ', List.replicate_succ]
    simp only [List.append_assoc, List.cons_append, List.nil_append]
  · intro hd
    rw [List.nodup_iff_getElem?_ne_getElem?]
    intro i j hij hj
    rw [hlen] at hj
    rw [hget i (by omega), hget j hj]
    exact hd _ _ (by omega) (by omega) (by omega)

/-- the text that writing a surface adds to an open file -/
theorem surface_out {w w' : Writer K} {a : Nurbs.Surface K} (hw : w.surface a = some w') (ho : w.isOpen = true) (hg : w.good = true) :
    ∃ mu mv ku kv ws, multToks a.degreeU a.knotsU.length = some mu ∧ multToks a.degreeV a.knotsV.length = some mv ∧
      knotToks a.degreeU a.knotsU = some ku ∧ knotToks a.degreeV a.knotsV = some kv ∧
      weightRows a.weights a.nbU a.nbV = some ws ∧ w'.next = w.next + a.points.length + 6 ∧
      w'.out = w.out ++ pointsToks w.next a.points ++ [nl, .id (w.next + a.points.length), .eq false, .s "(", nl, .s "BOUNDED_SURFACE()", nl] ++
        [.s "B_SPLINE_SURFACE(", .i a.degreeU, .s ",", .i a.degreeV, .s ",(", nl] ++
        refRows w.next a.nbU a.nbV ++ [nl, .s "),.UNSPECIFIED.,", closedText a.closedU, .s ",", closedText a.closedV, .s ",.F.", .s ")", nl] ++
        [.s "B_SPLINE_SURFACE_WITH_KNOTS(", nl] ++ mu ++ [.s ",", nl] ++ mv ++ [.s ",", nl] ++ ku ++ [.s ",", nl] ++ kv ++ [.s ",", nl] ++
        [.s ".UNSPECIFIED.)", nl, .s "GEOMETRIC_REPRESENTATION_ITEM()", nl, .s "RATIONAL_B_SPLINE_SURFACE((", nl] ++
        ws ++ ([nl, .s "))", nl, .s "REPRESENTATION_ITEM('')", nl, .s "SURFACE()", nl, .s ");", nl, nl] ++ faceToks (w.next + a.points.length)) := by
  unfold Writer.surface at hw
  simp only [bind, Option.bind_eq_some_iff] at hw
  obtain ⟨n, h1, _, -, t, ht, m, h2, hw⟩ := hw
  simp only [pure, Option.some.injEq] at hw
  have hn1 : n = w.next + a.points.length := by
    unfold int32 at h1
    split at h1
    · exact (Option.some.inj h1).symm
    · cases h1
  have hm : m = n + 6 := by
    unfold int32 at h2
    split at h2
    · exact (Option.some.inj h2).symm
    · cases h2
  unfold surfaceToks at ht
  simp only [bind, Option.bind_eq_some_iff] at ht
  obtain ⟨mu, e1, mv, e2, ku, e3, kv, e4, ws, e5, ht⟩ := ht
  simp only [pure, Option.some.injEq] at ht
  refine ⟨mu, mv, ku, kv, ws, e1, e2, e3, e4, e5, ?_, ?_⟩
  · rw [← hw, hm, hn1]
  · rw [← hw, ← ht, ← hn1]
    unfold Writer.put
    rw [if_pos ⟨ho, hg⟩]
    simp only [List.append_assoc, List.cons_append, List.nil_append]

/-- C67.  Each surface written to an open file adds a `B_SPLINE_SURFACE_WITH_KNOTS` with two
lists of multiplicities and two lists of knots; in each direction there are as many
multiplicities as knots and they sum up to the length of the knot vector.  For a clamped knot
vector the lists stand for exactly that knot vector.  The listed knots are distinct when
interior knots are simple; otherwise they are not, `step_double_knots` (`_partial`). -/
theorem step_knots_partial {w w' : Writer K} {a : Nurbs.Surface K} (hw : w.surface a = some w') (ho : w.isOpen = true) (hg : w.good = true)
    (hu : 0 ≤ a.degreeU) (hv : 0 ≤ a.degreeV) (hu' : a.degreeU ≤ 2147483647) (hv' : a.degreeV ≤ 2147483647)
    (hku : a.knotsU.length ≤ 2147483647) (hkv : a.knotsV.length ≤ 2147483647) :
    ∃ pre post mu mv ku kv, w'.out = w.out ++ pre ++
        [.s "B_SPLINE_SURFACE_WITH_KNOTS(", nl] ++ tuple (mu.map .i) ++ [.s ",", nl] ++ tuple (mv.map .i) ++ [.s ",", nl] ++
        tuple (ku.map .d) ++ [.s ",", nl] ++ tuple (kv.map .d) ++ [.s ",", nl] ++ post ∧
      KnotData a.degreeU.toNat a.knotsU mu ku ∧ KnotData a.degreeV.toNat a.knotsV mv kv := by
  obtain ⟨mu, mv, ku, kv, ws, h1, h2, h3, h4, -, -, hout⟩ := surface_out hw ho hg
  obtain ⟨du, hdu⟩ := Int.eq_ofNat_of_zero_le hu
  obtain ⟨dv, hdv⟩ := Int.eq_ofNat_of_zero_le hv
  rw [hdu] at h1 h3 hu'
  rw [hdv] at h2 h4 hv'
  obtain ⟨a1, a2⟩ := multToks_defined (by omega) (by omega) h1
  obtain ⟨b1, b2⟩ := multToks_defined (by omega) (by omega) h2
  rw [multToks_some a2 a1 hku, Option.some.injEq] at h1
  rw [multToks_some b2 b1 hkv, Option.some.injEq] at h2
  rw [knotToks_some a1 hku, Option.some.injEq] at h3
  rw [knotToks_some b1 hkv, Option.some.injEq] at h4
  subst h1 h2 h3 h4
  rw [hdu, hdv, Int.toNat_natCast, Int.toNat_natCast]
  refine ⟨pointsToks w.next a.points ++ [nl, .id (w.next + a.points.length), .eq false, .s "(", nl, .s "BOUNDED_SURFACE()", nl] ++
        [.s "B_SPLINE_SURFACE(", .i a.degreeU, .s ",", .i a.degreeV, .s ",(", nl] ++
        refRows w.next a.nbU a.nbV ++ [nl, .s "),.UNSPECIFIED.,", closedText a.closedU, .s ",", closedText a.closedV, .s ",.F.", .s ")", nl],
    [.s ".UNSPECIFIED.)", nl, .s "GEOMETRIC_REPRESENTATION_ITEM()", nl, .s "RATIONAL_B_SPLINE_SURFACE((", nl] ++
        ws ++ ([nl, .s "))", nl, .s "REPRESENTATION_ITEM('')", nl, .s "SURFACE()", nl, .s ");", nl, nl] ++ faceToks (w.next + a.points.length)), mults du a.knotsU.length, mults dv a.knotsV.length, listed du a.knotsU, listed dv a.knotsV, ?_, knotData a1, knotData b1⟩
  rw [hout, hdu, hdv]
  simp only [List.append_assoc]

/-- C86.  The control net in the file: the entry of row `j` and column `i` refers to an entity
of the same file that is the control point `(i, j)`, and the weights stand in the same order. -/
theorem step_net {w w' : Writer K} {a : Nurbs.Surface K} (hw : w.surface a = some w') (ho : w.isOpen = true) (hg : w.good = true)
    (hu : 0 ≤ a.nbU) (hv : 0 ≤ a.nbV) :
    (∀ (k : Nat) (p : P3 K), a.points[k]? = some p → ∃ pre post, w'.out = pre ++
      [.id (w.next + k), .eq false, .s "CARTESIAN_POINT('',(", .d p.x, .s ",", .d p.y, .s ",", .d p.z, .s "));", nl] ++ post) ∧
    (∃ pre post, w'.out = pre ++ [.s "B_SPLINE_SURFACE(", .i a.degreeU, .s ",", .i a.degreeV, .s ",(", nl] ++
      (grid a.nbU.toNat a.nbV.toNat fun j i => .id (w.next + (a.nbU.toNat * j + i : Nat))) ++ [nl, .s "),.UNSPECIFIED.,"] ++ post) ∧
    (∀ x0, a.nbU.toNat * a.nbV.toNat ≤ a.weights.length → ∃ pre post, w'.out = pre ++ [.s "RATIONAL_B_SPLINE_SURFACE((", nl] ++
      (grid a.nbU.toNat a.nbV.toNat fun j i => .d (a.weights.getD (a.nbU.toNat * j + i) x0)) ++ [nl, .s "))", nl] ++ post) := by
  obtain ⟨mu, mv, ku, kv, ws, h1, h2, h3, h4, h5, -, hout⟩ := surface_out hw ho hg
  refine ⟨?_, ?_, ?_⟩
  · intro k p hp
    have key : ∀ (ps : List (P3 K)) (n : Int) (k : Nat), ps[k]? = some p →
        ∃ pre post, pointsToks n ps = pre ++ pointToks (n + k) p ++ post := by
      intro ps
      induction ps with
      | nil => intro n k h; simp at h
      | cons q ps ih =>
        intro n k h
        cases k with
        | zero =>
          rw [List.getElem?_cons_zero, Option.some.injEq] at h
          subst h
          exact ⟨[], pointsToks (n + 1) ps, by simp [pointsToks]⟩
        | succ k =>
          obtain ⟨pre, post, e⟩ := ih (n + 1) k (by simpa using h)
          refine ⟨pointToks n q ++ pre, post, ?_⟩
          rw [pointsToks, e, show n + 1 + (k : Int) = n + (k + 1 : Nat) by push_cast; ring]
          simp only [List.append_assoc]
    obtain ⟨pre, post, e⟩ := key a.points w.next k hp
    rw [hout, e]
    have hs : ∀ (A B : List (Tok K)), ∃ pre' post', A ++ (pre ++ pointToks (w.next + k) p ++ post) ++ B = pre' ++ pointToks (w.next + k) p ++ post' :=
      fun A B => ⟨A ++ pre, post ++ B, by simp only [List.append_assoc]⟩
    simp only [List.append_assoc (w.out ++ (pre ++ pointToks (w.next + k) p ++ post))]
    exact hs _ _
  · obtain ⟨nu, hnu⟩ := Int.eq_ofNat_of_zero_le hu
    obtain ⟨nv, hnv⟩ := Int.eq_ofNat_of_zero_le hv
    rw [hout, hnu, hnv, refRows_grid, Int.toNat_natCast, Int.toNat_natCast]
    refine ⟨w.out ++ pointsToks w.next a.points ++ [nl, .id (w.next + a.points.length), .eq false, .s "(", nl, .s "BOUNDED_SURFACE()", nl],
      [closedText a.closedU, .s ",", closedText a.closedV, .s ",.F.", .s ")", nl] ++
        [.s "B_SPLINE_SURFACE_WITH_KNOTS(", nl] ++ mu ++ [.s ",", nl] ++ mv ++ [.s ",", nl] ++ ku ++ [.s ",", nl] ++ kv ++ [.s ",", nl] ++
        [.s ".UNSPECIFIED.)", nl, .s "GEOMETRIC_REPRESENTATION_ITEM()", nl, .s "RATIONAL_B_SPLINE_SURFACE((", nl] ++
        ws ++ ([nl, .s "))", nl, .s "REPRESENTATION_ITEM('')", nl, .s "SURFACE()", nl, .s ");", nl, nl] ++ faceToks (w.next + a.points.length)), ?_⟩
    simp only [List.append_assoc, List.cons_append, List.nil_append]
  · intro x0 hlen
    obtain ⟨nu, hnu⟩ := Int.eq_ofNat_of_zero_le hu
    obtain ⟨nv, hnv⟩ := Int.eq_ofNat_of_zero_le hv
    rw [hnu, hnv, Int.toNat_natCast, Int.toNat_natCast] at hlen
    rw [hnu, hnv, weightRows_grid (fun i => a.weights.getD i x0) (by
      intro i hi
      rw [List.getElem?_eq_getElem (by omega), List.getD_eq_getElem?_getD, List.getElem?_eq_getElem (by omega)]
      rfl), Option.some.injEq] at h5
    rw [hout, hnu, hnv, Int.toNat_natCast, Int.toNat_natCast, ← h5]
    refine ⟨w.out ++ pointsToks w.next a.points ++ [nl, .id (w.next + a.points.length), .eq false, .s "(", nl, .s "BOUNDED_SURFACE()", nl] ++
        [.s "B_SPLINE_SURFACE(", .i a.degreeU, .s ",", .i a.degreeV, .s ",(", nl] ++
        refRows w.next nu nv ++ [nl, .s "),.UNSPECIFIED.,", closedText a.closedU, .s ",", closedText a.closedV, .s ",.F.", .s ")", nl] ++
        [.s "B_SPLINE_SURFACE_WITH_KNOTS(", nl] ++ mu ++ [.s ",", nl] ++ mv ++ [.s ",", nl] ++ ku ++ [.s ",", nl] ++ kv ++ [.s ",", nl] ++
        [.s ".UNSPECIFIED.)", nl, .s "GEOMETRIC_REPRESENTATION_ITEM()", nl], [.s "REPRESENTATION_ITEM('')", nl, .s "SURFACE()", nl, .s ");", nl, nl] ++ faceToks (w.next + a.points.length), ?_⟩
    simp only [List.append_assoc, List.cons_append, List.nil_append]

/-! ### When the calls are defined -/

/-- what the writer needs of a surface -/
structure Writable (a : Nurbs.Surface K) : Prop where
  degU : 0 ≤ a.degreeU
  degV : 0 ≤ a.degreeV
  knU : 2 * a.degreeU + 2 ≤ a.knotsU.length
  knV : 2 * a.degreeV + 2 ≤ a.knotsV.length
  knU' : a.knotsU.length ≤ 2147483647
  knV' : a.knotsV.length ≤ 2147483647
  nbU : 0 ≤ a.nbU
  nbV : 0 ≤ a.nbV
  net : NetOK a
  weights : a.nbU.toNat * a.nbV.toNat ≤ a.weights.length

theorem surface_defined {w : Writer K} {a : Nurbs.Surface K} (h : Writable a) (h0 : 0 ≤ w.next)
    (hn : w.next + a.points.length + 6 ≤ 2147483647) :
    ∃ w', w.surface a = some w' ∧ w'.next = w.next + a.points.length + 6 := by
  obtain ⟨du, hdu⟩ := Int.eq_ofNat_of_zero_le h.degU
  obtain ⟨dv, hdv⟩ := Int.eq_ofNat_of_zero_le h.degV
  obtain ⟨nu, hnu⟩ := Int.eq_ofNat_of_zero_le h.nbU
  obtain ⟨nv, hnv⟩ := Int.eq_ofNat_of_zero_le h.nbV
  have hU := h.knU
  have hV := h.knV
  have hU' := h.knU'
  have hV' := h.knV'
  have hN := h.net
  have hW := h.weights
  unfold NetOK at hN
  rw [hnu, hnv, Int.toNat_natCast, Int.toNat_natCast] at hN hW
  rw [hdu] at hU
  rw [hdv] at hV
  have hws : ∃ ws, weightRows a.weights nu nv = some ws := by
    cases hl : a.weights with
    | nil =>
      rw [hl] at hW
      simp only [List.length_nil, Nat.le_zero] at hW
      rcases Nat.mul_eq_zero.1 hW with h0 | h0
      · subst h0
        have key : ∀ n : Nat, ∃ t, loopN n (fun j (t : List (Tok K)) => do
            let r ← weightRow [] ((0 : Nat) : Int) j
            return t ++ r ++ if (j : Int) + 1 ≠ nv then [.s ",", nl] else []) [] = some t := by
          intro n
          induction n with
          | zero => exact ⟨_, rfl⟩
          | succ n ih =>
            obtain ⟨t, ht⟩ := ih
            rw [loopN_succ, ht]
            exact ⟨_, rfl⟩
        exact key _
      · subst h0
        exact ⟨_, rfl⟩
    | cons x0 l =>
      rw [← hl]
      refine ⟨_, weightRows_grid (fun i => a.weights.getD i x0) ?_⟩
      intro i hi
      rw [List.getElem?_eq_getElem (by omega), List.getD_eq_getElem?_getD, List.getElem?_eq_getElem (by omega)]
      rfl
  obtain ⟨ws, hws⟩ := hws
  have ht : ∃ t, surfaceToks w.next (w.next + a.points.length) a = some t := by
    unfold surfaceToks
    rw [hdu, hdv, hnu, hnv, multToks_some (by omega) (by omega) hU', multToks_some (by omega) (by omega) hV', knotToks_some (by omega) hU',
      knotToks_some (by omega) hV', hws]
    exact ⟨_, rfl⟩
  obtain ⟨t, ht⟩ := ht
  have hm : ((nu * nv : Nat) : Int) = (nu : Int) * nv := by push_cast; ring
  unfold Writer.surface
  rw [hnu, hnv, Int.toNat_natCast, Int.toNat_natCast]
  rw [int32_bind (by omega) (by omega), int32_bind (by omega) (by omega), ht, Option.bind_eq_bind, Option.bind_some,
    int32_bind (by omega) (by omega)]
  exact ⟨_, rfl, rfl⟩

/-- the number of entities written for some surfaces -/
def entities (l : List (Nurbs.Surface K)) : Nat := (l.map fun a => a.points.length + 6).sum

theorem solid_defined {l : List (Nurbs.Surface K)} (h : ∀ a ∈ l, Writable a) {w : Writer K} (h0 : 0 ≤ w.next)
    (hn : w.next + entities l ≤ 2147483647) : ∃ w', w.solid l = some w' ∧ w'.next = w.next + entities l := by
  unfold Writer.solid
  induction l generalizing w with
  | nil => exact ⟨w, rfl, by simp [entities]⟩
  | cons a l ih =>
    have he : (entities (a :: l) : Int) = a.points.length + 6 + entities l := by simp [entities]
    rw [he] at hn
    obtain ⟨w1, e1, n1⟩ := surface_defined (w := w) (h a List.mem_cons_self) h0 (by omega)
    obtain ⟨w2, e2, n2⟩ := ih (fun b hb => h b (List.mem_cons_of_mem _ hb)) (w := w1) (by omega) (by omega)
    refine ⟨w2, ?_, by omega⟩
    rw [List.foldlM_cons, e1]
    exact e2

theorem run_defined {ops : List (Op K)} (h : ∀ o ∈ ops, ∀ a ∈ o.surfaces, Writable a) {w : Writer K} (h0 : 0 ≤ w.next) {b : Nat}
    (hb : w.next ≤ b) (hb' : 20 ≤ b) (hn : b + (entities (ops.flatMap Op.surfaces) : Int) ≤ 2147483647) :
    ∃ w', ops.foldlM Op.run w = some w' := by
  induction ops generalizing w b with
  | nil => exact ⟨w, rfl⟩
  | cons o ops ih =>
    have ih := @ih (fun x hx => h x (List.mem_cons_of_mem _ hx))
    have ho := h o List.mem_cons_self
    have he : (entities ((o :: ops).flatMap Op.surfaces) : Int) = entities o.surfaces + entities (ops.flatMap Op.surfaces) := by
      simp [entities]
    rw [he] at hn
    have step : ∀ w1 b1, o.run w = some w1 → 0 ≤ w1.next → w1.next ≤ (b1 : Nat) → 20 ≤ b1 →
        (b1 : Int) + entities (ops.flatMap Op.surfaces) ≤ 2147483647 → ∃ w', (o :: ops).foldlM Op.run w = some w' := by
      intro w1 b1 e1 a1 a2 a3 a4
      obtain ⟨w2, e2⟩ := ih a1 a2 a3 a4
      refine ⟨w2, ?_⟩
      rw [List.foldlM_cons, e1]
      exact e2
    cases o with
    | «open» can =>
      exact step (w.open can) b rfl (by show (0 : Int) ≤ 20; decide) (by show (20 : Int) ≤ b; omega) hb' (by simp only [Op.surfaces, entities] at hn ⊢; omega)
    | close =>
      have hc : w.close.next = w.next := by
        unfold Writer.close Writer.put
        split
        · split <;> rfl
        · rfl
      exact step w.close b rfl (by omega) (by omega) hb' (by simp only [Op.surfaces, entities] at hn ⊢; omega)
    | surface a =>
      have e : (entities (Op.surface a).surfaces : Int) = a.points.length + 6 := by simp [Op.surfaces, entities]
      rw [e] at hn
      obtain ⟨w1, e1, n1⟩ := surface_defined (w := w) (ho a (by simp [Op.surfaces])) h0 (by omega)
      exact step w1 (b + (a.points.length + 6)) e1 (by omega) (by push_cast; omega) (by omega) (by push_cast; omega)
    | solid l =>
      have e : (entities (Op.solid l).surfaces : Int) = entities l := by simp [Op.surfaces]
      rw [e] at hn
      obtain ⟨w1, e1, n1⟩ := solid_defined (w := w) ho h0 (by omega)
      exact step w1 (b + entities l) e1 (by omega) (by push_cast; omega) (by omega) (by push_cast; omega)

/-- C66.  Nothing goes wrong as long as the surfaces have their knots, points and weights and
the ids fit in an `int`. -/
theorem step_defined {ops : List (Op K)} (h : ∀ o ∈ ops, ∀ a ∈ o.surfaces, Writable a)
    (hn : 20 + entities (ops.flatMap Op.surfaces) ≤ 2147483647) : ∃ files, session ops = some files ∧ ∀ f ∈ files, FileOK f := by
  obtain ⟨w, hw⟩ := run_defined h (w := Writer.new) (b := 20) (by show (0 : Int) ≤ 10; decide) (by show (10 : Int) ≤ 20; decide) le_rfl (by omega)
  have hs : session ops = some w.close.files := by
    unfold session
    rw [hw]
    rfl
  exact ⟨_, hs, (step_ids hs).2 fun o ho a ha => (h o ho a ha).net⟩

/-! ### Concrete cases -/

/-- a bilinear patch -/
def patch : Nurbs.Surface ℚ :=
  { Nurbs.Surface.new with degreeU := 1, degreeV := 1, nbU := 2, nbV := 2, knotsU := [0, 0, 1, 1], knotsV := [0, 0, 1, 1],
                           weights := [1, 1, 1, 1], points := [⟨0, 0, 0⟩, ⟨1, 0, 0⟩, ⟨0, 1, 0⟩, ⟨1, 1, 1⟩] }

theorem patch_writable : Writable patch := by
  constructor <;> decide

example : ∃ files, session [.open true, .surface patch, .open true, .close, .open true, .solid [patch, patch]] = some files ∧
    ∀ f ∈ files, FileOK f :=
  step_defined (by
    intro o ho a ha
    simp only [List.mem_cons, List.not_mem_nil, or_false] at ho
    rcases ho with rfl | rfl | rfl | rfl | rfl | rfl <;> simp [Op.surfaces] at ha <;> subst ha <;> exact patch_writable) (by decide)

/-- the ids in a file with two surfaces -/
example : (session [.open true, .solid [patch, patch]]).map (List.map defs) =
    some [[10, 11, 12, 13, 14, 20, 21, 22, 23, 24, 25, 26, 27, 28, 29, 30, 31, 32, 33, 34, 35, 36, 37, 38, 39]] := by
  decide +kernel

example : Clamped 1 patch.knotsU := by
  constructor <;> decide

/-- C66, the precondition is needed: with less points than the net has entries the file refers
to an id that does not exist. -/
theorem step_missing_points :
    ∃ f, session [.open true, .surface { patch with nbU := 10, weights := List.replicate 20 1 }] = some [f] ∧ 39 ∈ refs f ∧ 39 ∉ defs f := by
  refine ⟨((session [.open true, .surface { patch with nbU := 10, weights := List.replicate 20 1 }]).getD []).headI, ?_, ?_, ?_⟩ <;>
    decide +kernel

/-- a surface with a double interior knot, as the arcs of `NurbsFactory` have -/
def arcs : Nurbs.Surface ℚ :=
  { Nurbs.Surface.new with degreeU := 2, degreeV := 1, nbU := 5, nbV := 2, knotsU := [0, 0, 0, 1 / 2, 1 / 2, 1, 1, 1], knotsV := [0, 0, 1, 1],
                           weights := List.replicate 10 1, points := List.replicate 10 ⟨0, 0, 0⟩ }

theorem arcs_writable : Writable arcs := by
  constructor <;> decide

/-- C67, the negation of the rest: a double interior knot is listed twice with multiplicity 1,
the listed knots are not distinct. -/
theorem step_double_knots :
    ∃ f, session [.open true, .surface arcs] = some [f] ∧
      [.s "B_SPLINE_SURFACE_WITH_KNOTS(", nl] ++ tuple ([3, 1, 1, 3].map .i) ++ [.s ",", nl] ++ tuple ([2, 2].map .i) ++ [.s ",", nl] ++
        tuple ([0, 1 / 2, 1 / 2, 1].map .d) <:+: f := by
  refine ⟨((session [.open true, .surface arcs]).getD []).headI, ?_, ?_⟩ <;> decide +kernel

/-- C67: for a knot vector that is not clamped the lists stand for another one. -/
theorem step_unclamped :
    ∃ f, session [.open true, .surface { patch with knotsU := [0, 1 / 4, 3 / 4, 1] }] = some [f] ∧
      [.s "B_SPLINE_SURFACE_WITH_KNOTS(", nl] ++ tuple ([2, 2].map .i) ++ [.s ",", nl] ++ tuple ([2, 2].map .i) ++ [.s ",", nl] ++
        tuple ([1 / 4, 3 / 4].map .d) <:+: f ∧ expand [2, 2] [1 / 4, 3 / 4] ≠ [0, 1 / 4, 3 / 4, (1 : ℚ)] := by
  refine ⟨((session [.open true, .surface { patch with knotsU := [0, 1 / 4, 3 / 4, 1] }]).getD []).headI, ?_, ?_, ?_⟩ <;> decide +kernel

end CAD.Step
