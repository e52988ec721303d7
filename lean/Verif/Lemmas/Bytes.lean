import Verif.Model.Bytes
import Verif.Lemmas.Build
import Mathlib.Tactic.Ring
import Mathlib.Tactic.Linarith

namespace CAD

theorem int32_eq {x : Int} (h1 : -2147483648 ≤ x) (h2 : x ≤ 2147483647) : int32 x = some x := if_pos ⟨h1, h2⟩

/-- to be used with `rw`: reducing `int32` on a variable by computation does not end -/
theorem int32_bind {α : Type} {x : Int} (h1 : -2147483648 ≤ x) (h2 : x ≤ 2147483647) (f : Int → Res α) :
    (int32 x >>= f) = f x := by rw [int32_eq h1 h2]; rfl

theorem int32_some {x y : Int} (h : int32 x = some y) : y = x ∧ -2147483648 ≤ x ∧ x ≤ 2147483647 := by
  unfold int32 at h
  split at h
  · next h' => exact ⟨(Option.some.inj h).symm, h'⟩
  · cases h

theorem length_leBytes (n x : Nat) : (leBytes n x).length = n := by
  induction n generalizing x with
  | zero => rfl
  | succ n ih => simp [leBytes, ih]

theorem leNat_leBytes (n x : Nat) (h : x < 256 ^ n) : leNat (leBytes n x) = x := by
  induction n generalizing x with
  | zero => simp only [pow_zero] at h; simp [leBytes, leNat]; omega
  | succ n ih =>
    rw [leBytes, leNat, ih (x / 256) (by rw [Nat.div_lt_iff_lt_mul (by norm_num)]; rw [pow_succ] at h; exact h)]
    rw [UInt8.toNat_ofNat']
    have := Nat.mod_add_div x 256
    norm_num at this ⊢
    exact this

@[simp] theorem length_le32 (x : Int) : (le32 x).length = 4 := length_leBytes _ _
@[simp] theorem length_le16 (x : Int) : (le16 x).length = 2 := length_leBytes _ _

theorem dec32_le32 {x : Int} (h1 : -2147483648 ≤ x) (h2 : x ≤ 2147483647) : dec32 (le32 x) = x := by
  unfold dec32 le32
  rw [leNat_leBytes _ _ (by omega)]
  split <;> omega

theorem dec16_le16 {x : Int} (h1 : -32768 ≤ x) (h2 : x ≤ 32767) : dec16 (le16 x) = x := by
  unfold dec16 le16
  rw [leNat_leBytes _ _ (by omega)]
  split <;> omega

/-- reading `n` bytes that are there -/
theorem IStream.read_append (a rest buf : List Byte) (n : Int) (hn : n = a.length) (hb : a.length ≤ buf.length) :
    IStream.read ⟨a ++ rest, true⟩ n buf = some (⟨rest, true⟩, a ++ buf.drop a.length) := by
  subst hn
  have : (a.length : Int) ≤ buf.length := by exact_mod_cast hb
  unfold IStream.read
  simp [assert, this]

theorem IStream.read_failed (rest buf : List Byte) (n : Int) (hb : n ≤ buf.length) :
    IStream.read ⟨rest, false⟩ n buf = some (⟨rest, false⟩, buf) := by
  unfold IStream.read
  simp [assert, hb]

theorem IStream.read_neg (s : IStream) (buf : List Byte) (n : Int) (hn : n < 0) :
    IStream.read s n buf = some (⟨s.rest, false⟩, buf) := by
  have h1 : n ≤ buf.length := by omega
  have h2 : ¬ 0 ≤ n := by omega
  unfold IStream.read
  simp [assert, h1, h2]

/-- whatever is read, the buffer keeps its size -/
theorem IStream.read_some (s : IStream) (buf : List Byte) (n : Int) (hb : n ≤ buf.length) :
    ∃ s' buf', IStream.read s n buf = some (s', buf') ∧ buf'.length = buf.length := by
  unfold IStream.read
  simp only [assert, hb, if_true, Option.bind_eq_bind, Option.bind_some]
  split
  · refine ⟨_, _, rfl, ?_⟩
    simp
    omega
  · exact ⟨_, _, rfl, rfl⟩

end CAD
