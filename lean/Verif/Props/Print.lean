import Verif.Stdlib.Print
import Verif.Props.Parse

/-! C12, C14: printing integers in decimal, and parsing them back. -/

namespace Props
open Wasm Spec
variable {σ : Type} (M : Wasm.Mod σ) (g : Store σ)

theorem decVal_snoc (l : List Nat) (c : Nat) : decVal (l ++ [c]) = 10 * decVal l + (c - 48) := by
  simp [decVal, List.foldl_append]

/-- `decStr n` is the canonical numeral of `n`: it consists of digits, denotes `n`, and starts with
'0' only if it is "0". -/
theorem decStr_canonical (n : Nat) :
    (decStr n).all isDigit = true ∧ decVal (decStr n) = n ∧
      ((decStr n).head? = some 48 ↔ n = 0) := by
  induction n using Nat.strongRecOn with
  | _ n ih =>
    rcases Nat.lt_or_ge n 10 with h | h
    · rw [decStr_small h]
      refine ⟨by simp [isDigit]; omega, by simp [decVal], by simp⟩
    · obtain ⟨h1, h2, h3⟩ := ih (n / 10) (by omega)
      rw [decStr_big h]
      refine ⟨?_, ?_, ?_⟩
      · rw [List.all_append, h1]; simp [isDigit]; omega
      · rw [decVal_snoc, h2]; omega
      · have hp := length_decStr_pos (n / 10)
        rw [List.head?_append_of_ne_nil _ (by intro e; rw [e] at hp; simp at hp), h3]; omega

/-- The canonical numeral is the only one: digits, no leading zero. -/
theorem decStr_unique (l : List Nat) (hne : l ≠ []) (hd : l.all isDigit = true)
    (h0 : l.head? = some 48 → l = [48]) : l = decStr (decVal l) := by
  induction l using List.reverseRecOn with
  | nil => exact absurd rfl hne
  | append_singleton l c ih =>
    rw [List.all_append, Bool.and_eq_true] at hd
    have hc : 48 ≤ c ∧ c < 58 := (isDigit_iff c).1 (by simpa using hd.2)
    rw [decVal_snoc]
    by_cases hl : l = []
    · subst hl
      rw [decStr_small (by simp only [decVal, List.foldl]; omega)]
      simp [decVal]; omega
    · have hh : ¬ l.head? = some 48 := by
        intro e
        have := h0 (by rw [List.head?_append_of_ne_nil _ hl]; exact e)
        have h2 := congrArg List.length this
        simp at h2
        exact hl h2
      have e := ih hl hd.1 (fun h => absurd h hh)
      have hpos : decVal l ≠ 0 := by
        intro hz
        rw [hz] at e
        exact hh (by rw [e, decStr_small (by decide)]; rfl)
      rw [decStr_big (by omega)]
      congr 1
      · rw [show (10 * decVal l + (c - 48)) / 10 = decVal l by omega]; exact e
      · congr 1; omega

theorem length_decStr_le {n : Nat} {k : Nat} (h : n < 10 ^ (k + 1)) : (decStr n).length ≤ k + 1 := by
  induction k generalizing n with
  | zero => rw [decStr_small (by simpa using h)]; simp
  | succ k ih =>
    rcases Nat.lt_or_ge n 10 with h1 | h1
    · rw [decStr_small h1]; simp
    · rw [decStr_big h1, List.length_append, List.length_singleton]
      have := ih (n := n / 10) (by rw [Nat.pow_succ] at h; omega)
      omega

theorem length_decStr_uint {n : Nat} (h : IsUInt n) : (decStr n).length ≤ 39 :=
  length_decStr_le (k := 38) (by unfold IsUInt at h; omega)

theorem natAbs_uint {z : Int} (h : IsInt z) : IsUInt z.natAbs := by
  unfold IsInt at h; unfold IsUInt; omega

theorem length_intStr {z : Int} (h : IsInt z) : (intStr z).length ≤ 40 := by
  have := length_decStr_uint (natAbs_uint h)
  unfold intStr
  split
  · rw [List.length_cons]; omega
  · omega

/-- The result of a printing function: the string, of `n` characters of `N` bytes, is at `o` in
the memory `m'`, which is the old memory everywhere else. -/
structure Printed (m m' : Mem) (o N n : Nat) : Prop where
  size : m'.size = m.size
  frame : ∀ i, i < o ∨ o + N * n ≤ i → m'.byte i = m.byte i

/-- `uint-to-string` writes the canonical decimal numeral of every uint. (`1 ≤ o` excludes only
address 0, which lies in the runtime's own data.) -/
theorem C12_uint_to_string {n : Nat} (hn : IsUInt n) (o : BitVec 32) (ho : 1 ≤ o.toNat)
    (hsz : o.toNat + (decStr n).length ≤ g.mem.size) (hlt : o.toNat + (decStr n).length < 2 ^ 32) :
    ∃ m', Runs M (.std .uint_to_string) (encU n ++ [.i32 o]) g
        (.ret [.i32 o, .i32 (BitVec.ofNat 32 (decStr n).length)] (g.setMem m')) ∧
      asciiAt m' o.toNat (decStr n).length = decStr n ∧
      Printed g.mem m' o.toNat 1 (decStr n).length := by
  obtain ⟨lo, hi, rfl⟩ := exists_u128 hn
  obtain ⟨m', ⟨h1, h2⟩, h3⟩ := runs_uint_to_string (M := M) (g := g) lo hi o _ rfl ho
    (by omega) (by omega)
  rw [Nat.one_mul] at h3
  rw [encU_u128]
  exact ⟨m', h3, by rw [← charsAt_one]; exact h2, h1.1, h1.2⟩

theorem C12_int_to_string {z : Int} (hz : IsInt z) (o : BitVec 32) (ho : 1 ≤ o.toNat)
    (hsz : o.toNat + (intStr z).length ≤ g.mem.size) (hlt : o.toNat + (intStr z).length < 2 ^ 32) :
    ∃ m', Runs M (.std .int_to_string) (encI z ++ [.i32 o]) g
        (.ret [.i32 o, .i32 (BitVec.ofNat 32 (intStr z).length)] (g.setMem m')) ∧
      asciiAt m' o.toNat (intStr z).length = intStr z ∧
      Printed g.mem m' o.toNat 1 (intStr z).length := by
  obtain ⟨lo, hi, rfl⟩ := exists_i128 hz
  obtain ⟨m', ⟨h1, h2⟩, h3⟩ := runs_int_to_string (M := M) (g := g) lo hi o _ rfl ho
    (by omega) (by omega)
  rw [Nat.one_mul] at h3
  rw [encI_i128]
  exact ⟨m', h3, by rw [← charsAt_one]; exact h2, h1.1, h1.2⟩

/-- The UTF-8 versions write four-byte characters. -/
theorem C12_uint_to_utf8 {n : Nat} (hn : IsUInt n) (o : BitVec 32) (ho : 4 ≤ o.toNat)
    (hsz : o.toNat + 4 * (decStr n).length ≤ g.mem.size)
    (hlt : o.toNat + 4 * (decStr n).length < 2 ^ 32) :
    ∃ m', Runs M (.std .uint_to_utf8) (encU n ++ [.i32 o]) g
        (.ret [.i32 o, .i32 (BitVec.ofNat 32 (4 * (decStr n).length))] (g.setMem m')) ∧
      scalarsAt m' o.toNat (decStr n).length = decStr n ∧
      Printed g.mem m' o.toNat 4 (decStr n).length := by
  obtain ⟨lo, hi, rfl⟩ := exists_u128 hn
  obtain ⟨m', ⟨h1, h2⟩, h3⟩ := runs_uint_to_utf8 (M := M) (g := g) lo hi o _ rfl ho hsz hlt
  rw [encU_u128]
  exact ⟨m', h3, by rw [← charsAt_four]; exact h2, h1.1, h1.2⟩

theorem C12_int_to_utf8 {z : Int} (hz : IsInt z) (o : BitVec 32) (ho : 4 ≤ o.toNat)
    (hsz : o.toNat + 4 * (intStr z).length ≤ g.mem.size)
    (hlt : o.toNat + 4 * (intStr z).length < 2 ^ 32) :
    ∃ m', Runs M (.std .int_to_utf8) (encI z ++ [.i32 o]) g
        (.ret [.i32 o, .i32 (BitVec.ofNat 32 (4 * (intStr z).length))] (g.setMem m')) ∧
      scalarsAt m' o.toNat (intStr z).length = intStr z ∧
      Printed g.mem m' o.toNat 4 (intStr z).length := by
  obtain ⟨lo, hi, rfl⟩ := exists_i128 hz
  obtain ⟨m', ⟨h1, h2⟩, h3⟩ := runs_int_to_utf8 (M := M) (g := g) lo hi o _ rfl ho hsz hlt
  rw [encI_i128]
  exact ⟨m', h3, by rw [← charsAt_four]; exact h2, h1.1, h1.2⟩

/-- Parsing the numeral of a uint gives the uint. -/
theorem parseUInt_decStr {n : Nat} (h : IsUInt n) : parseUInt (decStr n) = some n := by
  obtain ⟨h1, h2, _⟩ := decStr_canonical n
  have hp := length_decStr_pos n
  rw [parseUInt, parseDec, if_pos ⟨by intro e; rw [e] at hp; simp at hp, h1⟩, h2,
    Option.filter_some, if_pos (by simpa [IsUInt] using h)]

theorem head_decStr (n : Nat) : ¬ (decStr n).head? = some 45 := by
  intro e
  obtain ⟨h1, _, _⟩ := decStr_canonical n
  cases hd : decStr n with
  | nil => rw [hd] at e; cases e
  | cons c l =>
    rw [hd] at e h1
    simp only [List.head?_cons, Option.some.injEq] at e
    subst e
    simp [isDigit] at h1

theorem parseInt_intStr {z : Int} (h : IsInt z) : parseInt (intStr z) = some z := by
  obtain ⟨h1, h2, _⟩ := decStr_canonical z.natAbs
  have hp := length_decStr_pos z.natAbs
  have hpd : parseDec (decStr z.natAbs) = some z.natAbs := by
    rw [parseDec, if_pos ⟨by intro e; rw [e] at hp; simp at hp, h1⟩, h2]
  unfold IsInt at h
  unfold intStr parseInt
  by_cases hz : z < 0
  · rw [if_pos hz, if_pos (List.head?_cons ..), List.tail_cons, hpd]
    simp only [Option.map_some]
    rw [show -(z.natAbs : Int) = z by omega, Option.filter_some, if_pos (by simpa using h)]
  · rw [if_neg hz, if_neg (head_decStr _), hpd]
    simp only [Option.map_some]
    rw [show (z.natAbs : Int) = z by omega, Option.filter_some, if_pos (by simpa using h)]

theorem not_bug_decStr {n : Nat} (h : IsUInt n) : ¬ ParseBug (decStr n) := by
  rintro ⟨_, _, h3, _⟩
  rw [(decStr_canonical n).2.1] at h3
  unfold IsUInt at h; omega

theorem numeralLen_intStr {z : Int} (h : IsInt z) : numeralLen (intStr z) ≤ 39 := by
  have := length_decStr_uint (natAbs_uint h)
  unfold numeralLen intStr
  by_cases hz : z < 0
  · rw [if_pos hz, if_pos (List.head?_cons ..)]; exact this
  · rw [if_neg hz, if_neg (head_decStr _)]; exact this

/-- Print, then parse: ASCII, uint. The parser runs on the printer's two results, in the store the
printer left. -/
theorem C14_uint_string {n : Nat} (hn : IsUInt n) (o : BitVec 32) (ho : 1 ≤ o.toNat)
    (hsz : o.toNat + (decStr n).length ≤ g.mem.size) (hlt : o.toNat + (decStr n).length < 2 ^ 32) :
    ∃ s g', Runs M (.std .uint_to_string) (encU n ++ [.i32 o]) g (.ret s g') ∧
      Runs M (.std .string_to_uint) s g' (.ret (encOptU (some n)) g') := by
  obtain ⟨m', h1, h2, h3⟩ := C12_uint_to_string M g hn o ho hsz hlt
  have hl : (BitVec.ofNat 32 (decStr n).length).toNat = (decStr n).length := by
    rw [BitVec.toNat_ofNat]; omega
  refine ⟨_, _, h1, ?_⟩
  have := C13_string_to_uint_partial M (g.setMem m') o (BitVec.ofNat 32 (decStr n).length)
    (by rw [hl, mem_setMem, h3.size]; exact hsz) (by rw [hl]; exact length_decStr_uint hn)
    (by rw [hl, mem_setMem, h2]; exact not_bug_decStr hn)
  rwa [hl, mem_setMem, h2, parseUInt_decStr hn] at this

theorem C14_int_string {z : Int} (hz : IsInt z) (o : BitVec 32) (ho : 1 ≤ o.toNat)
    (hsz : o.toNat + (intStr z).length ≤ g.mem.size) (hlt : o.toNat + (intStr z).length < 2 ^ 32) :
    ∃ s g', Runs M (.std .int_to_string) (encI z ++ [.i32 o]) g (.ret s g') ∧
      Runs M (.std .string_to_int) s g' (.ret (encOptI (some z)) g') := by
  obtain ⟨m', h1, h2, h3⟩ := C12_int_to_string M g hz o ho hsz hlt
  have hl : (BitVec.ofNat 32 (intStr z).length).toNat = (intStr z).length := by
    rw [BitVec.toNat_ofNat]; omega
  have hp : 1 ≤ (intStr z).length := by
    have := length_decStr_pos z.natAbs
    unfold intStr; split
    · rw [List.length_cons]; omega
    · exact this
  refine ⟨_, _, h1, ?_⟩
  have := C13_string_to_int_partial M (g.setMem m') o (BitVec.ofNat 32 (intStr z).length)
    (by rw [hl, mem_setMem, h3.size]; exact hsz) (by rw [mem_setMem, h3.size]; omega)
    (by rw [hl, mem_setMem, h2]; exact numeralLen_intStr hz)
  rwa [hl, mem_setMem, h2, parseInt_intStr hz] at this

theorem C14_uint_utf8 {n : Nat} (hn : IsUInt n) (o : BitVec 32) (ho : 4 ≤ o.toNat)
    (hsz : o.toNat + 4 * (decStr n).length ≤ g.mem.size)
    (hlt : o.toNat + 4 * (decStr n).length < 2 ^ 32) :
    ∃ s g', Runs M (.std .uint_to_utf8) (encU n ++ [.i32 o]) g (.ret s g') ∧
      Runs M (.std .utf8_to_uint) s g' (.ret (encOptU (some n)) g') := by
  obtain ⟨m', h1, h2, h3⟩ := C12_uint_to_utf8 M g hn o ho hsz hlt
  have hl : (BitVec.ofNat 32 (4 * (decStr n).length)).toNat = 4 * (decStr n).length := by
    rw [BitVec.toNat_ofNat]; omega
  refine ⟨_, _, h1, ?_⟩
  have := C13_utf8_to_uint_partial M (g.setMem m') o _ (decStr n).length hl
    (by rw [hl, mem_setMem, h3.size]; exact hsz) (length_decStr_uint hn)
    (by rw [mem_setMem, h2]; exact not_bug_decStr hn)
  rwa [mem_setMem, h2, parseUInt_decStr hn] at this

theorem C14_int_utf8 {z : Int} (hz : IsInt z) (o : BitVec 32) (ho : 4 ≤ o.toNat)
    (hsz : o.toNat + 4 * (intStr z).length ≤ g.mem.size)
    (hlt : o.toNat + 4 * (intStr z).length < 2 ^ 32) :
    ∃ s g', Runs M (.std .int_to_utf8) (encI z ++ [.i32 o]) g (.ret s g') ∧
      Runs M (.std .utf8_to_int) s g' (.ret (encOptI (some z)) g') := by
  obtain ⟨m', h1, h2, h3⟩ := C12_int_to_utf8 M g hz o ho hsz hlt
  have hl : (BitVec.ofNat 32 (4 * (intStr z).length)).toNat = 4 * (intStr z).length := by
    rw [BitVec.toNat_ofNat]; omega
  have hp : 1 ≤ (intStr z).length := by
    have := length_decStr_pos z.natAbs
    unfold intStr; split
    · rw [List.length_cons]; omega
    · exact this
  refine ⟨_, _, h1, ?_⟩
  have := C13_utf8_to_int_partial M (g.setMem m') o _ (intStr z).length hl
    (by rw [hl, mem_setMem, h3.size]; exact hsz) (by rw [mem_setMem, h3.size]; omega)
    (by rw [mem_setMem, h2]; exact numeralLen_intStr hz)
  rwa [mem_setMem, h2, parseInt_intStr hz] at this

theorem intStr_min : intStr (-2 ^ 127) = [45, 49, 55, 48, 49, 52, 49, 49, 56, 51, 52, 54, 48, 52, 54,
    57, 50, 51, 49, 55, 51, 49, 54, 56, 55, 51, 48, 51, 55, 49, 53, 56, 56, 52, 49, 48, 53, 55, 50,
    56] := by
  simp [intStr, decStr]

/-- The hypotheses are met: the smallest int, at 1352 in any memory of one page. -/
example (h : g.mem.size = 65536) :
    ∃ s g', Runs M (.std .int_to_string) (encI (-2 ^ 127) ++ [.i32 1352#32]) g (.ret s g') ∧
      Runs M (.std .string_to_int) s g' (.ret (encOptI (some (-2 ^ 127))) g') := by
  have hl := intStr_min
  exact C14_int_string M g (by unfold IsInt; omega) _ (by decide)
    (by rw [hl, h]; decide) (by rw [hl]; decide)

example (h : g.mem.size = 65536) :
    ∃ m', Runs M (.std .uint_to_utf8) (encU 105 ++ [.i32 1352#32]) g
        (.ret [.i32 1352#32, .i32 12#32] (g.setMem m')) ∧ scalarsAt m' 1352 3 = [49, 48, 53] := by
  have e : decStr 105 = [49, 48, 53] := by simp [decStr]
  obtain ⟨m', h1, h2, _⟩ := C12_uint_to_utf8 M g (n := 105) (by unfold IsUInt; omega) 1352#32
    (by decide) (by rw [e, h]; decide) (by rw [e]; decide)
  rw [e] at h1 h2
  exact ⟨m', h1, h2⟩

end Props
