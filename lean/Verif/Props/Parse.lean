import Verif.Stdlib.Parse

/-! C13: parsing decimal numerals. -/

namespace Props
open Wasm Spec
variable {σ : Type} (M : Wasm.Mod σ) (g : Store σ)

/-- The strings on which `string-to-uint?` is wrong: 39 digits, too large, last digit 0..5. -/
def ParseBug (cs : List Nat) : Prop :=
  cs.length = 39 ∧ cs.all isDigit = true ∧ 2 ^ 128 ≤ decVal cs ∧ cs.getD 38 0 ≤ 53

theorem digits_lt (cs : List Nat) (ha : cs.all isDigit = true) : decVal cs < 10 ^ cs.length := by
  have := decVal_take_lt cs cs.length (Nat.le_refl _) (by rw [List.take_length]; exact ha)
  rwa [List.take_length] at this

theorem split39 (cs : List Nat) (h : cs.length = 39) (ha : cs.all isDigit = true) :
    decVal cs = 10 * decVal (cs.take 38) + (cs.getD 38 0 - 48) ∧ 48 ≤ cs.getD 38 0 ∧
      cs.getD 38 0 < 58 := by
  have hs := decVal_take_succ cs 38 (by omega)
  have ha' := all_take_succ cs 38 (by omega)
  rw [List.take_of_length_le (i := 38 + 1) (by omega)] at hs ha'
  rw [ha] at ha'
  have := (isDigit_iff (cs.getD 38 0)).1 (by
    cases h : isDigit (cs.getD 38 0)
    · rw [h, Bool.and_false] at ha'; cases ha'
    · rfl)
  exact ⟨hs, this.1, this.2⟩

theorem codeParse_spec (cs : List Nat) (h39 : cs.length ≤ 39) (hb : ¬ ParseBug cs) :
    codeParse cs = parseUInt cs := by
  by_cases hn : cs = []
  · subst hn; rfl
  have hlen : 1 ≤ cs.length := by
    cases cs with
    | nil => exact absurd rfl hn
    | cons => simp
  cases ha : cs.all isDigit
  · rw [codeParse_bad ha, parseUInt, parseDec, if_neg (by simp [ha])]; rfl
  rw [parseUInt, parseDec, if_pos ⟨hn, ha⟩, Option.filter_some, codeParse, if_pos ⟨hlen, h39, ha⟩]
  have hlt := digits_lt cs ha
  by_cases h : cs.length = 39
  · obtain ⟨hs, hd1, hd2⟩ := split39 cs h ha
    have hb' : 2 ^ 128 ≤ decVal cs → ¬ cs.getD 38 0 ≤ 53 := fun h1 h2 => hb ⟨h, ha, h1, h2⟩
    generalize cs.getD 38 0 = d at *
    generalize decVal (cs.take 38) = v at *
    generalize decVal cs = w at *
    by_cases hv : (2 ^ 128 - 1) / 10 ≤ v
    · rw [if_pos ⟨h, hv⟩]
      by_cases hd : d ≤ 53
      · rw [if_pos hd, if_pos (by simp; omega)]
        congr 1; omega
      · rw [if_neg hd, if_neg (by simp; omega)]
    · rw [if_neg (fun h => hv h.2), if_pos (by simp; omega)]
  · rw [if_neg (fun h' => h h'.1), if_pos]
    have : 10 ^ cs.length ≤ 10 ^ 38 := Nat.pow_le_pow_right (by omega) (by omega)
    simp only [decide_eq_true_eq]; omega

/-- The number of characters after an optional minus sign. -/
def numeralLen (cs : List Nat) : Nat :=
  if cs.head? = some 45 then cs.tail.length else cs.length

theorem signParse_spec (neg : Bool) (cs : List Nat) (h39 : cs.length ≤ 39) :
    signParse neg (codeParse cs) = signParse neg (parseDec cs) := by
  by_cases hb : ParseBug cs
  · obtain ⟨h1, h2, h3, h4⟩ := hb
    obtain ⟨hs, hd1, hd2⟩ := split39 cs h1 h2
    have hn : cs ≠ [] := by rintro rfl; simp at h1
    rw [parseDec, if_pos ⟨hn, h2⟩, codeParse, if_pos ⟨by omega, h39, h2⟩, if_pos ⟨h1, by omega⟩,
      if_pos h4]
    simp only [signParse, Option.map_some, Option.filter_some]
    rw [if_neg, if_neg]
    · cases neg <;> simp <;> omega
    · cases neg <;> simp <;> omega
  · rw [codeParse_spec cs h39 hb, parseUInt]
    cases parseDec cs with
    | none => rfl
    | some n =>
      by_cases h : n < 2 ^ 128
      · rw [Option.filter_some, if_pos (by simpa using h)]
      · rw [Option.filter_some, if_neg (by simpa using h)]
        simp only [signParse, Option.map_some, Option.filter_some, Option.map_none]
        rw [if_neg]
        · rfl
        · cases neg <;> simp <;> omega

theorem codeParseInt_spec (cs : List Nat) (h39 : numeralLen cs ≤ 39) :
    codeParseInt cs = parseInt cs := by
  cases cs with
  | nil => rfl
  | cons c ds =>
    by_cases hc : c = 45
    · subst hc
      rw [codeParseInt, if_pos rfl, signParse_spec _ ds h39]
      simp [signParse, parseInt]
    · have h45 : ¬ (c :: ds).head? = some 45 := by simpa using hc
      rw [numeralLen, if_neg h45] at h39
      rw [codeParseInt, if_neg hc, signParse_spec _ _ h39, signParse, parseInt, if_neg h45]
      simp

/-- `string-to-uint?` is right on every string of at most 39 characters outside the bug class. -/
theorem C13_string_to_uint_partial (o l : BitVec 32) (h : o.toNat + l.toNat ≤ g.mem.size)
    (h39 : l.toNat ≤ 39) (hb : ¬ ParseBug (asciiAt g.mem o.toNat l.toNat)) :
    Runs M (.std .string_to_uint) [.i32 o, .i32 l] g
      (.ret (encOptU (parseUInt (asciiAt g.mem o.toNat l.toNat))) g) := by
  have := runs_string_to_uint (M := M) o l h
  rwa [codeParse_spec _ (by rw [length_ascii]; exact h39) hb] at this

/-- On the bug class the code returns a number instead of none. -/
theorem C13_string_to_uint_counterexample (o l : BitVec 32) (h : o.toNat + l.toNat ≤ g.mem.size)
    (hb : ParseBug (asciiAt g.mem o.toNat l.toNat)) :
    parseUInt (asciiAt g.mem o.toNat l.toNat) = none ∧
    ∃ n, Runs M (.std .string_to_uint) [.i32 o, .i32 l] g (.ret (encOptU (some n)) g) := by
  have hr := runs_string_to_uint (M := M) o l h
  obtain ⟨h1, h2, h3, h4⟩ := hb
  generalize asciiAt g.mem o.toNat l.toNat = cs at *
  have hn : cs ≠ [] := by rintro rfl; simp at h1
  obtain ⟨hs, hd1, hd2⟩ := split39 cs h1 h2
  constructor
  · rw [parseUInt, parseDec, if_pos ⟨hn, h2⟩, Option.filter_some, if_neg (by simpa using h3)]
  · rw [codeParse, if_pos ⟨by omega, by omega, h2⟩, if_pos ⟨h1, by omega⟩, if_pos h4] at hr
    exact ⟨_, hr⟩

/-- The bug class is not empty: 4 followed by 38 zeros. -/
example : ParseBug (52 :: List.replicate 38 48) := by
  refine ⟨by decide, by decide, by decide +kernel, by decide⟩

/-- Numerals of more than 39 characters are rejected, leading zeros or not. -/
theorem C13_string_to_uint_long (o l : BitVec 32) (h39 : 39 < l.toNat) :
    Runs M (.std .string_to_uint) [.i32 o, .i32 l] g (.ret (encOptU none) g) :=
  runs_string_to_uint_none o l (.inr h39)

/-- `string-to-int?` is right on every string with at most 39 characters after the sign. -/
theorem C13_string_to_int_partial (o l : BitVec 32) (h : o.toNat + l.toNat ≤ g.mem.size)
    (h1 : o.toNat + 1 ≤ g.mem.size) (h39 : numeralLen (asciiAt g.mem o.toNat l.toNat) ≤ 39) :
    Runs M (.std .string_to_int) [.i32 o, .i32 l] g
      (.ret (encOptI (parseInt (asciiAt g.mem o.toNat l.toNat))) g) := by
  have := runs_string_to_int (M := M) o l h h1
  rwa [codeParseInt_spec _ h39] at this

/-- The same for UTF-8 strings of `n` characters. -/
theorem C13_utf8_to_uint_partial (o l : BitVec 32) (n : Nat) (hn : l.toNat = 4 * n)
    (h : o.toNat + l.toNat ≤ g.mem.size) (h39 : n ≤ 39)
    (hb : ¬ ParseBug (scalarsAt g.mem o.toNat n)) :
    Runs M (.std .utf8_to_uint) [.i32 o, .i32 l] g
      (.ret (encOptU (parseUInt (scalarsAt g.mem o.toNat n))) g) := by
  have := runs_utf8_to_uint (M := M) o l n hn h
  rwa [codeParse_spec _ (by rw [length_scalars]; exact h39) hb] at this

theorem C13_utf8_to_int_partial (o l : BitVec 32) (n : Nat) (hn : l.toNat = 4 * n)
    (h : o.toNat + l.toNat ≤ g.mem.size) (h4 : o.toNat + 4 ≤ g.mem.size)
    (h39 : numeralLen (scalarsAt g.mem o.toNat n) ≤ 39) :
    Runs M (.std .utf8_to_int) [.i32 o, .i32 l] g
      (.ret (encOptI (parseInt (scalarsAt g.mem o.toNat n))) g) := by
  have := runs_utf8_to_int (M := M) o l n hn h h4
  rwa [codeParseInt_spec _ h39] at this

/-- A memory holding "-42" at 10 and "70" as scalars at 20. -/
def numMem : Mem where
  size := 65536
  byte i := if i = 10 then 45#8 else if i = 11 then 52#8 else if i = 12 then 50#8 else
    if i = 23 then 55#8 else if i = 27 then 48#8 else 0#8
  le := by decide

example (h : g.mem = numMem) :
    Runs M (.std .string_to_int) [.i32 10#32, .i32 3#32] g (.ret (encOptI (some (-42))) g) := by
  have := C13_string_to_int_partial M g 10#32 3#32 (by rw [h]; decide) (by rw [h]; decide)
    (by rw [h]; decide)
  rw [h] at this; exact this

example (h : g.mem = numMem) :
    Runs M (.std .utf8_to_uint) [.i32 20#32, .i32 8#32] g (.ret (encOptU (some 70)) g) := by
  have := C13_utf8_to_uint_partial M g 20#32 8#32 2 rfl (by rw [h]; decide) (by decide)
    (by rw [h]; rintro ⟨h, -⟩; revert h; decide)
  rw [h] at this; exact this

end Props
