import Verif.Stdlib.Parse
import Verif.Wasm.Tac
import Verif.Spec.Names

/-! Runtime library: validation of strings and names (standard.wat 2282-2368, 3347-3368, 3849-3940). -/

namespace Wasm
open Spec
variable {σ : Type} {M : Mod σ} {is : List Instr} {stk loc : List Val} {g : Store σ}
  {Q : Res σ → Prop}

/-- A loaded byte. -/
theorem load1 (m : Mem) (a : Nat) : BitVec.ofNat 32 (m.read a 1) = (m.byte a).setWidth 32 := by
  rw [read_one]
  apply BitVec.eq_of_toNat_eq
  rw [BitVec.toNat_ofNat, BitVec.toNat_setWidth]

theorem asciiOk_code : ∀ b : BitVec 8,
    ((b.setWidth 32 - 32#32).toNat < 95 ∨
      ¬ (13824#32 >>> ((b.setWidth 32).toNat % 32) &&& b32 ((b.setWidth 32).toNat < 14)) = 0#32) ↔
    asciiOk b.toNat = true := by
  decide +kernel

theorem asciiAt_zero (m : Mem) (a : Nat) : asciiAt m a 0 = [] := rfl
theorem asciiAt_succ (m : Mem) (a n : Nat) :
    asciiAt m a (n + 1) = (m.byte a).toNat :: asciiAt m (a + 1) n := rfl

theorem runs_is_valid_string_ascii (o l : BitVec 32) (h : o.toNat + l.toNat ≤ g.mem.size) :
    Runs M (.std .is_valid_string_ascii) [.i32 o, .i32 l] g
      (.ret [.i32 (b32 ((asciiAt g.mem o.toNat l.toNat).all asciiOk = true))] g) := by
  have hle := g.mem.le
  apply runs_std (by simp)
  wpx [stdFunc, Std.is_valid_string_ascii, Std.is_valid_string_ascii_body]
  refine wp_loop_inv (fun n loc g' => g = g' ∧ ∃ (o' l' c k : BitVec 32),
    loc = [.i32 o', .i32 l', .i32 c, .i32 k] ∧ l'.toNat = n ∧ (n ≠ 0 → o'.toNat + n ≤ g.mem.size) ∧
    (asciiAt g.mem o.toNat l.toNat).all asciiOk = (asciiAt g.mem o'.toNat n).all asciiOk) id l.toNat
    ⟨rfl, o, l, 0#32, 0#32, rfl, rfl, fun _ => h, rfl⟩ ?_
  rintro n loc _ ⟨rfl, o', l', c, k, rfl, hn, hb, he⟩
  wpx
  by_cases h0 : l' = 0#32
  · rw [if_pos h0]
    subst h0
    obtain rfl : n = 0 := by simpa using hn.symm
    rw [he]; simp [asciiAt_zero, b32]
  · have hn0 : n ≠ 0 := by
      rintro rfl; exact h0 (BitVec.eq_of_toNat_eq (by simpa using hn))
    have hb := hb hn0
    rw [if_neg h0, wp_i32load (by omega)]
    obtain ⟨n, rfl⟩ : ∃ k, n = k + 1 := ⟨n - 1, by omega⟩
    have hl1 : (l' - 1#32).toNat = n := by
      have := l'.isLt
      rw [BitVec.toNat_sub, hn, BitVec.toNat_ofNat]; omega
    have ho1 : n ≠ 0 → (o' + 1#32).toNat = o'.toNat + 1 := by
      intro h; rw [BitVec.toNat_add, BitVec.toNat_ofNat]; omega
    have next : asciiOk (g.mem.byte o'.toNat).toNat = true →
        (asciiAt g.mem o.toNat l.toNat).all asciiOk = (asciiAt g.mem (o' + 1#32).toNat n).all asciiOk := by
      intro ha
      rw [he, asciiAt_succ, List.all_cons, ha, Bool.true_and]
      by_cases hn : n = 0
      · subst hn; rfl
      · rw [ho1 hn]
    have hcode := asciiOk_code (g.mem.byte o'.toNat)
    wpx [load1, Nat.add_zero]
    generalize BitVec.setWidth 32 (g.mem.byte o'.toNat) = c at *
    have fin : asciiOk (g.mem.byte o'.toNat).toNat = true →
        ∃ y, id y < id (n + 1) ∧ True ∧ ∃ o'_1 l'_1 c_1 k,
          [Val.i32 (o' + 1#32), Val.i32 (l' - 1#32), Val.i32 c, Val.i32 l'] =
            [Val.i32 o'_1, Val.i32 l'_1, Val.i32 c_1, Val.i32 k] ∧ l'_1.toNat = y ∧
            (y ≠ 0 → o'_1.toNat + y ≤ g.mem.size) ∧
            (asciiAt g.mem o.toNat l.toNat).all asciiOk = (asciiAt g.mem o'_1.toNat y).all asciiOk :=
      fun ha => ⟨n, by simp only [id]; omega, trivial, _, _, _, _, rfl, hl1,
        fun h => by have := ho1 h; omega, next ha⟩
    by_cases h1 : (c - 32#32).toNat < 95
    · rw [if_neg (not_not.2 h1)]
      exact fin (hcode.1 (.inl h1))
    · rw [if_pos h1]
      by_cases h2 : (13824#32 >>> (c.toNat % 32) &&& b32 (c.toNat < 14)) = 0#32
      · rw [if_pos h2]
        have hf : asciiOk (g.mem.byte o'.toNat).toNat = false := by
          rw [← Bool.not_eq_true]
          intro ha
          rcases hcode.2 ha with h | h
          · exact h1 h
          · exact h h2
        rw [he, asciiAt_succ, List.all_cons, hf]
        simp [b32, h0]
      · rw [if_neg h2]
        exact fin (hcode.1 (.inr h2))

theorem alpha_code : ∀ b : BitVec 8,
    ((b.setWidth 32 &&& 223#32) - 65#32 &&& 255#32).toNat < 26 ↔ isAlpha b.toNat = true := by
  decide +kernel

theorem alpha_code' : ∀ b : BitVec 8,
    ((b.setWidth 32 &&& 2097119#32) - 65#32).toNat < 26 ↔ isAlpha b.toNat = true := by
  decide +kernel

theorem runs_is_alpha (c : BitVec 32) :
    Runs M (.std .is_alpha) [.i32 c] g
      (.ret [.i32 (b32 (((c &&& 223#32) - 65#32 &&& 255#32).toNat < 26))] g) := by
  apply runs_std (by simp)
  wpx [stdFunc, Std.is_alpha, Std.is_alpha_body]

theorem wp_is_alpha {c : BitVec 32} :
    WP M (.call (.std .is_alpha) :: is) (.i32 c :: stk) loc g Q ↔
      WP M is (.i32 (b32 (((c &&& 223#32) - 65#32 &&& 255#32).toNat < 26)) :: stk) loc g Q :=
  wp_call_runs (args := [.i32 c]) (ps := [.i32]) (rs := [.i32]) rfl rfl (runs_is_alpha c) (by simp)

/-- Characters allowed after the first in a contract name. -/
def nameChar (c : Nat) : Bool := isAlpha c || isNum c || c == 45 || c == 95

theorem char_code : ∀ b : BitVec 8,
    ((((((b.setWidth 32 &&& 223#32) - 65#32 &&& 255#32).toNat < 26) ∨
      (48 ≤ (b.setWidth 32).toNat ∧ (b.setWidth 32).toNat ≤ 57)) ∨
      (b.setWidth 32 = 45#32 ∨ b.setWidth 32 = 95#32)) ↔ nameChar b.toNat = true) := by
  decide +kernel

theorem runs_is_valid_char (b : BitVec 8) :
    Runs M (.std .is_valid_char) [.i32 (b.setWidth 32)] g
      (.ret [.i32 (b32 (nameChar b.toNat = true))] g) := by
  apply runs_std (by simp)
  wpx [stdFunc, Std.is_valid_char, Std.is_valid_char_body, wp_is_alpha, char_code]

theorem wp_is_valid_char {b : BitVec 8} :
    WP M (.call (.std .is_valid_char) :: is) (.i32 (b.setWidth 32) :: stk) loc g Q ↔
      WP M is (.i32 (b32 (nameChar b.toNat = true)) :: stk) loc g Q :=
  wp_call_runs (args := [.i32 (b.setWidth 32)]) (ps := [.i32]) (rs := [.i32]) rfl rfl
    (runs_is_valid_char b) (by simp)

theorem leBytes_inj {m : Mem} {a : Nat} : ∀ {n : Nat} {l : List Nat}, l.length = n →
    (∀ x ∈ l, x < 256) → (m.read a n = l.foldr (fun b r => b + 256 * r) 0 ↔ asciiAt m a n = l)
  | 0, [], _, _ => by simp [Mem.read, asciiAt_zero]
  | n + 1, x :: l, h, hx => by
    rw [Mem.read, asciiAt_succ, List.foldr_cons, List.cons.injEq,
      ← leBytes_inj (l := l) (by simpa using h) (fun y hy => hx y (List.mem_cons_of_mem _ hy))]
    have h1 := (m.byte a).isLt
    have h2 := hx x List.mem_cons_self
    omega

theorem transient_code (m : Mem) (a : Nat) :
    ((BitVec.ofNat 128 (m.read a 16) &&& 0xffffffffffffffffffffff#128) ^^^ 0x746e6569736e6172745f5f#128
      ≠ 0#128) ↔ asciiAt m a 11 ≠ transientName := by
  have h16 := read_lt m a 16
  have e : m.read a 16 % 256 ^ 11 = m.read a 11 := read_mod m a 11 5
  rw [ne_eq, ne_eq, not_iff_not, ← leBytes_inj (n := 11) rfl (by decide), ← e]
  rw [BitVec.xor_eq_zero_iff, ← BitVec.toNat_inj, BitVec.toNat_and, BitVec.toNat_ofNat,
    BitVec.toNat_ofNat, BitVec.toNat_ofNat, Nat.mod_eq_of_lt (a := m.read a 16) (by omega)]
  rw [show 0xffffffffffffffffffffff % 2 ^ 128 = 2 ^ 88 - 1 by decide, Nat.and_two_pow_sub_one_eq_mod]
  rfl

theorem runs_is_transient (o l : BitVec 32) (h : l.toNat = 11 → o.toNat + 16 ≤ g.mem.size) :
    Runs M (.std .is_transient) [.i32 o, .i32 l] g
      (.ret [.i32 (b32 (asciiAt g.mem o.toNat l.toNat = transientName))] g) := by
  apply runs_std (by simp)
  wpx [stdFunc, Std.is_transient, Std.is_transient_body]
  by_cases hl : l = 11#32
  · subst hl
    rw [if_pos (not_not.2 rfl), wp_v128load (by have := h rfl; omega)]
    wpx
    rw [Nat.add_zero]
    have := transient_code g.mem o.toNat
    simp only [this, ne_eq, not_not]
  · wif hl
    have : ¬ asciiAt g.mem o.toNat l.toNat = transientName := by
      intro e
      have := congrArg List.length e
      rw [length_ascii] at this
      exact hl (BitVec.eq_of_toNat_eq this)
    simp [b32, this]

theorem wp_is_transient {o l : BitVec 32} (h : l.toNat = 11 → o.toNat + 16 ≤ g.mem.size) :
    WP M (.call (.std .is_transient) :: is) (.i32 l :: .i32 o :: stk) loc g Q ↔
      WP M is (.i32 (b32 (asciiAt g.mem o.toNat l.toNat = transientName)) :: stk) loc g Q :=
  wp_call_runs (args := [.i32 o, .i32 l]) (ps := [.i32, .i32]) (rs := [.i32]) rfl rfl
    (runs_is_transient o l h) (by simp)

theorem contractName_cons (c : Nat) (cs : List Nat) : contractName (c :: cs) =
    ((isAlpha c && cs.all nameChar) || (c :: cs) == transientName) := rfl

/-- Loop state of the contract-name check. -/
def NameInv (g : Store σ) (o l : BitVec 32) (n : Nat) (loc : List Val) (g' : Store σ) : Prop :=
  g = g' ∧ n < l.toNat ∧ ∃ (o' e : BitVec 32), loc = [.i32 o', .i32 l, .i32 e] ∧ e = o + l ∧
    o' = e - BitVec.ofNat 32 n ∧
    contractName (asciiAt g.mem o.toNat l.toNat) =
      (asciiAt g.mem (o.toNat + l.toNat - n) n).all nameChar

theorem runs_is_valid_contract_name (o l : BitVec 32) (h : o.toNat + l.toNat ≤ g.mem.size)
    (h16 : l.toNat = 11 → o.toNat + 16 ≤ g.mem.size) :
    Runs M (.std .is_valid_contract_name) [.i32 o, .i32 l] g
      (.ret [.i32 (b32 (contractName (asciiAt g.mem o.toNat l.toNat) = true))] g) := by
  have hle := g.mem.le
  have hlt := l.isLt
  apply runs_std (by simp)
  wpx [stdFunc, Std.is_valid_contract_name, Std.is_valid_contract_name_body]
  by_cases h0 : l = 0#32
  · subst h0
    wif rfl
    wpx
    simp [asciiAt_zero, contractName, b32]
  · rw [if_pos h0]
    have hl0 : l.toNat ≠ 0 := fun e => h0 (BitVec.eq_of_toNat_eq (by simpa using e))
    obtain ⟨n, hn⟩ : ∃ k, l.toNat = k + 1 := ⟨l.toNat - 1, by omega⟩
    have hacc : asciiAt g.mem o.toNat l.toNat = (g.mem.byte o.toNat).toNat :: asciiAt g.mem (o.toNat + 1) n := by
      rw [hn, asciiAt_succ]
    rw [wp_i32load (by omega)]
    wpx [wp_is_alpha, load1, Nat.add_zero, alpha_code]
    by_cases ha : isAlpha (g.mem.byte o.toNat).toNat = true
    · wif ha
      refine wp_loop_inv (NameInv g o l) id n ⟨rfl, by omega, _, _, rfl, rfl, ?_, ?_⟩ ?_
      · apply BitVec.eq_of_toNat_eq
        simp only [BitVec.toNat_add, BitVec.toNat_sub, BitVec.toNat_ofNat]
        omega
      · rw [hacc, contractName_cons, ha, Bool.true_and]
        rw [show o.toNat + l.toNat - n = o.toNat + 1 by omega]
        have : ((g.mem.byte o.toNat).toNat :: asciiAt g.mem (o.toNat + 1) n == transientName) = false := by
          rw [beq_eq_false_iff_ne]
          intro e
          rw [transientName, List.cons.injEq] at e
          rw [e.1] at ha; revert ha; decide
        rw [this, Bool.or_false]
      · rintro n loc _ ⟨rfl, hnl, o', e, rfl, he, ho', hc⟩
        wpx
        by_cases hz : n = 0
        · subst hz
          rw [if_neg (not_not.2 (by rw [ho']; simp))]
          rw [hc]; simp [asciiAt_zero, b32]
        · have hne : o' ≠ e := by
            intro h
            rw [ho'] at h
            have := congrArg BitVec.toNat h
            rw [BitVec.toNat_sub, BitVec.toNat_ofNat] at this
            have := e.isLt
            omega
          have hoN : o'.toNat = o.toNat + l.toNat - n := by
            rw [ho', he]; simp only [BitVec.toNat_add, BitVec.toNat_sub, BitVec.toNat_ofNat]; omega
          rw [if_pos hne, wp_i32load (by omega)]
          wpx [load1, Nat.add_zero, wp_is_valid_char]
          obtain ⟨k, rfl⟩ : ∃ k, n = k + 1 := ⟨n - 1, by omega⟩
          rw [asciiAt_succ, List.all_cons, ← hoN] at hc
          by_cases hch : nameChar (g.mem.byte o'.toNat).toNat = true
          · wif hch
            refine ⟨k, by simp only [id]; omega, rfl, by omega, _, _, rfl, he, ?_, ?_⟩
            · apply BitVec.eq_of_toNat_eq
              have := e.isLt
              rw [ho']
              simp only [BitVec.toNat_add, BitVec.toNat_sub, BitVec.toNat_ofNat]; omega
            · rw [hc, hch, Bool.true_and]
              congr 2; omega
          · wif hch
            rw [hc]
            simp [b32, hch]
    · wif ha
      wpx [wp_is_transient h16]
      have : (contractName (asciiAt g.mem o.toNat l.toNat) = true) ↔
          asciiAt g.mem o.toNat l.toNat = transientName := by
        rw [hacc, contractName_cons]
        simp [ha]
      simp only [this]
      by_cases ht : asciiAt g.mem o.toNat l.toNat = transientName
      · wif ht; simp [b32, ht]
      · rw [if_pos ht]; simp [b32, ht]

/-- Characters allowed after the first in a Clarity name. -/
def clarityChar (c : Nat) : Bool := isAlpha c || isNum c || nameSpecial.contains c

theorem special_code : ∀ b : BitVec 8,
    (((b.setWidth 32 &&& 2097119#32) - 65#32).toNat < 26 ∨ (b.setWidth 32 - 48#32).toNat < 10 ∨
      ¬ (b32 ((b.setWidth 32 - 33#32).toNat < 63) &&& BitVec.setWidth 32 (4611686020440675841#64 >>>
        ((BitVec.setWidth 64 (b.setWidth 32 - 33#32)).toNat % 64))) = 0#32) ↔
    clarityChar b.toNat = true := by
  decide +kernel

theorem single_code : ∀ b : BitVec 8,
    (b32 ((b.setWidth 32).toNat < 63) &&& BitVec.setWidth 32 (8070639648247906304#64 >>>
        ((BitVec.setWidth 64 (b.setWidth 32)).toNat % 64))) =
      b32 (([45, 43, 61, 47, 42].contains b.toNat || (b.toNat == 60 || b.toNat == 62)) = true) := by
  decide +kernel

/-- Loop state of the Clarity-name check, `n` characters to go. -/
def ClarInv (g : Store σ) (o : BitVec 32) (L : Nat) (n : Nat) (loc : List Val) (g' : Store σ) : Prop :=
  g = g' ∧ n < L ∧ ∃ (o' s c : BitVec 32), loc = [.i32 o', .i32 s, .i32 c] ∧ s.toNat = n + 1 ∧
    o'.toNat + 1 + n = o.toNat + L ∧
    clarityName (asciiAt g.mem o.toNat L) = (asciiAt g.mem (o'.toNat + 1) n).all clarityChar

theorem clarityName_cons (c : Nat) (ds : List Nat) (h : ds.length + 1 ≤ 128) :
    clarityName (c :: ds) = ((isAlpha c && ds.all clarityChar) ||
      (ds.isEmpty && [45, 43, 61, 47, 42].contains c) ||
      ((c == 60 || c == 62) && (ds.isEmpty || ds == [61]))) := by
  rw [clarityName]
  simp only [List.length_cons, h, decide_true, Bool.true_and]
  rfl

theorem and_code (b0 b1 : BitVec 8) :
    BitVec.ofNat 32 (b0.toNat + 256 * b1.toNat) &&& 4294967293#32 =
      BitVec.ofNat 32 ((b0 &&& 253#8).toNat + 256 * b1.toNat) := by
  have e : ∀ x y : BitVec 8, BitVec.ofNat 32 (x.toNat + 256 * y.toNat) =
      (y.setWidth 32 <<< 8) ||| x.setWidth 32 := by
    intro x y
    apply BitVec.eq_of_toNat_eq
    have h1 := x.isLt
    have h2 := y.isLt
    have h3 := Nat.shiftLeft_add_eq_or_of_lt h1 y.toNat
    rw [Nat.shiftLeft_eq] at h3
    rw [BitVec.toNat_or, BitVec.toNat_shiftLeft, BitVec.toNat_setWidth, BitVec.toNat_setWidth,
      BitVec.toNat_ofNat, Nat.shiftLeft_eq, Nat.mod_eq_of_lt (a := y.toNat) (by omega),
      Nat.mod_eq_of_lt (a := x.toNat) (by omega), Nat.mod_eq_of_lt (a := y.toNat * 2 ^ 8) (by omega),
      ← h3]
    omega
  have h1 : ∀ b : BitVec 8, b.setWidth 32 &&& 4294967293#32 = (b &&& 253#8).setWidth 32 := by
    decide +kernel
  have h2 : ∀ b : BitVec 8, (b.setWidth 32 <<< 8) &&& 4294967293#32 = b.setWidth 32 <<< 8 := by
    decide +kernel
  rw [e, e, BitVec.and_comm, BitVec.and_or_distrib_left, BitVec.and_comm, h2, BitVec.and_comm, h1]

theorem le_code (b0 b1 : BitVec 8) :
    b32 (BitVec.ofNat 32 (b0.toNat + 256 * b1.toNat) &&& 4294967293#32 = 15676#32) =
      b32 ((b0.toNat = 60 ∨ b0.toNat = 62) ∧ b1.toNat = 61) := by
  have h0 : ∀ b : BitVec 8, (b &&& 253#8).toNat = 60 ↔ b.toNat = 60 ∨ b.toNat = 62 := by
    decide +kernel
  have : (BitVec.ofNat 32 (b0.toNat + 256 * b1.toNat) &&& 4294967293#32 = 15676#32) ↔
      ((b0.toNat = 60 ∨ b0.toNat = 62) ∧ b1.toNat = 61) := by
    rw [and_code, ← h0, ← BitVec.toNat_inj, BitVec.toNat_ofNat, BitVec.toNat_ofNat]
    have := (b0 &&& 253#8).isLt
    have := b1.isLt
    omega
  simp only [this]

theorem runs_check_clarity_name (o l : BitVec 32) (h : o.toNat + l.toNat ≤ g.mem.size) :
    Runs M (.std .check_clarity_name) [.i32 o, .i32 l] g
      (.ret [.i32 (b32 (clarityName (asciiAt g.mem o.toNat l.toNat) = true))] g) := by
  have hle := g.mem.le
  have hlt := l.isLt
  apply runs_std (by simp)
  wpy [stdFunc, Std.check_clarity_name, Std.check_clarity_name_body]
  have hs : (l - 129#32).toNat < 4294967168 ↔ ¬ (1 ≤ l.toNat ∧ l.toNat ≤ 128) := by
    rw [BitVec.toNat_sub, BitVec.toNat_ofNat]; omega
  by_cases hsz : 1 ≤ l.toNat ∧ l.toNat ≤ 128
  · rw [if_neg (by rw [hs]; exact not_not.2 hsz)]
    obtain ⟨n, hn⟩ : ∃ k, l.toNat = k + 1 := ⟨l.toNat - 1, by omega⟩
    have hacc : asciiAt g.mem o.toNat l.toNat = (g.mem.byte o.toNat).toNat :: asciiAt g.mem (o.toNat + 1) n := by
      rw [hn, asciiAt_succ]
    have hcn := clarityName_cons (g.mem.byte o.toNat).toNat (asciiAt g.mem (o.toNat + 1) n)
      (by rw [length_ascii]; omega)
    rw [← hacc] at hcn
    rw [wp_i32load (by omega)]
    wpy [load1, Nat.add_zero, alpha_code']
    by_cases ha : isAlpha (g.mem.byte o.toNat).toNat = true
    · rw [if_pos ha]
      have hcn' : clarityName (asciiAt g.mem o.toNat l.toNat) =
          (asciiAt g.mem (o.toNat + 1) n).all clarityChar := by
        rw [hcn, ha, Bool.true_and]
        have h1 : ([45, 43, 61, 47, 42].contains (g.mem.byte o.toNat).toNat) = false ∧
            ((g.mem.byte o.toNat).toNat == 60 || (g.mem.byte o.toNat).toNat == 62) = false := by
          revert ha; generalize g.mem.byte o.toNat = b; revert b; decide +kernel
        rw [h1.1, h1.2]; simp
      refine wp_loop_inv (ClarInv g o l.toNat) id n ⟨rfl, by omega, _, _, _, rfl, hn, by omega, hcn'⟩ ?_
      rintro n loc _ ⟨rfl, hnl, o', s, c, rfl, hsn, ho', hc⟩
      have hs1 : (s - 1#32).toNat = n := by
        have := s.isLt
        rw [BitVec.toNat_sub, hsn, BitVec.toNat_ofNat]; omega
      have hz : s - 1#32 = 0#32 ↔ n = 0 := by
        rw [← BitVec.toNat_inj, hs1]; simp
      wpy [hz]
      by_cases hn0 : n = 0
      · subst hn0
        rw [if_pos rfl]
        wpy [hz]
        rw [hc]; simp [asciiAt_zero, b32]
      · rw [if_neg hn0]
        have ho1 : (o' + 1#32).toNat = o'.toNat + 1 := by
          rw [BitVec.toNat_add, BitVec.toNat_ofNat]; omega
        rw [wp_i32load (by omega)]
        wpy [load1, Nat.add_zero]
        obtain ⟨k, rfl⟩ : ∃ k, n = k + 1 := ⟨n - 1, by omega⟩
        rw [asciiAt_succ, List.all_cons, ← ho1] at hc
        have hcode := special_code (g.mem.byte (o' + 1#32).toNat)
        generalize hb : BitVec.setWidth 32 (g.mem.byte (o' + 1#32).toNat) = b at *
        have fin : ∀ x : BitVec 32, clarityChar (g.mem.byte (o' + 1#32).toNat).toNat = true →
            ∃ y, id y < id (k + 1) ∧ ClarInv g o l.toNat y [.i32 (o' + 1#32), .i32 (s - 1#32), .i32 x] g :=
          fun x ha => ⟨k, by simp only [id]; omega, rfl, by omega, _, _, _, rfl, hs1, by omega,
            by rw [hc, ha, Bool.true_and]⟩
        by_cases h1 : ((b &&& 2097119#32) - 65#32).toNat < 26
        · rw [if_pos h1]
          exact fin _ (hcode.1 (.inl h1))
        · rw [if_neg h1]
          by_cases h2 : (b - 48#32).toNat < 10
          · rw [if_pos h2]
            exact fin _ (hcode.1 (.inr (.inl h2)))
          · rw [if_neg h2]
            by_cases h3 : (b32 ((b - 33#32).toNat < 63) &&& BitVec.setWidth 32 (4611686020440675841#64 >>>
                ((BitVec.setWidth 64 (b - 33#32)).toNat % 64))) = 0#32
            · rw [if_pos h3]
              have hf : clarityChar (g.mem.byte (o' + 1#32).toNat).toNat = false := by
                rw [← Bool.not_eq_true]
                intro ha
                rcases hcode.2 ha with h | h | h
                · exact h1 h
                · exact h2 h
                · exact h h3
              rw [hc, hf]
              simp [b32, hz]
            · rw [if_neg h3]
              exact fin _ (hcode.1 (.inr (.inr h3)))
    · rw [if_neg ha]
      have hf : isAlpha (g.mem.byte o.toNat).toNat = false := by simpa using ha
      rw [hf, Bool.false_and, Bool.false_or] at hcn
      have hl1 : l = 1#32 ↔ n = 0 := by
        rw [← BitVec.toNat_inj, hn]; simp
      have hl2 : l = 2#32 ↔ n = 1 := by
        rw [← BitVec.toNat_inj, hn]; simp
      wpy [hl1, hl2]
      by_cases h1 : n = 0
      · subst h1
        rw [if_pos rfl, wp_i32load (by omega)]
        wpy [load1, Nat.add_zero, single_code]
        rw [hcn]
        simp [asciiAt_zero]
      · rw [if_neg h1]
        by_cases h2 : n = 1
        · subst h2
          rw [if_pos rfl, wp_i32load (by omega)]
          wpy [Nat.add_zero]
          have e : g.mem.read o.toNat 2 = (g.mem.byte o.toNat).toNat + 256 * (g.mem.byte (o.toNat + 1)).toNat := by
            simp [Mem.read]
          rw [hcn, asciiAt_succ, asciiAt_zero, e]
          congr 3
          generalize g.mem.byte o.toNat = b0
          generalize g.mem.byte (o.toNat + 1) = b1
          rw [le_code]; simp
        · rw [if_neg h2]
          rw [hcn]
          have : (asciiAt g.mem (o.toNat + 1) n == [61]) = false := by
            rw [beq_eq_false_iff_ne]
            intro e
            have := congrArg List.length e
            rw [length_ascii] at this
            exact h2 this
          have h3 : (asciiAt g.mem (o.toNat + 1) n).isEmpty = false := by
            rw [List.isEmpty_eq_false_iff]
            intro e
            have := congrArg List.length e
            rw [length_ascii] at this
            exact h1 this
          rw [this, h3]
          simp [b32]
  · rw [if_pos (hs.2 hsz)]
    have : clarityName (asciiAt g.mem o.toNat l.toNat) = false := by
      unfold clarityName
      by_cases h : l.toNat = 0
      · rw [h, asciiAt_zero]; rfl
      · rw [length_ascii, decide_eq_false (by omega), Bool.false_and]
    simp [b32, this]

end Wasm
