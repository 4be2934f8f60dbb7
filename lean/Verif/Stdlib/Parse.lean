import Verif.Stdlib.BuffToInt
import Verif.Stdlib.Mul
import Verif.Spec.Decimal

/-! Runtime library: parsing decimal numerals (standard.wat 2393-2637). -/

namespace Wasm
open Spec
variable {σ : Type} {M : Mod σ} {is : List Instr} {stk loc : List Val} {g : Store σ}
  {Q : Res σ → Prop}

/-- What the code computes for a sequence of characters. -/
def codeParse (cs : List Nat) : Option Nat :=
  if 1 ≤ cs.length ∧ cs.length ≤ 39 ∧ cs.all isDigit = true then
    if cs.length = 39 ∧ (2 ^ 128 - 1) / 10 ≤ decVal (cs.take 38) then
      if cs.getD 38 0 ≤ 53 then some (2 ^ 128 - 6 + (cs.getD 38 0 - 48)) else none
    else some (decVal cs)
  else none

/-- The body shared by string-to-uint (`W = 1`) and utf8-to-uint (`W = 4`). -/
def parseBody (W K B : BitVec 32) (ld10 ld5 : List Instr) : List Instr := [
  .b (.localGet 1), .b (.const (.i32 K)), .b (.i32bin .sub), .b (.const (.i32 B)),
  .b (.i32rel .ltU),
  .ite 0 0 [
    .b (.const (.i32 0#32)), .b (.const (.i64 0#64)), .b (.const (.i64 0#64)), .ret] [],
  .loop 0 0 (ld10 ++ [
    .ite 0 0 [
      .b (.localGet 2), .b (.const (.i64 10#64)), .b (.i64bin .mul), .b (.localGet 4),
      .b (.i64bin .add), .b (.localSet 2)] [
      .b (.const (.i32 0#32)), .b (.const (.i64 0#64)), .b (.const (.i64 0#64)), .ret],
    .b (.localGet 0), .b (.const (.i32 W)), .b (.i32bin .add), .b (.localSet 0), .b (.localGet 1),
    .b (.const (.i32 W)), .b (.i32bin .sub), .b (.localTee 1), .b (.const (.i32 0#32)),
    .b (.i32rel .ne), .b (.localGet 2), .b (.const (.i64 1844674407370955161#64)), .b (.i64rel .ltU),
    .b (.i32bin .and), .brIf 0]),
  .b (.localGet 1), .b .i32eqz,
  .ite 0 0 [
    .b (.const (.i32 1#32)), .b (.localGet 2), .b (.const (.i64 0#64)), .ret] [],
  .loop 0 0 (ld10 ++ [
    .ite 0 0 [
      .b (.localGet 2), .b (.localGet 3), .b (.const (.i64 10#64)), .b (.const (.i64 0#64)),
      .call (.std .mul_int128), .b (.localGet 4), .b (.const (.i64 0#64)), .call (.std .add_int128),
      .b (.localSet 3), .b (.localSet 2)] [
      .b (.const (.i32 0#32)), .b (.const (.i64 0#64)), .b (.const (.i64 0#64)), .ret],
    .b (.localGet 0), .b (.const (.i32 W)), .b (.i32bin .add), .b (.localSet 0), .b (.localGet 1),
    .b (.const (.i32 W)), .b (.i32bin .sub), .b (.localTee 1), .b (.const (.i32 0#32)),
    .b (.i32rel .ne), .b (.localGet 2), .b (.const (.i64 11068046444225730969#64)),
    .b (.i64rel .ltU), .b (.localGet 3), .b (.const (.i64 1844674407370955161#64)),
    .b (.i64rel .ltU), .b (.localGet 3), .b (.const (.i64 1844674407370955161#64)), .b (.i64rel .eq),
    .b .select, .b (.i32bin .and), .brIf 0]),
  .b (.localGet 1), .b .i32eqz,
  .ite 0 3 [
    .b (.const (.i32 1#32)), .b (.localGet 2), .b (.localGet 3)]
    (ld5 ++ [
    .ite 0 3 [
      .b (.const (.i32 1#32)), .b (.const (.i64 18446744073709551610#64)), .b (.localGet 4),
      .b (.i64bin .add), .b (.const (.i64 18446744073709551615#64))] [
      .b (.const (.i32 0#32)), .b (.const (.i64 0#64)), .b (.const (.i64 0#64))]])]

def ldA (lim : BitVec 64) (op : IRel) : List Instr := [
    .b (.localGet 0), .b (.i64load 1 0), .b (.const (.i64 48#64)), .b (.i64bin .sub),
    .b (.localTee 4), .b (.const (.i64 lim)), .b (.i64rel op)]

theorem string_to_uint_eq : Std.string_to_uint_body =
    parseBody 1#32 40#32 4294967257#32 (ldA 10#64 .ltU) (ldA 5#64 .leU) := rfl

def ldU (lim : BitVec 64) (op : IRel) : List Instr := [
    .b (.localGet 0), .b (.i64load 4 0), .b (.localTee 4), .b (.const (.i64 16777215#64)),
    .b (.i64bin .and), .b .i64eqz, .b (.localGet 4), .b (.const (.i64 24#64)), .b (.i64bin .shrU),
    .b (.const (.i64 48#64)), .b (.i64bin .sub), .b (.localTee 4), .b (.const (.i64 lim)),
    .b (.i64rel op), .b (.i32bin .and)]

theorem utf8_to_uint_eq : Std.utf8_to_uint_body =
    parseBody 4#32 157#32 4294967140#32 (ldU 10#64 .ltU) (ldU 5#64 .leU) := rfl

theorem decVal_take_succ (cs : List Nat) (k : Nat) (h : k < cs.length) :
    decVal (cs.take (k + 1)) = 10 * decVal (cs.take k) + (cs.getD k 0 - 48) := by
  rw [List.take_succ_eq_append_getElem h]
  simp only [decVal, List.foldl_append, List.foldl, List.getD_eq_getElem?_getD,
    List.getElem?_eq_getElem h, Option.getD_some]

theorem all_take_succ (cs : List Nat) (k : Nat) (h : k < cs.length) :
    (cs.take (k + 1)).all isDigit = ((cs.take k).all isDigit && isDigit (cs.getD k 0)) := by
  rw [List.take_succ_eq_append_getElem h]
  simp only [List.all_append, List.all_cons, List.all_nil, Bool.and_true,
    List.getD_eq_getElem?_getD, List.getElem?_eq_getElem h, Option.getD_some]

theorem all_of_take (cs : List Nat) (k : Nat) (h : k < cs.length)
    (hk : isDigit (cs.getD k 0) = false) : cs.all isDigit = false := by
  rw [List.getD_eq_getElem?_getD, List.getElem?_eq_getElem h, Option.getD_some] at hk
  rw [List.all_eq_false]
  exact ⟨_, List.getElem_mem h, by simp [hk]⟩

theorem decVal_take_lt (cs : List Nat) (k : Nat) (h : k ≤ cs.length)
    (ha : (cs.take k).all isDigit = true) : decVal (cs.take k) < 10 ^ k := by
  induction k with
  | zero => simp [decVal]
  | succ k ih =>
    rw [all_take_succ _ _ (by omega)] at ha
    simp only [Bool.and_eq_true] at ha
    have := ih (by omega) ha.1
    have hd := ha.2
    simp only [isDigit, Bool.and_eq_true, decide_eq_true_eq] at hd
    rw [decVal_take_succ _ _ (by omega), Nat.pow_succ]; omega

/-- A piece of code that loads the character at the address in local 0 and tests a digit bound. -/
def LoadsChar (M : Mod σ) (g : Store σ) (ld : List Instr) (lim : Nat) (a : BitVec 32) (c : Nat) : Prop :=
  ∀ (is : List Instr) (Q : Res σ → Prop) (l lo hi d : Val),
    (∀ d' : BitVec 64, (48 ≤ c ∧ c < 48 + lim → d'.toNat = c - 48) →
      WP M is [.i32 (b32 (48 ≤ c ∧ c < 48 + lim))] [.i32 a, l, lo, hi, .i64 d'] g Q) →
    WP M (ld ++ is) [] [.i32 a, l, lo, hi, d] g Q

theorem loadsA10 (a : BitVec 32) (h : a.toNat + 1 ≤ g.mem.size) :
    LoadsChar M g (ldA 10#64 .ltU) 10 a (g.mem.byte a.toNat).toNat := by
  intro is Q l lo hi d hk
  have hb := (g.mem.byte a.toNat).isLt
  wpx [ldA, wp_i64load (n := 1) (off := 0) (a := a) (g := g) (by omega), Nat.add_zero, read_one]
  generalize (g.mem.byte a.toNat).toNat = c at *
  have e : (BitVec.ofNat 64 c - 48#64).toNat = (2 ^ 64 - 48 + c) % 2 ^ 64 := by
    rw [BitVec.toNat_sub, BitVec.toNat_ofNat, BitVec.toNat_ofNat]; omega
  have e2 : b32 ((BitVec.ofNat 64 c - 48#64).toNat < 10) = b32 (48 ≤ c ∧ c < 48 + 10) := by
    unfold b32
    simp only [e]
    congr 1
    apply propext
    omega
  rw [e2]
  apply hk
  intro hc; rw [e]; omega

theorem loadsA5 (a : BitVec 32) (h : a.toNat + 1 ≤ g.mem.size) :
    LoadsChar M g (ldA 5#64 .leU) 6 a (g.mem.byte a.toNat).toNat := by
  intro is Q l lo hi d hk
  have hb := (g.mem.byte a.toNat).isLt
  wpx [ldA, wp_i64load (n := 1) (off := 0) (a := a) (g := g) (by omega), Nat.add_zero, read_one]
  generalize (g.mem.byte a.toNat).toNat = c at *
  have e : (BitVec.ofNat 64 c - 48#64).toNat = (2 ^ 64 - 48 + c) % 2 ^ 64 := by
    rw [BitVec.toNat_sub, BitVec.toNat_ofNat, BitVec.toNat_ofNat]; omega
  have e2 : b32 ((BitVec.ofNat 64 c - 48#64).toNat ≤ 5) = b32 (48 ≤ c ∧ c < 48 + 6) := by
    unfold b32
    simp only [e]
    congr 1
    apply propext
    omega
  rw [e2]
  apply hk
  intro hc; rw [e]; omega

theorem beNat4 (m : Mem) (a : Nat) : beNat (bytesAt m a 4) = 256 ^ 3 * (m.byte a).toNat +
    256 ^ 2 * (m.byte (a + 1)).toNat + 256 * (m.byte (a + 2)).toNat + (m.byte (a + 3)).toNat := by
  simp only [bytesAt, beNat, List.foldl]; ring_nf

theorem read4 (m : Mem) (a : Nat) : m.read a 4 = (m.byte a).toNat + 256 * (m.byte (a + 1)).toNat +
    256 ^ 2 * (m.byte (a + 2)).toNat + 256 ^ 3 * (m.byte (a + 3)).toNat := by
  simp only [Mem.read, Nat.add_assoc, Nat.reduceAdd]; ring_nf

theorem charN {b0 b1 b2 b3 c lim : Nat} (h3 : b3 < 256) (hlim : lim ≤ 10)
    (hc : c = 256 ^ 3 * b0 + 256 ^ 2 * b1 + 256 * b2 + b3) :
    (b0 + 256 * b1 + 65536 * b2 = 0 ∧ (2 ^ 64 - 48 + b3) % 2 ^ 64 < lim) ↔
      (48 ≤ c ∧ c < 48 + lim) := by
  rcases Nat.lt_or_ge b3 48 with h | h
  · rw [Nat.mod_eq_of_lt (by omega)]; omega
  · rw [show 2 ^ 64 - 48 + b3 = 2 ^ 64 + (b3 - 48) by omega, Nat.add_mod_left,
      Nat.mod_eq_of_lt (by omega)]; omega

theorem charN' {b0 b1 b2 b3 c lim : Nat} (h3 : b3 < 256) (hlim : lim ≤ 10)
    (hc : c = 256 ^ 3 * b0 + 256 ^ 2 * b1 + 256 * b2 + b3) (h : 48 ≤ c ∧ c < 48 + lim) :
    (2 ^ 64 - 48 + b3) % 2 ^ 64 = c - 48 := by
  rw [show 2 ^ 64 - 48 + b3 = 2 ^ 64 + (b3 - 48) by omega, Nat.add_mod_left,
      Nat.mod_eq_of_lt (by omega)]; omega

theorem loadsU (lim : Nat) (L : BitVec 64) (op : IRel)
    (hop : ∀ x : BitVec 64, op.eval x L = b32 (x.toNat < lim)) (hlim : lim ≤ 10)
    (a : BitVec 32) (h : a.toNat + 4 ≤ g.mem.size) :
    LoadsChar M g (ldU L op) lim a (beNat (bytesAt g.mem a.toNat 4)) := by
  intro is Q l lo hi d hk
  have e4 := read4 g.mem a.toNat
  have eb := beNat4 g.mem a.toNat
  have h0 := (g.mem.byte a.toNat).isLt
  have h1 := (g.mem.byte (a.toNat + 1)).isLt
  have h2 := (g.mem.byte (a.toNat + 2)).isLt
  have h3 := (g.mem.byte (a.toNat + 3)).isLt
  wpx [ldU, wp_i64load (n := 4) (off := 0) (a := a) (g := g) (by omega), Nat.add_zero, hop]
  generalize (g.mem.byte a.toNat).toNat = b0 at *
  generalize (g.mem.byte (a.toNat + 1)).toNat = b1 at *
  generalize (g.mem.byte (a.toNat + 2)).toNat = b2 at *
  generalize (g.mem.byte (a.toNat + 3)).toNat = b3 at *
  generalize g.mem.read a.toNat 4 = r at *
  generalize beNat (bytesAt g.mem a.toNat 4) = c at *
  have er : (BitVec.ofNat 64 r).toNat = r := by rw [BitVec.toNat_ofNat]; omega
  have hq : r / 2 ^ 24 = b3 := by omega
  have hr : r % 2 ^ 24 = b0 + 256 * b1 + 65536 * b2 := by omega
  have em : (BitVec.ofNat 64 r &&& 16777215#64) = 0#64 ↔ r % 2 ^ 24 = 0 := by
    rw [← BitVec.toNat_inj, BitVec.toNat_and, er, show (16777215#64).toNat = 2 ^ 24 - 1 from rfl,
      Nat.and_two_pow_sub_one_eq_mod]; rfl
  have es : (BitVec.ofNat 64 r >>> 24).toNat = r / 2 ^ 24 := by
    rw [BitVec.toNat_ushiftRight, er, Nat.shiftRight_eq_div_pow]
  have e : (BitVec.ofNat 64 r >>> 24 - 48#64).toNat = (2 ^ 64 - 48 + r / 2 ^ 24) % 2 ^ 64 := by
    rw [BitVec.toNat_sub, es, BitVec.toNat_ofNat]
  have e2 : b32 ((BitVec.ofNat 64 r &&& 16777215#64) = 0#64 ∧
      (BitVec.ofNat 64 r >>> 24 - 48#64).toNat < lim) = b32 (48 ≤ c ∧ c < 48 + lim) := by
    unfold b32
    simp only [e, em, hq, hr]
    congr 1
    exact propext (charN h3 hlim eb)
  rw [e2]
  apply hk
  intro hc; rw [e, hq]; exact charN' h3 hlim eb hc

theorem codeParse_bad {cs : List Nat} (h : cs.all isDigit = false) : codeParse cs = none := by
  simp [codeParse, h]

theorem decVal_take_mono {cs : List Nat} {k : Nat} (h : k < cs.length) :
    10 * decVal (cs.take k) ≤ decVal (cs.take (k + 1)) := by
  rw [decVal_take_succ _ _ h]; omega

theorem codeParse_good {cs : List Nat} {k : Nat} (hk : cs.length = k + 1) (h39 : cs.length ≤ 39)
    (ha : cs.all isDigit = true) (hv : decVal (cs.take k) < (2 ^ 128 - 1) / 10) :
    codeParse cs = some (decVal cs) := by
  rw [codeParse, if_pos ⟨by omega, h39, ha⟩, if_neg]
  rintro ⟨h1, h2⟩
  obtain rfl : k = 38 := by omega
  omega

theorem isDigit_iff (c : Nat) : isDigit c = true ↔ (48 ≤ c ∧ c < 48 + 10) := by
  simp only [isDigit, Bool.and_eq_true, decide_eq_true_eq]; omega

theorem isDigit_false (c : Nat) (h : ¬ (48 ≤ c ∧ c < 48 + 10)) : isDigit c = false := by
  rw [← Bool.not_eq_true, isDigit_iff]; exact h

def ParseInv (cs : List Nat) (W : Nat) (o : BitVec 32) (bd : Nat) (g : Store σ) (m : Nat)
    (loc : List Val) (g' : Store σ) : Prop :=
  g' = g ∧ 0 < m ∧ ∃ (a l : BitVec 32) (lo hi d : BitVec 64) (k : Nat),
    loc = [.i32 a, .i32 l, .i64 lo, .i64 hi, .i64 d] ∧ k + m = cs.length ∧
    a.toNat = o.toNat + W * k ∧ l.toNat = W * m ∧ u128 lo hi = decVal (cs.take k) ∧
    (cs.take k).all isDigit = true ∧ decVal (cs.take k) < bd ∧ (bd ≤ 2 ^ 64 → hi = 0#64)

theorem step_addr {W a l : BitVec 32} {N o k m len sz L : Nat} (hN : W.toNat = N)
    (hWp : N = 1 ∨ N = 4) (hL : L = N * len) (hk : k + m = len) (hm0 : 0 < m)
    (ha : a.toNat = o + N * k) (hl : l.toNat = N * m) (hm : o + L ≤ sz) (hle : sz ≤ 2 ^ 32) :
    (k + 1 < len → (a + W).toNat = o + N * (k + 1)) ∧ (l - W).toNat = N * (m - 1) ∧
      (l - W = 0#32 ↔ m = 1) := by
  have e1 : (l - W).toNat = N * (m - 1) := by
    rw [BitVec.toNat_sub, hN, hl]
    have := l.isLt
    rcases hWp with rfl | rfl <;> omega
  refine ⟨fun hk1 => ?_, e1, ?_⟩
  · rw [BitVec.toNat_add, hN, ha]
    rcases hWp with rfl | rfl <;> omega
  · rw [i32_zero, e1]
    rcases hWp with rfl | rfl <;> omega

theorem big_lt (lo hi : BitVec 64) :
    (if ¬hi = 1844674407370955161#64 then b32 (hi.toNat < 1844674407370955161) else
      b32 (lo.toNat < 11068046444225730969)) = b32 (u128 lo hi < (2 ^ 128 - 1) / 10) := by
  have h1 := lo.isLt
  unfold b32 u128
  by_cases h : hi = 1844674407370955161#64
  · rw [if_neg (not_not.2 h)]; subst h
    congr 1; apply propext
    simp only [BitVec.toNat_ofNat]; omega
  · rw [if_pos h]
    have : hi.toNat ≠ 1844674407370955161 := fun e => h (BitVec.eq_of_toNat_eq e)
    congr 1; apply propext; omega


theorem parse_big {r : CRes σ} (W K B : BitVec 32) (ld10 ld5 : List Instr) (cs : List Nat) (o l : BitVec 32)
    (hW : W = 1#32 ∨ W = 4#32) (hl : l.toNat = W.toNat * cs.length) (h1 : 1 ≤ cs.length)
    (h39 : cs.length ≤ 39) (hm : o.toNat + l.toNat ≤ g.mem.size)
    (hl10 : ∀ (k : Nat) (a : BitVec 32), k < cs.length → a.toNat = o.toNat + W.toNat * k →
      LoadsChar M g ld10 10 a (cs.getD k 0))
    (hl5 : ∀ (k : Nat) (a : BitVec 32), k < cs.length → a.toNat = o.toNat + W.toNat * k →
      LoadsChar M g ld5 6 a (cs.getD k 0))
    (hr : r = .ret (encOptU (codeParse cs)) g) (m : Nat)
    (hI : ParseInv cs W.toNat o ((2 ^ 128 - 1) / 10) g m loc g) :
    WP M ((parseBody W K B ld10 ld5).drop 10) [] loc g (fun x => x.toCall 3 = r) := by
  have hle := g.mem.le
  have hWp : W.toNat = 1 ∨ W.toNat = 4 := by rcases hW with rfl | rfl <;> simp
  wpx [parseBody]
  generalize hN : W.toNat = N at *
  refine wp_loop_inv (ParseInv cs N o ((2 ^ 128 - 1) / 10) g) id m hI ?_
  clear hI
  rintro m loc g' ⟨rfl, hm0, a, l', lo, hi, d, k, rfl, hk, ha, hl', hv, hd, hb, hh⟩
  apply hl10 k a (by omega) ha
  intro d' hd'
  have hdt := decVal_take_succ cs k (by omega)
  have hat := all_take_succ cs k (by omega)
  have hlast : m = 1 → cs.take (k + 1) = cs := fun h => List.take_of_length_le (by omega)
  generalize hc : cs.getD k 0 = c at *
  wpx [u128_ofNat]
  obtain ⟨s1, s2, s3⟩ := step_addr hN hWp hl hk hm0 ha hl' hm hle
  by_cases hdig : 48 ≤ c ∧ c < 58
  · rw [if_neg (not_not.2 hdig)]
    have hd'' := hd' hdig
    have hv2 : (u128 lo hi * u128 10#64 0#64 % 2 ^ 128 + u128 d' 0#64) = decVal (cs.take (k + 1)) := by
      rw [hv, hdt, show u128 10#64 0#64 = 10 by decide]
      have : u128 d' 0#64 = c - 48 := by simp [u128, hd'']
      omega
    have hat' : (cs.take (k + 1)).all isDigit = true := by
      rw [hat, hd, (isDigit_iff c).2 hdig]; rfl
    have hX2 : decVal (cs.take (k + 1)) < 2 ^ 128 := by omega
    have hlt := decVal_take_lt cs (k + 1) (by omega) hat'
    rw [hv2, big_lt, u128_ofNat]
    wpx
    simp only [s3, Nat.mod_eq_of_lt hX2, ne_eq]
    by_cases hm1 : m = 1
    · rw [if_pos (by simp [hm1]), if_neg (by simp [hm1]), hr]
      rw [hlast hm1] at hat' hX2 ⊢
      rw [codeParse_good (k := k) (by omega) h39 hat' hb]
      rfl
    · by_cases hx : decVal (cs.take (k + 1)) < (2 ^ 128 - 1) / 10
      · rw [if_neg (not_not.2 ⟨hm1, hx⟩)]
        exact ⟨m - 1, by simp only [id]; omega, rfl, by omega, _, _, _, _, _, k + 1, rfl, by omega,
          s1 (by omega), s2, by rw [u128_ofNat, Nat.mod_eq_of_lt hX2], hat', hx,
          fun h => absurd h (by decide)⟩
      · rw [if_pos (fun h => hx h.2), if_pos hm1]
        have hk37 : k = 37 := by
          have : 37 ≤ k := by
            by_contra hk'
            have : 10 ^ (k + 1) ≤ 10 ^ 37 := Nat.pow_le_pow_right (by omega) (by omega)
            omega
          omega
        subst hk37
        have hlen : cs.length = 39 := by omega
        apply hl5 38 _ (by omega) (s1 (by omega))
        intro d2 hd2
        have hall := all_take_succ cs 38 (by omega)
        have h39' : cs.take (38 + 1) = cs := List.take_of_length_le (by omega)
        rw [h39', hat'] at hall
        generalize hc2 : cs.getD 38 0 = c2 at *
        wpx
        have hcode : codeParse cs = if 48 ≤ c2 ∧ c2 < 54 then some (2 ^ 128 - 6 + (c2 - 48))
            else none := by
          by_cases hdg : isDigit c2 = true
          · rw [hdg] at hall
            rw [isDigit_iff] at hdg
            rw [codeParse, if_pos ⟨by omega, h39, by rw [hall]; rfl⟩, if_pos ⟨hlen, Nat.not_lt.1 hx⟩, hc2]
            by_cases h54 : c2 < 54
            · rw [if_pos (by omega), if_pos (by omega)]
            · rw [if_neg (by omega), if_neg (by omega)]
          · rw [Bool.not_eq_true] at hdg
            rw [codeParse_bad (by rw [hall, hdg]; rfl), if_neg]
            intro h
            have := (isDigit_iff c2).2 (by omega)
            rw [this] at hdg; cases hdg
        rw [hr, hcode]
        by_cases h54 : 48 ≤ c2 ∧ c2 < 54
        · rw [if_neg (not_not.2 h54), if_pos h54, encOptU]
          have := hd2 h54
          congr 2
          apply halves_eq
          simp only [u128, BitVec.toNat_add, this, BitVec.toNat_ofNat]
          omega
        · rw [if_pos h54, if_neg h54]; rfl
  · rw [if_pos hdig, hr, codeParse_bad (all_of_take cs k (by omega) (isDigit_false _ (hc ▸ hdig)))]
    rfl

theorem parse_core {r : CRes σ} (W K B : BitVec 32) (ld10 ld5 : List Instr) (cs : List Nat) (o l : BitVec 32)
    (hW : W = 1#32 ∨ W = 4#32) (hl : l.toNat = W.toNat * cs.length) (h1 : 1 ≤ cs.length)
    (h39 : cs.length ≤ 39) (hm : o.toNat + l.toNat ≤ g.mem.size)
    (hKB : ¬ (l - K).toNat < B.toNat)
    (hl10 : ∀ (k : Nat) (a : BitVec 32), k < cs.length → a.toNat = o.toNat + W.toNat * k →
      LoadsChar M g ld10 10 a (cs.getD k 0))
    (hl5 : ∀ (k : Nat) (a : BitVec 32), k < cs.length → a.toNat = o.toNat + W.toNat * k →
      LoadsChar M g ld5 6 a (cs.getD k 0))
    (hr : r = .ret (encOptU (codeParse cs)) g) :
    WP M (parseBody W K B ld10 ld5) [] [.i32 o, .i32 l, .i64 0#64, .i64 0#64, .i64 0#64] g
      (fun x => x.toCall 3 = r) := by
  have hle := g.mem.le
  have hWp : W.toNat = 1 ∨ W.toNat = 4 := by rcases hW with rfl | rfl <;> simp
  wpx [parseBody]
  rw [if_pos hKB]
  generalize hN : W.toNat = N at *
  refine wp_loop_inv (ParseInv cs N o 1844674407370955161 g) id cs.length
    ⟨rfl, by omega, o, l, 0#64, 0#64, 0#64, 0, rfl, by omega, by omega, by omega,
      by simp [u128, decVal], by simp, by simp [decVal], fun _ => rfl⟩ ?_
  rintro m loc g' ⟨rfl, hm0, a, l', lo, hi, d, k, rfl, hk, ha, hl', hv, hd, hb, hh⟩
  obtain rfl := hh (by decide)
  apply hl10 k a (by omega) ha
  intro d' hd'
  have hdt := decVal_take_succ cs k (by omega)
  have hat := all_take_succ cs k (by omega)
  have hlast : m = 1 → cs.take (k + 1) = cs := fun h => List.take_of_length_le (by omega)
  generalize hc : cs.getD k 0 = c at *
  wpx
  obtain ⟨s1, s2, s3⟩ := step_addr hN hWp hl hk hm0 ha hl' hm hle
  by_cases hdig : 48 ≤ c ∧ c < 58
  · rw [if_neg (not_not.2 hdig)]
    have hd'' := hd' hdig
    have hlo : lo.toNat = decVal (cs.take k) := by rw [← hv]; simp [u128]
    have hv' : (lo * 10#64 + d').toNat = decVal (cs.take (k + 1)) := by
      rw [BitVec.toNat_add, BitVec.toNat_mul, hdt, hd'', hlo]; simp only [BitVec.toNat_ofNat]; omega
    have hv2 : u128 (lo * 10#64 + d') 0#64 = decVal (cs.take (k + 1)) := by rw [← hv']; simp [u128]
    have hat' : (cs.take (k + 1)).all isDigit = true := by
      rw [hat, hd, (isDigit_iff c).2 hdig]; rfl
    simp only [s3, hv']
    by_cases hm1 : m = 1
    · rw [if_pos (by simp [s3, hm1]), if_neg (by simp [hm1]), hr]
      rw [hlast hm1] at hat' hv2
      rw [codeParse_good (k := k) (by omega) h39 hat' (by omega), encOptU, ← hv2, encU_u128]
    · by_cases hx : decVal (cs.take (k + 1)) < 1844674407370955161
      · rw [if_neg (not_not.2 ⟨fun e => hm1 (s3.1 e), hx⟩)]
        exact ⟨m - 1, by simp only [id]; omega, rfl, by omega, _, _, _, _, _, k + 1, rfl, by omega,
          s1 (by omega), s2, hv2, hat', hx, fun _ => rfl⟩
      · rw [if_pos (fun h => hx h.2), if_pos hm1]
        refine parse_big (K := K) (B := B) W ld10 ld5 cs o l hW (by rw [hN]; exact hl) h1 h39 hm (by rw [hN]; exact hl10)
          (by rw [hN]; exact hl5) hr (m - 1) ?_
        rw [hN]
        exact ⟨rfl, by omega, _, _, _, _, _, k + 1, rfl, by omega,
          s1 (by omega), s2, hv2, hat', by omega, by omega⟩
  · rw [if_pos hdig, hr, codeParse_bad (all_of_take cs k (by omega) (isDigit_false _ (hc ▸ hdig)))]
    rfl

theorem codeParse_len {cs : List Nat} (h : cs.length = 0 ∨ 39 < cs.length) : codeParse cs = none := by
  rw [codeParse, if_neg]; omega

theorem getD_ascii (m : Mem) (a n k : Nat) (h : k < n) :
    (asciiAt m a n).getD k 0 = (m.byte (a + k)).toNat := by
  induction n generalizing a k with
  | zero => omega
  | succ n ih =>
    cases k with
    | zero => rfl
    | succ k =>
      have := ih (a + 1) k (by omega)
      rw [show a + (k + 1) = a + 1 + k by omega, ← this]; rfl

theorem length_ascii (m : Mem) (a n : Nat) : (asciiAt m a n).length = n := by
  simp [asciiAt, length_bytesAt]

theorem length_scalars (m : Mem) (a n : Nat) : (scalarsAt m a n).length = n := by
  induction n generalizing a with
  | zero => rfl
  | succ n ih => simp [scalarsAt, ih]

theorem getD_scalars (m : Mem) (a n k : Nat) (h : k < n) :
    (scalarsAt m a n).getD k 0 = beNat (bytesAt m (a + 4 * k) 4) := by
  induction n generalizing a k with
  | zero => omega
  | succ n ih =>
    cases k with
    | zero => rfl
    | succ k =>
      have := ih (a + 4) k (by omega)
      rw [show a + 4 * (k + 1) = a + 4 + 4 * k by omega, ← this]; rfl

theorem runs_string_to_uint (o l : BitVec 32) (h : o.toNat + l.toNat ≤ g.mem.size) :
    Runs M (.std .string_to_uint) [.i32 o, .i32 l] g
      (.ret (encOptU (codeParse (asciiAt g.mem o.toNat l.toNat))) g) := by
  apply runs_std (by simp)
  have hl := length_ascii g.mem o.toNat l.toNat
  have hlt := l.isLt
  have e : (l - 40#32).toNat = (2 ^ 32 - 40 + l.toNat) % 2 ^ 32 := by
    rw [BitVec.toNat_sub]; rfl
  have e2 : (4294967257#32).toNat = 4294967257 := rfl
  by_cases hb : l.toNat = 0 ∨ 39 < l.toNat
  · rw [codeParse_len (by omega)]
    wpx [stdFunc, Std.string_to_uint, Std.string_to_uint_body]
    rw [if_neg (by omega)]; rfl
  · show WP M Std.string_to_uint_body _ _ _ _
    rw [string_to_uint_eq]
    refine parse_core _ _ _ _ _ (asciiAt g.mem o.toNat l.toNat) o l (.inl rfl) (by rw [hl]; simp) (by omega)
      (by omega) h (by omega) ?_ ?_ rfl
    · intro k a hk ha
      rw [getD_ascii _ _ _ _ (by omega)]
      have : a.toNat = o.toNat + k := by rw [ha]; simp
      rw [← this]
      exact loadsA10 a (by omega)
    · intro k a hk ha
      rw [getD_ascii _ _ _ _ (by omega)]
      have : a.toNat = o.toNat + k := by rw [ha]; simp
      rw [← this]
      exact loadsA5 a (by omega)

theorem runs_utf8_to_uint (o l : BitVec 32) (n : Nat) (hn : l.toNat = 4 * n)
    (h : o.toNat + l.toNat ≤ g.mem.size) :
    Runs M (.std .utf8_to_uint) [.i32 o, .i32 l] g
      (.ret (encOptU (codeParse (scalarsAt g.mem o.toNat n))) g) := by
  apply runs_std (by simp)
  have hl := length_scalars g.mem o.toNat n
  have hlt := l.isLt
  have e : (l - 157#32).toNat = (2 ^ 32 - 157 + l.toNat) % 2 ^ 32 := by
    rw [BitVec.toNat_sub]; rfl
  have e2 : (4294967140#32).toNat = 4294967140 := rfl
  by_cases hb : n = 0 ∨ 39 < n
  · rw [codeParse_len (by omega)]
    wpx [stdFunc, Std.utf8_to_uint, Std.utf8_to_uint_body]
    rw [if_neg (by omega)]; rfl
  · show WP M Std.utf8_to_uint_body _ _ _ _
    rw [utf8_to_uint_eq]
    refine parse_core _ _ _ _ _ (scalarsAt g.mem o.toNat n) o l (.inr rfl) (by rw [hl]; exact hn) (by omega)
      (by omega) h (by omega) ?_ ?_ rfl
    · intro k a hk ha
      rw [getD_scalars _ _ _ _ (by omega)]
      have : a.toNat = o.toNat + 4 * k := ha
      rw [← this]
      exact loadsU 10 _ _ (fun x => rfl) (by omega) a (by omega)
    · intro k a hk ha
      rw [getD_scalars _ _ _ _ (by omega)]
      have : a.toNat = o.toNat + 4 * k := ha
      rw [← this]
      refine loadsU 6 _ _ (fun x => ?_) (by omega) a (by omega)
      simp only [IRel.eval, b32, show (5#64).toNat = 5 from rfl]
      congr 1; exact propext (by omega)

/-- What the signed parsers compute from the unsigned result and the sign. -/
def signParse (neg : Bool) (r : Option Nat) : Option Int :=
  (r.map fun (n : Nat) => if neg then -(n : Int) else (n : Int)).filter
    (fun z => decide (-2 ^ 127 ≤ z ∧ z < 2 ^ 127))

/-- The common tail of string-to-int and utf8-to-int. -/
def signTail : List Instr := [
  .b (.localGet 3), .b .i64eqz, .b (.localGet 4),
  .b (.const (.i64 9223372036854775808#64)), .b (.i64rel .eq), .b (.i32bin .and), .b (.i32bin .and),
  .ite 0 0 [
    .b (.const (.i32 1#32)), .b (.const (.i64 0#64)), .b (.const (.i64 9223372036854775808#64)), .ret] [],
  .b .i32eqz, .b (.localGet 4), .b (.const (.i64 0#64)), .b (.i64rel .ltS), .b (.i32bin .or),
  .ite 0 0 [
    .b (.const (.i32 0#32)), .b (.const (.i64 0#64)), .b (.const (.i64 0#64)), .ret] [],
  .b (.const (.i32 1#32)), .b (.localGet 2), .b .i32eqz,
  .ite 0 2 [
    .b (.localGet 3), .b (.localGet 4)] [
    .b (.const (.i64 0#64)), .b (.localGet 3), .b (.i64bin .sub), .b (.const (.i64 0#64)),
    .b (.localGet 4), .b (.localGet 3), .b (.const (.i64 0#64)), .b (.i64rel .ne), .b .i64extU,
    .b (.i64bin .add), .b (.i64bin .sub)]]

theorem sign_tail {a l nv : BitVec 32} {lo hi : BitVec 64} {flag : BitVec 32} (neg : Bool)
    (p : Option Nat) (hp : ∀ n, p = some n → n < 2 ^ 128)
    (he : encOptU p = [.i32 flag, .i64 lo, .i64 hi])
    (hneg : nv = 0#32 ↔ neg = false) :
    WP M signTail [.i32 (b32 (neg = true)), .i32 flag]
      [.i32 a, .i32 l, .i32 nv, .i64 lo, .i64 hi] g
      (fun x => x.toCall 3 = .ret (encOptI (signParse neg p)) g) := by
  cases p with
  | none =>
    simp only [encOptU, List.cons.injEq, Val.i32.injEq, Val.i64.injEq, and_true] at he
    obtain ⟨rfl, rfl, rfl⟩ := he
    wpx [signTail]
    simp [signParse, encOptI]
  | some n =>
    have hn := hp n rfl
    simp only [encOptU, encU, List.cons.injEq, Val.i32.injEq, Val.i64.injEq, and_true] at he
    obtain ⟨rfl, rfl, rfl⟩ := he
    wpx [signTail]
    have hlo : (BitVec.ofNat 64 n) = 0#64 ↔ n % 2 ^ 64 = 0 := by
      rw [← BitVec.toNat_inj, BitVec.toNat_ofNat]; rfl
    have hhi : (BitVec.ofNat 64 (n / 2 ^ 64)) = 9223372036854775808#64 ↔ n / 2 ^ 64 = 2 ^ 63 := by
      rw [← BitVec.toNat_inj, BitVec.toNat_ofNat, Nat.mod_eq_of_lt (by omega)]; rfl
    have hs : (BitVec.ofNat 64 (n / 2 ^ 64)).toInt < 0 ↔ 2 ^ 127 ≤ n := by
      have h1 := toInt_cases (BitVec.ofNat 64 (n / 2 ^ 64))
      rw [BitVec.toNat_ofNat, Nat.mod_eq_of_lt (by omega)] at h1
      omega
    have hneg0 := neg_halves False n hn
    simp only [if_false] at hneg0
    simp only [hlo, hhi, hs, hneg]
    by_cases hmin : neg = true ∧ n = 2 ^ 127
    · obtain ⟨rfl, rfl⟩ := hmin
      rw [if_neg (not_not.2 ⟨rfl, by decide, by decide⟩)]
      rfl
    · rw [if_pos (by rintro ⟨h1, h2, h3⟩; exact hmin ⟨h1, by omega⟩)]
      by_cases hbig : 2 ^ 127 ≤ n
      · rw [if_neg (not_not.2 (.inr hbig))]
        have : signParse neg (some n) = none := by
          simp only [signParse, Option.map_some]
          rw [Option.filter_some, if_neg]
          cases neg <;> simp at hmin ⊢ <;> omega
        rw [this]; rfl
      · rw [if_pos (by tauto)]
        have : signParse neg (some n) = some (if neg then -(n : Int) else n) := by
          simp only [signParse, Option.map_some]
          rw [Option.filter_some, if_pos]
          cases neg <;> simp <;> omega
        rw [this]
        cases neg
        · rw [if_neg (by simp)]
          simp only [encOptI, Bool.false_eq_true, if_false]
          rw [encI_eq_encU (n := n) rfl]; rfl
        · rw [if_pos (by simp)]
          simp only [encOptI, if_true]
          rw [← hneg0]

theorem codeParse_lt {cs : List Nat} {n : Nat} (h : codeParse cs = some n) : n < 2 ^ 128 := by
  unfold codeParse at h
  split at h
  · rename_i hc
    split at h
    · split at h
      · rename_i h53; rw [Option.some.injEq] at h; omega
      · cases h
    · rename_i hb
      rw [Option.some.injEq] at h; subst h
      by_cases h39 : cs.length = 39
      · have hv : decVal (cs.take 38) < (2 ^ 128 - 1) / 10 := by
          rcases Nat.lt_or_ge (decVal (cs.take 38)) ((2 ^ 128 - 1) / 10) with h | h
          · exact h
          · exact absurd ⟨h39, h⟩ hb
        have hs := decVal_take_succ cs 38 (by omega)
        have ha := all_take_succ cs 38 (by omega)
        rw [List.take_of_length_le (i := 38 + 1) (by omega)] at hs ha
        rw [hc.2.2] at ha
        have := (isDigit_iff (cs.getD 38 0)).1 (by
          cases h : isDigit (cs.getD 38 0)
          · rw [h, Bool.and_false] at ha; cases ha
          · rfl)
        rw [hs]; omega
      · have := decVal_take_lt cs cs.length (Nat.le_refl _) (by rw [List.take_length]; exact hc.2.2)
        rw [List.take_length] at this
        have h2 : 10 ^ cs.length ≤ 10 ^ 38 := Nat.pow_le_pow_right (by omega) (by omega)
        omega
  · cases h

/-- What the signed parsers compute. -/
def codeParseInt : List Nat → Option Int
  | [] => none
  | c :: ds => if c = 45 then signParse true (codeParse ds) else signParse false (codeParse (c :: ds))

theorem runs_string_to_uint_none (o l : BitVec 32) (hb : l.toNat = 0 ∨ 39 < l.toNat) :
    Runs M (.std .string_to_uint) [.i32 o, .i32 l] g (.ret (encOptU none) g) := by
  apply runs_std (by simp)
  have hlt := l.isLt
  have e : (l - 40#32).toNat = (2 ^ 32 - 40 + l.toNat) % 2 ^ 32 := by
    rw [BitVec.toNat_sub]; rfl
  wpx [stdFunc, Std.string_to_uint, Std.string_to_uint_body]
  rw [if_neg (by omega)]; rfl

theorem runs_utf8_to_uint_none (o l : BitVec 32) (hb : l.toNat = 0 ∨ 156 < l.toNat) :
    Runs M (.std .utf8_to_uint) [.i32 o, .i32 l] g (.ret (encOptU none) g) := by
  apply runs_std (by simp)
  have hlt := l.isLt
  have e : (l - 157#32).toNat = (2 ^ 32 - 157 + l.toNat) % 2 ^ 32 := by
    rw [BitVec.toNat_sub]; rfl
  wpx [stdFunc, Std.utf8_to_uint, Std.utf8_to_uint_body]
  rw [if_neg (by omega)]; rfl

theorem encOptU_shape (p : Option Nat) :
    ∃ f lo hi, encOptU p = [.i32 f, .i64 lo, .i64 hi] := by
  cases p with
  | none => exact ⟨_, _, _, rfl⟩
  | some n => exact ⟨_, _, _, rfl⟩

theorem wp_parse_call {f : StdFn} {o l : BitVec 32} {p : Option Nat}
    (hs : M.sig (.std f) = some ([.i32, .i32], [.i32, .i64, .i64]))
    (h : Runs M (.std f) [.i32 o, .i32 l] g (.ret (encOptU p) g))
    (hk : ∀ fl lo hi, encOptU p = [.i32 fl, .i64 lo, .i64 hi] →
      WP M is (.i64 hi :: .i64 lo :: .i32 fl :: stk) loc g Q) :
    WP M (.call (.std f) :: is) (.i32 l :: .i32 o :: stk) loc g Q := by
  have := (wp_call_runs (is := is) (stk := stk) (loc := loc) (Q := Q) hs rfl h (by simp)).2
  refine this ?_
  obtain ⟨fl, lo, hi, e⟩ := encOptU_shape p
  rw [e]
  exact hk _ _ _ e

theorem runs_string_to_int (o l : BitVec 32) (h : o.toNat + l.toNat ≤ g.mem.size)
    (h1 : o.toNat + 1 ≤ g.mem.size) :
    Runs M (.std .string_to_int) [.i32 o, .i32 l] g
      (.ret (encOptI (codeParseInt (asciiAt g.mem o.toNat l.toNat))) g) := by
  have hle := g.mem.le
  have hl := l.isLt
  apply runs_std (by simp)
  wpx [stdFunc, Std.string_to_int, Std.string_to_int_body,
    wp_i32load (n := 1) (off := 0) (a := o) (g := g) (by omega), Nat.add_zero, read_one]
  have hb := (g.mem.byte o.toNat).isLt
  have hneg : b32 (BitVec.ofNat 32 (g.mem.byte o.toNat).toNat = 45#32) =
      b32 ((decide ((g.mem.byte o.toNat).toNat = 45)) = true) := by
    unfold b32
    simp only [← BitVec.toNat_inj (x := BitVec.ofNat 32 _), BitVec.toNat_ofNat, decide_eq_true_eq]
    congr 1; exact propext (by omega)
  rw [hneg]
  generalize hneg' : decide ((g.mem.byte o.toNat).toNat = 45) = neg
  have hnz : b32 (neg = true) = 0#32 ↔ neg = false := by rw [b32_eq_zero]; simp
  have main : ∀ p, Runs M (.std .string_to_uint) [.i32 (o + b32 (neg = true)), .i32 (l - b32 (neg = true))] g
        (.ret (encOptU p) g) → (∀ n, p = some n → n < 2 ^ 128) →
      codeParseInt (asciiAt g.mem o.toNat l.toNat) = signParse neg p →
      WP M (.call (.std .string_to_uint) :: .b (.localSet 4) :: .b (.localSet 3) ::
        .b (.localGet 2) :: signTail) [.i32 (l - b32 (neg = true)), .i32 (o + b32 (neg = true))]
        [.i32 o, .i32 l, .i32 (b32 (neg = true)), .i64 0#64, .i64 0#64] g
        (fun x => x.toCall 3 = .ret (encOptI (codeParseInt (asciiAt g.mem o.toNat l.toNat))) g) := by
    intro p hr hp he
    refine wp_parse_call rfl hr ?_
    intro fl lo hi e
    wpx
    rw [he]
    exact sign_tail neg p hp e hnz
  rcases Nat.eq_zero_or_pos l.toNat with h0 | h0
  · refine main none ?_ (by simp) (by rw [h0]; simp [asciiAt, bytesAt, codeParseInt, signParse])
    apply runs_string_to_uint_none
    cases neg
    · left; simp [b32, h0]
    · right; simp [b32, h0, BitVec.toNat_sub]
  · obtain ⟨k, hk⟩ : ∃ k, l.toNat = k + 1 := ⟨l.toNat - 1, by omega⟩
    have hcs : asciiAt g.mem o.toNat l.toNat =
        (g.mem.byte o.toNat).toNat :: asciiAt g.mem (o.toNat + 1) k := by rw [hk]; rfl
    cases neg
    · have hc : ¬ (g.mem.byte o.toNat).toNat = 45 := by simpa using hneg'
      refine main (codeParse (asciiAt g.mem o.toNat l.toNat)) ?_ (fun n => codeParse_lt) ?_
      · have := runs_string_to_uint (M := M) o l h
        simpa [b32] using this
      · rw [hcs, codeParseInt, if_neg hc]
    · have hc : (g.mem.byte o.toNat).toNat = 45 := by simpa using hneg'
      refine main (codeParse (asciiAt g.mem (o.toNat + 1) k)) ?_ (fun n => codeParse_lt) ?_
      · have e1 : (o + 1#32).toNat = o.toNat + 1 ∨ l.toNat = 1 := by
          rw [BitVec.toNat_add]; simp; omega
        have e2 : (l - 1#32).toNat = k := by
          rw [BitVec.toNat_sub]; simp; omega
        rcases Nat.eq_zero_or_pos k with hk0 | hk0
        · subst hk0
          have := runs_string_to_uint_none (M := M) (g := g) (o + 1#32) (l - 1#32) (by omega)
          simpa [b32, asciiAt, bytesAt, codeParse] using this
        · have e1 : (o + 1#32).toNat = o.toNat + 1 := by omega
          have := runs_string_to_uint (M := M) (o + 1#32) (l - 1#32) (g := g) (by omega)
          rw [e1, e2] at this
          simpa [b32] using this
      · rw [hcs, codeParseInt, if_pos hc]

theorem runs_utf8_to_int (o l : BitVec 32) (n : Nat) (hn : l.toNat = 4 * n)
    (h : o.toNat + l.toNat ≤ g.mem.size)
    (h1 : o.toNat + 4 ≤ g.mem.size) :
    Runs M (.std .utf8_to_int) [.i32 o, .i32 l] g
      (.ret (encOptI (codeParseInt (scalarsAt g.mem o.toNat n))) g) := by
  have hle := g.mem.le
  have hl := l.isLt
  apply runs_std (by simp)
  wpx [stdFunc, Std.utf8_to_int, Std.utf8_to_int_body,
    wp_i32load (n := 4) (off := 0) (a := o) (g := g) (by omega), Nat.add_zero]
  have hneg : b32 (BitVec.ofNat 32 (g.mem.read o.toNat 4) = 754974720#32) =
      b32 ((decide (beNat (bytesAt g.mem o.toNat 4) = 45)) = true) := by
    unfold b32
    have := read4 g.mem o.toNat
    have := beNat4 g.mem o.toNat
    have := (g.mem.byte o.toNat).isLt
    have := (g.mem.byte (o.toNat + 1)).isLt
    have := (g.mem.byte (o.toNat + 2)).isLt
    have := (g.mem.byte (o.toNat + 3)).isLt
    simp only [← BitVec.toNat_inj (x := BitVec.ofNat 32 _), BitVec.toNat_ofNat, decide_eq_true_eq]
    congr 1; exact propext (by omega)
  rw [hneg]
  generalize hneg' : decide (beNat (bytesAt g.mem o.toNat 4) = 45) = neg
  have hne : ∀ p : Prop, ∀ [Decidable p], b32 (b32 p <<< 2 ≠ 0#32) = b32 p := by
    intro p _; by_cases hp : p <;> simp [b32, hp]
  have hnz : b32 (neg = true) <<< 2 = 0#32 ↔ neg = false := by cases neg <;> simp [b32]
  have main : ∀ p, Runs M (.std .utf8_to_uint) [.i32 (o + b32 (neg = true) <<< 2), .i32 (l - b32 (neg = true) <<< 2)] g
        (.ret (encOptU p) g) → (∀ n, p = some n → n < 2 ^ 128) →
      codeParseInt (scalarsAt g.mem o.toNat n) = signParse neg p →
      WP M (.call (.std .utf8_to_uint) :: .b (.localSet 4) :: .b (.localSet 3) ::
        .b (.localGet 2) :: .b (.const (.i32 0#32)) :: .b (.i32rel .ne) ::
        signTail) [.i32 (l - b32 (neg = true) <<< 2), .i32 (o + b32 (neg = true) <<< 2)]
        [.i32 o, .i32 l, .i32 (b32 (neg = true) <<< 2), .i64 0#64, .i64 0#64] g
        (fun x => x.toCall 3 = .ret (encOptI (codeParseInt (scalarsAt g.mem o.toNat n))) g) := by
    intro p hr hp he
    refine wp_parse_call rfl hr ?_
    intro fl lo hi e
    wpx
    rw [he, hne]
    exact sign_tail neg p hp e hnz
  rcases Nat.eq_zero_or_pos n with h0 | h0
  · subst h0
    refine main none ?_ (by simp) (by simp [scalarsAt, codeParseInt, signParse])
    apply runs_utf8_to_uint_none
    cases neg
    · left; simp [b32, hn]
    · right; simp [b32, hn, BitVec.toNat_sub]
  · obtain ⟨k, rfl⟩ : ∃ k, n = k + 1 := ⟨n - 1, by omega⟩
    have hcs : scalarsAt g.mem o.toNat (k + 1) =
        beNat (bytesAt g.mem o.toNat 4) :: scalarsAt g.mem (o.toNat + 4) k := rfl
    cases neg
    · have hc : ¬ beNat (bytesAt g.mem o.toNat 4) = 45 := by simpa using hneg'
      refine main (codeParse (scalarsAt g.mem o.toNat (k + 1))) ?_ (fun n => codeParse_lt) ?_
      · have := runs_utf8_to_uint (M := M) o l (k + 1) hn h
        simpa [b32] using this
      · rw [hcs, codeParseInt, if_neg hc]
    · have hc : beNat (bytesAt g.mem o.toNat 4) = 45 := by simpa using hneg'
      refine main (codeParse (scalarsAt g.mem (o.toNat + 4) k)) ?_ (fun n => codeParse_lt) ?_
      · have e2 : (l - 4#32).toNat = 4 * k := by
          rw [BitVec.toNat_sub]; simp; omega
        rcases Nat.eq_zero_or_pos k with hk0 | hk0
        · subst hk0
          have := runs_utf8_to_uint_none (M := M) (g := g) (o + 4#32) (l - 4#32) (by omega)
          simpa [b32, scalarsAt, codeParse] using this
        · have e1 : (o + 4#32).toNat = o.toNat + 4 := by
            rw [BitVec.toNat_add]; simp; omega
          have := runs_utf8_to_uint (M := M) (o + 4#32) (l - 4#32) (g := g) k e2 (by omega)
          rw [e1] at this
          simpa [b32] using this
      · rw [hcs, codeParseInt, if_pos hc]

end Wasm
