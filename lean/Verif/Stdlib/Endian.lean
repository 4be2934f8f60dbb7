import Verif.Stdlib.Print
import Verif.Wasm.Tac

/-! Byte-order arithmetic, and the runtime functions storing and loading big-endian numbers
(standard.wat 2012-2069). -/

namespace Wasm
open Spec
variable {σ : Type} {M : Mod σ} {is : List Instr} {stk loc : List Val} {g : Store σ}
  {Q : Res σ → Prop}

theorem or_add {a b : Nat} (k : Nat) (ha : a % 2 ^ k = 0) (hb : b < 2 ^ k) : a ||| b = a + b := by
  have h : a = a / 2 ^ k * 2 ^ k := by
    have := Nat.div_add_mod a (2 ^ k); rw [ha, Nat.mul_comm] at this; omega
  rw [h, ← Nat.shiftLeft_eq, Nat.shiftLeft_add_eq_or_of_lt hb]

theorem and_shl (x m k : Nat) : x &&& (m <<< k) = ((x >>> k) &&& m) <<< k := by
  apply Nat.eq_of_testBit_eq
  intro i
  simp only [Nat.testBit_and, Nat.testBit_shiftLeft, Nat.testBit_shiftRight]
  by_cases h : k ≤ i
  · simp [h]
  · simp [h]

/-- Masking out byte `k`. -/
theorem and_byte (x k : Nat) : x &&& (255 * 256 ^ k) = x / 256 ^ k % 256 * 256 ^ k := by
  have e : 256 ^ k = 2 ^ (8 * k) := by rw [show 256 = 2 ^ 8 from rfl, ← Nat.pow_mul]
  rw [e, ← Nat.shiftLeft_eq, ← Nat.shiftLeft_eq, and_shl, Nat.shiftRight_eq_div_pow,
    show 255 = 2 ^ 8 - 1 from rfl, Nat.and_two_pow_sub_one_eq_mod]

theorem and_FF (x : Nat) : x &&& 255 = x % 256 := by
  have := and_byte x 0; simpa using this
theorem and_FF00 (x : Nat) : x &&& 65280 = x / 256 % 256 * 256 := and_byte x 1
theorem and_FF0000 (x : Nat) : x &&& 16711680 = x / 65536 % 256 * 65536 := and_byte x 2
theorem and_FF000000 (x : Nat) : x &&& 4278190080 = x / 16777216 % 256 * 16777216 := and_byte x 3

/-- The number with the four bytes of `x` in reverse order. -/
def rev4 (x : Nat) : Nat :=
  x % 256 * 16777216 + x / 256 % 256 * 65536 + x / 65536 % 256 * 256 + x / 16777216 % 256

theorem bytes4 (x : Nat) (h : x < 2 ^ 32) : ∃ b0 b1 b2 b3 : Nat, b0 < 256 ∧ b1 < 256 ∧ b2 < 256 ∧
    b3 < 256 ∧ x = b0 + 256 * b1 + 65536 * b2 + 16777216 * b3 :=
  ⟨x % 256, x / 256 % 256, x / 65536 % 256, x / 16777216, by omega, by omega, by omega, by omega,
    by omega⟩

theorem rev4_bytes {b0 b1 b2 b3 : Nat} (h0 : b0 < 256) (h1 : b1 < 256) (h2 : b2 < 256)
    (h3 : b3 < 256) : rev4 (b0 + 256 * b1 + 65536 * b2 + 16777216 * b3) =
      b3 + 256 * b2 + 65536 * b1 + 16777216 * b0 := by
  simp only [rev4]; omega

theorem bswap_mask (x : BitVec 32) :
    ((x &&& 255#32) <<< 24 ||| ((x &&& 65280#32) <<< 8 |||
      ((x &&& 16711680#32) >>> 8 ||| x >>> 24))).toNat = rev4 x.toNat := by
  have := x.isLt
  simp only [BitVec.toNat_or, BitVec.toNat_and, BitVec.toNat_shiftLeft, BitVec.toNat_ushiftRight,
    BitVec.toNat_ofNat, Nat.shiftLeft_eq, Nat.shiftRight_eq_div_pow, Nat.reduceMod, Nat.reducePow,
    and_FF, and_FF00, and_FF0000]
  generalize x.toNat = y at *
  obtain ⟨b0, b1, b2, b3, h0, h1, h2, h3, rfl⟩ := bytes4 y this
  rw [rev4_bytes h0 h1 h2 h3]
  generalize hy : b0 + 256 * b1 + 65536 * b2 + 16777216 * b3 = y
  rw [show y % 256 * 16777216 % 4294967296 = 16777216 * b0 by omega,
    show y / 256 % 256 = b1 by omega, show y / 65536 % 256 = b2 by omega,
    show y / 16777216 = b3 by omega, show b1 * 256 * 256 % 4294967296 = 65536 * b1 by omega,
    show b2 * 65536 / 256 = 256 * b2 by omega,
    or_add 8 (a := 256 * b2) (by omega) (by omega), or_add 16 (a := 65536 * b1) (by omega) (by omega),
    or_add 24 (by omega) (by omega)]
  omega

theorem bswap_shift (x : BitVec 32) :
    (x <<< 24 ||| (x &&& 65280#32) <<< 8 ||| (x >>> 8 &&& 65280#32 ||| x >>> 24)).toNat =
      rev4 x.toNat := by
  have := x.isLt
  simp only [BitVec.toNat_or, BitVec.toNat_and, BitVec.toNat_shiftLeft, BitVec.toNat_ushiftRight,
    BitVec.toNat_ofNat, Nat.shiftLeft_eq, Nat.shiftRight_eq_div_pow, Nat.reduceMod, Nat.reducePow,
    and_FF, and_FF00, and_FF0000]
  generalize x.toNat = y at *
  obtain ⟨b0, b1, b2, b3, h0, h1, h2, h3, rfl⟩ := bytes4 y this
  rw [rev4_bytes h0 h1 h2 h3]
  generalize hy : b0 + 256 * b1 + 65536 * b2 + 16777216 * b3 = y
  rw [show y * 16777216 % 4294967296 = 16777216 * b0 by omega,
    show y / 256 / 256 % 256 = b2 by omega,
    show y / 256 % 256 = b1 by omega,
    show y / 16777216 = b3 by omega, show b1 * 256 * 256 % 4294967296 = 65536 * b1 by omega,
    or_add 24 (a := 16777216 * b0) (b := 65536 * b1) (by omega) (by omega), or_add 8 (a := b2 * 256) (by omega) (by omega),
    or_add 16 (by omega) (by omega)]
  omega

/-- Loading four bytes and reversing them gives their big-endian number. -/
theorem rev4_read (m : Mem) (a : Nat) : rev4 (m.read a 4) = beNat (bytesAt m a 4) := by
  rw [beNat4, read4, rev4]
  have h0 := (m.byte a).isLt
  have h1 := (m.byte (a + 1)).isLt
  have h2 := (m.byte (a + 2)).isLt
  have h3 := (m.byte (a + 3)).isLt
  generalize (m.byte a).toNat = b0 at *
  generalize (m.byte (a + 1)).toNat = b1 at *
  generalize (m.byte (a + 2)).toNat = b2 at *
  generalize (m.byte (a + 3)).toNat = b3 at *
  omega

/-- The big-endian number of the bytes of a little-endian store. -/
theorem be_write4 (m : Mem) (a x : Nat) : beNat (bytesAt (m.write a 4 x) a 4) = rev4 x := by
  rw [beNat4]
  simp only [Mem.write]
  rw [if_pos (by omega), if_pos (by omega), if_pos (by omega), if_pos (by omega)]
  simp only [Nat.sub_self, Nat.add_sub_cancel_left, BitVec.toNat_ofNat, rev4]
  omega

theorem rev4_rev4 (x : Nat) (h : x < 2 ^ 32) : rev4 (rev4 x) = x := by
  obtain ⟨b0, b1, b2, b3, h0, h1, h2, h3, rfl⟩ := bytes4 x h
  rw [rev4_bytes h0 h1 h2 h3, rev4_bytes h3 h2 h1 h0]

theorem rev4_lt (x : Nat) : rev4 x < 2 ^ 32 := by simp only [rev4]; omega

/-- Writing `bs` one byte at a time from `a`. -/
def putB (m : Mem) (a : Nat) : List Nat → Mem
  | [] => m
  | b :: bs => putB (m.write a 1 b) (a + 1) bs

theorem same_putB (m : Mem) (a : Nat) (bs : List Nat) : Same m (putB m a bs) a bs.length := by
  induction bs generalizing m a with
  | nil => exact Same.refl ..
  | cons b bs ih =>
    have h1 := same_write m a 1 b
    have h2 := ih (m.write a 1 b) (a + 1)
    exact (h1.mono (Nat.le_refl _) (by simp)).trans (h2.mono (by omega) (by simp; omega))

theorem asciiAt_cons (m : Mem) (a n : Nat) :
    asciiAt m a (n + 1) = (m.byte a).toNat :: asciiAt m (a + 1) n := rfl

theorem asciiAt_putB (m : Mem) (a : Nat) (bs : List Nat) (h : ∀ b ∈ bs, b < 256) :
    asciiAt (putB m a bs) a bs.length = bs := by
  induction bs generalizing m a with
  | nil => rfl
  | cons b bs ih =>
    rw [List.length_cons, asciiAt_cons]
    have h2 := (same_putB (m.write a 1 b) (a + 1) bs).2 a (by omega)
    rw [putB, h2, ih _ _ (fun b hb => h b (List.mem_cons_of_mem _ hb))]
    have := h b (List.mem_cons_self)
    simp [Mem.write]; omega

theorem asciiAt_append (m : Mem) (a n k : Nat) :
    asciiAt m a (n + k) = asciiAt m a n ++ asciiAt m (a + n) k := by
  induction n generalizing a with
  | zero => simp [asciiAt, bytesAt]
  | succ n ih =>
    rw [show n + 1 + k = (n + k) + 1 by omega, asciiAt_cons, asciiAt_cons, ih]
    rw [show a + 1 + n = a + (n + 1) by omega]; rfl

theorem asciiAt_congr {m m' : Mem} {a n : Nat} (h : ∀ i, a ≤ i → i < a + n → m.byte i = m'.byte i) :
    asciiAt m a n = asciiAt m' a n := by
  rw [asciiAt, asciiAt, bytesAt_congr]
  intro b hb; exact h _ (by omega) (by omega)

theorem runs_store_i32_be (a v : BitVec 32) (h : a.toNat + 4 ≤ g.mem.size) :
    Runs M (.std .store_i32_be) [.i32 a, .i32 v] g
      (.ret [] (g.setMem (g.mem.write a.toNat 4 (rev4 v.toNat)))) := by
  apply runs_std (by simp)
  wpx [stdFunc, Std.store_i32_be, Std.store_i32_be_body]
  rw [wp_i32store (by omega), bswap_shift]
  wpx
  rw [Nat.add_zero]

theorem runs_load_i32_be (a : BitVec 32) (h : a.toNat + 4 ≤ g.mem.size) :
    Runs M (.std .load_i32_be) [.i32 a] g
      (.ret [.i32 (BitVec.ofNat 32 (beNat (bytesAt g.mem a.toNat 4)))] g) := by
  apply runs_std (by simp)
  wpx [stdFunc, Std.load_i32_be, Std.load_i32_be_body]
  rw [wp_i32load (by omega)]
  wpx
  congr 3
  apply BitVec.eq_of_toNat_eq
  have hr := read_lt g.mem a.toNat 4
  rw [bswap_shift, ← rev4_read, BitVec.toNat_ofNat, BitVec.toNat_ofNat, Nat.add_zero,
    Nat.mod_eq_of_lt (by omega), Nat.mod_eq_of_lt (rev4_lt _)]

end Wasm
