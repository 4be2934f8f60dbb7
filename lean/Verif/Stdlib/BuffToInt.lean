import Verif.Stdlib.Buff

/-! Runtime library: conversion of buffers to integers (standard.wat 2071-2132). -/

namespace Wasm
open Spec
variable {σ : Type} {M : Mod σ} {is : List Instr} {stk loc : List Val} {g : Store σ}
  {Q : Res σ → Prop}

theorem leNat_bytesAt (m : Mem) (a n : Nat) : leNat (bytesAt m a n) = m.read a n := by
  induction n generalizing a with
  | zero => rfl
  | succ n ih => simp [bytesAt, leNat, Mem.read, ih]

theorem read_lt (m : Mem) (a n : Nat) : m.read a n < 256 ^ n := by
  induction n generalizing a with
  | zero => simp [Mem.read]
  | succ n ih =>
    have := (m.byte a).isLt; have := ih (a + 1)
    simp only [Mem.read, Nat.pow_succ]; omega

theorem read_add (m : Mem) (a p q : Nat) :
    m.read a (p + q) = m.read a p + 256 ^ p * m.read (a + p) q := by
  induction p generalizing a with
  | zero => simp [Mem.read]
  | succ p ih =>
    rw [show p + 1 + q = (p + q) + 1 by omega]
    simp only [Mem.read, ih]
    rw [show a + 1 + p = a + (p + 1) by omega, Nat.pow_succ]; ring

theorem read_mod (m : Mem) (a p q : Nat) : m.read a (p + q) % 256 ^ p = m.read a p := by
  rw [read_add, Nat.add_mul_mod_self_left, Nat.mod_eq_of_lt (read_lt m a p)]

theorem beNat_snoc (l : List Byte) (b : Byte) : beNat (l ++ [b]) = 256 * beNat l + b.toNat := by
  simp [beNat]

theorem bytesAt_add (m : Mem) (a p q : Nat) :
    bytesAt m a (p + q) = bytesAt m a p ++ bytesAt m (a + p) q := by
  induction p generalizing a with
  | zero => simp [bytesAt]
  | succ p ih =>
    rw [show p + 1 + q = (p + q) + 1 by omega]
    simp only [bytesAt, ih, List.cons_append]
    rw [show a + 1 + p = a + (p + 1) by omega]

theorem length_bytesAt (m : Mem) (a n : Nat) : (bytesAt m a n).length = n := by
  induction n generalizing a with
  | zero => rfl
  | succ n ih => simp [bytesAt, ih]

theorem beNat_lt (l : List Byte) : beNat l < 256 ^ l.length := by
  induction l using List.reverseRecOn with
  | nil => simp [beNat]
  | append_singleton l b ih =>
    have := b.isLt
    rw [beNat_snoc, List.length_append, List.length_singleton, Nat.pow_succ]; omega

theorem beNat_append (l r : List Byte) : beNat (l ++ r) = 256 ^ r.length * beNat l + beNat r := by
  induction r using List.reverseRecOn with
  | nil => simp [beNat]
  | append_singleton r b ih =>
    rw [← List.append_assoc, beNat_snoc, ih, beNat_snoc, List.length_append, List.length_singleton,
      Nat.pow_succ]; ring

theorem beNat_cons (b : Byte) (l : List Byte) : beNat (b :: l) = 256 ^ l.length * b.toNat + beNat l := by
  have := beNat_append [b] l
  simpa [beNat] using this

/-- The two masks computed by both functions. -/
def masks (l : BitVec 32) : BitVec 64 × BitVec 64 :=
  (if ¬8 ≤ l.toNat then
      18446744073709551615#64 >>> ((BitVec.setWidth 64 ((l * 56#32) &&& 56#32)).toNat % 64)
    else 18446744073709551615#64,
   if ¬8 < l.toNat then 0#64 else
     18446744073709551615#64 >>> ((BitVec.setWidth 64 ((l * 56#32) &&& 56#32)).toNat % 64))

theorem masks_eq : ∀ n < 17, 0 < n → masks (BitVec.ofNat 32 n) =
    (BitVec.ofNat 64 (2 ^ (8 * min n 8) - 1), BitVec.ofNat 64 (2 ^ (8 * (n - 8)) - 1)) := by
  decide +kernel

theorem and_mask (x : BitVec 64) (k : Nat) (h : k ≤ 64) :
    (x &&& BitVec.ofNat 64 (2 ^ k - 1)).toNat = x.toNat % 2 ^ k := by
  have : 2 ^ k ≤ 2 ^ 64 := Nat.pow_le_pow_right (by omega) h
  have h1 := Nat.two_pow_pos k
  rw [BitVec.toNat_and, BitVec.toNat_ofNat, Nat.mod_eq_of_lt (a := 2 ^ k - 1) (by omega),
    Nat.and_two_pow_sub_one_eq_mod]

theorem u128_masks (lo hi : BitVec 64) (l : BitVec 32) (h0 : 0 < l.toNat) (h : l.toNat ≤ 16) :
    u128 (lo &&& (masks l).1) (hi &&& (masks l).2) = u128 lo hi % 256 ^ l.toNat := by
  have e : l = BitVec.ofNat 32 l.toNat := by simp
  generalize l.toNat = n at *
  subst e
  rw [masks_eq n (by omega) h0]
  simp only [u128]
  rw [and_mask _ _ (by omega), and_mask _ _ (by omega), show (256 : Nat) = 2 ^ 8 from rfl,
    ← Nat.pow_mul]
  have hl := lo.isLt
  rcases Nat.le_total n 8 with h8 | h8
  · rw [show min n 8 = n by omega, show n - 8 = 0 by omega]
    have : lo.toNat + 2 ^ 64 * hi.toNat = lo.toNat + 2 ^ (8 * n) * (2 ^ (64 - 8 * n) * hi.toNat) := by
      rw [← Nat.mul_assoc, pow_split (by omega)]
    rw [this, Nat.add_mul_mod_self_left]
    simp [Nat.mod_one]
  · rw [show min n 8 = 8 by omega]
    obtain ⟨k, rfl⟩ : ∃ k, n = 8 + k := ⟨n - 8, by omega⟩
    rw [show 8 + k - 8 = k by omega, show 8 * (8 + k) = 64 + 8 * k by omega, Nat.pow_add,
      Nat.mod_mul, Nat.add_mul_mod_self_left, Nat.add_mul_div_left _ _ (by positivity),
      Nat.div_eq_of_lt hl, Nat.zero_add]

theorem i32_zero {l : BitVec 32} : l = 0#32 ↔ l.toNat = 0 := by
  rw [← BitVec.toNat_inj]; rfl

theorem runs_buff_to_uint_le (o l : BitVec 32) (hm : 0 < l.toNat → o.toNat + 16 ≤ g.mem.size) :
    Runs M (.std .buff_to_uint_le) [.i32 o, .i32 l] g
      (if l.toNat ≤ 16 then .ret (encU (leNat (bytesAt g.mem o.toNat l.toNat))) g
        else abort g 5) := by
  apply runs_std (by split <;> simp [abort])
  wpx [stdFunc, Std.buff_to_uint_le, Std.buff_to_uint_le_body]
  simp only [i32_zero]
  by_cases h16 : l.toNat ≤ 16
  · rw [if_pos (by omega), if_pos h16]
    by_cases h0 : l.toNat = 0
    · rw [if_neg (by omega), h0]; simp [bytesAt, leNat, beNat, encU]
    · rw [if_pos h0]
      have hm := hm (by omega)
      wpx [wp_i64load (n := 8) (off := 0) (a := o) (g := g) (by omega),
        wp_i64load (n := 8) (off := 8) (a := o) (g := g) (by omega), Nat.add_zero]
      rw [CRes.ret.injEq]
      refine ⟨halves_eq ?_, rfl⟩
      refine (u128_masks _ _ l (by omega) h16).trans ?_
      have h1 := read_lt g.mem o.toNat 8
      have h2 := read_lt g.mem (o.toNat + 8) 8
      have h3 := read_add g.mem o.toNat 8 8
      simp only [u128, BitVec.toNat_ofNat]
      rw [Nat.mod_eq_of_lt (a := g.mem.read o.toNat 8) (by omega),
        Nat.mod_eq_of_lt (a := g.mem.read _ 8) (by omega), leNat_bytesAt]
      have h4 := read_lt g.mem o.toNat l.toNat
      have h5 : 256 ^ l.toNat ≤ 256 ^ 16 := Nat.pow_le_pow_right (by omega) h16
      rw [Nat.mod_eq_of_lt (b := 2 ^ 128) (by omega),
        show (2 ^ 64 : Nat) = 256 ^ 8 from rfl, ← h3]
      conv_lhs => rw [show 8 + 8 = l.toNat + (16 - l.toNat) by omega]
      rw [read_mod]
  · rw [if_neg (by omega), if_neg h16]; rfl

theorem lane8_read (m : Mem) (a i : Nat) (h : i < 16) :
    lane8 (BitVec.ofNat 128 (m.read a 16)) i = (m.byte (a + i)).toNat := by
  have h1 := read_lt m a 16
  have h2 : m.read a 16 = m.read a i + 256 ^ i * ((m.byte (a + i)).toNat +
      256 * m.read (a + i + 1) (15 - i)) := by
    have := read_add m a i (15 - i + 1)
    rw [show i + (15 - i + 1) = 16 by omega] at this
    exact this
  have h3 := (m.byte (a + i)).isLt
  have h4 := read_lt m a i
  rw [lane8, BitVec.toNat_ofNat, Nat.mod_eq_of_lt (b := 2 ^ 128) h1, h2,
    Nat.add_mul_div_left _ _ (by positivity), Nat.div_eq_of_lt h4]
  omega

theorem swizzle_be (m : Mem) (a : Nat) :
    (swizzle (BitVec.ofNat 128 (m.read a 16)) 0x8090a0b0c0d0e0f0001020304050607#128).toNat =
      beNat (bytesAt m a 8) + 2 ^ 64 * beNat (bytesAt m (a + 8) 8) := by
  have hl : ∀ i < 16, lane8 0x8090a0b0c0d0e0f0001020304050607#128 i =
      if i < 8 then 7 - i else 23 - i := by decide +kernel
  have hb := fun i => (m.byte (a + i)).isLt
  simp only [swizzle, show List.range 16 = [0, 1, 2, 3, 4, 5, 6, 7, 8, 9, 10, 11, 12, 13, 14, 15]
    from rfl, List.foldr]
  simp only [hl _ (show 0 < 16 by decide), hl _ (show 1 < 16 by decide),
    hl _ (show 2 < 16 by decide), hl _ (show 3 < 16 by decide), hl _ (show 4 < 16 by decide),
    hl _ (show 5 < 16 by decide), hl _ (show 6 < 16 by decide), hl _ (show 7 < 16 by decide),
    hl _ (show 8 < 16 by decide), hl _ (show 9 < 16 by decide), hl _ (show 10 < 16 by decide),
    hl _ (show 11 < 16 by decide), hl _ (show 12 < 16 by decide), hl _ (show 13 < 16 by decide),
    hl _ (show 14 < 16 by decide), hl _ (show 15 < 16 by decide), Nat.reduceLT, Nat.reduceSub,
    if_true, if_false]
  rw [lane8_read _ _ _ (by decide), lane8_read _ _ _ (by decide), lane8_read _ _ _ (by decide),
    lane8_read _ _ _ (by decide), lane8_read _ _ _ (by decide), lane8_read _ _ _ (by decide),
    lane8_read _ _ _ (by decide), lane8_read _ _ _ (by decide), lane8_read _ _ _ (by decide),
    lane8_read _ _ _ (by decide), lane8_read _ _ _ (by decide), lane8_read _ _ _ (by decide),
    lane8_read _ _ _ (by decide), lane8_read _ _ _ (by decide), lane8_read _ _ _ (by decide),
    lane8_read _ _ _ (by decide)]
  simp only [bytesAt, beNat, List.foldl, Nat.add_assoc, Nat.reduceAdd, Nat.add_zero]
  have := hb 0; have := hb 1; have := hb 2; have := hb 3; have := hb 4; have := hb 5
  have := hb 6; have := hb 7; have := hb 8; have := hb 9; have := hb 10; have := hb 11
  have := hb 12; have := hb 13; have := hb 14; have := hb 15
  rw [BitVec.toNat_ofNat]
  simp only [Nat.add_zero] at *
  omega

theorem runs_buff_to_uint_be (o l : BitVec 32) (hm : o.toNat + l.toNat ≤ g.mem.size)
    (ho : 0 < l.toNat → 16 ≤ o.toNat + l.toNat) :
    Runs M (.std .buff_to_uint_be) [.i32 o, .i32 l] g
      (if l.toNat ≤ 16 then .ret (encU (beNat (bytesAt g.mem o.toNat l.toNat))) g
        else abort g 5) := by
  have hle := g.mem.le
  have ho' := o.isLt
  apply runs_std (by split <;> simp [abort])
  wpx [stdFunc, Std.buff_to_uint_be, Std.buff_to_uint_be_body]
  simp only [i32_zero]
  by_cases h16 : l.toNat ≤ 16
  · rw [if_pos (by omega), if_pos h16]
    by_cases h0 : l.toNat = 0
    · rw [if_neg (by omega), h0]; simp [bytesAt, leNat, beNat, encU]
    · rw [if_pos h0]
      have ho := ho (by omega)
      have ea : (o + l - 16#32).toNat = o.toNat + l.toNat - 16 := by
        rw [BitVec.toNat_sub, BitVec.toNat_add, BitVec.toNat_ofNat]; omega
      wpx [wp_v128load (off := 0) (a := o + l - 16#32) (g := g) (by omega), Nat.add_zero, ea]
      rw [CRes.ret.injEq]
      refine ⟨halves_eq ?_, rfl⟩
      refine (u128_masks _ _ l (by omega) h16).trans ?_
      rw [swizzle_be]
      have l1 : beNat (bytesAt g.mem (o.toNat + l.toNat - 16) 8) < 2 ^ 64 := by
        have := beNat_lt (bytesAt g.mem (o.toNat + l.toNat - 16) 8)
        rwa [length_bytesAt] at this
      have l2 : beNat (bytesAt g.mem (o.toNat + l.toNat - 16 + 8) 8) < 2 ^ 64 := by
        have := beNat_lt (bytesAt g.mem (o.toNat + l.toNat - 16 + 8) 8)
        rwa [length_bytesAt] at this
      have l3 := beNat_lt (bytesAt g.mem o.toNat l.toNat)
      rw [length_bytesAt] at l3
      have h5 : 256 ^ l.toNat ≤ 256 ^ 16 := Nat.pow_le_pow_right (by omega) h16
      rw [Nat.mod_eq_of_lt (b := 2 ^ 128) (by omega)]
      have e1 : u128 (BitVec.ofNat 64 ((beNat (bytesAt g.mem (o.toNat + l.toNat - 16) 8) + 2 ^ 64 *
            beNat (bytesAt g.mem (o.toNat + l.toNat - 16 + 8) 8)) / 2 ^ (64 * 1)))
          (BitVec.ofNat 64 ((beNat (bytesAt g.mem (o.toNat + l.toNat - 16) 8) + 2 ^ 64 *
            beNat (bytesAt g.mem (o.toNat + l.toNat - 16 + 8) 8)) / 2 ^ (64 * 0))) =
          beNat (bytesAt g.mem (o.toNat + l.toNat - 16) (8 + 8)) := by
        rw [bytesAt_add, beNat_append, length_bytesAt]
        simp only [u128, BitVec.toNat_ofNat]
        omega
      rw [e1, show 8 + 8 = (16 - l.toNat) + l.toNat by omega, bytesAt_add, beNat_append,
        length_bytesAt, Nat.mul_add_mod, show o.toNat + l.toNat - 16 + (16 - l.toNat) = o.toNat
        by omega, Nat.mod_eq_of_lt l3]
  · rw [if_neg (by omega), if_neg h16]; rfl

end Wasm
