import Verif.Stdlib.Mul
import Mathlib.Tactic.Positivity
import Mathlib.Tactic.Linarith

/-! Runtime library: log2, bitwise operators, shifts, conversions
(standard.wat 1140-1162, 1264-1346, 2869-2894). -/

namespace Wasm
open Spec
variable {σ : Type} {M : Mod σ} {is : List Instr} {stk loc : List Val} {g : Store σ}
  {Q : Res σ → Prop}

theorem xor63 (k : Nat) (h : k < 64) : 63 - k ^^^ 63 = k := by
  decide +revert

theorem xor127 (k : Nat) (h : k < 64) : 63 - k ^^^ 127 = 64 + k := by
  decide +revert

theorem runs_log2 (al ah : BitVec 64) (h : u128 al ah ≠ 0) :
    Runs M (.std .log2) [.i64 al, .i64 ah] g
      (.ret [.i64 (BitVec.ofNat 64 (u128 al ah).log2)] g) := by
  apply runs_std (by simp)
  wpx [stdFunc, Std.log2, Std.log2_body]
  congr 3
  have hz : (¬ ah = 0#64) ↔ ah.toNat ≠ 0 := by rw [ne_eq, ← BitVec.toNat_inj]; rfl
  apply BitVec.eq_of_toNat_eq
  by_cases h1 : ah.toNat = 0
  · have e : u128 al ah = al.toNat := by unfold u128; omega
    rw [if_neg (by rw [hz]; omega), BitVec.toNat_xor, clz_toNat, if_neg (by omega), e]
    have := log2_lt_of (show al.toNat ≠ 0 by omega) al.isLt
    rw [show BitVec.toNat 63#64 = 63 from rfl, xor63 _ this, BitVec.toNat_ofNat]; omega
  · rw [if_pos (by rw [hz]; omega), BitVec.toNat_xor, clz_toNat, if_neg h1, log2_halves _ _ h1]
    have := log2_lt_of h1 ah.isLt
    rw [show BitVec.toNat 127#64 = 127 from rfl, xor127 _ this, BitVec.toNat_ofNat]; omega

theorem encU_small {n : Nat} (h : n < 2 ^ 64) : [Val.i64 (BitVec.ofNat 64 n), .i64 0#64] = encU n := by
  unfold encU; rw [Nat.div_eq_of_lt h]

theorem runs_log2_uint (al ah : BitVec 64) :
    Runs M (.std .log2_uint) [.i64 al, .i64 ah] g
      (if u128 al ah = 0 then abort g 3 else .ret (encU (u128 al ah).log2) g) := by
  apply runs_std (by split <;> simp [abort])
  by_cases h : u128 al ah = 0
  · wpx [stdFunc, Std.log2_uint, Std.log2_uint_body, is_zero, h]; rfl
  · have hl := log2_lt_of h (u128_lt al ah)
    wpx [stdFunc, Std.log2_uint, Std.log2_uint_body, is_zero, h,
      wp_call2 (runs_log2 al ah h) (by simp) rfl]
    rw [encU_small (by omega)]

theorem runs_log2_int (al ah : BitVec 64) :
    Runs M (.std .log2_int) [.i64 al, .i64 ah] g
      (if i128 al ah ≤ 0 then abort g 3 else .ret (encU (i128 al ah).toNat.log2) g) := by
  apply runs_std (by split <;> simp [abort])
  have e0 : i128 0#64 0#64 = 0 := rfl
  by_cases h : i128 al ah ≤ 0
  · wpx [stdFunc, Std.log2_int, Std.log2_int_body, e0, h]; rfl
  · have h0 := i128_eq al ah
    have h1 := u128_lt al ah
    have hne : u128 al ah ≠ 0 := by omega
    have hl := log2_lt_of hne (u128_lt al ah)
    wpx [stdFunc, Std.log2_int, Std.log2_int_body, e0, h,
      wp_call2 (runs_log2 al ah hne) (by simp) rfl]
    rw [encU_small (by omega), show (i128 al ah).toNat = u128 al ah by omega]

theorem runs_to_uint (al ah : BitVec 64) :
    Runs M (.std .to_uint) [.i64 al, .i64 ah] g
      (if i128 al ah < 0 then abort g 1 else .ret (encU (i128 al ah).toNat) g) := by
  apply runs_std (by split <;> simp [abort])
  have h0 := i128_eq al ah
  have h1 := u128_lt al ah
  by_cases h : i128 al ah < 0
  · wpx [stdFunc, Std.to_uint, Std.to_uint_body, toInt_neg_iff al ah, h]; rfl
  · wpx [stdFunc, Std.to_uint, Std.to_uint_body, toInt_neg_iff al ah, h]
    rw [show (i128 al ah).toNat = u128 al ah by omega, encU_u128]

theorem runs_to_int (al ah : BitVec 64) :
    Runs M (.std .to_int) [.i64 al, .i64 ah] g
      (if u128 al ah < 2 ^ 127 then .ret (encI (u128 al ah)) g else abort g 0) := by
  apply runs_std (by split <;> simp [abort])
  have h0 := i128_eq al ah
  wpx [stdFunc, Std.to_int, Std.to_int_body]
  by_cases h : u128 al ah < 2 ^ 127
  · rw [if_pos h, if_pos (by omega), ← encI_i128, show i128 al ah = u128 al ah by omega]
  · rw [if_neg h, if_neg (by omega)]; rfl

/-! ### Bitwise -/

theorem u128_testBit (lo hi : BitVec 64) (j : Nat) :
    (u128 lo hi).testBit j = if j < 64 then lo.toNat.testBit j else hi.toNat.testBit (j - 64) := by
  unfold u128
  rw [Nat.add_comm]
  exact Nat.testBit_two_pow_mul_add _ lo.isLt _

theorem u128_and (al ah bl bh : BitVec 64) :
    u128 (al &&& bl) (ah &&& bh) = u128 al ah &&& u128 bl bh := by
  apply Nat.eq_of_testBit_eq; intro i
  rw [Nat.testBit_and, u128_testBit, u128_testBit, u128_testBit]
  split <;> rw [BitVec.toNat_and, Nat.testBit_and]

theorem u128_or (al ah bl bh : BitVec 64) :
    u128 (al ||| bl) (ah ||| bh) = u128 al ah ||| u128 bl bh := by
  apply Nat.eq_of_testBit_eq; intro i
  rw [Nat.testBit_or, u128_testBit, u128_testBit, u128_testBit]
  split <;> rw [BitVec.toNat_or, Nat.testBit_or]

theorem u128_xor (al ah bl bh : BitVec 64) :
    u128 (al ^^^ bl) (ah ^^^ bh) = u128 al ah ^^^ u128 bl bh := by
  apply Nat.eq_of_testBit_eq; intro i
  rw [Nat.testBit_xor, u128_testBit, u128_testBit, u128_testBit]
  split <;> rw [BitVec.toNat_xor, Nat.testBit_xor]

theorem xor_ones (a : BitVec 64) : (a ^^^ 18446744073709551615#64).toNat = 2 ^ 64 - 1 - a.toNat := by
  have : a ^^^ 18446744073709551615#64 = ~~~a := by
    rw [← BitVec.xor_allOnes]; rfl
  rw [this, BitVec.toNat_not]

theorem u128_not (al ah : BitVec 64) :
    u128 (al ^^^ 18446744073709551615#64) (ah ^^^ 18446744073709551615#64) =
      2 ^ 128 - 1 - u128 al ah := by
  have := al.isLt; have := ah.isLt
  unfold u128; rw [xor_ones, xor_ones]; omega

theorem runs_bit_and (al ah bl bh : BitVec 64) :
    Runs M (.std .bit_and) (args4 al ah bl bh) g (.ret (encU (u128 al ah &&& u128 bl bh)) g) := by
  apply runs_std (by simp)
  wpx [stdFunc, Std.bit_and, Std.bit_and_body, args4]
  rw [← u128_and, encU_u128]

theorem runs_bit_or (al ah bl bh : BitVec 64) :
    Runs M (.std .bit_or) (args4 al ah bl bh) g (.ret (encU (u128 al ah ||| u128 bl bh)) g) := by
  apply runs_std (by simp)
  wpx [stdFunc, Std.bit_or, Std.bit_or_body, args4]
  rw [← u128_or, encU_u128]

theorem runs_bit_xor (al ah bl bh : BitVec 64) :
    Runs M (.std .bit_xor) (args4 al ah bl bh) g (.ret (encU (u128 al ah ^^^ u128 bl bh)) g) := by
  apply runs_std (by simp)
  wpx [stdFunc, Std.bit_xor, Std.bit_xor_body, args4]
  rw [← u128_xor, encU_u128]

theorem runs_bit_not (al ah : BitVec 64) :
    Runs M (.std .bit_not) [.i64 al, .i64 ah] g (.ret (encU (2 ^ 128 - 1 - u128 al ah)) g) := by
  apply runs_std (by simp)
  wpx [stdFunc, Std.bit_not, Std.bit_not_body, args4]
  rw [← u128_not, encU_u128]

/-! ### Shifts -/

theorem and127 (b : BitVec 64) : (b &&& 127#64).toNat = b.toNat % 128 := by
  rw [BitVec.toNat_and, show BitVec.toNat 127#64 = 2 ^ 7 - 1 from rfl, Nat.and_two_pow_sub_one_eq_mod]

theorem pow_split {s n : Nat} (h : s ≤ n) : 2 ^ s * 2 ^ (n - s) = 2 ^ n := by
  rw [← Nat.pow_add]; congr 1; omega

theorem shl_lt (al ah : BitVec 64) (s : Nat) (h0 : 0 < s) (h : s < 64) :
    u128 (al <<< s) (ah <<< s ||| al >>> (64 - s)) = u128 al ah * 2 ^ s % 2 ^ 128 := by
  have ha := al.isLt
  simp only [u128, BitVec.toNat_or, BitVec.toNat_shiftLeft, BitVec.toNat_ushiftRight,
    Nat.shiftRight_eq_div_pow, Nat.shiftLeft_eq]
  have hpr := pow_split (Nat.le_of_lt h)
  have hlt : al.toNat / 2 ^ (64 - s) < 2 ^ s := by
    rw [Nat.div_lt_iff_lt_mul (Nat.two_pow_pos _), hpr]; exact ha
  have hmod : ah.toNat * 2 ^ s % 2 ^ 64 % 2 ^ s = 0 := by
    rw [Nat.mod_mod_of_dvd _ ⟨2 ^ (64 - s), hpr.symm⟩, Nat.mul_mod_left]
  rw [or_disjoint' _ _ s hlt hmod]
  have hd : al.toNat * 2 ^ s / 2 ^ 64 = al.toNat / 2 ^ (64 - s) := by
    rw [← hpr, Nat.mul_comm, Nat.mul_div_mul_left _ _ (Nat.two_pow_pos _)]
  have hbound : ah.toNat * 2 ^ s % 2 ^ 64 + 2 ^ s ≤ 2 ^ 64 := by
    have h1 : ah.toNat * 2 ^ s % 2 ^ 64 < 2 ^ 64 := Nat.mod_lt _ (by decide)
    have h2 := Nat.div_add_mod (ah.toNat * 2 ^ s % 2 ^ 64) (2 ^ s)
    rw [hmod, Nat.add_zero] at h2
    generalize ah.toNat * 2 ^ s % 2 ^ 64 = y at *
    rw [← h2] at h1 ⊢
    rw [← hpr] at h1
    have h3 := Nat.lt_of_mul_lt_mul_left h1
    calc 2 ^ s * _ + 2 ^ s = 2 ^ s * (_ + 1) := by rw [Nat.mul_add, Nat.mul_one]
      _ ≤ 2 ^ s * 2 ^ (64 - s) := Nat.mul_le_mul_left _ h3
      _ = 2 ^ 64 := hpr
  rw [← hd] at hlt ⊢
  rw [Nat.add_mul, Nat.mul_assoc]
  generalize al.toNat * 2 ^ s = x at *
  generalize ah.toNat * 2 ^ s = y at *
  generalize 2 ^ s = p at *
  omega

theorem shl_ge (al ah : BitVec 64) (s : Nat) (h : 64 ≤ s) :
    u128 0#64 (al <<< (s - 64)) = u128 al ah * 2 ^ s % 2 ^ 128 := by
  simp only [u128, BitVec.toNat_shiftLeft, Nat.shiftLeft_eq, BitVec.toNat_ofNat]
  rw [show s = 64 + (s - 64) by omega, Nat.pow_add, show 64 + (s - 64) - 64 = s - 64 by omega,
    show (al.toNat + 2 ^ 64 * ah.toNat) * (2 ^ 64 * 2 ^ (s - 64)) =
      2 ^ 64 * (al.toNat * 2 ^ (s - 64)) + 2 ^ 128 * (ah.toNat * 2 ^ (s - 64)) by ring]
  generalize al.toNat * 2 ^ (s - 64) = x
  omega

theorem and127_zero (b : BitVec 64) : (¬ (b &&& 127#64) = 0#64) ↔ 0 < b.toNat % 128 := by
  rw [← and127, ← BitVec.toNat_inj, Nat.pos_iff_ne_zero]; rfl

theorem u128_mod128 (bl bh : BitVec 64) : u128 bl bh % 128 = bl.toNat % 128 := by
  unfold u128; omega

theorem sub_toNat64 (b : BitVec 64) (h : b.toNat < 64) (h0 : 0 < b.toNat) :
    (64#64 - b).toNat % 64 = 64 - b.toNat := by
  rw [BitVec.toNat_sub]; simp only [BitVec.toNat_ofNat]; omega

theorem sub_toNat64' (b : BitVec 64) (h : 64 ≤ b.toNat) (h0 : b.toNat < 128) :
    (b - 64#64).toNat % 64 = b.toNat - 64 := by
  rw [BitVec.toNat_sub]; simp only [BitVec.toNat_ofNat]; omega

theorem runs_bit_shift_left (al ah bl bh : BitVec 64) :
    Runs M (.std .bit_shift_left) (args4 al ah bl bh) g
      (.ret (encU (u128 al ah * 2 ^ (u128 bl bh % 128))) g) := by
  apply runs_std (by simp)
  wpx [stdFunc, Std.bit_shift_left, Std.bit_shift_left_body, args4, and127_zero]
  rw [u128_mod128, ← and127]
  have hb : (bl &&& 127#64).toNat < 128 := by rw [and127]; exact Nat.mod_lt _ (by decide)
  generalize bl &&& 127#64 = b at *
  by_cases h : b.toNat < 64
  · rw [if_neg (by simpa using h), Nat.mod_eq_of_lt h]
    by_cases h0 : 0 < b.toNat
    · rw [if_pos h0, sub_toNat64 _ h h0, halves_eq (shl_lt al ah _ h0 h)]
    · rw [if_neg h0, show b.toNat = 0 by omega]
      simp [encU_u128]
  · rw [if_pos h, sub_toNat64' _ (by omega) hb, halves_eq (shl_ge al ah _ (by omega))]

theorem shr_lt (al ah : BitVec 64) (s : Nat) (h0 : 0 < s) (h : s < 64) :
    (al >>> s ||| ah <<< (64 - s)).toNat = al.toNat / 2 ^ s + ah.toNat % 2 ^ s * 2 ^ (64 - s) := by
  have ha := al.isLt
  have hpr := pow_split (Nat.le_of_lt h)
  rw [BitVec.or_comm]
  simp only [BitVec.toNat_or, BitVec.toNat_shiftLeft, BitVec.toNat_ushiftRight,
    Nat.shiftRight_eq_div_pow, Nat.shiftLeft_eq]
  have e : ah.toNat * 2 ^ (64 - s) % 2 ^ 64 = ah.toNat % 2 ^ s * 2 ^ (64 - s) := by
    rw [← hpr, Nat.mul_mod_mul_right]
  rw [e, or_disjoint' _ _ (64 - s)]
  · omega
  · rw [Nat.div_lt_iff_lt_mul (Nat.two_pow_pos _), Nat.mul_comm, hpr]; exact ha
  · exact Nat.mul_mod_left _ _

theorem u128_div (al ah : BitVec 64) (s : Nat) (h : s < 64) :
    u128 al ah / 2 ^ s = al.toNat / 2 ^ s + ah.toNat % 2 ^ s * 2 ^ (64 - s) +
      2 ^ 64 * (ah.toNat / 2 ^ s) := by
  have hpr := pow_split (Nat.le_of_lt h)
  unfold u128
  rw [← hpr, Nat.mul_assoc, Nat.add_mul_div_left _ _ (Nat.two_pow_pos _)]
  have := Nat.div_add_mod ah.toNat (2 ^ s)
  have e : 2 ^ (64 - s) * ah.toNat =
      2 ^ (64 - s) * (2 ^ s * (ah.toNat / 2 ^ s) + ah.toNat % 2 ^ s) := by rw [this]
  rw [e]; ring

theorem runs_bit_shift_right_uint (al ah bl bh : BitVec 64) :
    Runs M (.std .bit_shift_right_uint) (args4 al ah bl bh) g
      (.ret (encU (u128 al ah / 2 ^ (u128 bl bh % 128))) g) := by
  apply runs_std (by simp)
  wpx [stdFunc, Std.bit_shift_right_uint, Std.bit_shift_right_uint_body, args4, and127_zero]
  rw [u128_mod128, ← and127]
  have hb : (bl &&& 127#64).toNat < 128 := by rw [and127]; exact Nat.mod_lt _ (by decide)
  generalize bl &&& 127#64 = b at *
  have hlt := u128_lt al ah
  by_cases h : b.toNat < 64
  · rw [if_neg (by simpa using h), Nat.mod_eq_of_lt h]
    by_cases h0 : 0 < b.toNat
    · rw [if_pos h0, sub_toNat64 _ h h0,
        halves_eq (n := u128 al ah / 2 ^ b.toNat)]
      have : u128 al ah / 2 ^ b.toNat ≤ u128 al ah := Nat.div_le_self _ _
      rw [Nat.mod_eq_of_lt (by omega), u128_div _ _ _ h]
      unfold u128
      rw [shr_lt _ _ _ h0 h, BitVec.toNat_ushiftRight, Nat.shiftRight_eq_div_pow]
    · rw [if_neg h0, show b.toNat = 0 by omega]
      simp [encU_u128]
  · rw [if_pos h, sub_toNat64' _ (by omega) hb, halves_eq (n := u128 al ah / 2 ^ b.toNat)]
    have : u128 al ah / 2 ^ b.toNat ≤ u128 al ah := Nat.div_le_self _ _
    rw [Nat.mod_eq_of_lt (by omega)]
    have e : 2 ^ b.toNat = 2 ^ 64 * 2 ^ (b.toNat - 64) := (pow_split (by omega)).symm
    rw [e, ← Nat.div_div_eq_div_mul]
    have e2 : u128 al ah / 2 ^ 64 = ah.toNat := by have := al.isLt; unfold u128; omega
    rw [e2]; unfold u128
    rw [BitVec.toNat_ushiftRight, Nat.shiftRight_eq_div_pow]; simp

theorem toInt_sshr (a : BitVec 64) (s : Nat) : (a.sshiftRight s).toInt = a.toInt / 2 ^ s := by
  rw [BitVec.toInt_sshiftRight, Int.shiftRight_eq_div_pow]; simp

theorem halves_eqI {lo hi : BitVec 64} {z : Int} (h : i128 lo hi = z) :
    [Val.i64 lo, .i64 hi] = encI z := by
  rw [← h, encI_i128]

theorem runs_bit_shift_right_int (al ah bl bh : BitVec 64) :
    Runs M (.std .bit_shift_right_int) (args4 al ah bl bh) g
      (.ret (encI (i128 al ah / 2 ^ (u128 bl bh % 128))) g) := by
  apply runs_std (by simp)
  wpx [stdFunc, Std.bit_shift_right_int, Std.bit_shift_right_int_body, args4, and127_zero]
  rw [u128_mod128, ← and127]
  have hb : (bl &&& 127#64).toNat < 128 := by rw [and127]; exact Nat.mod_lt _ (by decide)
  generalize bl &&& 127#64 = b at *
  by_cases h : b.toNat < 64
  · rw [if_neg (by simpa using h), Nat.mod_eq_of_lt h]
    by_cases h0 : 0 < b.toNat
    · rw [if_pos h0, sub_toNat64 _ h h0, halves_eqI]
      unfold i128
      rw [shr_lt _ _ _ h0 h, toInt_sshr]
      have hpr : (2 : Int) ^ b.toNat * 2 ^ (64 - b.toNat) = 2 ^ 64 := by
        have := pow_split (Nat.le_of_lt h); exact_mod_cast this
      have hp : (0 : Int) < 2 ^ b.toNat := by positivity
      have hc : ((al.toNat / 2 ^ b.toNat + ah.toNat % 2 ^ b.toNat * 2 ^ (64 - b.toNat) : Nat) : Int) =
          (al.toNat : Int) / 2 ^ b.toNat + ((ah.toNat : Int) % 2 ^ b.toNat) * 2 ^ (64 - b.toNat) := by
        push_cast; rfl
      have hm : (ah.toNat : Int) % 2 ^ b.toNat = ah.toInt % 2 ^ b.toNat := by
        rcases toInt_cases ah with ⟨e, _⟩ | ⟨e, _⟩
        · rw [e]
        · rw [e, ← hpr, Int.sub_mul_emod_self_left]
      rw [hc, hm, ← hpr]
      have hd := Int.mul_ediv_add_emod ah.toInt (2 ^ b.toNat)
      have e : (al.toNat : Int) + 2 ^ b.toNat * 2 ^ (64 - b.toNat) * ah.toInt =
          al.toNat + 2 ^ b.toNat * (2 ^ (64 - b.toNat) * ah.toInt) := by ring
      rw [e, Int.add_mul_ediv_left _ _ (by omega)]
      have e2 : (2 : Int) ^ (64 - b.toNat) * ah.toInt = 2 ^ (64 - b.toNat) *
        (2 ^ b.toNat * (ah.toInt / 2 ^ b.toNat) + ah.toInt % 2 ^ b.toNat) := by rw [hd]
      rw [e2]; ring
    · rw [if_neg h0, show b.toNat = 0 by omega]
      simp [encI_i128]
  · rw [if_pos h, sub_toNat64' _ (by omega) hb, halves_eqI]
    have e : (2 : Int) ^ b.toNat = 2 ^ 64 * 2 ^ (b.toNat - 64) := by
      have := (pow_split (n := b.toNat) (s := 64) (by omega)).symm; exact_mod_cast this
    rw [e, ← Int.ediv_ediv_of_nonneg (by decide)]
    have e2 : i128 al ah / 2 ^ 64 = ah.toInt := by have := al.isLt; unfold i128; omega
    rw [e2]
    have h63 := toInt_sshr ah 63
    have hs := toInt_sshr ah (b.toNat - 64)
    have c1 := toInt_cases ah
    have c2 := toInt_cases (ah.sshiftRight (b.toNat - 64))
    have hi : ah.toInt / 2 ^ 63 = if ah.toInt < 0 then -1 else 0 := by
      have := ah.isLt; split <;> omega
    have hsign : (ah.toInt / 2 ^ (b.toNat - 64) < 0) ↔ ah.toInt < 0 := by
      have hp : (0 : Int) < 2 ^ (b.toNat - 64) := by positivity
      constructor
      · intro h; by_contra hc
        have := Int.ediv_nonneg (Int.not_lt.1 hc) (Int.le_of_lt hp); omega
      · intro h; exact Int.ediv_neg_of_neg_of_pos h hp
    unfold i128
    rw [h63, hi]
    rw [← hs] at hsign ⊢
    have := (ah.sshiftRight (b.toNat - 64)).isLt
    by_cases hn : ah.toInt < 0
    · rw [if_pos hn]; rw [iff_true_right hn] at hsign; omega
    · rw [if_neg hn]; have := (not_congr hsign).2 hn; omega

end Wasm
