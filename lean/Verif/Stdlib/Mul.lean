import Verif.Stdlib.AddSub
import Mathlib.Tactic.Ring

/-! Runtime library: multiplication (standard.wat 526-705, 1348-1356). -/

namespace Wasm
open Spec
variable {σ : Type} {M : Mod σ} {is : List Instr} {stk loc : List Val} {g : Store σ}
  {Q : Res σ → Prop}

theorem and_mask32 (x : BitVec 64) : (x &&& 4294967295#64).toNat = x.toNat % 2 ^ 32 := by
  rw [BitVec.toNat_and]
  exact Nat.and_two_pow_sub_one_eq_mod x.toNat 32

theorem or_disjoint (a b i : Nat) (h : b < 2 ^ i) : (a * 2 ^ i) ||| b = a * 2 ^ i + b := by
  rw [Nat.mul_comm]; exact (Nat.two_pow_add_eq_or_of_lt h a).symm

theorem or_disjoint' (a b i : Nat) (h : b < 2 ^ i) (ha : a % 2 ^ i = 0) : a ||| b = a + b := by
  have := or_disjoint (a / 2 ^ i) b i h
  rw [Nat.div_mul_cancel (Nat.dvd_of_mod_eq_zero ha)] at this
  exact this

theorem mul_halves (al ah bl bh : BitVec 64) :
    u128 (((((al &&& 4294967295#64) * (bl >>> 32)) + ((((bl &&& 4294967295#64) * (al >>> 32)) +
        (((al &&& 4294967295#64) * (bl &&& 4294967295#64)) >>> 32)) &&& 4294967295#64)) <<< 32) |||
        (((al &&& 4294967295#64) * (bl &&& 4294967295#64)) &&& 4294967295#64))
      (al * bh + ah * bl + (bl >>> 32) * (al >>> 32) + ((((bl &&& 4294967295#64) * (al >>> 32)) +
        (((al &&& 4294967295#64) * (bl &&& 4294967295#64)) >>> 32)) >>> 32) +
        ((((al &&& 4294967295#64) * (bl >>> 32)) + ((((bl &&& 4294967295#64) * (al >>> 32)) +
        (((al &&& 4294967295#64) * (bl &&& 4294967295#64)) >>> 32)) &&& 4294967295#64)) >>> 32)) =
      (u128 al ah * u128 bl bh) % 2 ^ 128 := by
  have h1 := al.isLt; have h2 := bl.isLt; have h3 := ah.isLt; have h4 := bh.isLt
  simp only [u128, BitVec.toNat_or, BitVec.toNat_add, BitVec.toNat_mul, BitVec.toNat_shiftLeft,
    BitVec.toNat_ushiftRight, and_mask32, Nat.shiftRight_eq_div_pow, Nat.shiftLeft_eq]
  generalize ha : al.toNat = a at *
  generalize hb : bl.toNat = b at *
  generalize ah.toNat = c at *
  generalize bh.toNat = d at *
  have hu1 : a % 2 ^ 32 < 2 ^ 32 := Nat.mod_lt _ (by decide)
  have hv1 : b % 2 ^ 32 < 2 ^ 32 := Nat.mod_lt _ (by decide)
  have hu2 : a / 2 ^ 32 < 2 ^ 32 := by omega
  have hv2 : b / 2 ^ 32 < 2 ^ 32 := by omega
  have ea : a = a % 2 ^ 32 + 2 ^ 32 * (a / 2 ^ 32) := by omega
  have eb : b = b % 2 ^ 32 + 2 ^ 32 * (b / 2 ^ 32) := by omega
  generalize a % 2 ^ 32 = u1 at *
  generalize a / 2 ^ 32 = u2 at *
  generalize b % 2 ^ 32 = v1 at *
  generalize b / 2 ^ 32 = v2 at *
  have key : (a + 2 ^ 64 * c) * (b + 2 ^ 64 * d) =
      u1 * v1 + 2 ^ 32 * (v1 * u2 + u1 * v2) + 2 ^ 64 * (v2 * u2) +
      2 ^ 64 * (a * d + c * b) + 2 ^ 128 * (c * d) := by
    have : a * b = u1 * v1 + 2 ^ 32 * (v1 * u2 + u1 * v2) + 2 ^ 64 * (v2 * u2) := by
      rw [ea, eb]; ring
    calc (a + 2 ^ 64 * c) * (b + 2 ^ 64 * d) = a * b + 2 ^ 64 * (a * d + c * b) + 2 ^ 128 * (c * d) := by
          ring
      _ = _ := by rw [this]
  rw [key]
  have m (x y : Nat) (hx : x < 2 ^ 32) (hy : y < 2 ^ 32) : x * y ≤ (2 ^ 32 - 1) * (2 ^ 32 - 1) :=
    Nat.mul_le_mul (by omega) (by omega)
  have m1 := m u1 v1 hu1 hv1
  have m2 := m v1 u2 hv1 hu2
  have m3 := m u1 v2 hu1 hv2
  have m4 := m v2 u2 hv2 hu2
  generalize u1 * v1 = p1 at *
  generalize v1 * u2 = p2 at *
  generalize u1 * v2 = p3 at *
  generalize v2 * u2 = p4 at *
  generalize a * d = q1 at *
  generalize c * b = q2 at *
  generalize c * d = q3 at *
  rw [or_disjoint' _ _ 32 (by omega) (by omega)]
  omega

theorem runs_mul_int128 (al ah bl bh : BitVec 64) :
    Runs M (.std .mul_int128) (args4 al ah bl bh) g
      (.ret (encU (u128 al ah * u128 bl bh)) g) := by
  apply runs_std (by simp)
  wpx [stdFunc, Std.mul_int128, Std.mul_int128_body, args4]
  rw [halves_eq (n := u128 al ah * u128 bl bh)]
  have := mul_halves al ah bl bh
  simpa only [BitVec.mul_comm, BitVec.add_comm] using this

@[wps] theorem wp_mul_int128 {al ah bl bh : BitVec 64} :
    WP M (.call (.std .mul_int128) :: is) (.i64 bh :: .i64 bl :: .i64 ah :: .i64 al :: stk) loc g Q ↔
      WP M is (.i64 (BitVec.ofNat 64 ((u128 al ah * u128 bl bh) / 2 ^ 64)) ::
        .i64 (BitVec.ofNat 64 (u128 al ah * u128 bl bh)) :: stk) loc g Q :=
  wp_call4 (runs_mul_int128 ..) (by simp) rfl

/-- number of leading zeros of a 128-bit number -/
def clz128 (n : Nat) : Nat := if n = 0 then 128 else 127 - Nat.log2 n

theorem log2_bounds {n : Nat} (h : n ≠ 0) : 2 ^ n.log2 ≤ n ∧ n < 2 ^ (n.log2 + 1) :=
  ⟨Nat.log2_self_le h, Nat.lt_log2_self⟩

theorem log2_eq {n k : Nat} (h1 : 2 ^ k ≤ n) (h2 : n < 2 ^ (k + 1)) : n.log2 = k := by
  have hn : n ≠ 0 := by have := Nat.two_pow_pos k; omega
  have := (Nat.le_log2 hn).2 h1
  have := (Nat.log2_lt hn).2 h2
  omega

theorem log2_lt_of {n k : Nat} (hn : n ≠ 0) (h : n < 2 ^ k) : n.log2 < k := (Nat.log2_lt hn).2 h

theorem log2_halves (lo hi : BitVec 64) (h : hi.toNat ≠ 0) :
    (u128 lo hi).log2 = 64 + hi.toNat.log2 := by
  have hb := log2_bounds h
  have := lo.isLt
  apply log2_eq
  · rw [Nat.pow_add]; unfold u128
    have := Nat.mul_le_mul_left (2 ^ 64) hb.1; omega
  · rw [Nat.add_assoc, Nat.pow_add]; unfold u128
    have := Nat.mul_le_mul_left (2 ^ 64) (Nat.succ_le_of_lt hb.2); omega

theorem clz_toNat (x : BitVec 64) :
    (clz x).toNat = if x.toNat = 0 then 64 else 63 - x.toNat.log2 := by
  unfold clz
  rw [BitVec.toNat_ofNat]
  have : x.toNat.log2 < 2 ^ 64 := by
    by_cases h : x.toNat = 0
    · rw [h]; decide
    · exact Nat.lt_of_le_of_lt (Nat.log2_le_self _) x.isLt
  split <;> omega

theorem runs_clz_int128 (al ah : BitVec 64) :
    Runs M (.std .clz_int128) [.i64 al, .i64 ah] g
      (.ret [.i32 (BitVec.ofNat 32 (clz128 (u128 al ah)))] g) := by
  apply runs_std (by simp)
  wpx [stdFunc, Std.clz_int128, Std.clz_int128_body]
  congr 3
  have hz : (¬ ah = 0#64) ↔ ah.toNat ≠ 0 := by
    rw [ne_eq, ← BitVec.toNat_inj]; rfl
  have hl : ah.toNat ≠ 0 → ah.toNat.log2 < 64 := fun h => log2_lt_of h ah.isLt
  have hl2 : al.toNat ≠ 0 → al.toNat.log2 < 64 := fun h => log2_lt_of h al.isLt
  apply BitVec.eq_of_toNat_eq
  by_cases h : ah.toNat = 0
  · rw [if_neg (by rw [hz]; omega), BitVec.toNat_setWidth, BitVec.toNat_add, clz_toNat]
    have e : u128 al ah = al.toNat := by unfold u128; omega
    rw [e, clz128]
    split
    all_goals simp only [BitVec.toNat_ofNat]
    all_goals omega
  · rw [if_pos (by rw [hz]; omega), BitVec.toNat_setWidth, clz_toNat, if_neg h, clz128,
      if_neg (by unfold u128; omega), log2_halves _ _ h, BitVec.toNat_ofNat]
    have := hl h; omega

@[wps] theorem wp_clz_int128 {al ah : BitVec 64} :
    WP M (.call (.std .clz_int128) :: is) (.i64 ah :: .i64 al :: stk) loc g Q ↔
      WP M is (.i32 (BitVec.ofNat 32 (clz128 (u128 al ah))) :: stk) loc g Q :=
  wp_call2 (runs_clz_int128 ..) (by simp) rfl

theorem clz128_le (n : Nat) : clz128 n ≤ 128 := by
  unfold clz128; split <;> omega

theorem clz128_upper (n : Nat) (h : n < 2 ^ 128) : n < 2 ^ (128 - clz128 n) := by
  unfold clz128
  split
  · subst_vars; decide
  · rename_i hn
    have := log2_lt_of hn h
    have e : 128 - (127 - n.log2) = n.log2 + 1 := by omega
    rw [e]; exact (log2_bounds hn).2

theorem clz128_lower (n : Nat) (h : n < 2 ^ 128) (hc : clz128 n < 128) :
    2 ^ (127 - clz128 n) ≤ n := by
  unfold clz128 at *
  split
  · simp_all
  · rename_i hn
    have := log2_lt_of hn h
    have e : 127 - (127 - n.log2) = n.log2 := by omega
    rw [e]; exact (log2_bounds hn).1

theorem half_halves (bl bh : BitVec 64) :
    u128 (bh <<< 63 ||| bl >>> 1) (bh >>> 1) = u128 bl bh / 2 := by
  have := bl.isLt; have := bh.isLt
  simp only [u128, BitVec.toNat_or, BitVec.toNat_shiftLeft, BitVec.toNat_ushiftRight,
    Nat.shiftRight_eq_div_pow, Nat.shiftLeft_eq]
  rw [or_disjoint' _ _ 63 (by omega) (by omega)]
  omega

theorem double_halves (bl bh : BitVec 64) (h : u128 bl bh < 2 ^ 127) :
    u128 (bl <<< 1) (bh <<< 1 ||| bl >>> 63) = 2 * u128 bl bh := by
  have := bl.isLt; have := bh.isLt
  simp only [u128, BitVec.toNat_or, BitVec.toNat_shiftLeft, BitVec.toNat_ushiftRight,
    Nat.shiftRight_eq_div_pow, Nat.shiftLeft_eq] at h ⊢
  rw [or_disjoint' _ _ 1 (by omega) (by omega)]
  omega

theorem odd_toNat (bl bh : BitVec 64) :
    (BitVec.setWidth 32 (bl &&& 1#64) = 0#32) ↔ u128 bl bh % 2 = 0 := by
  rw [← BitVec.toNat_inj, BitVec.toNat_setWidth, BitVec.toNat_and]
  have e : BitVec.toNat 1#64 = 1 := rfl
  have e2 : BitVec.toNat 0#32 = 0 := rfl
  rw [e, e2, Nat.and_one_is_mod]; unfold u128; omega

theorem runs_mul_uint (al ah bl bh : BitVec 64) :
    Runs M (.std .mul_uint) (args4 al ah bl bh) g
      (if u128 al ah * u128 bl bh < 2 ^ 128 then .ret (encU (u128 al ah * u128 bl bh)) g
       else abort g 0) := by
  apply runs_std (by split <;> simp [abort])
  wpx [stdFunc, Std.mul_uint, Std.mul_uint_body, args4, u128_ofNat, wp_add_uint, half_halves,
    odd_toNat bl bh]
  have ha := u128_lt al ah; have hb := u128_lt bl bh
  generalize u128 al ah = a at *
  generalize u128 bl bh = b at *
  have ca := clz128_le a; have cb := clz128_le b
  have ua := clz128_upper a ha; have ub := clz128_upper b hb
  have la := clz128_lower a ha; have lb := clz128_lower b hb
  rw [show (BitVec.ofNat 32 (clz128 a) + BitVec.ofNat 32 (clz128 b)).toNat = clz128 a + clz128 b by
    rw [BitVec.toNat_add, BitVec.toNat_ofNat, BitVec.toNat_ofNat]; omega]
  generalize clz128 a = x at *
  generalize clz128 b = y at *
  by_cases h1 : 128 ≤ x + y
  · have : a * b < 2 ^ 128 := by
      rcases Nat.eq_zero_or_pos a with rfl | ha0
      · simp
      · calc a * b < 2 ^ (128 - x) * 2 ^ (128 - y) := Nat.mul_lt_mul'' ua ub
          _ = 2 ^ (128 - x + (128 - y)) := (Nat.pow_add ..).symm
          _ ≤ 2 ^ 128 := Nat.pow_le_pow_right (by decide) (by omega)
    rw [if_neg (by omega), if_pos this]; rfl
  · rw [if_pos h1]
    by_cases h2 : x + y ≤ 126
    · have : 2 ^ 128 ≤ a * b := by
        calc 2 ^ 128 ≤ 2 ^ (127 - x + (127 - y)) := Nat.pow_le_pow_right (by decide) (by omega)
          _ = 2 ^ (127 - x) * 2 ^ (127 - y) := Nat.pow_add ..
          _ ≤ a * b := Nat.mul_le_mul (la (by omega)) (lb (by omega))
      rw [if_neg (by omega), if_neg (by omega)]; rfl
    · rw [if_pos h2]
      have hp : b / 2 * a < 2 ^ 128 := by
        rcases Nat.eq_zero_or_pos a with rfl | ha0
        · simp
        have hb2 : b / 2 < 2 ^ (127 - y) ∨ y = 128 := by
          rcases Nat.lt_or_ge y 128 with hy | hy
          · left
            have e : 2 ^ (128 - y) = 2 * 2 ^ (127 - y) := by
              rw [show 128 - y = (127 - y) + 1 by omega, Nat.pow_succ, Nat.mul_comm]
            omega
          · right; omega
        rcases hb2 with hb2 | rfl
        · calc b / 2 * a < 2 ^ (127 - y) * 2 ^ (128 - x) := Nat.mul_lt_mul'' hb2 ua
            _ = 2 ^ (127 - y + (128 - x)) := (Nat.pow_add ..).symm
            _ ≤ 2 ^ 128 := Nat.pow_le_pow_right (by decide) (by omega)
        · omega
      have eab : a * b = 2 * (b / 2 * a) + (b % 2) * a := by
        conv => lhs; rw [← Nat.div_add_mod b 2]
        ring
      rw [eab]
      generalize b / 2 * a = p at *
      simp only [toInt_hi p hp]
      by_cases h3 : 2 ^ 127 ≤ p
      · rw [if_neg (by omega), if_neg (by omega)]; rfl
      · rw [if_pos h3]
        have hd : u128 (BitVec.ofNat 64 p <<< 1)
            (BitVec.ofNat 64 (p / 2 ^ 64) <<< 1 ||| BitVec.ofNat 64 p >>> 63) = 2 * p := by
          rw [double_halves _ _ (by rw [u128_ofNat]; omega), u128_ofNat]; omega
        rw [hd]
        by_cases h4 : b % 2 = 0
        · rw [if_pos h4, if_pos (by rw [h4]; omega), h4, halves_eq (n := 2 * p) (by omega)]
          simp
        · have h5 : b % 2 = 1 := by omega
          rw [if_neg h4, h5, Nat.one_mul]
          split <;> rfl

theorem wp_mul_uint {al ah bl bh : BitVec 64} :
    WP M (.call (.std .mul_uint) :: is) (.i64 bh :: .i64 bl :: .i64 ah :: .i64 al :: stk) loc g Q ↔
      if u128 al ah * u128 bl bh < 2 ^ 128 then
        WP M is (.i64 (BitVec.ofNat 64 ((u128 al ah * u128 bl bh) / 2 ^ 64)) ::
          .i64 (BitVec.ofNat 64 (u128 al ah * u128 bl bh)) :: stk) loc g Q
      else Q (.trap (g.failed 0)) := by
  rw [wp_call4 (runs_mul_uint ..) (by split <;> simp [abort]) rfl]
  split <;> rfl

theorem runs_mul_int (al ah bl bh : BitVec 64) :
    Runs M (.std .mul_int) (args4 al ah bl bh) g
      (if i128 al ah = 1 then .ret (encI (i128 bl bh)) g
       else if i128 bl bh = 1 then .ret (encI (i128 al ah)) g
       else if (i128 al ah).natAbs * (i128 bl bh).natAbs < 2 ^ 127 then
         .ret (encI (i128 al ah * i128 bl bh)) g
       else abort g 0) := by
  apply runs_std (by repeat' split
                     all_goals simp [abort])
  wpx [stdFunc, Std.mul_int, Std.mul_int_body, args4, u128_ofNat, wp_mul_uint, abs_halves, is_one,
    b32_xor, i128_one_iff]
  have ia := i128_isInt al ah; have ib := i128_isInt bl bh
  simp only [toInt_neg_iff al ah, toInt_neg_iff bl bh, ← encI_i128 al ah, ← encI_i128 bl bh]
  generalize i128 al ah = a at *
  generalize i128 bl bh = b at *
  by_cases h1 : a = 1
  · rw [if_neg (by omega), if_pos h1]
  rw [if_pos h1, if_neg h1]
  by_cases h2 : b = 1
  · rw [if_neg (by omega), if_pos h2]
  rw [if_pos h2, if_neg h2]
  by_cases h3 : a.natAbs * b.natAbs < 2 ^ 128
  · rw [if_pos h3]
    simp only [toInt_hi _ h3]
    rw [neg_halves _ _ h3]
    by_cases h4 : a.natAbs * b.natAbs < 2 ^ 127
    · rw [if_pos (by omega), if_pos h4]
      congr 2
      split <;> rename_i hs
      · rcases Int.lt_or_le a 0 with ha | ha
        · have hb := hs.1 ha
          rw [Int.natCast_mul, Int.ofNat_natAbs_of_nonpos (by omega),
            Int.ofNat_natAbs_of_nonpos (by omega), Int.neg_mul_neg]
        · have hb : 0 ≤ b := by omega
          rw [Int.natCast_mul, Int.natAbs_of_nonneg ha, Int.natAbs_of_nonneg hb]
      · rcases Int.lt_or_le a 0 with ha | ha
        · have hb : 0 ≤ b := by omega
          rw [Int.natCast_mul, Int.ofNat_natAbs_of_nonpos (by omega), Int.natAbs_of_nonneg hb,
            Int.neg_mul, Int.neg_neg]
        · have hb : b ≤ 0 := by omega
          rw [Int.natCast_mul, Int.ofNat_natAbs_of_nonpos hb, Int.natAbs_of_nonneg ha,
            Int.mul_neg, Int.neg_neg]
    · rw [if_neg (by omega), if_neg h4]; rfl
  · rw [if_neg h3, if_neg (by omega)]; rfl

end Wasm
