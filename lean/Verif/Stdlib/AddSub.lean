import Verif.Stdlib.Halves

/-! Runtime library: comparison, addition and subtraction of 128-bit integers
(standard.wat 410-524 and 915-977). -/

namespace Wasm
open Spec
variable {σ : Type} {M : Mod σ} {is : List Instr} {stk loc : List Val} {g : Store σ}
  {Q : Res σ → Prop}

/-- Arguments of a binary integer operation, given as halves. -/
abbrev args4 (al ah bl bh : BitVec 64) : List Val := [.i64 al, .i64 ah, .i64 bl, .i64 bh]

/-- Symbolic execution rule from a `Runs` fact about a binary integer function. -/
theorem wp_call4 {f : StdFn} {al ah bl bh : BitVec 64} {r : CRes σ}
    (h : Runs M (.std f) (args4 al ah bl bh) g r) (hr : r ≠ .oof)
    (hs : (stdFunc f).params = [.i64, .i64, .i64, .i64]) :
    WP M (.call (.std f) :: is) (.i64 bh :: .i64 bl :: .i64 ah :: .i64 al :: stk) loc g Q ↔
      callK M is stk loc Q r :=
  wp_call_runs (args := args4 al ah bl bh) (ps := [.i64, .i64, .i64, .i64])
    (rs := (stdFunc f).results) (by simp only [Mod.sig, Mod.func, Option.map, hs]) rfl h hr

/-- The same for unary integer functions. -/
theorem wp_call2 {f : StdFn} {al ah : BitVec 64} {r : CRes σ}
    (h : Runs M (.std f) [.i64 al, .i64 ah] g r) (hr : r ≠ .oof)
    (hs : (stdFunc f).params = [.i64, .i64]) :
    WP M (.call (.std f) :: is) (.i64 ah :: .i64 al :: stk) loc g Q ↔
      callK M is stk loc Q r :=
  wp_call_runs (args := [.i64 al, .i64 ah]) (ps := [.i64, .i64])
    (rs := (stdFunc f).results) (by simp only [Mod.sig, Mod.func, Option.map, hs]) rfl h hr

/-! ### Comparisons -/

theorem sel_b32 {c p q r : Prop} [Decidable c] [Decidable p] [Decidable q] [Decidable r]
    (h1 : c → (p ↔ r)) (h2 : ¬ c → (q ↔ r)) : (if ¬ c then b32 q else b32 p) = b32 r := by
  by_cases h : c
  · simp only [h, not_true_eq_false, if_false]; exact b32_congr (h1 h)
  · simp only [h, not_false_eq_true, if_true]; exact b32_congr (h2 h)

theorem ne_toNat {a b : BitVec 64} (h : ¬ a = b) : a.toNat ≠ b.toNat :=
  fun e => h (BitVec.eq_of_toNat_eq e)

theorem runs_lt_uint (al ah bl bh : BitVec 64) :
    Runs M (.std .lt_uint) (args4 al ah bl bh) g
      (.ret [.i32 (b32 (u128 al ah < u128 bl bh))] g) := by
  apply runs_std (by simp)
  wpx [stdFunc, Std.lt_uint, Std.lt_uint_body, args4]
  have := al.isLt; have := bl.isLt; have := toInt_cases ah; have := toInt_cases bh
  rw [sel_b32 (r := u128 al ah < u128 bl bh)]
  · rintro rfl; unfold u128; omega
  · intro h; have := ne_toNat h; unfold u128; omega

@[wps] theorem wp_lt_uint {al ah bl bh : BitVec 64} :
    WP M (.call (.std .lt_uint) :: is) (.i64 bh :: .i64 bl :: .i64 ah :: .i64 al :: stk) loc g Q ↔
      WP M is (.i32 (b32 (u128 al ah < u128 bl bh)) :: stk) loc g Q :=
  wp_call4 (runs_lt_uint ..) (by simp) rfl

theorem runs_lt_int (al ah bl bh : BitVec 64) :
    Runs M (.std .lt_int) (args4 al ah bl bh) g
      (.ret [.i32 (b32 (i128 al ah < i128 bl bh))] g) := by
  apply runs_std (by simp)
  wpx [stdFunc, Std.lt_int, Std.lt_int_body, args4]
  have := al.isLt; have := bl.isLt; have := toInt_cases ah; have := toInt_cases bh
  rw [sel_b32 (r := i128 al ah < i128 bl bh)]
  · rintro rfl; unfold i128; omega
  · intro h; have := ne_toNat h; unfold i128; omega

@[wps] theorem wp_lt_int {al ah bl bh : BitVec 64} :
    WP M (.call (.std .lt_int) :: is) (.i64 bh :: .i64 bl :: .i64 ah :: .i64 al :: stk) loc g Q ↔
      WP M is (.i32 (b32 (i128 al ah < i128 bl bh)) :: stk) loc g Q :=
  wp_call4 (runs_lt_int ..) (by simp) rfl

theorem runs_gt_uint (al ah bl bh : BitVec 64) :
    Runs M (.std .gt_uint) (args4 al ah bl bh) g
      (.ret [.i32 (b32 (u128 al ah > u128 bl bh))] g) := by
  apply runs_std (by simp)
  wpx [stdFunc, Std.gt_uint, Std.gt_uint_body, args4]
  have := al.isLt; have := bl.isLt; have := toInt_cases ah; have := toInt_cases bh
  rw [sel_b32 (r := u128 al ah > u128 bl bh)]
  · rintro rfl; unfold u128; omega
  · intro h; have := ne_toNat h; unfold u128; omega

@[wps] theorem wp_gt_uint {al ah bl bh : BitVec 64} :
    WP M (.call (.std .gt_uint) :: is) (.i64 bh :: .i64 bl :: .i64 ah :: .i64 al :: stk) loc g Q ↔
      WP M is (.i32 (b32 (u128 al ah > u128 bl bh)) :: stk) loc g Q :=
  wp_call4 (runs_gt_uint ..) (by simp) rfl

theorem runs_gt_int (al ah bl bh : BitVec 64) :
    Runs M (.std .gt_int) (args4 al ah bl bh) g
      (.ret [.i32 (b32 (i128 al ah > i128 bl bh))] g) := by
  apply runs_std (by simp)
  wpx [stdFunc, Std.gt_int, Std.gt_int_body, args4]
  have := al.isLt; have := bl.isLt; have := toInt_cases ah; have := toInt_cases bh
  rw [sel_b32 (r := i128 al ah > i128 bl bh)]
  · rintro rfl; unfold i128; omega
  · intro h; have := ne_toNat h; unfold i128; omega

@[wps] theorem wp_gt_int {al ah bl bh : BitVec 64} :
    WP M (.call (.std .gt_int) :: is) (.i64 bh :: .i64 bl :: .i64 ah :: .i64 al :: stk) loc g Q ↔
      WP M is (.i32 (b32 (i128 al ah > i128 bl bh)) :: stk) loc g Q :=
  wp_call4 (runs_gt_int ..) (by simp) rfl

theorem runs_le_uint (al ah bl bh : BitVec 64) :
    Runs M (.std .le_uint) (args4 al ah bl bh) g
      (.ret [.i32 (b32 (u128 al ah ≤ u128 bl bh))] g) := by
  apply runs_std (by simp)
  wpx [stdFunc, Std.le_uint, Std.le_uint_body, args4]
  have := al.isLt; have := bl.isLt; have := toInt_cases ah; have := toInt_cases bh
  rw [sel_b32 (r := u128 al ah ≤ u128 bl bh)]
  · rintro rfl; unfold u128; omega
  · intro h; have := ne_toNat h; unfold u128; omega

@[wps] theorem wp_le_uint {al ah bl bh : BitVec 64} :
    WP M (.call (.std .le_uint) :: is) (.i64 bh :: .i64 bl :: .i64 ah :: .i64 al :: stk) loc g Q ↔
      WP M is (.i32 (b32 (u128 al ah ≤ u128 bl bh)) :: stk) loc g Q :=
  wp_call4 (runs_le_uint ..) (by simp) rfl

theorem runs_le_int (al ah bl bh : BitVec 64) :
    Runs M (.std .le_int) (args4 al ah bl bh) g
      (.ret [.i32 (b32 (i128 al ah ≤ i128 bl bh))] g) := by
  apply runs_std (by simp)
  wpx [stdFunc, Std.le_int, Std.le_int_body, args4]
  have := al.isLt; have := bl.isLt; have := toInt_cases ah; have := toInt_cases bh
  rw [sel_b32 (r := i128 al ah ≤ i128 bl bh)]
  · rintro rfl; unfold i128; omega
  · intro h; have := ne_toNat h; unfold i128; omega

@[wps] theorem wp_le_int {al ah bl bh : BitVec 64} :
    WP M (.call (.std .le_int) :: is) (.i64 bh :: .i64 bl :: .i64 ah :: .i64 al :: stk) loc g Q ↔
      WP M is (.i32 (b32 (i128 al ah ≤ i128 bl bh)) :: stk) loc g Q :=
  wp_call4 (runs_le_int ..) (by simp) rfl

theorem runs_ge_uint (al ah bl bh : BitVec 64) :
    Runs M (.std .ge_uint) (args4 al ah bl bh) g
      (.ret [.i32 (b32 (u128 al ah ≥ u128 bl bh))] g) := by
  apply runs_std (by simp)
  wpx [stdFunc, Std.ge_uint, Std.ge_uint_body, args4]
  have := al.isLt; have := bl.isLt; have := toInt_cases ah; have := toInt_cases bh
  rw [sel_b32 (r := u128 al ah ≥ u128 bl bh)]
  · rintro rfl; unfold u128; omega
  · intro h; have := ne_toNat h; unfold u128; omega

@[wps] theorem wp_ge_uint {al ah bl bh : BitVec 64} :
    WP M (.call (.std .ge_uint) :: is) (.i64 bh :: .i64 bl :: .i64 ah :: .i64 al :: stk) loc g Q ↔
      WP M is (.i32 (b32 (u128 al ah ≥ u128 bl bh)) :: stk) loc g Q :=
  wp_call4 (runs_ge_uint ..) (by simp) rfl

theorem runs_ge_int (al ah bl bh : BitVec 64) :
    Runs M (.std .ge_int) (args4 al ah bl bh) g
      (.ret [.i32 (b32 (i128 al ah ≥ i128 bl bh))] g) := by
  apply runs_std (by simp)
  wpx [stdFunc, Std.ge_int, Std.ge_int_body, args4]
  have := al.isLt; have := bl.isLt; have := toInt_cases ah; have := toInt_cases bh
  rw [sel_b32 (r := i128 al ah ≥ i128 bl bh)]
  · rintro rfl; unfold i128; omega
  · intro h; have := ne_toNat h; unfold i128; omega

@[wps] theorem wp_ge_int {al ah bl bh : BitVec 64} :
    WP M (.call (.std .ge_int) :: is) (.i64 bh :: .i64 bl :: .i64 ah :: .i64 al :: stk) loc g Q ↔
      WP M is (.i32 (b32 (i128 al ah ≥ i128 bl bh)) :: stk) loc g Q :=
  wp_call4 (runs_ge_int ..) (by simp) rfl

/-! ### Addition -/

theorem runs_add_int128 (al ah bl bh : BitVec 64) :
    Runs M (.std .add_int128) (args4 al ah bl bh) g
      (.ret (encU (u128 al ah + u128 bl bh)) g) := by
  apply runs_std (by simp)
  wpx [stdFunc, Std.add_int128, Std.add_int128_body, args4]
  rw [halves_eq (n := u128 al ah + u128 bl bh)]
  have := al.isLt; have := bl.isLt; have := ah.isLt; have := bh.isLt
  simp only [u128, BitVec.toNat_add, toNat_b64]
  split <;> omega

@[wps] theorem wp_add_int128 {al ah bl bh : BitVec 64} :
    WP M (.call (.std .add_int128) :: is) (.i64 bh :: .i64 bl :: .i64 ah :: .i64 al :: stk) loc g Q ↔
      WP M is (.i64 (BitVec.ofNat 64 ((u128 al ah + u128 bl bh) / 2 ^ 64)) ::
        .i64 (BitVec.ofNat 64 (u128 al ah + u128 bl bh)) :: stk) loc g Q :=
  wp_call4 (runs_add_int128 ..) (by simp) rfl

theorem runs_add_uint (al ah bl bh : BitVec 64) :
    Runs M (.std .add_uint) (args4 al ah bl bh) g
      (if u128 al ah + u128 bl bh < 2 ^ 128 then .ret (encU (u128 al ah + u128 bl bh)) g
       else abort g 0) := by
  apply runs_std (by split <;> simp [abort])
  wpx [stdFunc, Std.add_uint, Std.add_uint_body, args4, u128_ofNat]
  have := u128_lt al ah; have := u128_lt bl bh
  by_cases h : u128 al ah + u128 bl bh < 2 ^ 128
  · rw [if_pos (by omega), if_pos h]; rfl
  · rw [if_neg (by omega), if_neg h]; rfl

theorem wp_add_uint {al ah bl bh : BitVec 64} :
    WP M (.call (.std .add_uint) :: is) (.i64 bh :: .i64 bl :: .i64 ah :: .i64 al :: stk) loc g Q ↔
      if u128 al ah + u128 bl bh < 2 ^ 128 then
        WP M is (.i64 (BitVec.ofNat 64 ((u128 al ah + u128 bl bh) / 2 ^ 64)) ::
          .i64 (BitVec.ofNat 64 (u128 al ah + u128 bl bh)) :: stk) loc g Q
      else Q (.trap (g.failed 0)) := by
  rw [wp_call4 (runs_add_uint ..) (by split <;> simp [abort]) rfl]
  split <;> rfl

theorem sshr63 (a : BitVec 64) : a.sshiftRight 63 = if a.toInt < 0 then -1#64 else 0#64 := by
  have := toInt_cases a
  have := a.isLt
  apply BitVec.eq_of_toInt_eq
  rw [BitVec.toInt_sshiftRight, Int.shiftRight_eq_div_pow]
  split
  · have e : (-1#64).toInt = -1 := rfl
    rw [e]; omega
  · have e : (0#64).toInt = 0 := rfl
    rw [e]; omega

theorem sshr63_eq (a b : BitVec 64) :
    (a.sshiftRight 63 = b.sshiftRight 63) ↔ (a.toInt < 0 ↔ b.toInt < 0) := by
  rw [sshr63, sshr63]
  by_cases h1 : a.toInt < 0 <;> by_cases h2 : b.toInt < 0 <;> simp [h1, h2]

theorem toInt_hi (n : Nat) (h : n < 2 ^ 128) :
    (BitVec.ofNat 64 (n / 2 ^ 64)).toInt < 0 ↔ 2 ^ 127 ≤ n := by
  have := toInt_cases (BitVec.ofNat 64 (n / 2 ^ 64))
  rw [BitVec.toNat_ofNat] at this
  omega

theorem runs_add_int (al ah bl bh : BitVec 64) :
    Runs M (.std .add_int) (args4 al ah bl bh) g
      (if IsInt (i128 al ah + i128 bl bh) then .ret (encI (i128 al ah + i128 bl bh)) g
       else abort g 0) := by
  apply runs_std (by split <;> simp [abort])
  wpx [stdFunc, Std.add_int, Std.add_int_body, args4, u128_ofNat, sshr63_eq, ne_eq]
  have := u128_lt al ah; have := u128_lt bl bh
  have := i128_eq al ah; have := i128_eq bl bh
  have := toInt_cases ah; have := toInt_cases bh
  have := toInt_cases (BitVec.ofNat 64 ((u128 al ah + u128 bl bh) / 2 ^ 64))
  rw [BitVec.toNat_ofNat] at this
  by_cases h : IsInt (i128 al ah + i128 bl bh)
  · rw [if_pos h, encI_eq_encU (n := u128 al ah + u128 bl bh) (by unfold IsInt at h; omega)]
    split
    · rfl
    · rw [if_pos (by unfold IsInt at h; omega)]; rfl
  · rw [if_neg h, if_neg (by unfold IsInt at h; omega), if_neg (by unfold IsInt at h; omega)]; rfl

/-! ### Subtraction -/

theorem runs_sub_int128 (al ah bl bh : BitVec 64) :
    Runs M (.std .sub_int128) (args4 al ah bl bh) g
      (.ret (encU (u128 al ah + 2 ^ 128 - u128 bl bh)) g) := by
  apply runs_std (by simp)
  wpx [stdFunc, Std.sub_int128, Std.sub_int128_body, args4]
  rw [halves_eq (n := u128 al ah + 2 ^ 128 - u128 bl bh)]
  have := al.isLt; have := bl.isLt; have := ah.isLt; have := bh.isLt
  simp only [u128, BitVec.toNat_sub, toNat_b64]
  split <;> omega

@[wps] theorem wp_sub_int128 {al ah bl bh : BitVec 64} :
    WP M (.call (.std .sub_int128) :: is) (.i64 bh :: .i64 bl :: .i64 ah :: .i64 al :: stk) loc g Q ↔
      WP M is (.i64 (BitVec.ofNat 64 ((u128 al ah + 2 ^ 128 - u128 bl bh) / 2 ^ 64)) ::
        .i64 (BitVec.ofNat 64 (u128 al ah + 2 ^ 128 - u128 bl bh)) :: stk) loc g Q :=
  wp_call4 (runs_sub_int128 ..) (by simp) rfl

theorem runs_sub_int (al ah bl bh : BitVec 64) :
    Runs M (.std .sub_int) (args4 al ah bl bh) g
      (if IsInt (i128 al ah - i128 bl bh) then .ret (encI (i128 al ah - i128 bl bh)) g
       else abort g 1) := by
  apply runs_std (by split <;> simp [abort])
  wpx [stdFunc, Std.sub_int, Std.sub_int_body, args4, sshr63_eq, ne_eq, Decidable.not_not]
  have := u128_lt al ah; have := u128_lt bl bh
  have := i128_eq al ah; have := i128_eq bl bh
  have := toInt_cases ah; have := toInt_cases bh
  have := toInt_cases (BitVec.ofNat 64 ((u128 al ah + 2 ^ 128 - u128 bl bh) / 2 ^ 64))
  rw [BitVec.toNat_ofNat] at this
  by_cases h : IsInt (i128 al ah - i128 bl bh)
  · rw [if_pos h, encI_eq_encU (n := u128 al ah + 2 ^ 128 - u128 bl bh) (by unfold IsInt at h; omega)]
    split
    · rfl
    · rw [if_pos (by unfold IsInt at h; omega)]; rfl
  · rw [if_neg h, if_neg (by unfold IsInt at h; omega), if_neg (by unfold IsInt at h; omega)]; rfl

/-- What `sub-uint` really does: the underflow check looks only at the upper halves, so a
subtrahend at least `2^128 - 2^64` with a borrow is not detected. -/
theorem runs_sub_uint (al ah bl bh : BitVec 64) :
    Runs M (.std .sub_uint) (args4 al ah bl bh) g
      (if u128 bl bh ≤ u128 al ah ∨ (bh.toNat = 2 ^ 64 - 1 ∧ al.toNat < bl.toNat) then
        .ret (encU (u128 al ah + 2 ^ 128 - u128 bl bh)) g
       else abort g 1) := by
  apply runs_std (by split <;> simp [abort])
  wpx [stdFunc, Std.sub_uint, Std.sub_uint_body, args4]
  have := al.isLt; have := bl.isLt; have := ah.isLt; have := bh.isLt
  simp only [BitVec.toNat_ofNat]
  by_cases h : u128 bl bh ≤ u128 al ah ∨ (bh.toNat = 2 ^ 64 - 1 ∧ al.toNat < bl.toNat)
  · rw [if_pos h, if_pos (by unfold u128 at *; omega)]; rfl
  · rw [if_neg h, if_neg (by unfold u128 at *; omega)]; rfl

end Wasm
