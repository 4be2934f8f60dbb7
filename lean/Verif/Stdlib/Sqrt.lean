import Verif.Stdlib.Bits
import Mathlib.Data.Nat.Sqrt

/-! Runtime library: integer square root (standard.wat 1164-1262). -/

namespace Wasm
open Spec
variable {σ : Type} {M : Mod σ} {is : List Instr} {stk loc : List Val} {g : Store σ}
  {Q : Res σ → Prop}

theorem quarter_halves (bl bh : BitVec 64) :
    u128 (bh <<< 62 ||| bl >>> 2) (bh >>> 2) = u128 bl bh / 4 := by
  have := bl.isLt; have := bh.isLt
  simp only [u128, BitVec.toNat_or, BitVec.toNat_shiftLeft, BitVec.toNat_ushiftRight,
    Nat.shiftRight_eq_div_pow, Nat.shiftLeft_eq]
  rw [or_disjoint' _ _ 62 (by omega) (by omega)]
  omega

/-- Invariant of the main loop: `p = 2^k` is the weight of the bit examined next, `s` the root
found so far. -/
def SqrtInv (N : Nat) (g : Store σ) (k : Nat) (loc : List Val) (g' : Store σ) : Prop :=
  g' = g ∧ ∃ (lo hi dl dh cl ch tl th : BitVec 64) (s : Nat),
    loc = [.i64 lo, .i64 hi, .i64 dl, .i64 dh, .i64 cl, .i64 ch, .i64 tl, .i64 th] ∧
    u128 dl dh = 2 ^ k * 2 ^ k ∧ u128 cl ch = 2 * s * 2 ^ k ∧ s * s + u128 lo hi = N ∧
    N < (s + 2 * 2 ^ k) * (s + 2 * 2 ^ k) ∧ s + 2 * 2 ^ k ≤ 2 ^ 64

theorem is_zero' {al ah : BitVec 64} : al ||| ah = 0#64 ↔ u128 al ah = 0 := by
  rw [BitVec.or_comm]; exact is_zero

theorem sqrt_loop {r : CRes σ} (N : Nat) (k : Nat) (loc : List Val)
    (hI : SqrtInv N g k loc g)
    (hs : ∀ s, s * s ≤ N → N < (s + 1) * (s + 1) → r = .ret (encU s) g) :
    WP M (Std.sqrti_uint_body.drop 12) [] loc g (fun x => x.toCall 2 = r) := by
  simp only [Std.sqrti_uint_body, List.drop_succ_cons, List.drop_zero]
  refine wp_loop_inv (SqrtInv N g) id k hI ?_
  rintro k loc g' ⟨rfl, lo, hi, dl, dh, cl, ch, tl, th, s, rfl, hd, hc, hn, hN, hb⟩
  wpx [u128_ofNat, half_halves, ne_eq, is_zero', quarter_halves]
  have fin : ∀ (lo' hi' cl' ch' tl' th' : BitVec 64) (s' : Nat), u128 cl' ch' = s' * 2 ^ k →
      s' * s' + u128 lo' hi' = N → N < (s' + 2 ^ k) * (s' + 2 ^ k) → s' + 2 ^ k ≤ 2 ^ 64 →
      if ¬¬u128 dl dh / 4 = 0 then CRes.ret [Val.i64 cl', Val.i64 ch'] g' = r
      else ∃ y, id y < id k ∧ SqrtInv N g' y
        [Val.i64 lo', Val.i64 hi', Val.i64 (dh <<< 62 ||| dl >>> 2), Val.i64 (dh >>> 2),
          Val.i64 cl', Val.i64 ch', Val.i64 tl', Val.i64 th'] g' := by
    intro lo' hi' cl' ch' tl' th' s' h1 h2 h3 h4
    rcases k with _ | k
    · rw [if_pos (by rw [hd]; decide), hs s' (by omega) h3, ← encU_u128, h1, Nat.pow_zero,
        Nat.mul_one]
    · have hp := Nat.two_pow_pos k
      have e : 2 ^ (k + 1) * 2 ^ (k + 1) = 4 * (2 ^ k * 2 ^ k) := by rw [Nat.pow_succ]; ring
      have hpp := Nat.mul_pos hp hp
      rw [e] at hd
      rw [if_neg (by omega)]
      refine ⟨k, by simp, rfl, lo', hi', _, _, cl', ch', tl', th', s', rfl, ?_, ?_, h2, ?_, ?_⟩
      · rw [quarter_halves, hd]; omega
      · rw [h1, Nat.pow_succ]; ring
      · rw [Nat.pow_succ, Nat.mul_comm (2 ^ k)] at h3; exact h3
      · rw [Nat.pow_succ, Nat.mul_comm (2 ^ k)] at h4; exact h4
  have hp := Nat.two_pow_pos k
  have hlt : u128 cl ch + u128 dl dh < 2 ^ 128 := by
    rw [hc, hd]
    generalize 2 ^ k = p at *
    have h1 : s + p ≤ 2 ^ 64 - 1 := by omega
    have h2 : (s + p) * (s + p) ≤ (2 ^ 64 - 1) * (2 ^ 64 - 1) := Nat.mul_le_mul h1 h1
    have h3 : 2 * s * p + p * p ≤ (s + p) * (s + p) := by nlinarith
    omega
  rw [Nat.mod_eq_of_lt hlt]
  by_cases h : u128 lo hi ≥ u128 cl ch + u128 dl dh
  · rw [if_neg (by simpa using h)]
    have ul := u128_lt lo hi
    have e1 : u128 cl ch / 2 + u128 dl dh = (s + 2 ^ k) * 2 ^ k := by
      have e : u128 cl ch / 2 = s * 2 ^ k := by
        rw [hc, Nat.mul_assoc]; exact Nat.mul_div_cancel_left _ (by decide)
      rw [e, hd]; ring
    apply fin _ _ _ _ _ _ (s + 2 ^ k)
    · rw [u128_ofNat, Nat.mod_eq_of_lt, e1]
      omega
    · rw [u128_ofNat]
      have e2 : (s + 2 ^ k) * (s + 2 ^ k) = s * s + (u128 cl ch + u128 dl dh) := by
        rw [hc, hd]; ring
      rw [e2]; omega
    · rw [show s + 2 ^ k + 2 ^ k = s + 2 * 2 ^ k by ring]; exact hN
    · omega
  · rw [if_pos h]
    apply fin _ _ _ _ _ _ s
    · rw [half_halves, hc, Nat.mul_assoc]; exact Nat.mul_div_cancel_left _ (by decide)
    · exact hn
    · have e2 : (s + 2 ^ k) * (s + 2 ^ k) = s * s + (u128 cl ch + u128 dl dh) := by
        rw [hc, hd]; ring
      omega
    · omega

/-- Invariant of the two loops that look for the first power of four: `j` is the exponent tried
next. -/
def SeekInv (x : BitVec 64) (mk : BitVec 64 → BitVec 64 → List Val) (g : Store σ) (j : Nat)
    (loc : List Val) (g' : Store σ) : Prop :=
  g' = g ∧ j < 32 ∧ x.toNat < 4 ^ (j + 1) ∧ ∃ u : BitVec 64, loc = mk u (BitVec.ofNat 64 (4 ^ j))

theorem pow4_shr (j : Nat) (h : j + 1 < 32) :
    BitVec.ofNat 64 (4 ^ (j + 1)) >>> 2 = BitVec.ofNat 64 (4 ^ j) := by
  apply BitVec.eq_of_toNat_eq
  have h1 : 4 ^ (j + 1) < 2 ^ 64 := by
    rw [show (2 : Nat) ^ 64 = 4 ^ 32 by norm_num]; exact Nat.pow_lt_pow_right (by decide) h
  rw [BitVec.toNat_ushiftRight, BitVec.toNat_ofNat, BitVec.toNat_ofNat, Nat.mod_eq_of_lt h1,
    Nat.mod_eq_of_lt (Nat.lt_of_le_of_lt (Nat.pow_le_pow_right (by decide) (by omega)) h1),
    Nat.shiftRight_eq_div_pow, Nat.pow_succ]
  omega

theorem pow4_lt (j : Nat) (h : j < 32) : (BitVec.ofNat 64 (4 ^ j)).toNat = 4 ^ j := by
  rw [BitVec.toNat_ofNat, Nat.mod_eq_of_lt]
  rw [show (2 : Nat) ^ 64 = 4 ^ 32 by norm_num]; exact Nat.pow_lt_pow_right (by decide) h

theorem sqrti_core (al ah : BitVec 64) (s : Nat) (h1 : s * s ≤ u128 al ah)
    (h2 : u128 al ah < (s + 1) * (s + 1)) :
    Runs M (.std .sqrti_uint) [.i64 al, .i64 ah] g (.ret (encU s) g) := by
  apply runs_std (by simp)
  have uniq : ∀ t, t * t ≤ u128 al ah → u128 al ah < (t + 1) * (t + 1) → t = s := by
    intro t h3 h4
    have a : s < t + 1 := Nat.mul_self_lt_mul_self_iff.1 (Nat.lt_of_le_of_lt h1 h4)
    have b : t < s + 1 := Nat.mul_self_lt_mul_self_iff.1 (Nat.lt_of_le_of_lt h3 h2)
    omega
  have hI : ∀ (k : Nat) (dl dh : BitVec 64), k < 64 → u128 dl dh = 4 ^ k →
      u128 al ah < 4 ^ (k + 1) → WP M (Std.sqrti_uint_body.drop 12) []
        [.i64 al, .i64 ah, .i64 dl, .i64 dh, .i64 0#64, .i64 0#64, .i64 0#64, .i64 0#64] g
        (fun x => x.toCall 2 = .ret (encU s) g) := by
    intro k dl dh hk hd hlt
    have e : (2 : Nat) ^ k * 2 ^ k = 4 ^ k := by rw [← Nat.mul_pow]
    refine sqrt_loop (u128 al ah) k _ ⟨rfl, _, _, _, _, _, _, _, _, 0, rfl, ?_, ?_, ?_, ?_, ?_⟩ ?_
    · rw [hd, e]
    · simp [u128]
    · simp
    · rw [Nat.pow_succ] at hlt
      have e3 : (0 + 2 * 2 ^ k) * (0 + 2 * 2 ^ k) = 4 * (2 ^ k * 2 ^ k) := by ring
      rw [e3, e]; omega
    · have : 2 ^ k ≤ 2 ^ 63 := Nat.pow_le_pow_right (by decide) (by omega)
      omega
    · intro t h3 h4; rw [uniq t h3 h4]
  by_cases h0 : u128 al ah = 0
  · wpx [stdFunc, Std.sqrti_uint, Std.sqrti_uint_body, is_zero', h0]
    rw [h0] at h1
    have : s = 0 := by
      rcases s with _ | s
      · rfl
      · exfalso; have h5 := Nat.mul_pos (Nat.succ_pos s) (Nat.succ_pos s); exact absurd h1 (Nat.not_le.2 h5)
    rw [this]; rfl
  have hz : (¬ ah = 0#64) ↔ ah.toNat ≠ 0 := by rw [ne_eq, ← BitVec.toNat_inj]; rfl
  have h4 : (4 : Nat) ^ 32 = 2 ^ 64 := by norm_num
  have seek : ∀ j, j < 31 → 4 ^ (j + 1) = 4 * 4 ^ j := fun j _ => by rw [Nat.pow_succ]; ring
  by_cases hh : ah.toNat = 0
  · have e : u128 al ah = al.toNat := by unfold u128; omega
    wpx [stdFunc, Std.sqrti_uint, Std.sqrti_uint_body, is_zero', h0]
    rw [if_neg (by rw [hz]; omega)]
    refine wp_loop_inv (SeekInv al (fun u v => [.i64 al, .i64 ah, .i64 u, .i64 v, .i64 0#64,
      .i64 0#64, .i64 0#64, .i64 0#64]) g) id 31 ⟨rfl, by decide, ?_, 0#64, rfl⟩ ?_
    · rw [h4]; exact al.isLt
    · rintro j loc g' ⟨rfl, hj, hx, u, rfl⟩
      wpx [pow4_lt j hj]
      by_cases hlt : al.toNat < 4 ^ j
      · rw [if_neg (by simpa using hlt)]
        rcases j with _ | j
        · exfalso; simp at hlt; rw [e, hlt] at h0; simp at h0
        · refine ⟨j, by simp, rfl, by omega, hlt, BitVec.ofNat 64 (4 ^ (j + 1)), ?_⟩
          rw [pow4_shr j hj]
      · rw [if_pos hlt]
        refine hI j _ _ (by omega) ?_ (by rw [e]; exact hx)
        simp only [u128, pow4_lt j hj, BitVec.toNat_ofNat]; simp
  · wpx [stdFunc, Std.sqrti_uint, Std.sqrti_uint_body, is_zero', h0]
    rw [if_pos (by rw [hz]; omega)]
    refine wp_loop_inv (SeekInv ah (fun u v => [.i64 al, .i64 ah, .i64 v, .i64 u, .i64 0#64,
      .i64 0#64, .i64 0#64, .i64 0#64]) g) id 31 ⟨rfl, by decide, ?_, 0#64, rfl⟩ ?_
    · rw [h4]; exact ah.isLt
    · rintro j loc g' ⟨rfl, hj, hx, u, rfl⟩
      wpx [pow4_lt j hj]
      by_cases hlt : ah.toNat < 4 ^ j
      · rw [if_neg (by simpa using hlt)]
        rcases j with _ | j
        · exfalso; simp at hlt; omega
        · refine ⟨j, by simp, rfl, by omega, hlt, BitVec.ofNat 64 (4 ^ (j + 1)), ?_⟩
          rw [pow4_shr j hj]
      · rw [if_pos hlt]
        refine hI (j + 32) _ _ (by omega) ?_ ?_
        · simp only [u128, pow4_lt j hj, BitVec.toNat_ofNat]
          rw [Nat.pow_add, h4]; ring
        · rw [show j + 32 + 1 = j + 1 + 32 by omega, Nat.pow_add, h4]
          have := al.isLt
          unfold u128; omega

theorem runs_sqrti_uint (al ah : BitVec 64) :
    Runs M (.std .sqrti_uint) [.i64 al, .i64 ah] g (.ret (encU (Nat.sqrt (u128 al ah))) g) :=
  sqrti_core al ah _ (Nat.sqrt_le _) (Nat.lt_succ_sqrt _)

theorem runs_sqrti_int (al ah : BitVec 64) :
    Runs M (.std .sqrti_int) [.i64 al, .i64 ah] g
      (if i128 al ah < 0 then abort g 4 else .ret (encU (Nat.sqrt (i128 al ah).toNat)) g) := by
  apply runs_std (by split <;> simp [abort])
  have h1 := i128_eq al ah
  have h2 := u128_lt al ah
  by_cases h : i128 al ah < 0
  · wpx [stdFunc, Std.sqrti_int, Std.sqrti_int_body, toInt_neg_iff al ah, h]; rfl
  · wpx [stdFunc, Std.sqrti_int, Std.sqrti_int_body, toInt_neg_iff al ah, h,
      wp_call2 (runs_sqrti_uint al ah) (by simp) rfl]
    rw [show (i128 al ah).toNat = u128 al ah by omega]; rfl

end Wasm
