import Verif.Stdlib.Bits
import Mathlib.Data.Nat.Prime.Pow
import Mathlib.Tactic.NormNum.Prime
import Mathlib.Data.Nat.Prime.Basic

/-! Runtime library: exponentiation (standard.wat 1358-1550). -/

namespace Wasm
open Spec
variable {σ : Type} {M : Mod σ} {is : List Instr} {stk loc : List Val} {g : Store σ}
  {Q : Res σ → Prop}

theorem and1_zero (b : BitVec 32) : (b &&& 1#32 = 0#32) ↔ b.toNat % 2 = 0 := by
  rw [← BitVec.toNat_inj, BitVec.toNat_and, show BitVec.toNat 1#32 = 1 from rfl, Nat.and_one_is_mod]
  rfl

theorem xor1_odd (b : BitVec 32) (h : b.toNat % 2 = 1) : (b ^^^ 1#32).toNat = b.toNat - 1 := by
  have e : b ^^^ 1#32 = b - 1#32 := by
    have h1 : b &&& 1#32 = 1#32 := by
      apply BitVec.eq_of_toNat_eq
      rw [BitVec.toNat_and, show BitVec.toNat 1#32 = 1 from rfl, Nat.and_one_is_mod, h]
    have h2 : (b ^^^ 1#32).toNat + 1 = b.toNat := by
      have h3 : b = (b ^^^ 1#32) ||| 1#32 := by
        apply BitVec.eq_of_getLsbD_eq
        intro i hi
        have h4 := congrArg (fun x => BitVec.getLsbD x i) h1
        simp only [BitVec.getLsbD_and, BitVec.getLsbD_or, BitVec.getLsbD_xor] at h4 ⊢
        revert h4; generalize b.getLsbD i = u; generalize (1#32).getLsbD i = v
        cases u <;> cases v <;> simp
      have h5 : (b ^^^ 1#32).toNat % 2 = 0 := by
        rw [← and1_zero]
        apply BitVec.eq_of_getLsbD_eq
        intro i hi
        have h4 := congrArg (fun x => BitVec.getLsbD x i) h1
        simp only [BitVec.getLsbD_and, BitVec.getLsbD_xor] at h4 ⊢
        revert h4; generalize b.getLsbD i = u; generalize (1#32).getLsbD i = v
        cases u <;> cases v <;> simp
      have h6 := congrArg BitVec.toNat h3
      rw [BitVec.toNat_or, or_disjoint' (b ^^^ 1#32).toNat (BitVec.toNat 1#32) 1 (by decide) h5] at h6
      have : BitVec.toNat 1#32 = 1 := rfl
      omega
    apply BitVec.eq_of_toNat_eq
    rw [BitVec.toNat_sub]; simp only [BitVec.toNat_ofNat]
    have := b.isLt; omega
  rw [e, BitVec.toNat_sub]; simp only [BitVec.toNat_ofNat]
  have := b.isLt; omega

/-- Invariant of the square-and-multiply loop. -/
def PowInv (A B : Nat) (g : Store σ) (b : BitVec 32) (loc : List Val) (g' : Store σ) : Prop :=
  g' = g ∧ ∃ al ah cl ch : BitVec 64,
    loc = [.i64 al, .i64 ah, .i32 b, .i64 cl, .i64 ch] ∧
    2 ≤ b.toNat ∧ 1 ≤ u128 al ah ∧ 1 ≤ u128 cl ch ∧ u128 al ah ^ b.toNat * u128 cl ch = A ^ B

theorem runs_pow_inner (al ah : BitVec 64) (b : BitVec 32) (ha : 1 ≤ u128 al ah)
    (hb : 2 ≤ b.toNat) :
    Runs M (.std .pow_inner) [.i64 al, .i64 ah, .i32 b] g
      (if u128 al ah ^ b.toNat < 2 ^ 128 then .ret (encU (u128 al ah ^ b.toNat)) g else abort g 0) := by
  apply runs_std (by split <;> simp [abort])
  wpx [stdFunc, Std.pow_inner, Std.pow_inner_body]
  refine wp_loop_inv (PowInv (u128 al ah) b.toNat g) BitVec.toNat b
    ⟨rfl, al, ah, 1#64, 0#64, rfl, hb, ha, by decide, ?_⟩ ?_
  · simp [u128]
  · rintro b' loc g' ⟨rfl, xl, xh, cl, ch, rfl, hb2, hx, hc, hp⟩
    wpx [and1_zero, wp_mul_uint, u128_ofNat]
    generalize hX : u128 xl xh = x at *
    generalize hC : u128 cl ch = c at *
    generalize hP : u128 al ah ^ b.toNat = P at *
    have hpow1 : 1 ≤ x ^ b'.toNat := Nat.one_le_pow _ _ hx
    by_cases hev : b'.toNat % 2 = 0
    · rw [if_neg (by simpa using hev)]
      have hdiv : (b' >>> 1).toNat = b'.toNat / 2 := by
        rw [BitVec.toNat_ushiftRight, Nat.shiftRight_eq_div_pow]
      have hsq : (x * x) ^ (b'.toNat / 2) = x ^ b'.toNat := by
        rw [← Nat.pow_two, ← Nat.pow_mul]; congr 1; omega
      by_cases hov : x * x < 2 ^ 128
      · rw [if_pos hov, hdiv, Nat.mod_eq_of_lt hov]
        by_cases hb1 : 1 < b'.toNat / 2
        · rw [if_neg (by simpa using hb1)]
          refine ⟨b' >>> 1, by rw [hdiv]; omega, rfl, _, _, cl, ch, rfl, by rw [hdiv]; omega, ?_, ?_, ?_⟩
          · rw [u128_ofNat, Nat.mod_eq_of_lt hov]; exact Nat.mul_pos hx hx
          · rw [hC]; exact hc
          · rw [u128_ofNat, Nat.mod_eq_of_lt hov, hdiv, hsq, hC, hP]; exact hp
        · rw [if_pos hb1]
          have h1 : b'.toNat / 2 = 1 := by omega
          rw [h1, Nat.pow_one] at hsq
          rw [hsq, hp]; split <;> rfl
      · rw [if_neg hov, if_neg]
        · rfl
        · rw [← hp]
          have h1 : x * x ≤ x ^ b'.toNat := by
            rw [← Nat.pow_two]; exact Nat.pow_le_pow_right hx hb2
          have h2 := Nat.mul_le_mul h1 hc
          omega
    · rw [if_pos hev]
      have hsub := xor1_odd b' (by omega)
      have hxc : x ^ (b'.toNat - 1) * (x * c) = P := by
        rw [← hp, ← Nat.mul_assoc, ← Nat.pow_succ]; congr 2; omega
      by_cases hov : x * c < 2 ^ 128
      · rw [if_pos hov, hsub, if_neg (by simp; omega)]
        refine ⟨b' ^^^ 1#32, by rw [hsub]; omega, rfl, xl, xh, _, _, rfl, by rw [hsub]; omega, ?_, ?_, ?_⟩
        · omega
        · rw [u128_ofNat, Nat.mod_eq_of_lt hov]; exact Nat.mul_pos hx hc
        · rw [u128_ofNat, Nat.mod_eq_of_lt hov, hsub, hX, hP]; exact hxc
      · rw [if_neg hov, if_neg]
        · rfl
        · rw [← hxc]
          have h1 : 1 ≤ x ^ (b'.toNat - 1) := Nat.one_le_pow _ _ hx
          have := Nat.mul_le_mul h1 (Nat.le_of_not_lt hov)
          omega

theorem wp_pow_inner {al ah : BitVec 64} {b : BitVec 32} (ha : 1 ≤ u128 al ah)
    (hb : 2 ≤ b.toNat) :
    WP M (.call (.std .pow_inner) :: is) (.i32 b :: .i64 ah :: .i64 al :: stk) loc g Q ↔
      if u128 al ah ^ b.toNat < 2 ^ 128 then
        WP M is (.i64 (BitVec.ofNat 64 (u128 al ah ^ b.toNat / 2 ^ 64)) ::
          .i64 (BitVec.ofNat 64 (u128 al ah ^ b.toNat)) :: stk) loc g Q
      else Q (.trap (g.failed 0)) := by
  have := wp_call_runs (M := M) (is := is) (stk := stk) (loc := loc) (g := g) (Q := Q)
    (f := .std .pow_inner) (ps := [.i64, .i64, .i32]) (rs := [.i64, .i64])
    (args := [.i64 al, .i64 ah, .i32 b]) rfl rfl (runs_pow_inner al ah b ha hb)
    (by split <;> simp [abort])
  simp only [List.reverse_cons, List.reverse_nil, List.nil_append, List.cons_append] at this
  rw [this]
  split <;> rfl

theorem lt2_iff (al ah : BitVec 64) : (al.toNat < 2 ∧ ah = 0#64) ↔ u128 al ah < 2 := by
  rw [← BitVec.toNat_inj]; have := al.isLt; unfold u128; simp; omega

theorem is_zero2 {al ah : BitVec 64} : al ||| ah = 0#64 ↔ u128 al ah = 0 := by
  rw [BitVec.or_comm]; exact is_zero

theorem xor_const (al ah c : BitVec 64) : u128 (al ^^^ c) ah = 0 ↔ u128 al ah = c.toNat := by
  rw [← is_zero2, or_zero, xor_zero, ← BitVec.toNat_inj, ← BitVec.toNat_inj]
  have := al.isLt; have := c.isLt
  simp only [BitVec.toNat_ofNat, u128]; omega

theorem gt_const (bl bh : BitVec 64) (k : Nat) (hk : k < 2 ^ 64) :
    (k < bl.toNat ∨ ¬ bh = 0#64) ↔ k < u128 bl bh := by
  rw [← BitVec.toNat_inj]; have := bl.isLt; unfold u128; simp; omega

theorem small_exp {bl bh : BitVec 64} (h : u128 bl bh < 2 ^ 32) :
    bl.toNat = u128 bl bh ∧ bh = 0#64 ∧ (bl.setWidth 32).toNat = u128 bl bh := by
  have := bl.isLt; have := bh.isLt
  refine ⟨?_, ?_, ?_⟩
  · unfold u128 at *; omega
  · apply BitVec.eq_of_toNat_eq; unfold u128 at *; simp; omega
  · rw [BitVec.toNat_setWidth]; unfold u128 at *; omega

theorem shl_one (b : BitVec 64) (n : Nat) (h : n < 64) (hn : b.toNat = n) :
    (1#64 <<< (b.toNat % 64)).toNat = 2 ^ n := by
  have : 2 ^ n < 2 ^ 64 := Nat.pow_lt_pow_right (by decide) h
  rw [hn, Nat.mod_eq_of_lt h, BitVec.toNat_shiftLeft, Nat.shiftLeft_eq]; simp; omega

/-- the shortcut for base 2 -/
theorem two_pow_halves (bl : BitVec 64) (h : bl.toNat < 128) :
    u128 (if ¬bl.toNat < 64 then 0#64 else 1#64 <<< (bl.toNat % 64))
      (if ¬bl.toNat < 64 then 1#64 <<< ((bl - 64#64).toNat % 64) else 0#64) = 2 ^ bl.toNat := by
  by_cases h1 : bl.toNat < 64
  · simp only [h1, not_true_eq_false, if_false]
    unfold u128; rw [shl_one bl _ h1 rfl]; simp
  · simp only [h1, not_false_eq_true, if_true]
    have e : (bl - 64#64).toNat = bl.toNat - 64 := by
      rw [BitVec.toNat_sub]; simp only [BitVec.toNat_ofNat]; omega
    unfold u128; rw [shl_one _ (bl.toNat - 64) (by omega) e]
    rw [← Nat.pow_add, show 64 + (bl.toNat - 64) = bl.toNat by omega]; simp

theorem pow_ge {a b : Nat} (ha : 2 ≤ a) (hb : 128 ≤ b) : 2 ^ 128 ≤ a ^ b :=
  Nat.le_trans (Nat.pow_le_pow_right (by decide) hb) (Nat.pow_le_pow_left ha _)

theorem runs_pow_uint (al ah bl bh : BitVec 64) :
    Runs M (.std .pow_uint) (args4 al ah bl bh) g
      (if u128 al ah ^ u128 bl bh < 2 ^ 128 then .ret (encU (u128 al ah ^ u128 bl bh)) g
       else if 127 < u128 bl bh then abort g 8 else abort g 0) := by
  apply runs_std (by repeat' split
                     all_goals simp [abort])
  generalize hr : (if u128 al ah ^ u128 bl bh < 2 ^ 128 then CRes.ret (encU (u128 al ah ^ u128 bl bh)) g
       else if 127 < u128 bl bh then abort g 8 else abort g 0) = r
  wpx [stdFunc, Std.pow_uint, Std.pow_uint_body, args4, is_zero2, lt2_iff, ne_eq,
    xor_const, gt_const bl bh 127 (by decide)]
  have la := u128_lt al ah
  by_cases h0 : u128 bl bh = 0
  · rw [if_neg (by simpa using h0)]
    rw [h0, Nat.pow_zero, if_pos (by decide)] at hr
    exact hr
  rw [if_pos h0]
  by_cases h1 : u128 al ah < 2 ∨ u128 bl bh = 1
  · rw [if_neg (not_not.2 h1), ← encU_u128]
    have e : u128 al ah ^ u128 bl bh = u128 al ah := by
      rcases h1 with h1 | h1
      · rcases Nat.lt_or_ge (u128 al ah) 1 with h2 | h2
        · rw [show u128 al ah = 0 by omega, Nat.zero_pow (by omega)]
        · rw [show u128 al ah = 1 by omega, Nat.one_pow]
      · rw [h1, Nat.pow_one]
    rw [e, if_pos la] at hr
    exact hr
  rw [if_pos h1]
  by_cases h2 : 127 < u128 bl bh
  · rw [if_neg (by simpa using h2)]
    rw [if_neg (Nat.not_lt.2 (pow_ge (by omega) h2)), if_pos h2] at hr
    exact hr
  rw [if_pos h2]
  rw [if_neg h2] at hr
  obtain ⟨e1, e2, e3⟩ := small_exp (bl := bl) (bh := bh) (by omega)
  by_cases h3 : u128 al ah = 2
  · rw [if_neg (by simpa using h3), ← encU_u128, two_pow_halves _ (by omega), e1, ← hr, h3, if_pos]
    exact Nat.pow_lt_pow_right (by decide) (by omega)
  · rw [if_pos h3, wp_pow_inner (by omega) (by omega), e3, ← hr]
    wpx
    split <;> rfl

theorem pow_eq_two127 {x b : Nat} (hb : 2 ≤ b) (h : x ^ b = 2 ^ 127) : x = 2 := by
  have hd : x ∣ 2 ^ 127 := by rw [← h]; exact Dvd.intro_left (x ^ (b - 1)) (by
    rw [← Nat.pow_succ]; congr 1; omega)
  obtain ⟨k, hk, rfl⟩ := (Nat.dvd_prime_pow Nat.prime_two).1 hd
  rw [← Nat.pow_mul] at h
  have h' := Nat.pow_right_injective (le_refl 2) h
  have hp : Nat.Prime 127 := by norm_num
  have hbd : b ∣ 127 := Dvd.intro_left k h'
  rcases (Nat.dvd_prime hp).1 hbd with rfl | rfl
  · omega
  · have : k = 1 := by omega
    rw [this]; rfl

theorem neg_two_pow : ∀ n, n < 128 → IsInt ((-2) ^ n) ∧ encI ((-2) ^ n) =
    [Val.i64 (if ¬(BitVec.ofNat 64 n).toNat < 64 then 0#64 else
        (if BitVec.setWidth 32 (BitVec.ofNat 64 n &&& 1#64) = 0#32 then 1#64
          else 18446744073709551615#64) <<< ((BitVec.ofNat 64 n).toNat % 64)),
     Val.i64 (if ¬(BitVec.ofNat 64 n).toNat < 64 then
        (if BitVec.setWidth 32 (BitVec.ofNat 64 n &&& 1#64) = 0#32 then 1#64
          else 18446744073709551615#64) <<< ((BitVec.ofNat 64 n - 64#64).toNat % 64)
       else if BitVec.setWidth 32 (BitVec.ofNat 64 n &&& 1#64) = 0#32 then 0#64
         else 18446744073709551615#64)] := by
  decide +kernel

theorem runs_pow_int (al ah bl bh : BitVec 64) :
    Runs M (.std .pow_int) (args4 al ah bl bh) g
      (if i128 bl bh = 0 then .ret (encI 1) g
       else if i128 al ah = 0 ∨ i128 al ah = 1 ∨ i128 bl bh = 1 then .ret (encI (i128 al ah)) g
       else if i128 bl bh < 0 ∨ (if i128 al ah < 0 then 127 else 126) < i128 bl bh then abort g 8
       else if IsInt (i128 al ah ^ (i128 bl bh).toNat) then
         .ret (encI (i128 al ah ^ (i128 bl bh).toNat)) g
       else abort g 0) := by
  apply runs_std (by repeat' split
                     all_goals simp [abort])
  generalize hr : (if i128 bl bh = 0 then CRes.ret (encI 1) g
       else if i128 al ah = 0 ∨ i128 al ah = 1 ∨ i128 bl bh = 1 then .ret (encI (i128 al ah)) g
       else if i128 bl bh < 0 ∨ (if i128 al ah < 0 then 127 else 126) < i128 bl bh then abort g 8
       else if IsInt (i128 al ah ^ (i128 bl bh).toNat) then
         .ret (encI (i128 al ah ^ (i128 bl bh).toNat)) g
       else abort g 0) = r
  wpx [stdFunc, Std.pow_int, Std.pow_int_body, args4, is_zero2, lt2_iff, ne_eq,
    xor_const, abs_halves]
  have ea := i128_eq al ah
  have eb := i128_eq bl bh
  have la := u128_lt al ah
  have lb := u128_lt bl bh
  by_cases h0 : u128 bl bh = 0
  · rw [if_neg (by simpa using h0)]
    rw [if_pos (by omega)] at hr
    exact hr
  rw [if_pos h0]
  rw [if_neg (show ¬ i128 bl bh = 0 by omega)] at hr
  by_cases h1 : u128 al ah < 2 ∨ u128 bl bh = 1
  · rw [if_neg (not_not.2 h1), ← encI_i128]
    rw [if_pos (by omega)] at hr
    exact hr
  rw [if_pos h1]
  rw [if_neg (show ¬ (i128 al ah = 0 ∨ i128 al ah = 1 ∨ i128 bl bh = 1) by omega)] at hr
  by_cases h2 : i128 bl bh < 0
  · rw [if_neg (by rw [toInt_neg_iff bl bh]; omega)]
    rw [if_pos (by omega)] at hr
    exact hr
  rw [if_pos (by rw [toInt_neg_iff bl bh]; omega)]
  have hmax : (126#64 + BitVec.setWidth 64 (b32 (ah.toInt < 0))).toNat =
      if i128 al ah < 0 then 127 else 126 := by
    rw [BitVec.toNat_add, toNat_b64]
    simp only [toInt_neg_iff al ah]
    split <;> rfl
  have hmaxlt : (126#64 + BitVec.setWidth 64 (b32 (ah.toInt < 0))).toNat < 2 ^ 64 := BitVec.isLt _
  simp only [gt_const bl bh _ hmaxlt]
  rw [hmax]
  by_cases h3 : (if i128 al ah < 0 then 127 else 126) < u128 bl bh
  · rw [if_neg (not_not.2 h3)]
    rw [if_pos (by right; split <;> simp_all <;> omega)] at hr
    exact hr
  rw [if_pos h3]
  rw [if_neg (by rintro (h | h) <;> [omega; (split at h3 <;> simp_all <;> omega)])] at hr
  have hb127 : u128 bl bh < 128 := by split at h3 <;> omega
  obtain ⟨e1, e2, e3⟩ := small_exp (bl := bl) (bh := bh) (by omega)
  have eB : (i128 bl bh).toNat = u128 bl bh := by omega
  rw [eB] at hr
  by_cases h4 : u128 al ah = 2
  · rw [if_neg (by simpa using h4), ← encU_u128, two_pow_halves _ (by omega), e1, ← hr,
      show i128 al ah = 2 by omega]
    have hlt : 2 ^ u128 bl bh < 2 ^ 127 := Nat.pow_lt_pow_right (by decide) (by
      rw [if_neg (by omega)] at h3; omega)
    have hc : (2 : Int) ^ u128 bl bh = ((2 ^ u128 bl bh : Nat) : Int) := by push_cast; rfl
    rw [hc]
    generalize 2 ^ u128 bl bh = q at *
    rw [if_pos (by unfold IsInt; omega), encI_eq_encU (n := q) rfl]
  rw [if_pos h4]
  by_cases h5 : al = 18446744073709551614#64 ∧ ah = 18446744073709551615#64
  · rw [if_neg (not_not.2 h5)]
    obtain ⟨rfl, rfl⟩ := h5
    rw [show i128 18446744073709551614#64 18446744073709551615#64 = -2 from rfl] at hr
    have key := neg_two_pow (u128 bl bh) hb127
    have ebl : bl = BitVec.ofNat 64 (u128 bl bh) := by
      apply BitVec.eq_of_toNat_eq; rw [BitVec.toNat_ofNat, e1]; omega
    rw [if_pos key.1] at hr
    rw [← hr, key.2, ← ebl]
  rw [if_pos h5]
  have habs := abs_halves (al := al) (ah := ah)
  have habs' : u128 (if ¬ah.toInt < 0 then al else 0#64 - al)
      (if ¬ah.toInt < 0 then ah else 0#64 - (ah + BitVec.setWidth 64 (b32 ¬al = 0#64))) =
      (i128 al ah).natAbs := habs
  rw [wp_pow_inner (by rw [habs']; omega) (by omega), habs', e3]
  have hz2 : (i128 al ah).natAbs ≠ 2 := by
    intro h
    apply h5
    have hu : u128 al ah = 2 ^ 128 - 2 := by omega
    have := al.isLt; have := ah.isLt
    constructor <;> apply BitVec.eq_of_toNat_eq <;> unfold u128 at hu <;> simp <;> omega
  have hne : (i128 al ah).natAbs ^ u128 bl bh ≠ 2 ^ 127 := by
    intro h; exact hz2 (pow_eq_two127 (by omega) h)
  rw [← Int.natAbs_pow] at hne ⊢
  have hsgn : i128 al ah ^ u128 bl bh < 0 ↔ i128 al ah < 0 ∧ u128 bl bh % 2 = 1 := by
    constructor
    · intro h
      refine ⟨?_, ?_⟩
      · by_contra hc; have := pow_nonneg (Int.not_lt.1 hc) (u128 bl bh); omega
      · by_contra hc
        have := Even.pow_nonneg (Nat.even_iff.2 (show u128 bl bh % 2 = 0 by omega)) (i128 al ah)
        omega
    · rintro ⟨h, h'⟩; exact Odd.pow_neg (Nat.odd_iff.2 h') h
  have hcond : (b32 (ah.toInt < 0) &&& (BitVec.setWidth 32 bl &&& 1#32) = 0#32) ↔
      ¬ i128 al ah ^ u128 bl bh < 0 := by
    rw [hsgn, ← toInt_neg_iff al ah]
    by_cases hn : ah.toInt < 0
    · have : b32 (ah.toInt < 0) = 1#32 := by unfold b32; rw [if_pos hn]
      rw [this, BitVec.and_comm, BitVec.and_assoc, BitVec.and_self, and1_zero, e3]
      simp only [hn, true_and]; omega
    · have : b32 (ah.toInt < 0) = 0#32 := by unfold b32; rw [if_neg hn]
      rw [this, BitVec.zero_and]; simp [hn]
  wpx [hcond]
  generalize i128 al ah ^ u128 bl bh = p at *
  by_cases h6 : p.natAbs < 2 ^ 128
  · rw [if_pos h6]
    simp only [toInt_hi _ h6]
    by_cases h7 : 2 ^ 127 ≤ p.natAbs
    · rw [if_neg (by simpa using h7)]
      rw [if_neg (by unfold IsInt; omega)] at hr
      exact hr
    · rw [if_pos h7]
      rw [if_pos (by unfold IsInt; omega)] at hr
      rw [← hr]
      have hneg := neg_halves (¬ p < 0) p.natAbs h6
      by_cases h8 : p < 0
      · simp only [h8, not_true_eq_false, if_false] at hneg ⊢
        rw [hneg, show -(p.natAbs : Int) = p by omega]
      · simp only [h8, not_false_eq_true, if_true] at hneg ⊢
        rw [hneg, show (p.natAbs : Int) = p by omega]
  · rw [if_neg h6]
    rw [if_neg (by unfold IsInt; omega)] at hr
    exact hr

end Wasm
