import Verif.Stdlib.Mul

/-! Runtime library: division and remainder (standard.wat 707-913). -/

namespace Wasm
open Spec
variable {σ : Type} {M : Mod σ} {is : List Instr} {stk loc : List Val} {g : Store σ}
  {Q : Res σ → Prop}

theorem shl_in (rl rh dh : BitVec 64) :
    u128 (rl <<< 1 ||| dh >>> 63) (rh <<< 1 ||| rl >>> 63) =
      (2 * u128 rl rh + dh.toNat / 2 ^ 63) % 2 ^ 128 := by
  have := rl.isLt; have := rh.isLt; have := dh.isLt
  simp only [u128, BitVec.toNat_or, BitVec.toNat_shiftLeft, BitVec.toNat_ushiftRight,
    Nat.shiftRight_eq_div_pow, Nat.shiftLeft_eq]
  rw [or_disjoint' _ _ 1 (by omega) (by omega), or_disjoint' _ _ 1 (by omega) (by omega)]
  omega

theorem shl_halves (dl dh : BitVec 64) :
    u128 (dl <<< 1) (dh <<< 1 ||| dl >>> 63) = (2 * u128 dl dh) % 2 ^ 128 := by
  have := dl.isLt; have := dh.isLt
  simp only [u128, BitVec.toNat_or, BitVec.toNat_shiftLeft, BitVec.toNat_ushiftRight,
    Nat.shiftRight_eq_div_pow, Nat.shiftLeft_eq]
  rw [or_disjoint' _ _ 1 (by omega) (by omega)]
  omega

theorem or_bit (x : BitVec 64) (j : Nat) (hj : j < 64) (h : x.toNat % 2 ^ (j + 1) = 0) :
    (x ||| 1#64 <<< j).toNat = x.toNat + 2 ^ j := by
  have h1 : 2 ^ j < 2 ^ 64 := Nat.pow_lt_pow_right (by decide) hj
  rw [BitVec.toNat_or, BitVec.toNat_shiftLeft, Nat.shiftLeft_eq]
  have e : BitVec.toNat 1#64 * 2 ^ j % 2 ^ 64 = 2 ^ j := by
    rw [show BitVec.toNat 1#64 = 1 from rfl, Nat.one_mul]; exact Nat.mod_eq_of_lt h1
  rw [e]
  exact or_disjoint' _ _ (j + 1) (Nat.pow_lt_pow_right (by decide) (by omega)) h

theorem set_bit_lo (ql qh : BitVec 64) (j X : Nat) (hj : j < 64)
    (h : u128 ql qh = X * 2 ^ (j + 1)) : u128 (ql ||| 1#64 <<< j) qh = u128 ql qh + 2 ^ j := by
  have hq : ql.toNat % 2 ^ (j + 1) = 0 := by
    have e : ql.toNat = u128 ql qh % 2 ^ 64 := by have := ql.isLt; unfold u128; omega
    rw [e, Nat.mod_mod_of_dvd _ (Nat.pow_dvd_pow 2 (by omega)), h, Nat.mul_mod_left]
  unfold u128
  rw [or_bit ql j hj hq]; omega

theorem set_bit_hi (ql qh : BitVec 64) (j X : Nat) (hj : 64 ≤ j) (hj2 : j < 128)
    (h : u128 ql qh = X * 2 ^ (j + 1)) :
    u128 ql (qh ||| 1#64 <<< (j - 64)) = u128 ql qh + 2 ^ j := by
  have hq : qh.toNat % 2 ^ (j - 64 + 1) = 0 := by
    have e : qh.toNat = u128 ql qh / 2 ^ 64 := by have := ql.isLt; unfold u128; omega
    rw [e, h, show j + 1 = (j - 64 + 1) + 64 by omega, Nat.pow_add, ← Nat.mul_assoc,
      Nat.mul_div_cancel _ (by decide), Nat.mul_mod_left]
  unfold u128
  rw [or_bit qh (j - 64) (by omega) hq, Nat.mul_add, ← Nat.pow_add,
    show 64 + (j - 64) = j by omega]
  omega

theorem divstep (p d b : Nat) (hd : 0 < d) (hb : b < 2) :
    ((2 * p + b) / d = 2 * (p / d) + (if d ≤ 2 * (p % d) + b then 1 else 0)) ∧
    ((2 * p + b) % d = if d ≤ 2 * (p % d) + b then 2 * (p % d) + b - d else 2 * (p % d) + b) := by
  have h1 := Nat.div_add_mod p d
  have h2 := Nat.mod_lt p hd
  generalize p / d = q at *
  generalize p % d = r at *
  have e : 2 * p + b = d * (2 * q) + (2 * r + b) := by rw [← h1]; ring
  split
  · have e2 : 2 * p + b = (2 * r + b - d) + d * (2 * q + 1) := by
      rw [e, Nat.mul_add]; omega
    rw [e2, Nat.add_mul_div_left _ _ hd, Nat.add_mul_mod_self_left,
      Nat.div_eq_of_lt (by omega), Nat.mod_eq_of_lt (by omega)]
    omega
  · rw [e, Nat.mul_add_div hd, Nat.mul_add_mod, Nat.div_eq_of_lt (by omega),
      Nat.mod_eq_of_lt (by omega)]
    omega

theorem top_bit (n j : Nat) (hj : j < 128) :
    n * 2 ^ (127 - j) % 2 ^ 128 / 2 ^ 127 = n / 2 ^ j % 2 := by
  rw [show (2 : Nat) ^ 128 = 2 ^ 127 * 2 by rfl, Nat.mod_mul_right_div_self]
  congr 1
  rw [show (2 : Nat) ^ 127 = 2 ^ (127 - j) * 2 ^ j by rw [← Nat.pow_add]; congr 1; omega,
    Nat.mul_comm n, Nat.mul_div_mul_left _ _ (Nat.two_pow_pos _)]

theorem half_pow (n j : Nat) : n / 2 ^ j = 2 * (n / 2 ^ (j + 1)) + n / 2 ^ j % 2 := by
  rw [Nat.pow_succ, ← Nat.div_div_eq_div_mul]; omega

/-- Invariant of the long-division loop: `j` is the bit to be processed next. -/
def DivInv (n d : Nat) (g : Store σ) (dl dh : BitVec 64) (j : Nat) (loc : List Val) (g' : Store σ) :
    Prop :=
  g' = g ∧ j < 128 ∧ ∃ nl nh ql qh rl rh : BitVec 64,
    loc = [.i64 nl, .i64 nh, .i64 dl, .i64 dh, .i64 qh, .i64 ql, .i64 rh, .i64 rl,
      .i64 (BitVec.ofNat 64 j)] ∧
    u128 nl nh = n * 2 ^ (127 - j) % 2 ^ 128 ∧
    u128 rl rh = n / 2 ^ (j + 1) % d ∧
    u128 ql qh = n / 2 ^ (j + 1) / d * 2 ^ (j + 1)

theorem runs_div_int128 (al ah bl bh : BitVec 64) :
    Runs M (.std .div_int128) (args4 al ah bl bh) g
      (if u128 bl bh = 0 then abort g 2 else
        .ret (encU (u128 al ah / u128 bl bh) ++ encU (u128 al ah % u128 bl bh)) g) := by
  apply runs_std (by split <;> simp [abort])
  wpx [stdFunc, Std.div_int128, Std.div_int128_body, args4, is_zero]
  by_cases h0 : u128 bl bh = 0
  · rw [if_neg (by omega), if_pos h0]; rfl
  rw [if_pos h0, if_neg h0]
  have hn := u128_lt al ah
  have hd := u128_lt bl bh
  have hd0 : 0 < u128 bl bh := by omega
  refine wp_loop_inv (DivInv (u128 al ah) (u128 bl bh) g bl bh) id 127 ?_ ?_
  · refine ⟨rfl, by decide, al, ah, 0, 0, 0, 0, rfl, ?_, ?_, ?_⟩
    · simp; omega
    · rw [Nat.div_eq_of_lt hn]; simp [u128]
    · rw [Nat.div_eq_of_lt hn]; simp [u128]
  · rintro j loc' g' ⟨rfl, hj, nl, nh, ql, qh, rl, rh, rfl, hD, hR, hq⟩
    wpx
    have hcond : (bh.toNat < (rh <<< 1 ||| rl >>> 63).toNat ∨
          rh <<< 1 ||| rl >>> 63 = bh ∧ bl.toNat ≤ (rl <<< 1 ||| nh >>> 63).toNat) ↔
        u128 bl bh ≤ u128 (rl <<< 1 ||| nh >>> 63) (rh <<< 1 ||| rl >>> 63) := by
      generalize rh <<< 1 ||| rl >>> 63 = x
      generalize rl <<< 1 ||| nh >>> 63 = y
      have := bl.isLt; have := bh.isLt; have := x.isLt; have := y.isLt
      rw [← BitVec.toNat_inj]; unfold u128; omega
    simp only [hcond]
    have hN := shl_halves nl nh
    have hR' : u128 (rl <<< 1 ||| nh >>> 63) (rh <<< 1 ||| rl >>> 63) =
        2 * (u128 al ah / 2 ^ (j + 1) % u128 bl bh) + u128 al ah / 2 ^ j % 2 := by
      rw [shl_in, ← top_bit _ j hj, ← hD, ← hR]
      have e : nh.toNat / 2 ^ 63 = u128 nl nh / 2 ^ 127 := by
        have := nl.isLt; unfold u128; omega
      rw [e]
      apply Nat.mod_eq_of_lt
      have h1 : u128 rl rh ≤ u128 al ah / 2 ^ (j + 1) := by rw [hR]; exact Nat.mod_le _ _
      have h2 : u128 al ah / 2 ^ j ≤ u128 al ah := Nat.div_le_self _ _
      have h3 := half_pow (u128 al ah) j
      rw [hD, top_bit _ j hj]; omega
    have hds := divstep (u128 al ah / 2 ^ (j + 1)) (u128 bl bh) (u128 al ah / 2 ^ j % 2) hd0
      (Nat.mod_lt _ (by decide))
    rw [← half_pow] at hds
    have hbit : u128 al ah / 2 ^ j % 2 < 2 := Nat.mod_lt _ (by decide)
    have hrlt : u128 al ah / 2 ^ (j + 1) % u128 bl bh < u128 bl bh := Nat.mod_lt _ hd0
    have hpow : u128 al ah / 2 ^ (j + 1) / u128 bl bh * 2 ^ (j + 1) =
        2 * (u128 al ah / 2 ^ (j + 1) / u128 bl bh) * 2 ^ j := by
      rw [Nat.pow_succ]; ring
    have fin : ∀ ql' qh' rl' rh' : BitVec 64, u128 rl' rh' = u128 al ah / 2 ^ j % u128 bl bh →
        u128 ql' qh' = u128 al ah / 2 ^ j / u128 bl bh * 2 ^ j →
        (if ¬0 ≤ (BitVec.ofNat 64 j - 1#64).toInt then
          CRes.ret [Val.i64 ql', Val.i64 qh', Val.i64 rl', Val.i64 rh'] g' =
            CRes.ret (encU (u128 al ah / u128 bl bh) ++ encU (u128 al ah % u128 bl bh)) g'
         else ∃ y, id y < id j ∧ DivInv (u128 al ah) (u128 bl bh) g' bl bh y
            [Val.i64 (nl <<< 1), Val.i64 (nh <<< 1 ||| nl >>> 63), Val.i64 bl, Val.i64 bh,
              Val.i64 qh', Val.i64 ql', Val.i64 rh', Val.i64 rl', Val.i64 (BitVec.ofNat 64 j - 1#64)]
            g') := by
      intro ql' qh' rl' rh' h1 h2
      have hc := toInt_cases (BitVec.ofNat 64 j - 1#64)
      simp only [BitVec.toNat_sub, BitVec.toNat_ofNat] at hc
      by_cases hj0 : j = 0
      · subst hj0
        rw [if_pos (by omega)]
        simp only [Nat.pow_zero, Nat.div_one, Nat.mul_one] at h1 h2
        rw [← h1, ← h2, encU_u128, encU_u128]; rfl
      · rw [if_neg (by omega)]
        refine ⟨j - 1, by simp only [id]; omega, rfl, by omega, nl <<< 1, nh <<< 1 ||| nl >>> 63,
          ql', qh', rl', rh', ?_, ?_, ?_, ?_⟩
        · rw [show BitVec.ofNat 64 j - 1#64 = BitVec.ofNat 64 (j - 1) by
            apply BitVec.eq_of_toNat_eq
            simp only [BitVec.toNat_sub, BitVec.toNat_ofNat]; omega]
        · rw [hN, hD, show 127 - (j - 1) = (127 - j) + 1 by omega,
            show 2 ^ (127 - j + 1) = 2 ^ (127 - j) * 2 from Nat.pow_succ .., ← Nat.mul_assoc]
          omega
        · rw [show j - 1 + 1 = j by omega]; exact h1
        · rw [show j - 1 + 1 = j by omega]; exact h2
    rw [hR']
    by_cases hge : u128 bl bh ≤ 2 * (u128 al ah / 2 ^ (j + 1) % u128 bl bh) + u128 al ah / 2 ^ j % 2
    · rw [if_neg (by omega)]
      rw [if_pos hge, if_pos hge] at hds
      have hr2 : ∀ x, x = 2 * (u128 al ah / 2 ^ (j + 1) % u128 bl bh) + u128 al ah / 2 ^ j % 2 →
          u128 (BitVec.ofNat 64 (x + 2 ^ 128 - u128 bl bh))
            (BitVec.ofNat 64 ((x + 2 ^ 128 - u128 bl bh) / 2 ^ 64)) =
            u128 al ah / 2 ^ j % u128 bl bh := by
        intro x hx
        rw [u128_ofNat, hds.2]; omega
      have hq2 : u128 ql qh + 2 ^ j = u128 al ah / 2 ^ j / u128 bl bh * 2 ^ j := by
        rw [hq, hds.1, hpow]; ring
      rw [BitVec.toNat_ofNat, Nat.mod_eq_of_lt (show j < 2 ^ 64 by omega)]
      by_cases hjl : j < 64
      · rw [if_neg (by omega), Nat.mod_eq_of_lt hjl]
        exact fin _ _ _ _ (hr2 _ rfl) (by rw [set_bit_lo _ _ _ _ hjl hq]; exact hq2)
      · rw [if_pos hjl, show (BitVec.ofNat 64 j - 64#64).toNat % 64 = j - 64 by
          simp only [BitVec.toNat_sub, BitVec.toNat_ofNat]; omega]
        exact fin _ _ _ _ (hr2 _ rfl)
          (by rw [set_bit_hi _ _ _ _ (by omega) hj hq]; exact hq2)
    · rw [if_pos (by omega)]
      rw [if_neg hge, if_neg hge] at hds
      exact fin _ _ _ _ (by rw [hR', hds.2]) (by rw [hq, hds.1, hpow]; ring)

theorem wp_div_int128 {al ah bl bh : BitVec 64} :
    WP M (.call (.std .div_int128) :: is) (.i64 bh :: .i64 bl :: .i64 ah :: .i64 al :: stk) loc g Q ↔
      if u128 bl bh = 0 then Q (.trap (g.failed 2)) else
        WP M is (.i64 (BitVec.ofNat 64 (u128 al ah % u128 bl bh / 2 ^ 64)) ::
          .i64 (BitVec.ofNat 64 (u128 al ah % u128 bl bh)) ::
          .i64 (BitVec.ofNat 64 (u128 al ah / u128 bl bh / 2 ^ 64)) ::
          .i64 (BitVec.ofNat 64 (u128 al ah / u128 bl bh)) :: stk) loc g Q := by
  rw [wp_call4 (runs_div_int128 ..) (by split <;> simp [abort]) rfl]
  split <;> rfl

theorem runs_div_uint (al ah bl bh : BitVec 64) :
    Runs M (.std .div_uint) (args4 al ah bl bh) g
      (if u128 bl bh = 0 then abort g 2 else .ret (encU (u128 al ah / u128 bl bh)) g) := by
  apply runs_std (by split <;> simp [abort])
  wpx [stdFunc, Std.div_uint, Std.div_uint_body, args4, wp_div_int128]
  split <;> rfl

theorem runs_mod_uint (al ah bl bh : BitVec 64) :
    Runs M (.std .mod_uint) (args4 al ah bl bh) g
      (if u128 bl bh = 0 then abort g 2 else .ret (encU (u128 al ah % u128 bl bh)) g) := by
  apply runs_std (by split <;> simp [abort])
  wpx [stdFunc, Std.mod_uint, Std.mod_uint_body, args4, wp_div_int128]
  split <;> rfl

theorem sshr63_wrap (a : BitVec 64) : (BitVec.setWidth 32 (a.sshiftRight 63) = 0#32) ↔ ¬ a.toInt < 0 := by
  rw [sshr63]; split <;> simp_all

theorem sshr63_xor (a b : BitVec 64) :
    (BitVec.setWidth 32 (a.sshiftRight 63 ^^^ b.sshiftRight 63) = 0#32) ↔
      (a.toInt < 0 ↔ b.toInt < 0) := by
  rw [sshr63, sshr63]
  by_cases h1 : a.toInt < 0 <;> by_cases h2 : b.toInt < 0 <;> simp [h1, h2]

theorem and_allOnes (a b : BitVec 64) :
    a &&& b = 18446744073709551615#64 ↔ u128 a b = 2 ^ 128 - 1 := by
  have h1 := a.isLt; have h2 := b.isLt
  constructor
  · intro h
    have h' := congrArg BitVec.toNat h
    rw [BitVec.toNat_and, BitVec.toNat_ofNat] at h'
    have := Nat.and_le_left (n := a.toNat) (m := b.toNat)
    have := Nat.and_le_right (n := a.toNat) (m := b.toNat)
    unfold u128; omega
  · intro h
    have e1 : a = 18446744073709551615#64 := by
      apply BitVec.eq_of_toNat_eq; rw [BitVec.toNat_ofNat]; unfold u128 at h; omega
    have e2 : b = 18446744073709551615#64 := by
      apply BitVec.eq_of_toNat_eq; rw [BitVec.toNat_ofNat]; unfold u128 at h; omega
    rw [e1, e2]; rfl

theorem is_min (a b : BitVec 64) :
    (a = 0#64 ∧ b = 9223372036854775808#64) ↔ u128 a b = 2 ^ 127 := by
  have h1 := a.isLt
  rw [← BitVec.toNat_inj, ← BitVec.toNat_inj, BitVec.toNat_ofNat, BitVec.toNat_ofNat]
  unfold u128; omega

theorem tdiv_abs (a b : Int) :
    a.tdiv b = if a < 0 ↔ b < 0 then ((a.natAbs / b.natAbs : Nat) : Int)
      else -((a.natAbs / b.natAbs : Nat) : Int) := by
  rcases Int.lt_or_le a 0 with ha | ha <;> rcases Int.lt_or_le b 0 with hb | hb
  · rw [if_pos (by omega)]
    obtain ⟨m, rfl⟩ : ∃ m : Nat, a = -m := ⟨a.natAbs, by omega⟩
    obtain ⟨n, rfl⟩ : ∃ n : Nat, b = -n := ⟨b.natAbs, by omega⟩
    rw [Int.neg_tdiv, Int.tdiv_neg, Int.neg_neg, Int.natAbs_neg, Int.natAbs_neg,
      Int.natAbs_natCast, Int.natAbs_natCast]; rfl
  · rw [if_neg (by omega)]
    obtain ⟨m, rfl⟩ : ∃ m : Nat, a = -m := ⟨a.natAbs, by omega⟩
    obtain ⟨n, rfl⟩ : ∃ n : Nat, b = n := ⟨b.natAbs, by omega⟩
    rw [Int.neg_tdiv, Int.natAbs_neg, Int.natAbs_natCast, Int.natAbs_natCast]; rfl
  · rw [if_neg (by omega)]
    obtain ⟨m, rfl⟩ : ∃ m : Nat, a = m := ⟨a.natAbs, by omega⟩
    obtain ⟨n, rfl⟩ : ∃ n : Nat, b = -n := ⟨b.natAbs, by omega⟩
    rw [Int.tdiv_neg, Int.natAbs_neg, Int.natAbs_natCast, Int.natAbs_natCast]; rfl
  · rw [if_pos (by omega)]
    obtain ⟨m, rfl⟩ : ∃ m : Nat, a = m := ⟨a.natAbs, by omega⟩
    obtain ⟨n, rfl⟩ : ∃ n : Nat, b = n := ⟨b.natAbs, by omega⟩
    rfl

theorem tmod_abs (a b : Int) :
    a.tmod b = if a < 0 then -((a.natAbs % b.natAbs : Nat) : Int)
      else ((a.natAbs % b.natAbs : Nat) : Int) := by
  have key : ∀ m : Nat, (m : Int).tmod b = ((m % b.natAbs : Nat) : Int) := by
    intro m
    rcases Int.lt_or_le b 0 with hb | hb
    · obtain ⟨n, rfl⟩ : ∃ n : Nat, b = -n := ⟨b.natAbs, by omega⟩
      rw [Int.tmod_neg, Int.natAbs_neg, Int.natAbs_natCast]; rfl
    · obtain ⟨n, rfl⟩ : ∃ n : Nat, b = n := ⟨b.natAbs, by omega⟩
      rfl
  split
  · obtain ⟨m, rfl⟩ : ∃ m : Nat, a = -m := ⟨a.natAbs, by omega⟩
    rw [Int.neg_tmod, key, Int.natAbs_neg, Int.natAbs_natCast]
  · obtain ⟨m, rfl⟩ : ∃ m : Nat, a = m := ⟨a.natAbs, by omega⟩
    rw [key, Int.natAbs_natCast]

theorem u128_zero : u128 0#64 0#64 = 0 := rfl

/-- the two ways the code takes an absolute value -/
theorem abs_cases (al ah : BitVec 64) :
    (¬ ah.toInt < 0 ∧ 0 ≤ i128 al ah ∧ u128 al ah = (i128 al ah).natAbs) ∨
    (ah.toInt < 0 ∧ i128 al ah < 0 ∧ (2 ^ 128 - u128 al ah) % 2 ^ 128 = (i128 al ah).natAbs) := by
  have := i128_eq al ah; have := toInt_cases ah; have := u128_lt al ah; omega

theorem runs_div_int (al ah bl bh : BitVec 64) :
    Runs M (.std .div_int) (args4 al ah bl bh) g
      (if i128 bl bh = 0 then abort g 2
       else if i128 al ah = -2 ^ 127 ∧ i128 bl bh = -1 then abort g 0
       else .ret (encI ((i128 al ah).tdiv (i128 bl bh))) g) := by
  apply runs_std (by repeat' split
                     all_goals simp [abort])
  wpx [stdFunc, Std.div_int, Std.div_int_body, args4, wp_div_int128, sshr63_wrap, sshr63_xor,
    and_allOnes, is_min, u128_ofNat, u128_zero]
  have ea := i128_eq al ah; have eb := i128_eq bl bh
  have la := u128_lt al ah; have lb := u128_lt bl bh
  by_cases h0 : u128 al ah = 2 ^ 127 ∧ u128 bl bh = 2 ^ 128 - 1
  · rw [if_neg (by simpa using h0), if_neg (by omega), if_pos (by omega)]; rfl
  rw [if_pos h0]
  by_cases hb0 : i128 bl bh = 0
  · have hz : u128 bl bh = 0 := by omega
    rw [if_pos hb0, hz]
    have : ¬ bh.toInt < 0 := by have := toInt_cases bh; omega
    simp only [this, if_true, not_false_eq_true]
    split <;> rfl
  rw [if_neg hb0, if_neg (show ¬ (i128 al ah = -2 ^ 127 ∧ i128 bl bh = -1) by omega)]
  rw [tdiv_abs]
  have hlt : (i128 al ah).natAbs / (i128 bl bh).natAbs ≤ (i128 al ah).natAbs := Nat.div_le_self _ _
  rcases abs_cases al ah with ⟨sa, sa', ha⟩ | ⟨sa, sa', ha⟩ <;>
  rcases abs_cases bl bh with ⟨sb, sb', hb⟩ | ⟨sb, sb', hb⟩ <;>
  simp only [sa, sb, ha, hb, not_true_eq_false, not_false_eq_true, if_true, if_false, iff_self,
    iff_true, iff_false, true_iff, false_iff]
  · rw [if_neg (by omega), if_pos (by omega), encI_eq_encU (n := (i128 al ah).natAbs / (i128 bl bh).natAbs) rfl]
    rfl
  · rw [if_neg (by omega), if_neg (by omega),
      encI_eq_encU (n := 2 ^ 128 - (i128 al ah).natAbs / (i128 bl bh).natAbs % 2 ^ 128) (by omega)]
    rfl
  · rw [if_neg (by omega), if_neg (by omega),
      encI_eq_encU (n := 2 ^ 128 - (i128 al ah).natAbs / (i128 bl bh).natAbs % 2 ^ 128) (by omega)]
    rfl
  · rw [if_neg (by omega), if_pos (by omega), encI_eq_encU (n := (i128 al ah).natAbs / (i128 bl bh).natAbs) rfl]
    rfl

theorem runs_mod_int (al ah bl bh : BitVec 64) :
    Runs M (.std .mod_int) (args4 al ah bl bh) g
      (if i128 bl bh = 0 then abort g 2
       else .ret (encI ((i128 al ah).tmod (i128 bl bh))) g) := by
  apply runs_std (by split <;> simp [abort])
  wpx [stdFunc, Std.mod_int, Std.mod_int_body, args4, wp_div_int128, sshr63_wrap, sshr63_xor,
    u128_ofNat, u128_zero]
  have ea := i128_eq al ah; have eb := i128_eq bl bh
  have la := u128_lt al ah; have lb := u128_lt bl bh
  by_cases hb0 : i128 bl bh = 0
  · have hz : u128 bl bh = 0 := by omega
    rw [if_pos hb0, hz]
    have : ¬ bh.toInt < 0 := by have := toInt_cases bh; omega
    simp only [this, if_true, not_false_eq_true]
    split <;> rfl
  rw [if_neg hb0, tmod_abs]
  have hlt : (i128 al ah).natAbs % (i128 bl bh).natAbs ≤ (i128 al ah).natAbs := Nat.mod_le _ _
  rcases abs_cases al ah with ⟨sa, sa', ha⟩ | ⟨sa, sa', ha⟩ <;>
  rcases abs_cases bl bh with ⟨sb, sb', hb⟩ | ⟨sb, sb', hb⟩ <;>
  simp only [sa, sb, ha, hb, not_true_eq_false, not_false_eq_true, if_true, if_false, iff_self,
    iff_true, iff_false, true_iff, false_iff]
  · rw [if_neg (by omega), if_neg (by omega), encI_eq_encU (n := (i128 al ah).natAbs % (i128 bl bh).natAbs) rfl]
    rfl
  · rw [if_neg (by omega), if_neg (by omega), encI_eq_encU (n := (i128 al ah).natAbs % (i128 bl bh).natAbs) rfl]
    rfl
  · rw [if_neg (by omega), 
      encI_eq_encU (n := 2 ^ 128 - (i128 al ah).natAbs % (i128 bl bh).natAbs % 2 ^ 128) (by omega)]
    rfl
  · rw [if_neg (by omega), 
      encI_eq_encU (n := 2 ^ 128 - (i128 al ah).natAbs % (i128 bl bh).natAbs % 2 ^ 128) (by omega)]
    rfl

end Wasm
