import Verif.Props.Arith
import Verif.Stdlib.Pow
import Verif.Stdlib.Sqrt

/-! C07-C10: log2, sqrti, pow, bitwise operators, shifts, conversions, for all Clarity integers. -/

namespace Props
open Wasm Spec
variable {σ : Type} (M : Wasm.Mod σ) (g : Store σ)

/-! ### C07 -/

/-- `log2` of a positive uint is the exponent of the largest power of two not above it. -/
theorem C07_log2_uint (a : Nat) (ha : IsUInt a) :
    (a = 0 → Runs M (.std .log2_uint) (encU a) g (abort g 3)) ∧
    (∀ k, 2 ^ k ≤ a → a < 2 ^ (k + 1) → Runs M (.std .log2_uint) (encU a) g (.ret (encU k) g)) ∧
    (a ≠ 0 → ∃ k, 2 ^ k ≤ a ∧ a < 2 ^ (k + 1)) := by
  obtain ⟨al, ah, rfl⟩ := exists_u128 ha
  have hr := runs_log2_uint (M := M) (g := g) al ah
  refine ⟨?_, ?_, ?_⟩
  · intro h; rw [encU_u128]; rwa [if_pos h] at hr
  · intro k h1 h2
    have := Nat.two_pow_pos k
    rw [encU_u128]; rwa [if_neg (by omega), log2_eq h1 h2] at hr
  · intro h; exact ⟨_, log2_bounds h⟩

theorem C07_log2_int (a : Int) (ha : IsInt a) :
    (a ≤ 0 → Runs M (.std .log2_int) (encI a) g (abort g 3)) ∧
    (∀ k : Nat, 2 ^ k ≤ a → a < 2 ^ (k + 1) →
      Runs M (.std .log2_int) (encI a) g (.ret (encI k) g)) := by
  obtain ⟨al, ah, rfl⟩ := exists_i128 ha
  have hr := runs_log2_int (M := M) (g := g) al ah
  refine ⟨?_, ?_⟩
  · intro h; rw [encI_i128]; rwa [if_pos h] at hr
  · intro k h1 h2
    have hp : (0 : Int) < 2 ^ k := by positivity
    rw [encI_i128]
    rw [if_neg (by omega)] at hr
    have e1 : 2 ^ k ≤ (i128 al ah).toNat := by
      have : ((2 ^ k : Nat) : Int) = 2 ^ k := by push_cast; rfl
      omega
    have e2 : (i128 al ah).toNat < 2 ^ (k + 1) := by
      have : ((2 ^ (k + 1) : Nat) : Int) = 2 ^ (k + 1) := by push_cast; rfl
      omega
    rw [log2_eq e1 e2, ← encI_eq_encU (z := (k : Int)) rfl] at hr
    exact hr

example : Runs M (.std .log2_int) (encI 1000) g (.ret (encI 9) g) :=
  (C07_log2_int M g 1000 (by decide)).2 9 (by decide) (by decide)

/-- `sqrti` returns the floor of the square root. -/
theorem C07_sqrti_uint (a s : Nat) (ha : IsUInt a) (h1 : s * s ≤ a) (h2 : a < (s + 1) * (s + 1)) :
    Runs M (.std .sqrti_uint) (encU a) g (.ret (encU s) g) := by
  obtain ⟨al, ah, rfl⟩ := exists_u128 ha
  rw [encU_u128]; exact sqrti_core al ah s h1 h2

theorem C07_sqrti_int (a : Int) (ha : IsInt a) :
    (a < 0 → Runs M (.std .sqrti_int) (encI a) g (abort g 4)) ∧
    (∀ s : Nat, (s : Int) * s ≤ a → a < (s + 1) * (s + 1) →
      Runs M (.std .sqrti_int) (encI a) g (.ret (encI s) g)) := by
  obtain ⟨al, ah, rfl⟩ := exists_i128 ha
  have hr := runs_sqrti_int (M := M) (g := g) al ah
  refine ⟨?_, ?_⟩
  · intro h; rw [encI_i128]; rwa [if_pos h] at hr
  · intro s h1 h2
    have h0 : 0 ≤ i128 al ah := Int.le_trans (Int.mul_nonneg (by omega) (by omega)) h1
    rw [if_neg (by omega)] at hr
    rw [encI_i128]
    have e : Nat.sqrt (i128 al ah).toNat = s := by
      symm; apply Nat.eq_sqrt.2
      have : ((i128 al ah).toNat : Int) = i128 al ah := by omega
      constructor
      · zify; rw [this]; exact h1
      · zify; rw [this]; exact h2
    rw [e, ← encI_eq_encU (z := (s : Int)) rfl] at hr
    exact hr

example : Runs M (.std .sqrti_uint) (encU (2 ^ 128 - 1)) g (.ret (encU (2 ^ 64 - 1)) g) :=
  C07_sqrti_uint M g _ _ (by decide) (by decide) (by decide)

/-! ### C08 -/

/-- Unsigned exponentiation: exact, or an abort with code 0 (overflow) or 8 (exponent too big). -/
theorem C08_pow_uint (a b : Nat) (ha : IsUInt a) (hb : IsUInt b) :
    (IsUInt (a ^ b) → Runs M (.std .pow_uint) (encU a ++ encU b) g (.ret (encU (a ^ b)) g)) ∧
    (¬ IsUInt (a ^ b) → Runs M (.std .pow_uint) (encU a ++ encU b) g
      (if 127 < b then abort g 8 else abort g 0)) := by
  obtain ⟨al, ah, rfl⟩ := exists_u128 ha
  obtain ⟨bl, bh, rfl⟩ := exists_u128 hb
  have hr := runs_pow_uint (M := M) (g := g) al ah bl bh
  rw [args_u]
  unfold IsUInt
  exact ⟨fun h => by rwa [if_pos h] at hr, fun h => by rwa [if_neg h] at hr⟩

/-- Signed exponentiation, except for base -1 with an exponent above 127 (excluded by `hx`, see
`C08_pow_int_counterexample`). A negative exponent aborts unless the base is 0 or 1. -/
theorem C08_pow_int_partial (a b : Int) (ha : IsInt a) (hb : IsInt b) (hx : ¬ (a = -1 ∧ 127 < b)) :
    (0 ≤ b → IsInt (a ^ b.toNat) →
      Runs M (.std .pow_int) (encI a ++ encI b) g (.ret (encI (a ^ b.toNat)) g)) ∧
    (0 ≤ b → ¬ IsInt (a ^ b.toNat) → ∃ code, (code = 0 ∨ code = 8) ∧
      Runs M (.std .pow_int) (encI a ++ encI b) g (abort g code)) ∧
    (b < 0 → a ≠ 0 → a ≠ 1 → Runs M (.std .pow_int) (encI a ++ encI b) g (abort g 8)) := by
  obtain ⟨al, ah, rfl⟩ := exists_i128 ha
  obtain ⟨bl, bh, rfl⟩ := exists_i128 hb
  have hr := runs_pow_int (M := M) (g := g) al ah bl bh
  rw [args_i]
  generalize i128 al ah = a at *
  generalize i128 bl bh = b at *
  have big : 0 ≤ b → ¬ (a = 0 ∨ a = 1) → (if a < 0 then (127 : Int) else 126) < b →
      ¬ IsInt (a ^ b.toNat) := by
    intro h0 h1 h2 h3
    unfold IsInt at h3
    have hna : 2 ≤ a.natAbs := by split at h2 <;> omega
    have h4 : (if a < 0 then 128 else 127) ≤ b.toNat := by
      split at h2 <;> simp_all <;> omega
    have h5 : 2 ^ b.toNat ≤ (a ^ b.toNat).natAbs := by
      rw [Int.natAbs_pow]; exact Nat.pow_le_pow_left hna _
    by_cases hneg : a < 0
    · rw [if_pos hneg] at h4
      have := Nat.le_trans (Nat.pow_le_pow_right (by decide : 0 < 2) h4) h5
      omega
    · rw [if_neg hneg] at h4
      have h6 := Nat.le_trans (Nat.pow_le_pow_right (by decide : 0 < 2) h4) h5
      have := pow_nonneg (Int.not_lt.1 hneg) b.toNat
      omega
  refine ⟨?_, ?_, ?_⟩
  · intro h0 hi
    by_cases h1 : b = 0
    · rw [if_pos h1] at hr; rw [h1]; simpa using hr
    rw [if_neg h1] at hr
    by_cases h2 : a = 0 ∨ a = 1 ∨ b = 1
    · rw [if_pos h2] at hr
      have e : a ^ b.toNat = a := by
        rcases h2 with rfl | rfl | rfl
        · exact zero_pow (by omega)
        · exact one_pow _
        · simp
      rw [e]; exact hr
    rw [if_neg h2, if_neg (by
      rintro (h3 | h3)
      · omega
      · exact big h0 (by omega) h3 hi), if_pos hi] at hr
    exact hr
  · intro h0 hi
    have h1 : b ≠ 0 := by rintro rfl; apply hi; simp; decide
    have h2 : ¬ (a = 0 ∨ a = 1 ∨ b = 1) := by
      rintro (rfl | rfl | rfl)
      · apply hi; rw [zero_pow (by omega)]; decide
      · apply hi; rw [one_pow]; decide
      · apply hi; simpa using ha
    rw [if_neg h1, if_neg h2] at hr
    by_cases h3 : b < 0 ∨ (if a < 0 then 127 else 126) < b
    · rw [if_pos h3] at hr; exact ⟨8, .inr rfl, hr⟩
    · rw [if_neg h3, if_neg hi] at hr; exact ⟨0, .inl rfl, hr⟩
  · intro h0 h1 h2
    rwa [if_neg (by omega), if_neg (by omega), if_pos (by omega)] at hr

/-- The defect: `(pow -1 128)` is 1 but is rejected. -/
theorem C08_pow_int_counterexample :
    IsInt ((-1) ^ 128) ∧ Runs M (.std .pow_int) (encI (-1) ++ encI 128) g (abort g 8) := by
  refine ⟨by decide, ?_⟩
  have hr := runs_pow_int (M := M) (g := g) (-1#64) (-1#64) 128#64 0#64
  rw [if_neg (by decide), if_neg (by decide), if_pos (by decide)] at hr
  exact hr

example : Runs M (.std .pow_int) (encI (-2) ++ encI 127) g (.ret (encI (-2 ^ 127)) g) := by
  have h := (C08_pow_int_partial M g (-2) 127 (by decide) (by decide) (by decide)).1 (by decide)
    (by decide)
  exact h
example : Runs M (.std .pow_uint) (encU 3 ++ encU 81) g (abort g 0) := by
  have h := (C08_pow_uint M g 3 81 (by decide) (by decide)).2 (by decide)
  exact h

/-! ### C09 -/

theorem ibit_i128 (lo hi : BitVec 64) (i : Nat) (h : i < 128) :
    ibit (i128 lo hi) i = (u128 lo hi).testBit i := by
  have hu : ∀ n : Nat, ibit (n : Int) i = n.testBit i := by
    intro n
    unfold ibit
    rw [Nat.testBit_eq_decide_div_mod_eq, decide_eq_decide]
    zify
  rcases i128_eq lo hi with ⟨e, _⟩ | ⟨e, _⟩
  · rw [e, hu]
  · rw [e, ← hu]
    unfold ibit
    have h2 : (2 : Int) ^ 128 = 2 ^ i * (2 * 2 ^ (127 - i)) := by
      rw [show (2 : Int) ^ i * (2 * 2 ^ (127 - i)) = 2 ^ (i + 1 + (127 - i)) by ring]
      congr 1; omega
    rw [h2, Int.sub_mul_ediv_left _ _ (by positivity), decide_eq_decide]
    omega

/-- Bitwise operators on ints act on every bit of the two's complement representation. -/
theorem C09_bitwise_int (a b : Int) (ha : IsInt a) (hb : IsInt b) :
    (∃ r, IsInt r ∧ (∀ i < 128, ibit r i = (ibit a i && ibit b i)) ∧
      Runs M (.std .bit_and) (encI a ++ encI b) g (.ret (encI r) g)) ∧
    (∃ r, IsInt r ∧ (∀ i < 128, ibit r i = (ibit a i || ibit b i)) ∧
      Runs M (.std .bit_or) (encI a ++ encI b) g (.ret (encI r) g)) ∧
    (∃ r, IsInt r ∧ (∀ i < 128, ibit r i = (ibit a i ^^ ibit b i)) ∧
      Runs M (.std .bit_xor) (encI a ++ encI b) g (.ret (encI r) g)) ∧
    (∃ r, IsInt r ∧ (∀ i < 128, ibit r i = !ibit a i) ∧
      Runs M (.std .bit_not) (encI a) g (.ret (encI r) g)) := by
  obtain ⟨al, ah, rfl⟩ := exists_i128 ha
  obtain ⟨bl, bh, rfl⟩ := exists_i128 hb
  rw [args_i]
  refine ⟨⟨i128 (al &&& bl) (ah &&& bh), i128_isInt .., ?_, ?_⟩,
    ⟨i128 (al ||| bl) (ah ||| bh), i128_isInt .., ?_, ?_⟩,
    ⟨i128 (al ^^^ bl) (ah ^^^ bh), i128_isInt .., ?_, ?_⟩,
    ⟨i128 (al ^^^ 18446744073709551615#64) (ah ^^^ 18446744073709551615#64), i128_isInt .., ?_, ?_⟩⟩
  · intro i hi; rw [ibit_i128 _ _ _ hi, ibit_i128 _ _ _ hi, ibit_i128 _ _ _ hi, u128_and, Nat.testBit_and]
  · have h := runs_bit_and (M := M) (g := g) al ah bl bh
    rwa [← u128_and, encU_u128, ← encI_i128] at h
  · intro i hi; rw [ibit_i128 _ _ _ hi, ibit_i128 _ _ _ hi, ibit_i128 _ _ _ hi, u128_or, Nat.testBit_or]
  · have h := runs_bit_or (M := M) (g := g) al ah bl bh
    rwa [← u128_or, encU_u128, ← encI_i128] at h
  · intro i hi; rw [ibit_i128 _ _ _ hi, ibit_i128 _ _ _ hi, ibit_i128 _ _ _ hi, u128_xor, Nat.testBit_xor]
  · have h := runs_bit_xor (M := M) (g := g) al ah bl bh
    rwa [← u128_xor, encU_u128, ← encI_i128] at h
  · intro i hi
    rw [ibit_i128 _ _ _ hi, ibit_i128 _ _ _ hi, u128_not,
      show 2 ^ 128 - 1 - u128 al ah = 2 ^ 128 - (u128 al ah + 1) by omega,
      Nat.testBit_two_pow_sub_succ (u128_lt al ah)]
    simp [hi]
  · have h := runs_bit_not (M := M) (g := g) al ah
    rwa [← u128_not, encU_u128, ← encI_i128, ← encI_i128] at h

/-- Bitwise operators on uints. -/
theorem C09_bitwise_uint (a b : Nat) (ha : IsUInt a) (hb : IsUInt b) :
    (∃ r, IsUInt r ∧ (∀ i < 128, r.testBit i = (a.testBit i && b.testBit i)) ∧
      Runs M (.std .bit_and) (encU a ++ encU b) g (.ret (encU r) g)) ∧
    (∃ r, IsUInt r ∧ (∀ i < 128, r.testBit i = (a.testBit i || b.testBit i)) ∧
      Runs M (.std .bit_or) (encU a ++ encU b) g (.ret (encU r) g)) ∧
    (∃ r, IsUInt r ∧ (∀ i < 128, r.testBit i = (a.testBit i ^^ b.testBit i)) ∧
      Runs M (.std .bit_xor) (encU a ++ encU b) g (.ret (encU r) g)) ∧
    (∃ r, IsUInt r ∧ (∀ i < 128, r.testBit i = !a.testBit i) ∧
      Runs M (.std .bit_not) (encU a) g (.ret (encU r) g)) := by
  obtain ⟨al, ah, rfl⟩ := exists_u128 ha
  obtain ⟨bl, bh, rfl⟩ := exists_u128 hb
  rw [args_u]
  refine ⟨⟨_, ?_, ?_, runs_bit_and ..⟩, ⟨_, ?_, ?_, runs_bit_or ..⟩, ⟨_, ?_, ?_, runs_bit_xor ..⟩,
    ⟨2 ^ 128 - 1 - u128 al ah, ?_, ?_, ?_⟩⟩
  · rw [← u128_and]; exact u128_lt ..
  · intro i _; exact Nat.testBit_and ..
  · rw [← u128_or]; exact u128_lt ..
  · intro i _; exact Nat.testBit_or ..
  · rw [← u128_xor]; exact u128_lt ..
  · intro i _; exact Nat.testBit_xor ..
  · unfold IsUInt; omega
  · intro i hi
    rw [show 2 ^ 128 - 1 - u128 al ah = 2 ^ 128 - (u128 al ah + 1) by omega,
      Nat.testBit_two_pow_sub_succ (u128_lt al ah)]
    simp [hi]
  · rw [encU_u128]; exact runs_bit_not ..

/-- Shifts: by the amount modulo 128; left shifts drop the bits that fall off, right shifts are
floor division by a power of two (so they copy the sign bit of an int). -/
theorem C09_shifts (a b : Nat) (z : Int) (ha : IsUInt a) (hb : IsUInt b) (hz : IsInt z) :
    Runs M (.std .bit_shift_left) (encU a ++ encU b) g
      (.ret (encU (a * 2 ^ (b % 128) % 2 ^ 128)) g) ∧
    Runs M (.std .bit_shift_left) (encI z ++ encU b) g
      (.ret (encI (wrapI (z * 2 ^ (b % 128)))) g) ∧
    Runs M (.std .bit_shift_right_uint) (encU a ++ encU b) g (.ret (encU (a / 2 ^ (b % 128))) g) ∧
    Runs M (.std .bit_shift_right_int) (encI z ++ encU b) g (.ret (encI (z / 2 ^ (b % 128))) g) := by
  obtain ⟨al, ah, rfl⟩ := exists_u128 ha
  obtain ⟨bl, bh, rfl⟩ := exists_u128 hb
  obtain ⟨zl, zh, rfl⟩ := exists_i128 hz
  rw [args_u, show encI (i128 zl zh) ++ encU (u128 bl bh) = args4 zl zh bl bh by
    rw [encI_i128, encU_u128]; rfl]
  refine ⟨?_, ?_, runs_bit_shift_right_uint .., runs_bit_shift_right_int ..⟩
  · rw [encU_congr (n := u128 al ah * 2 ^ (u128 bl bh % 128)) (by rw [Nat.mod_mod])]
    exact runs_bit_shift_left ..
  · have h := runs_bit_shift_left (M := M) (g := g) zl zh bl bh
    rwa [← encI_eq_encU (z := wrapI (i128 zl zh * 2 ^ (u128 bl bh % 128)))] at h
    generalize u128 bl bh % 128 = s
    have e : wrapI (i128 zl zh * 2 ^ s) % 2 ^ 128 = (i128 zl zh * 2 ^ s) % 2 ^ 128 := by
      unfold wrapI; omega
    rw [e, Nat.cast_mul, show (((2 ^ s : Nat)) : Int) = 2 ^ s by push_cast; rfl]
    have e2 : i128 zl zh % 2 ^ 128 = (u128 zl zh : Int) % 2 ^ 128 := by
      have := i128_eq zl zh; omega
    rw [Int.mul_emod, e2, ← Int.mul_emod]

example : Runs M (.std .bit_shift_right_int) (encI (-5) ++ encU 129) g (.ret (encI (-3)) g) :=
  (C09_shifts M g 0 129 (-5) (by decide) (by decide) (by decide)).2.2.2

/-! ### C10 -/

theorem C10_to_uint (z : Int) (hz : IsInt z) :
    Runs M (.std .to_uint) (encI z) g (if 0 ≤ z then .ret (encU z.toNat) g else abort g 1) := by
  obtain ⟨al, ah, rfl⟩ := exists_i128 hz
  have h := runs_to_uint (M := M) (g := g) al ah
  rw [encI_i128]
  by_cases h0 : 0 ≤ i128 al ah
  · rw [if_pos h0]; rwa [if_neg (by omega)] at h
  · rw [if_neg h0]; rwa [if_pos (by omega)] at h

theorem C10_to_int (n : Nat) (hn : IsUInt n) :
    Runs M (.std .to_int) (encU n) g (if n < 2 ^ 127 then .ret (encI n) g else abort g 0) := by
  obtain ⟨al, ah, rfl⟩ := exists_u128 hn
  rw [encU_u128]; exact runs_to_int ..

example : Runs M (.std .to_uint) (encI 7) g (.ret (encU 7) g) := C10_to_uint M g 7 (by decide)
example : Runs M (.std .to_int) (encU (2 ^ 127)) g (abort g 0) := C10_to_int M g (2 ^ 127) (by decide)

end Props
