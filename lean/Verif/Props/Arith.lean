import Verif.Stdlib.Div

/-!
C01-C05: the arithmetic and comparison functions of the runtime library, stated for all Clarity
integers. `M` is any module (any contract linked with the library, any host), `g` any store.
`Runs M f args g r` says that calling `f` on `args` in `g` terminates with outcome `r`; the store
in `r` is the complete resulting store, so the theorems include "nothing else changes".
-/

namespace Props
open Wasm Spec
variable {σ : Type} (M : Wasm.Mod σ) (g : Store σ)

theorem args_u (al ah bl bh : BitVec 64) :
    encU (u128 al ah) ++ encU (u128 bl bh) = args4 al ah bl bh := by
  rw [encU_u128, encU_u128]; rfl

theorem args_i (al ah bl bh : BitVec 64) :
    encI (i128 al ah) ++ encI (i128 bl bh) = args4 al ah bl bh := by
  rw [encI_i128, encI_i128]; rfl

/-! ### C01 -/

theorem C01_add_uint (a b : Nat) (ha : IsUInt a) (hb : IsUInt b) :
    Runs M (.std .add_uint) (encU a ++ encU b) g
      (if IsUInt (a + b) then .ret (encU (a + b)) g else abort g 0) := by
  obtain ⟨al, ah, rfl⟩ := exists_u128 ha
  obtain ⟨bl, bh, rfl⟩ := exists_u128 hb
  rw [args_u]; exact runs_add_uint ..

theorem C01_add_int (a b : Int) (ha : IsInt a) (hb : IsInt b) :
    Runs M (.std .add_int) (encI a ++ encI b) g
      (if IsInt (a + b) then .ret (encI (a + b)) g else abort g 0) := by
  obtain ⟨al, ah, rfl⟩ := exists_i128 ha
  obtain ⟨bl, bh, rfl⟩ := exists_i128 hb
  rw [args_i]; exact runs_add_int ..

example : Runs M (.std .add_int) (encI (-5) ++ encI 3) g (.ret (encI (-2)) g) := by
  have h := C01_add_int M g (-5) 3 (by decide) (by decide)
  rwa [if_pos (by decide)] at h
example : Runs M (.std .add_uint) (encU (2 ^ 128 - 1) ++ encU 1) g (abort g 0) := by
  have h := C01_add_uint M g (2 ^ 128 - 1) 1 (by decide) (by decide)
  rwa [if_neg (by decide)] at h

/-! ### C02 -/

theorem C02_sub_int (a b : Int) (ha : IsInt a) (hb : IsInt b) :
    Runs M (.std .sub_int) (encI a ++ encI b) g
      (if IsInt (a - b) then .ret (encI (a - b)) g else abort g 1) := by
  obtain ⟨al, ah, rfl⟩ := exists_i128 ha
  obtain ⟨bl, bh, rfl⟩ := exists_i128 hb
  rw [args_i]; exact runs_sub_int ..

/-- Unsigned subtraction is right for every subtrahend below `2^128 - 2^64`, and for every
representable difference. The full statement (without `h`) is false: `C02_sub_uint_counterexample`. -/
theorem C02_sub_uint_partial (a b : Nat) (ha : IsUInt a) (hb : IsUInt b)
    (h : b < 2 ^ 128 - 2 ^ 64 ∨ b ≤ a) :
    Runs M (.std .sub_uint) (encU a ++ encU b) g
      (if b ≤ a then .ret (encU (a - b)) g else abort g 1) := by
  obtain ⟨al, ah, rfl⟩ := exists_u128 ha
  obtain ⟨bl, bh, rfl⟩ := exists_u128 hb
  rw [args_u]
  have hr := runs_sub_uint (M := M) (g := g) al ah bl bh
  have h3 : bh.toNat = 2 ^ 64 - 1 → 2 ^ 128 - 2 ^ 64 ≤ u128 bl bh := by
    intro e; unfold u128; omega
  by_cases hle : u128 bl bh ≤ u128 al ah
  · rw [if_pos (Or.inl hle)] at hr
    rw [if_pos hle, encU_congr (n := u128 al ah + 2 ^ 128 - u128 bl bh) (by omega)]
    exact hr
  · rw [if_neg (by omega)] at hr; rw [if_neg hle]; exact hr

/-- The defect: `u0 - u(2^128-1)` is answered with `u1` instead of an underflow. -/
theorem C02_sub_uint_counterexample :
    Runs M (.std .sub_uint) (encU 0 ++ encU (2 ^ 128 - 1)) g (.ret (encU 1) g) := by
  have hr := runs_sub_uint (M := M) (g := g) 0#64 0#64 (-1#64) (-1#64)
  rw [if_pos (by decide)] at hr
  exact hr

example : Runs M (.std .sub_uint) (encU 3 ++ encU (2 ^ 64)) g (abort g 1) := by
  have h := C02_sub_uint_partial M g 3 (2 ^ 64) (by decide) (by decide) (by decide)
  rwa [if_neg (by decide)] at h
example : Runs M (.std .sub_int) (encI (-2 ^ 127) ++ encI 1) g (abort g 1) := by
  have h := C02_sub_int M g (-2 ^ 127) 1 (by decide) (by decide)
  rwa [if_neg (by decide)] at h

/-! ### C03 -/

theorem C03_mul_uint (a b : Nat) (ha : IsUInt a) (hb : IsUInt b) :
    Runs M (.std .mul_uint) (encU a ++ encU b) g
      (if IsUInt (a * b) then .ret (encU (a * b)) g else abort g 0) := by
  obtain ⟨al, ah, rfl⟩ := exists_u128 ha
  obtain ⟨bl, bh, rfl⟩ := exists_u128 hb
  rw [args_u]; exact runs_mul_uint ..

/-- Signed multiplication is right unless the product is exactly `-2^127` with neither operand
equal to 1. The full statement (without `h`) is false: `C03_mul_int_counterexample`. -/
theorem C03_mul_int_partial (a b : Int) (ha : IsInt a) (hb : IsInt b)
    (h : a * b ≠ -2 ^ 127 ∨ a = 1 ∨ b = 1) :
    Runs M (.std .mul_int) (encI a ++ encI b) g
      (if IsInt (a * b) then .ret (encI (a * b)) g else abort g 0) := by
  obtain ⟨al, ah, rfl⟩ := exists_i128 ha
  obtain ⟨bl, bh, rfl⟩ := exists_i128 hb
  rw [args_i]
  have hr := runs_mul_int (M := M) (g := g) al ah bl bh
  generalize i128 al ah = a at *
  generalize i128 bl bh = b at *
  by_cases h1 : a = 1
  · subst h1; rw [Int.one_mul, if_pos hb]; rwa [if_pos rfl] at hr
  rw [if_neg h1] at hr
  by_cases h2 : b = 1
  · subst h2; rw [Int.mul_one, if_pos ha]; rwa [if_pos rfl] at hr
  rw [if_neg h2, ← Int.natAbs_mul] at hr
  have hne : a * b ≠ -2 ^ 127 := by rcases h with h | h | h <;> [exact h; exact absurd h h1; exact absurd h h2]
  generalize a * b = p at *
  by_cases hp : IsInt p
  · rw [if_pos hp]; unfold IsInt at hp; rwa [if_pos (by omega)] at hr
  · rw [if_neg hp]; unfold IsInt at hp; rwa [if_neg (by omega)] at hr

/-- The defect: a product equal to the smallest int is reported as an overflow. -/
theorem C03_mul_int_counterexample :
    IsInt (-2 ^ 126 * 2) ∧
    Runs M (.std .mul_int) (encI (-2 ^ 126) ++ encI 2) g (abort g 0) := by
  refine ⟨by decide, ?_⟩
  have hr := runs_mul_int (M := M) (g := g) 0#64 (BitVec.ofInt 64 (-2 ^ 62)) 2#64 0#64
  rw [if_neg (by decide), if_neg (by decide), if_neg (by decide)] at hr
  exact hr

example : Runs M (.std .mul_int) (encI (-7) ++ encI (2 ^ 100)) g (.ret (encI (-7 * 2 ^ 100)) g) := by
  have h := C03_mul_int_partial M g (-7) (2 ^ 100) (by decide) (by decide) (by decide)
  rwa [if_pos (by decide)] at h
example : Runs M (.std .mul_uint) (encU (2 ^ 64) ++ encU (2 ^ 64)) g (abort g 0) := by
  have h := C03_mul_uint M g (2 ^ 64) (2 ^ 64) (by decide) (by decide)
  rwa [if_neg (by decide)] at h

/-! ### C04 -/

theorem C04_div_uint (a b : Nat) (ha : IsUInt a) (hb : IsUInt b) :
    Runs M (.std .div_uint) (encU a ++ encU b) g
      (if b = 0 then abort g 2 else .ret (encU (a / b)) g) := by
  obtain ⟨al, ah, rfl⟩ := exists_u128 ha
  obtain ⟨bl, bh, rfl⟩ := exists_u128 hb
  rw [args_u]; exact runs_div_uint ..

theorem C04_mod_uint (a b : Nat) (ha : IsUInt a) (hb : IsUInt b) :
    Runs M (.std .mod_uint) (encU a ++ encU b) g
      (if b = 0 then abort g 2 else .ret (encU (a % b)) g) := by
  obtain ⟨al, ah, rfl⟩ := exists_u128 ha
  obtain ⟨bl, bh, rfl⟩ := exists_u128 hb
  rw [args_u]; exact runs_mod_uint ..

/-- Signed division truncates towards zero (`Int.tdiv`); the only unrepresentable quotient
overflows. -/
theorem C04_div_int (a b : Int) (ha : IsInt a) (hb : IsInt b) :
    Runs M (.std .div_int) (encI a ++ encI b) g
      (if b = 0 then abort g 2
       else if IsInt (a.tdiv b) then .ret (encI (a.tdiv b)) g else abort g 0) := by
  obtain ⟨al, ah, rfl⟩ := exists_i128 ha
  obtain ⟨bl, bh, rfl⟩ := exists_i128 hb
  rw [args_i]
  have hr := runs_div_int (M := M) (g := g) al ah bl bh
  generalize i128 al ah = a at *
  generalize i128 bl bh = b at *
  by_cases h0 : b = 0
  · rwa [if_pos h0] at hr ⊢
  rw [if_neg h0] at hr ⊢
  by_cases hm : a = -2 ^ 127 ∧ b = -1
  · obtain ⟨rfl, rfl⟩ := hm
    rw [if_pos (by decide)] at hr
    rwa [if_neg (by decide)]
  · rw [if_neg hm] at hr
    rwa [if_pos]
    have hd := tdiv_abs a b
    have hle : a.natAbs / b.natAbs ≤ a.natAbs := Nat.div_le_self _ _
    unfold IsInt at *
    by_cases hs : a < 0 ↔ b < 0
    · rw [if_pos hs] at hd
      by_cases hb1 : b = -1
      · subst hb1
        rw [show (-1 : Int).natAbs = 1 from rfl, Nat.div_one] at hd
        omega
      · by_cases ha1 : a = -2 ^ 127
        · have : a.natAbs / b.natAbs < a.natAbs := Nat.div_lt_self (by omega) (by omega)
          generalize a.natAbs / b.natAbs = q at *
          omega
        · generalize a.natAbs / b.natAbs = q at *
          omega
    · rw [if_neg hs] at hd
      generalize a.natAbs / b.natAbs = q at *
      omega

/-- Signed remainder has the sign of the dividend (`Int.tmod`). -/
theorem C04_mod_int (a b : Int) (ha : IsInt a) (hb : IsInt b) :
    Runs M (.std .mod_int) (encI a ++ encI b) g
      (if b = 0 then abort g 2 else .ret (encI (a.tmod b)) g) := by
  obtain ⟨al, ah, rfl⟩ := exists_i128 ha
  obtain ⟨bl, bh, rfl⟩ := exists_i128 hb
  rw [args_i]; exact runs_mod_int ..

example : Runs M (.std .div_int) (encI (-7) ++ encI 2) g (.ret (encI (-3)) g) := by
  have h := C04_div_int M g (-7) 2 (by decide) (by decide)
  rwa [if_neg (by decide), if_pos (by decide)] at h
example : Runs M (.std .mod_int) (encI (-7) ++ encI 2) g (.ret (encI (-1)) g) := by
  have h := C04_mod_int M g (-7) 2 (by decide) (by decide)
  rwa [if_neg (by decide)] at h
example : Runs M (.std .div_int) (encI (-2 ^ 127) ++ encI (-1)) g (abort g 0) := by
  have h := C04_div_int M g (-2 ^ 127) (-1) (by decide) (by decide)
  rwa [if_neg (by decide), if_neg (by decide)] at h

/-! ### C05 -/

theorem b32_encB (p : Prop) [Decidable p] : [Val.i32 (b32 p)] = encB (decide p) := by
  unfold b32 encB; by_cases h : p <;> simp [h]

theorem C05_compare_uint (a b : Nat) (ha : IsUInt a) (hb : IsUInt b) :
    Runs M (.std .lt_uint) (encU a ++ encU b) g (.ret (encB (a < b)) g) ∧
    Runs M (.std .gt_uint) (encU a ++ encU b) g (.ret (encB (b < a)) g) ∧
    Runs M (.std .le_uint) (encU a ++ encU b) g (.ret (encB (a ≤ b)) g) ∧
    Runs M (.std .ge_uint) (encU a ++ encU b) g (.ret (encB (b ≤ a)) g) := by
  obtain ⟨al, ah, rfl⟩ := exists_u128 ha
  obtain ⟨bl, bh, rfl⟩ := exists_u128 hb
  simp only [args_u, ← b32_encB]
  exact ⟨runs_lt_uint .., runs_gt_uint .., runs_le_uint .., runs_ge_uint ..⟩

theorem C05_compare_int (a b : Int) (ha : IsInt a) (hb : IsInt b) :
    Runs M (.std .lt_int) (encI a ++ encI b) g (.ret (encB (a < b)) g) ∧
    Runs M (.std .gt_int) (encI a ++ encI b) g (.ret (encB (b < a)) g) ∧
    Runs M (.std .le_int) (encI a ++ encI b) g (.ret (encB (a ≤ b)) g) ∧
    Runs M (.std .ge_int) (encI a ++ encI b) g (.ret (encB (b ≤ a)) g) := by
  obtain ⟨al, ah, rfl⟩ := exists_i128 ha
  obtain ⟨bl, bh, rfl⟩ := exists_i128 hb
  simp only [args_i, ← b32_encB]
  exact ⟨runs_lt_int .., runs_gt_int .., runs_le_int .., runs_ge_int ..⟩

example : Runs M (.std .lt_int) (encI (-1) ++ encI 0) g (.ret (encB true) g) :=
  (C05_compare_int M g (-1) 0 (by decide) (by decide)).1

end Props
