import Verif.Wasm.Rules
import Verif.Spec.Int128

/-! Helper lemmas on the two-halves representation. -/

namespace Wasm
open Spec

/-- The uint denoted by two halves. -/
def u128 (lo hi : BitVec 64) : Nat := lo.toNat + 2 ^ 64 * hi.toNat
/-- The int denoted by two halves. -/
def i128 (lo hi : BitVec 64) : Int := lo.toNat + 2 ^ 64 * hi.toInt

theorem u128_lt (lo hi : BitVec 64) : u128 lo hi < 2 ^ 128 := by
  unfold u128; have := lo.isLt; have := hi.isLt; omega

theorem i128_isInt (lo hi : BitVec 64) : IsInt (i128 lo hi) := by
  unfold i128 IsInt
  have := lo.isLt; have := BitVec.toInt_lt (x := hi); have := BitVec.le_toInt (x := hi)
  simp only [Nat.add_one_sub_one] at *
  omega

theorem encU_u128 (lo hi : BitVec 64) : encU (u128 lo hi) = [.i64 lo, .i64 hi] := by
  have h1 := lo.isLt; have h2 := hi.isLt
  have e1 : BitVec.ofNat 64 (u128 lo hi) = lo := by
    apply BitVec.eq_of_toNat_eq; rw [BitVec.toNat_ofNat]; unfold u128; omega
  have e2 : BitVec.ofNat 64 (u128 lo hi / 2 ^ 64) = hi := by
    apply BitVec.eq_of_toNat_eq; rw [BitVec.toNat_ofNat]; unfold u128; omega
  unfold encU; rw [e1, e2]

theorem toInt_cases (x : BitVec 64) :
    (x.toInt = x.toNat ∧ x.toNat < 2 ^ 63) ∨ (x.toInt = x.toNat - 2 ^ 64 ∧ 2 ^ 63 ≤ x.toNat) := by
  have := x.isLt
  rw [BitVec.toInt_eq_toNat_cond]
  split <;> omega

theorem toInt_cases32 (x : BitVec 32) :
    (x.toInt = x.toNat ∧ x.toNat < 2 ^ 31) ∨ (x.toInt = x.toNat - 2 ^ 32 ∧ 2 ^ 31 ≤ x.toNat) := by
  have := x.isLt
  rw [BitVec.toInt_eq_toNat_cond]
  split <;> omega

theorem ofInt_toNat (z : Int) : ((BitVec.ofInt 64 z).toNat : Int) = z % 2 ^ 64 := by
  rw [BitVec.toNat_ofInt]; omega

theorem encI_i128 (lo hi : BitVec 64) : encI (i128 lo hi) = [.i64 lo, .i64 hi] := by
  have h1 := lo.isLt; have h2 := hi.isLt
  have h3 := toInt_cases hi
  have e1 : BitVec.ofInt 64 (i128 lo hi) = lo := by
    apply BitVec.eq_of_toNat_eq; have := ofInt_toNat (i128 lo hi); unfold i128 at *; omega
  have e2 : BitVec.ofInt 64 (i128 lo hi / 2 ^ 64) = hi := by
    apply BitVec.eq_of_toNat_eq; have := ofInt_toNat (i128 lo hi / 2 ^ 64); unfold i128 at *; omega
  unfold encI; rw [e1, e2]

/-- every uint is given by two halves -/
theorem exists_u128 {n : Nat} (h : IsUInt n) : ∃ lo hi, n = u128 lo hi := by
  refine ⟨BitVec.ofNat 64 n, BitVec.ofNat 64 (n / 2 ^ 64), ?_⟩
  unfold IsUInt at h
  simp only [u128, BitVec.toNat_ofNat]; omega

theorem exists_i128 {z : Int} (h : IsInt z) : ∃ lo hi, z = i128 lo hi := by
  refine ⟨BitVec.ofInt 64 z, BitVec.ofInt 64 (z / 2 ^ 64), ?_⟩
  unfold IsInt at h
  have h1 := ofInt_toNat z
  have h2 := ofInt_toNat (z / 2 ^ 64)
  have h3 := toInt_cases (BitVec.ofInt 64 (z / 2 ^ 64))
  unfold i128; omega

/-- the relation between the two readings -/
theorem i128_eq (lo hi : BitVec 64) :
    (i128 lo hi = u128 lo hi ∧ u128 lo hi < 2 ^ 127 ∧ hi.toNat < 2 ^ 63) ∨
    (i128 lo hi = u128 lo hi - 2 ^ 128 ∧ 2 ^ 127 ≤ u128 lo hi ∧ 2 ^ 63 ≤ hi.toNat) := by
  have := toInt_cases hi; have := lo.isLt; have := hi.isLt
  unfold i128 u128; omega

/-- two's complement: same bits, two readings -/
theorem encI_eq_encU {z : Int} {n : Nat} (h : z % 2 ^ 128 = n % 2 ^ 128) : encI z = encU n := by
  have e1 : BitVec.ofInt 64 z = BitVec.ofNat 64 n := by
    apply BitVec.eq_of_toNat_eq; have := ofInt_toNat z; rw [BitVec.toNat_ofNat]; omega
  have e2 : BitVec.ofInt 64 (z / 2 ^ 64) = BitVec.ofNat 64 (n / 2 ^ 64) := by
    apply BitVec.eq_of_toNat_eq; have := ofInt_toNat (z / 2 ^ 64); rw [BitVec.toNat_ofNat]; omega
  unfold encI encU; rw [e1, e2]

theorem encU_congr {m n : Nat} (h : m % 2 ^ 128 = n % 2 ^ 128) : encU m = encU n := by
  have e1 : BitVec.ofNat 64 m = BitVec.ofNat 64 n := by
    apply BitVec.eq_of_toNat_eq; rw [BitVec.toNat_ofNat, BitVec.toNat_ofNat]; omega
  have e2 : BitVec.ofNat 64 (m / 2 ^ 64) = BitVec.ofNat 64 (n / 2 ^ 64) := by
    apply BitVec.eq_of_toNat_eq; rw [BitVec.toNat_ofNat, BitVec.toNat_ofNat]; omega
  unfold encU; rw [e1, e2]

/-- halves of a known number -/
theorem halves_eq {lo hi : BitVec 64} {n : Nat} (h : u128 lo hi = n % 2 ^ 128) :
    [Val.i64 lo, .i64 hi] = encU n := by
  rw [← encU_u128]; apply encU_congr; rw [h]; omega

theorem u128_ofNat (n : Nat) :
    u128 (BitVec.ofNat 64 n) (BitVec.ofNat 64 (n / 2 ^ 64)) = n % 2 ^ 128 := by
  simp only [u128, BitVec.toNat_ofNat]; omega

theorem toNat_b32 (p : Prop) [Decidable p] : (b32 p).toNat = if p then 1 else 0 := by
  unfold b32; split <;> rfl

theorem toNat_b64 (p : Prop) [Decidable p] :
    ((b32 p).setWidth 64).toNat = if p then 1 else 0 := by
  unfold b32; split <;> rfl

theorem b32_congr {p q : Prop} [Decidable p] [Decidable q] (h : p ↔ q) : b32 p = b32 q := by
  unfold b32; simp only [h]

@[wps] theorem wp_runtime_error {σ} {M : Mod σ} {is stk loc} {g : Store σ} {Q} {c : BitVec 32} :
    WP M (.call (.std .runtime_error) :: is) (.i32 c :: stk) loc g Q ↔
      Q (.trap (g.set32 .errCode c)) := by
  have h : Runs M (.std .runtime_error) [.i32 c] g (.trap (g.set32 .errCode c)) := by
    apply runs_std (by simp)
    wpx [stdFunc, Std.runtime_error, Std.runtime_error_body]
  exact wp_call_runs (args := [.i32 c]) (stk := stk) (ps := [.i32]) (rs := []) rfl rfl h (by simp)

theorem or_zero {a b : BitVec 64} : a ||| b = 0#64 ↔ a = 0#64 ∧ b = 0#64 := by
  constructor
  · intro h
    have h' := congrArg BitVec.toNat h
    rw [BitVec.toNat_or] at h'
    have := Nat.or_eq_zero_iff.1 h'
    exact ⟨BitVec.eq_of_toNat_eq this.1, BitVec.eq_of_toNat_eq this.2⟩
  · rintro ⟨rfl, rfl⟩; rfl

theorem xor_zero {a b : BitVec 64} : a ^^^ b = 0#64 ↔ a = b := by
  constructor
  · intro h
    have : a ^^^ b ^^^ b = 0#64 ^^^ b := by rw [h]
    rwa [BitVec.xor_assoc, BitVec.xor_self, BitVec.xor_zero, BitVec.zero_xor] at this
  · rintro rfl; exact BitVec.xor_self

theorem is_zero {al ah : BitVec 64} : ah ||| al = 0#64 ↔ u128 al ah = 0 := by
  rw [or_zero, ← BitVec.toNat_inj, ← BitVec.toNat_inj]
  simp only [BitVec.toNat_ofNat, u128]; omega

theorem is_one {al ah : BitVec 64} : ah ||| al ^^^ 1#64 = 0#64 ↔ u128 al ah = 1 := by
  rw [or_zero, xor_zero, ← BitVec.toNat_inj, ← BitVec.toNat_inj]
  have := al.isLt
  simp only [BitVec.toNat_ofNat, u128]; omega

theorem abs_halves {al ah : BitVec 64} :
    u128 (if ¬ ah.toInt < 0 then al else 0#64 - al)
      (if ¬ ah.toInt < 0 then ah else 0#64 - (ah + BitVec.setWidth 64 (b32 (al ≠ 0#64)))) =
      (i128 al ah).natAbs := by
  have h1 := i128_eq al ah
  have h2 := toInt_cases ah
  have h3 := al.isLt
  have h4 := ah.isLt
  by_cases h : ah.toInt < 0
  · simp only [h, not_true_eq_false, if_false]
    unfold u128 at *
    simp only [BitVec.toNat_sub, BitVec.toNat_add, toNat_b64, BitVec.toNat_ofNat]
    have e : (al ≠ 0#64) ↔ al.toNat ≠ 0 := by rw [ne_eq, ← BitVec.toNat_inj]; rfl
    split <;> rename_i hz <;> rw [e] at hz <;> omega
  · simp only [h, not_false_eq_true, if_true]; omega

/-- negation of a number given by halves -/
theorem neg_halves (c : Prop) [Decidable c] (n : Nat) (h : n < 2 ^ 128) :
    [Val.i64 (if c then BitVec.ofNat 64 n else 0#64 - BitVec.ofNat 64 n),
     Val.i64 (if c then BitVec.ofNat 64 (n / 2 ^ 64)
       else 0#64 - (BitVec.ofNat 64 (n / 2 ^ 64) +
         BitVec.setWidth 64 (b32 (BitVec.ofNat 64 n ≠ 0#64))))] =
      encI (if c then (n : Int) else -n) := by
  by_cases hc : c
  · simp only [hc, if_true]; rw [encI_eq_encU (n := n) rfl]; rfl
  · simp only [hc, if_false]
    rw [halves_eq (n := 2 ^ 128 - n)]
    · exact (encI_eq_encU (by omega)).symm
    · unfold u128
      simp only [BitVec.toNat_sub, BitVec.toNat_add, toNat_b64, BitVec.toNat_ofNat]
      have e : (BitVec.ofNat 64 n ≠ 0#64) ↔ n % 2 ^ 64 ≠ 0 := by
        rw [ne_eq, ← BitVec.toNat_inj, BitVec.toNat_ofNat]; rfl
      split <;> rename_i hz <;> rw [e] at hz <;> omega

theorem b32_xor (p q : Prop) [Decidable p] [Decidable q] :
    (b32 p ^^^ b32 q = 0#32) ↔ (p ↔ q) := by
  by_cases hp : p <;> by_cases hq : q <;> simp [b32, hp, hq]

theorem toInt_neg_iff (al ah : BitVec 64) : ah.toInt < 0 ↔ i128 al ah < 0 := by
  have := i128_eq al ah; have := toInt_cases ah; have := u128_lt al ah; omega

theorem i128_one_iff (al ah : BitVec 64) : u128 al ah = 1 ↔ i128 al ah = 1 := by
  have := i128_eq al ah; have := u128_lt al ah; omega

end Wasm
