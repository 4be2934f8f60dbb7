import Verif.Spec.Cost

/-! Running the emitted cost-charging code. -/

namespace Gen
open Wasm Spec
variable {σ : Type} {M : Wasm.Mod σ} {stk loc : List Val} {g : Store σ} {Q : Res σ → Prop}

theorem wp_scalarGet {s : Scalar} {n : Nat} (h : ScalarIs loc s n) (hn : n < 2 ^ 32)
    {is : List Instr} :
    WP M (scalarGet s ++ is) stk loc g Q ↔ WP M is (.i64 (BitVec.ofNat 64 n) :: stk) loc g Q := by
  cases s with
  | compile c => subst h; simp only [scalarGet]; wpx
  | run l =>
    have hl : l < loc.length := by
      rw [ScalarIs] at h
      rcases Nat.lt_or_ge l loc.length with h1 | h1
      · exact h1
      · rw [List.getElem?_eq_none h1] at h; simp at h
    have h2 : nth loc l = .i32 (BitVec.ofNat 32 n) := by
      have := nth_of_lt hl
      rw [ScalarIs] at h
      rw [h] at this; simpa using this.symm
    simp only [scalarGet, List.cons_append, List.nil_append]
    rw [wp_localGet hl, h2]
    wpx
    rw [show (BitVec.ofNat 32 n).setWidth 64 = BitVec.ofNat 64 n from ?_]
    apply BitVec.eq_of_toNat_eq
    simp only [BitVec.toNat_setWidth, BitVec.toNat_ofNat]; omega

theorem wp_subCheck {x : G64} {err : Nat} {B C : BitVec 64} {is : List Instr}
    (hB : B.toNat < 2 ^ 63) (hC : C.toNat < 2 ^ 63) :
    WP M (subCheck x err ++ is) (.i64 C :: .i64 B :: stk) loc g Q ↔
      if C.toNat ≤ B.toNat then WP M is stk loc (g.set64 x (B - C)) Q
      else Q (.trap ((g.set64 x (B - C)).failed err)) := by
  simp only [subCheck, List.cons_append, List.nil_append]
  wpx [Store.failed]
  have e : (g.set64 x (B - C)).g64 x = B - C := by simp [Store.set64]
  rw [e]
  have h0 : (0#64).toInt = 0 := by decide
  have hs : (B - C).toInt = (B.toNat : Int) - C.toNat := by
    rw [BitVec.toInt_sub, BitVec.toInt_eq_toNat_of_lt (by omega), BitVec.toInt_eq_toNat_of_lt (by omega)]
    rw [Int.bmod_def]; omega
  by_cases h : C.toNat ≤ B.toNat
  · rw [if_pos h, if_pos (by rw [hs]; omega)]
  · rw [if_neg h, if_neg (by rw [hs]; omega)]

/-- Store after charging `C` to dimension `x`. -/
def charged (g : Store σ) (x : G64) (C : Nat) : Store σ :=
  g.set64 x (g.g64 x - BitVec.ofNat 64 C)

theorem clz_log2 {n : Nat} (h : 0 < n) (hn : n < 2 ^ 32) :
    63#64 - clz (BitVec.ofNat 64 n) = BitVec.ofNat 64 (Nat.log2 n) := by
  have h1 : (BitVec.ofNat 64 n).toNat = n := by simp only [BitVec.toNat_ofNat]; omega
  have h2 : Nat.log2 n < 32 := (Nat.log2_lt (by omega)).2 hn
  unfold clz
  rw [h1, if_neg (by omega)]
  apply BitVec.eq_of_toNat_eq
  simp only [BitVec.toNat_sub, BitVec.toNat_ofNat]; omega

theorem charged_zero : charged g x 0 = g := by
  simp only [charged, Store.set64]
  have : ∀ y, (if y = x then g.g64 x - BitVec.ofNat 64 0 else g.g64 y) = g.g64 y := by
    intro y; split <;> simp_all
  simp only [this]

theorem wp_caf {x : G64} {err : Nat} {s : Scalar} {n : Nat} {c : Caf} {is : List Instr}
    (hs : ScalarIs loc s n) (hn : n < 2 ^ 32) (hd : cafDefined c n) (hB : budget g x < 2 ^ 63)
    (hC : costAt c n < 2 ^ 63) :
    WP M (emitWithCaf x err s c ++ is) stk loc g Q ↔
      if costAt c n ≤ budget g x then WP M is stk loc (charged g x (costAt c n)) Q
      else Q (.trap ((charged g x (costAt c n)).failed err)) := by
  have key : (BitVec.ofNat 64 (costAt c n)).toNat = costAt c n := by
    simp only [BitVec.toNat_ofNat]; omega
  have fin : ∀ C : BitVec 64, C = BitVec.ofNat 64 (costAt c n) →
      (WP M (subCheck x err ++ is) (.i64 C :: .i64 (g.g64 x) :: stk) loc g Q ↔
      if costAt c n ≤ budget g x then WP M is stk loc (charged g x (costAt c n)) Q
      else Q (.trap ((charged g x (costAt c n)).failed err))) := by
    rintro C rfl
    rw [wp_subCheck hB (by rw [key]; exact hC), key]; rfl
  cases c with
  | none =>
    simp only [emitWithCaf, costAt, Nat.zero_le, if_true, charged_zero, List.nil_append]
  | const k =>
    simp only [costAt] at *
    simp only [emitWithCaf, cafConst, scalarGet, List.cons_append, List.nil_append, List.append_assoc]
    wpx
    exact fin _ rfl
  | linear a b =>
    simp only [costAt] at *
    simp only [emitWithCaf, cafLinear, List.cons_append, List.nil_append, List.append_assoc]
    rw [wp_g64get, wp_scalarGet hs hn]
    wpx
    apply fin
    rw [← BitVec.ofNat_mul, ← BitVec.ofNat_add, Nat.mul_comm a n]
  | logN a b =>
    simp only [costAt] at *
    simp only [emitWithCaf, cafLogN, List.cons_append, List.nil_append, List.append_assoc]
    rw [wp_g64get, wp_const, wp_scalarGet hs hn]
    wpx
    apply fin
    rw [clz_log2 hd hn, ← BitVec.ofNat_mul, ← BitVec.ofNat_add, Nat.mul_comm a]
  | nLogN a b =>
    simp only [costAt] at *
    simp only [emitWithCaf, cafNLogN, List.cons_append, List.nil_append, List.append_assoc]
    rw [wp_g64get, wp_const, wp_scalarGet hs hn]
    wpx
    rw [wp_scalarGet hs hn]
    wpx
    apply fin
    rcases Nat.eq_zero_or_pos n with h0 | h0
    · subst h0; simp
    · rw [clz_log2 h0 hn, ← BitVec.ofNat_mul, ← BitVec.ofNat_mul, ← BitVec.ofNat_add]
      congr 1; rw [Nat.mul_comm a, Nat.mul_comm n]

end Gen
