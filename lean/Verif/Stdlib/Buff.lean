import Verif.Stdlib.Bits
import Verif.Spec.Bytes

/-! Runtime library: comparison of byte sequences (standard.wat 979-1138). -/

namespace Wasm
open Spec
variable {σ : Type} {M : Mod σ} {is : List Instr} {stk loc : List Val} {g : Store σ}
  {Q : Res σ → Prop}

theorem read_one (m : Mem) (a : Nat) : m.read a 1 = (m.byte a).toNat := by
  simp [Mem.read]

/-- What the comparison loop knows when it leaves, in terms of the byte difference `s`. -/
def CmpOut (A B : List Byte) (la lb : Nat) (s : BitVec 32) : Prop :=
  (s = 0#32 ∧ lexLt A B = decide (la < lb) ∧ lexLt B A = decide (lb < la)) ∨
  (s ≠ 0#32 ∧ s.toInt < 0 ∧ lexLt A B = true ∧ lexLt B A = false) ∨
  (s ≠ 0#32 ∧ 0 < s.toInt ∧ lexLt A B = false ∧ lexLt B A = true)

theorem lexLt_nil_bytesAt (m : Mem) (a n : Nat) : lexLt [] (bytesAt m a n) = decide (0 < n) := by
  cases n <;> simp [bytesAt, lexLt]

theorem lexLt_bytesAt_nil (m : Mem) (a n : Nat) : lexLt (bytesAt m a n) [] = false := by
  cases n <;> simp [bytesAt, lexLt]

def CmpInv (oa la ob lb : BitVec 32) (g : Store σ) (n : Nat) (loc : List Val) (g' : Store σ) :
    Prop :=
  g' = g ∧ 0 < n ∧ ∃ (a b i s : BitVec 32) (k : Nat),
    loc = [.i32 a, .i32 la, .i32 b, .i32 lb, .i32 i, .i32 s] ∧ i.toNat = n ∧
    k + n = min la.toNat lb.toNat ∧ a.toNat = oa.toNat + k ∧ b.toNat = ob.toNat + k ∧
    lexLt (bytesAt g.mem oa.toNat la.toNat) (bytesAt g.mem ob.toNat lb.toNat) =
      lexLt (bytesAt g.mem (oa.toNat + k) (la.toNat - k))
        (bytesAt g.mem (ob.toNat + k) (lb.toNat - k)) ∧
    lexLt (bytesAt g.mem ob.toNat lb.toNat) (bytesAt g.mem oa.toNat la.toNat) =
      lexLt (bytesAt g.mem (ob.toNat + k) (lb.toNat - k))
        (bytesAt g.mem (oa.toNat + k) (la.toNat - k))

/-- The common first part of the four functions. -/
theorem cmp_block (oa la ob lb : BitVec 32)
    (ha : oa.toNat + la.toNat ≤ g.mem.size) (hb : ob.toNat + lb.toNat ≤ g.mem.size)
    (h : ∀ a b i s : BitVec 32, CmpOut (bytesAt g.mem oa.toNat la.toNat)
        (bytesAt g.mem ob.toNat lb.toNat) la.toNat lb.toNat s →
      WP M is [] [.i32 a, .i32 la, .i32 b, .i32 lb, .i32 i, .i32 s] g Q) :
    WP M (Std.lt_buff_body.take 1 ++ is) []
      [.i32 oa, .i32 la, .i32 ob, .i32 lb, .i32 0#32, .i32 0#32] g Q := by
  have hle := g.mem.le
  have hlb := lb.isLt
  have hla := la.isLt
  wpx [Std.lt_buff_body]
  have hmin : (if ¬la.toNat < lb.toNat then lb else la).toNat = min la.toNat lb.toNat := by
    split <;> omega
  generalize hi : (if ¬la.toNat < lb.toNat then lb else la) = i at hmin ⊢
  by_cases h0 : i = 0#32
  · rw [if_neg (not_not.2 h0)]
    apply h
    left
    subst h0
    have hz : 0 = min la.toNat lb.toNat := hmin
    refine ⟨rfl, ?_⟩
    rcases Nat.le_total la.toNat lb.toNat with hh | hh
    · have : la.toNat = 0 := by omega
      rw [this]; simp [bytesAt, lexLt_nil_bytesAt, lexLt_bytesAt_nil]
    · have : lb.toNat = 0 := by omega
      rw [this]; simp [bytesAt, lexLt_nil_bytesAt, lexLt_bytesAt_nil]
  · rw [if_pos h0]
    have hi0 : i.toNat ≠ 0 := fun e => h0 (BitVec.eq_of_toNat_eq (by simpa using e))
    refine wp_loop_inv (CmpInv oa la ob lb g) id i.toNat
      ⟨rfl, by omega, oa, ob, i, _, 0, rfl, rfl, by omega, rfl, rfl, by simp, by simp⟩ ?_
    rintro n loc g' ⟨rfl, hn, a, b, i, s, k, rfl, hi, hk, hka, hkb, e1, e2⟩
    wpx [wp_i32load (n := 1) (off := 0) (a := a) (g := g') (by omega), 
      wp_i32load (n := 1) (off := 0) (a := b) (g := g') (by omega), Nat.add_zero, read_one]
    obtain ⟨p, hp⟩ : ∃ p, la.toNat - k = p + 1 := ⟨la.toNat - k - 1, by omega⟩
    obtain ⟨q, hq⟩ : ∃ q, lb.toNat - k = q + 1 := ⟨lb.toNat - k - 1, by omega⟩
    have hp' : la.toNat - (k + 1) = p := by omega
    have hq' : lb.toNat - (k + 1) = q := by omega
    rw [hp, hq] at e1 e2
    simp only [bytesAt, lexLt] at e1 e2
    rw [hka, hkb]
    generalize hx : g'.mem.byte (oa.toNat + k) = x at *
    generalize hy : g'.mem.byte (ob.toNat + k) = y at *
    have hxl := x.isLt
    have hyl := y.isLt
    generalize hd : BitVec.ofNat 32 x.toNat - BitVec.ofNat 32 y.toNat = d
    have hdn : d.toInt = x.toNat - y.toNat := by
      have hn : d.toNat = (2 ^ 32 - y.toNat + x.toNat) % 2 ^ 32 := by
        rw [← hd]
        simp only [BitVec.toNat_sub, BitVec.toNat_ofNat]; omega
      have := toInt_cases32 d; omega
    have hdz : d = 0#32 ↔ x = y := by
      constructor
      · rintro rfl
        apply BitVec.eq_of_toNat_eq
        have : (0#32).toInt = 0 := rfl
        omega
      · rintro rfl; rw [← hd]; simp
    by_cases hxy : x = y
    · rw [if_neg (not_not.2 (hdz.2 hxy))]
      simp only [hxy, Nat.lt_irrefl, decide_false, decide_true, Bool.true_and, Bool.false_or]
        at e1 e2
      have hi1 : (i - 1#32).toNat = n - 1 := by
        rw [BitVec.toNat_sub]; simp; omega
      have hz : (i - 1#32 = 0#32) ↔ n = 1 := by
        constructor
        · intro e; rw [e] at hi1; simp at hi1; omega
        · intro e; apply BitVec.eq_of_toNat_eq; simp [hi1, e]
      by_cases hn1 : n = 1
      · rw [if_pos (hz.2 hn1)]
        apply h
        left
        refine ⟨hdz.2 hxy, ?_⟩
        rcases Nat.le_total la.toNat lb.toNat with hh | hh
        · have : p = 0 := by omega
          rw [e1, e2, this]
          simp only [bytesAt, lexLt_nil_bytesAt, lexLt_bytesAt_nil]
          constructor
          · rw [decide_eq_decide]; omega
          · rw [eq_comm, decide_eq_false_iff_not]; omega
        · have : q = 0 := by omega
          rw [e1, e2, this]
          simp only [bytesAt, lexLt_nil_bytesAt, lexLt_bytesAt_nil]
          constructor
          · rw [eq_comm, decide_eq_false_iff_not]; omega
          · rw [decide_eq_decide]; omega
      · rw [if_neg (fun e => hn1 (hz.1 e))]
        refine ⟨n - 1, by simp only [id]; omega, rfl, by omega, _, _, _, _, k + 1, rfl, hi1,
          by omega, ?_, ?_, ?_, ?_⟩
        · rw [BitVec.toNat_add]; simp; omega
        · rw [BitVec.toNat_add]; simp; omega
        · rw [e1, hp', hq']; rfl
        · rw [e2, hp', hq']; rfl
    · have hd0 : d ≠ 0#32 := fun e => hxy (hdz.1 e)
      have hyx : ¬ y = x := fun e => hxy e.symm
      have hne : x.toNat ≠ y.toNat := fun e => hxy (BitVec.eq_of_toNat_eq e)
      rw [if_pos hd0]
      apply h
      right
      simp only [hxy, hyx, decide_false, Bool.false_and, Bool.or_false] at e1 e2
      rcases Nat.lt_or_ge x.toNat y.toNat with hh | hh
      · left
        exact ⟨hd0, by omega, by rw [e1]; simpa using hh, by rw [e2]; simp; omega⟩
      · right
        exact ⟨hd0, by omega, by rw [e1]; simp; omega, by rw [e2]; simp; omega⟩

theorem args4i (a b c d : Val) (l : List Val) : [a, b, c, d] ++ l = a :: b :: c :: d :: l := rfl

theorem runs_lt_buff (oa la ob lb : BitVec 32)
    (ha : oa.toNat + la.toNat ≤ g.mem.size) (hb : ob.toNat + lb.toNat ≤ g.mem.size) :
    Runs M (.std .lt_buff) [.i32 oa, .i32 la, .i32 ob, .i32 lb] g
      (.ret [.i32 (b32 (lexLt (bytesAt g.mem oa.toNat la.toNat)
        (bytesAt g.mem ob.toNat lb.toNat) = true))] g) := by
  apply runs_std (by simp)
  refine cmp_block (is := Std.lt_buff_body.drop 1) oa la ob lb ha hb ?_
  rintro a b i s hs
  wpx [stdFunc, Std.lt_buff, Std.lt_buff_body]
  rcases hs with ⟨rfl, h1, h2⟩ | ⟨h0, hs, h1, h2⟩ | ⟨h0, hs, h1, h2⟩
  · simp [h1]
  · simp [h1, h0, hs]
  · simp [h1, h0, not_lt.2 hs.le]

theorem runs_gt_buff (oa la ob lb : BitVec 32)
    (ha : oa.toNat + la.toNat ≤ g.mem.size) (hb : ob.toNat + lb.toNat ≤ g.mem.size) :
    Runs M (.std .gt_buff) [.i32 oa, .i32 la, .i32 ob, .i32 lb] g
      (.ret [.i32 (b32 (lexLt (bytesAt g.mem ob.toNat lb.toNat)
        (bytesAt g.mem oa.toNat la.toNat) = true))] g) := by
  apply runs_std (by simp)
  refine cmp_block (is := Std.gt_buff_body.drop 1) oa la ob lb ha hb ?_
  rintro a b i s hs
  wpx [stdFunc, Std.gt_buff, Std.gt_buff_body]
  rcases hs with ⟨rfl, h1, h2⟩ | ⟨h0, hs, h1, h2⟩ | ⟨h0, hs, h1, h2⟩
  · simp [h2]
  · simp [h2, h0, not_lt.2 hs.le]
  · simp [h2, h0, hs]

theorem runs_le_buff (oa la ob lb : BitVec 32)
    (ha : oa.toNat + la.toNat ≤ g.mem.size) (hb : ob.toNat + lb.toNat ≤ g.mem.size) :
    Runs M (.std .le_buff) [.i32 oa, .i32 la, .i32 ob, .i32 lb] g
      (.ret [.i32 (b32 (¬ lexLt (bytesAt g.mem ob.toNat lb.toNat)
        (bytesAt g.mem oa.toNat la.toNat) = true))] g) := by
  apply runs_std (by simp)
  refine cmp_block (is := Std.le_buff_body.drop 1) oa la ob lb ha hb ?_
  rintro a b i s hs
  wpx [stdFunc, Std.le_buff, Std.le_buff_body]
  rcases hs with ⟨rfl, h1, h2⟩ | ⟨h0, hs, h1, h2⟩ | ⟨h0, hs, h1, h2⟩
  · simp [h2]
  · simp [h2, h0, hs.le]
  · simp [h2, h0, not_le.2 hs]

theorem runs_ge_buff (oa la ob lb : BitVec 32)
    (ha : oa.toNat + la.toNat ≤ g.mem.size) (hb : ob.toNat + lb.toNat ≤ g.mem.size) :
    Runs M (.std .ge_buff) [.i32 oa, .i32 la, .i32 ob, .i32 lb] g
      (.ret [.i32 (b32 (¬ lexLt (bytesAt g.mem oa.toNat la.toNat)
        (bytesAt g.mem ob.toNat lb.toNat) = true))] g) := by
  apply runs_std (by simp)
  refine cmp_block (is := Std.ge_buff_body.drop 1) oa la ob lb ha hb ?_
  rintro a b i s hs
  wpx [stdFunc, Std.ge_buff, Std.ge_buff_body]
  rcases hs with ⟨rfl, h1, h2⟩ | ⟨h0, hs, h1, h2⟩ | ⟨h0, hs, h1, h2⟩
  · simp [h1]
  · simp [h1, h0, not_le.2 hs]
  · simp [h1, h0, hs.le]

end Wasm
