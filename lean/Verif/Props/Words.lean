import Verif.Props.Sequences
import Verif.Props.Run

/-!
C48: comparison, powers, logarithms, roots, bitwise words, shifts and parsing of numerals in a compiled
contract. The operands are any expressions that are well-typed and have a value; `Leaves` and `Fails`
(`Props/Sequences.lean`) say what the compiled code does in every situation in which it can be started.
-/

namespace Props
open Wasm Spec Host Core Gen

/-- The sign of `lexSign` is the lexicographic order. -/
theorem lexSign_lt : ∀ (a b : List Nat), (lexSign a b < 0 ↔ a < b) ∧ (0 < lexSign a b ↔ b < a) ∧ (lexSign a b = 0 ↔ a = b)
  | [], [] => by simp [lexSign]
  | [], _ :: _ => by simp [lexSign]
  | _ :: _, [] => by simp [lexSign]
  | a :: as, b :: bs => by
    have ih := lexSign_lt as bs
    simp only [lexSign, List.cons_lt_cons_iff, List.cons.injEq]
    by_cases h1 : a < b
    · have : ¬ b < a ∧ a ≠ b ∧ b ≠ a := by omega
      simp [h1, this]
    · by_cases h2 : b < a
      · have : a ≠ b ∧ b ≠ a := by omega
        simp [h1, h2, this]
      · obtain rfl : a = b := by omega
        simp [ih]

/-- What decides how two values compare: integers, the bytes of buffers and ASCII strings, the scalar values
of UTF-8 strings. -/
inductive Keys : Value → Value → (lt eq : Prop) → Prop
  | int (a b : Int) : Keys (.int a) (.int b) (a < b) (a = b)
  | uint (a b : Nat) : Keys (.uint a) (.uint b) (a < b) (a = b)
  | buff (a b : List Byte) : Keys (.buff a) (.buff b) (a.map BitVec.toNat < b.map BitVec.toNat) (a = b)
  | ascii (a b : List Byte) : Keys (.ascii a) (.ascii b) (a.map BitVec.toNat < b.map BitVec.toNat) (a = b)
  | utf8 (a b : List Nat) : Keys (.utf8 a) (.utf8 b) (a < b) (a = b)

theorem lex_le (a b : List Nat) : lexSign a b ≤ 0 ↔ a < b ∨ a = b := by
  have := lexSign_lt a b
  rw [← this.1, ← this.2.2]; omega

theorem nats_inj {a b : List Byte} : a.map BitVec.toNat = b.map BitVec.toNat ↔ a = b :=
  ⟨fun h => (List.map_injective_iff.2 fun x y h => BitVec.eq_of_toNat_eq h) h, fun h => h ▸ rfl⟩

/-- The four comparisons. -/
theorem keys_cmp {x y : Value} {lt eq : Prop} (h : Keys x y lt eq) [Decidable lt] [Decidable eq] :
    Core.cmp (fun a b => decide (a < b)) x y = .ok (.bool (decide lt)) ∧
    Core.cmp (fun a b => decide (a ≤ b)) x y = .ok (.bool (decide (lt ∨ eq))) ∧
    Core.cmp (fun a b => decide (b < a)) x y = .ok (.bool (decide ¬ (lt ∨ eq))) ∧
    Core.cmp (fun a b => decide (b ≤ a)) x y = .ok (.bool (decide ¬ lt)) := by
  cases h with
  | int a b =>
    simp only [Core.cmp, Ans.ok.injEq, Value.bool.injEq, decide_eq_decide, true_and]
    omega
  | uint a b =>
    simp only [Core.cmp, Ans.ok.injEq, Value.bool.injEq, decide_eq_decide]
    omega
  | buff a b =>
    have h1 := lexSign_lt (a.map BitVec.toNat) (b.map BitVec.toNat)
    rw [nats_inj] at h1
    simp only [Core.cmp, Ans.ok.injEq, Value.bool.injEq, decide_eq_decide, ← h1.1, ← h1.2.2, true_and]
    omega
  | ascii a b =>
    have h1 := lexSign_lt (a.map BitVec.toNat) (b.map BitVec.toNat)
    rw [nats_inj] at h1
    simp only [Core.cmp, Ans.ok.injEq, Value.bool.injEq, decide_eq_decide, ← h1.1, ← h1.2.2, true_and]
    omega
  | utf8 a b =>
    have h1 := lexSign_lt a b
    simp only [Core.cmp, Ans.ok.injEq, Value.bool.injEq, decide_eq_decide, ← h1.1, ← h1.2.2, true_and]
    omega

/-- One bit of a bitwise word. -/
def BitOp.bit : BitOp → Bool → Bool → Bool
  | .and, a, b => a && b
  | .or, a, b => a || b
  | .xor, a, b => a != b

/-- The 128 bits of an integer: of an int the two's complement. -/
def word128 : Value → BitVec 128
  | .int a => BitVec.ofInt 128 a
  | .uint a => BitVec.ofNat 128 a
  | _ => 0

theorem vec_bit (o : BitOp) (a b : BitVec 128) (i : Nat) :
    (o.vec a b).getLsbD i = BitOp.bit o (a.getLsbD i) (b.getLsbD i) := by
  cases o <;> simp [BitOp.vec, BitOp.bit]

theorem bits_eval (o : BitOp) {T : Ty} (hT : IntTy T) : ∀ (v : Value) (vs : List Value), HasType T v → (∀ u ∈ vs, HasType T u) →
    ∃ u, o.eval (v :: vs) = .ok u ∧ HasType T u ∧
      ∀ i, i < 128 → (word128 u).getLsbD i = (vs.map fun x => (word128 x).getLsbD i).foldl (BitOp.bit o) ((word128 v).getLsbD i)
  | v, [], hv, _ => ⟨v, rfl, hv, fun _ _ => rfl⟩
  | v, w :: vs, hv, hvs => by
    obtain ⟨u, h1, h2, h3⟩ := bits_eval o hT w vs (hvs w (by simp)) (fun x hx => hvs x (by simp [hx]))
    have hu : ∃ x, o.bin v u = .ok x ∧ HasType T x ∧ word128 x = o.vec (word128 v) (word128 u) := by
      rcases hT with rfl | rfl
      · cases v <;> simp only [HasType] at hv
        cases u <;> simp only [HasType] at h2
        exact ⟨_, rfl, by simp only [HasType]; exact toInt_isInt _, by simp [word128]⟩
      · cases v <;> simp only [HasType] at hv
        cases u <;> simp only [HasType] at h2
        exact ⟨_, rfl, by simp only [HasType]; exact BitVec.isLt _, by simp [word128]⟩
    obtain ⟨x, h4, h5, h6⟩ := hu
    refine ⟨x, by simp only [BitOp.eval, h1, h4], h5, fun i hi => ?_⟩
    rw [h6, vec_bit o _ _ i, h3 i hi]
    simp only [List.map_cons, List.foldl_cons]
    have ha : ∀ a b c, BitOp.bit o (BitOp.bit o a b) c = BitOp.bit o a (BitOp.bit o b c) := by cases o <;> decide
    generalize (word128 v).getLsbD i = a
    generalize (word128 w).getLsbD i = b
    induction vs.map (fun x => (word128 x).getLsbD i) generalizing a b with
    | nil => rfl
    | cons y ys ih => simp only [List.foldl_cons]; rw [ih, ha]

section
variable (K : Ctx) (M : Wasm.Mod World) (hC : ContractOk K) (hL : Linked K M) (k : Nat) (R : Ty) (wr er : Bool) (Δ : TEnv)
  (ρ : Env) (c : Cx) (s s1 s2 : St) (T U : Ty) (e f : Expr) (hte : wt K k wr R e er Δ T) (x y : Value)
  (he : eval (sem K.fns k) e ρ c s = .val x s1)

section
variable (htf : wt K k wr R f er Δ U) (hf : eval (sem K.fns k) f ρ c s1 = .val y s2)
include hC hL hte he htf hf

/-- Both operands of a word. -/
abbrev both (T U : Ty) (e f : Expr) : Exprs := .cons T e (.cons U f .nil)

/-- **C48**, comparison: of integers, of buffers (the bytes, lexicographically) and of strings (the characters,
lexicographically). -/
theorem C48_compare (hT : CmpTy T U) {lt eq : Prop} (hk : Keys x y lt eq) [Decidable lt] [Decidable eq] :
    Leaves K M k R wr Δ (.prim .lt (both T U e f)) .bool ρ c s (.bool (decide lt)) s2 ∧
    Leaves K M k R wr Δ (.prim .le (both T U e f)) .bool ρ c s (.bool (decide (lt ∨ eq))) s2 ∧
    Leaves K M k R wr Δ (.prim .gt (both T U e f)) .bool ρ c s (.bool (decide ¬ (lt ∨ eq))) s2 ∧
    Leaves K M k R wr Δ (.prim .ge (both T U e f)) .bool ρ c s (.bool (decide ¬ lt)) s2 := by
  obtain ⟨h1, h2, h3, h4⟩ := keys_cmp hk
  refine ⟨?_, ?_, ?_, ?_⟩ <;> refine leaves hC hL (er := er) ?_ ?_
  all_goals first
    | (simp only [wt, wts, primTy, Gen.tys, and_true]; exact ⟨⟨hte, htf⟩, T, U, hT, rfl⟩)
    | simp only [eval, evals, he, Out.bind, hf, Prim.eval, h1, h2, h3, h4, Ans.out]

/-- A word applied to two operands. -/
theorem word_two {q : Word} {T' : Ty} (hw : wordTy q [T, U] T') :
    (∀ v, q.eval [x, y] = .ok v → Leaves K M k R wr Δ (.prim (.word q) (both T U e f)) T' ρ c s v s2) ∧
    (∀ code, q.eval [x, y] = .fail code → Fails K M k R wr Δ (.prim (.word q) (both T U e f)) T' ρ c s code) := by
  have ht : wt K k wr R (.prim (.word q) (both T U e f)) er Δ T' := by
    simp only [wt, wts, primTy, Gen.tys, and_true]; exact ⟨⟨hte, htf⟩, hw⟩
  refine ⟨fun v h => leaves hC hL ht ?_, fun code h => fails hC hL ht ?_⟩ <;>
    simp only [eval, evals, he, Out.bind, hf, Prim.eval, h, Ans.out]

/-- **C48**, powers of uints: the power if it is a uint; a runtime error otherwise. -/
theorem C48_pow_uint (a b : Nat) (hT : T = .uint) (hU : U = .uint) (hx : x = .uint a) (hy : y = .uint b) :
    (IsUInt (a ^ b) → Leaves K M k R wr Δ (.prim (.word .pow) (both T U e f)) .uint ρ c s (.uint (a ^ b)) s2) ∧
    (¬ IsUInt (a ^ b) → ∃ code ∈ [eOverflow, ePow],
      Fails K M k R wr Δ (.prim (.word .pow) (both T U e f)) .uint ρ c s code) := by
  subst hT hU hx hy
  have h := word_two K M hC hL k R wr er Δ ρ c s s1 s2 _ _ e f hte _ _ he htf hf (q := .pow) (T' := .uint) ⟨.inr rfl, rfl⟩
  refine ⟨fun hu => h.1 _ (by simp only [Word.eval, if_pos hu]), fun hu => ⟨_, ?_, h.2 (if 127 < b then ePow else eOverflow) (by simp only [Word.eval, if_neg hu])⟩⟩
  split <;> simp

/-- **C48**, powers of ints: the power if the exponent is not negative and the power is an int; a runtime error
otherwise, except that 0 and 1 are their own powers with negative exponents. Missing: the base -1 with exponents
from 128 on, where the runtime library aborts (`C08_pow_int_counterexample`). -/
theorem C48_pow_int_partial (a b : Int) (hT : T = .int) (hU : U = .int) (hx : x = .int a) (hy : y = .int b)
    (hd : ¬ (a = -1 ∧ 127 < b)) :
    (0 ≤ b → IsInt (a ^ b.toNat) →
      Leaves K M k R wr Δ (.prim (.word .pow) (both T U e f)) .int ρ c s (.int (a ^ b.toNat)) s2) ∧
    (0 ≤ b → ¬ IsInt (a ^ b.toNat) → ∃ code ∈ [eOverflow, ePow],
      Fails K M k R wr Δ (.prim (.word .pow) (both T U e f)) .int ρ c s code) ∧
    (b < 0 → a = 0 ∨ a = 1 → Leaves K M k R wr Δ (.prim (.word .pow) (both T U e f)) .int ρ c s (.int a) s2) ∧
    (b < 0 → ¬ (a = 0 ∨ a = 1) → Fails K M k R wr Δ (.prim (.word .pow) (both T U e f)) .int ρ c s ePow) := by
  subst hT hU hx hy
  have h := word_two K M hC hL k R wr er Δ ρ c s s1 s2 _ _ e f hte _ _ he htf hf (q := .pow) (T' := .int) ⟨.inl rfl, rfl⟩
  refine ⟨fun hb hu => h.1 _ ?_, fun hb hu => ⟨_, ?_, h.2 (if (if a < 0 then 127 else 126) < b then ePow else eOverflow) ?_⟩,
    fun hb ha => h.1 _ ?_, fun hb ha => h.2 _ ?_⟩
  · simp only [Word.eval, if_neg hd, if_pos hu, if_neg (show ¬ b < 0 by omega), if_neg (show ¬ (b < 0 ∧ (a = 0 ∨ a = 1)) by omega)]
  · by_cases h : (if a < 0 then 127 else 126) < b
    · rw [if_pos h]; simp
    · rw [if_neg h]; simp
  · simp only [Word.eval, if_neg hd, if_neg hu, if_neg (show ¬ b < 0 by omega), if_neg (show ¬ (b < 0 ∧ (a = 0 ∨ a = 1)) by omega)]
  · simp only [Word.eval, if_pos (show (b < 0 ∧ (a = 0 ∨ a = 1)) from ⟨hb, ha⟩)]
  · simp only [Word.eval, if_neg hd, if_pos hb, if_neg (show ¬ (b < 0 ∧ (a = 0 ∨ a = 1)) from fun h => ha h.2)]

/-- **C48**, shifts: by the second operand modulo 128. To the left bits beyond the 128th are lost; to the right the sign is
kept. -/
theorem C48_shifts (n : Nat) (hU : U = .uint) (hy : y = .uint n) :
    (∀ a, T = .uint → x = .uint a →
      Leaves K M k R wr Δ (.prim (.word .shl) (both T U e f)) .uint ρ c s (.uint (a * 2 ^ (n % 128) % 2 ^ 128)) s2 ∧
      Leaves K M k R wr Δ (.prim (.word .shr) (both T U e f)) .uint ρ c s (.uint (a / 2 ^ (n % 128))) s2) ∧
    (∀ a, T = .int → x = .int a →
      Leaves K M k R wr Δ (.prim (.word .shl) (both T U e f)) .int ρ c s (.int ((a * 2 ^ (n % 128)).bmod (2 ^ 128))) s2 ∧
      Leaves K M k R wr Δ (.prim (.word .shr) (both T U e f)) .int ρ c s (.int (a.fdiv (2 ^ (n % 128)))) s2) := by
  subst hU hy
  constructor
  · intro a hT hx
    subst hT hx
    exact ⟨(word_two K M hC hL k R wr er Δ ρ c s s1 s2 _ _ e f hte _ _ he htf hf (q := .shl) ⟨.inr rfl, rfl⟩).1 _ rfl,
      (word_two K M hC hL k R wr er Δ ρ c s s1 s2 _ _ e f hte _ _ he htf hf (q := .shr) ⟨.inr rfl, rfl⟩).1 _ rfl⟩
  · intro a hT hx
    subst hT hx
    refine ⟨(word_two K M hC hL k R wr er Δ ρ c s s1 s2 _ _ e f hte _ _ he htf hf (q := .shl) ⟨.inl rfl, rfl⟩).1 _ ?_,
      (word_two K M hC hL k R wr er Δ ρ c s s1 s2 _ _ e f hte _ _ he htf hf (q := .shr) ⟨.inl rfl, rfl⟩).1 _ ?_⟩
    · simp only [Word.eval, wrapI, Int.bmod_def]
      have h1 := Int.emod_nonneg (a * 2 ^ (n % 128)) (show (2 ^ 128 : Int) ≠ 0 by decide)
      congr 2
      generalize a * 2 ^ (n % 128) = z at *
      omega
    · simp only [Word.eval]
      rw [Int.fdiv_eq_ediv_of_nonneg _ (by positivity)]
end

section
include hC hL hte he

/-- A word applied to one operand. -/
theorem word_one {q : Word} {T' : Ty} (hw : wordTy q [T] T') :
    (∀ v, q.eval [x] = .ok v → Leaves K M k R wr Δ (.prim (.word q) (.cons T e .nil)) T' ρ c s v s1) ∧
    (∀ code, q.eval [x] = .fail code → Fails K M k R wr Δ (.prim (.word q) (.cons T e .nil)) T' ρ c s code) := by
  have ht : wt K k wr R (.prim (.word q) (.cons T e .nil)) er Δ T' := by
    simp only [wt, wts, primTy, Gen.tys, and_true]; exact ⟨hte, hw⟩
  refine ⟨fun v h => leaves hC hL ht ?_, fun code h => fails hC hL ht ?_⟩ <;>
    simp only [eval, evals, he, Out.bind, Prim.eval, h, Ans.out]

/-- **C48**, `log2`: the exponent of the largest power of two that is not above the operand; a runtime error if the
operand is not positive. -/
theorem C48_log2 :
    (∀ a n : Nat, T = .uint → x = .uint a → 2 ^ n ≤ a → a < 2 ^ (n + 1) →
      Leaves K M k R wr Δ (.prim (.word .log2) (.cons T e .nil)) .uint ρ c s (.uint n) s1) ∧
    (T = .uint → x = .uint 0 → Fails K M k R wr Δ (.prim (.word .log2) (.cons T e .nil)) .uint ρ c s eLog2) ∧
    (∀ a n : Nat, T = .int → x = .int a → 2 ^ n ≤ a → a < 2 ^ (n + 1) →
      Leaves K M k R wr Δ (.prim (.word .log2) (.cons T e .nil)) .int ρ c s (.int n) s1) ∧
    (∀ a : Int, T = .int → x = .int a → a ≤ 0 →
      Fails K M k R wr Δ (.prim (.word .log2) (.cons T e .nil)) .int ρ c s eLog2) := by
  have hl : ∀ a n : Nat, 2 ^ n ≤ a → a < 2 ^ (n + 1) → a ≠ 0 ∧ a.log2 = n := fun a n h1 h2 => by
    have := Nat.two_pow_pos n
    exact ⟨by omega, (Nat.log2_eq_iff (by omega)).2 ⟨h1, h2⟩⟩
  refine ⟨fun a n hT hx h1 h2 => ?_, fun hT hx => ?_, fun a n hT hx h1 h2 => ?_, fun a hT hx h1 => ?_⟩ <;> subst hT hx
  · refine (word_one K M hC hL k R wr er Δ ρ c s s1 _ e hte _ he (q := .log2) ⟨.inr rfl, rfl⟩).1 _ ?_
    simp only [Word.eval, if_neg (hl a n h1 h2).1, (hl a n h1 h2).2]
  · exact (word_one K M hC hL k R wr er Δ ρ c s s1 _ e hte _ he (q := .log2) ⟨.inr rfl, rfl⟩).2 _ rfl
  · refine (word_one K M hC hL k R wr er Δ ρ c s s1 _ e hte _ he (q := .log2) ⟨.inl rfl, rfl⟩).1 _ ?_
    have := (hl a n h1 h2).1
    simp only [Word.eval, if_neg (show ¬ (a : Int) ≤ 0 by omega), Int.toNat_natCast, (hl a n h1 h2).2]
  · exact (word_one K M hC hL k R wr er Δ ρ c s s1 _ e hte _ he (q := .log2) ⟨.inl rfl, rfl⟩).2 _ (by
      simp only [Word.eval, if_pos h1])

/-- **C48**, `sqrti`: the largest number whose square is not above the operand; a runtime error if the operand is
negative. -/
theorem C48_sqrti :
    (∀ a n : Nat, T = .uint → x = .uint a → n * n ≤ a → a < (n + 1) * (n + 1) →
      Leaves K M k R wr Δ (.prim (.word .sqrti) (.cons T e .nil)) .uint ρ c s (.uint n) s1) ∧
    (∀ a n : Nat, T = .int → x = .int a → n * n ≤ a → a < (n + 1) * (n + 1) →
      Leaves K M k R wr Δ (.prim (.word .sqrti) (.cons T e .nil)) .int ρ c s (.int n) s1) ∧
    (∀ a : Int, T = .int → x = .int a → a < 0 →
      Fails K M k R wr Δ (.prim (.word .sqrti) (.cons T e .nil)) .int ρ c s eSqrti) := by
  have hl : ∀ a n : Nat, n * n ≤ a → a < (n + 1) * (n + 1) → a.sqrt = n := fun a n h1 h2 => by
    exact Nat.eq_sqrt.2 ⟨h1, h2⟩ |>.symm
  refine ⟨fun a n hT hx h1 h2 => ?_, fun a n hT hx h1 h2 => ?_, fun a hT hx h1 => ?_⟩ <;> subst hT hx
  · refine (word_one K M hC hL k R wr er Δ ρ c s s1 _ e hte _ he (q := .sqrti) ⟨.inr rfl, rfl⟩).1 _ ?_
    simp only [Word.eval, hl a n h1 h2]
  · refine (word_one K M hC hL k R wr er Δ ρ c s s1 _ e hte _ he (q := .sqrti) ⟨.inl rfl, rfl⟩).1 _ ?_
    simp only [Word.eval, if_neg (show ¬ (a : Int) < 0 by omega), Int.toNat_natCast, hl a n h1 h2]
  · exact (word_one K M hC hL k R wr er Δ ρ c s s1 _ e hte _ he (q := .sqrti) ⟨.inl rfl, rfl⟩).2 _ (by
      simp only [Word.eval, if_pos h1])

/-- **C48**, `bit-not`: all bits are inverted. -/
theorem C48_bit_not :
    (∀ a : Nat, T = .uint → x = .uint a →
      Leaves K M k R wr Δ (.prim (.word .bitNot) (.cons T e .nil)) .uint ρ c s (.uint (2 ^ 128 - 1 - a)) s1) ∧
    (∀ a : Int, T = .int → x = .int a →
      Leaves K M k R wr Δ (.prim (.word .bitNot) (.cons T e .nil)) .int ρ c s (.int (-1 - a)) s1) := by
  refine ⟨fun a hT hx => ?_, fun a hT hx => ?_⟩ <;> subst hT hx
  · exact (word_one K M hC hL k R wr er Δ ρ c s s1 _ e hte _ he (q := .bitNot) ⟨.inr rfl, rfl⟩).1 _ rfl
  · exact (word_one K M hC hL k R wr er Δ ρ c s s1 _ e hte _ he (q := .bitNot) ⟨.inl rfl, rfl⟩).1 _ rfl

/-- The characters of a string. -/
def chars : Value → List Nat
  | .ascii bs => bs.map BitVec.toNat
  | .utf8 cs => cs
  | _ => []

/-- **C48**, `string-to-uint?`: the number, if the string is a decimal numeral and the number is a uint; none
otherwise. Missing: such numerals of more than 39 digits, and some numerals of 39 digits for numbers that are too large
(`C13_string_to_uint_counterexample`). -/
theorem C48_string_to_uint_partial (hT : StrTy T) (hx : HasType T x) (h1 : parseUInt (chars x) ≠ none → (chars x).length ≤ 39)
    (h2 : (chars x).length = 39 → (chars x).all isDigit = true → 2 ^ 128 ≤ decVal (chars x) → 53 < (chars x).getD 38 0) :
    Leaves K M k R wr Δ (.prim (.word .strToUint) (.cons T e .nil)) (.opt .uint) ρ c s
      (match parseUInt (chars x) with
        | some n => .some (.uint n)
        | none => .none) s1 := by
  have hq : (Word.strToUint).eval [x] = parseUAns (chars x) := by
    rcases hT with ⟨n, rfl⟩ | ⟨n, rfl⟩ <;> cases x <;> simp only [HasType] at hx <;> rfl
  refine (word_one K M hC hL k R wr er Δ ρ c s s1 _ e hte _ he (q := .strToUint) ⟨T, hT, rfl, rfl⟩).1 _ ?_
  rw [hq, parseUAns, if_neg]
  · rfl
  rintro (⟨h, h'⟩ | ⟨h, h', h3, h4⟩)
  · have := h1 h'; omega
  · have := h2 h h' h3; omega

/-- **C48**, `string-to-int?`. Missing: the empty string, and more than 39 characters. -/
theorem C48_string_to_int_partial (hT : StrTy T) (hx : HasType T x) (h0 : chars x ≠ []) (hlen : (chars x).length ≤ 39) :
    Leaves K M k R wr Δ (.prim (.word .strToInt) (.cons T e .nil)) (.opt .int) ρ c s
      (match parseInt (chars x) with
        | some z => .some (.int z)
        | none => .none) s1 := by
  have hq : (Word.strToInt).eval [x] = parseIAns (chars x) := by
    rcases hT with ⟨n, rfl⟩ | ⟨n, rfl⟩ <;> cases x <;> simp only [HasType] at hx <;> rfl
  refine (word_one K M hC hL k R wr er Δ ρ c s s1 _ e hte _ he (q := .strToInt) ⟨T, hT, rfl, rfl⟩).1 _ ?_
  rw [hq, parseIAns, if_neg]
  · rfl
  rintro (h | h)
  · exact h0 h
  · split at h
    · rw [List.length_tail] at h; omega
    · omega
end

section
include hC hL

/-- **C48**, `bit-and`, `bit-or`, `bit-xor` of any number of operands: each bit of the result is that of the
operands. The integers are determined by their 128 bits. -/
theorem C48_bits (o : BitOp) (hT : IntTy T) (es : Exprs) (m : Nat) (hn : Gen.tys es = List.replicate (m + 1) T)
    (htes : wts K k wr R es er Δ) (v : Value) (vs : List Value) (hes : evals (sem K.fns k) es ρ c s = .val (v :: vs) s1)
    (hv : HasType T v) (hvs : ∀ u ∈ vs, HasType T u) :
    ∃ u, HasType T u ∧
      (∀ i, i < 128 → (word128 u).getLsbD i = (vs.map fun x => (word128 x).getLsbD i).foldl (BitOp.bit o) ((word128 v).getLsbD i)) ∧
      Leaves K M k R wr Δ (.prim (.word (.bits o)) es) T ρ c s u s1 := by
  obtain ⟨u, h1, h2, h3⟩ := bits_eval o hT v vs hv hvs
  refine ⟨u, h2, h3, leaves hC hL (er := er) ?_ ?_⟩
  · simp only [wt, primTy, wordTy]; exact ⟨htes, hT, m, hn⟩
  · simp only [eval, hes, Out.bind, Prim.eval, Word.eval, h1, Ans.out]
end
end

/-- An integer is determined by its bits. -/
theorem C48_bits_determine {T : Ty} (hT : IntTy T) {u v : Value} (hu : HasType T u) (hv : HasType T v)
    (h : ∀ i, i < 128 → (word128 u).getLsbD i = (word128 v).getLsbD i) : u = v := by
  have hw : word128 u = word128 v := BitVec.eq_of_getLsbD_eq h
  rcases hT with rfl | rfl
  · cases u <;> simp only [HasType] at hu
    cases v <;> simp only [HasType] at hv
    rename_i a b
    have := congrArg BitVec.toInt hw
    simp only [word128, BitVec.toInt_ofInt] at this
    have ha := hu; have hb := hv
    unfold IsInt at ha hb
    rw [Int.bmod_eq_of_le (by omega) (by omega), Int.bmod_eq_of_le (by omega) (by omega)] at this
    rw [this]
  · cases u <;> simp only [HasType] at hu
    cases v <;> simp only [HasType] at hv
    have := congrArg BitVec.toNat hw
    simp only [word128, BitVec.toNat_ofNat] at this
    unfold IsUInt at hu hv
    rw [Nat.mod_eq_of_lt hu, Nat.mod_eq_of_lt hv] at this
    rw [this]

/-! ### An example

```
(define-read-only (low (n (string-ascii 8))) (bit-and (pow u2 (default-to u0 (string-to-uint? n))) u255 u15))
(define-read-only (before (a (string-ascii 8)) (b (string-ascii 8))) (< a b))
```
-/

def woLow : FunDef := ⟨[(cxN, .ascii 8)], .uint, .ro, false,
  .prim (.word (.bits .and)) (.cons .uint (.prim (.word .pow) (both .uint .uint (.lit (.uint 2))
    (.prim .defaultTo (both .uint (.opt .uint) (.lit (.uint 0)) (.prim (.word .strToUint) (.cons (.ascii 8) (.var cxN) .nil))))))
    (.cons .uint (.lit (.uint 255)) (.cons .uint (.lit (.uint 15)) .nil)))⟩

def woBefore : FunDef := ⟨[(cxN, .ascii 8), (cxT, .ascii 8)], .bool, .ro, false,
  .prim .lt (both (.ascii 8) (.ascii 8) (.var cxN) (.var cxT))⟩

def woK : Ctx := { cxK with fns := [woLow, woBefore] }

theorem wo_ne : cxN ≠ cxT := by decide

theorem wo_ok : ContractOk woK where
  fns k f h := by
    match k, h with
    | 0, h =>
      obtain rfl : woLow = f := Option.some.inj h
      refine ⟨?_, by simp [woLow], by simp [woLow], by simp [woLow]⟩
      simp [woLow, both, wt, wts, primTy, wordTy, StrTy, IntTy, Gen.tys, look, LitTy, LitIn, HasType, IsUInt, Fit.refl]
      exact ⟨2, rfl⟩
    | 1, h =>
      obtain rfl : woBefore = f := Option.some.inj h
      refine ⟨?_, by simp [woBefore, wo_ne], by simp [woBefore], by simp [woBefore]⟩
      simp [woBefore, both, wt, wts, primTy, CmpTy, IntTy, Gen.tys, look, wo_ne, Ne.symm wo_ne, Fit.refl]
    | k + 2, h => simp [woK] at h
  vars := cx_ok.vars
  maps := cx_ok.maps

/-- The hypotheses of `C46_call_from_outside_partial` are met. -/
theorem wo_outside1 : Outside woK 1 woBefore cxCx ledgerStore.host (cxSt 9) cxStore [.ascii [49#8, 48#8], .ascii [57#8]] where
  cx := { cx_ready.cx with writable := fun h => by cases h }
  host := rfl
  st := ⟨(cx_st 9 (by decide)).vars, (cx_st 9 (by decide)).maps, (cx_st 9 (by decide)).fts⟩
  lits := cx_ready.lits
  count := rfl
  typed a h := by
    simp only [passed, woBefore, List.map_cons, List.map_nil, List.zip_cons_cons, List.zip_nil_left, List.mem_cons,
      List.not_mem_nil, or_false] at h
    rcases h with rfl | rfl <;> simp [Ty.WF, ArgTy, HasType, asciiOk]
  ret := by simp [woBefore, Ty.WF, ArgTy]
  room := by decide +kernel
  small := by decide

theorem wo_outside0 : Outside woK 0 woLow cxCx ledgerStore.host (cxSt 9) cxStore [.ascii [51#8]] where
  cx := { cx_ready.cx with writable := fun h => by cases h }
  host := rfl
  st := ⟨(cx_st 9 (by decide)).vars, (cx_st 9 (by decide)).maps, (cx_st 9 (by decide)).fts⟩
  lits := cx_ready.lits
  count := rfl
  typed a h := by
    simp only [passed, woLow, List.map_cons, List.map_nil, List.zip_cons_cons, List.zip_nil_left, List.mem_cons,
      List.not_mem_nil, or_false] at h
    subst h
    simp [Ty.WF, ArgTy, HasType, asciiOk]
  ret := by simp [woLow, Ty.WF, ArgTy]
  room := by decide +kernel
  small := by decide

/-- `(before "10" "9")` is true: strings are not compared as numbers. -/
example (sig : List Byte → Option Ty) (a : Reply) :
    Calls sig (moduleOf woK) 1 .bool [(.ascii 8, .ascii [49#8, 48#8]), (.ascii 8, .ascii [57#8])] cxStore a ↔
      a = .value (.bool true) (put ledgerStore.host (cxSt 9)) := by
  have h := C46_call_from_outside_partial sig woK (moduleOf woK) wo_ok (linked_moduleOf woK) 1 woBefore rfl cxCx _ _ _ _
    wo_outside1
  have hr : woBefore.run (sem woK.fns 1) [.ascii [49#8, 48#8], .ascii [57#8]] cxCx (cxSt 9) =
      .val (.bool true) (cxSt 9) := by
    simp [woBefore, both, FunDef.run, eval, evals, Env.get, Out.bind, Out.body, Prim.eval, Ans.out, Core.cmp, lexSign,
      wo_ne, Ne.symm wo_ne]
  rw [hr] at h
  exact h a

/-- `(low "3")` is `u8`. -/
example (sig : List Byte → Option Ty) (a : Reply) :
    Calls sig (moduleOf woK) 0 .uint [(.ascii 8, .ascii [51#8])] cxStore a ↔
      a = .value (.uint 8) (put ledgerStore.host (cxSt 9)) := by
  have h := C46_call_from_outside_partial sig woK (moduleOf woK) wo_ok (linked_moduleOf woK) 0 woLow rfl cxCx _ _ _ _
    wo_outside0
  have hr : woLow.run (sem woK.fns 0) [.ascii [51#8]] cxCx (cxSt 9) =
      .val (.uint 8) (cxSt 9) := by
    simp [woLow, both, FunDef.run, eval, evals, Env.get, Out.bind, Out.body, Prim.eval, Word.eval, Ans.out, parseUAns, parseUInt,
      parseDec, isDigit, decVal, IsUInt, Option.filter, BitOp.eval, BitOp.bin, BitOp.vec]
  rw [hr] at h
  exact h a

end Props
