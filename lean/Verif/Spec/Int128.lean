import Verif.Wasm.Syntax

/-!
Specification vocabulary: Clarity's 128-bit integers and how they travel as Wasm values
(`clar2wasm_ty`, `/repo/clar2wasm/src/wasm_generator.rs`: an int or uint is two i64, low half first).
-/

namespace Spec
open Wasm

/-- `n` is a Clarity uint. -/
def IsUInt (n : Nat) : Prop := n < 2 ^ 128

/-- `z` is a Clarity int. -/
def IsInt (z : Int) : Prop := -2 ^ 127 ≤ z ∧ z < 2 ^ 127

/-- A Clarity uint as two Wasm values, low half first. -/
def encU (n : Nat) : List Val := [.i64 (BitVec.ofNat 64 n), .i64 (BitVec.ofNat 64 (n / 2 ^ 64))]

/-- A Clarity int as two Wasm values (two's complement), low half first. -/
def encI (z : Int) : List Val := [.i64 (BitVec.ofInt 64 z), .i64 (BitVec.ofInt 64 (z / 2 ^ 64))]

/-- A Clarity bool as a Wasm value. -/
def encB (b : Bool) : List Val := [.i32 (if b then 1#32 else 0#32)]

instance (n : Nat) : Decidable (IsUInt n) := inferInstanceAs (Decidable (_ < _))
instance (z : Int) : Decidable (IsInt z) := inferInstanceAs (Decidable (_ ∧ _))

end Spec

namespace Spec

/-- Bit `i` of an int in two's complement. -/
def ibit (z : Int) (i : Nat) : Bool := decide (z / 2 ^ i % 2 = 1)

/-- The int congruent to `z` modulo `2^128`. -/
def wrapI (z : Int) : Int := (z + 2 ^ 127) % 2 ^ 128 - 2 ^ 127

end Spec
