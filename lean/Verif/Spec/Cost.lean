import Verif.Gen.CostTables

/-! Specification vocabulary: Clarity's cost functions (SIP-006) and the cost dimensions. -/

namespace Spec
open Wasm Gen

/-- The value of a cost function at `n` (`log2` rounded down, `0 * log2 0 = 0`). -/
def costAt : Caf → Nat → Nat
  | .const c, _ => c
  | .linear a b, n => a * n + b
  | .logN a b, n => a * Nat.log2 n + b
  | .nLogN a b, n => a * (n * Nat.log2 n) + b
  | .none, _ => 0

/-- The cost function of a dimension. -/
def dimOf (c : WordCost) : G64 → Caf
  | .costRuntime => c.runtime
  | .costReadCount => c.readCount
  | .costReadLength => c.readLength
  | .costWriteCount => c.writeCount
  | .costWriteLength => c.writeLength

/-- The five dimensions in the order in which they are charged. -/
def dims : List G64 :=
  [.costRuntime, .costReadCount, .costReadLength, .costWriteCount, .costWriteLength]

/-- The error code "budget of this dimension exceeded" (standard.wat 397-401). -/
def overrunCode : G64 → Nat
  | .costRuntime => 100
  | .costReadCount => 101
  | .costReadLength => 102
  | .costWriteCount => 103
  | .costWriteLength => 104

/-- The logarithm of a cost function is only taken of positive numbers. -/
def cafDefined : Caf → Nat → Prop
  | .logN _ _, n => 0 < n
  | _, _ => True

/-- The number a factor stands for. -/
def ScalarIs (loc : List Val) : Scalar → Nat → Prop
  | .compile c, n => c = n
  | .run l, n => loc[l]? = some (.i32 (BitVec.ofNat 32 n))

/-- The remaining budget of a dimension. -/
def budget {σ} (g : Store σ) (x : G64) : Nat := (g.g64 x).toNat

end Spec
