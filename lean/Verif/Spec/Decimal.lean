import Verif.Spec.Bytes
import Verif.Spec.Int128

/-! Specification vocabulary: decimal numerals as sequences of character codes. -/

namespace Spec
open Wasm

/-- '0' .. '9' -/
def isDigit (c : Nat) : Bool := decide (48 ≤ c) && decide (c ≤ 57)

/-- The number a sequence of digits denotes. -/
def decVal (cs : List Nat) : Nat := cs.foldl (fun a c => 10 * a + (c - 48)) 0

/-- A decimal numeral is a non-empty sequence of digits. -/
def parseDec (cs : List Nat) : Option Nat :=
  if cs ≠ [] ∧ cs.all isDigit = true then some (decVal cs) else none

/-- A uint numeral: the number it denotes must be representable. -/
def parseUInt (cs : List Nat) : Option Nat := (parseDec cs).filter (fun n => decide (n < 2 ^ 128))

/-- An int numeral: optional minus sign, then a decimal numeral; representable. -/
def parseInt (cs : List Nat) : Option Int :=
  let z : Option Int :=
    if cs.head? = some 45 then (parseDec cs.tail).map fun (n : Nat) => -(n : Int)
    else (parseDec cs).map fun (n : Nat) => (n : Int)
  z.filter (fun z => decide (-2 ^ 127 ≤ z ∧ z < 2 ^ 127))

/-- The canonical decimal numeral of a natural number. -/
def decStr (n : Nat) : List Nat :=
  if n < 10 then [48 + n] else decStr (n / 10) ++ [48 + n % 10]
  decreasing_by omega

/-- The canonical decimal numeral of an integer. -/
def intStr (z : Int) : List Nat :=
  if z < 0 then 45 :: decStr z.natAbs else decStr z.natAbs

/-- The character codes of the ASCII string of `n` bytes at `a`. -/
def asciiAt (m : Mem) (a n : Nat) : List Nat := (bytesAt m a n).map BitVec.toNat

/-- The `n` Unicode scalar values, four big-endian bytes each, at `a`. -/
def scalarsAt (m : Mem) (a : Nat) : Nat → List Nat
  | 0 => []
  | n + 1 => beNat (bytesAt m a 4) :: scalarsAt m (a + 4) n

/-- A `(optional uint)` as Wasm values. -/
def encOptU : Option Nat → List Val
  | none => [.i32 0#32, .i64 0#64, .i64 0#64]
  | some n => .i32 1#32 :: encU n

/-- A `(optional int)` as Wasm values. -/
def encOptI : Option Int → List Val
  | none => [.i32 0#32, .i64 0#64, .i64 0#64]
  | some z => .i32 1#32 :: encI z

end Spec
