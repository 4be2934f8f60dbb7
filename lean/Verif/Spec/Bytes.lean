import Verif.Wasm.Sem

/-! Specification vocabulary for byte sequences in linear memory. -/

namespace Spec
open Wasm

abbrev Byte := BitVec 8

/-- The `n` bytes of memory starting at address `a`. -/
def bytesAt (m : Mem) (a : Nat) : Nat → List Byte
  | 0 => []
  | n + 1 => m.byte a :: bytesAt m (a + 1) n

/-- Lexicographic order on byte sequences: a proper prefix is smaller. -/
def lexLt : List Byte → List Byte → Bool
  | [], [] => false
  | [], _ :: _ => true
  | _ :: _, [] => false
  | a :: as, b :: bs => decide (a.toNat < b.toNat) || (decide (a = b) && lexLt as bs)

/-- The number whose big-endian representation is the sequence. -/
def beNat : List Byte → Nat := List.foldl (fun acc b => 256 * acc + b.toNat) 0

/-- The number whose little-endian representation is the sequence. -/
def leNat : List Byte → Nat
  | [] => 0
  | b :: bs => b.toNat + 256 * leNat bs

end Spec
