import Verif.Wasm.Seq
import Verif.Stdlib.Halves

/-! Model of the cost-charging code generator, `/repo/clar2wasm/src/cost.rs`. -/

namespace Gen
open Wasm

/-- cost.rs 279-282: `Scalar`, a factor known at compile time or held in a local. -/
inductive Scalar
  | compile (c : Nat)
  | run (l : Nat)

/-- cost.rs 347-365: `Caf`, cost assessment functions. -/
inductive Caf
  | const (c : Nat)
  | linear (a b : Nat)
  | logN (a b : Nat)
  | nLogN (a b : Nat)
  | none

/-- cost.rs 336-343: `WordCost`. -/
structure WordCost where
  runtime : Caf
  readCount : Caf
  readLength : Caf
  writeCount : Caf
  writeLength : Caf

/-- cost.rs 301-323: `scalar_get`. -/
def scalarGet : Scalar → List Instr
  | .compile c => [.b (.const (.i64 (BitVec.ofNat 64 c)))]
  | .run l => [.b (.localGet l), .b .i64extU]

/-- cost.rs 496-511, 546-562, 599-615, 649-665: subtract the cost on the stack from the global
below it and check. -/
def subCheck (x : G64) (err : Nat) : List Instr :=
  [.b (.i64bin .sub), .b (.global64Set x), .b (.global64Get x), .b (.const (.i64 0#64)),
   .b (.i64rel .ltS),
   .ite 0 0 [.b (.const (.i32 (BitVec.ofNat 32 err))), .call (.std .runtime_error)] []]

/-- cost.rs 480-514: `caf_const`. -/
def cafConst (x : G64) (err : Nat) (cost : Scalar) : List Instr :=
  .b (.global64Get x) :: (scalarGet cost ++ subCheck x err)

/-- cost.rs 517-565: `caf_linear`. -/
def cafLinear (x : G64) (err : Nat) (n : Scalar) (a b : Nat) : List Instr :=
  .b (.global64Get x) :: (scalarGet n ++
    ([.b (.const (.i64 (BitVec.ofNat 64 a))), .b (.i64bin .mul),
      .b (.const (.i64 (BitVec.ofNat 64 b))), .b (.i64bin .add)] ++ subCheck x err))

/-- cost.rs 568-618: `caf_logn`. -/
def cafLogN (x : G64) (err : Nat) (n : Scalar) (a b : Nat) : List Instr :=
  .b (.global64Get x) :: .b (.const (.i64 63#64)) :: (scalarGet n ++
    ([.b .i64clz, .b (.i64bin .sub),
      .b (.const (.i64 (BitVec.ofNat 64 a))), .b (.i64bin .mul),
      .b (.const (.i64 (BitVec.ofNat 64 b))), .b (.i64bin .add)] ++ subCheck x err))

/-- cost.rs 621-668: `caf_nlogn`. -/
def cafNLogN (x : G64) (err : Nat) (n : Scalar) (a b : Nat) : List Instr :=
  .b (.global64Get x) :: .b (.const (.i64 63#64)) :: (scalarGet n ++
    ([.b .i64clz, .b (.i64bin .sub)] ++ (scalarGet n ++
    ([.b (.i64bin .mul),
      .b (.const (.i64 (BitVec.ofNat 64 a))), .b (.i64bin .mul),
      .b (.const (.i64 (BitVec.ofNat 64 b))), .b (.i64bin .add)] ++ subCheck x err))))

/-- cost.rs 434-477: `emit_with_caf`. -/
def emitWithCaf (x : G64) (err : Nat) (n : Scalar) : Caf → List Instr
  | .const c => cafConst x err (.compile c)
  | .linear a b => cafLinear x err n a b
  | .logN a b => cafLogN x err n a b
  | .nLogN a b => cafNLogN x err n a b
  | .none => []

/-- cost.rs 368-431: `ChargeContext::emit`. -/
def emitCharge (c : WordCost) (n : Scalar) : List Instr :=
  emitWithCaf .costRuntime 100 n c.runtime ++
  (emitWithCaf .costReadCount 101 n c.readCount ++
  (emitWithCaf .costReadLength 102 n c.readLength ++
  (emitWithCaf .costWriteCount 103 n c.writeCount ++
   emitWithCaf .costWriteLength 104 n c.writeLength)))

end Gen
