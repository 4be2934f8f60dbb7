import Verif.Host.Literals

/-!
Model of `/repo/clar2wasm/src/error_mapping.rs` and of the argument-count check of
`/repo/clar2wasm/src/wasm_utils.rs` 1743-1795.

Not modelled: `resolve_error`'s recovery of errors raised by host functions (they are passed on as
they are), stack traces; `sig` stands for `signature_from_string` (wasm_utils.rs 1705-1723), the
Clarity parser applied to a printed type.
-/

namespace Host
open Wasm Spec

/-- clarity crate `RuntimeErrorType`, the variants used. -/
inductive RtErr
  | arithmeticOverflow | arithmeticUnderflow | divisionByZero
  | arithmeticLog2 | arithmeticSqrti | arithmeticPow
  | badTypeConstruction | unwrapFailure
  deriving DecidableEq, Repr

/-- clarity crate `Error`, the variants used. -/
inductive VmError
  | wasmRuntime
  | runtime (e : RtErr)
  | assertionFailed (v : Value)
  | expectedValue (v : Value)
  | nameAlreadyUsed (n : Name)
  | incorrectArgumentCount (expected got : Nat)
  | requiresAtLeast (expected got : Nat)
  | requiresAtMost (expected got : Nat)
  | costOverflow

/-- error_mapping.rs 20-99: `ErrorMap`. -/
inductive ErrorMap
  | notClarityError
  | arithmeticOverflow | arithmeticUnderflow | divisionByZero | arithmeticLog2Error
  | arithmeticSqrtiError | badTypeConstruction | panic | shortReturnAssertionFailure
  | arithmeticPowError | nameAlreadyUsed | shortReturnExpectedValueResponse
  | shortReturnExpectedValueOptional | shortReturnExpectedValue
  | argumentCountMismatch | argumentCountAtLeast | argumentCountAtMost
  | costOverrunRuntime | costOverrunReadCount | costOverrunReadLength
  | costOverrunWriteCount | costOverrunWriteLength
  | notMapped
  deriving DecidableEq, Repr

/-- error_mapping.rs 101-129: `From<i32> for ErrorMap`. -/
def ErrorMap.ofCode (c : Int) : ErrorMap :=
  match c with
  | -1 => .notClarityError
  | 0 => .arithmeticOverflow
  | 1 => .arithmeticUnderflow
  | 2 => .divisionByZero
  | 3 => .arithmeticLog2Error
  | 4 => .arithmeticSqrtiError
  | 5 => .badTypeConstruction
  | 6 => .panic
  | 7 => .shortReturnAssertionFailure
  | 8 => .arithmeticPowError
  | 9 => .nameAlreadyUsed
  | 10 => .shortReturnExpectedValueResponse
  | 11 => .shortReturnExpectedValueOptional
  | 12 => .shortReturnExpectedValue
  | 13 => .argumentCountMismatch
  | 14 => .argumentCountAtLeast
  | 15 => .argumentCountAtMost
  | 100 => .costOverrunRuntime
  | 101 => .costOverrunReadCount
  | 102 => .costOverrunReadLength
  | 103 => .costOverrunWriteCount
  | 104 => .costOverrunWriteLength
  | _ => .notMapped

/-- error_mapping.rs 328-336: `extract_expected_and_got` (indexing panics when there are fewer
than 8 bytes). -/
def extractExpectedAndGot (bs : List Byte) : Option (Nat × Nat) :=
  if 8 ≤ bs.length then some (leNat (bs.take 4), leNat ((bs.drop 4).take 4)) else none

/-- error_mapping.rs 388-409: `get_runtime_error_arg_lengths`; `none` is a panic. -/
def argLengths {σ} (g : Store σ) : Option (Nat × Nat) := do
  let bs ← memRead g.mem (g.g32 .errArgOff).toNat (g.g32 .errArgLen).toNat
  extractExpectedAndGot bs

/-- error_mapping.rs 349-372: `short_return_value`; `none` is a panic. -/
def shortReturnValue {σ} (sig : List Byte → Option Ty) (g : Store σ) : Option Value := do
  let s ← memRead g.mem (g.g32 .errTyOff).toNat (g.g32 .errTyLen).toNat
  let ty ← sig s
  readFromWasmIndirect ty g.mem (g.g32 .errValOff).toNat

/-- error_mapping.rs 208-300: `from_runtime_error_code` on the store left by a trap; `none` is a
panic. -/
def fromRuntimeErrorCode {σ} (sig : List Byte → Option Ty) (g : Store σ) : Option VmError :=
  match ErrorMap.ofCode (g.g32 .errCode).toInt with
  | .notClarityError => some .wasmRuntime
  | .arithmeticOverflow => some (.runtime .arithmeticOverflow)
  | .arithmeticUnderflow => some (.runtime .arithmeticUnderflow)
  | .divisionByZero => some (.runtime .divisionByZero)
  | .arithmeticLog2Error => some (.runtime .arithmeticLog2)
  | .arithmeticSqrtiError => some (.runtime .arithmeticSqrti)
  | .badTypeConstruction => some (.runtime .badTypeConstruction)
  | .panic => some (.runtime .unwrapFailure)
  | .shortReturnAssertionFailure => do
    let v ← shortReturnValue sig g
    some (.assertionFailed v)
  | .arithmeticPowError => some (.runtime .arithmeticPow)
  | .nameAlreadyUsed => do
    let n ← memRead g.mem (g.g32 .errArgOff).toNat (g.g32 .errArgLen).toNat
    some (.nameAlreadyUsed n)
  | .shortReturnExpectedValueResponse => do
    let v ← shortReturnValue sig g
    some (.expectedValue (.err v))
  | .shortReturnExpectedValueOptional => some (.expectedValue .none)
  | .shortReturnExpectedValue => do
    let v ← shortReturnValue sig g
    some (.expectedValue v)
  | .argumentCountMismatch => do
    let (e, a) ← argLengths g
    some (.incorrectArgumentCount e a)
  | .argumentCountAtLeast => do
    let (e, a) ← argLengths g
    some (.requiresAtLeast e a)
  | .argumentCountAtMost => do
    let (e, a) ← argLengths g
    some (.requiresAtMost e a)
  | .costOverrunRuntime | .costOverrunReadCount | .costOverrunReadLength
  | .costOverrunWriteCount | .costOverrunWriteLength => some .costOverflow
  | .notMapped => none

/-- wasm_utils.rs 1743-1747: `ArgumentCountCheck`. -/
inductive ArgCheck
  | exact | atLeast | atMost
  deriving DecidableEq, Repr

/-- wasm_utils.rs 1774-1793: does the check fail? -/
def ArgCheck.fails (c : ArgCheck) (expected actual : Nat) : Bool :=
  match c with
  | .exact => expected != actual
  | .atLeast => expected > actual
  | .atMost => expected < actual

/-- The error code of a failed check. -/
def ArgCheck.code : ArgCheck → Nat
  | .exact => 13
  | .atLeast => 14
  | .atMost => 15

/-- wasm_utils.rs 1749-1795: `check_argument_count`; the literal memory and the emitted code. -/
def checkArgumentCount (L : Lits) (c : ArgCheck) (expected actual : Nat) : Lits × List Instr :=
  if c.fails expected actual then
    let (L, off, l1) := L.add (.bytes (leBytes 4 expected))
    let (L, _, l2) := L.add (.bytes (leBytes 4 actual))
    (L, [.b (.const (.i32 (BitVec.ofNat 32 off))), .b (.global32Set .errArgOff),
         .b (.const (.i32 (BitVec.ofNat 32 (l1 + l2)))), .b (.global32Set .errArgLen),
         .b (.const (.i32 (BitVec.ofNat 32 c.code))), .call (.std .runtime_error)])
  else (L, [])

end Host
