import Verif.Stdlib.Names

/-!
Abstract syntax of the WebAssembly subset used by clarity-wasm
(`/repo/clar2wasm/src/standard/standard.wat` and the instruction sequences emitted by
`/repo/clar2wasm/src/wasm_generator.rs`).
-/

namespace Wasm

/-- Wasm value types (number types i32, i64 and the vector type v128 are the only ones used). -/
inductive VT
  | i32 | i64 | v128
  deriving DecidableEq, Repr, Inhabited

/-- Wasm values. -/
inductive Val
  | i32 (v : BitVec 32)
  | i64 (v : BitVec 64)
  | v128 (v : BitVec 128)
  deriving DecidableEq, Repr, Inhabited

/-- The type of a value. -/
def Val.ty : Val → VT
  | .i32 _ => .i32
  | .i64 _ => .i64
  | .v128 _ => .v128

/-- The default (zero) value of a type; initial contents of non-parameter locals. -/
def VT.zero : VT → Val
  | .i32 => .i32 0#32
  | .i64 => .i64 0#64
  | .v128 => .v128 0#128

/-- Total integer binary operators (both widths). -/
inductive IBin
  | add | sub | mul | and | or | xor | shl | shrU | shrS | rotl | rotr
  deriving DecidableEq, Repr

/-- Integer division operators, which trap. -/
inductive IDiv
  | divU | remU | divS
  deriving DecidableEq, Repr

/-- Integer relational operators. -/
inductive IRel
  | eq | ne | ltU | ltS | gtU | gtS | leU | leS | geU | geS
  deriving DecidableEq, Repr

/-- Global variables of type i32: standard.wat 342-348 and those added by the code generator. -/
inductive G32
  | stackPointer | errCode | errArgOff | errArgLen | errValOff | errTyOff | errTyLen
  | user (n : Nat)
  deriving DecidableEq, Repr

/-- Global variables of type i64 (the five cost budgets, standard.wat 334-339 and cost.rs). -/
inductive G64
  | costRuntime | costReadCount | costReadLength | costWriteCount | costWriteLength
  deriving DecidableEq, Repr

/-- Function identifiers: runtime library, imported host functions, functions of the contract. -/
inductive FId
  | std (f : StdFn)
  | host (f : HostFn)
  | user (n : Nat)
  deriving DecidableEq, Repr

/-- Basic (non-control) instructions. Offsets of memory accesses are natural numbers. -/
inductive Basic
  | const (v : Val)
  | i32bin (op : IBin)
  | i64bin (op : IBin)
  | i32div (op : IDiv)
  | i64div (op : IDiv)
  | i32rel (op : IRel)
  | i64rel (op : IRel)
  | i32eqz
  | i64eqz
  | i32clz
  | i64clz
  | i32wrap
  | i64extU
  | i64extS
  | drop
  | select
  | localGet (n : Nat)
  | localSet (n : Nat)
  | localTee (n : Nat)
  | global32Get (x : G32)
  | global32Set (x : G32)
  | global64Get (x : G64)
  | global64Set (x : G64)
  /-- `i32.loadN_u`: `n` bytes, zero-extended; `n = 4` is `i32.load` -/
  | i32load (n : Nat) (off : Nat)
  | i64load (n : Nat) (off : Nat)
  | i32store (n : Nat) (off : Nat)
  | i64store (n : Nat) (off : Nat)
  | v128load (off : Nat)
  | v128store (off : Nat)
  | v128and
  | v128xor
  | v128anyTrue
  | i8x16swizzle
  | i64x2extract (lane : Nat)
  | memCopy
  | memFill
  deriving DecidableEq, Repr

/-- Instructions. `block`, `loop`, `ite` carry the number of parameters and of results. -/
inductive Instr
  | b (op : Basic)
  | block (np nr : Nat) (body : List Instr)
  | loop (np nr : Nat) (body : List Instr)
  | ite (np nr : Nat) (thn els : List Instr)
  | br (l : Nat)
  | brIf (l : Nat)
  | ret
  | unreachable
  | call (f : FId)
  | callIndirect (params results : List VT)
  deriving Repr

/-- A function: parameter types, result types, types of the further locals, body. -/
structure Func where
  params : List VT
  results : List VT
  locals : List VT
  body : List Instr
  deriving Repr

end Wasm
