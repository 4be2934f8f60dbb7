import Verif.Host.Abi
import Verif.Wasm.Sem

/-!
Model of the code that `/repo/clar2wasm/src/wasm_generator.rs` emits to move values between the
operand stack, locals and memory. Emitted code is a list of instructions; a local is its index.

Simplifications, for all definitions of this file: walrus numbers the locals of a function when the
module is written, here they are numbered in the order they are requested; a local borrowed from the
pool (`borrow_local`, 1050-1064) is a fresh one here; offsets are natural numbers (`u32` in the
source); `ListUnionType`, which no value has, is left out.
-/

namespace Gen
open Wasm Spec Host

mutual
/-- wasm_generator.rs 204-238: `clar2wasm_ty`. -/
def wty : Ty → List VT
  | .noType => [.i32]
  | .int | .uint => [.i64, .i64]
  | .resp o e => .i32 :: (wty o ++ wty e)
  | .buff _ | .ascii _ | .utf8 _ | .list _ _ => [.i32, .i32]
  | .bool => [.i32]
  | .principal | .callable _ | .trait _ | .traitRef _ => [.i32, .i32]
  | .opt t => .i32 :: wty t
  | .tuple fs => wtyF fs
/-- wasm_generator.rs 231-237: the loop over the fields. -/
def wtyF : Fields → List VT
  | .nil => []
  | .cons _ t fs => wty t ++ wtyF fs
end

/-- wasm_generator.rs 180-202: `add_placeholder_for_clarity_type`. -/
def placeholder (T : Ty) : List Instr := (wty T).map fun t => .b (.const t.zero)

/-- wasm_generator.rs 252-257: `drop_value`. -/
def dropValue (T : Ty) : List Instr := (wty T).map fun _ => .b .drop

/-- `for l in locals { builder.local_get(l) }`. -/
def getLocals (ls : List Nat) : List Instr := ls.map fun l => .b (.localGet l)

/-- `local_set` of all the locals, the last one first (the top of the stack is the last value). -/
def setLocals (ls : List Nat) : List Instr := ls.reverse.map fun l => .b (.localSet l)

/-- wasm_generator.rs 1560-1581: `save_to_locals(.., fix_ordering = true)` when the next fresh local
is `n`: the locals are requested from the last value to the first, so in logical order they are
numbered downwards. -/
def saveLocals (T : Ty) (n : Nat) : List Nat :=
  (List.range' n (wty T).length).reverse

/-- The code of `save_to_locals`. -/
def saveCode (T : Ty) (n : Nat) : List Instr := setLocals (saveLocals T n)

/-- `i32.const` of an offset, length, size or flag. -/
def c32 (n : Nat) : Instr := .b (.const (.i32 (BitVec.ofNat 32 n)))

/-- `local.get`. -/
def lget (l : Nat) : Instr := .b (.localGet l)

/-- `local.set`. -/
def lset (l : Nat) : Instr := .b (.localSet l)

/-- Emitted code, the types of the locals it requested, and a size in bytes. -/
structure Code where
  is : List Instr
  ls : List VT
  sz : Nat

/-- `local_get(offset_local) local_get(l) store` of an i32. -/
def store32 (ol off l : Nat) : List Instr :=
  [.b (.localGet ol), .b (.localGet l), .b (.i32store 4 off)]

/-- `local_get(offset_local) local_get(l) store` of an i64. -/
def store64 (ol off l : Nat) : List Instr :=
  [.b (.localGet ol), .b (.localGet l), .b (.i64store 8 off)]

mutual
/-- wasm_generator.rs 1066-1230: `write_to_memory` with `offset_local = ol`; `n` is the next fresh
local; the size is the returned number of bytes. -/
def writeMem (ol : Nat) : Ty → Nat → Nat → Code
  | .int, off, n | .uint, off, n =>
    ⟨[.b (.localSet n), .b (.localSet (n + 1))] ++ store64 ol off (n + 1) ++ store64 ol (off + 8) n,
      [.i64, .i64], 16⟩
  | .principal, off, n | .callable _, off, n | .trait _, off, n | .traitRef _, off, n
  | .buff _, off, n | .ascii _, off, n | .utf8 _, off, n | .list _ _, off, n =>
    ⟨[.b (.localSet (n + 1)), .b (.localSet n)] ++ store32 ol off n ++ store32 ol (off + 4) (n + 1),
      [.i32, .i32], 8⟩
  | .bool, off, n => ⟨.b (.localSet n) :: store32 ol off n, [.i32], 4⟩
  | .noType, off, _ =>
    ⟨[.b .drop, .b (.localGet ol), .b (.const (.i32 0#32)), .b (.i32store 4 off)], [], 4⟩
  | .opt t, off, n =>
    let c := writeMem ol t (off + 4) n
    let l := n + c.ls.length
    ⟨c.is ++ .b (.localSet l) :: store32 ol off l, c.ls ++ [.i32], 4 + c.sz⟩
  | .resp o e, off, n =>
    let c := writeMem ol e (off + 4 + typeSize o) n
    let d := writeMem ol o (off + 4) (n + c.ls.length)
    let l := n + c.ls.length + d.ls.length
    ⟨c.is ++ d.is ++ .b (.localSet l) :: store32 ol off l, c.ls ++ d.ls ++ [.i32], c.sz + d.sz + 4⟩
  | .tuple fs, off, n => writeMemF ol fs off n
/-- wasm_generator.rs 1196-1224: the fields, from last to first, each at its offset. -/
def writeMemF (ol : Nat) : Fields → Nat → Nat → Code
  | .nil, _, _ => ⟨[], [], 0⟩
  | .cons _ t fs, off, n =>
    let c := writeMemF ol fs (off + typeSize t) n
    let d := writeMem ol t off (n + c.ls.length)
    ⟨c.is ++ d.is, c.ls ++ d.ls, c.sz + d.sz⟩
end

/-- `local_get(offset) load` of an i32. -/
def load32 (ol off : Nat) : List Instr := [.b (.localGet ol), .b (.i32load 4 off)]

/-- `local_get(offset) load` of an i64. -/
def load64 (ol off : Nat) : List Instr := [.b (.localGet ol), .b (.i64load 8 off)]

mutual
/-- wasm_generator.rs 1233-1358: `read_from_memory` with `offset = ol`; the size is the returned
number of bytes. -/
def readMem (ol : Nat) : Ty → Nat → Code
  | .int, off | .uint, off => ⟨load64 ol off ++ load64 ol (off + 8), [], 16⟩
  | .opt t, off =>
    let c := readMem ol t (off + 4)
    ⟨load32 ol off ++ c.is, [], 4 + c.sz⟩
  | .resp o e, off =>
    let c := readMem ol o (off + 4)
    let d := readMem ol e (off + (4 + c.sz))
    ⟨load32 ol off ++ c.is ++ d.is, [], 4 + c.sz + d.sz⟩
  | .principal, off | .callable _, off | .trait _, off | .traitRef _, off
  | .buff _, off | .ascii _, off | .utf8 _, off | .list _ _, off =>
    ⟨load32 ol off ++ load32 ol (off + 4), [], 8⟩
  | .tuple fs, off => readMemF ol fs off 0
  | .noType, _ => ⟨[.b (.const (.i32 0#32))], [], 4⟩
  | .bool, off => ⟨load32 ol off, [], 4⟩
/-- wasm_generator.rs 1326-1335: the loop over the fields, `adj` being `offset_adjust`. -/
def readMemF (ol : Nat) : Fields → Nat → Nat → Code
  | .nil, _, adj => ⟨[], [], adj⟩
  | .cons _ t fs, off, adj =>
    let c := readMem ol t (off + adj)
    let d := readMemF ol fs off (adj + c.sz)
    ⟨c.is ++ d.is, [], d.sz⟩
end

/-- wasm_generator.rs 1010-1048: `create_call_stack_local`: the space it reserves. -/
def stackLocalSize (T : Ty) (repr value : Bool) : Nat :=
  match value, repr with
  | true, true => typeInMemorySize true T + typeSize T
  | true, false => typeInMemorySize false T
  | false, true => typeSize T
  | false, false => 0

/-- wasm_generator.rs 1010-1048: the code of `create_call_stack_local` for a given size; `n` is the
fresh local that holds the address. -/
def allocCode (n size : Nat) : List Instr :=
  [.b (.global32Get .stackPointer), .b (.localTee n), .b (.const (.i32 (BitVec.ofNat 32 size))),
   .b (.i32bin .add), .b (.global32Set .stackPointer)]

end Gen
