import Verif.Host.Abi

/-!
Model of argument passing and result conversion, `/repo/clar2wasm/src/wasm_utils.rs`
(`pass_argument_to_wasm`, `wasm_to_clarity_value`, the argument part of `call_function`).
The simplifications of `Verif/Host/Abi.lean` apply; a Rust panic is also `none`.
-/

namespace Host
open Wasm Spec

mutual
/-- wasm_utils.rs 1207-1241: `clar2wasm_ty`; `unimplemented!` for trait references. -/
def wasmTys : Ty → Option (List VT)
  | .noType => some [.i32]
  | .int | .uint => some [.i64, .i64]
  | .resp o e => do
    let a ← wasmTys o
    let b ← wasmTys e
    some (.i32 :: a ++ b)
  | .buff _ | .ascii _ | .utf8 _ | .list _ _ => some [.i32, .i32]
  | .bool => some [.i32]
  | .principal | .callable _ | .trait _ => some [.i32, .i32]
  | .opt t => do
    let a ← wasmTys t
    some (.i32 :: a)
  | .tuple fs => wasmTysF fs
  | .traitRef _ => none
/-- wasm_utils.rs 1232-1238: the loop over the fields. -/
def wasmTysF : Fields → Option (List VT)
  | .nil => some []
  | .cons _ t fs => do
    let a ← wasmTys t
    let b ← wasmTysF fs
    some (a ++ b)
end

/-- wasm_utils.rs 1369-1380: an integer argument, low half first. -/
def intVals (z : Int) : List Val := [.i64 (BitVec.ofInt 64 z), .i64 (BitVec.ofInt 64 (z / 2 ^ 64))]

/-- wasm_utils.rs 1454-1467, 1468-1482, 1483-1496, 1521-1534, 1535-1556: byte strings are written
at `im` and passed as address and length. -/
def passBytes (bs : List Byte) (off im : Nat) (m : Mem) : Option (List Val × Nat × Nat × Mem) := do
  let m ← memWrite m im bs
  some ([.i32 (BitVec.ofNat 32 im), .i32 (BitVec.ofNat 32 bs.length)], off, im + bs.length, m)

mutual
/-- wasm_utils.rs 1360-1580: `pass_argument_to_wasm`. Returns the Wasm values, the two advanced
offsets and the memory. -/
def passArg : Ty → Value → Nat → Nat → Mem → Option (List Val × Nat × Nat × Mem)
  | _, .uint n, off, im, m => some (intVals n, off, im, m)
  | _, .int z, off, im, m => some (intVals z, off, im, m)
  | _, .bool b, off, im, m => some ([.i32 (if b then 1#32 else 0#32)], off, im, m)
  | .opt t, .some v, off, im, m => do
    let (vs, off, im, m) ← passArg t v off im m
    some (.i32 1#32 :: vs, off, im, m)
  | .opt t, .none, off, im, m => do
    let ts ← wasmTys (.opt t)
    some (ts.map VT.zero, off, im, m)
  | .resp o e, .ok v, off, im, m => do
    let (vs, off, im, m) ← passArg o v off im m
    let ts ← wasmTys e
    some (.i32 1#32 :: (vs ++ ts.map VT.zero), off, im, m)
  | .resp o e, .err v, off, im, m => do
    let (vs, off, im, m) ← passArg e v off im m
    let ts ← wasmTys o
    some (.i32 0#32 :: (ts.map VT.zero ++ vs), off, im, m)
  | _, .ascii bs, off, im, m => passBytes bs off im m
  | _, .utf8 cs, off, im, m => passBytes (cs.flatMap beBytes4) off im m
  | _, .buff bs, off, im, m => passBytes bs off im m
  | .list _ e, .list vs, off, im, m => do
    let (m, a, b) ← writeElems (fun o i v m => writeToWasm e o i v true m) off im vs m
    some ([.i32 (BitVec.ofNat 32 off), .i32 (BitVec.ofNat 32 a)], off + a, im + b, m)
  | _, .principal p, off, im, m => passBytes (principalBytes p) off im m
  | _, .callable c _, off, im, m => passBytes (principalBytes (.contract c)) off im m
  | .tuple fs, .tuple kvs, off, im, m => passFields fs kvs off im m
  | _, _, _, _, _ => none
/-- wasm_utils.rs 1562-1577: the loop over the fields. -/
def passFields : Fields → List (Name × Value) → Nat → Nat → Mem →
    Option (List Val × Nat × Nat × Mem)
  | .nil, _, off, im, m => some ([], off, im, m)
  | .cons k t fs, kvs, off, im, m => do
    let v ← kvs.lookup k
    let (a, off, im, m) ← passArg t v off im m
    let (b, off, im, m) ← passFields fs kvs off im m
    some (a ++ b, off, im, m)
end

/-- wasm_utils.rs 1318-1327 (`call_function`): the loop over the arguments. -/
def passArgsFrom : List (Ty × Value) → Nat → Nat → Mem → Option (List Val × Nat × Nat × Mem)
  | [], off, im, m => some ([], off, im, m)
  | (t, v) :: args, off, im, m => do
    let (a, off, im, m) ← passArg t v off im m
    let (b, off, im, m) ← passArgsFrom args off im m
    some (a ++ b, off, im, m)

/-- wasm_utils.rs 1311-1327: space for the list representations is reserved at the stack pointer,
the in-memory parts follow. -/
def passArgs (args : List (Ty × Value)) (sp : Nat) (m : Mem) :
    Option (List Val × Nat × Nat × Mem) :=
  passArgsFrom args sp (sp + (args.map fun a => typeInMemorySize false a.1).sum) m

/-- `offset as usize` for an `i32` on a 64-bit host. -/
def asUsize (v : BitVec 32) : Nat := if v.toNat < 2 ^ 31 then v.toNat else v.toNat + (2 ^ 64 - 2 ^ 32)

/-- `buffer[i].i32()` -/
def getI32 (buf : List Val) (i : Nat) : Option (BitVec 32) :=
  match buf[i]? with
  | some (.i32 v) => some v
  | _ => none

/-- `buffer[i].i64()` -/
def getI64 (buf : List Val) (i : Nat) : Option (BitVec 64) :=
  match buf[i]? with
  | some (.i64 v) => some v
  | _ => none

/-- The address and length of a sequence, as used at wasm_utils.rs 197-209, 212-227, 228-240,
241-251. -/
def getSlice (buf : List Val) (i : Nat) : Option (Nat × Nat) := do
  let o ← getI32 buf i
  let l ← getI32 buf (i + 1)
  some (asUsize o, asUsize l)

mutual
/-- wasm_utils.rs 91-339: `wasm_to_clarity_value`. -/
def wasmToClarity : Ty → Nat → List Val → Mem → Option (Option Value × Nat)
  | .int, i, buf, _ => do
    let lo ← getI64 buf i
    let hi ← getI64 buf (i + 1)
    some (some (.int (wrapI (hi.toInt * 2 ^ 64 + lo.toNat))), 2)
  | .uint, i, buf, _ => do
    let lo ← getI64 buf i
    let hi ← getI64 buf (i + 1)
    some (some (.uint (hi.toNat * 2 ^ 64 + lo.toNat)), 2)
  | .bool, i, buf, _ => do
    let b ← getI32 buf i
    some (some (.bool (b != 0#32)), 1)
  | .opt t, i, buf, m => do
    let ts ← wasmTys t
    let ind ← getI32 buf i
    if ind = 1#32 then do
      let (v, _) ← wasmToClarity t (i + 1) buf m
      let v ← v
      some (some (.some v), 1 + ts.length)
    else some (some .none, 1 + ts.length)
  | .resp o e, i, buf, m => do
    let os ← wasmTys o
    let es ← wasmTys e
    let ind ← getI32 buf i
    if ind = 1#32 then do
      let (v, _) ← wasmToClarity o (i + 1) buf m
      let v ← v
      some (some (.ok v), 1 + os.length + es.length)
    else do
      let (v, _) ← wasmToClarity e (i + 1 + os.length) buf m
      let v ← v
      some (some (.err v), 1 + os.length + es.length)
  | .ascii _, i, buf, m => do
    let (o, l) ← getSlice buf i
    let bs ← memRead m o l
    let v ← asciiFromBytes bs
    some (some v, 2)
  | .noType, _, _, _ => some (none, 1)
  | .utf8 _, i, buf, m => do
    let (o, l) ← getSlice buf i
    let bs ← memRead m o l
    let v ← utf8FromScalars bs
    some (some v, 2)
  | .buff _, i, buf, m => do
    let (o, l) ← getSlice buf i
    let bs ← memRead m o l
    some (some (.buff bs), 2)
  | .list n e, i, buf, m => do
    let (o, l) ← getSlice buf i
    let v ← readFromWasm (.list n e) m o l
    some (some v, 2)
  | .principal, i, buf, m => do
    let o ← getI32 buf i
    let v ← readPrincipal .principal m (asUsize o)
    some (some v, 2)
  | .callable c, i, buf, m => do
    let o ← getI32 buf i
    let v ← readPrincipal (.callable c) m (asUsize o)
    some (some v, 2)
  | .trait t, i, buf, m => do
    let o ← getI32 buf i
    let v ← readPrincipal (.trait t) m (asUsize o)
    some (some v, 2)
  | .traitRef t, i, buf, m => do
    let o ← getI32 buf i
    let v ← readPrincipal (.traitRef t) m (asUsize o)
    some (some v, 2)
  | .tuple fs, i, buf, m => do
    let (kvs, n) ← wasmToFields fs i buf m
    some (some (.tuple kvs), n)
/-- wasm_utils.rs 315-333: the loop over the fields. -/
def wasmToFields : Fields → Nat → List Val → Mem → Option (List (Name × Value) × Nat)
  | .nil, _, _, _ => some ([], 0)
  | .cons k t fs, i, buf, m => do
    let (v, n) ← wasmToClarity t i buf m
    let v ← v
    let (kvs, n') ← wasmToFields fs (i + n) buf m
    some ((k, v) :: kvs, n + n')
end

/-- Converting consecutive groups of Wasm values back at the given types. -/
def backFrom : List Ty → Nat → List Val → Mem → Option (List Value)
  | [], _, _, _ => some []
  | t :: ts, i, buf, m => do
    let (v, n) ← wasmToClarity t i buf m
    let v ← v
    let vs ← backFrom ts (i + n) buf m
    some (v :: vs)

end Host
