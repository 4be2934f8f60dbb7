import Verif.Spec.Clarity

/-!
Model of the host side of the value ABI, `/repo/clar2wasm/src/wasm_utils.rs`.

Simplifications, for all definitions of this file: `i32` offsets and sizes are natural numbers
(the theorems only speak of values that fit in a memory of at most 2 GiB, where the `i32`
arithmetic of the source does not wrap); every `Err(..)` of the source is `none`; the
`debug_assert!`s (absent from release builds) are left out.
-/

namespace Host
open Wasm Spec

/-- wasmtime `Memory::write`: all bytes, or an error if out of bounds. -/
def put (m : Mem) (o : Nat) (bs : List Byte) : Mem where
  size := m.size
  le := m.le
  byte i := if o ≤ i ∧ i < o + bs.length then bs.getD (i - o) 0#8 else m.byte i

/-- wasmtime `Memory::write`. -/
def memWrite (m : Mem) (o : Nat) (bs : List Byte) : Option Mem :=
  if o + bs.length ≤ m.size then some (put m o bs) else none

/-- wasmtime `Memory::read` of `n` bytes. -/
def memRead (m : Mem) (o n : Nat) : Option (List Byte) :=
  if o + n ≤ m.size then some (bytesAt m o n) else none

/-- `to_le_bytes` of the `n`-byte number `v` (reduced modulo `256^n`). -/
def leBytes : Nat → Nat → List Byte
  | 0, _ => []
  | n + 1, v => BitVec.ofNat 8 v :: leBytes n (v / 256)

/-- `u32::to_be_bytes`. -/
def beBytes4 (v : Nat) : List Byte :=
  [BitVec.ofNat 8 (v / 16777216), BitVec.ofNat 8 (v / 65536), BitVec.ofNat 8 (v / 256),
   BitVec.ofNat 8 v]

/-- wasm_utils.rs 66-79: `PRINCIPAL_BYTES` = version (1) + hash (20). -/
def PRINCIPAL_BYTES : Nat := 1 + 20
/-- wasm_utils.rs 75: `STANDARD_PRINCIPAL_BYTES`. -/
def STANDARD_PRINCIPAL_BYTES : Nat := PRINCIPAL_BYTES + 1
/-- wasm_utils.rs 77-79: `PRINCIPAL_BYTES_MAX`. -/
def PRINCIPAL_BYTES_MAX : Nat := STANDARD_PRINCIPAL_BYTES + 128

/-- wasm_utils.rs 1189-1204: `is_in_memory_type`. -/
def isInMemoryType : Ty → Bool
  | .noType | .int | .uint | .bool | .tuple _ | .opt _ | .resp _ _ => false
  | .buff _ | .ascii _ | .utf8 _ | .list _ _ | .principal | .callable _ | .trait _
  | .traitRef _ => true

mutual
/-- wasm_utils.rs 626-651: `get_type_size`. -/
def typeSize : Ty → Nat
  | .int | .uint => 16
  | .bool => 4
  | .principal | .buff _ | .ascii _ | .utf8 _ | .list _ _ | .callable _ | .trait _
  | .traitRef _ => 8
  | .opt t => 4 + typeSize t
  | .tuple fs => fieldsSize fs
  | .resp o e => 4 + typeSize o + typeSize e
  | .noType => 4
/-- wasm_utils.rs 635-641: the loop over the fields. -/
def fieldsSize : Fields → Nat
  | .nil => 0
  | .cons _ t fs => typeSize t + fieldsSize fs
end

mutual
/-- wasm_utils.rs 654-716: `get_type_in_memory_size`. -/
def typeInMemorySize (r : Bool) : Ty → Nat
  | .int | .uint => 16
  | .ascii n => n + (if r then 8 else 0)
  | .principal | .callable _ | .trait _ | .traitRef _ =>
    PRINCIPAL_BYTES_MAX + (if r then 8 else 0)
  | .opt t => 4 + typeInMemorySize r t
  | .list n e => if r then 8 + n * typeInMemorySize true e else n * typeSize e
  | .buff n => n + (if r then 8 else 0)
  | .utf8 n => n * 4 + (if r then 8 else 0)
  | .noType => 4
  | .bool => 4
  | .tuple fs => fieldsInMemorySize r fs
  | .resp o e => 4 + typeInMemorySize r o + typeInMemorySize r e
/-- wasm_utils.rs 702-708: the loop over the fields. -/
def fieldsInMemorySize (r : Bool) : Fields → Nat
  | .nil => 0
  | .cons _ t fs => typeInMemorySize r t + fieldsInMemorySize r fs
end

/-- wasm_utils.rs 793-806 (also 839-851, 882-895, 1042-1055): write the representation (address
and length) of an in-memory value at `off`, if asked to. -/
def writeRepr (m : Mem) (off im len : Nat) (r : Bool) : Option (Mem × Nat) :=
  if r then do
    let m ← memWrite m off (leBytes 4 im)
    let m ← memWrite m (off + 4) (leBytes 4 len)
    some (m, 8)
  else some (m, 0)

/-- wasm_utils.rs 778-809, 810-854: an in-memory value that is just a byte string. -/
def writeBytes (m : Mem) (off im : Nat) (bs : List Byte) (r : Bool) : Option (Mem × Nat × Nat) := do
  let m ← memWrite m im bs
  let (m, w) ← writeRepr m off im bs.length r
  some (m, w, bs.length)

/-- The bytes of a principal: wasm_utils.rs 986-1041 (version, hash, name length, name) and
1521-1556. The separate consecutive writes of the source are one write here. -/
def principalBytes : Principal → List Byte
  | .standard s => s.version :: s.hash ++ [0#8]
  | .contract c =>
    c.issuer.version :: c.issuer.hash ++ BitVec.ofNat 8 c.name.length :: c.name

/-- wasm_utils.rs 748-777: the 16 bytes of an integer, low half first (two consecutive 8-byte writes
of the source are one 16-byte write here). -/
def intBytes (z : Int) : List Byte :=
  leBytes 8 (z % 2 ^ 64).toNat ++ leBytes 8 (z / 2 ^ 64 % 2 ^ 64).toNat

/-- wasm_utils.rs 866-880: the loop over list elements; `w` writes one element. -/
def writeElems (w : Nat → Nat → Value → Mem → Option (Mem × Nat × Nat)) (off im : Nat) :
    List Value → Mem → Option (Mem × Nat × Nat)
  | [], m => some (m, 0, 0)
  | v :: vs, m => do
    let (m, a, b) ← w off im v m
    let (m, as, bs) ← writeElems w (off + a) (im + b) vs m
    some (m, a + as, b + bs)

mutual
/-- wasm_utils.rs 738-1090: `write_to_wasm`. Returns the memory and the numbers of bytes written
at `off` and at `im`. -/
def writeToWasm : Ty → Nat → Nat → Value → Bool → Mem → Option (Mem × Nat × Nat)
  | .int, off, _, v, _, m => match v with
    | .int z => do
      let m ← memWrite m off (intBytes z)
      some (m, 16, 0)
    | _ => none
  | .uint, off, _, v, _, m => match v with
    | .uint n => do
      let m ← memWrite m off (intBytes n)
      some (m, 16, 0)
    | _ => none
  | .buff _, off, im, v, r, m => match v with
    | .buff bs => writeBytes m off im bs r
    | _ => none
  | .ascii _, off, im, v, r, m => match v with
    | .ascii bs => writeBytes m off im bs r
    | _ => none
  | .utf8 _, off, im, v, r, m => match v with
    | .utf8 cs => writeBytes m off im (cs.flatMap beBytes4) r
    | _ => none
  | .list _ e, off, im, v, r, m => match v with
    | .list vs => do
      let (m, a, b) ← writeElems (fun o i v m => writeToWasm e o i v true m) im
        (im + vs.length * typeSize e) vs m
      let (m, w) ← writeRepr m off im a r
      some (m, w, a + b)
    | _ => none
  | .resp o e, off, im, v, _, m => match v with
    | .ok v => do
      let m ← memWrite m off (leBytes 4 1)
      let (m, a, b) ← writeToWasm o (off + 4) im v true m
      some (m, 4 + a + typeSize e, b)
    | .err v => do
      let m ← memWrite m off (leBytes 4 0)
      let (m, a, b) ← writeToWasm e (off + (4 + typeSize o)) im v true m
      some (m, 4 + typeSize o + a, b)
    | _ => none
  | .bool, off, _, v, _, m => match v with
    | .bool b => do
      let m ← memWrite m off (leBytes 4 (if b then 1 else 0))
      some (m, 4, 0)
    | _ => none
  | .noType, off, _, _, _, m => do
    let m ← memWrite m off [0#8, 0#8, 0#8, 0#8]
    some (m, 4, 0)
  | .opt t, off, im, v, _, m => match v with
    | .some v => do
      let m ← memWrite m off (leBytes 4 1)
      let (m, a, b) ← writeToWasm t (off + 4) im v true m
      some (m, 4 + a, b)
    | .none => do
      let m ← memWrite m off (leBytes 4 0)
      some (m, 4 + typeSize t, 0)
    | _ => none
  | .principal, off, im, v, r, m | .callable _, off, im, v, r, m
  | .trait _, off, im, v, r, m | .traitRef _, off, im, v, r, m => match v with
    | .principal p => writeBytes m off im (principalBytes p) r
    | _ => none
  | .tuple fs, off, im, v, _, m => match v with
    | .tuple kvs => writeFields fs off im kvs m
    | _ => none
/-- wasm_utils.rs 1061-1085: the loop over the fields of the type, each looked up in the value. -/
def writeFields : Fields → Nat → Nat → List (Name × Value) → Mem → Option (Mem × Nat × Nat)
  | .nil, _, _, _, m => some (m, 0, 0)
  | .cons k t fs, off, im, kvs, m => do
    let v ← kvs.lookup k
    let (m, a, b) ← writeToWasm t off im v true m
    let (m, as, bs) ← writeFields fs (off + a) (im + b) kvs m
    some (m, a + as, b + bs)
end

/-- clarity crate `Value::string_ascii_from_bytes`: checks the characters. -/
def asciiFromBytes (bs : List Byte) : Option Value :=
  if bs.all fun b => asciiOk b.toNat then some (.ascii bs) else none

/-- Consecutive 4-byte big-endian numbers. -/
def beWords : List Byte → Option (List Nat)
  | [] => some []
  | a :: b :: c :: d :: bs => do
    let ws ← beWords bs
    some (beNat [a, b, c, d] :: ws)
  | _ => none

/-- clarity crate `Value::string_utf8_from_unicode_scalars`: 4-byte big-endian scalar values. -/
def utf8FromScalars (bs : List Byte) : Option Value := do
  let ws ← beWords bs
  if ws.all fun c => decide (isScalar c) then some (.utf8 ws) else none

/-- clarity crate `StandardPrincipalData::new`: rejects versions above 31. -/
def newStdPrincipal (version : Byte) (hash : List Byte) : Option StdPrincipal :=
  if version.toNat < 32 then some ⟨version, hash⟩ else none

/-- clarity crate `ContractName::try_from`. -/
def newContractName (bs : List Byte) : Option Name :=
  if contractName (bs.map BitVec.toNat) ∧ bs.length ≤ 128 then some bs else none

/-- wasm_utils.rs 428-483 (`read_from_wasm`) and 252-314 (`wasm_to_clarity_value`): principals. -/
def readPrincipal (ty : Ty) (m : Mem) (off : Nat) : Option Value := do
  let ver ← memRead m off 1
  let hash ← memRead m (off + 1) 20
  let s ← newStdPrincipal (ver.getD 0 0#8) hash
  let lenb ← memRead m (off + 21) 1
  let len := (lenb.getD 0 0#8).toNat
  if len = 0 then some (.principal (.standard s))
  else do
    let nm ← memRead m (off + 22) len
    let nm ← newContractName nm
    match ty with
    | .trait t => some (.callable ⟨s, nm⟩ (some t))
    | _ => some (.principal (.contract ⟨s, nm⟩))

/-- wasm_utils.rs 604-619: `read_indirect_offset_and_length`. -/
def readIndirectOffsetAndLength (m : Mem) (off : Nat) : Option (Nat × Nat) := do
  let a ← memRead m off 4
  let b ← memRead m (off + 4) 4
  some (leNat a, leNat b)

/-- wasm_utils.rs 491-503: the `while` loop over list elements; `fuel` bounds the number of
iterations (the caller gives the byte length, each iteration consumes `size ≥ 1` bytes). -/
def readElems (rd : Nat → Option Value) (size end_ : Nat) : Nat → Nat → Option (List Value)
  | 0, cur => if cur < end_ then none else some []
  | fuel + 1, cur =>
    if cur < end_ then do
      let v ← rd cur
      let vs ← readElems rd size end_ fuel (cur + size)
      some (v :: vs)
    else some []

/-- wasm_utils.rs 347-363: `read_from_wasm_indirect`, given the function that reads the type. -/
def indirect (ty : Ty) (rd : Nat → Nat → Option Value) (m : Mem) (off : Nat) : Option Value :=
  if isInMemoryType ty then do
    let (o, l) ← readIndirectOffsetAndLength m off
    rd o l
  else rd off (typeSize ty)

mutual
/-- wasm_utils.rs 367-602: `read_from_wasm`. -/
def readFromWasm : Ty → Mem → Nat → Nat → Option Value
  | .uint, m, off, _ => do
    let lo ← memRead m off 8
    let hi ← memRead m (off + 8) 8
    some (.uint (leNat hi * 2 ^ 64 + leNat lo))
  | .int, m, off, _ => do
    let lo ← memRead m off 8
    let hi ← memRead m (off + 8) 8
    some (.int (wrapI (leNat hi * 2 ^ 64 + leNat lo)))
  | .ascii _, m, off, len => do
    let bs ← memRead m off len
    asciiFromBytes bs
  | .utf8 _, m, off, len => do
    let bs ← memRead m off len
    utf8FromScalars bs
  | .principal, m, off, _ => readPrincipal .principal m off
  | .callable c, m, off, _ => readPrincipal (.callable c) m off
  | .trait t, m, off, _ => readPrincipal (.trait t) m off
  | .traitRef t, m, off, _ => readPrincipal (.traitRef t) m off
  | .buff _, m, off, len => do
    let bs ← memRead m off len
    some (.buff bs)
  | .list _ e, m, off, len => do
    let vs ← readElems (indirect e (readFromWasm e m) m) (typeSize e) (off + len) len off
    some (.list vs)
  | .bool, m, off, _ => do
    let bs ← memRead m off 4
    some (.bool (leNat bs != 0))
  | .tuple fs, m, off, _ => do
    let kvs ← readFields fs m off
    some (.tuple kvs)
  | .resp o e, m, off, _ => do
    let bs ← memRead m off 4
    match leNat bs with
    | 0 => do
      let v ← indirect e (readFromWasm e m) m (off + 4 + typeSize o)
      some (.err v)
    | 1 => do
      let v ← indirect o (readFromWasm o m) m (off + 4)
      some (.ok v)
    | _ => none
  | .opt t, m, off, _ => do
    let bs ← memRead m off 4
    match leNat bs with
    | 0 => some .none
    | 1 => do
      let v ← indirect t (readFromWasm t m) m (off + 4)
      some (.some v)
    | _ => none
  | .noType, _, _, _ => none
/-- wasm_utils.rs 516-527: the loop over the fields. -/
def readFields : Fields → Mem → Nat → Option (List (Name × Value))
  | .nil, _, _ => some []
  | .cons k t fs, m, off => do
    let v ← indirect t (readFromWasm t m) m off
    let kvs ← readFields fs m (off + typeSize t)
    some ((k, v) :: kvs)
end

/-- wasm_utils.rs 347-363: `read_from_wasm_indirect`. -/
def readFromWasmIndirect (ty : Ty) (m : Mem) (off : Nat) : Option Value :=
  indirect ty (readFromWasm ty m) m off

end Host
