import Verif.Host.AbiProof

/-!
Model of the literal memory of a contract, `/repo/clar2wasm/src/wasm_generator.rs` 36-60, 361-422,
808-980, with the two other places that advance `literal_memory_end`
(`words/constants.rs` 50-88, `words/data_vars.rs` 54-67).

Simplification: `u32` offsets are natural numbers (the theorems assume that the end of the literal
memory stays below `2^32`; the source would panic or wrap).
-/

namespace Host
open Wasm Spec

/-- wasm_generator.rs 33: `END_OF_STANDARD_DATA`. -/
def END_OF_STANDARD_DATA : Nat := 1352

/-- wasm_generator.rs 113-118: `LiteralMemoryEntry`. A Rust `String` is the list of its bytes
(`Ascii`) or of its scalar values (`Utf8`). -/
inductive LitKey
  | ascii (s : List Byte)
  | utf8 (cs : List Nat)
  | bytes (bs : List Byte)
  deriving DecidableEq

/-- The part of `WasmGenerator` concerned: `literal_memory_end`, `literal_memory_offset` and the
active data segments added to the module. -/
structure Lits where
  fin : Nat
  map : List (LitKey × Nat)
  segs : List (Nat × List Byte)

/-- wasm_generator.rs 331-333. -/
def Lits.init : Lits := ⟨END_OF_STANDARD_DATA, [], []⟩

/-- A lower-case hexadecimal digit. -/
def hexDigit (n : Nat) : Byte := BitVec.ofNat 8 (if n < 10 then 48 + n else 87 + n)

/-- `std::ascii::escape_default`. -/
def escapeByte (b : Byte) : List Byte :=
  if b = 9#8 then [92#8, 116#8] else
  if b = 13#8 then [92#8, 114#8] else
  if b = 10#8 then [92#8, 110#8] else
  if b = 39#8 then [92#8, 39#8] else
  if b = 34#8 then [92#8, 34#8] else
  if b = 92#8 then [92#8, 92#8] else
  if 32 ≤ b.toNat ∧ b.toNat < 127 then [b] else
  [92#8, 120#8, hexDigit (b.toNat / 16), hexDigit (b.toNat % 16)]

/-- clarity crate, `Display for ASCIIData`: the escaped characters between double quotes. -/
def asciiKey (data : List Byte) : List Byte := 34#8 :: (data.flatMap escapeByte ++ [34#8])

/-- Add a data segment at the end of the literal memory. -/
def Lits.push (L : Lits) (data : List Byte) : Lits :=
  ⟨L.fin + data.length, L.map, L.segs ++ [(L.fin, data)]⟩

/-- The common pattern of wasm_generator.rs 809-906: return the offset stored for `key`, or add
`data` and remember its offset. -/
def Lits.intern (L : Lits) (key : LitKey) (data : List Byte) : Lits × Nat × Nat :=
  match L.map.lookup key with
  | some off => (L, off, data.length)
  | none => ({ L.push data with map := (key, L.fin) :: L.map }, L.fin, data.length)

/-- What a contract puts into its literal memory. -/
inductive Lit
  /-- a string-ascii literal -/
  | ascii (data : List Byte)
  /-- a string-utf8 literal -/
  | utf8 (cs : List Nat)
  /-- an identifier -/
  | name (s : List Byte)
  /-- raw bytes (trait identifiers, argument counts, name tables) -/
  | bytes (bs : List Byte)
  | int (z : Int) | uint (n : Nat) | principal (p : Principal) | buff (bs : List Byte)
  /-- the (offset, length) reference of a constant -/
  | ref (off len : Nat)
  /-- space for a value computed at run time (constants, initial values of data variables) -/
  | reserve (n : Nat)

/-- Adding one literal; the result is the offset and length handed to the code generator.
* `ascii`, `utf8`: wasm_generator.rs 809-856 `add_clarity_string_literal`;
* `name`: 859-883 `add_string_literal`; `bytes`: 885-906 `add_bytes_literal`;
* `int`, `uint`, `principal`, `buff`: 918-980 `add_literal`;
* `ref`: words/constants.rs 54-70; `reserve`: words/constants.rs 84-88, words/data_vars.rs 54-67. -/
def Lits.add (L : Lits) : Lit → Lits × Nat × Nat
  | .ascii data => L.intern (.ascii (asciiKey data)) data
  | .utf8 cs => L.intern (.utf8 cs) (cs.flatMap beBytes4)
  | .name s => L.intern (.ascii s) s
  | .bytes bs => L.intern (.bytes bs) bs
  | .int z => (L.push (intBytes z), L.fin, 16)
  | .uint n => (L.push (intBytes n), L.fin, 16)
  | .principal p => (L.push (principalBytes p), L.fin, (principalBytes p).length)
  | .buff bs => (L.push bs, L.fin, bs.length)
  | .ref o l => (L.push (leBytes 4 o ++ leBytes 4 l), L.fin, 8)
  | .reserve n => ({ L with fin := L.fin + n }, L.fin, n)

/-- Adding literals one after another. -/
def Lits.addAll : Lits → List Lit → Lits × List (Nat × Nat)
  | L, [] => (L, [])
  | L, l :: ls =>
    let (L, r) := L.add l
    let (L, rs) := L.addAll ls
    (L, r :: rs)

/-- Instantiation of the module: the active data segments are copied into the memory, in order. -/
def Lits.image (m : Mem) (segs : List (Nat × List Byte)) : Mem :=
  segs.foldl (fun m s => put m s.1 s.2) m

/-- wasm_generator.rs 361-378: `set_memory_pages`, the initial memory size in bytes. -/
def memoryBytes (literalMemoryEnd frameSize maxWorkSpace : Nat) : Nat :=
  let total := literalMemoryEnd + frameSize + maxWorkSpace
  (total / (64 * 1024) + (if total % (64 * 1024) > 0 then 1 else 0)) * (64 * 1024)

end Host
