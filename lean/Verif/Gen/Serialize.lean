import Verif.Gen.Mem

/-!
Model of `/repo/clar2wasm/src/serialize.rs`: the code that writes the consensus serialization of a
value on the operand stack to memory. Simplifications: as in `Gen/Mem.lean`; the offset of a tuple key
in the data segment (`add_string_literal`) is given by the function `lit`.
-/

namespace Gen
open Wasm Spec Host

/-- Emitted code and the types of the locals it requested. -/
structure Emit where
  is : List Instr
  ls : List VT

/-- serialize.rs, `local_get(offset_local) i32_const(prefix) store8`: a type prefix. -/
def putTag (ol off t : Nat) : List Instr := [lget ol, c32 t, .b (.i32store 1 off)]

/-- serialize.rs 40-49, 119-129: the write pointer `l`, left on the stack. -/
def startPtr (ol off l : Nat) : List Instr :=
  if 0 < off then [lget ol, c32 off, .b (.i32bin .add), .b (.localTee l)] else [lget ol, .b (.localTee l)]

/-- serialize.rs 21-96: `serialize_integer`; locals `n`: high, `n + 1`: low, `n + 2`: write pointer. -/
def serInt (signed : Bool) (ol off n : Nat) : Emit :=
  ⟨[lset n, lset (n + 1)] ++ startPtr ol off (n + 2) ++
    [c32 (if signed then 0 else 1), .b (.i32store 1 0),
     lget (n + 2), c32 1, .b (.i32bin .add), .b (.localTee (n + 2)), lget n, .call (.std .store_i64_be),
     lget (n + 2), c32 8, .b (.i32bin .add), .b (.localTee (n + 2)), lget (n + 1),
     .call (.std .store_i64_be), c32 17], [.i64, .i64, .i32]⟩

/-- serialize.rs 107-225: `serialize_principal`; locals `n`: offset, `n + 1`: length, `n + 2`: write
pointer. -/
def serPrincipal (ol off n : Nat) : Emit :=
  ⟨[lset (n + 1), lset n] ++ startPtr ol off (n + 2) ++
    [c32 1, .b (.i32bin .add), lget n, c32 PRINCIPAL_BYTES, .b .memCopy,
     lget (n + 1), c32 STANDARD_PRINCIPAL_BYTES, .b (.i32rel .gtS),
     .ite 0 1
      [lget (n + 2), c32 (PRINCIPAL_BYTES + 1), .b (.i32bin .add),
       lget (n + 1), c32 STANDARD_PRINCIPAL_BYTES, .b (.i32bin .sub), .b (.i32store 1 0),
       lget (n + 2), c32 (PRINCIPAL_BYTES + 2), .b (.i32bin .add),
       lget n, c32 STANDARD_PRINCIPAL_BYTES, .b (.i32bin .add),
       lget (n + 1), c32 STANDARD_PRINCIPAL_BYTES, .b (.i32bin .sub), .b .memCopy,
       lget (n + 1), c32 1, .b (.i32bin .add),
       lget (n + 2), c32 6, .b (.i32store 1 0)]
      [c32 (PRINCIPAL_BYTES + 1), lget (n + 2), c32 5, .b (.i32store 1 0)]], [.i32, .i32, .i32]⟩

/-- serialize.rs 323-356: `serialize_bool`. -/
def serBool (ol off n : Nat) : Emit :=
  ⟨[lset n, lget ol, c32 3, c32 4, lget n, .b .select, .b (.i32store 1 off), c32 1], [.i32]⟩

/-- serialize.rs 577-633, 644-700: `serialize_buffer`, `serialize_string_ascii`; locals `n`: write
pointer, `n + 1`: read pointer, `n + 2`: length. -/
def serBytes (t ol off n : Nat) : Emit :=
  ⟨[lset (n + 2), lset (n + 1)] ++ putTag ol off t ++
    [lget ol, c32 (off + 1), .b (.i32bin .add), .b (.localTee n), lget (n + 2),
     .call (.std .store_i32_be), lget n, c32 4, .b (.i32bin .add), .b (.localTee n),
     lget (n + 1), lget (n + 2), .b .memCopy, lget (n + 2), c32 5, .b (.i32bin .add)], [.i32, .i32, .i32]⟩

/-- serialize.rs 711-769: `serialize_string_utf8`; locals as before, `n + 3`: length of the UTF-8
text. -/
def serUtf8 (ol off n : Nat) : Emit :=
  ⟨[lset (n + 2), lset (n + 1)] ++ putTag ol off 14 ++
    [lget ol, c32 (off + 5), .b (.i32bin .add), lset n, lget (n + 1), lget (n + 2), lget n,
     .call (.std .convert_scalars_to_utf8), .b (.localTee (n + 3)),
     lget ol, c32 (off + 1), .b (.i32bin .add), lget (n + 3), .call (.std .store_i32_be),
     c32 5, .b (.i32bin .add)], [.i32, .i32, .i32, .i32]⟩

/-- serialize.rs 444-568: `serialize_list`, given the code of the element; locals `n`: write pointer,
`n + 1`: read pointer, `n + 2`: remaining bytes. -/
def serList (e : Ty) (elem : Emit) (ol off n : Nat) : Emit :=
  ⟨putTag ol off 11 ++ [lset (n + 2), lset (n + 1), lget (n + 2), .b .i32eqz,
    .ite 0 1 [lget ol, c32 0, .b (.i32store 4 (off + 1)), c32 5]
      [lget ol, c32 (off + 1), .b (.i32bin .add), .b (.localTee n),
       lget (n + 2), c32 (typeSize e), .b (.i32div .divU), .call (.std .store_i32_be),
       lget n, c32 4, .b (.i32bin .add), lset n,
       .loop 0 0 ((readMem (n + 1) e 0).is ++ (elem.is ++
        [lget n, .b (.i32bin .add), lset n, lget (n + 1), c32 (typeSize e), .b (.i32bin .add), lset (n + 1),
         lget (n + 2), c32 (typeSize e), .b (.i32bin .sub), .b (.localTee (n + 2)), .brIf 0])),
       lget n, lget ol, c32 off, .b (.i32bin .add), .b (.i32bin .sub)]],
    .i32 :: .i32 :: .i32 :: elem.ls⟩

/-- The number of fields. -/
def countF : Fields → Nat
  | .nil => 0
  | .cons _ _ fs => countF fs + 1

mutual
/-- serialize.rs 895-942: `serialize_to_memory` with `offset_local = ol`, `offset = off`; `n` is the
next fresh local. -/
def ser (lit : Name → Nat) : Ty → Nat → Nat → Nat → Emit
  | .int, ol, off, n => serInt true ol off n
  | .uint, ol, off, n => serInt false ol off n
  | .principal, ol, off, n | .callable _, ol, off, n | .trait _, ol, off, n | .traitRef _, ol, off, n =>
    serPrincipal ol off n
  -- serialize.rs 235-312
  | .resp o e, ol, off, n =>
    let n1 := n + (wty e).length
    let n2 := n1 + (wty o).length
    let a := ser lit o ol (off + 1) n2
    let b := ser lit e ol (off + 1) (n2 + a.ls.length)
    ⟨saveCode e n ++ saveCode o n1 ++
      [.ite 0 1 (putTag ol off 7 ++ getLocals (saveLocals o n1) ++ a.is)
        (putTag ol off 8 ++ getLocals (saveLocals e n) ++ b.is), c32 1, .b (.i32bin .add)],
      wty e ++ wty o ++ a.ls ++ b.ls⟩
  | .bool, ol, off, n => serBool ol off n
  -- serialize.rs 365-432
  | .opt t, ol, off, n =>
    let n1 := n + (wty t).length
    let a := ser lit t ol (off + 1) n1
    ⟨saveCode t n ++
      [.ite 0 1 (putTag ol off 10 ++ getLocals (saveLocals t n) ++ a.is ++ [c32 1, .b (.i32bin .add)])
        (putTag ol off 9 ++ [c32 1])], wty t ++ a.ls⟩
  | .list _ e, ol, off, n => serList e (ser lit e n 0 (n + 3)) ol off n
  | .buff _, ol, off, n => serBytes 2 ol off n
  | .ascii _, ol, off, n => serBytes 13 ol off n
  | .utf8 _, ol, off, n => serUtf8 ol off n
  -- serialize.rs 780-890
  | .tuple fs, ol, off, n =>
    let n1 := n + 1 + (wtyF fs).length
    let a := serF lit fs n (saveLocals (.tuple fs) (n + 1)) n1
    ⟨saveCode (.tuple fs) (n + 1) ++ putTag ol off 12 ++
      [lget ol, c32 (off + 1), .b (.i32bin .add), .b (.localTee n), c32 (countF fs),
       .call (.std .store_i32_be), lget n, c32 4, .b (.i32bin .add), .b (.localTee n)] ++ a.is ++
      [lget ol, c32 off, .b (.i32bin .add), .b (.i32bin .sub)], .i32 :: (wtyF fs ++ a.ls)⟩
  | .noType, _, _, _ => ⟨[], []⟩
/-- serialize.rs 832-880: the loop over the fields; `wp` is the write pointer, whose value is on the
stack, `ls` are the locals of the remaining fields. -/
def serF (lit : Name → Nat) : Fields → Nat → List Nat → Nat → Emit
  | .nil, _, _, _ => ⟨[], []⟩
  | .cons k t fs, wp, ls, n =>
    let a := ser lit t wp 0 n
    let b := serF lit fs wp (ls.drop (wty t).length) (n + a.ls.length)
    ⟨[c32 k.length, .b (.i32store 1 0), lget wp, c32 1, .b (.i32bin .add), .b (.localTee wp),
      c32 (lit k), c32 k.length, .b .memCopy, lget wp, c32 k.length, .b (.i32bin .add), lset wp] ++
      getLocals (ls.take (wty t).length) ++ a.is ++ [lget wp, .b (.i32bin .add), .b (.localTee wp)] ++ b.is,
      a.ls ++ b.ls⟩
end

mutual
/-- The tuple keys in a type. -/
def keysOf : Ty → List Name
  | .list _ e => keysOf e
  | .opt t => keysOf t
  | .resp o e => keysOf o ++ keysOf e
  | .tuple fs => keysOfF fs
  | _ => []
/-- The same for the fields of a tuple. -/
def keysOfF : Fields → List Name
  | .nil => []
  | .cons k t fs => k :: (keysOf t ++ keysOfF fs)
end

/-- words/consensus_buff.rs 58-86: the end of `to-consensus-buff?`; locals `n`: offset, `n + 1`: length.
`1048576` is `MAX_VALUE_SIZE` of the clarity crate. -/
def toBuffCode (n : Nat) : List Instr :=
  [lset (n + 1), lget (n + 1), c32 1048576, .b (.i32rel .leU),
   .ite 0 3 [lget n, lget (n + 1), .b (.i32bin .add), .b (.global32Set .stackPointer), c32 1, lget n, lget (n + 1)]
    [c32 0, c32 0, c32 0]]

end Gen
