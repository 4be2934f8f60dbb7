import Verif.Gen.Equal

/-!
Model of the parts of the code emitted by `/repo/clar2wasm/src/words/sequences.rs` and by `index-of?`
(`/repo/clar2wasm/src/words/equal.rs` 88-304) that follow or stand between the operands.
Simplifications: as in `Gen/Mem.lean`.
-/

namespace Gen
open Wasm Spec Host

/-- Sequence types. -/
def isSeq : Ty → Bool
  | .buff _ | .ascii _ | .utf8 _ | .list _ _ => true
  | _ => false

/-- wasm_generator.rs 2143-2183: `get_sequence_element_type`: the number of bytes of an element
(`SequenceElementType`: `Byte`, `UnicodeScalar`, `Other`). -/
def unit : Ty → Nat
  | .buff _ | .ascii _ => 1
  | .utf8 _ => 4
  | .list _ e => typeSize e
  | _ => 0

/-- The type of an element. -/
def elemTy : Ty → Ty
  | .buff _ => .buff 1
  | .ascii _ => .ascii 1
  | .utf8 _ => .utf8 1
  | .list _ e => e
  | _ => .noType

/-- The largest number of elements. -/
def maxLen : Ty → Nat
  | .buff n | .ascii n | .utf8 n | .list n _ => n
  | _ => 0

/-- The type with another bound on the number of elements. -/
def withMax (m : Nat) : Ty → Ty
  | .buff _ => .buff m
  | .ascii _ => .ascii m
  | .utf8 _ => .utf8 m
  | .list _ e => .list m e
  | t => t

/-- `i64.const`. -/
def c64 (n : Nat) : Instr := .b (.const (.i64 (BitVec.ofNat 64 n)))

/-- sequences.rs 475-500, 960-985, 1270-1300: from the number of bytes to the number of elements. -/
def countCode : Ty → List Instr
  | .list _ e => [.b (.const (.i32 (BitVec.ofNat 32 (typeSize e)))), .b (.i32div .divU)]
  | .utf8 _ => [.b (.const (.i32 2#32)), .b (.i32bin .shrU)]
  | _ => []

/-- sequences.rs 1064-1097, 1318-1350, 1530-1560: from the number of an element to its offset. -/
def scaleCode : Ty → List Instr
  | .list _ e => [c64 (typeSize e), .b (.i64bin .mul)]
  | .utf8 _ => [c64 2, .b (.i64bin .shl)]
  | _ => []

/-- sequences.rs 1040-1098, 1302-1352, 1500-1560, 1590-1650: the index is on the stack; local `ov` says
whether it is larger than 1024x1024, local `ix` and the stack hold the offset of the element. -/
def indexCode (S : Ty) (ov ix : Nat) : List Instr :=
  [c64 0, .b (.i64rel .gtU), .b (.localSet ov), .b (.localTee ix), c64 (1024 * 1024), .b (.i64rel .gtU),
   .b (.localGet ov), .b (.i32bin .or), .b (.localSet ov), .b (.localGet ix)] ++ scaleCode S ++
  [.b (.localTee ix)]

/-- sequences.rs 1164-1185; equal.rs 176-212: push the element at the address in local `o`. -/
def readElem (S : Ty) (o : Nat) : List Instr :=
  match S with
  | .list _ e => (readMem o e 0).is
  | _ => [.b (.localGet o), .b (.const (.i32 (BitVec.ofNat 32 (unit S))))]

/-- sequences.rs 1100-1195: `element-at?`, after the index; the stack holds the offset and the length of
the sequence and the offset of the element. Locals `n`, `n + 1`, `n + 2` are `overflow_local`, `index_local`,
`offset_local`. -/
def elementAtCode (S : Ty) (n : Nat) : List Instr :=
  indexCode S n (n + 1) ++
  [.b (.i64rel .leU), .b (.localGet n), .b (.i32bin .or),
   .ite 1 (1 + (wty (elemTy S)).length)
    (.b .drop :: .b (.const (.i32 0#32)) :: placeholder (elemTy S))
    ([.b (.localGet (n + 1)), .b .i32wrap, .b (.i32bin .add), .b (.localSet (n + 2)),
      .b (.const (.i32 1#32))] ++ readElem S (n + 2))]

/-- sequences.rs 1500-1590: `slice?`, after the left index. Locals `n` to `n + 3` are `length_local`,
`overflow_local`, `left_local`, `base_offset_local`. The flag for the left index is not read again. -/
def sliceLeft (S : Ty) (n : Nat) : List Instr :=
  indexCode S (n + 1) (n + 2) ++
  [.b (.i64rel .leU), .b (.localGet (n + 1)), .b (.i32bin .or), .b (.localSet (n + 1)),
   .b .i64extU, .b (.localTee (n + 3)), .b (.localGet (n + 2)), .b (.i64bin .add), .b (.localSet (n + 2)),
   .b (.localGet n)]

/-- sequences.rs 1590-1740: `slice?`, after the right index. Locals `m`, `m + 1` are the second
`overflow_local` and `right_local`. -/
def sliceRight (S : Ty) (n m : Nat) : List Instr :=
  indexCode S m (m + 1) ++
  [.b (.i64rel .ltU), .b (.localGet m), .b (.i32bin .or), .b (.localSet m),
   .b (.localGet (n + 3)), .b (.localGet (m + 1)), .b (.i64bin .add), .b (.localSet (m + 1)),
   .b (.localGet (m + 1)), .b (.localGet (n + 2)), .b (.i64rel .ltU), .b (.localGet m), .b (.i32bin .or), .b (.localSet m),
   .b (.const (.i32 0#32)), .b (.const (.i32 1#32)), .b (.localGet m), .b .select,
   .b (.localGet (n + 2)), .b .i32wrap,
   .b (.localGet (m + 1)), .b (.localGet (n + 2)), .b (.i64bin .sub), .b .i32wrap]

/-- equal.rs 166-290: the loop of `index-of?`. The item is in the locals `as`; local `o` is the offset of
the current element, `o + 1` the end, `ix` the index, `m` the next fresh local. -/
def indexOfLoop (S : Ty) (as : List Nat) (o ix m : Nat) : List Instr :=
  let E := elemTy S
  let c := equalCode E as (saveLocals E m) (m + (wty E).length)
  [.loop 0 3 (readElem S o ++ saveCode E m ++ (c.1 ++
    [.ite 0 3 [.b (.const (.i32 1#32)), .b (.localGet ix), c64 0]
      [.b (.localGet o), .b (.const (.i32 (BitVec.ofNat 32 (unit S)))), .b (.i32bin .add), .b (.localTee o),
       .b (.localGet (o + 1)), .b (.i32rel .geU),
       .ite 0 3 [.b (.const (.i32 0#32)), .b (.localGet ix), c64 0]
        [.b (.localGet ix), c64 1, .b (.i64bin .add), .b (.localSet ix), .br 2]]]))]

end Gen
