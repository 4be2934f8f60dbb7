import Verif.Gen.Serialize

/-!
Model of `/repo/clar2wasm/src/deserialize.rs`: the code that reads a value from its consensus
serialization in memory. Simplifications: as in `Gen/Mem.lean`; tuples are not modelled.
-/

namespace Gen
open Wasm Spec Host

/-- `i32.load8_u`. -/
def load8 (off : Nat) : Instr := .b (.i32load 1 off)

/-- `local_get(l) i32_const(k) add`. -/
def plus (l k : Nat) : List Instr := [lget l, c32 k, .b (.i32bin .add)]

/-- `local_get(l) i32_const(k) add local_set(l)`. -/
def incr (l k : Nat) : List Instr := plus l k ++ [lset l]

/-- deserialize.rs 27-124: `deserialize_integer`; local `n`: the vector. -/
def desInt (signed : Bool) (ol el n : Nat) : Emit :=
  let none : List Instr := [c32 0, .b (.const (.i64 0#64)), .b (.const (.i64 0#64))]
  ⟨plus ol 17 ++ [lget el, .b (.i32rel .gtU),
    .ite 0 3 none
     [lget ol, load8 0, c32 (if signed then 0 else 1), .b (.i32rel .eq),
      .ite 0 3
       ([c32 1, lget ol, .b (.v128load 1), .b (.const (.v128 0x000102030405060708090a0b0c0d0e0f#128)),
         .b .i8x16swizzle, .b (.localTee n), .b (.i64x2extract 0), lget n, .b (.i64x2extract 1)] ++ incr ol 17)
       none]], [.v128]⟩

/-- deserialize.rs 137-315: `deserialize_principal`; locals `n`: type prefix, `n + 1`: address of the
copy of a standard principal, `n + 2`: length of the contract name, `n + 3`: end of the principal. -/
def desPrincipal (ol el rl n : Nat) : Emit :=
  ⟨[.block 0 3
    (plus ol STANDARD_PRINCIPAL_BYTES ++ [lget el, .b (.i32rel .gtU),
      .ite 0 0 [c32 0, c32 0, c32 0, .br 1] [],
      lget ol, load8 0, .b (.localTee n), c32 5, .b (.i32rel .eq),
      .ite 0 0
       ([c32 1, lget rl, .b (.localTee (n + 1)), c32 STANDARD_PRINCIPAL_BYTES, .b (.i32bin .add), lset rl,
         lget (n + 1)] ++ plus ol 1 ++ [c32 PRINCIPAL_BYTES, .b .memCopy,
         lget (n + 1), c32 0, .b (.i32store 1 PRINCIPAL_BYTES)] ++ incr ol STANDARD_PRINCIPAL_BYTES ++
        [lget (n + 1), c32 STANDARD_PRINCIPAL_BYTES, .br 1]) [],
      lget n, c32 6, .b (.i32rel .eq),
      .ite 0 3
       ([lget ol, load8 STANDARD_PRINCIPAL_BYTES, .b (.localTee (n + 2)), lget ol, .b (.i32bin .add),
         c32 (STANDARD_PRINCIPAL_BYTES + 1), .b (.i32bin .add), .b (.localTee (n + 3)),
         lget el, .b (.i32rel .gtU), .ite 0 0 [c32 0, c32 0, c32 0, .br 2] [], c32 1] ++ plus ol 1 ++
        plus (n + 2) STANDARD_PRINCIPAL_BYTES ++ [lget (n + 3), lset ol])
       [c32 0, c32 0, c32 0]])], [.i32, .i32, .i32, .i32]⟩

/-- deserialize.rs 323-416: `deserialize_bool`; local `n`: type prefix. -/
def desBool (ol el n : Nat) : Emit :=
  ⟨[.block 0 2
    ([lget ol, lget el, .b (.i32rel .geU), .ite 0 0 [c32 0, c32 0, .br 1] [],
      lget ol, load8 0, .b (.localTee n), c32 3, .b (.i32rel .eq),
      .ite 0 0 ([c32 1, c32 1] ++ incr ol 1 ++ [.br 1]) [],
      lget n, c32 4, .b (.i32rel .eq),
      .ite 0 2 ([c32 1, c32 0] ++ incr ol 1) [c32 0, c32 0]])], [.i32]⟩

/-- deserialize.rs 428-572: `deserialize_optional`, given the code `a` of the inner value, which uses the
locals from `n + 1` on; local `n`: type prefix. -/
def desOpt (t : Ty) (a : Emit) (ol el n : Nat) : Emit :=
  let none := c32 0 :: c32 0 :: placeholder t
  let s := n + 1 + a.ls.length
  ⟨[.block 0 (2 + (wty t).length)
    ([lget ol, lget el, .b (.i32rel .geU), .ite 0 0 (none ++ [.br 1]) [],
      lget ol, load8 0, .b (.localTee n), c32 9, .b (.i32rel .eq),
      .ite 0 0 (c32 1 :: c32 0 :: placeholder t ++ incr ol 1 ++ [.br 1]) [],
      lget n, c32 10, .b (.i32rel .eq),
      .ite 0 (2 + (wty t).length)
       (incr ol 1 ++ a.is ++ saveCode t s ++ [.b .i32eqz, .ite 0 0 (none ++ [.br 2]) [], c32 1, c32 1] ++
        getLocals (saveLocals t s))
       none])], .i32 :: (a.ls ++ wty t)⟩

/-- deserialize.rs 584-761: `deserialize_response`, given the code of the two inner values; local `n`:
type prefix. -/
def desResp (o e : Ty) (a b : Emit) (ol el n : Nat) : Emit :=
  let none := c32 0 :: c32 0 :: (placeholder o ++ placeholder e)
  let k := 2 + ((wty o).length + (wty e).length)
  let s := n + 1 + a.ls.length
  let s' := s + (wty o).length + b.ls.length
  ⟨[.block 0 k
    ([lget ol, lget el, .b (.i32rel .geU), .ite 0 0 (none ++ [.br 1]) [],
      lget ol, load8 0, .b (.localTee n), c32 7, .b (.i32rel .eq),
      .ite 0 k
       (incr ol 1 ++ a.is ++ saveCode o s ++ [.b .i32eqz, .ite 0 0 (none ++ [.br 2]) [], c32 1, c32 1] ++
        getLocals (saveLocals o s) ++ placeholder e)
       ([lget n, c32 8, .b (.i32rel .ne), .ite 0 0 (none ++ [.br 2]) []] ++ incr ol 1 ++ b.is ++ saveCode e s' ++
        [.b .i32eqz, .ite 0 0 (none ++ [.br 2]) [], c32 1, c32 0] ++ placeholder o ++
        getLocals (saveLocals e s'))])], .i32 :: (a.ls ++ wty o ++ b.ls ++ wty e)⟩

/-- deserialize.rs 771-975: `deserialize_list`, given the code `a` of an element, which uses the locals
from `n + 4` on; locals `n`: length, `n + 1`: result, `n + 2`: address of the next element, `n + 3`:
index. -/
def desList (max : Nat) (e : Ty) (a : Emit) (ol el rl n : Nat) : Emit :=
  let none (k : Nat) : Instr := .ite 0 0 [c32 0, c32 0, c32 0, .br k] []
  let s := n + 4 + a.ls.length
  let w := writeMem (n + 2) e 0 (s + (wty e).length)
  ⟨[.block 0 3
    (plus ol 5 ++ [lget el, .b (.i32rel .gtU), none 1, lget ol, load8 0, c32 11, .b (.i32rel .ne), none 1] ++
     plus ol 1 ++ [.call (.std .load_i32_be), .b (.localTee n), c32 max, .b (.i32rel .gtU), none 1,
      lget rl, .b (.localTee (n + 1)), .b (.localTee (n + 2)),
      lget n, c32 (typeSize e), .b (.i32bin .mul), .b (.i32bin .add), lset rl] ++ incr ol 5 ++
     [c32 0, lset (n + 3),
      .loop 0 3
       ([lget (n + 3), lget n, .b (.i32rel .geU),
         .ite 0 0 [c32 1, lget (n + 1), lget n, c32 (typeSize e), .b (.i32bin .mul), .br 2] []] ++ a.is ++
        saveCode e s ++ [.b .i32eqz, none 2] ++ getLocals (saveLocals e s) ++ w.is ++ incr (n + 2) w.sz ++
        incr (n + 3) 1 ++ [.br 0])])], .i32 :: .i32 :: .i32 :: .i32 :: (a.ls ++ wty e ++ w.ls)⟩

/-- deserialize.rs 1367-1494, 1505-1642: `deserialize_buffer`, `deserialize_string_ascii` with the type
prefix `t`; `check` says whether the characters are checked. Locals `n`: length, `n + 1`: end. -/
def desBytes (t : Nat) (check : Bool) (max ol el n : Nat) : Emit :=
  let none (k : Nat) : Instr := .ite 0 0 [c32 0, c32 0, c32 0, .br k] []
  ⟨[.block 0 3
    (plus ol 5 ++ [lget el, .b (.i32rel .gtU), none 1, lget ol, load8 0, c32 t, .b (.i32rel .eq),
      .ite 0 3
       (plus ol 1 ++ [.call (.std .load_i32_be), .b (.localTee n), c32 max, .b (.i32rel .gtU), none 2,
         lget n, lget ol, .b (.i32bin .add), c32 5, .b (.i32bin .add), .b (.localTee (n + 1)), lget el,
         .b (.i32rel .gtU), none 2, c32 1] ++
        (if check then plus ol 5 ++ [lget n, .call (.std .is_valid_string_ascii), .b .i32eqz, none 2] else []) ++
        plus ol 5 ++ [lget n, lget (n + 1), lset ol])
       [c32 0, c32 0, c32 0]])], [.i32, .i32]⟩

/-- deserialize.rs 1651-1755: `deserialize_string_utf8`; local `n`: length of the text. -/
def desUtf8 (max ol el rl n : Nat) : Emit :=
  ⟨plus ol 5 ++ [lget el, .b (.i32rel .leU), lget ol, load8 0, c32 14, .b (.i32rel .eq), .b (.i32bin .and),
    .ite 0 3
     (plus ol 1 ++ [.call (.std .load_i32_be), .b (.localTee n)] ++ plus ol 5 ++ [.b (.localTee ol),
       .b (.i32bin .add), lget el, .b (.i32rel .leU),
       .ite 0 3
        ([lget ol, lget n, lget rl, c32 max, .call (.std .utf8_to_string_utf8),
          lget ol, lget n, .b (.i32bin .add), lset ol] ++ incr rl (max * 4))
        [c32 0, c32 0, c32 0]])
     [c32 0, c32 0, c32 0]], [.i32]⟩

/-- deserialize.rs 1762-1843: `deserialize_from_memory` with `offset_local = ol`, `end_local = el`,
`offset_result = rl`; `n` is the next fresh local. Tuples are not modelled. -/
def des : Ty → Nat → Nat → Nat → Nat → Emit
  | .int, ol, el, _, n => desInt true ol el n
  | .uint, ol, el, _, n => desInt false ol el n
  | .principal, ol, el, rl, n | .callable _, ol, el, rl, n | .trait _, ol, el, rl, n
  | .traitRef _, ol, el, rl, n => desPrincipal ol el rl n
  | .resp o e, ol, el, rl, n =>
    let a := des o ol el rl (n + 1)
    let b := des e ol el rl (n + 1 + a.ls.length + (wty o).length)
    desResp o e a b ol el n
  | .bool, ol, el, _, n => desBool ol el n
  | .opt t, ol, el, rl, n => desOpt t (des t ol el rl (n + 1)) ol el n
  | .list max e, ol, el, rl, n => desList max e (des e ol el rl (n + 4)) ol el rl n
  | .buff max, ol, el, _, n => desBytes 2 false max ol el n
  | .ascii max, ol, el, _, n => desBytes 13 true max ol el n
  | .utf8 max, ol, el, rl, n => desUtf8 max ol el rl n
  | .tuple _, _, _, _, _ => ⟨[], []⟩
  | .noType, _, _, _, _ => ⟨[], []⟩

/-- words/consensus_buff.rs 141-147: the start and the end of the buffer on the stack; locals `n + 2`, `n + 3`. -/
def fromBuffStart (n : Nat) : List Instr :=
  [lset (n + 3), .b (.localTee (n + 2)), lget (n + 3), .b (.i32bin .add), lset (n + 3)]

/-- words/consensus_buff.rs 153-171: `none` of type `T` when not all bytes were read. -/
def fromBuffEnd (T : Ty) (n : Nat) : List Instr :=
  [lget (n + 3), lget (n + 2), .b (.i32rel .eq), .ite (wty T).length (wty T).length [] (dropValue T ++ placeholder T)]

end Gen
