import Verif.Gen.Mem

/-!
Model of the code emitted by `/repo/clar2wasm/src/words/equal.rs` to compare two values.
Simplifications: as in `Gen/Mem.lean`.
-/

namespace Gen
open Wasm Spec Host

mutual
/-- equal.rs 315-367: the types for which `wasm_equal` emits code; for the others it returns
`NotImplemented` and the contract is not compiled. -/
def comparable : Ty → Bool
  | .trait _ | .traitRef _ => false
  | .list _ e => comparable e
  | .opt t => comparable t
  | .resp o e => comparable o && comparable e
  | .tuple fs => comparableF fs
  | _ => true
/-- The fields of a tuple. -/
def comparableF : Fields → Bool
  | .nil => true
  | .cons _ t fs => comparable t && comparableF fs
end

/-- equal.rs 400-490: `wasm_equal_bytes`; `n`, `n + 1`, `n + 2` are `len`, `current_a`,
`current_b`. -/
def equalBytes (oa la ob lb n : Nat) : List Instr :=
  [.block 0 0
    [.b (.localGet la), .b (.localGet lb), .b (.i32bin .xor), .b (.localTee n), .brIf 0,
     .b (.localGet la), .b (.localTee n), .b .i32eqz, .brIf 0,
     .b (.localGet oa), .b (.localSet (n + 1)), .b (.localGet ob), .b (.localSet (n + 2)),
     .loop 0 0
      [.b (.localGet (n + 1)), .b (.i32load 1 0), .b (.localGet (n + 2)), .b (.i32load 1 0),
       .b (.i32rel .ne), .brIf 1,
       .b (.localGet (n + 1)), .b (.const (.i32 1#32)), .b (.i32bin .add), .b (.localSet (n + 1)),
       .b (.localGet (n + 2)), .b (.const (.i32 1#32)), .b (.i32bin .add), .b (.localSet (n + 2)),
       .b (.localGet n), .b (.const (.i32 1#32)), .b (.i32bin .sub), .b (.localTee n), .brIf 0]],
   .b (.localGet n), .b .i32eqz]

/-- equal.rs 370-398: `wasm_equal_int128`. -/
def equalInt (alo ahi blo bhi : Nat) : List Instr :=
  [.b (.localGet alo), .b (.localGet blo), .b (.i64rel .eq),
   .b (.localGet ahi), .b (.localGet bhi), .b (.i64rel .eq), .b (.i32bin .and)]

/-- equal.rs 686-824: `wasm_equal_list`, given the size of an element, the code that reads and saves
the two elements, and the code that compares them. -/
def equalList (oa la ob lb size : Nat) (rd cmp : List Instr) : List Instr :=
  [.b (.localGet la), .b (.localGet lb), .b (.i32rel .eq),
   .ite 0 1
    [.b (.localGet lb), .b .i32eqz,
     .ite 0 1
      [.b (.const (.i32 1#32))]
      [.b (.localGet oa),
       .loop 0 0 (rd ++ (cmp ++
        [.ite 0 0
          [.b (.localGet oa), .b (.const (.i32 (BitVec.ofNat 32 size))), .b (.i32bin .add), .b (.localSet oa),
           .b (.localGet ob), .b (.const (.i32 (BitVec.ofNat 32 size))), .b (.i32bin .add), .b (.localSet ob),
           .b (.localGet lb), .b (.const (.i32 (BitVec.ofNat 32 size))), .b (.i32bin .sub), .b (.localTee lb),
           .brIf 1] []])),
       .b (.localSet oa), .b (.localGet lb), .b .i32eqz]]
    [.b (.const (.i32 0#32))]]

mutual
/-- equal.rs 306-368: `wasm_equal` of the values in the locals `as` and `bs`; `n` is the next fresh
local. Optionals: 492-555; responses: 557-626; tuples: 628-684. -/
def equalCode : Ty → List Nat → List Nat → Nat → List Instr × List VT
  | .noType, _, _, _ => ([.unreachable], [])
  | .bool, as, bs, _ =>
    ([.b (.localGet (as.getD 0 0)), .b (.localGet (bs.getD 0 0)), .b (.i32rel .eq)], [])
  | .int, as, bs, _ | .uint, as, bs, _ =>
    (equalInt (as.getD 0 0) (as.getD 1 0) (bs.getD 0 0) (bs.getD 1 0), [])
  | .buff _, as, bs, n | .ascii _, as, bs, n | .utf8 _, as, bs, n | .principal, as, bs, n
  | .callable _, as, bs, n =>
    (equalBytes (as.getD 0 0) (as.getD 1 0) (bs.getD 0 0) (bs.getD 1 0) n, [.i32, .i32, .i32])
  | .opt t, as, bs, n =>
    let c := equalCode t as.tail bs.tail n
    ([.b (.localGet (as.getD 0 0)), .b (.localGet (bs.getD 0 0)), .b (.i32rel .eq),
      .ite 0 1
        [.b (.localGet (as.getD 0 0)), .ite 0 1 c.1 [.b (.const (.i32 1#32))]]
        [.b (.const (.i32 0#32))]], c.2)
  | .resp o e, as, bs, n =>
    let k := (wty o).length
    let c := equalCode o (as.tail.take k) (bs.tail.take k) n
    let d := equalCode e (as.tail.drop k) (bs.tail.drop k) (n + c.2.length)
    ([.b (.localGet (as.getD 0 0)), .b (.localGet (bs.getD 0 0)), .b (.i32rel .eq),
      .ite 0 1
        [.b (.localGet (as.getD 0 0)), .ite 0 1 c.1 d.1]
        [.b (.const (.i32 0#32))]], c.2 ++ d.2)
  | .tuple fs, as, bs, n =>
    match fs with
    | .cons _ t .nil => equalCode t as bs n
    | fs =>
      let c := equalFields n fs as bs (n + 1)
      ([.block 0 0 c.1, .b (.localGet n)], .i32 :: c.2)
  | .list _ e, as, bs, n =>
    let k := (wty e).length
    let c := equalCode e (saveLocals e n) (saveLocals e (n + k)) (n + k + k)
    let oa := as.getD 0 0
    let ob := bs.getD 0 0
    (equalList oa (as.getD 1 0) ob (bs.getD 1 0) (typeSize e)
      ((readMem oa e 0).is ++ saveCode e n ++ ((readMem ob e 0).is ++ saveCode e (n + k))) c.1,
      wty e ++ wty e ++ c.2)
  | .trait _, _, _, _ | .traitRef _, _, _, _ => ([], [])
/-- equal.rs 649-680: the fields, one after the other; `r` is the local `result`. -/
def equalFields (r : Nat) : Fields → List Nat → List Nat → Nat → List Instr × List VT
  | .nil, _, _, _ => ([], [])
  | .cons _ t fs, as, bs, n =>
    let k := (wty t).length
    let c := equalCode t (as.take k) (bs.take k) n
    let d := equalFields r fs (as.drop k) (bs.drop k) (n + c.2.length)
    (c.1 ++ ([.b (.localTee r), .b .i32eqz, .brIf 0] ++ d.1), c.2 ++ d.2)
end

end Gen
