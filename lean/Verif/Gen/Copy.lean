import Verif.Gen.Serialize

/-! Copying the parts of a value that are in memory: the result of a call, out of the frame of the callee. -/

namespace Gen
open Wasm Spec Host

mutual
/-- wasm_generator.rs 2186-2204: `has_in_memory_type`. -/
def hasInMem : Ty → Bool
  | .opt t => hasInMem t
  | .resp o e => hasInMem o || hasInMem e
  | .tuple fs => hasInMemF fs
  | .noType | .int | .uint | .bool => false
  | _ => true
/-- wasm_generator.rs 2192: the fields of a tuple. -/
def hasInMemF : Fields → Bool
  | .nil => false
  | .cons _ t fs => hasInMem t || hasInMemF fs
end

mutual
/-- wasm_generator.rs 2207-2235: `count_in_memory_space`. (Unbounded numbers instead of `u32`.) -/
def countSpace : Ty → Nat
  | .bool | .int | .uint | .noType => 0
  | .opt t => countSpace t
  | .resp o e => countSpace o + countSpace e
  | .principal | .callable _ | .trait _ | .traitRef _ => PRINCIPAL_BYTES_MAX
  | .buff n | .ascii n => n
  | .utf8 n => 4 * n
  | .list n e => n * typeInMemorySize true e
  | .tuple fs => countSpaceF fs
/-- wasm_generator.rs 2230-2232: the fields of a tuple. -/
def countSpaceF : Fields → Nat
  | .nil => 0
  | .cons _ t fs => countSpace t + countSpaceF fs
end

/-- wasm_generator.rs 1880-1893 (also 1816-1830): copy `l` bytes from `o` to the copy offset `c`, let `o`
point to the copy and move the copy offset behind it. -/
def copyBytes (o l c : Nat) : List Instr :=
  [lget c, lget o, lget l, .b .memCopy, lget c, lset o, lget c, lget l, .b (.i32bin .add), lset c]

mutual
/-- wasm_generator.rs 1793-1960: `copy_value`: the value of type `T` is in the locals `ls`, the local `c`
has the address to copy to, `n` is the next fresh local. -/
def copyVal : Ty → List Nat → Nat → Nat → Emit
  | .noType, _, _, _ | .int, _, _, _ | .uint, _, _, _ | .bool, _, _, _ => ⟨[], []⟩
  | .list _ e, ls, c, n =>
    let o := ls.getD 0 0
    let l := ls.getD 1 0
    let es := saveLocals e n
    let a := copyVal e es c (n + (wty e).length)
    let r := readMem o e 0
    let w := writeMem o e 0 (n + (wty e).length + a.ls.length)
    ⟨copyBytes o l c ++
      [lget l, .ite 0 0
        [lget o, lget l,
         .loop 0 0 (r.is ++ saveCode e n ++ a.is ++ getLocals es ++ w.is ++
          [lget o, c32 r.sz, .b (.i32bin .add), lset o,
           lget l, c32 r.sz, .b (.i32bin .sub), .b (.localTee l), .brIf 0]),
         lset l, lset o] []],
      wty e ++ a.ls ++ w.ls⟩
  | .principal, ls, c, _ | .callable _, ls, c, _ | .trait _, ls, c, _ | .traitRef _, ls, c, _
  | .buff _, ls, c, _ | .ascii _, ls, c, _ | .utf8 _, ls, c, _ =>
    ⟨copyBytes (ls.getD 0 0) (ls.getD 1 0) c, []⟩
  | .opt t, ls, c, n =>
    let a := copyVal t ls.tail c n
    ⟨[lget (ls.getD 0 0), .ite 0 0 a.is []], a.ls⟩
  | .resp o e, ls, c, n =>
    let a := if hasInMem o then copyVal o (ls.tail.take (wty o).length) c n else ⟨[], []⟩
    let b := if hasInMem e then copyVal e (ls.tail.drop (wty o).length) c (n + a.ls.length) else ⟨[], []⟩
    ⟨[lget (ls.getD 0 0), .ite 0 0 a.is b.is], a.ls ++ b.ls⟩
  | .tuple fs, ls, c, n => copyFields fs ls c n
/-- wasm_generator.rs 1936-1954: the fields of a tuple. -/
def copyFields : Fields → List Nat → Nat → Nat → Emit
  | .nil, _, _, _ => ⟨[], []⟩
  | .cons _ t fs, ls, c, n =>
    let a := if hasInMem t then copyVal t (ls.take (wty t).length) c n else ⟨[], []⟩
    let b := copyFields fs (ls.drop (wty t).length) c (n + a.ls.length)
    ⟨a.is ++ b.is, a.ls ++ b.ls⟩
end

end Gen
