import Verif.Gen.Mem
import Verif.Spec.Construct

/-! Model of the code emitted by `/repo/clar2wasm/src/words/principal.rs` around the runtime library.
Simplification: as in `Gen/Mem.lean`; cost tracking is off. -/

namespace Gen
open Wasm Spec

/-- words/principal.rs 30-90: `is-standard`; `vl` is the fresh local for the version. -/
def isStandardCode (vl : Nat) : List Instr :=
  [.b .drop, .b (.i32load 1 0), .b (.localTee vl), .call (.host .is_in_mainnet),
   .ite 1 1
    [.b (.const (.i32 20#32)), .b (.i32rel .eq), .b (.localGet vl), .b (.const (.i32 22#32)),
     .b (.i32rel .eq), .b (.i32bin .or)]
    [.b (.const (.i32 21#32)), .b (.i32rel .eq), .b (.localGet vl), .b (.const (.i32 26#32)),
     .b (.i32rel .eq), .b (.i32bin .or)]]

/-- words/principal.rs 93-160: `principal-construct?` after its arguments have been evaluated; `res`
is the local with the offset of the result. -/
def constructCode (res : Nat) : List Instr :=
  [.b (.localGet res), .call (.std .principal_construct)]

/-- words/principal.rs 165-205: `generate_tuple`. -/
def partsCode (po len : Nat) : List Instr :=
  [.b (.localGet po), .b (.const (.i32 1#32)), .b (.i32bin .add), .b (.const (.i32 20#32)),
   .b (.localGet len), .b (.const (.i32 0#32)), .b (.i32rel .gtU),
   .b (.localGet po), .b (.const (.i32 22#32)), .b (.i32bin .add), .b (.localGet len),
   .b (.localGet po), .b (.const (.i32 1#32))]

/-- words/principal.rs 213-285: `principal-destruct?`; `len` and `len + 1` are the fresh locals. -/
def destructCode (len : Nat) : List Instr :=
  [.b (.const (.i32 22#32)), .b (.i32bin .sub), .b (.localSet len), .b (.localTee (len + 1)),
   .b (.i32load 1 0), .call (.std .is_version_valid),
   .ite 0 (wty (.resp partsTy partsTy)).length
    ([.b (.const (.i32 1#32))] ++ partsCode (len + 1) len ++ placeholder partsTy)
    ([.b (.const (.i32 0#32))] ++ placeholder partsTy ++ partsCode (len + 1) len)]

end Gen
