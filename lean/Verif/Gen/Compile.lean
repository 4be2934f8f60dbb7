import Verif.Gen.Copy
import Verif.Gen.Seq
import Verif.Gen.Deserialize
import Verif.Spec.Core

/-!
Model of the code generator: the Wasm code that `/repo/clar2wasm/src/words/*.rs` and
`/repo/clar2wasm/src/wasm_generator.rs` emit for the core language of `Spec/Core.lean`.

Simplifications, for all definitions of this file:
* cost tracking is off (`WordCharge::charge` emits nothing);
* the locals of a function are numbered in the order in which they are requested *here*; the source
  generates the code of some subexpressions in another order, and walrus renumbers all locals when
  the module is written; the only thing that matters is that they are distinct;
* the offsets of literals and names in the data segment are given by a function of their bytes
  (`Ctx.off`; the source keeps a table `literal_memory_offset`, wasm_generator.rs 803-955, see
  `Host/Literals.lean`);
* expressions are typed, with the types the generator finds by `get_expr_type` / sets by
  `set_expr_type`; ill-typed programs are rejected by the type checker before and are not considered;
* argument counts are right (`check_args!`, property C27);
* a literal of a function's return type that is used as thrown value of `asserts!`, `unwrap!`,
  `unwrap-err!` at the top level of a contract (`short_return_error`) is left out: code is only
  generated inside functions;
* return types of functions contain no in-memory type in `callCode` unless stated otherwise.
-/

namespace Gen
open Wasm Spec Host Core

/-- What the generator knows about the contract. -/
structure Ctx where
  /-- the functions of the contract; a function calls only earlier ones -/
  fns : List FunDef
  /-- where the bytes of a literal or name are in the data segment -/
  off : List Byte → Nat
  /-- the literals and names in the data segment -/
  lits : List (List Byte)
  /-- wasm_generator.rs 69: `datavars_types` -/
  vars : Name → Option Ty
  /-- wasm_generator.rs 71: `maps_types` -/
  maps : Name → Option (Ty × Ty)
  /-- the fungible tokens of the contract -/
  fts : Name → Bool := fun _ => false
  /-- wasm_generator.rs: `max_work_space` -/
  ws : Nat := 0

/-- Emitted code, the types of the locals it requested, and the number of bytes by which it raised
`frame_size` (wasm_generator.rs 73, 1045). -/
structure Blk where
  is : List Instr
  ls : List VT
  al : Nat

/-- wasm_generator.rs 66-67: `bindings`: the locals that hold a variable. -/
abbrev Scope := List (Name × List Nat)

/-- wasm_generator.rs 1649-1652: the locals of a variable. -/
def look {α : Type} (x : Name) : List (Name × α) → Option α
  | [] => none
  | (y, a) :: r => if y = x then some a else look x r

/-- `call stdlib.runtime-error` with an error code. -/
def raise (code : Nat) : List Instr := [c32 code, .call (.std .runtime_error)]

/-- sequences.rs 382-412: `append`, between the operands: the destination and the list are on the stack. -/
def appendCode (E : Ty) (n n1 : Nat) : List Instr :=
  [.b (.localTee n1), lget n, lget n1, .b (.i32bin .add), lset n, lget n1, c32 (typeSize E), .b (.i32bin .add),
   .b (.localTee n1), c32 (typeSize E), .b (.i32div .divU), lset (n1 + 1), .b .memCopy]

/-- sequences.rs 1363-1462: `replace-at?`, after the operands; `m` is the next fresh local. Buffers and strings:
local `m` is `repl_len`, `m + 1` is `offset_local`, `m + 2` is `src_local`; lists: local `m` is
`offset_local`. -/
def replaceCode (S : Ty) (n n2 m : Nat) : Blk :=
  match S with
  | .list _ E =>
    let s := writeMem m E 0 (m + 1)
    ⟨[lget n2, .ite (wty E).length 3 (dropValue E ++ [c32 0, c32 0, c32 0])
      ([lget (n2 + 1), .b .i32wrap, lget (n + 2), .b (.i32bin .add), lset m] ++ s.is ++
        [c32 1, lget (n + 2), lget n])], .i32 :: s.ls, 0⟩
  | S =>
    ⟨[.b (.localTee m), .b .i32eqz, .ite 0 0 (raise 5) [], lget m,
      lget n2, .ite 2 3 [.b .drop, .b .drop, c32 0, c32 0, c32 0]
        [lget (n2 + 1), .b .i32wrap, lget (n + 2), .b (.i32bin .add), lset (m + 1),
         .b .drop, lset (m + 2), lget (m + 1), lget (m + 2), c32 (unit S), .b .memCopy,
         c32 1, lget (n + 2), lget n]], [.i32, .i32, .i32], 0⟩

/-- Offset and length of a name or literal (`add_string_literal`, `add_literal`). -/
def addr (K : Ctx) (bs : List Byte) : List Instr := [c32 (K.off bs), c32 bs.length]

/-- wasm_generator.rs 1597-1636: `visit_literal_value`; `true` and `false` are reserved variables
(wasm_generator.rs 1480-1487). -/
def litCode (K : Ctx) : Value → List Instr
  | .int z => (encI z).map fun v => .b (.const v)
  | .uint n => (encU n).map fun v => .b (.const v)
  | .bool b => (encB b).map fun v => .b (.const v)
  | .buff bs => addr K bs
  | .ascii bs => addr K bs
  | .utf8 cs => addr K (cs.flatMap beBytes4)
  | .principal p => addr K (principalBytes p)
  | _ => []

/-- The types of a sequence of expressions. -/
def tys : Exprs → List Ty
  | .nil => []
  | .cons T _ es => T :: tys es

/-- The suffix `-int` or `-uint` of a library function (arithmetic.rs 10-29, 52-60;
comparison.rs 24-44). -/
def bySign (T : Ty) (i u : StdFn) : StdFn :=
  match T with
  | .int => i
  | _ => u

/-- The library function of an operator (arithmetic.rs 62, 104-118, 156, 190). -/
def NOp.std (o : NOp) (T : Ty) : StdFn :=
  match o with
  | .add => bySign T .add_int .add_uint
  | .sub => bySign T .sub_int .sub_uint
  | .mul => bySign T .mul_int .mul_uint
  | .div => bySign T .div_int .div_uint

/-- One operand: arithmetic.rs 44-67, 86-125, 136-160, 170-195. -/
def unCode (o : NOp) (T : Ty) (n : Nat) : Blk :=
  match o, T with
  | .sub, .int =>
    ⟨[lset (n + 1), lset n, .b (.const (.i64 0#64)), .b (.const (.i64 0#64)), lget n, lget (n + 1),
      .call (.std .sub_int)], [.i64, .i64], 0⟩
  | .sub, .uint => ⟨raise 1, [], 0⟩
  | _, _ => ⟨[], [], 0⟩

/-- tuples.rs 153-168: keep one field, from the last to the first. -/
def getCode (k : Name) (n : Nat) : Fields → List Instr
  | .nil => []
  | .cons k' t fs => getCode k n fs ++ (if k' = k then saveCode t n else dropValue t)

/-- The type of a field. -/
def fieldTy (k : Name) : Fields → Option Ty
  | .nil => none
  | .cons k' t fs => if k' = k then some t else fieldTy k fs

/-- tuples.rs 118-130: the fields of a tuple or of an optional tuple. -/
def fieldsOf : Ty → Fields
  | .tuple fs => fs
  | .opt (.tuple fs) => fs
  | _ => .nil

/-- What is pushed before the operands: enums.rs 35, 80, 130-134; sequences.rs 450-455. -/
def primPre (p : Prim) (T : Ty) : List Instr :=
  match p, T with
  | .some_, _ => [c32 1]
  | .ok_, _ => [c32 1]
  | .err_, .resp o _ => c32 0 :: placeholder o
  | .asMaxLen _, _ => [c32 0, c32 1]
  | _, _ => []

/-- The function comparing values of a type. comparison.rs 12-57: `traverse_comparison`. -/
def cmpFn (T : Ty) (i u b : StdFn) : StdFn :=
  match T with
  | .int => i
  | .uint => u
  | _ => b

/-- arithmetic.rs 10-34 (`simple_typed_one_call`), 217-280 (`log2`, `pow`, `sqrti`); bitwise.rs 19-32 (`bit-not`),
36-52 (`traverse_bitwise`), 112-170 (shifts); conversion.rs 17-88. -/
def wordCode (q : Word) (Ts : List Ty) (T : Ty) : List Instr :=
  match q with
  | .pow => [.call (.std (bySign T .pow_int .pow_uint))]
  | .log2 => [.call (.std (bySign T .log2_int .log2_uint))]
  | .sqrti => [.call (.std (bySign T .sqrti_int .sqrti_uint))]
  | .bitNot => [.call (.std .bit_not)]
  | .shl => [.call (.std .bit_shift_left)]
  | .shr => [.call (.std (bySign (Ts.headD .noType) .bit_shift_right_int .bit_shift_right_uint))]
  | .strToInt => [.call (.std (match Ts with | [.ascii _] => .string_to_int | _ => .utf8_to_int))]
  | .strToUint => [.call (.std (match Ts with | [.ascii _] => .string_to_uint | _ => .utf8_to_uint))]
  | .bits o => List.replicate (Ts.length - 1) (.call (.std (match o with
    | .and => .bit_and
    | .or => .bit_or
    | .xor => .bit_xor)))

/-- The library function of a word with its result in memory. -/
def memFn (q : MWord) (S : Ty) : StdFn :=
  match q with
  | .intToAscii => bySign S .int_to_string .uint_to_string
  | .intToUtf8 => bySign S .int_to_utf8 .uint_to_utf8
  | .sha256 => match S with | .buff _ => .sha256_buf | _ => .sha256_int
  | .sha512 => match S with | .buff _ => .sha512_buf | _ => .sha512_int
  | .hash160 => match S with | .buff _ => .hash160_buf | _ => .hash160_int

/-- hashing.rs 9-64 (`traverse_hash`); conversion.rs 98-175 (`int-to-ascii`, `int-to-utf8`): the code after the
operand, which is of type `S`; local `n` is the place of the result, whose type is `T`. -/
def memCode (q : MWord) (S T : Ty) (n : Nat) : Blk :=
  let z := stackLocalSize T false true
  match q, S with
  | .intToAscii, _ | .intToUtf8, _ => ⟨allocCode n z ++ [lget n, .call (.std (memFn q S))], [.i32], z⟩
  | _, .buff _ => ⟨allocCode n z ++ [.b (.localTee (n + 1)), lget n, .call (.std (memFn q S))], [.i32, .i32], z⟩
  | _, _ => ⟨allocCode n z ++ [lget n, .call (.std (memFn q S))], [.i32], z⟩

/-- words/tokens.rs 100-103, 143-146, 185-188, 224-227, 260-263: the name of the token is pushed first. -/
def tokenPre (K : Ctx) (q : TWord) : List Instr :=
  match q with
  | .stxTransfer | .stxMemo | .stxBurn | .stxBalance => []
  | .ftMint x | .ftBurn x | .ftTransfer x | .ftSupply x | .ftBalance x => addr K x

/-- words/stx.rs 31, 55, 90-91, 125; words/tokens.rs 110, 154, 195, 229, 269: the host function. -/
def tokenPost (q : TWord) : List Instr :=
  match q with
  | .stxTransfer => [c32 0, c32 0, .call (.host .stx_transfer)]
  | .stxMemo => [.call (.host .stx_transfer)]
  | .stxBurn => [.call (.host .stx_burn)]
  | .ftMint _ => [.call (.host .ft_mint)]
  | .ftBurn _ => [.call (.host .ft_burn)]
  | .ftTransfer _ => [.call (.host .ft_transfer)]
  | .ftSupply _ => [.call (.host .ft_get_supply)]
  | .ftBalance _ => [.call (.host .ft_get_balance)]
  | .stxBalance => [.call (.host .stx_get_balance)]

/-- What is emitted after the operands, whose types are `Ts`; `n` is the next fresh local.
enums.rs 99; options.rs 11-94; responses.rs 11-98; logical.rs 17-37; default_to.rs 70-97;
control_flow.rs 61-289; tuples.rs 132-176; arithmetic.rs 10-34; comparison.rs 12-57;
noop.rs 23-64; sequences.rs 435-530 (`as-max-len?`), 929-1010 (`len`). -/
def primPost (p : Prim) (Ts : List Ty) (T : Ty) (n : Nat) : Blk :=
  match p, Ts with
  | .ok_, _ => match T with
    | .resp _ e => ⟨placeholder e, [], 0⟩
    | _ => ⟨[], [], 0⟩
  | .isSome, [.opt t] => ⟨dropValue t, [], 0⟩
  | .isNone, [.opt t] => ⟨dropValue t ++ [c32 1, .b (.i32bin .xor)], [], 0⟩
  | .isOk, [.resp o e] => ⟨dropValue e ++ dropValue o, [], 0⟩
  | .isErr, [.resp o e] => ⟨dropValue e ++ dropValue o ++ [c32 1, .b (.i32bin .xor)], [], 0⟩
  | .not_, _ => ⟨[.call (.std .not_)], [], 0⟩
  | .defaultTo, _ =>
    ⟨saveCode T n ++ [.ite (wty T).length (wty T).length
      (dropValue T ++ getLocals (saveLocals T n)) []], wty T, 0⟩
  | .unwrapPanic, [.opt t] =>
    ⟨saveCode t n ++ [.b .i32eqz, .ite 0 0 (raise 6) []] ++ getLocals (saveLocals t n), wty t, 0⟩
  | .unwrapPanic, [.resp o e] =>
    ⟨dropValue e ++ saveCode o n ++ [.b .i32eqz, .ite 0 0 (raise 6) []] ++
      getLocals (saveLocals o n), wty o, 0⟩
  | .unwrapErrPanic, [.resp o e] =>
    ⟨saveCode e n ++ dropValue o ++ [.b .i32eqz, .ite 0 0 [] (raise 6)] ++
      getLocals (saveLocals e n), wty e, 0⟩
  | .get k, [U] =>
    let t := (fieldTy k (fieldsOf U)).getD .noType
    ⟨getCode k n (fieldsOf U) ++ getLocals (saveLocals t n), wty t, 0⟩
  | .mod, _ => ⟨[.call (.std (bySign T .mod_int .mod_uint))], [], 0⟩
  | .lt, U :: _ => ⟨[.call (.std (cmpFn U .lt_int .lt_uint .lt_buff))], [], 0⟩
  | .le, U :: _ => ⟨[.call (.std (cmpFn U .le_int .le_uint .le_buff))], [], 0⟩
  | .gt, U :: _ => ⟨[.call (.std (cmpFn U .gt_int .gt_uint .gt_buff))], [], 0⟩
  | .ge, U :: _ => ⟨[.call (.std (cmpFn U .ge_int .ge_uint .ge_buff))], [], 0⟩
  | .toInt, _ => ⟨[.call (.std .to_int)], [], 0⟩
  | .toUint, _ => ⟨[.call (.std .to_uint)], [], 0⟩
  | .len, [S] =>
    ⟨[lset n, .b .drop, lget n] ++ countCode S ++ [.b .i64extU, c64 0], [.i32], 0⟩
  | .asMaxLen m, [S] =>
    ⟨[lset n, lset (n + 1), lget n] ++ countCode S ++ [.b .i64extU] ++
      ((encU m).map fun v => .b (.const v)) ++
      [.b .drop, .b (.i64rel .gtU), .b .select, lget (n + 1), lget n], [.i32, .i32], 0⟩
  | .word q, _ => ⟨wordCode q Ts T, [], 0⟩
  | _, _ => ⟨[], [], 0⟩

/-- conditionals.rs 213-265: `handle_short_return_function`: the value to return, of the function's
return type `R`, is on the stack; it is returned if the local `cl` is zero (`neg`) or not. -/
def shortReturn (R : Ty) (d cl : Nat) (neg : Bool) : List Instr :=
  lget cl :: ((if neg then [.b .i32eqz] else []) ++ .brIf d :: dropValue R)

/-- conditionals.rs 233-240: the ok type of the function's return type. -/
def okTy : Ty → Ty
  | .resp o _ => o
  | _ => .noType

/-- Code of a call of function `f`: wasm_generator.rs 1720-1780, 1963-2036:
`local_call`, `local_call_public`, `local_call_read_only`. -/
def callCode (f : Nat) (kind : Kind) (R : Ty) (n : Nat) : Blk :=
  match kind with
  | .priv => ⟨[.call (.user f)], [], 0⟩
  | .pub =>
    ⟨[.call (.host .begin_public_call), .call (.user f)] ++ saveCode R n ++
      [lget ((saveLocals R n).headD 0),
        .ite 0 0 [.call (.host .commit_call)] [.call (.host .roll_back_call)]] ++
      getLocals (saveLocals R n), wty R, 0⟩
  | .ro =>
    ⟨[.call (.host .begin_read_only_call), .call (.user f), .call (.host .roll_back_call)], [], 0⟩

/-- wasm_generator.rs 1720-1784: `visit_call_user_defined`: the arguments are on the stack. If the result
has parts in memory, space is reserved for them first, and they are copied to it after the call. (Without
another expected type and without memory allocated by the caller: those are for `fold` and `map`.) -/
def callUser (f : Nat) (kind : Kind) (R : Ty) (n : Nat) : Blk :=
  if hasInMem R then
    let c := callCode f kind R (n + 1)
    let m := n + 1 + c.ls.length
    let cp := copyVal R (saveLocals R m) n (m + (wty R).length)
    ⟨allocCode n (countSpace R) ++ c.is ++ saveCode R m ++ cp.is ++ getLocals (saveLocals R m),
      .i32 :: c.ls ++ wty R ++ cp.ls, countSpace R⟩
  else callCode f kind R n

/-- wasm_generator.rs 1720-1784: the same if the caller has allocated memory for the parts of the result and
its address is in local `c0`. -/
def callAt (c0 f : Nat) (kind : Kind) (R : Ty) (n : Nat) : Blk :=
  let c := callCode f kind R n
  if hasInMem R then
    let m := n + c.ls.length
    let cp := copyVal R (saveLocals R m) c0 (m + (wty R).length)
    ⟨c.is ++ saveCode R m ++ cp.is ++ getLocals (saveLocals R m), c.ls ++ wty R ++ cp.ls, 0⟩
  else c

/-- sequences.rs 210-303: the loop of `fold`, with the code `call` that calls the function. Local `o` is
`offset`, `o + 1` is `end_offset`, the accumulator is in the locals `as`. -/
def foldLoop (S : Ty) (call : List Instr) (as : List Nat) (o : Nat) : List Instr :=
  [.loop 0 0 (readElem S o ++ getLocals as ++ call ++ setLocals as ++
    [lget o, c32 (unit S), .b (.i32bin .add), .b (.localTee o), lget (o + 1), .b (.i32rel .ltU), .brIf 0])]

/-- conditionals.rs 496-590: the loop of `filter`, with the code `call` that calls the function. Locals `o`
to `o + 3` are `input_len`, `input_offset`, `output_len`, `output_offset`. -/
def filterLoop (S : Ty) (call : List Instr) (o : Nat) : List Instr :=
  [.loop 0 0 (readElem S (o + 1) ++ call ++
    [.ite 0 0 [lget (o + 3), lget (o + 2), .b (.i32bin .add), lget (o + 1), c32 (unit S), .b .memCopy,
        lget (o + 2), c32 (unit S), .b (.i32bin .add), lset (o + 2)] [],
     lget (o + 1), c32 (unit S), .b (.i32bin .add), lset (o + 1),
     lget o, c32 (unit S), .b (.i32bin .sub), .b (.localTee o), .brIf 0])]

/-- sequences.rs 649-676: the type that `map` gives to its first sequence: for a list, the size of an
element is taken as the number of elements. -/
def mapTy : Ty → Ty
  | .list _ E => .list (typeSize E) E
  | S => S

/-- sequences.rs 736-770: `map`, after a sequence: count its elements. Local `mn` is `min_num_elements`, `q` is
`num_elements`, `q + 1` is `offset`. -/
def mapCount (S : Ty) (mn q : Nat) : List Instr :=
  [c32 (unit S), .b (.i32div .divS), .b (.localTee q), lget q, lget mn, .b (.i32rel .leS),
   .ite 1 0 [lset mn] [.b .drop], lset (q + 1)]

/-- sequences.rs 815-856: `map`: read the current element of each sequence and go to the next one. -/
def mapReads : List (Ty × Nat) → List Instr
  | [] => []
  | (S, o) :: r => readElem S o ++ [lget o, c32 (unit S), .b (.i32bin .add), lset o] ++ mapReads r

/-- sequences.rs 814-856: the same for a word with any number of operands, which is applied as soon as there
are two of them. -/
def naryReads (o : NOp) (E : Ty) : List (Ty × Nat) → List Instr
  | [] => []
  | (S, ofs) :: r => readElem S ofs ++ [.call (.std (NOp.std o E)), lget ofs, c32 (unit S), .b (.i32bin .add), lset ofs] ++
    naryReads o E r

/-- conditionals.rs 692-708, 748-764: `and`, `or` applied to `k` values. -/
def boolWord (isAnd : Bool) (k : Nat) : List Instr :=
  List.replicate (k - 1) (.b (.i32bin (if isAnd then .and else .or)))

/-- sequences.rs 249-272: what `fold` does with an element and the accumulator on the stack, of types `Ts`. -/
def fnAt (K : Ctx) (c0 : Nat) (f : Fn) (Ts : List Ty) (T : Ty) (n : Nat) : Blk :=
  match f with
  | .user j => match K.fns[j]? with
    | some fd => callAt c0 j fd.kind T n
    | none => ⟨[], [], 0⟩
  | .word q => primPost q Ts T n
  | .nary o => ⟨[.call (.std (NOp.std o T))], [], 0⟩
  | .and_ => ⟨boolWord true Ts.length, [], 0⟩
  | .or_ => ⟨boolWord false Ts.length, [], 0⟩

/-- sequences.rs 811-884: `map` reads the next elements of the sequences and applies the function. -/
def fnMap (K : Ctx) (f : Fn) (ss : List (Ty × Nat)) (E : Ty) (n : Nat) : Blk :=
  match f with
  | .user j => match K.fns[j]? with
    | some fd =>
      let c := callUser j fd.kind fd.ret n
      ⟨mapReads ss ++ c.is, c.ls, c.al⟩
    | none => ⟨[], [], 0⟩
  | .word q =>
    let c := primPost q (ss.map fun x => elemTy x.1) E n
    ⟨mapReads ss ++ c.is, c.ls, c.al⟩
  | .nary o => match ss with
    | [] => ⟨[], [], 0⟩
    | [x] =>
      let c := unCode o E n
      ⟨mapReads [x] ++ c.is, c.ls, c.al⟩
    | x :: r => ⟨mapReads [x] ++ naryReads o E r, [], 0⟩
  | .and_ => ⟨mapReads ss ++ boolWord true ss.length, [], 0⟩
  | .or_ => ⟨mapReads ss ++ boolWord false ss.length, [], 0⟩

/-- A function of the contract. -/
def isUser : Fn → Bool
  | .user _ => true
  | _ => false

/-- sequences.rs 790-908: the loop of `map`: the code `call` reads the arguments and calls the function, the
code `store` stores the result. Local `mn` is `min_num_elements`; `q`, `q + 1` are `output_offset`, `index`. -/
def mapLoop (E : Ty) (call store : List Instr) (mn q : Nat) : List Instr :=
  [.block 0 0 [.loop 0 0 ([lget (q + 1), lget mn, .b (.i32rel .geU), .brIf 1] ++ call ++ store ++
    [lget q, c32 (typeSize E), .b (.i32bin .add), lset q,
     lget (q + 1), c32 1, .b (.i32bin .add), .b (.localTee (q + 1)), .br 0])]]

/-- The types of the named expressions. -/
def btys : Binds → List (Name × Ty)
  | .nil => []
  | .cons x T _ bs => (x, T) :: btys bs

/-- One `if` of `and`, `or` around a generated branch (conditionals.rs 617-650). -/
def circuit (isAnd : Bool) (b : List Instr) : Instr :=
  if isAnd then .ite 0 1 b [c32 0] else .ite 0 1 [c32 1] b

/-- maps.rs 167-332: `map-set` and `map-insert`, given the code of key and value from the next fresh
local on. -/
def mapWrite (K : Ctx) (h : HostFn) (m : Name) (key val : Nat → Blk) (n : Nat) : Blk :=
  let kt := ((K.maps m).getD (.noType, .noType)).1
  let vt := ((K.maps m).getD (.noType, .noType)).2
  let ks := stackLocalSize kt true false
  let a := key (n + 1)
  let s := writeMem n kt 0 (n + 1 + a.ls.length)
  let vo := n + 1 + a.ls.length + s.ls.length
  let vs := stackLocalSize vt true false
  let b := val (vo + 2)
  let t := writeMem vo vt 0 (vo + 2 + b.ls.length)
  ⟨addr K m ++ allocCode n ks ++ a.is ++ s.is ++ [lget n, c32 ks] ++ allocCode vo vs ++
    [c32 vs, lset (vo + 1)] ++ b.is ++ t.is ++ [lget vo, lget (vo + 1), .call (.host h)],
    .i32 :: a.ls ++ s.ls ++ .i32 :: .i32 :: b.ls ++ t.ls, ks + a.al + vs + b.al⟩

mutual
/-- wasm_generator.rs 434-530: `traverse_expr`: code for an expression of type `T` in a function
with return type `R`, inside `d` blocks; `n` is the next fresh local. -/
def compile (K : Ctx) (R : Ty) : Expr → Ty → Nat → Scope → Nat → Blk
  | .lit v, _, _, _, _ => ⟨litCode K v, [], 0⟩
  -- wasm_generator.rs 1473-1479: reserved variable `none`
  | .none_, T, _, _, _ => ⟨placeholder T, [], 0⟩
  -- wasm_generator.rs 1638-1663
  | .var x, _, _, Γ, _ => ⟨getLocals ((look x Γ).getD []), [], 0⟩
  -- wasm_generator.rs 1401-1417
  | .txSender, _, _, _, n =>
    let size := stackLocalSize .principal false true
    ⟨allocCode n size ++ [lget n, c32 size, .call (.host .tx_sender)], [.i32], size⟩
  -- wasm_generator.rs 1418-1434
  | .contractCaller, _, _, _, n =>
    let size := stackLocalSize .principal false true
    ⟨allocCode n size ++ [lget n, c32 size, .call (.host .contract_caller)], [.i32], size⟩
  | .prim p es, T, d, Γ, n =>
    let a := compileArgs K R es d Γ n
    let b := primPost p (tys es) T (n + a.ls.length)
    ⟨primPre p T ++ a.is ++ b.is, a.ls ++ b.ls, a.al + b.al⟩
  | .nary o es, T, d, Γ, n => compileNary K R o T es d Γ n
  -- equal.rs 24-87
  | .isEq T es, _, d, Γ, n => compileEq K R T es d Γ n
  -- tuples.rs 22-100
  | .tuple bs, _, d, Γ, n =>
    let a := compileFields K R bs d Γ n
    ⟨a.1.is ++ getLocals ((sortFields a.2).flatMap Prod.snd), a.1.ls, a.1.al⟩
  -- bindings.rs 18-88
  | .let_ bs body, _, d, Γ, n =>
    let a := compileBinds K R bs d Γ n
    let b := compileSeq K R body d a.2 (n + a.1.ls.length)
    ⟨a.1.is ++ b.is, a.1.ls ++ b.ls, a.1.al + b.al⟩
  -- control_flow.rs 21-50
  | .begin_ body, _, d, Γ, n => compileSeq K R body d Γ n
  -- conditionals.rs 277-313
  | .ite c a b, T, d, Γ, n =>
    let c := compile K R c .bool d Γ n
    let a := compile K R a T (d + 1) Γ (n + c.ls.length)
    let b := compile K R b T (d + 1) Γ (n + c.ls.length + a.ls.length)
    ⟨c.is ++ [.ite 0 (wty T).length a.is b.is], c.ls ++ a.ls ++ b.ls, c.al + a.al + b.al⟩
  -- conditionals.rs 602-680
  | .and_ es, _, d, Γ, n =>
    let a := compileBranches K R true es d Γ n
    ⟨c32 1 :: a.is, a.ls, a.al⟩
  -- conditionals.rs 602-653, 720-736
  | .or_ es, _, d, Γ, n =>
    let a := compileBranches K R false es d Γ n
    ⟨c32 0 :: a.is, a.ls, a.al⟩
  -- conditionals.rs 324-395
  | .matchOpt U e x a b, T, d, Γ, n =>
    let c := compile K R e (.opt U) d Γ n
    let n1 := n + c.ls.length
    let n2 := n1 + (wty U).length
    let a := compile K R a T (d + 1) ((x, saveLocals U n1) :: Γ) n2
    let b := compile K R b T (d + 1) Γ (n2 + a.ls.length)
    ⟨c.is ++ saveCode U n1 ++ [.ite 0 (wty T).length a.is b.is],
      c.ls ++ wty U ++ a.ls ++ b.ls, c.al + a.al + b.al⟩
  -- conditionals.rs 396-436
  | .matchResp O E e x a y b, T, d, Γ, n =>
    let c := compile K R e (.resp O E) d Γ n
    let n1 := n + c.ls.length
    let n2 := n1 + (wty E).length
    let n3 := n2 + (wty O).length
    let a := compile K R a T (d + 1) ((x, saveLocals O n2) :: Γ) n3
    let b := compile K R b T (d + 1) ((y, saveLocals E n1) :: Γ) (n3 + a.ls.length)
    ⟨c.is ++ saveCode E n1 ++ saveCode O n2 ++ [.ite 0 (wty T).length a.is b.is],
      c.ls ++ wty E ++ wty O ++ a.ls ++ b.ls, c.al + a.al + b.al⟩
  -- conditionals.rs 949-996, 42-79
  | .asserts c t, _, d, Γ, n =>
    let c := compile K R c .bool d Γ n
    let p := n + c.ls.length
    let t := compile K R t R d Γ (p + 1)
    ⟨c.is ++ [lset p] ++ t.is ++ shortReturn R d p true ++ [c32 1],
      c.ls ++ .i32 :: t.ls, c.al + t.al⟩
  -- conditionals.rs 776-852
  | .unwrapOpt e t, T, d, Γ, n =>
    let c := compile K R e (.opt T) d Γ n
    let n1 := n + c.ls.length
    let p := n1 + (wty T).length
    let t := compile K R t R d Γ (p + 1)
    ⟨c.is ++ saveCode T n1 ++ [lset p] ++ t.is ++ shortReturn R d p true ++ getLocals (saveLocals T n1),
      c.ls ++ wty T ++ .i32 :: t.ls, c.al + t.al⟩
  | .unwrapResp E e t, T, d, Γ, n =>
    let c := compile K R e (.resp T E) d Γ n
    let n1 := n + c.ls.length
    let n2 := n1 + (wty E).length
    let p := n2 + (wty T).length
    let t := compile K R t R d Γ (p + 1)
    ⟨c.is ++ saveCode E n1 ++ saveCode T n2 ++ [lset p] ++ t.is ++ shortReturn R d p true ++
      getLocals (saveLocals T n2), c.ls ++ wty E ++ wty T ++ .i32 :: t.ls, c.al + t.al⟩
  -- conditionals.rs 863-938
  | .unwrapErr O e t, T, d, Γ, n =>
    let c := compile K R e (.resp O T) d Γ n
    let n1 := n + c.ls.length
    let n2 := n1 + (wty T).length
    let p := n2 + (wty O).length
    let t := compile K R t R d Γ (p + 1)
    ⟨c.is ++ saveCode T n1 ++ saveCode O n2 ++ [lset p] ++ t.is ++ shortReturn R d p false ++
      getLocals (saveLocals T n1), c.ls ++ wty T ++ wty O ++ .i32 :: t.ls, c.al + t.al⟩
  -- conditionals.rs 1007-1040, 42-79
  | .tryOpt e, T, d, Γ, n =>
    let c := compile K R e (.opt T) d Γ n
    let n1 := n + c.ls.length
    let p := n1 + (wty T).length
    ⟨c.is ++ saveCode T n1 ++ [lset p] ++ c32 0 :: placeholder T ++ shortReturn R d p true ++
      getLocals (saveLocals T n1), c.ls ++ wty T ++ [.i32], c.al⟩
  | .tryResp E e, T, d, Γ, n =>
    let c := compile K R e (.resp T E) d Γ n
    let n1 := n + c.ls.length
    let n2 := n1 + (wty E).length
    let p := n2 + (wty T).length
    ⟨c.is ++ saveCode E n1 ++ saveCode T n2 ++ [lset p] ++ c32 0 :: placeholder (okTy R) ++
      getLocals (saveLocals E n1) ++ shortReturn R d p true ++ getLocals (saveLocals T n2),
      c.ls ++ wty E ++ wty T ++ [.i32], c.al⟩
  -- wasm_generator.rs 1665-1712
  | .call f es, _, d, Γ, n =>
    let a := compileArgs K R es d Γ n
    match K.fns[f]? with
    | some fd =>
      let b := callUser f fd.kind fd.ret (n + a.ls.length)
      ⟨a.is ++ b.is, a.ls ++ b.ls, a.al + b.al⟩
    | none => a
  -- contract.rs 23-50
  | .asContract e, T, d, Γ, n =>
    let a := compile K R e T d Γ n
    ⟨[.call (.host .enter_as_contract)] ++ a.is ++ [.call (.host .exit_as_contract)], a.ls, a.al⟩
  -- data_vars.rs 188-240
  | .varGet x, T, _, _, n =>
    let size := stackLocalSize T true true
    ⟨allocCode n size ++ addr K x ++ [lget n, c32 size, .call (.host .get_variable)] ++
      (readMem n T 0).is, [.i32], size⟩
  -- data_vars.rs 111-178
  | .varSet x e, _, d, Γ, n =>
    let D := (K.vars x).getD .noType
    let a := compile K R e D d Γ n
    let o := n + a.ls.length
    let size := stackLocalSize D true false
    let s := writeMem o D 0 (o + 1)
    ⟨a.is ++ allocCode o size ++ s.is ++ addr K x ++
      [lget o, c32 size, .call (.host .set_variable), c32 1], a.ls ++ .i32 :: s.ls, a.al + size⟩
  -- maps.rs 83-156
  | .mapGet m k, T, d, Γ, n =>
    let kt := ((K.maps m).getD (.noType, .noType)).1
    let ks := stackLocalSize kt true false
    let a := compile K R k kt d Γ (n + 1)
    let s := writeMem n kt 0 (n + 1 + a.ls.length)
    let ro := n + 1 + a.ls.length + s.ls.length
    let rs := stackLocalSize T true true
    ⟨addr K m ++ allocCode n ks ++ a.is ++ s.is ++ [lget n, c32 ks] ++ allocCode ro rs ++
      [c32 rs, lset (ro + 1), lget ro, lget (ro + 1), .call (.host .map_get)] ++ (readMem ro T 0).is,
      .i32 :: a.ls ++ s.ls ++ [.i32, .i32], ks + a.al + rs⟩
  -- maps.rs 167-244
  | .mapSet m k v, _, d, Γ, n => mapWrite K .map_set m
    (fun n => compile K R k ((K.maps m).getD (.noType, .noType)).1 d Γ n)
    (fun n => compile K R v ((K.maps m).getD (.noType, .noType)).2 d Γ n) n
  -- maps.rs 255-332
  | .mapInsert m k v, _, d, Γ, n => mapWrite K .map_insert m
    (fun n => compile K R k ((K.maps m).getD (.noType, .noType)).1 d Γ n)
    (fun n => compile K R v ((K.maps m).getD (.noType, .noType)).2 d Γ n) n
  -- maps.rs 343-409
  | .mapDelete m k, _, d, Γ, n =>
    let kt := ((K.maps m).getD (.noType, .noType)).1
    let ks := stackLocalSize kt true false
    let a := compile K R k kt d Γ (n + 2)
    let s := writeMem n kt 0 (n + 2 + a.ls.length)
    ⟨addr K m ++ allocCode n ks ++ [c32 ks, lset (n + 1)] ++ a.is ++ s.is ++
      [lget n, lget (n + 1), .call (.host .map_delete)],
      .i32 :: .i32 :: a.ls ++ s.ls, ks + a.al⟩
  -- sequences.rs 1018-1195
  | .elementAt S e i, _, d, Γ, n =>
    let a := compile K R e S d Γ n
    let b := compile K R i .uint d Γ (n + a.ls.length)
    ⟨a.is ++ .b .i64extU :: b.is ++ elementAtCode S (n + a.ls.length + b.ls.length),
      a.ls ++ b.ls ++ [.i32, .i64, .i32], a.al + b.al⟩
  -- sequences.rs 1475-1740
  | .slice S e l r, _, d, Γ, n =>
    let a := compile K R e S d Γ n
    let n1 := n + a.ls.length
    let b := compile K R l .uint d Γ (n1 + 4)
    let c := compile K R r .uint d Γ (n1 + 4 + b.ls.length)
    ⟨a.is ++ [.b .i64extU, .b (.localTee n1)] ++ b.is ++ sliceLeft S n1 ++ c.is ++
      sliceRight S n1 (n1 + 4 + b.ls.length + c.ls.length),
      a.ls ++ [.i64, .i32, .i64, .i64] ++ b.ls ++ c.ls ++ [.i32, .i64], a.al + b.al + c.al⟩
  -- equal.rs 88-304; locals `n1`, `n1 + 1`, `n1 + 2` are `offset`, `end_offset`, `seq_size`
  | .indexOf S e x, _, d, Γ, n =>
    let E := elemTy S
    let a := compile K R e S d Γ n
    let n1 := n + a.ls.length
    let b := compile K R x E (d + 1) Γ (n1 + 3)
    let n2 := n1 + 3 + b.ls.length
    let ix := n2 + (wty E).length
    ⟨a.is ++ [lset (n1 + 2), .b (.localTee n1), lget (n1 + 2), .b (.i32bin .add), lset (n1 + 1),
        lget (n1 + 2), .b .i32eqz,
        .ite 0 3 [c32 0, c64 0, c64 0]
          (b.is ++ saveCode E n2 ++ [c64 0, lset ix] ++ indexOfLoop S (saveLocals E n2) n1 ix (ix + 1))],
      a.ls ++ [.i32, .i32, .i32] ++ b.ls ++ wty E ++ .i64 :: wty E ++
        (equalCode E (saveLocals E n2) (saveLocals E (ix + 1)) (ix + 1 + (wty E).length)).2, a.al + b.al⟩
  -- sequences.rs 28-75; local `n` is `offset`
  | .list es, T, d, Γ, n =>
    let z := stackLocalSize T false true
    let b := compileList K R (elemTy T) n es 0 d Γ (n + 1)
    ⟨allocCode n z ++ b.is, .i32 :: b.ls, z + b.al⟩
  -- sequences.rs 328-425; local `n` is `write_ptr`, `n1` is `src_length`, `n1 + 1` is `number_of_elements`
  | .append e x, T, d, Γ, n =>
    let z := stackLocalSize T false true
    let E := elemTy T
    let a := compile K R e (.list (maxLen T - 1) E) d Γ (n + 1)
    let n1 := n + 1 + a.ls.length
    let b := compile K R x E d Γ (n1 + 2)
    let s := writeMem n E 0 (n1 + 2 + b.ls.length)
    ⟨allocCode n z ++ [lget n, lget n] ++ a.is ++ appendCode E n n1 ++ b.is ++ s.is ++ [lget n1],
      .i32 :: a.ls ++ [.i32, .i32] ++ b.ls ++ s.ls, z + a.al + b.al⟩
  -- sequences.rs 542-612; local `n` is `offset`, `n1` is `lhs_length`, `n2` is `rhs_length`
  | .concat _ l r, T, d, Γ, n =>
    let z := stackLocalSize T false true
    let a := compile K R l T d Γ (n + 1)
    let n1 := n + 1 + a.ls.length
    let b := compile K R r T d Γ (n1 + 1)
    let n2 := n1 + 1 + b.ls.length
    ⟨allocCode n z ++ [lget n] ++ a.is ++
      [.b (.localTee n1), .b .memCopy, lget n, lget n1, .b (.i32bin .add)] ++ b.is ++
      [.b (.localTee n2), .b .memCopy, lget n, lget n1, lget n2, .b (.i32bin .add), .b (.localTee (n2 + 1))],
      .i32 :: a.ls ++ .i32 :: b.ls ++ [.i32, .i32], z + a.al + b.al⟩
  -- sequences.rs 1205-1465; locals `n`, `n + 1`, `n + 2` are `length`, `number_of_elements`, `dest_offset`;
  -- `n2`, `n2 + 1` are `overflow_local`, `index_local`
  | .replaceAt S e i x, _, d, Γ, n =>
    let z := stackLocalSize S false true
    let a := compile K R e S d Γ (n + 3)
    let n1 := n + 3 + a.ls.length
    let b := compile K R i .uint d Γ n1
    let n2 := n1 + b.ls.length
    let c := compile K R x (elemTy S) d Γ (n2 + 2)
    let f := replaceCode S n n2 (n2 + 2 + c.ls.length)
    ⟨allocCode (n + 2) z ++ [lget (n + 2)] ++ a.is ++ [.b (.localTee n), lget n] ++ countCode S ++
      [lset (n + 1), .b .memCopy, lget n, .b .i64extU] ++ b.is ++ indexCode S n2 (n2 + 1) ++
      [.b (.i64rel .leU), lget n2, .b (.i32bin .or), lset n2] ++ c.is ++ f.is,
      [.i32, .i32, .i32] ++ a.ls ++ b.ls ++ [.i32, .i64] ++ c.ls ++ f.ls, z + a.al + b.al + c.al⟩
  | .mem q S e, T, d, Γ, n =>
    let a := compile K R e S d Γ n
    let c := memCode q S T (n + a.ls.length)
    ⟨a.is ++ c.is, a.ls ++ c.ls, a.al + c.al⟩
  -- words/stx.rs 19-126, words/tokens.rs 83-272
  | .token q es, _, d, Γ, n =>
    let a := compileArgs K R es d Γ n
    ⟨tokenPre K q ++ a.is ++ tokenPost q, a.ls, a.al⟩
  -- words/consensus_buff.rs 23-88; locals `n1`, `n1 + 1` are `offset`, `length`
  | .toBuff V e, T, d, Γ, n =>
    let z := stackLocalSize T false true
    let a := compile K R e V d Γ n
    let n1 := n + a.ls.length
    let f := ser K.off V n1 0 (n1 + 2)
    ⟨a.is ++ allocCode n1 z ++ f.is ++ toBuffCode n1, a.ls ++ .i32 :: .i32 :: f.ls, a.al + z⟩
  -- words/consensus_buff.rs 103-174; locals `n1`, `n1 + 1`, `n1 + 2`, `n1 + 3` are `length`, `offset_result`,
  -- `offset`, `end`; the cost is modelled in `Gen/Cost.lean`
  | .fromBuff V mx e, T, d, Γ, n =>
    let z := stackLocalSize T true true
    let a := compile K R e (.buff mx) d Γ n
    let n1 := n + a.ls.length
    let f := des V (n1 + 2) (n1 + 3) (n1 + 1) (n1 + 4)
    ⟨a.is ++ [.b (.localTee n1)] ++ allocCode (n1 + 1) z ++ fromBuffStart n1 ++ f.is ++ fromBuffEnd T n1,
      a.ls ++ .i32 :: .i32 :: .i32 :: .i32 :: f.ls, a.al + z⟩
  -- sequences.rs 86-320, for functions with exactly the types of the elements and the accumulator; local `n` is
  -- `return_offset`, locals `n1`, `n1 + 1`, `n1 + 2` are `length`, `offset`, `end_offset`
  | .fold f S e i, T, d, Γ, n =>
    let z := stackLocalSize T true true
    let a := compile K R e S d Γ (n + 1)
    let n1 := n + 1 + a.ls.length
    let b := compile K R i T d Γ (n1 + 3)
    let n2 := n1 + 3 + b.ls.length
    let c := fnAt K n f [elemTy S, T] T (n2 + (wty T).length)
    ⟨allocCode n z ++ a.is ++ [lset n1, .b (.localTee (n1 + 1)), lget n1, .b (.i32bin .add), lset (n1 + 2)] ++ b.is ++
      [lget n1, .b .i32eqz, .ite (wty T).length (wty T).length []
        (saveCode T n2 ++ foldLoop S c.is (saveLocals T n2) (n1 + 1) ++ getLocals (saveLocals T n2))],
      .i32 :: a.ls ++ [.i32, .i32, .i32] ++ b.ls ++ wty T ++ c.ls, z + a.al + b.al⟩
  -- conditionals.rs 449-598; locals `n1` to `n1 + 3` are `input_len`, `input_offset`, `output_len`,
  -- `output_offset`; `output_len` is set to zero here, the source relies on locals being zero at first
  | .filter f e, T, d, Γ, n =>
    let z := stackLocalSize T false true
    let a := compile K R e T d Γ n
    let n1 := n + a.ls.length
    ⟨a.is ++ [lset n1, lset (n1 + 1), c32 0, lset (n1 + 2)] ++ allocCode (n1 + 3) z ++
      filterLoop T [.call (.user f)] n1 ++ [lget (n1 + 3), lget (n1 + 2)],
      a.ls ++ [.i32, .i32, .i32, .i32], a.al + z⟩
  -- sequences.rs 626-918; local `n` is `min_num_elements`; `n1`, `n1 + 1`, `n1 + 2` are `output_base`,
  -- `output_offset`, `index`
  | .map f es, T, d, Γ, n =>
    let z := stackLocalSize T false true
    let E := elemTy T
    let a := compileMap K R n es (isUser f) d Γ (n + 1)
    let n1 := n + 1 + a.1.ls.length
    let c := fnMap K f a.2 E (n1 + 3)
    let s := writeMem (n1 + 1) E 0 (n1 + 3 + c.ls.length)
    ⟨[c32 2147483647, lset n] ++ a.1.is ++ allocCode n1 z ++ [lget n1, lset (n1 + 1), c32 0, lset (n1 + 2)] ++
      mapLoop E c.is s.is n (n1 + 1) ++ [lget n1, lget n, c32 (typeSize E), .b (.i32bin .mul)],
      .i32 :: a.1.ls ++ [.i32, .i32, .i32] ++ c.ls ++ s.ls, a.1.al + z + c.al⟩
/-- sequences.rs 706-772: the sequences of `map`; their types and the locals with their addresses. `first`: the
first one, whose type is changed. -/
def compileMap (K : Ctx) (R : Ty) (mn : Nat) : Exprs → Bool → Nat → Scope → Nat → Blk × List (Ty × Nat)
  | .nil, _, _, _, _ => (⟨[], [], 0⟩, [])
  | .cons S e es, first, d, Γ, n =>
    let a := compile K R e (if first then mapTy S else S) d Γ n
    let q := n + a.ls.length
    let b := compileMap K R mn es false d Γ (q + 2)
    (⟨a.is ++ mapCount S mn q ++ b.1.is, a.ls ++ .i32 :: .i32 :: b.1.ls, a.al + b.1.al⟩, (S, q + 1) :: b.2)
/-- sequences.rs 56-74: the elements of a list of elements of type `E`, stored from offset `off` on of the
address in local `ol`; then its address and number of bytes. -/
def compileList (K : Ctx) (R : Ty) (E : Ty) (ol : Nat) : Exprs → Nat → Nat → Scope → Nat → Blk
  | .nil, off, _, _, _ => ⟨[lget ol, c32 off], [], 0⟩
  | .cons _ e es, off, d, Γ, n =>
    let a := compile K R e E d Γ n
    let s := writeMem ol E off (n + a.ls.length)
    let b := compileList K R E ol es (off + s.sz) d Γ (n + a.ls.length + s.ls.length)
    ⟨a.is ++ s.is ++ b.is, a.ls ++ s.ls ++ b.ls, a.al + b.al⟩
/-- wasm_generator.rs 2039-2052: `traverse_args`. -/
def compileArgs (K : Ctx) (R : Ty) : Exprs → Nat → Scope → Nat → Blk
  | .nil, _, _, _ => ⟨[], [], 0⟩
  | .cons T e es, d, Γ, n =>
    let a := compile K R e T d Γ n
    let b := compileArgs K R es d Γ (n + a.ls.length)
    ⟨a.is ++ b.is, a.ls ++ b.ls, a.al + b.al⟩
/-- A word with any number of operands of type `T` (wasm_generator.rs 496-526): the operator is applied
as soon as it has two operands. -/
def compileNary (K : Ctx) (R : Ty) (o : NOp) (T : Ty) : Exprs → Nat → Scope → Nat → Blk
  | .nil, _, _, _ => ⟨[], [], 0⟩
  | .cons U e es, d, Γ, n =>
    let a := compile K R e U d Γ n
    match es with
    | .nil =>
      let b := unCode o T (n + a.ls.length)
      ⟨a.is ++ b.is, a.ls ++ b.ls, a.al + b.al⟩
    | es =>
      let b := compileOps K R o T es d Γ (n + a.ls.length)
      ⟨a.is ++ b.is, a.ls ++ b.ls, a.al + b.al⟩
/-- The second and further operands, each followed by the operator. -/
def compileOps (K : Ctx) (R : Ty) (o : NOp) (T : Ty) : Exprs → Nat → Scope → Nat → Blk
  | .nil, _, _, _ => ⟨[], [], 0⟩
  | .cons U e es, d, Γ, n =>
    let a := compile K R e U d Γ n
    let b := compileOps K R o T es d Γ (n + a.ls.length)
    ⟨a.is ++ .call (.std (NOp.std o T)) :: b.is, a.ls ++ b.ls, a.al + b.al⟩
/-- equal.rs 49-86: `is-eq` of operands of the common type `T`. -/
def compileEq (K : Ctx) (R : Ty) (T : Ty) : Exprs → Nat → Scope → Nat → Blk
  | .nil, _, _, _ => ⟨[], [], 0⟩
  | .cons _ e es, d, Γ, n =>
    let a := compile K R e T d Γ n
    match es with
    | .nil => ⟨a.is ++ dropValue T ++ [c32 1], a.ls, a.al⟩
    | es =>
      let n1 := n + a.ls.length
      let b := compileEqs K R T (saveLocals T n1) es d Γ (n1 + (wty T).length)
      ⟨a.is ++ saveCode T n1 ++ c32 1 :: b.is, a.ls ++ wty T ++ b.ls, a.al + b.al⟩
/-- equal.rs 73-84: the second and further operands, each compared with the first one, which is in the
locals `as`. -/
def compileEqs (K : Ctx) (R : Ty) (T : Ty) (as : List Nat) : Exprs → Nat → Scope → Nat → Blk
  | .nil, _, _, _ => ⟨[], [], 0⟩
  | .cons _ e es, d, Γ, n =>
    let a := compile K R e T d Γ n
    let n1 := n + a.ls.length
    let c := equalCode T as (saveLocals T n1) (n1 + (wty T).length)
    let b := compileEqs K R T as es d Γ (n1 + (wty T).length + c.2.length)
    ⟨a.is ++ saveCode T n1 ++ c.1 ++ .b (.i32bin .and) :: b.is, a.ls ++ wty T ++ c.2 ++ b.ls, a.al + b.al⟩
/-- wasm_generator.rs 1361-1385: `traverse_statement_list`. -/
def compileSeq (K : Ctx) (R : Ty) : Exprs → Nat → Scope → Nat → Blk
  | .nil, _, _, _ => ⟨[], [], 0⟩
  | .cons T e es, d, Γ, n =>
    let a := compile K R e T d Γ n
    match es with
    | .nil => a
    | es =>
      let b := compileSeq K R es d Γ (n + a.ls.length)
      ⟨a.is ++ dropValue T ++ b.is, a.ls ++ b.ls, a.al + b.al⟩
/-- conditionals.rs 602-653: `traverse_short_circuiting_list`. -/
def compileBranches (K : Ctx) (R : Ty) (isAnd : Bool) : Exprs → Nat → Scope → Nat → Blk
  | .nil, _, _, _ => ⟨[], [], 0⟩
  | .cons T e es, d, Γ, n =>
    let a := compile K R e T (d + 1) Γ n
    let b := compileBranches K R isAnd es d Γ (n + a.ls.length)
    ⟨circuit isAnd a.is :: b.is, a.ls ++ b.ls, a.al + b.al⟩
/-- bindings.rs 37-70: the bindings of a `let`, and the scope of its body. -/
def compileBinds (K : Ctx) (R : Ty) : Binds → Nat → Scope → Nat → Blk × Scope
  | .nil, _, Γ, _ => (⟨[], [], 0⟩, Γ)
  | .cons x T e bs, d, Γ, n =>
    let a := compile K R e T d Γ n
    let n1 := n + a.ls.length
    let b := compileBinds K R bs d ((x, saveLocals T n1) :: Γ) (n1 + (wty T).length)
    (⟨a.is ++ saveCode T n1 ++ b.1.is, a.ls ++ wty T ++ b.1.ls, a.al + b.1.al⟩, b.2)
/-- tuples.rs 66-84: the fields of a tuple, and the locals of each. -/
def compileFields (K : Ctx) (R : Ty) : Binds → Nat → Scope → Nat → Blk × Scope
  | .nil, _, _, _ => (⟨[], [], 0⟩, [])
  | .cons x T e bs, d, Γ, n =>
    let a := compile K R e T d Γ n
    let n1 := n + a.ls.length
    let b := compileFields K R bs d Γ (n1 + (wty T).length)
    (⟨a.is ++ saveCode T n1 ++ b.1.is, a.ls ++ wty T ++ b.1.ls, a.al + b.1.al⟩,
      (x, saveLocals T n1) :: b.2)
end

/-- wasm_generator.rs 578-597: the parameters: scope and Wasm types, from local `n` on. -/
def paramScope : List (Name × Ty) → Nat → Scope
  | [], _ => []
  | (x, T) :: ps, n => paramScope ps (n + (wty T).length) ++ [(x, List.range' n (wty T).length)]

/-- wasm_generator.rs 533-668: `traverse_define_function`, for distinct parameter names: after the
parameters comes the local that saves the stack pointer. -/
def compileFn (K : Ctx) (f : FunDef) : Func × Nat :=
  let ps := f.params.flatMap fun p => wty p.2
  let fp := ps.length
  let b := compile K f.ret f.body f.ret 0 (paramScope f.params 0) (fp + 1)
  (⟨ps, wty f.ret, .i32 :: b.ls,
    [.b (.global32Get .stackPointer), lset fp, .block 0 (wty f.ret).length b.is,
      lget fp, .b (.global32Set .stackPointer)]⟩, b.al)

end Gen
