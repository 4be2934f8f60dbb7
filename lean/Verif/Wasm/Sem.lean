import Verif.Stdlib.Code

/-!
Executable semantics of the Wasm subset: a fuel-driven big-step interpreter.
It follows the WebAssembly core specification (§4.4); the module always contains the runtime
library of `standard.wat`, as every contract is compiled into a copy of that module
(`wasm_generator.rs`, `WasmGenerator::new`).
-/

namespace Wasm

/-- Linear memory: size in bytes (at most 4 GiB) and contents. -/
structure Mem where
  size : Nat
  byte : Nat → BitVec 8
  le : size ≤ 2 ^ 32

namespace Mem

/-- Little-endian number stored in the `n` bytes at `a`. -/
def read (m : Mem) (a : Nat) : Nat → Nat
  | 0 => 0
  | n + 1 => (m.byte a).toNat + 256 * m.read (a + 1) n

/-- Store the `n` low-order bytes of `v` at `a`, little-endian. -/
def write (m : Mem) (a n : Nat) (v : Nat) : Mem where
  size := m.size
  le := m.le
  byte i := if a ≤ i ∧ i < a + n then BitVec.ofNat 8 (v / 256 ^ (i - a)) else m.byte i

/-- `memory.copy`: `n` bytes from `s` to `d` (overlap allowed). -/
def copy (m : Mem) (d s n : Nat) : Mem where
  size := m.size
  le := m.le
  byte i := if d ≤ i ∧ i < d + n then m.byte (s + (i - d)) else m.byte i

/-- `memory.fill`. -/
def fill (m : Mem) (d : Nat) (v : BitVec 8) (n : Nat) : Mem where
  size := m.size
  le := m.le
  byte i := if d ≤ i ∧ i < d + n then v else m.byte i

end Mem

/-- The mutable state outside the operand stack and locals: globals, memory and host state. -/
structure Store (σ : Type) where
  g32 : G32 → BitVec 32
  g64 : G64 → BitVec 64
  mem : Mem
  host : σ

/-- Result of calling a function. -/
inductive CRes (σ : Type)
  /-- normal return, results in order -/
  | ret (vs : List Val) (g : Store σ)
  /-- a trap; the store is what the host sees afterwards -/
  | trap (g : Store σ)
  /-- not valid Wasm -/
  | stuck
  | oof

/-- Semantics of an imported host function: it returns or raises an error. -/
inductive HRes (σ : Type)
  | ret (vs : List Val) (g : Store σ)
  | err (g : Store σ)

/-- A module: the contract's own functions and the host functions. The runtime library and its
function table are fixed. -/
structure Mod (σ : Type) where
  user : Nat → Option Func
  host : HostFn → List Val → Store σ → HRes σ

/-- Result of executing a sequence of instructions. Stacks have their top at the head. -/
inductive Res (σ : Type)
  | norm (stk loc : List Val) (g : Store σ)
  | br (l : Nat) (stk loc : List Val) (g : Store σ)
  | ret (stk : List Val) (g : Store σ)
  | trap (g : Store σ)
  | stuck
  | oof

/-- Booleans as i32. -/
def b32 (p : Prop) [Decidable p] : BitVec 32 := if p then 1#32 else 0#32

/-- Integer binary operators (shift amounts modulo the width). -/
def IBin.eval {w : Nat} (op : IBin) (a b : BitVec w) : BitVec w :=
  match op with
  | .add => a + b
  | .sub => a - b
  | .mul => a * b
  | .and => a &&& b
  | .or => a ||| b
  | .xor => a ^^^ b
  | .shl => a <<< (b.toNat % w)
  | .shrU => a >>> (b.toNat % w)
  | .shrS => a.sshiftRight (b.toNat % w)
  | .rotl => a.rotateLeft (b.toNat % w)
  | .rotr => a.rotateRight (b.toNat % w)

/-- Unsigned division and remainder. -/
def IDiv.eval {w : Nat} (op : IDiv) (a b : BitVec w) : Option (BitVec w) :=
  if b = 0#w then none else
  match op with
  | .divU => some (a / b)
  | .remU => some (a % b)
  | .divS => if a = BitVec.intMin w ∧ b = BitVec.allOnes w then none else some (a.sdiv b)

/-- Integer relational operators. -/
def IRel.eval {w : Nat} (op : IRel) (a b : BitVec w) : BitVec 32 :=
  match op with
  | .eq => b32 (a = b)
  | .ne => b32 (a ≠ b)
  | .ltU => b32 (a.toNat < b.toNat)
  | .ltS => b32 (a.toInt < b.toInt)
  | .gtU => b32 (b.toNat < a.toNat)
  | .gtS => b32 (b.toInt < a.toInt)
  | .leU => b32 (a.toNat ≤ b.toNat)
  | .leS => b32 (a.toInt ≤ b.toInt)
  | .geU => b32 (b.toNat ≤ a.toNat)
  | .geS => b32 (b.toInt ≤ a.toInt)

/-- Number of leading zero bits. -/
def clz {w : Nat} (a : BitVec w) : BitVec w :=
  BitVec.ofNat w (if a.toNat = 0 then w else w - 1 - Nat.log2 a.toNat)

/-- Lane `i` of sixteen bytes. -/
def lane8 (v : BitVec 128) (i : Nat) : Nat := v.toNat / 256 ^ i % 256

/-- `i8x16.swizzle`. -/
def swizzle (v s : BitVec 128) : BitVec 128 :=
  BitVec.ofNat 128 ((List.range 16).foldr
    (fun i acc => acc + (if lane8 s i < 16 then lane8 v (lane8 s i) else 0) * 256 ^ i) 0)

/-- Update of an i32 global. -/
def Store.set32 {σ} (g : Store σ) (x : G32) (v : BitVec 32) : Store σ :=
  { g with g32 := fun y => if y = x then v else g.g32 y }

/-- Update of an i64 global. -/
def Store.set64 {σ} (g : Store σ) (x : G64) (v : BitVec 64) : Store σ :=
  { g with g64 := fun y => if y = x then v else g.g64 y }

/-- Update of the memory. -/
def Store.setMem {σ} (g : Store σ) (m : Mem) : Store σ := { g with mem := m }

/-- Result of a basic instruction. -/
inductive SRes (σ : Type)
  | ok (stk loc : List Val) (g : Store σ)
  | trap
  | stuck

/-- Basic instructions. -/
def stepB {σ} (op : Basic) (stk loc : List Val) (g : Store σ) : SRes σ :=
  match op, stk with
  | .const v, stk => .ok (v :: stk) loc g
  | .i32bin op, .i32 b :: .i32 a :: stk => .ok (.i32 (op.eval a b) :: stk) loc g
  | .i64bin op, .i64 b :: .i64 a :: stk => .ok (.i64 (op.eval a b) :: stk) loc g
  | .i32div op, .i32 b :: .i32 a :: stk =>
    match op.eval a b with
    | some r => .ok (.i32 r :: stk) loc g
    | none => .trap
  | .i64div op, .i64 b :: .i64 a :: stk =>
    match op.eval a b with
    | some r => .ok (.i64 r :: stk) loc g
    | none => .trap
  | .i32rel op, .i32 b :: .i32 a :: stk => .ok (.i32 (op.eval a b) :: stk) loc g
  | .i64rel op, .i64 b :: .i64 a :: stk => .ok (.i32 (op.eval a b) :: stk) loc g
  | .i32eqz, .i32 a :: stk => .ok (.i32 (b32 (a = 0#32)) :: stk) loc g
  | .i64eqz, .i64 a :: stk => .ok (.i32 (b32 (a = 0#64)) :: stk) loc g
  | .i32clz, .i32 a :: stk => .ok (.i32 (clz a) :: stk) loc g
  | .i64clz, .i64 a :: stk => .ok (.i64 (clz a) :: stk) loc g
  | .i32wrap, .i64 a :: stk => .ok (.i32 (a.setWidth 32) :: stk) loc g
  | .i64extU, .i32 a :: stk => .ok (.i64 (a.setWidth 64) :: stk) loc g
  | .i64extS, .i32 a :: stk => .ok (.i64 (a.signExtend 64) :: stk) loc g
  | .drop, _ :: stk => .ok stk loc g
  | .select, .i32 c :: b :: a :: stk => .ok ((if c = 0#32 then b else a) :: stk) loc g
  | .localGet n, stk =>
    match loc[n]? with
    | some v => .ok (v :: stk) loc g
    | none => .stuck
  | .localSet n, v :: stk => if n < loc.length then .ok stk (loc.set n v) g else .stuck
  | .localTee n, v :: stk => if n < loc.length then .ok (v :: stk) (loc.set n v) g else .stuck
  | .global32Get x, stk => .ok (.i32 (g.g32 x) :: stk) loc g
  | .global32Set x, .i32 v :: stk => .ok stk loc (g.set32 x v)
  | .global64Get x, stk => .ok (.i64 (g.g64 x) :: stk) loc g
  | .global64Set x, .i64 v :: stk => .ok stk loc (g.set64 x v)
  | .i32load n off, .i32 a :: stk =>
    if a.toNat + off + n ≤ g.mem.size then
      .ok (.i32 (BitVec.ofNat 32 (g.mem.read (a.toNat + off) n)) :: stk) loc g
    else .trap
  | .i64load n off, .i32 a :: stk =>
    if a.toNat + off + n ≤ g.mem.size then
      .ok (.i64 (BitVec.ofNat 64 (g.mem.read (a.toNat + off) n)) :: stk) loc g
    else .trap
  | .i32store n off, .i32 v :: .i32 a :: stk =>
    if a.toNat + off + n ≤ g.mem.size then
      .ok stk loc (g.setMem (g.mem.write (a.toNat + off) n v.toNat))
    else .trap
  | .i64store n off, .i64 v :: .i32 a :: stk =>
    if a.toNat + off + n ≤ g.mem.size then
      .ok stk loc (g.setMem (g.mem.write (a.toNat + off) n v.toNat))
    else .trap
  | .v128load off, .i32 a :: stk =>
    if a.toNat + off + 16 ≤ g.mem.size then
      .ok (.v128 (BitVec.ofNat 128 (g.mem.read (a.toNat + off) 16)) :: stk) loc g
    else .trap
  | .v128store off, .v128 v :: .i32 a :: stk =>
    if a.toNat + off + 16 ≤ g.mem.size then
      .ok stk loc (g.setMem (g.mem.write (a.toNat + off) 16 v.toNat))
    else .trap
  | .v128and, .v128 b :: .v128 a :: stk => .ok (.v128 (a &&& b) :: stk) loc g
  | .v128xor, .v128 b :: .v128 a :: stk => .ok (.v128 (a ^^^ b) :: stk) loc g
  | .v128anyTrue, .v128 a :: stk => .ok (.i32 (b32 (a ≠ 0#128)) :: stk) loc g
  | .i8x16swizzle, .v128 s :: .v128 v :: stk => .ok (.v128 (swizzle v s) :: stk) loc g
  | .i64x2extract l, .v128 v :: stk =>
    .ok (.i64 (BitVec.ofNat 64 (v.toNat / 2 ^ (64 * l))) :: stk) loc g
  | .memCopy, .i32 n :: .i32 s :: .i32 d :: stk =>
    if s.toNat + n.toNat ≤ g.mem.size ∧ d.toNat + n.toNat ≤ g.mem.size then
      .ok stk loc (g.setMem (g.mem.copy d.toNat s.toNat n.toNat))
    else .trap
  | .memFill, .i32 n :: .i32 v :: .i32 d :: stk =>
    if d.toNat + n.toNat ≤ g.mem.size then
      .ok stk loc (g.setMem (g.mem.fill d.toNat (v.setWidth 8) n.toNat))
    else .trap
  | _, _ => .stuck

/-- Outcome of a function body as seen by the caller, for a function with `nr` results. -/
def Res.toCall {σ} (nr : Nat) : Res σ → CRes σ
  | .norm s _ g => .ret (s.take nr).reverse g
  | .br 0 s _ g => .ret (s.take nr).reverse g
  | .br (_ + 1) _ _ _ => .stuck
  | .ret s g => .ret (s.take nr).reverse g
  | .trap g => .trap g
  | .stuck => .stuck
  | .oof => .oof

/-- The definition of a Wasm function, if it is one. -/
def Mod.func {σ} (M : Mod σ) : FId → Option Func
  | .std f => some (stdFunc f)
  | .user n => M.user n
  | .host _ => none

/-- Signature of a function. -/
def Mod.sig {σ} (M : Mod σ) : FId → Option (List VT × List VT)
  | .host f => some (hostSig f)
  | f => (M.func f).map fun d => (d.params, d.results)

/-- The interpreter. `stk` has its top at the head. -/
def exec {σ} (M : Mod σ) : Nat → List Instr → List Val → List Val → Store σ → Res σ
  | 0, _, _, _, _ => .oof
  | _ + 1, [], stk, loc, g => .norm stk loc g
  | n + 1, i :: is, stk, loc, g =>
    match i with
    | .b op =>
      match stepB op stk loc g with
      | .ok stk' loc' g' => exec M n is stk' loc' g'
      | .trap => .trap g
      | .stuck => .stuck
    | .block np nr body =>
      if stk.length < np then .stuck else
      match exec M n body (stk.take np) loc g with
      | .norm s l g' => exec M n is (s ++ stk.drop np) l g'
      | .br 0 s l g' => exec M n is (s.take nr ++ stk.drop np) l g'
      | .br (k + 1) s l g' => .br k s l g'
      | .ret s g' => .ret s g'
      | .trap g' => .trap g'
      | .stuck => .stuck
      | .oof => .oof
    | .loop np nr body =>
      if stk.length < np then .stuck else
      match exec M n body (stk.take np) loc g with
      | .norm s l g' => exec M n is (s ++ stk.drop np) l g'
      | .br 0 s l g' => exec M n (.loop np nr body :: is) (s.take np ++ stk.drop np) l g'
      | .br (k + 1) s l g' => .br k s l g'
      | .ret s g' => .ret s g'
      | .trap g' => .trap g'
      | .stuck => .stuck
      | .oof => .oof
    | .ite np nr thn els =>
      match stk with
      | .i32 c :: stk => exec M n (.block np nr (if c = 0#32 then els else thn) :: is) stk loc g
      | _ => .stuck
    | .br l => .br l stk loc g
    | .brIf l =>
      match stk with
      | .i32 c :: stk => if c = 0#32 then exec M n is stk loc g else .br l stk loc g
      | _ => .stuck
    | .ret => .ret stk g
    | .unreachable => .trap g
    | .call f =>
      match f with
      | .host h =>
        let np := (hostSig h).1.length
        if stk.length < np then .stuck else
        match M.host h (stk.take np).reverse g with
        | .ret vs g' => exec M n is (vs.reverse ++ stk.drop np) loc g'
        | .err g' => .trap g'
      | f =>
        match M.func f with
        | none => .stuck
        | some d =>
          let np := d.params.length
          if stk.length < np then .stuck else
          match (exec M n d.body [] ((stk.take np).reverse ++ d.locals.map VT.zero) g).toCall
              d.results.length with
          | .ret vs g' => exec M n is (vs.reverse ++ stk.drop np) loc g'
          | .trap g' => .trap g'
          | .stuck => .stuck
          | .oof => .oof
    | .callIndirect ps rs =>
      match stk with
      | .i32 k :: stk =>
        match stdTable k.toNat with
        | none => .trap g
        | some f => if M.sig f = some (ps, rs) then exec M n (.call f :: is) stk loc g else .trap g
      | _ => .stuck

/-- Calling function `f` with arguments `args` (in order) in store `g`, with `n` units of fuel. -/
def invoke {σ} (M : Mod σ) (n : Nat) (f : FId) (args : List Val) (g : Store σ) : CRes σ :=
  match f with
  | .host h =>
    match M.host h args g with
    | .ret vs g' => .ret vs g'
    | .err g' => .trap g'
  | f =>
    match M.func f with
    | none => .stuck
    | some d => (exec M n d.body [] (args ++ d.locals.map VT.zero) g).toCall d.results.length

/-- Function `f` called on `args` in store `g` terminates with outcome `r`: with enough fuel the
interpreter gives `r`, and more fuel does not change it. -/
def Runs {σ} (M : Mod σ) (f : FId) (args : List Val) (g : Store σ) (r : CRes σ) : Prop :=
  ∃ n₀, ∀ n, n₀ ≤ n → invoke M n f args g = r

/-- The store after the runtime aborted with `code` (standard.wat 403-407). -/
def Store.failed {σ} (g : Store σ) (code : Nat) : Store σ := g.set32 .errCode (BitVec.ofNat 32 code)

/-- The outcome "abort with error code `code`" of a computation that otherwise changed nothing. -/
def abort {σ} (g : Store σ) (code : Nat) : CRes σ := .trap (g.failed code)

end Wasm
