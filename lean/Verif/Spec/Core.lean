import Verif.Host.World
import Verif.Spec.Decode
import Verif.Spec.Decimal
import Verif.Spec.Sha2
import Verif.Spec.Ripemd160
import Mathlib.Data.Nat.Sqrt

/-!
Specification: the meaning of a core of Clarity (SIP-002 and the reference interpreter), without any
reference to Wasm. Expressions carry the types of their subexpressions where the compiler asks the
type checker for them.

The datastore `Host.Db` and `Host.Event` are the plain data structures of `Host/World.lean`.
-/

namespace Core
open Spec

/-- Who is executing. -/
structure Cx where
  self : ContractId
  sender : Principal
  caller : Principal

/-- The state a contract can change. -/
structure St where
  db : Host.Db
  events : List Host.Event

/-- Change one data variable. -/
noncomputable def St.setVar (s : St) (c : ContractId) (x : Name) (d : Host.DataVar) : St :=
  { s with db := { s.db with var := Host.upd₂ s.db.var c x d } }

/-- Change one map. -/
noncomputable def St.setMap (s : St) (c : ContractId) (x : Name) (d : Host.DataMap) : St :=
  { s with db := { s.db with map := Host.upd₂ s.db.map c x d } }

/-- Change one fungible token. -/
noncomputable def St.setFt (s : St) (c : ContractId) (x : Name) (t : Host.Ft) : St :=
  { s with db := { s.db with ft := Host.upd₂ s.db.ft c x t } }

/-- Change the STX ledger: balances and liquid supply. -/
def St.setStx (s : St) (bal : Principal → Nat) (liquid : Nat) : St :=
  { s with db := { s.db with stx := bal, liquid := liquid } }

/-- Emit an event. -/
def St.emit (s : St) (e : Host.Event) : St := { s with events := s.events ++ [e] }

/-- Outcome of evaluating something: a value; an early return of the enclosing function
(`try!`, `unwrap!`, `asserts!`); a runtime error that aborts the whole transaction (the code of
`error_mapping.rs`); or one of the operand combinations for which the runtime library is known to
deviate from Clarity (properties C02, C03), about which nothing is claimed; or something that no
well-typed program does (an undefined name, an operand of the wrong type). -/
inductive Out (α : Type)
  | val (a : α) (s : St)
  | ret (v : Value) (s : St)
  | fail (code : Nat)
  | deviates
  | wrong

def Out.bind {α β : Type} : Out α → (α → St → Out β) → Out β
  | .val a s, k => k a s
  | .ret v s, _ => .ret v s
  | .fail c, _ => .fail c
  | .deviates, _ => .deviates
  | .wrong, _ => .wrong

/-- Result of an operator on values. -/
inductive Ans
  | ok (v : Value)
  | fail (code : Nat)
  | deviates
  | wrong

def Ans.out (r : Ans) (s : St) : Out Value :=
  match r with
  | .ok v => .val v s
  | .fail c => .fail c
  | .deviates => .deviates
  | .wrong => .wrong

/-- Error codes (error_mapping.rs): arithmetic overflow, underflow, division by zero, bad argument of
`log2`, of `sqrti`; panic of `unwrap-panic`; bad exponent of `pow`. -/
def eOverflow : Nat := 0
def eUnderflow : Nat := 1
def eDivZero : Nat := 2
def eLog2 : Nat := 3
def eSqrti : Nat := 4
def ePanic : Nat := 6
def ePow : Nat := 8

/-- The operators taking any number of integer operands. -/
inductive NOp
  | add | sub | mul | div

/-- The bitwise operators taking any number of integer operands; `xor` of Clarity is `bit-xor`. -/
inductive BitOp
  | and | or | xor

/-- More operators: `pow`, `log2`, `sqrti`, `bit-not`, `bit-shift-left`, `bit-shift-right`,
`string-to-int?`, `string-to-uint?`, and the bitwise operators. -/
inductive Word
  | pow | log2 | sqrti
  | bitNot | shl | shr
  | strToInt | strToUint
  | bits (o : BitOp)

/-- Words with one operand whose result is in memory. -/
inductive MWord
  | intToAscii | intToUtf8
  | sha256 | sha512 | hash160

/-- Operators whose operands are all evaluated, left to right, before they are applied. -/
inductive Prim
  | some_ | ok_ | err_
  | isSome | isNone | isOk | isErr
  | not_
  | defaultTo
  | unwrapPanic | unwrapErrPanic
  | get (k : Name)
  | mod
  | lt | le | gt | ge
  | toInt | toUint
  | len
  /-- `(as-max-len? e m)`; the bound is a literal -/
  | asMaxLen (m : Nat)
  | word (q : Word)

/-- Two-operand integer operators. -/
def NOp.bin : NOp → Value → Value → Ans
  | .add, .int a, .int b => if IsInt (a + b) then .ok (.int (a + b)) else .fail eOverflow
  | .add, .uint a, .uint b => if IsUInt (a + b) then .ok (.uint (a + b)) else .fail eOverflow
  | .sub, .int a, .int b => if IsInt (a - b) then .ok (.int (a - b)) else .fail eUnderflow
  | .sub, .uint a, .uint b =>
    if b ≤ a then .ok (.uint (a - b))
    else if b < 2 ^ 128 - 2 ^ 64 then .fail eUnderflow else .deviates
  | .mul, .int a, .int b =>
    if a * b = -2 ^ 127 ∧ a ≠ 1 ∧ b ≠ 1 then .deviates
    else if IsInt (a * b) then .ok (.int (a * b)) else .fail eOverflow
  | .mul, .uint a, .uint b => if IsUInt (a * b) then .ok (.uint (a * b)) else .fail eOverflow
  | .div, .int a, .int b =>
    if b = 0 then .fail eDivZero
    else if IsInt (a.tdiv b) then .ok (.int (a.tdiv b)) else .fail eOverflow
  | .div, .uint a, .uint b => if b = 0 then .fail eDivZero else .ok (.uint (a / b))
  | _, _, _ => .wrong

/-- One operand: `(- x)` negates, `(+ x)`, `(* x)` and `(/ x)` are `x`. -/
def NOp.un : NOp → Value → Ans
  | .sub, .int a => if IsInt (-a) then .ok (.int (-a)) else .fail eUnderflow
  | .sub, .uint _ => .fail eUnderflow
  | _, v => .ok v

/-- Left-to-right application. -/
def NOp.fold (o : NOp) : Value → List Value → Ans
  | a, [] => .ok a
  | a, b :: vs =>
    match o.bin a b with
    | .ok c => o.fold c vs
    | r => r

/-- Any number (at least one) of operands. -/
def NOp.eval (o : NOp) : List Value → Ans
  | [] => .wrong
  | [a] => o.un a
  | a :: vs => o.fold a vs

/-- The field of a tuple value. -/
def field (k : Name) : List (Name × Value) → Option Value
  | [] => none
  | (k', v) :: kvs => if k' = k then some v else field k kvs

/-- The lexicographic order: -1, 0 or 1 if the first sequence is before, equal to, or after the second. -/
def lexSign : List Nat → List Nat → Int
  | [], [] => 0
  | [], _ :: _ => -1
  | _ :: _, [] => 1
  | a :: as, b :: bs => if a < b then -1 else if b < a then 1 else lexSign as bs

/-- Comparison of integers, buffers and strings. -/
def cmp (i : Int → Int → Bool) : Value → Value → Ans
  | .int a, .int b => .ok (.bool (i a b))
  | .uint a, .uint b => .ok (.bool (i a b))
  | .buff a, .buff b => .ok (.bool (i (lexSign (a.map BitVec.toNat) (b.map BitVec.toNat)) 0))
  | .ascii a, .ascii b => .ok (.bool (i (lexSign (a.map BitVec.toNat) (b.map BitVec.toNat)) 0))
  | .utf8 a, .utf8 b => .ok (.bool (i (lexSign a b) 0))
  | _, _ => .wrong

/-- The elements of a sequence value, in order; the elements of a buffer or string are buffers or
strings of length one. -/
def seqElems : Value → Option (List Value)
  | .buff bs => some (bs.map fun b => .buff [b])
  | .ascii bs => some (bs.map fun b => .ascii [b])
  | .utf8 cs => some (cs.map fun c => .utf8 [c])
  | .list vs => some vs
  | _ => none

/-- The part of a sequence that starts at element `l` and has `n` elements. -/
def seqPart (l n : Nat) : Value → Value
  | .buff bs => .buff ((bs.drop l).take n)
  | .ascii bs => .ascii ((bs.drop l).take n)
  | .utf8 cs => .utf8 ((cs.drop l).take n)
  | .list vs => .list ((vs.drop l).take n)
  | v => v

/-- `(element-at? v i)`. -/
def elementAt (v i : Value) : Ans :=
  match seqElems v, i with
  | some vs, .uint n => .ok (match vs[n]? with | some x => .some x | none => .none)
  | _, _ => .wrong

/-- `(slice? v l r)`: from position `l` up to, excluding, position `r`; none if `r` is
before `l` or after the end. The compiled code deviates if `l` does not fit in 32 bits. -/
def sliceAns (v l r : Value) : Ans :=
  match seqElems v, l, r with
  | some vs, .uint l, .uint r =>
    if r ≤ vs.length ∧ 2 ^ 32 ≤ l then .deviates
    else .ok (if l ≤ r ∧ r ≤ vs.length then .some (seqPart l (r - l) v) else .none)
  | _, _, _ => .wrong

/-- Two sequences of the same kind, one after the other. -/
def seqCat : Value → Value → Option Value
  | .buff a, .buff b => some (.buff (a ++ b))
  | .ascii a, .ascii b => some (.ascii (a ++ b))
  | .utf8 a, .utf8 b => some (.utf8 (a ++ b))
  | .list a, .list b => some (.list (a ++ b))
  | _, _ => none

/-- The sequence with another element at position `n`; the element of a buffer or string is given by a
buffer or string of length one. -/
def seqSet (n : Nat) : Value → Value → Option Value
  | .buff a, .buff [b] => some (.buff (a.set n b))
  | .ascii a, .ascii [b] => some (.ascii (a.set n b))
  | .utf8 a, .utf8 [b] => some (.utf8 (a.set n b))
  | .list a, b => some (.list (a.set n b))
  | _, _ => none

/-- The runtime error `BadTypeConstruction`. -/
abbrev eBadType : Nat := 5

/-- `(replace-at? v i x)`: none if there is no position `i`; an error if the replacement in a buffer or
string is not exactly one element. The compiled code deviates if both is the case. -/
def replaceAns (v i x : Value) : Ans :=
  match seqElems v, i with
  | some vs, .uint n => match seqSet n v x with
    | some u => .ok (if n < vs.length then .some u else .none)
    | none => if n < vs.length then .fail eBadType else .deviates
  | _, _ => .wrong

open Classical in
/-- The position of the first element that is `x`. -/
noncomputable def firstIndex (x : Value) : List Value → Option Nat
  | [] => none
  | v :: vs => if v = x then some 0 else (firstIndex x vs).map (· + 1)

/-- The marked elements. -/
def keep {α : Type} : List Bool → List α → List α
  | true :: ms, x :: xs => x :: keep ms xs
  | false :: ms, _ :: xs => keep ms xs
  | _, _ => []

/-- The sequence of the marked elements. -/
def seqKeep (ms : List Bool) : Value → Value
  | .buff bs => .buff (keep ms bs)
  | .ascii bs => .ascii (keep ms bs)
  | .utf8 cs => .utf8 (keep ms cs)
  | .list vs => .list (keep ms vs)
  | v => v

/-- The first elements of all the sequences, the second elements, and so on, as long as all of them have
one. -/
def rows : List (List Value) → List (List Value)
  | [] => []
  | [vs] => vs.map fun v => [v]
  | vs :: vss => List.zipWith List.cons vs (rows vss)

/-- On words of 128 bits. -/
def BitOp.vec : BitOp → BitVec 128 → BitVec 128 → BitVec 128
  | .and, a, b => a &&& b
  | .or, a, b => a ||| b
  | .xor, a, b => a ^^^ b

/-- On two integers. -/
def BitOp.bin (o : BitOp) : Value → Value → Ans
  | .int a, .int b => .ok (.int (o.vec (BitVec.ofInt 128 a) (BitVec.ofInt 128 b)).toInt)
  | .uint a, .uint b => .ok (.uint (o.vec (BitVec.ofNat 128 a) (BitVec.ofNat 128 b)).toNat)
  | _, _ => .wrong

/-- On any number of integers, at least one. -/
def BitOp.eval (o : BitOp) : List Value → Ans
  | [] => .wrong
  | [a] => .ok a
  | a :: b :: vs => match o.eval (b :: vs) with
    | .ok c => o.bin a c
    | r => r

/-- Parsing an unsigned decimal numeral. The runtime library deviates on numerals of more than 39 digits
(leading zeros), and on some 39-digit numbers that are too large (property C13). -/
def parseUAns (cs : List Nat) : Ans :=
  if (39 < cs.length ∧ parseUInt cs ≠ none) ∨
     (cs.length = 39 ∧ cs.all isDigit = true ∧ 2 ^ 128 ≤ decVal cs ∧ cs.getD 38 0 ≤ 53) then .deviates
  else .ok (match parseUInt cs with
    | some n => .some (.uint n)
    | none => .none)

/-- Parsing a signed decimal numeral; nothing is claimed about the empty string and about more than 39
characters after the sign. -/
def parseIAns (cs : List Nat) : Ans :=
  if cs = [] ∨ 39 < (if cs.head? = some 45 then cs.tail.length else cs.length) then .deviates
  else .ok (match parseInt cs with
    | some z => .some (.int z)
    | none => .none)

/-- Meaning of the operators. A power that is not representable is a runtime error; it is reported as an
overflow only for small exponents. -/
def Word.eval : Word → List Value → Ans
  | .pow, [.int a, .int b] =>
    if b < 0 ∧ (a = 0 ∨ a = 1) then .ok (.int a)
    else if a = -1 ∧ 127 < b then .deviates
    else if b < 0 then .fail ePow
    else if IsInt (a ^ b.toNat) then .ok (.int (a ^ b.toNat))
    else .fail (if (if a < 0 then 127 else 126) < b then ePow else eOverflow)
  | .pow, [.uint a, .uint b] =>
    if IsUInt (a ^ b) then .ok (.uint (a ^ b)) else .fail (if 127 < b then ePow else eOverflow)
  | .log2, [.int a] => if a ≤ 0 then .fail eLog2 else .ok (.int (a.toNat.log2 : Nat))
  | .log2, [.uint a] => if a = 0 then .fail eLog2 else .ok (.uint a.log2)
  | .sqrti, [.int a] => if a < 0 then .fail eSqrti else .ok (.int (a.toNat.sqrt : Nat))
  | .sqrti, [.uint a] => .ok (.uint a.sqrt)
  | .bitNot, [.int a] => .ok (.int (-1 - a))
  | .bitNot, [.uint a] => .ok (.uint (2 ^ 128 - 1 - a))
  | .shl, [.int a, .uint b] => .ok (.int (wrapI (a * 2 ^ (b % 128))))
  | .shl, [.uint a, .uint b] => .ok (.uint (a * 2 ^ (b % 128) % 2 ^ 128))
  | .shr, [.int a, .uint b] => .ok (.int (a / 2 ^ (b % 128)))
  | .shr, [.uint a, .uint b] => .ok (.uint (a / 2 ^ (b % 128)))
  | .strToInt, [.ascii bs] => parseIAns (bs.map BitVec.toNat)
  | .strToInt, [.utf8 cs] => parseIAns cs
  | .strToUint, [.ascii bs] => parseUAns (bs.map BitVec.toNat)
  | .strToUint, [.utf8 cs] => parseUAns cs
  | .bits o, vs => o.eval vs
  | _, _ => .wrong

/-- What is hashed: the bytes of a buffer, the 16 little-endian bytes of an integer. -/
def hashInput : Value → Option (List Byte)
  | .buff bs => some bs
  | .uint n => some (Sha2.leBytes 16 n)
  | .int z => some (Sha2.leBytes 16 (z % 2 ^ 128).toNat)
  | _ => none

/-- The numeral of an integer. -/
def numeral : Value → Option (List Nat)
  | .uint n => some (decStr n)
  | .int z => some (intStr z)
  | _ => none

/-- A result for some values only. -/
def Ans.ofOption {α : Type} (f : α → Value) : Option α → Ans
  | some a => .ok (f a)
  | none => .wrong

/-- Meaning of these words. -/
def MWord.eval : MWord → Value → Ans
  | .intToAscii, v => .ofOption (fun cs => .ascii (cs.map (BitVec.ofNat 8))) (numeral v)
  | .intToUtf8, v => .ofOption .utf8 (numeral v)
  | .sha256, v => .ofOption (fun bs => .buff (sha256F.digest bs)) (hashInput v)
  | .sha512, v => .ofOption (fun bs => .buff (sha512F.digest bs)) (hashInput v)
  | .hash160, v => .ofOption (fun bs => .buff (Spec.hash160 bs)) (hashInput v)

/-- Meaning of the operators. -/
def Prim.eval : Prim → List Value → Ans
  | .some_, [v] => .ok (.some v)
  | .ok_, [v] => .ok (.ok v)
  | .err_, [v] => .ok (.err v)
  | .isSome, [.some _] => .ok (.bool true)
  | .isSome, [.none] => .ok (.bool false)
  | .isNone, [.some _] => .ok (.bool false)
  | .isNone, [.none] => .ok (.bool true)
  | .isOk, [.ok _] => .ok (.bool true)
  | .isOk, [.err _] => .ok (.bool false)
  | .isErr, [.ok _] => .ok (.bool false)
  | .isErr, [.err _] => .ok (.bool true)
  | .not_, [.bool b] => .ok (.bool (!b))
  | .defaultTo, [_, .some v] => .ok v
  | .defaultTo, [d, .none] => .ok d
  | .unwrapPanic, [.some v] => .ok v
  | .unwrapPanic, [.ok v] => .ok v
  | .unwrapPanic, [.none] => .fail ePanic
  | .unwrapPanic, [.err _] => .fail ePanic
  | .unwrapErrPanic, [.err v] => .ok v
  | .unwrapErrPanic, [.ok _] => .fail ePanic
  | .get k, [.tuple kvs] => match field k kvs with
    | some v => .ok v
    | none => .wrong
  | .get _, [.none] => .ok .none
  | .get k, [.some (.tuple kvs)] => match field k kvs with
    | some v => .ok (.some v)
    | none => .wrong
  | .mod, [.int a, .int b] => if b = 0 then .fail eDivZero else .ok (.int (a.tmod b))
  | .mod, [.uint a, .uint b] => if b = 0 then .fail eDivZero else .ok (.uint (a % b))
  | .lt, [a, b] => cmp (fun x y => decide (x < y)) a b
  | .le, [a, b] => cmp (fun x y => decide (x ≤ y)) a b
  | .gt, [a, b] => cmp (fun x y => decide (y < x)) a b
  | .ge, [a, b] => cmp (fun x y => decide (y ≤ x)) a b
  | .toInt, [.uint a] => if IsInt a then .ok (.int a) else .fail eOverflow
  | .toUint, [.int a] => if 0 ≤ a then .ok (.uint a.toNat) else .fail eUnderflow
  | .len, [v] => match seqElems v with
    | some vs => .ok (.uint vs.length)
    | none => .wrong
  | .asMaxLen m, [v] => match seqElems v with
    | some vs => .ok (if vs.length ≤ m then .some v else .none)
    | none => .wrong
  | .word q, vs => q.eval vs
  | _, _ => .wrong

/-- Words on STX and on the fungible tokens of this contract: `stx-transfer?`, `stx-transfer-memo?`, `stx-burn?`, `stx-get-balance`,
`ft-mint?`, `ft-burn?`, `ft-transfer?`, `ft-get-supply`, `ft-get-balance`. -/
inductive TWord
  | stxTransfer | stxMemo | stxBurn
  | ftMint (t : Name) | ftBurn (t : Name) | ftTransfer (t : Name)
  | ftSupply (t : Name) | ftBalance (t : Name)
  | stxBalance

/-- `(err uN)` -/
def uerr (n : Nat) : Value := .err (.uint n)

/-- Balances after moving `n` from `a` to `b`. -/
noncomputable def moved (bal : Principal → Nat) (a b : Principal) (n : Nat) : Principal → Nat :=
  fun p => if p = b then bal b + n else if p = a then bal a - n else bal p

open Classical in
/-- SIP-002, `stx-transfer?`: `(err u3)` if the amount is zero, `(err u2)` if sender and recipient are the same, `(err u4)`
if the sender is not `tx-sender`, `(err u1)` if the sender has less. Nothing is said about a balance above 128 bits
(property C42 excludes it). -/
noncomputable def stxMove (n : Nat) (a b : Principal) (memo : List Byte) (c : Cx) (s : St) : Out Value :=
  if n = 0 then .val (uerr 3) s
  else if a = b then .val (uerr 2) s
  else if a ≠ c.sender then .val (uerr 4) s
  else if s.db.stx a < n then .val (uerr 1) s
  else if s.db.stx b + n < 2 ^ 128 then
    .val (.ok (.bool true)) ((s.setStx (moved s.db.stx a b n) s.db.liquid).emit (.stxTransfer a b n memo))
  else .deviates

open Classical in
/-- Meaning of the token words. Nothing is said about what aborts the transaction: exceeding the maximal supply, or a
ledger whose numbers do not add up (property C42 excludes it). -/
noncomputable def TWord.run : TWord → List Value → Cx → St → Out Value
  | .stxTransfer, [.uint n, .principal a, .principal b], c, s => stxMove n a b [] c s
  | .stxMemo, [.uint n, .principal a, .principal b, .buff memo], c, s => stxMove n a b memo c s
  | .stxBurn, [.uint n, .principal a], c, s =>
    if n = 0 then .val (uerr 3) s
    else if a ≠ c.sender then .val (uerr 4) s
    else if s.db.stx a < n then .val (uerr 1) s
    else if s.db.liquid < n then .deviates
    else .val (.ok (.bool true))
      ((s.setStx (Host.upd s.db.stx a (s.db.stx a - n)) (s.db.liquid - n)).emit (.stxBurn a n))
  | .ftMint x, [.uint n, .principal p], c, s =>
    match s.db.ft c.self x with
    | some t =>
      if n = 0 then .val (uerr 1) s
      else if t.supply + n < 2 ^ 128 ∧ (∀ m, t.cap = some m → t.supply + n ≤ m) ∧ t.bal p + n < 2 ^ 128 then
        .val (.ok (.bool true)) ((s.setFt c.self x { t with
          supply := t.supply + n, bal := Host.upd t.bal p (t.bal p + n) }).emit (.ftMint c.self x p n))
      else .deviates
    | none => .wrong
  | .ftBurn x, [.uint n, .principal p], c, s =>
    match s.db.ft c.self x with
    | some t =>
      if n = 0 then .val (uerr 1) s
      else if t.bal p < n then .val (uerr 1) s
      else if t.supply < n then .deviates
      else .val (.ok (.bool true)) ((s.setFt c.self x { t with
          supply := t.supply - n, bal := Host.upd t.bal p (t.bal p - n) }).emit (.ftBurn c.self x p n))
    | none => .wrong
  | .ftTransfer x, [.uint n, .principal a, .principal b], c, s =>
    match s.db.ft c.self x with
    | some t =>
      if n = 0 then .val (uerr 3) s
      else if a = b then .val (uerr 2) s
      else if t.bal a < n then .val (uerr 1) s
      else if t.bal b + n < 2 ^ 128 then
        .val (.ok (.bool true)) ((s.setFt c.self x { t with bal := moved t.bal a b n }).emit
          (.ftTransfer c.self x a b n))
      else .deviates
    | none => .wrong
  | .ftSupply x, [], c, s =>
    match s.db.ft c.self x with
    | some t => .val (.uint t.supply) s
    | none => .wrong
  | .ftBalance x, [.principal p], c, s =>
    match s.db.ft c.self x with
    | some t => .val (.uint (t.bal p)) s
    | none => .wrong
  | .stxBalance, [.principal p], _, s => if s.db.stx p < 2 ^ 128 then .val (.uint (s.db.stx p)) s else .deviates
  | _, _, _, _ => .wrong

/-- What `fold` and `map` apply: a function of the contract, given by its position, or a built-in word. -/
inductive Fn
  | user (j : Nat)
  | word (q : Prim)
  | nary (o : NOp)
  | and_ | or_

mutual
/-- Expressions. -/
inductive Expr
  /-- a literal: int, uint, bool, buffer, string, principal -/
  | lit (v : Value)
  | none_
  | var (x : Name)
  | txSender | contractCaller
  | prim (p : Prim) (es : Exprs)
  | nary (o : NOp) (es : Exprs)
  /-- `(is-eq e ..)`, all the operands taken at the common type `T` -/
  | isEq (T : Ty) (es : Exprs)
  /-- `(tuple (k e) ..)`, fields in the order of the source -/
  | tuple (bs : Binds)
  | let_ (bs : Binds) (body : Exprs)
  | begin_ (body : Exprs)
  | ite (c a b : Expr)
  | and_ (es : Exprs)
  | or_ (es : Exprs)
  /-- `(match e x a b)` on an optional of `U` -/
  | matchOpt (U : Ty) (e : Expr) (x : Name) (a b : Expr)
  /-- `(match e x a y b)` on a response -/
  | matchResp (O E : Ty) (e : Expr) (x : Name) (a : Expr) (y : Name) (b : Expr)
  | asserts (c t : Expr)
  /-- `(unwrap! e t)` on an optional -/
  | unwrapOpt (e t : Expr)
  /-- `(unwrap! e t)` on a response with error type `E` -/
  | unwrapResp (E : Ty) (e t : Expr)
  /-- `(unwrap-err! e t)` on a response with ok type `O` -/
  | unwrapErr (O : Ty) (e t : Expr)
  | tryOpt (e : Expr)
  /-- `(try! e)` on a response with error type `E` -/
  | tryResp (E : Ty) (e : Expr)
  /-- call of a function of this contract -/
  | call (f : Nat) (es : Exprs)
  | asContract (e : Expr)
  | varGet (x : Name)
  | varSet (x : Name) (e : Expr)
  | mapGet (m : Name) (k : Expr)
  | mapSet (m : Name) (k v : Expr)
  | mapInsert (m : Name) (k v : Expr)
  | mapDelete (m : Name) (k : Expr)
  /-- `(element-at? e i)` on a sequence of type `S` -/
  | elementAt (S : Ty) (e i : Expr)
  /-- `(slice? e l r)` on a sequence of type `S` -/
  | slice (S : Ty) (e l r : Expr)
  /-- `(index-of? e x)` on a sequence of type `S` -/
  | indexOf (S : Ty) (e x : Expr)
  /-- `(list e ...)` -/
  | list (es : Exprs)
  /-- `(append e x)` -/
  | append (e x : Expr)
  /-- `(concat a b)`, of type `T` according to the type checker -/
  | concat (T : Ty) (a b : Expr)
  /-- `(replace-at? e i x)` on a sequence of type `S` -/
  | replaceAt (S : Ty) (e i x : Expr)
  /-- a word whose result is in memory, applied to a value of type `S` -/
  | mem (q : MWord) (S : Ty) (e : Expr)
  /-- a word on STX or on a fungible token of this contract -/
  | token (q : TWord) (es : Exprs)
  /-- `to-consensus-buff?` of an expression of type `T` -/
  | toBuff (T : Ty) (e : Expr)
  /-- `(from-consensus-buff? T e)` of an expression of type `(buff m)` -/
  | fromBuff (T : Ty) (m : Nat) (e : Expr)
  /-- `(fold f e i)` on a sequence of type `S` -/
  | fold (f : Fn) (S : Ty) (e i : Expr)
  /-- `(filter f e)` with a function of this contract -/
  | filter (f : Nat) (e : Expr)
  /-- `(map f e ..)` with a function of this contract, on sequences -/
  | map (f : Fn) (es : Exprs)
/-- Sequences of expressions with their types. -/
inductive Exprs
  | nil
  | cons (T : Ty) (e : Expr) (es : Exprs)
/-- Sequences of named expressions with their types. -/
inductive Binds
  | nil
  | cons (x : Name) (T : Ty) (e : Expr) (bs : Binds)
end

/-- Variables in scope, innermost first. -/
abbrev Env := List (Name × Value)

/-- The value of a variable. -/
def Env.get (x : Name) : Env → Option Value
  | [] => none
  | (y, v) :: ρ => if y = x then some v else Env.get x ρ

/-- Lexicographic order on names (Rust `BTreeMap<ClarityName, _>`). -/
def nameLe : Name → Name → Bool
  | [], _ => true
  | _ :: _, [] => false
  | a :: as, b :: bs => if a = b then nameLe as bs else decide (a.toNat < b.toNat)

/-- Insert a field in name order. -/
def insertField {α : Type} (k : Name) (v : α) : List (Name × α) → List (Name × α)
  | [] => [(k, v)]
  | (k', v') :: r => if nameLe k k' then (k, v) :: (k', v') :: r else (k', v') :: insertField k v r

/-- Sort fields by name. -/
def sortFields {α : Type} : List (Name × α) → List (Name × α)
  | [] => []
  | (k, v) :: r => insertField k v (sortFields r)

/-- A tuple value from bindings in any order. -/
def mkTuple (kvs : List (Name × Value)) : Value := .tuple (sortFields kvs)

/-- Meaning of a call of a function of the contract: arguments, context, state. -/
abbrev FSem := Nat → List Value → Cx → St → Out Value

/-- The values, if all of them are booleans. -/
def bools : List Value → Option (List Bool)
  | [] => some []
  | .bool b :: vs => (bools vs).map (b :: ·)
  | _ => none

/-- Apply a function of the contract or a word to values. -/
def Fn.apply (call : FSem) : Fn → List Value → Cx → St → Out Value
  | .user j, vs, c, s => call j vs c s
  | .word q, vs, _, s => (q.eval vs).out s
  | .nary o, vs, _, s => (o.eval vs).out s
  | .and_, vs, _, s => match bools vs with
    | some bs => .val (.bool (bs.all id)) s
    | none => .wrong
  | .or_, vs, _, s => match bools vs with
    | some bs => .val (.bool (bs.any id)) s
    | none => .wrong

/-- Apply a function to each element and the result so far. -/
def foldElems (call : FSem) (f : Fn) (c : Cx) : List Value → Value → St → Out Value
  | [], a, s => .val a s
  | x :: xs, a, s => (f.apply call [x, a] c s).bind fun a s => foldElems call f c xs a s

/-- For which elements the function is true. -/
def maskElems (call : FSem) (f : Nat) (c : Cx) : List Value → St → Out (List Bool)
  | [], s => .val [] s
  | x :: xs, s => (call f [x] c s).bind fun b s => match b with
    | .bool b => (maskElems call f c xs s).bind fun ms s => .val (b :: ms) s
    | _ => .wrong

/-- Apply a function to each row of arguments. -/
def mapRows (call : FSem) (f : Fn) (c : Cx) : List (List Value) → St → Out (List Value)
  | [], s => .val [] s
  | r :: rs, s => (f.apply call r c s).bind fun v s => (mapRows call f c rs s).bind fun vs s => .val (v :: vs) s

/-- Every value is the first one. -/
def AllEqual : List Value → Prop
  | [] => True
  | v :: vs => ∀ u ∈ vs, v = u

open Classical in
mutual
/-- Evaluation of expressions. -/
noncomputable def eval (call : FSem) : Expr → Env → Cx → St → Out Value
  | .lit v, _, _, s => .val v s
  | .none_, _, _, s => .val .none s
  | .var x, ρ, _, s => match ρ.get x with
    | some v => .val v s
    | none => .wrong
  | .txSender, _, c, s => .val (.principal c.sender) s
  | .contractCaller, _, c, s => .val (.principal c.caller) s
  | .prim p es, ρ, c, s => (evals call es ρ c s).bind fun vs s => (p.eval vs).out s
  | .nary o es, ρ, c, s => (evals call es ρ c s).bind fun vs s => (o.eval vs).out s
  | .isEq _ es, ρ, c, s => (evals call es ρ c s).bind fun vs s => .val (.bool (decide (AllEqual vs))) s
  | .tuple bs, ρ, c, s => (evalFields call bs ρ c s).bind fun kvs s => .val (mkTuple kvs) s
  | .let_ bs body, ρ, c, s => (evalBinds call bs ρ c s).bind fun ρ' s => evalSeq call body ρ' c s
  | .begin_ body, ρ, c, s => evalSeq call body ρ c s
  | .ite e a b, ρ, c, s => (eval call e ρ c s).bind fun v s => match v with
    | .bool true => eval call a ρ c s
    | .bool false => eval call b ρ c s
    | _ => .wrong
  | .and_ es, ρ, c, s => evalAnd call es ρ c s
  | .or_ es, ρ, c, s => evalOr call es ρ c s
  | .matchOpt _ e x a b, ρ, c, s => (eval call e ρ c s).bind fun v s => match v with
    | .some v => eval call a ((x, v) :: ρ) c s
    | .none => eval call b ρ c s
    | _ => .wrong
  | .matchResp _ _ e x a y b, ρ, c, s => (eval call e ρ c s).bind fun v s => match v with
    | .ok v => eval call a ((x, v) :: ρ) c s
    | .err v => eval call b ((y, v) :: ρ) c s
    | _ => .wrong
  | .asserts e t, ρ, c, s => (eval call e ρ c s).bind fun v s => match v with
    | .bool true => .val (.bool true) s
    | .bool false => (eval call t ρ c s).bind fun v s => .ret v s
    | _ => .wrong
  | .unwrapOpt e t, ρ, c, s => (eval call e ρ c s).bind fun v s =>
    (eval call t ρ c s).bind fun u s => match v with
      | .some v => .val v s
      | .none => .ret u s
      | _ => .wrong
  | .unwrapResp _ e t, ρ, c, s => (eval call e ρ c s).bind fun v s =>
    (eval call t ρ c s).bind fun u s => match v with
      | .ok v => .val v s
      | .err _ => .ret u s
      | _ => .wrong
  | .unwrapErr _ e t, ρ, c, s => (eval call e ρ c s).bind fun v s =>
    (eval call t ρ c s).bind fun u s => match v with
      | .err v => .val v s
      | .ok _ => .ret u s
      | _ => .wrong
  | .tryOpt e, ρ, c, s => (eval call e ρ c s).bind fun v s => match v with
    | .some v => .val v s
    | .none => .ret .none s
    | _ => .wrong
  | .tryResp _ e, ρ, c, s => (eval call e ρ c s).bind fun v s => match v with
    | .ok v => .val v s
    | .err v => .ret (.err v) s
    | _ => .wrong
  | .call f es, ρ, c, s => (evals call es ρ c s).bind fun vs s => call f vs c s
  | .asContract e, ρ, c, s =>
    eval call e ρ { c with sender := .contract c.self, caller := .contract c.self } s
  | .varGet x, _, c, s => match s.db.var c.self x with
    | some d => .val d.val s
    | none => .wrong
  | .varSet x e, ρ, c, s => (eval call e ρ c s).bind fun v s => match s.db.var c.self x with
    | some d => .val (.bool true)
        (s.setVar c.self x { d with val := v })
    | none => .wrong
  | .mapGet m k, ρ, c, s => (eval call k ρ c s).bind fun k s => match s.db.map c.self m with
    | some d => .val (match d.entry k with | some v => .some v | none => .none) s
    | none => .wrong
  | .mapSet m k v, ρ, c, s => (eval call k ρ c s).bind fun k s => (eval call v ρ c s).bind fun v s =>
    match s.db.map c.self m with
    | some d => .val (.bool true)
        (s.setMap c.self m { d with entry := Host.upd d.entry k (some v) })
    | none => .wrong
  | .mapInsert m k v, ρ, c, s => (eval call k ρ c s).bind fun k s =>
    (eval call v ρ c s).bind fun v s =>
    match s.db.map c.self m with
    | some d => match d.entry k with
      | some _ => .val (.bool false) s
      | none => .val (.bool true)
        (s.setMap c.self m { d with entry := Host.upd d.entry k (some v) })
    | none => .wrong
  | .mapDelete m k, ρ, c, s => (eval call k ρ c s).bind fun k s =>
    match s.db.map c.self m with
    | some d => match d.entry k with
      | none => .val (.bool false) s
      | some _ => .val (.bool true)
        (s.setMap c.self m { d with entry := Host.upd d.entry k none })
    | none => .wrong
  | .elementAt _ e i, ρ, c, s => (eval call e ρ c s).bind fun v s => (eval call i ρ c s).bind fun i s =>
    (Core.elementAt v i).out s
  | .slice _ e l r, ρ, c, s => (eval call e ρ c s).bind fun v s => (eval call l ρ c s).bind fun l s =>
    (eval call r ρ c s).bind fun r s => (sliceAns v l r).out s
  -- the compiled code does not evaluate the item if the sequence is empty
  | .indexOf _ e x, ρ, c, s => (eval call e ρ c s).bind fun v s => match seqElems v with
    | some [] => if ∃ u, eval call x ρ c s = .val u s then .val .none s else .deviates
    | some vs => (eval call x ρ c s).bind fun u s => .val (match firstIndex u vs with
      | some i => .some (.uint i)
      | none => .none) s
    | none => .wrong
  | .list es, ρ, c, s => (evals call es ρ c s).bind fun vs s => .val (.list vs) s
  | .append e x, ρ, c, s => (eval call e ρ c s).bind fun v s => (eval call x ρ c s).bind fun u s =>
    match v with
    | .list vs => .val (.list (vs ++ [u])) s
    | _ => .wrong
  -- nothing is said about results that do not have the type the type checker computed
  | .concat T a b, ρ, c, s => (eval call a ρ c s).bind fun u s => (eval call b ρ c s).bind fun v s =>
    match seqCat u v with
    | some x => if HasType T x then .val x s else .deviates
    | none => .wrong
  | .replaceAt _ e i x, ρ, c, s => (eval call e ρ c s).bind fun v s => (eval call i ρ c s).bind fun i s =>
    (eval call x ρ c s).bind fun u s => (replaceAns v i u).out s
  | .mem q _ e, ρ, c, s => (eval call e ρ c s).bind fun v s => (q.eval v).out s
  | .token q es, ρ, c, s => (evals call es ρ c s).bind fun vs s => q.run vs c s
  -- the encoding, if it is not longer than the longest value
  | .toBuff _ e, ρ, c, s => (eval call e ρ c s).bind fun v s =>
    .val (if (consensus v).length ≤ 1048576 then .some (.buff (consensus v)) else .none) s
  -- the value, if the bytes are its encoding
  | .fromBuff T _ e, ρ, c, s => (eval call e ρ c s).bind fun v s =>
    match v with
    | .buff bs =>
      match decode T bs with
      | .val x [] => .val (.some x) s
      | .deviates => .deviates
      | _ => .val .none s
    | _ => .wrong
  | .fold f _ e i, ρ, c, s => (eval call e ρ c s).bind fun v s => (eval call i ρ c s).bind fun a s =>
    match seqElems v with
    | some vs => foldElems call f c vs a s
    | none => .wrong
  -- the compiled code does not look whether the sequence is empty
  | .filter f e, ρ, c, s => (eval call e ρ c s).bind fun v s => match seqElems v with
    | some [] => .deviates
    | some vs => (maskElems call f c vs s).bind fun ms s => .val (seqKeep ms v) s
    | none => .wrong
  | .map f es, ρ, c, s => (evals call es ρ c s).bind fun vs s => match vs.mapM seqElems with
    | some vss => (mapRows call f c (rows vss) s).bind fun us s => .val (.list us) s
    | none => .wrong
/-- All of them, left to right. -/
noncomputable def evals (call : FSem) : Exprs → Env → Cx → St → Out (List Value)
  | .nil, _, _, s => .val [] s
  | .cons _ e es, ρ, c, s => (eval call e ρ c s).bind fun v s =>
    (evals call es ρ c s).bind fun vs s => .val (v :: vs) s
/-- One after the other; the value is that of the last one. -/
noncomputable def evalSeq (call : FSem) : Exprs → Env → Cx → St → Out Value
  | .nil, _, _, _ => .wrong
  | .cons _ e .nil, ρ, c, s => eval call e ρ c s
  | .cons _ e (.cons T e' es), ρ, c, s => (eval call e ρ c s).bind fun _ s =>
    evalSeq call (.cons T e' es) ρ c s
/-- `and`: stop at the first `false`. -/
noncomputable def evalAnd (call : FSem) : Exprs → Env → Cx → St → Out Value
  | .nil, _, _, s => .val (.bool true) s
  | .cons _ e es, ρ, c, s => (eval call e ρ c s).bind fun v s => match v with
    | .bool true => evalAnd call es ρ c s
    | .bool false => .val (.bool false) s
    | _ => .wrong
/-- `or`: stop at the first `true`. -/
noncomputable def evalOr (call : FSem) : Exprs → Env → Cx → St → Out Value
  | .nil, _, _, s => .val (.bool false) s
  | .cons _ e es, ρ, c, s => (eval call e ρ c s).bind fun v s => match v with
    | .bool false => evalOr call es ρ c s
    | .bool true => .val (.bool true) s
    | _ => .wrong
/-- `let` bindings: each one sees the previous ones. -/
noncomputable def evalBinds (call : FSem) : Binds → Env → Cx → St → Out Env
  | .nil, ρ, _, s => .val ρ s
  | .cons x _ e bs, ρ, c, s => (eval call e ρ c s).bind fun v s =>
    evalBinds call bs ((x, v) :: ρ) c s
/-- Tuple fields: no field sees another. -/
noncomputable def evalFields (call : FSem) : Binds → Env → Cx → St → Out (List (Name × Value))
  | .nil, _, _, s => .val [] s
  | .cons x _ e bs, ρ, c, s => (eval call e ρ c s).bind fun v s =>
    (evalFields call bs ρ c s).bind fun kvs s => .val ((x, v) :: kvs) s
end

/-- Visibility of a function. -/
inductive Kind
  | pub | ro | priv
  deriving DecidableEq

/-- A function definition. `writes` says whether its body, or what it calls, may write. -/
structure FunDef where
  params : List (Name × Ty)
  ret : Ty
  kind : Kind
  writes : Bool
  body : Expr

/-- Leaving a function: an early return is its result. -/
def Out.body : Out Value → Out Value
  | .ret v s => .val v s
  | o => o

/-- Running a function on arguments. -/
noncomputable def FunDef.run (f : FunDef) (call : FSem) (vs : List Value) (c : Cx) (s : St) :
    Out Value :=
  (eval call f.body ((f.params.map Prod.fst).zip vs).reverse c s).body

/-- Calling a function: the effects of a public function that returns an error are undone, a
read-only function has none. -/
noncomputable def FunDef.call (f : FunDef) (call : FSem) (vs : List Value) (c : Cx) (s : St) :
    Out Value :=
  (f.run call vs c s).bind fun v s' =>
    match f.kind, v with
    | .priv, v => .val v s'
    | .pub, .ok u => .val (.ok u) s'
    | .pub, v => .val v s
    | .ro, v => .val v s

/-- The functions of a contract with fewer than `k` predecessors; a function can only call earlier
ones (Clarity has no recursion). -/
noncomputable def sem (P : List FunDef) : Nat → FSem
  | 0 => fun _ _ _ _ => .wrong
  | k + 1 => fun j vs c s =>
    if j = k then match P[k]? with
      | some f => f.call (sem P k) vs c s
      | none => .wrong
    else sem P k j vs c s

theorem sem_lt (P : List FunDef) {k j : Nat} (h : j < k) (f : FunDef) (hf : P[j]? = some f) :
    sem P k j = f.call (sem P j) := by
  induction k with
  | zero => omega
  | succ k ih =>
    by_cases e : j = k
    · subst e
      funext vs c s
      simp [sem, hf]
    · have : sem P (k + 1) j = sem P k j := by
        funext vs c s
        simp [sem, e]
      rw [this, ih (by omega)]

end Core
