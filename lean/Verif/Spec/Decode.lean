import Verif.Spec.Consensus

/-!
Specification: reading a value of a given type from the front of a byte string (the inverse of
`consensus`). `Verif/Gen/DecodeProof.lean` proves that it is the inverse.
-/

namespace Spec

/-- The outcome of reading something: a result and the bytes after it, failure, or bytes on which the
compiled code is known not to follow Clarity, so that nothing is said. -/
inductive Dec (α : Type)
  | val (a : α) (rest : List Byte)
  | bad
  | deviates

/-- Read something and then something that depends on it. -/
def Dec.bind {α β : Type} (d : Dec α) (f : α → List Byte → Dec β) : Dec β :=
  match d with
  | .val a rest => f a rest
  | .bad => .bad
  | .deviates => .deviates

/-- The first `n` bytes. -/
def takeN (n : Nat) (bs : List Byte) : Dec (List Byte) :=
  if n ≤ bs.length then .val (bs.take n) (bs.drop n) else .bad

/-- A number of four bytes. -/
def takeLen (bs : List Byte) : Dec Nat := (takeN 4 bs).bind fun x r => .val (beNat x) r

/-- The prefix `t` and what follows. -/
def tagged {α : Type} (t : Byte) (f : List Byte → Dec α) : List Byte → Dec α
  | [] => .bad
  | b :: r => if b = t then f r else .bad

/-- The integer of 128 bits in two's complement. -/
def signed128 (n : Nat) : Int := if n < 2 ^ 127 then (n : Int) else (n : Int) - 2 ^ 128

/-- The only scalar value whose UTF-8 encoding can start like these bytes. -/
def utf8Cand (bs : List Nat) : Nat :=
  let a := bs.getD 0 0
  let b := bs.getD 1 0
  let c := bs.getD 2 0
  let d := bs.getD 3 0
  if a < 0x80 then a
  else if a < 0xE0 then (a - 0xC0) * 64 + (b - 0x80)
  else if a < 0xF0 then (a - 0xE0) * 4096 + (b - 0x80) * 64 + (c - 0x80)
  else (a - 0xF0) * 262144 + (b - 0x80) * 4096 + (c - 0x80) * 64 + (d - 0x80)

/-- The text of at most `n` characters with this UTF-8 encoding. -/
def utf8Decode : Nat → List Nat → Option (List Nat)
  | _, [] => some []
  | 0, _ :: _ => none
  | n + 1, bs =>
    if isScalar (utf8Cand bs) ∧ (utf8 (utf8Cand bs)).isPrefixOf bs then
      (utf8Decode n (bs.drop (utf8 (utf8Cand bs)).length)).map (utf8Cand bs :: ·)
    else none

/-- `k` values, each read by `f`. -/
def decodeN (f : List Byte → Dec Value) : Nat → List Byte → Dec (List Value)
  | 0, bs => .val [] bs
  | k + 1, bs => (f bs).bind fun v r => (decodeN f k r).bind fun vs r' => .val (v :: vs) r'

/-- The name is a contract name. -/
def contractNameOkB (n : Name) : Bool := contractName (n.map BitVec.toNat) && decide (n.length ≤ 128)

/-- A principal. A version byte above 31 or an invalid contract name would be errors in Clarity; the
compiled code does not check them (see `C30_counterexample_principal`). -/
def decodePrincipal : List Byte → Dec Principal
  | [] => .bad
  | b :: r =>
    if b = 0x05#8 then (takeN 21 r).bind fun x r =>
      match x with
      | v :: h => if v.toNat < 32 then .val (.standard ⟨v, h⟩) r else .deviates
      | [] => .bad
    else if b = 0x06#8 then (takeN 21 r).bind fun x r =>
      match r with
      | l :: r => (takeN l.toNat r).bind fun nm r =>
        match x with
        | v :: h => if v.toNat < 32 ∧ contractNameOkB nm then .val (.contract ⟨⟨v, h⟩, nm⟩) r else .deviates
        | [] => .bad
      | [] => .bad
    else .bad

/-- Read a value of the type from the front of the bytes. Not specified: tuples, traits. -/
def decode : Ty → List Byte → Dec Value
  | .int => tagged 0x00#8 fun r => (takeN 16 r).bind fun x r => .val (.int (signed128 (beNat x))) r
  | .uint => tagged 0x01#8 fun r => (takeN 16 r).bind fun x r => .val (.uint (beNat x)) r
  | .bool => fun bs =>
    match bs with
    | [] => .bad
    | b :: r => if b = 0x03#8 then .val (.bool true) r else if b = 0x04#8 then .val (.bool false) r else .bad
  | .principal => fun bs => (decodePrincipal bs).bind fun p r => .val (.principal p) r
  | .buff n => tagged 0x02#8 fun r => (takeLen r).bind fun k r =>
      if k ≤ n then (takeN k r).bind fun x r => .val (.buff x) r else .bad
  | .ascii n => tagged 0x0d#8 fun r => (takeLen r).bind fun k r =>
      if k ≤ n then (takeN k r).bind fun x r =>
        if x.all (fun b => asciiOk b.toNat) then .val (.ascii x) r else .bad
      else .bad
  | .utf8 n => tagged 0x0e#8 fun r => (takeLen r).bind fun k r => (takeN k r).bind fun x r =>
      match utf8Decode n (x.map BitVec.toNat) with
      | .some cs => .val (.utf8 cs) r
      | .none => .bad
  | .list n e => tagged 0x0b#8 fun r => (takeLen r).bind fun k r =>
      if k ≤ n then (decodeN (decode e) k r).bind fun vs r => .val (.list vs) r else .bad
  | .opt t => fun bs =>
    match bs with
    | [] => .bad
    | b :: r => if b = 0x09#8 then .val .none r
      else if b = 0x0a#8 then (decode t r).bind fun v r => .val (.some v) r else .bad
  | .resp o e => fun bs =>
    match bs with
    | [] => .bad
    | b :: r => if b = 0x07#8 then (decode o r).bind fun v r => .val (.ok v) r
      else if b = 0x08#8 then (decode e r).bind fun v r => .val (.err v) r else .bad
  | .callable _ | .trait _ | .traitRef _ | .tuple _ | .noType => fun _ => .deviates

end Spec
