import Verif.Spec.Bytes
import Verif.Spec.Int128
import Verif.Spec.Names
import Verif.Spec.Utf8

/-!
Specification vocabulary: Clarity types, values and "value `v` is of type `T`"
(clarity crate, `vm/types/mod.rs` and `signatures.rs`; SIP-002).
Not represented: the type annotation stored inside list and tuple values, the unreachable
`ListUnionType`.
-/

namespace Spec

/-- Names (of tuple fields, contracts, traits): byte strings. -/
abbrev Name := List Byte

/-- A standard principal: version byte and Hash160. -/
structure StdPrincipal where
  version : Byte
  hash : List Byte
  deriving DecidableEq, Repr

/-- A qualified contract identifier. -/
structure ContractId where
  issuer : StdPrincipal
  name : Name
  deriving DecidableEq, Repr

/-- A trait identifier. -/
structure TraitId where
  contract : ContractId
  name : Name
  deriving DecidableEq, Repr

/-- A principal. -/
inductive Principal
  | standard (s : StdPrincipal)
  | contract (c : ContractId)
  deriving DecidableEq, Repr

mutual
/-- Clarity types. `buff n`, `ascii n`, `utf8 n`, `list n T` have maximum length `n`. -/
inductive Ty
  | noType | int | uint | bool | principal
  /-- a callable contract constant -/
  | callable (c : ContractId)
  /-- a contract seen through a trait (`CallableType(Trait)`) -/
  | trait (t : TraitId)
  /-- `TraitReferenceType` -/
  | traitRef (t : TraitId)
  | buff (n : Nat) | ascii (n : Nat) | utf8 (n : Nat)
  | list (n : Nat) (elem : Ty)
  | opt (t : Ty)
  | resp (ok err : Ty)
  | tuple (fs : Fields)
/-- The fields of a tuple type, in name order. -/
inductive Fields
  | nil
  | cons (k : Name) (t : Ty) (fs : Fields)
end

/-- Clarity values. A `string-utf8` is the sequence of its Unicode scalar values. -/
inductive Value
  | int (z : Int) | uint (n : Nat) | bool (b : Bool)
  | principal (p : Principal)
  | callable (c : ContractId) (t : Option TraitId)
  | buff (bs : List Byte) | ascii (bs : List Byte) | utf8 (cs : List Nat)
  | list (vs : List Value)
  | none | some (v : Value)
  | ok (v : Value) | err (v : Value)
  | tuple (fs : List (Name × Value))

/-- The field names of a tuple type. -/
def Fields.keys : Fields → List Name
  | .nil => []
  | .cons k _ fs => k :: fs.keys

/-- A standard principal: version below 32, hash of 20 bytes. -/
def StdPrincipal.Ok (s : StdPrincipal) : Prop := s.version.toNat < 32 ∧ s.hash.length = 20

/-- The name is a contract name of at most 128 characters. -/
def contractNameOk (n : Name) : Prop :=
  contractName (n.map BitVec.toNat) = true ∧ n.length ≤ 128

/-- The parts of a contract identifier are valid. -/
def ContractId.Ok (c : ContractId) : Prop := c.issuer.Ok ∧ contractNameOk c.name

/-- The parts of a trait identifier are valid. -/
def TraitId.Ok (t : TraitId) : Prop :=
  t.contract.Ok ∧ clarityName (t.name.map BitVec.toNat) = true

/-- The parts of a principal are valid. -/
def Principal.Ok : Principal → Prop
  | .standard s => s.Ok
  | .contract c => c.Ok

mutual
/-- Well-formed types: tuples have at least one field and no repeated field name. -/
def Ty.WF : Ty → Prop
  | .list _ e => e.WF
  | .opt t => t.WF
  | .resp o e => o.WF ∧ e.WF
  | .tuple fs => fs ≠ .nil ∧ fs.keys.Nodup ∧ fs.WF
  | _ => True
/-- All the field types are well-formed. -/
def Fields.WF : Fields → Prop
  | .nil => True
  | .cons _ t fs => t.WF ∧ fs.WF
end

mutual
/-- `v` is a value of type `T`. -/
def HasType : Ty → Value → Prop
  | .int, .int z => IsInt z
  | .uint, .uint n => IsUInt n
  | .bool, .bool _ => True
  | .principal, .principal p => p.Ok
  | .callable c, .principal (.contract c') => c' = c ∧ c.Ok
  | .trait t, .callable c (some t') => c.Ok ∧ t' = t
  | .traitRef _, .principal (.contract c) => c.Ok
  | .buff n, .buff bs => bs.length ≤ n
  | .ascii n, .ascii bs => bs.length ≤ n ∧ ∀ b ∈ bs, asciiOk b.toNat = true
  | .utf8 n, .utf8 cs => cs.length ≤ n ∧ ∀ c ∈ cs, isScalar c
  | .list n e, .list vs => vs.length ≤ n ∧ ∀ v ∈ vs, HasType e v
  | .opt _, .none => True
  | .opt t, .some v => HasType t v
  | .resp o _, .ok v => HasType o v
  | .resp _ e, .err v => HasType e v
  | .tuple fs, .tuple kvs => HasFields fs kvs
  | _, _ => False
/-- The bindings are those of the field list, in the same order. -/
def HasFields : Fields → List (Name × Value) → Prop
  | .nil, [] => True
  | .cons k t fs, (k', v) :: kvs => k' = k ∧ HasType t v ∧ HasFields fs kvs
  | _, _ => False
end

end Spec
