import Verif.Spec.Clarity

/-!
Specification: the consensus serialization of Clarity values (SIP-005, "Clarity Value Representation").
-/

namespace Spec

/-- Big-endian representation in `k` bytes. -/
def bigEndian : Nat → Nat → List Byte
  | 0, _ => []
  | k + 1, n => BitVec.ofNat 8 (n / 256 ^ k) :: bigEndian k n

/-- Version byte and hash. -/
def issuerBytes (s : StdPrincipal) : List Byte := s.version :: s.hash

/-- A name preceded by its length in one byte. -/
def nameBytes (n : Name) : List Byte := BitVec.ofNat 8 n.length :: n

/-- A contract principal. -/
def contractBytes (c : ContractId) : List Byte := 0x06#8 :: (issuerBytes c.issuer ++ nameBytes c.name)

/-- A number of bytes or elements: four bytes. -/
def lenBytes (n : Nat) : List Byte := bigEndian 4 n

mutual
/-- The SIP-005 encoding of a value: a type prefix and the contents. -/
def consensus : Value → List Byte
  | .int z => 0x00#8 :: bigEndian 16 (z % 2 ^ 128).toNat
  | .uint n => 0x01#8 :: bigEndian 16 n
  | .buff bs => 0x02#8 :: (lenBytes bs.length ++ bs)
  | .bool true => [0x03#8]
  | .bool false => [0x04#8]
  | .principal (.standard s) => 0x05#8 :: issuerBytes s
  | .principal (.contract c) => contractBytes c
  | .callable c _ => contractBytes c
  | .ok v => 0x07#8 :: consensus v
  | .err v => 0x08#8 :: consensus v
  | .none => [0x09#8]
  | .some v => 0x0a#8 :: consensus v
  | .list vs => 0x0b#8 :: (lenBytes vs.length ++ consensusAll vs)
  | .tuple kvs => 0x0c#8 :: (lenBytes kvs.length ++ consensusFields kvs)
  | .ascii bs => 0x0d#8 :: (lenBytes bs.length ++ bs)
  | .utf8 cs => 0x0e#8 :: (lenBytes (utf8Text cs).length ++ (utf8Text cs).map (BitVec.ofNat 8))
/-- The elements of a list. -/
def consensusAll : List Value → List Byte
  | [] => []
  | v :: vs => consensus v ++ consensusAll vs
/-- The fields of a tuple, in the order of their names. -/
def consensusFields : List (Name × Value) → List Byte
  | [] => []
  | (k, v) :: kvs => nameBytes k ++ (consensus v ++ consensusFields kvs)
end

mutual
/-- The largest number of bytes of the encoding of a value of the type (`max_serialized_size` of the
clarity crate, the length of the buffer type that the type checker gives to `to-consensus-buff?`). -/
def maxEncoding : Ty → Nat
  | .noType => 0
  | .int | .uint => 1 + 16
  | .bool => 1
  | .principal | .callable _ | .trait _ | .traitRef _ => 1 + 21 + 1 + 128
  | .buff n => 1 + 4 + n
  | .ascii n => 1 + 4 + n
  | .utf8 n => 1 + 4 + 4 * n
  | .list n e => 1 + 4 + n * maxEncoding e
  | .opt t => 1 + maxEncoding t
  | .resp o e => 1 + max (maxEncoding o) (maxEncoding e)
  | .tuple fs => 1 + 4 + maxEncodingF fs
/-- The same for the fields of a tuple. -/
def maxEncodingF : Fields → Nat
  | .nil => 0
  | .cons k t fs => 1 + k.length + maxEncoding t + maxEncodingF fs
end

/-- The name is not the reserved `__transient`. -/
def notTransient (n : Name) : Prop := n.map BitVec.toNat ≠ transientName

mutual
/-- A value that a contract can receive in serialized form: strings and principals are valid, no
principal is the transient contract, tuples are not empty and their keys are Clarity names, lists are
well-typed. -/
def Proper : Value → Prop
  | .int _ | .uint _ | .bool _ | .buff _ | .none => True
  | .ascii bs => ∀ b ∈ bs, asciiOk b.toNat = true
  | .utf8 cs => ∀ c ∈ cs, isScalar c
  | .principal (.standard s) => s.Ok
  | .principal (.contract c) => c.Ok ∧ notTransient c.name
  | .callable c _ => c.Ok ∧ notTransient c.name
  | .some v => Proper v
  | .ok v => Proper v
  | .err v => Proper v
  | .list vs => (∃ n e, HasType (.list n e) (.list vs)) ∧ ProperAll vs
  | .tuple kvs => kvs ≠ [] ∧ ProperFields kvs
/-- The same for the elements of a list. -/
def ProperAll : List Value → Prop
  | [] => True
  | v :: vs => Proper v ∧ ProperAll vs
/-- The same for the fields of a tuple. -/
def ProperFields : List (Name × Value) → Prop
  | [] => True
  | (k, v) :: kvs => clarityName (k.map BitVec.toNat) = true ∧ Proper v ∧ ProperFields kvs
end

end Spec
