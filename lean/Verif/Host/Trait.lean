import Verif.Host.AbiProof

/-! Model of the trait-identifier encoding, `/repo/clar2wasm/src/wasm_utils.rs` 1636-1703. -/

namespace Host
open Wasm Spec

/-- The `u8` length of a name (`ContractName::len`, `ClarityName::len`). -/
def lenByte (n : Name) : Byte := BitVec.ofNat 8 n.length

/-- wasm_utils.rs 1638-1665: `trait_identifier_as_bytes`. -/
def traitAsBytes (t : TraitId) : List Byte :=
  [t.contract.issuer.version] ++ t.contract.issuer.hash ++
  ([lenByte t.contract.name] ++ t.contract.name) ++ ([lenByte t.name] ++ t.name)

/-- `String::from_utf8(..)?.try_into::<ClarityName>()`: a valid name or an error. -/
def newClarityName (bs : List Byte) : Option Name :=
  if clarityName (bs.map BitVec.toNat) then some bs else none

/-- `slice::split_first`. -/
def splitFirst : List Byte → Option (Byte × List Byte)
  | [] => none
  | b :: bs => some (b, bs)

/-- `slice::split_at_checked`. -/
def splitAtChecked (n : Nat) (bs : List Byte) : Option (List Byte × List Byte) :=
  if n ≤ bs.length then some (bs.take n, bs.drop n) else none

/-- wasm_utils.rs 1669-1703: `trait_identifier_from_bytes`. -/
def traitFromBytes (bs : List Byte) : Option TraitId := do
  let (version, bs) ← splitFirst bs
  let (issuerBytes, bs) ← splitAtChecked 20 bs
  let issuer ← newStdPrincipal version issuerBytes
  let (cLen, bs) ← splitFirst bs
  let (cBytes, bs) ← splitAtChecked cLen.toNat bs
  let cName ← newContractName cBytes
  let (tLen, bs) ← splitFirst bs
  if bs.length ≠ tLen.toNat then none else
  let tName ← newClarityName bs
  some ⟨⟨issuer, cName⟩, tName⟩

end Host
