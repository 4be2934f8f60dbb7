import Verif.Spec.Clarity

/-! Specification of `principal-construct?`, `principal-destruct?` and `is-standard` (Clarity
reference; SIP-005 addresses). -/

namespace Spec

/-- The version bytes of the addresses of a network: single-signature and multi-signature. -/
def networkVersions (mainnet : Bool) : List Byte :=
  if mainnet then [22#8, 20#8] else [26#8, 21#8]

/-- ASCII text as a name. -/
def ident (s : String) : Name := s.toList.map fun c => BitVec.ofNat 8 c.toNat

/-- The type of the result of `principal-construct?`. -/
def constructTy : Ty :=
  .resp .principal
    (.tuple (.cons (ident "error_code") .uint (.cons (ident "value") (.opt .principal) .nil)))

/-- An error of `principal-construct?`. -/
def constructErr (code : Nat) (p : Value) : Value :=
  .err (.tuple [(ident "error_code", .uint code), (ident "value", p)])

/-- The answer for valid parts: `ok`, or error `u0` with the principal if its version is that of
another network. -/
def onNetwork (mainnet : Bool) (version : Byte) (p : Principal) : Value :=
  if version ∈ networkVersions mainnet then .ok (.principal p)
  else constructErr 0 (.some (.principal p))

/-- `(principal-construct? version hash [name])`: error `u1` for an empty version, a version that is
not below 32 or a hash of less than 20 bytes, error `u2` for an invalid contract name. -/
def construct (mainnet : Bool) (version hash : List Byte) (name : Option Name) : Value :=
  match version with
  | [] => constructErr 1 .none
  | v :: _ =>
    if 32 ≤ v.toNat ∨ hash.length < 20 then constructErr 1 .none
    else match name with
      | none => onNetwork mainnet v (.standard ⟨v, hash⟩)
      | some n =>
        if contractName (n.map BitVec.toNat) = true then onNetwork mainnet v (.contract ⟨⟨v, hash⟩, n⟩)
        else constructErr 2 .none

/-- The parts of a principal. -/
def parts : Principal → Byte × List Byte × Option Name
  | .standard s => (s.version, s.hash, none)
  | .contract c => (c.issuer.version, c.issuer.hash, some c.name)

/-- The tuple of `principal-destruct?`. -/
def partsTuple (p : Principal) : Value :=
  .tuple [(ident "hash-bytes", .buff (parts p).2.1),
    (ident "name", match (parts p).2.2 with | none => .none | some n => .some (.ascii n)),
    (ident "version", .buff [(parts p).1])]

/-- The type of the tuple of `principal-destruct?`. -/
def partsTy : Ty :=
  .tuple (.cons (ident "hash-bytes") (.buff 20) (.cons (ident "name") (.opt (.ascii 40))
    (.cons (ident "version") (.buff 1) .nil)))

/-- `(principal-destruct? p)`: the parts, as an error if the version is that of another network. -/
def destruct (mainnet : Bool) (p : Principal) : Value :=
  if (parts p).1 ∈ networkVersions mainnet then .ok (partsTuple p) else .err (partsTuple p)

end Spec
