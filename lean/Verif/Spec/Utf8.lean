/-! Specification vocabulary: UTF-8 (RFC 3629, section 3). -/

namespace Spec

/-- Unicode scalar values: code points except the surrogates. -/
def isScalar (c : Nat) : Prop := c < 0x110000 ∧ ¬ (0xD800 ≤ c ∧ c < 0xE000)

instance (c : Nat) : Decidable (isScalar c) := by unfold isScalar; infer_instance

/-- The UTF-8 encoding of a code point. -/
def utf8 (c : Nat) : List Nat :=
  if c < 0x80 then [c]
  else if c < 0x800 then [0xC0 + c / 64, 0x80 + c % 64]
  else if c < 0x10000 then [0xE0 + c / 4096, 0x80 + c / 64 % 64, 0x80 + c % 64]
  else [0xF0 + c / 262144, 0x80 + c / 4096 % 64, 0x80 + c / 64 % 64, 0x80 + c % 64]

/-- The UTF-8 encoding of a text. -/
def utf8Text (cs : List Nat) : List Nat := cs.flatMap utf8

end Spec
