/-! Specification vocabulary: characters and names (SIP-002, stacks-core `representations.rs`). -/

namespace Spec

/-- A-Z, a-z -/
def isAlpha (c : Nat) : Bool := (65 ≤ c && c ≤ 90) || (97 ≤ c && c ≤ 122)

/-- 0-9 -/
def isNum (c : Nat) : Bool := 48 ≤ c && c ≤ 57

/-- Characters of a string-ascii: the printable ones, tab, line feed, form feed, carriage return. -/
def asciiOk (c : Nat) : Bool := (32 ≤ c && c ≤ 126) || c == 9 || c == 10 || c == 12 || c == 13

/-- `__transient` -/
def transientName : List Nat := [95, 95, 116, 114, 97, 110, 115, 105, 101, 110, 116]

/-- Contract names: `[a-zA-Z]([a-zA-Z0-9]|[-_])*` or `__transient`. -/
def contractName : List Nat → Bool
  | [] => false
  | c :: cs => (isAlpha c && cs.all fun d => isAlpha d || isNum d || d == 45 || d == 95) ||
      (c :: cs) == transientName

/-- `-_!?+<>=/*` -/
def nameSpecial : List Nat := [45, 95, 33, 63, 43, 60, 62, 61, 47, 42]

/-- Clarity names: `[a-zA-Z]([a-zA-Z0-9]|[-_!?+<>=/*])*`, `[-+=/*]` or `[<>]=?`, at most 128
characters. -/
def clarityName (cs : List Nat) : Bool :=
  cs.length ≤ 128 &&
  match cs with
  | [] => false
  | c :: ds =>
    (isAlpha c && ds.all fun d => isAlpha d || isNum d || nameSpecial.contains d) ||
    (ds.isEmpty && [45, 43, 61, 47, 42].contains c) ||
    ((c == 60 || c == 62) && (ds.isEmpty || ds == [61]))

end Spec
