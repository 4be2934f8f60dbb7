import Verif.Wasm.Rules

/-! Tactics for symbolic execution. -/

namespace Wasm

/-- `wpx` that also removes negations from the conditions of `if`. -/
syntax "wpy" ("[" Lean.Parser.Tactic.simpLemma,* "]")? (Lean.Parser.Tactic.location)? : tactic
macro_rules
  | `(tactic| wpy $[$l]?) =>
    `(tactic| simp only [wps, Nat.reduceAdd, Nat.reduceLT, Nat.reduceMod,
        BitVec.reduceToNat, BitVec.reduceToInt, BitVec.reduceOfNat, BitVec.reduceEq, Nat.reduceEqDiff,
        ne_eq, Classical.not_not, ite_not] $[$l]?)
  | `(tactic| wpy [$ls,*] $[$l]?) =>
    `(tactic| simp only [wps, Nat.reduceAdd, Nat.reduceLT, Nat.reduceMod,
        BitVec.reduceToNat, BitVec.reduceToInt, BitVec.reduceOfNat, BitVec.reduceEq, Nat.reduceEqDiff,
        ne_eq, Classical.not_not, ite_not, $ls,*] $[$l]?)

/-- Resolve the outermost `if` with a fact. -/
syntax "wif" term : tactic
macro_rules
  | `(tactic| wif $h) => `(tactic| first
      | rw [if_pos $h] | rw [if_neg $h] | rw [if_neg (Classical.not_not.2 $h)] | rw [if_pos (Classical.not_not.2 $h)]
      | rw [if_neg (Classical.not_not.2 (Classical.not_not.2 $h))] | rw [if_pos (Classical.not_not.2 (Classical.not_not.2 $h))])

end Wasm
