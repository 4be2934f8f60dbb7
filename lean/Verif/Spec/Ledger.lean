import Verif.Spec.Clarity

/-! Specification vocabulary: ledgers. -/

namespace Spec

/-- The balances sum up to `n`: only finitely many principals have a balance, and their balances
add up to `n`. -/
def SumsTo (bal : Principal → Nat) (n : Nat) : Prop :=
  ∃ ps : List Principal, ps.Nodup ∧ (∀ p, p ∉ ps → bal p = 0) ∧ (ps.map bal).sum = n

end Spec
