import Verif.Props.Isolation

/-!
C42 and C50 over histories of the chain: any number of calls, of any compiled contracts, by anybody.
-/

namespace Props
open Wasm Spec Host Core Gen

/-- One call: `p` calls contract `c`, compiled from whatever functions, on a chain with datastore `db`, leaving `db'`. The
changes of a call that returns are kept; they may also be undone (as they are if the call aborts or answers `(err …)`, or
if the transaction does not succeed for another reason). -/
inductive ChainCall (p : Principal) (c : ContractId) (db : Db) : Db → Prop
  | kept {K : Ctx} {j : Nat} {args vs : List Val} {g g' : Store World} : g.host.cur.db = db → g.host.contract = c →
      g.host.sender = some p → g.host.senderStack = [] → g.host.pending = true → g.host.saved = [] →
      Runs (moduleOf K) (.user j) args g (.ret vs g') → ChainCall p c db g'.host.cur.db
  | undone : ChainCall p c db db

/-- The history of the chain: who called what, in order, and the datastores before and after. -/
inductive Chain : Db → List (Principal × ContractId) → Db → Prop
  | nil {db : Db} : Chain db [] db
  | cons {p : Principal} {c : ContractId} {db db1 db2 : Db} {l : List (Principal × ContractId)} :
      ChainCall p c db db1 → Chain db1 l db2 → Chain db ((p, c) :: l) db2

/-- **C42 over the chain.** Whatever contracts are called, by whomever, in whatever order: the ledgers stay balanced. -/
theorem C42_chain {db db' : Db} {l : List (Principal × ContractId)} (h : Chain db l db') (h0 : Balanced db) : Balanced db' := by
  induction h with
  | nil => exact h0
  | cons h _ ih =>
    refine ih ?_
    cases h with
    | undone => exact h0
    | kept e _ _ _ hp hs hr =>
      subst e
      exact (C42_compiled _ _ ⟨h0, fun l hl => by rw [hs] at hl; cases hl⟩ hp hs (.inl hr)).1

/-- **C50 over the chain, STX.** Somebody who makes no call, and is none of the contracts called, loses no STX; and no STX
are made. -/
theorem C50_chain_stx {db db' : Db} {l : List (Principal × ContractId)} (h : Chain db l db') :
    db'.liquid ≤ db.liquid ∧
    ∀ q, (∀ x ∈ l, q ≠ x.1 ∧ q ≠ .contract x.2) → db.stx q ≤ db'.stx q := by
  induction h with
  | nil => exact ⟨Nat.le_refl _, fun _ _ => Nat.le_refl _⟩
  | cons h _ ih =>
    obtain ⟨i1, i2⟩ := ih
    cases h with
    | undone => exact ⟨i1, fun q hq => i2 q fun x hx => hq x (.tail _ hx)⟩
    | kept e hc hs hn hp ho hr =>
      subst e hc
      have hw := C50_compiled_authority _ _ hs hn hp ho (.inl hr)
      refine ⟨Nat.le_trans i1 hw.liquid, fun q hq => Nat.le_trans (hw.stx q ?_) (i2 q fun x hx => hq x (.tail _ hx))⟩
      obtain ⟨q1, q2⟩ := hq _ (.head _)
      rintro (h | h)
      · exact q1 h
      · exact q2 h

/-- **C50 over the chain, isolation.** What a contract has declared, tokens with all balances, variables and maps, stays
the same until that contract is called. -/
theorem C50_chain_isolated {db db' : Db} {l : List (Principal × ContractId)} (h : Chain db l db') (c : ContractId)
    (hc : ∀ x ∈ l, x.2 ≠ c) : SameAt c db db' := by
  induction h with
  | nil => exact .rfl' _ _
  | cons h _ ih =>
    refine .trans ?_ (ih fun x hx => hc x (.tail _ hx))
    cases h with
    | undone => exact .rfl' _ _
    | kept e e' _ _ _ ho hr =>
      subst e e'
      exact (C50_any_code_isolated (M := moduleOf _) rfl (fun l hl => by rw [ho] at hl; cases hl) (.inl hr)).2.2 c
        fun e => hc _ (.head _) e.symm

/-- Such histories exist: two calls of `(twice)`, the second undone, leave 10 in the variable. -/
example : ∃ db', Chain cxStore.host.cur.db [(ledgerA, ledgerC), (ledgerA, ledgerC)] db' ∧
    db'.var ledgerC cxT = some ⟨.uint, .uint 10⟩ ∧ Balanced db' := by
  obtain ⟨us, g', h, e, -⟩ := cx_executes
  have h1 : Chain cxStore.host.cur.db [(ledgerA, ledgerC), (ledgerA, ledgerC)] g'.host.cur.db :=
    .cons (.kept rfl rfl rfl rfl rfl rfl h) (.cons .undone .nil)
  refine ⟨_, h1, ?_, C42_chain h1 ?_⟩
  · rw [e]; exact cx_get 10
  · exact (show AllBalanced cxStore.host from ledger_balanced).1

end Props
