import Verif.Props.CompileEx

/-!
C43: the execution context (sender, caller, block) is changed by `as-contract` and `at-block` for
exactly the enclosed expression. `hostFn f args g` is the call of the imported function `f`.
-/

namespace Props
open Wasm Spec Host Core Gen

/-- The imported functions that come in pairs. -/
def brackets : List HostFn :=
  [.enter_as_contract, .exit_as_contract, .enter_at_block, .exit_at_block, .begin_public_call,
   .begin_read_only_call, .commit_call, .roll_back_call]

/-- A properly nested history of calls of imported functions, from the host state `w` to another:
single calls, and pairs of enter and exit, of begin and commit or roll back, with a properly nested
history in between. Memory and globals may change in any way between calls. -/
inductive Nested : World → World → Prop
  | refl (w : World) : Nested w w
  | call {w : World} {g g' : Store World} {f : HostFn} {args vs : List Val} :
      Nested w g.host → f ∉ brackets → hostFn f args g = .ret vs g' → Nested w g'.host
  | asContract {w : World} {g g1 g2 g3 : Store World} :
      Nested w g.host → hostFn .enter_as_contract [] g = .ret [] g1 → Nested g1.host g2.host →
      hostFn .exit_as_contract [] g2 = .ret [] g3 → Nested w g3.host
  | atBlock {w : World} {g g1 g2 g3 : Store World} {off len : BitVec 32} :
      Nested w g.host → hostFn .enter_at_block [.i32 off, .i32 len] g = .ret [] g1 →
      Nested g1.host g2.host → hostFn .exit_at_block [] g2 = .ret [] g3 → Nested w g3.host
  | committed {w : World} {g g1 g2 g3 : Store World} :
      Nested w g.host → hostFn .begin_public_call [] g = .ret [] g1 → Nested g1.host g2.host →
      hostFn .commit_call [] g2 = .ret [] g3 → Nested w g3.host
  | rolledBack {w : World} {g g1 g2 g3 : Store World} {f : HostFn} :
      Nested w g.host → (f = .begin_public_call ∨ f = .begin_read_only_call) →
      hostFn f [] g = .ret [] g1 → Nested g1.host g2.host →
      hostFn .roll_back_call [] g2 = .ret [] g3 → Nested w g3.host

/-- Only the datastore and the events of the current transaction may differ. -/
def OnlyState (w w' : World) : Prop :=
  w' = { w with cur := { w.cur with db := w'.cur.db, events := w'.cur.events } }

theorem OnlyState.rfl' {w : World} : OnlyState w w := rfl

theorem onlyState_put {w w' : World} (h : OnlyState w w') : ∃ s, w' = put w s := ⟨⟨w'.cur.db, w'.cur.events⟩, h⟩

theorem ret_host {g g' : Store World} {vs us : List Val} (h : HRes.ret (σ := World) us g = .ret vs g') : g' = g := by
  cases h; rfl

/-- Every single call leaves the context alone. -/
theorem hostFn_only {f : HostFn} (hf : f ∉ brackets) {args vs : List Val} {g g' : Store World}
    (h : hostFn f args g = .ret vs g') : OnlyState g.host g'.host := by
  unfold hostFn at h
  split at h
  all_goals first
    | exact absurd (by decide) hf
    | exact absurd h (by simp)
    | skip
  all_goals
    split at h
    all_goals first
      | exact absurd h (by simp)
      | skip
  all_goals
    try simp only [orErr, writePrin, getVariable, setVariable, Host.mapGet, Host.mapSet, Host.mapInsert, Host.mapDelete, defineFt,
      ftGetSupply, ftGetBalance, stxGetBalance, ftMint, ftBurn, ftTransfer, stxBurn, stxTransfer, nftGetOwner, nftMint, nftBurn,
      nftTransfer] at h
    repeat' split at h
    all_goals first
      | (cases h; rfl)
      | (cases h; done)

/-- The same context, another contract state and reading mode. -/
def again (w : World) (s : St) (p : Bool) : World := { put w s with pending := p }

theorem exit_as_contract {g g1 g2 g3 : Store World} {s : St} {p : Bool} (hs : g.host.sender.isSome)
    (hc : g.host.caller.isSome) (h1 : hostFn .enter_as_contract [] g = .ret [] g1) (h2 : g2.host = again g1.host s p)
    (h3 : hostFn .exit_as_contract [] g2 = .ret [] g3) : g3.host = again g.host s p := by
  simp only [hostFn, enterAsContract] at h1
  cases h1
  simp only [hostFn, exitAsContract, h2] at h3
  revert hs hc h3
  cases hw : g.host
  rename_i c i sd cl ss cs bs tp pd hi cu sv
  intro hs hc h3
  cases sd with
  | none => cases hs
  | some sd =>
    cases cl with
    | none => cases hc
    | some cl =>
      cases h3
      rfl

theorem exit_at_block {g g1 g2 g3 : Store World} {s : St} {p : Bool} {off len : BitVec 32}
    (h1 : hostFn .enter_at_block [.i32 off, .i32 len] g = .ret [] g1) (h2 : g2.host = again g1.host s p)
    (h3 : hostFn .exit_at_block [] g2 = .ret [] g3) : g3.host = { g.host with pending := true } := by
  simp only [hostFn, enterAtBlock] at h1
  split at h1
  · cases h1
  · split at h1
    · cases h1
    · simp only [World.setBlockHash] at h1
      split at h1
      · rename_i he
        split at he
        · cases he
        · cases h1
      · rename_i w prev he
        split at he
        · cases he
          cases h1
          simp only [hostFn, exitAtBlock, h2, again, Gen.put, World.beginReadOnly, withHost, World.setBlockHash,
            World.rollBack] at h3
          split at h3
          · cases h3
          · rename_i he
            split at he
            · cases he
              cases h3
              rfl
            · cases he
        · cases he

theorem nested_again {w w' : World} (h : Nested w w') (hs : w.sender.isSome) (hc : w.caller.isSome) :
    ∃ s p, w' = again w s p ∧ (w.pending = true → p = true) := by
  induction h with
  | refl w => exact ⟨⟨w.cur.db, w.cur.events⟩, w.pending, rfl, id⟩
  | call _ hf he ih =>
    obtain ⟨s, p, h1, h2⟩ := ih hs hc
    obtain ⟨s', h3⟩ := onlyState_put (hostFn_only hf he)
    exact ⟨s', p, by rw [h3, h1]; rfl, h2⟩
  | asContract _ he _ hx ih1 ih2 =>
    obtain ⟨s, p, h1, h2⟩ := ih1 hs hc
    have hs' : (again _ s p).sender.isSome := hs
    have hc' : (again _ s p).caller.isSome := hc
    rw [← h1] at hs' hc'
    have e1 := he
    simp only [hostFn, enterAsContract] at he
    cases he
    obtain ⟨s', p', h3, h4⟩ := ih2 (by
        simp only [withHost, World.pushSender, World.pushCaller]
        split <;> split <;> rfl) (by
        simp only [withHost, World.pushSender, World.pushCaller]
        split <;> split <;> rfl)
    refine ⟨s', p', ?_, ?_⟩
    · rw [exit_as_contract hs' hc' e1 h3 hx, h1]; rfl
    · intro hp
      refine h4 ?_
      simp only [withHost, World.pushSender, World.pushCaller, h1]
      split <;> split <;> exact h2 hp
  | atBlock _ he _ hx ih1 ih2 =>
    obtain ⟨s, p, h1, h2⟩ := ih1 hs hc
    have hin : ∀ {g g1 : Store World} {off len : BitVec 32}, hostFn .enter_at_block [.i32 off, .i32 len] g = .ret [] g1 →
        g1.host.sender = g.host.sender ∧ g1.host.caller = g.host.caller := by
      intro g g1 off len h
      simp only [hostFn, enterAtBlock] at h
      repeat' split at h
      all_goals first
        | (cases h; done)
        | skip
      cases h
      rename_i hb
      simp only [World.setBlockHash] at hb
      split at hb <;> cases hb
      exact ⟨rfl, rfl⟩
    obtain ⟨e1, e2⟩ := hin he
    obtain ⟨s', p', h3, _⟩ := ih2 (by rw [e1, h1]; exact hs) (by rw [e2, h1]; exact hc)
    refine ⟨s, true, ?_, fun _ => rfl⟩
    rw [exit_at_block he h3 hx, h1]; rfl
  | committed _ he _ hx ih1 ih2 =>
    obtain ⟨s, p, h1, h2⟩ := ih1 hs hc
    simp only [hostFn] at he
    cases he
    obtain ⟨s', p', h3, h4⟩ := ih2 (by show Option.isSome (World.sender _) = _; rw [h1]; exact hs)
      (by show Option.isSome (World.caller _) = _; rw [h1]; exact hc)
    simp only [hostFn, h3] at hx
    cases hx
    refine ⟨s', p', ?_, fun hp => h4 ?_⟩
    · simp only [withHost, h1]; rfl
    · simp only [withHost, World.begin_, h1]; exact h2 hp
  | rolledBack _ hf he _ hx ih1 ih2 =>
    obtain ⟨s, p, h1, h2⟩ := ih1 hs hc
    rcases hf with rfl | rfl
    all_goals
      simp only [hostFn] at he
      cases he
      obtain ⟨s', p', h3, h4⟩ := ih2 (by show Option.isSome (World.sender _) = _; rw [h1]; exact hs)
        (by show Option.isSome (World.caller _) = _; rw [h1]; exact hc)
      simp only [hostFn, h3] at hx
      cases hx
      refine ⟨s, p', ?_, fun hp => h4 ?_⟩
      · simp only [withHost, h1]; rfl
      · simp only [withHost, World.begin_, World.beginReadOnly, h1]; exact h2 hp

/-- **C43.** After any properly nested history of calls of imported functions, starting in a state
with a sender and a caller and outside `at-block`, the whole context is what it was: contract, sender,
caller, block, the stacks of enclosing contexts and transactions, read-only mode. Only the datastore and
the events of the current transaction can be different. -/
theorem C43_context_restored {w w' : World} (h : Nested w w') (hs : w.sender.isSome) (hc : w.caller.isSome)
    (hp : w.pending = true) : OnlyState w w' := by
  obtain ⟨s, p, rfl, h2⟩ := nested_again h hs hc
  rw [h2 hp, ← hp]
  rfl

/-- **C43.** `at-block` leaves no trace at all, whatever happens inside. -/
theorem C43_at_block_no_trace {g g1 g2 g3 : Store World} {off len : BitVec 32}
    (hs : g.host.sender.isSome) (hc : g.host.caller.isSome) (hp : g.host.pending = true)
    (he : hostFn .enter_at_block [.i32 off, .i32 len] g = .ret [] g1) (h : Nested g1.host g2.host)
    (hx : hostFn .exit_at_block [] g2 = .ret [] g3) : g3.host = g.host := by
  have := Nested.atBlock (Nested.refl g.host) he h hx
  have hin : g1.host.sender = g.host.sender ∧ g1.host.caller = g.host.caller := by
    have h := he
    simp only [hostFn, enterAtBlock] at h
    repeat' split at h
    all_goals first
      | (cases h; done)
      | skip
    cases h
    rename_i hb
    simp only [World.setBlockHash] at hb
    split at hb <;> cases hb
    exact ⟨rfl, rfl⟩
  obtain ⟨s, p, h1, _⟩ := nested_again h (by rw [hin.1]; exact hs) (by rw [hin.2]; exact hc)
  rw [exit_at_block he h1 hx, ← hp]

/-- **C43, C36.** A transaction that is rolled back leaves no trace at all. -/
theorem C43_roll_back_no_trace {g g1 g2 g3 : Store World} {f : HostFn}
    (hf : f = .begin_public_call ∨ f = .begin_read_only_call)
    (hs : g.host.sender.isSome) (hc : g.host.caller.isSome) (hp : g.host.pending = true)
    (he : hostFn f [] g = .ret [] g1) (h : Nested g1.host g2.host)
    (hx : hostFn .roll_back_call [] g2 = .ret [] g3) : g3.host = g.host := by
  rcases hf with rfl | rfl
  all_goals
    simp only [hostFn] at he
    cases he
    obtain ⟨s', p', h3, h4⟩ := nested_again h hs hc
    simp only [hostFn, h3] at hx
    cases hx
    obtain rfl : p' = true := h4 hp
    rw [← hp]
    rfl

/-- **C36.** A transaction that is committed has the effects that happened in it, and no other. -/
theorem C36_commit_keeps {g g1 g2 g3 : Store World}
    (hs : g.host.sender.isSome) (hc : g.host.caller.isSome) (hp : g.host.pending = true)
    (he : hostFn .begin_public_call [] g = .ret [] g1) (h : Nested g1.host g2.host)
    (hx : hostFn .commit_call [] g2 = .ret [] g3) :
    OnlyState g.host g3.host ∧ g3.host.cur.db = g2.host.cur.db ∧ g3.host.cur.events = g2.host.cur.events := by
  refine ⟨C43_context_restored (.committed (.refl _) he h hx) hs hc hp, ?_⟩
  simp only [hostFn, World.commit] at hx
  split at hx <;> cases hx
  exact ⟨rfl, rfl⟩

/-- **C43.** Inside `as-contract` the sender and the caller are the contract. -/
theorem C43_as_contract_inside {g g1 : Store World} (h : hostFn .enter_as_contract [] g = .ret [] g1) :
    g1.host.sender = some (.contract g.host.contract) ∧ g1.host.caller = some (.contract g.host.contract) ∧
    g1.host.cur = g.host.cur ∧ g1.mem = g.mem := by
  simp only [hostFn, enterAsContract] at h
  cases h
  simp only [withHost, World.pushSender, World.pushCaller]
  split <;> split <;> refine ⟨?_, ?_, ?_, ?_⟩ <;> first | rfl | trivial

/-- **C43.** Inside `at-block` every read sees the datastore of that block, and map writes are
refused. -/
theorem C43_at_block_inside {g g1 : Store World} {off len : BitVec 32}
    (h : hostFn .enter_at_block [.i32 off, .i32 len] g = .ret [] g1) :
    ∃ b db, memRead g.mem off.toNat len.toNat = some b ∧ b.length = 32 ∧ g.host.history b = some db ∧
      g1.host.view = db ∧ g1.host.cur.readOnly = true ∧ g1.host.sender = g.host.sender ∧
      g1.host.caller = g.host.caller ∧ g1.mem = g.mem := by
  simp only [hostFn, enterAtBlock] at h
  repeat' split at h
  all_goals first
    | (cases h; done)
    | skip
  cases h
  rename_i b hb hl _ _ _ hs
  simp only [World.setBlockHash] at hs
  split at hs
  · rename_i hi
    cases hs
    obtain ⟨db, hdb⟩ := Option.isSome_iff_exists.1 hi
    have hdb' : g.host.history b = some db := hdb
    refine ⟨b, db, hb, by omega, hdb, ?_, rfl, rfl, rfl, rfl⟩
    simp [World.view, withHost, World.beginReadOnly, hdb']
  · cases hs

/-- **C43.** A variable read inside `at-block` has the value it had in that block: `get_variable`
writes that value. -/
theorem C43_at_block_var_get {g g' : Store World} {no nl ro x : BitVec 32} {nm : Name} {db : Db} {d : DataVar}
    (hv : g.host.view = db) (hn : readIdent g.mem no nl = some nm) (hd : db.var g.host.contract nm = some d)
    (h : hostFn .get_variable [.i32 no, .i32 nl, .i32 ro, .i32 x] g = .ret [] g') :
    ∃ m n l, writeToWasm d.ty ro.toNat (ro.toNat + typeSize d.ty) d.val true g.mem = some (m, n, l) ∧
      g' = withMem g m := by
  simp only [hostFn, orErr, hn, getVariable, hv, hd] at h
  split at h
  · rename_i m n l he
    cases h
    exact ⟨m, n, l, he, rfl⟩
  · cases h

/-! ### Generated code -/

/-- **C43.** The code of `(as-contract e)`, at any place of function `k` of a well-typed contract:
if `e` evaluates to `v` with the contract as sender and caller, then the execution ends normally with `v`
on the stack, and the host state is what it was (sender, caller and everything else), with the contract
state that `e` leaves. Early returns in `e` are excluded, see `C43_early_return_counterexample`. -/
theorem C43_as_contract_partial (K : Ctx) (M : Wasm.Mod World) (hC : ContractOk K) (hL : Linked K M) (k : Nat)
    (R T : Ty) (H : Nat → Prop) (e : Expr) (wr : Bool) (Δ : TEnv) (Γ : Scope) (ρ : Env) (n d : Nat) (w : World)
    (c : Cx) (s s' : St) (stk loc : List Val) (g : Store World) (v : Value) (ht : wt K k wr R e false Δ T)
    (hok : Ok ⟨K, M, need K k, R, H⟩ wr c w s Δ Γ ρ n (compile K R (.asContract e) T d Γ n).al
      (compile K R (.asContract e) T d Γ n).ls.length loc g)
    (he : eval (sem K.fns k) e ρ ⟨c.self, .contract c.self, .contract c.self⟩ s = .val v s') :
    ∃ N us loc' g', exec M N (compile K R (.asContract e) T d Γ n).is stk loc g = .norm (us.reverse ++ stk) loc' g' ∧
      Rep g'.mem ⟨sp g', H⟩ T v us ∧ g'.host = put w s' ∧ g'.host.sender = some c.sender ∧
      g'.host.caller = some c.caller := by
  have h := good_expr (k := k) (wr := wr) (.asContract e) ⟨K, M, need K k, R, H⟩ (setup hC hL k R H) T false Δ Γ ρ n w c s d
    stk loc g (by simp only [wt]; exact ht) hok
  rw [show eval (sem K.fns k) (.asContract e) ρ c s = .val v s' from by simp only [eval]; exact he] at h
  obtain ⟨N, r, h1, _, us, loc', g', h2, _, h3, _, h4⟩ := h (by simp)
  exact ⟨N, us, loc', g', by rw [← h2]; exact h1, h4, h3, by rw [h3]; exact hok.cx.sender, by rw [h3]; exact hok.cx.caller⟩

/-- `(as-contract (begin (asserts! false 1) 2))`. -/
def cxLeave : Expr := .asContract (.begin_ (.cons .bool (.asserts (.lit (.bool false)) (.lit (.int 1)))
  (.cons .int (.lit (.int 2)) .nil)))

/-- `(define-private (f) (as-contract (begin (asserts! false 1) 2)))`,
`(define-private (h) (begin (f) tx-sender))`. -/
def cxLeaveK : Ctx := ⟨[⟨[], .int, .priv, false, cxLeave⟩,
  ⟨[], .principal, .priv, false, .begin_ (.cons .int (.call 0 .nil) (.cons .principal .txSender .nil))⟩],
  fun _ => 0, [], fun _ => none, fun _ => none, fun _ => false, 0⟩

/-- The bytes in memory that the results of a call point to. -/
def CRes.pointed : CRes World → Option (List Byte)
  | .ret [.i32 o, .i32 l] g => memRead g.mem o.toNat l.toNat
  | _ => none

/-- **C43 counterexample.** An early return inside `as-contract` does not restore the sender: after the
call of `f`, the compiled `h` returns the contract as `tx-sender`, in Clarity it is still the user. -/
theorem C43_early_return_counterexample (s : St) :
    FunDef.run ⟨[], .principal, .priv, false, .begin_ (.cons .int (.call 0 .nil) (.cons .principal .txSender .nil))⟩
      (sem cxLeaveK.fns 1) [] cxCx s = .val (.principal ledgerA) s ∧
    ∃ us g', Runs (moduleOf cxLeaveK) (.user 1) [] cxStore (.ret us g') ∧
      CRes.pointed (.ret us g') = some (principalBytes (.contract ledgerC)) ∧
      principalBytes (.contract ledgerC) ≠ principalBytes ledgerA := by
  constructor
  · have : sem cxLeaveK.fns 1 0 [] cxCx s = .val (.int 1) s := by
      rw [sem_lt cxLeaveK.fns (by omega) _ rfl]
      simp [FunDef.call, FunDef.run, cxLeave, eval, evalSeq, Out.bind, Out.body]
    simp only [FunDef.run, eval, evals, evalSeq, Out.bind, List.map_nil, List.zip_nil_left, List.reverse_nil, this]
    rfl
  · have h : CRes.pointed (invoke (moduleOf cxLeaveK) 60 (.user 1) [] cxStore) = some (principalBytes (.contract ledgerC)) := by
      decide +kernel
    cases hr : invoke (moduleOf cxLeaveK) 60 (.user 1) [] cxStore with
    | ret us g' =>
      rw [hr] at h
      exact ⟨us, g', ⟨60, fun m hm => by rw [invoke_mono hm (by rw [hr]; simp), hr]⟩, h, by decide +kernel⟩
    | trap _ => rw [hr] at h; cases h
    | stuck => rw [hr] at h; cases h
    | oof => rw [hr] at h; cases h

/-- What `C43` says of nested `at-block` expressions: after the inner one, reads see the block of the
outer one again. -/
def C43_nested_at_block_full : Prop :=
  ∀ (g g1 g2 g3 g4 : Store World) (o1 l1 o2 l2 : BitVec 32),
    g.host.sender.isSome → g.host.caller.isSome → g.host.pending = true →
    hostFn .enter_at_block [.i32 o1, .i32 l1] g = .ret [] g1 →
    hostFn .enter_at_block [.i32 o2, .i32 l2] g1 = .ret [] g2 → Nested g2.host g3.host →
    hostFn .exit_at_block [] g3 = .ret [] g4 → g4.host.view = g1.host.view

/-- A history in which the block of 32 zero bytes has 7 in the variable `t`, which is now 9. -/
def cxPast : Store World :=
  { cxStore with host := { cxStore.host with
      tip := List.replicate 32 1#8
      history := fun b => if b = List.replicate 32 0#8 then some (cxSt 7).db
        else if b = List.replicate 32 1#8 then some (cxSt 8).db else none } }

/-- The number of a `uint`. -/
def cxNat : Value → Nat
  | .uint n => n
  | _ => 0

/-- **C43 counterexample.** It is not so: leaving the inner `at-block` switches to reading the current
transaction (`exit_at_block` passes `true`), although the outer one is not finished. (The reference
interpreter does the same.) -/
theorem C43_nested_at_block_counterexample : ¬ C43_nested_at_block_full := by
  intro h
  have h0 : memRead cxPast.mem 1000 32 = some (List.replicate 32 0#8) := by decide +kernel
  have e1 : ∀ g : Store World, g.mem = cxPast.mem → g.host.history = cxPast.host.history → hostFn .enter_at_block [.i32 1000#32, .i32 32#32] g =
      .ret [] (withHost g { g.host.beginReadOnly with tip := List.replicate 32 0#8, pending := false,
                                                      bhhStack := g.host.tip :: g.host.bhhStack }) := by
    intro g hm hh
    simp only [hostFn, enterAtBlock, hm, show (1000#32).toNat = 1000 from rfl, show (32#32).toNat = 32 from rfl, h0]
    rw [if_neg (by decide)]
    simp only [World.setBlockHash, World.beginReadOnly, hh]
    rw [if_pos (by decide +kernel)]
  have e2 := e1 cxPast rfl rfl
  have e3 := e1 (withHost cxPast { cxPast.host.beginReadOnly with
    tip := List.replicate 32 0#8, pending := false, bhhStack := cxPast.host.tip :: cxPast.host.bhhStack }) rfl rfl
  generalize hg2 : withHost (withHost cxPast { cxPast.host.beginReadOnly with
    tip := List.replicate 32 0#8, pending := false, bhhStack := cxPast.host.tip :: cxPast.host.bhhStack }) _ = g2 at e3
  have e4 : ∃ g4, hostFn .exit_at_block [] g2 = .ret [] g4 ∧ (g4.host.view.var ledgerC cxT).map (fun d => cxNat d.val) = some 9 := by
    have hr : (match hostFn .exit_at_block [] g2 with
        | .ret [] g4 => (g4.host.view.var ledgerC cxT).map (fun d => cxNat d.val)
        | _ => none) = some 9 := by
      subst hg2
      decide +kernel
    revert hr
    cases hostFn .exit_at_block [] g2 with
    | ret vs g4 =>
      cases vs with
      | nil => exact fun hr => ⟨g4, rfl, hr⟩
      | cons _ _ => exact fun hr => nomatch hr
    | _ => exact fun hr => nomatch hr
  obtain ⟨g4, e4, e5⟩ := e4
  have h4 := h cxPast _ g2 g2 g4 _ _ _ _ rfl rfl rfl e2 e3 (.refl _) e4
  rw [h4] at e5
  revert e5
  decide +kernel

/-- The hypotheses of the theorems on `at-block` are met: reading `t` in the past. -/
example : ∃ g1, hostFn .enter_at_block [.i32 1000#32, .i32 32#32] cxPast = .ret [] g1 ∧
    g1.host.view.var ledgerC cxT = some ⟨.uint, .uint 7⟩ := by
  have h0 : memRead cxPast.mem 1000 32 = some (List.replicate 32 0#8) := by decide +kernel
  refine ⟨withHost cxPast { cxPast.host.beginReadOnly with
    tip := List.replicate 32 0#8, pending := false, bhhStack := cxPast.host.tip :: cxPast.host.bhhStack }, ?_, ?_⟩
  · simp only [hostFn, enterAtBlock, show (1000#32).toNat = 1000 from rfl, show (32#32).toNat = 32 from rfl, h0]
    rw [if_neg (by decide)]
    simp only [World.setBlockHash, World.beginReadOnly]
    have hh : (cxPast.host.history (List.replicate 32 0#8)).isSome = true := by decide +kernel
    simp only [hh, if_true]
  · simp [World.view, withHost, World.beginReadOnly, cxPast, cxSt]

end Props
