import Verif.Wasm.HostInv
import Verif.Gen.HostCalls
import Verif.Props.Context
import Verif.Props.Ledger

/-!
C50: what the code of a contract cannot do. First for arbitrary Wasm code that calls the imported functions in any way;
then for properly nested histories of calls (C43), as compiled code makes them.
-/

namespace Props
open Wasm Spec Host Core Gen

/-- Whatever contract `c` has declared is the same in `a` and `b`. -/
def SameAt (c : ContractId) (a b : Db) : Prop :=
  b.ft c = a.ft c ∧ b.nft c = a.nft c ∧ b.var c = a.var c ∧ b.map c = a.map c

theorem SameAt.rfl' (c : ContractId) (a : Db) : SameAt c a a := ⟨rfl, rfl, rfl, rfl⟩

theorem SameAt.trans {c : ContractId} {a b d : Db} (h : SameAt c a b) (h' : SameAt c b d) : SameAt c a d :=
  ⟨h'.1.trans h.1, h'.2.1.trans h.2.1, h'.2.2.1.trans h.2.2.1, h'.2.2.2.trans h.2.2.2⟩

theorem upd₂_other {β γ : Type} {f : ContractId → β → Option γ} {a c : ContractId} (h : c ≠ a) (b : β) (x : γ) :
    upd₂ f a b x c = f c := by
  funext b'
  simp only [upd₂]
  rw [if_neg (fun e => h e.1)]

/-- The running contract is `c0`, the blocks are `hist`, and in the current transaction and the enclosing ones the other
contracts have what they have in `D`. -/
def Elsewhere (c0 : ContractId) (hist : List Byte → Option Db) (D : Db) (w : World) : Prop :=
  w.contract = c0 ∧ w.history = hist ∧ ∀ c, c ≠ c0 → SameAt c D w.cur.db ∧ ∀ l ∈ w.saved, SameAt c D l.db

theorem Elsewhere.setDb {c0 : ContractId} {hist : List Byte → Option Db} {D db : Db} {w : World}
    (h : Elsewhere c0 hist D w) (hd : ∀ c, c ≠ c0 → SameAt c w.cur.db db) : Elsewhere c0 hist D (w.setDb db) :=
  ⟨h.1, h.2.1, fun c hc => ⟨(h.2.2 c hc).1.trans (hd c hc), (h.2.2 c hc).2⟩⟩

theorem Elsewhere.congr {c0 : ContractId} {hist : List Byte → Option Db} {D : Db} {w w' : World}
    (h : Elsewhere c0 hist D w) (h1 : w'.contract = w.contract) (h2 : w'.history = w.history)
    (h3 : w'.cur.db = w.cur.db) (h4 : w'.saved = w.saved) : Elsewhere c0 hist D w' :=
  ⟨h1.trans h.1, h2.trans h.2.1, fun c hc => by rw [h3, h4]; exact h.2.2 c hc⟩

section
variable {c0 : ContractId} {hist : List Byte → Option Db} {D : Db} {w w' : World} (h : Elsewhere c0 hist D w)
include h

theorem Elsewhere.begin_ : Elsewhere c0 hist D w.begin_ :=
  ⟨h.1, h.2.1, fun c hc => ⟨(h.2.2 c hc).1, fun l hl => by
    rcases List.mem_cons.1 hl with rfl | hl
    · exact (h.2.2 c hc).1
    · exact (h.2.2 c hc).2 l hl⟩⟩

theorem Elsewhere.beginReadOnly : Elsewhere c0 hist D w.beginReadOnly :=
  ⟨h.1, h.2.1, fun c hc => ⟨(h.2.2 c hc).1, fun l hl => by
    rcases List.mem_cons.1 hl with rfl | hl
    · exact (h.2.2 c hc).1
    · exact (h.2.2 c hc).2 l hl⟩⟩

theorem Elsewhere.commit (e : w.commit = some w') : Elsewhere c0 hist D w' := by
  unfold World.commit at e
  split at e
  · cases e
  · rename_i s ss hs
    cases e
    exact ⟨h.1, h.2.1, fun c hc => ⟨(h.2.2 c hc).1, fun l hl => (h.2.2 c hc).2 l (by rw [hs]; exact List.mem_cons_of_mem _ hl)⟩⟩

theorem Elsewhere.rollBack (e : w.rollBack = some w') : Elsewhere c0 hist D w' := by
  unfold World.rollBack at e
  split at e
  · cases e
  · rename_i s ss hs
    cases e
    exact ⟨h.1, h.2.1, fun c hc => ⟨(h.2.2 c hc).2 s (by rw [hs]; exact List.mem_cons_self),
      fun l hl => (h.2.2 c hc).2 l (by rw [hs]; exact List.mem_cons_of_mem _ hl)⟩⟩

theorem Elsewhere.popSender (e : w.popSender = some w') : Elsewhere c0 hist D w' := by
  unfold World.popSender at e
  split at e <;> cases e
  exact h.congr rfl rfl rfl rfl

theorem Elsewhere.popCaller (e : w.popCaller = some w') : Elsewhere c0 hist D w' := by
  unfold World.popCaller at e
  split at e <;> cases e
  exact h.congr rfl rfl rfl rfl

theorem Elsewhere.block {b : List Byte} {p : Bool} {x : World × List Byte} (e : w.setBlockHash b p = some x) :
    Elsewhere c0 hist D x.1 := by
  unfold World.setBlockHash at e
  split at e <;> cases e
  exact h.congr rfl rfl rfl rfl
end

/-- The host state at the end of a call. -/
def _root_.Wasm.HRes.final : HRes World → World
  | .ret _ g => g.host
  | .err g => g.host

theorem push_sender {w : World} {p : Principal} : (w.pushSender p).contract = w.contract ∧ (w.pushSender p).history = w.history ∧
    (w.pushSender p).cur = w.cur ∧ (w.pushSender p).saved = w.saved := by
  unfold World.pushSender; split <;> exact ⟨rfl, rfl, rfl, rfl⟩

theorem push_caller {w : World} {p : Principal} : (w.pushCaller p).contract = w.contract ∧ (w.pushCaller p).history = w.history ∧
    (w.pushCaller p).cur = w.cur ∧ (w.pushCaller p).saved = w.saved := by
  unfold World.pushCaller; split <;> exact ⟨rfl, rfl, rfl, rfl⟩

theorem hostFn_elsewhere {c0 : ContractId} {hist : List Byte → Option Db} {D : Db} {f : HostFn} {args : List Val}
    {g : Store World} (h : Elsewhere c0 hist D g.host) : Elsewhere c0 hist D (hostFn f args g).final := by
  have same : ∀ {db : Db}, db.ft = g.host.cur.db.ft → db.nft = g.host.cur.db.nft → db.var = g.host.cur.db.var →
      db.map = g.host.cur.db.map → ∀ c, c ≠ c0 → SameAt c g.host.cur.db db := fun h1 h2 h3 h4 c _ => by
    simp only [SameAt, h1, h2, h3, h4, and_self]
  have ft : ∀ nm t, Elsewhere c0 hist D (setFt g nm t).host := fun nm t => h.setDb fun c hc =>
    ⟨upd₂_other (by rw [h.1]; exact hc) _ _, rfl, rfl, rfl⟩
  have nft : ∀ nm t, Elsewhere c0 hist D (setNft g nm t).host := fun nm t => h.setDb fun c hc =>
    ⟨rfl, upd₂_other (by rw [h.1]; exact hc) _ _, rfl, rfl⟩
  have map : ∀ nm t, Elsewhere c0 hist D (setMap g nm t).host := fun nm t => h.setDb fun c hc =>
    ⟨rfl, rfl, rfl, upd₂_other (by rw [h.1]; exact hc) _ _⟩
  have emit' : ∀ {g : Store World} (e : Event), Elsewhere c0 hist D g.host → Elsewhere c0 hist D (emit g e).host :=
    fun e h => h.congr rfl rfl rfl rfl
  generalize hr : hostFn f args g = r
  unfold hostFn at hr
  split at hr
  all_goals
    try split at hr
    all_goals
      try simp only [orErr, writePrin, getVariable, setVariable, Host.mapGet, Host.mapSet, Host.mapInsert, Host.mapDelete, defineFt,
        ftGetSupply, ftGetBalance, stxGetBalance, ftMint, ftBurn, ftTransfer, stxBurn, stxTransfer, nftGetOwner, nftMint, nftBurn,
        nftTransfer, enterAsContract, exitAsContract, enterAtBlock, exitAtBlock, ofWorld] at hr
      try (repeat' split at hr)
      all_goals try subst hr
      all_goals try simp only [HRes.final]
  all_goals try first
        | with_reducible exact h
        | with_reducible exact ft _ _
        | with_reducible exact map _ _
        | with_reducible exact emit' _ (ft _ _)
        | with_reducible exact emit' _ (nft _ _)
        | exact emit' _ (h.setDb (same rfl rfl rfl rfl))
        | exact h.setDb fun c hc => ⟨rfl, rfl, upd₂_other (by rw [h.1]; exact hc) _ _, rfl⟩
        | (show Elsewhere c0 hist D (withMem g _).host; exact h)
  · exact h.begin_
  · exact h.beginReadOnly
  · rename_i e; exact h.commit e
  · rename_i e; exact h.rollBack e
  · obtain ⟨a1, a2, a3, a4⟩ := push_caller (w := g.host.pushSender g.host.self) (p := g.host.self)
    obtain ⟨b1, b2, b3, b4⟩ := push_sender (w := g.host) (p := g.host.self)
    exact h.congr (a1.trans b1) (a2.trans b2) (congrArg Level.db (a3.trans b3)) (a4.trans b4)
  · rename_i e _ _; exact h.popSender e
  · rename_i e _ _ e'; exact (h.popSender e).popCaller e'
  · exact h.beginReadOnly
  · rename_i e; exact (h.beginReadOnly.block e).congr rfl rfl rfl rfl
  · rename_i e _ _
    refine Elsewhere.block ?_ e
    exact h.congr rfl rfl rfl rfl
  · rename_i e _ _ e'
    refine Elsewhere.rollBack (Elsewhere.block ?_ e) e'
    exact h.congr rfl rfl rfl rfl

/-- The module imports the functions of the host. -/
def OnHost (M : Wasm.Mod World) : Prop := M.host = hostFn

/-- **C50.** Any Wasm code whatever, called in any way, whether it returns or traps: what the other contracts have
declared (tokens, balances, variables, maps) is the same afterwards, the contract is still the same and the blocks of the
past are as they were. The enclosing transactions, if there are any, must agree about the other contracts at the start. -/
theorem C50_any_code_isolated {M : Wasm.Mod World} (hM : OnHost M) {f : FId} {args : List Val} {g g' : Store World} {vs : List Val}
    (hs : ∀ l ∈ g.host.saved, ∀ c, c ≠ g.host.contract → SameAt c g.host.cur.db l.db)
    (h : Runs M f args g (.ret vs g') ∨ Runs M f args g (.trap g')) :
    g'.host.contract = g.host.contract ∧ g'.host.history = g.host.history ∧
      ∀ c, c ≠ g.host.contract → SameAt c g.host.cur.db g'.host.cur.db := by
  have hk : M.Keeps (Elsewhere g.host.contract g.host.history g.host.cur.db) := by
    intro f args g1 h1
    have h2 := hostFn_elsewhere (f := f) (args := args) h1
    rw [show M.host = hostFn from hM]
    cases e : hostFn f args g1 <;> rw [e] at h2 <;> exact h2
  have h0 : Elsewhere g.host.contract g.host.history g.host.cur.db g.host :=
    ⟨rfl, rfl, fun c hc => ⟨SameAt.rfl' _ _, fun l hl => hs l hl c hc⟩⟩
  have h3 : Elsewhere g.host.contract g.host.history g.host.cur.db g'.host := by
    rcases h with h | h <;> exact runs_host hk h0 h
  exact ⟨h3.1, h3.2.1, fun c hc => (h3.2.2 c hc).1⟩

/-! ### Properly nested histories -/

/-- The event is one of contract `c`, or one about STX of somebody allowed to spend them. -/
def OwnEvent (A : Principal → Prop) (c : ContractId) : Event → Prop
  | .print c' _ | .ftTransfer c' _ _ _ _ | .ftMint c' _ _ _ | .ftBurn c' _ _ _
  | .nftTransfer c' _ _ _ _ | .nftMint c' _ _ _ | .nftBurn c' _ _ _ => c' = c
  | .stxTransfer p _ n _ | .stxBurn p n => A p ∧ 0 < n

/-- What contract `c` can do with the STX of `A`, from one state of the current transaction to another. -/
structure Within (A : Principal → Prop) (c : ContractId) (l l' : Level) : Prop where
  /-- nobody else loses STX -/
  stx : ∀ p, ¬ A p → l.db.stx p ≤ l'.db.stx p
  /-- no STX are made -/
  liquid : l'.db.liquid ≤ l.db.liquid
  /-- events are only added, and they are its own -/
  events : ∃ es, l'.events = l.events ++ es ∧ ∀ e ∈ es, OwnEvent A c e

theorem Within.rfl' {A : Principal → Prop} {c : ContractId} {l l' : Level} (h1 : l'.db.stx = l.db.stx)
    (h2 : l'.db.liquid = l.db.liquid) (h3 : l'.events = l.events) : Within A c l l' :=
  ⟨fun _ _ => by rw [h1], by rw [h2], [], by rw [h3, List.append_nil], by simp⟩

theorem Within.trans {A : Principal → Prop} {c : ContractId} {l l1 l2 : Level} (h : Within A c l l1) (h' : Within A c l1 l2) :
    Within A c l l2 := by
  obtain ⟨es, e1, e2⟩ := h.events
  obtain ⟨es', e1', e2'⟩ := h'.events
  exact ⟨fun p hp => (h.stx p hp).trans (h'.stx p hp), h'.liquid.trans h.liquid, es ++ es', by rw [e1', e1, List.append_assoc],
    fun e he => (List.mem_append.1 he).elim (e2 e) (e2' e)⟩

theorem Within.one {A : Principal → Prop} {c : ContractId} {l l' : Level} {e : Event} (h1 : ∀ p, ¬ A p → l.db.stx p ≤ l'.db.stx p)
    (h2 : l'.db.liquid ≤ l.db.liquid) (h3 : l'.events = l.events ++ [e]) (he : OwnEvent A c e) : Within A c l l' :=
  ⟨h1, h2, [e], h3, by simpa using he⟩

theorem hostFn_within {A : Principal → Prop} {f : HostFn} (hf : f ∉ brackets) {args : List Val} {g : Store World}
    (hA : ∀ p, g.host.sender = some p → A p) (hp : g.host.pending = true) :
    OnlyState g.host (hostFn f args g).final ∧ Within A g.host.contract g.host.cur (hostFn f args g).final.cur := by
  have hv : g.host.view = g.host.cur.db := by simp [World.view, hp]
  have same : OnlyState g.host g.host ∧ Within A g.host.contract g.host.cur g.host.cur := ⟨rfl, .rfl' rfl rfl rfl⟩
  generalize h : hostFn f args g = r
  unfold hostFn at h
  split at h
  all_goals first
    | exact absurd (by decide) hf
    | (subst h; exact same)
    | skip
  all_goals
    split at h
    all_goals first
      | (subst h; exact same)
      | skip
  all_goals
    try simp only [orErr, writePrin, getVariable, setVariable, Host.mapGet, Host.mapSet, Host.mapInsert, Host.mapDelete, defineFt,
      ftGetSupply, ftGetBalance, stxGetBalance, ftMint, ftBurn, ftTransfer, stxBurn, stxTransfer, nftGetOwner, nftMint, nftBurn,
      nftTransfer] at h
    repeat' split at h
    all_goals first
      | (subst h; exact same)
      | (subst h; exact ⟨rfl, Within.rfl' rfl rfl rfl⟩)
      | (subst h; exact ⟨rfl, Within.one (fun _ _ => Nat.le_refl _) (Nat.le_refl _) rfl rfl⟩)
      | skip
  · rename_i a _ h1 h2 h3 h4
    subst h
    rw [hv] at h3 h4
    refine ⟨rfl, Within.one (fun p hp => ?_) ?_ rfl ⟨hA _ (not_not.1 h2).symm, by omega⟩⟩
    · have hpa : p ≠ a := fun e => hp (by rw [e]; exact hA _ (not_not.1 h2).symm)
      simp only [HRes.final, emit, withHost, World.pushEvent, World.setDb, upd, if_neg hpa, le_refl]
    · simp only [HRes.final, emit, withHost, World.pushEvent, World.setDb, hv]
      omega
  · rename_i a _ _ b _ _ _ _ h1 h2 h3 h4 h5
    subst h
    rw [hv] at h4 h5
    refine ⟨rfl, Within.one (fun p hp => ?_) (Nat.le_refl _) rfl ⟨hA _ (not_not.1 h3).symm, by omega⟩⟩
    have hpa : p ≠ a := fun e => hp (by rw [e]; exact hA _ (not_not.1 h3).symm)
    simp only [HRes.final, emit, withHost, World.pushEvent, World.setDb, upd, hv, if_neg hpa]
    split
    · rename_i e; rw [e]; omega
    · exact Nat.le_refl _

theorem ret_within {A : Principal → Prop} {f : HostFn} (hf : f ∉ brackets) {args vs : List Val} {g g' : Store World}
    (hA : ∀ p, g.host.sender = some p → A p) (hp : g.host.pending = true) (h : hostFn f args g = .ret vs g') :
    Within A g.host.contract g.host.cur g'.host.cur := by
  have := (hostFn_within (args := args) hf hA hp).2
  rw [h] at this
  exact this

theorem as_contract_same {g g' : Store World} (h : hostFn .enter_as_contract [] g = .ret [] g') :
    g'.host.contract = g.host.contract ∧ g'.host.pending = g.host.pending := by
  simp only [hostFn, enterAsContract] at h
  cases h
  simp only [withHost, World.pushSender, World.pushCaller]
  split <;> split <;> exact ⟨rfl, rfl⟩

theorem exit_cur {g g' : Store World} (h : hostFn .exit_as_contract [] g = .ret [] g') :
    g'.host.cur = g.host.cur ∧ g'.host.contract = g.host.contract := by
  simp only [hostFn, exitAsContract] at h
  split at h
  · cases h
  · split at h
    · cases h
    · rename_i w e _ w' e'
      cases h
      unfold World.popSender at e
      unfold World.popCaller at e'
      split at e <;> cases e
      split at e' <;> cases e'
      exact ⟨rfl, rfl⟩

/-- **C50.** Over any properly nested history of calls made by a contract, `as-contract`, `at-block` and nested calls
committed or rolled back included: nobody loses STX but the sender and the contract itself, no STX are made, and events
are only added, each of them about the contract or about STX paid by the sender or the contract. -/
theorem C50_authority {w w' : World} (h : Nested w w') {p0 : Principal} (hs : w.sender = some p0) (hc : w.caller.isSome)
    (hp : w.pending = true) : Within (fun p => p = p0 ∨ p = .contract w.contract) w.contract w.cur w'.cur := by
  suffices ∀ A : Principal → Prop, A (.contract w.contract) → (∀ p, w.sender = some p → A p) →
      Within A w.contract w.cur w'.cur from
    this _ (.inr rfl) fun p h => .inl (Option.some.inj (h.symm.trans hs))
  have hs' : w.sender.isSome := by rw [hs]; rfl
  clear hs
  intro A hA hA'
  induction h with
  | refl => exact .rfl' rfl rfl rfl
  | call h1 hf he ih =>
    have h2 := C43_context_restored h1 hs' hc hp
    have h3 := ih hc hp hs' hA hA'
    rw [h2] at h3
    have h4 := ret_within (A := A) hf (by rw [h2]; exact hA') (by rw [h2]; exact hp) he
    rw [h2] at h4
    exact h3.trans h4
  | asContract h1 he h2 hx ih1 ih2 =>
    have h3 := C43_context_restored h1 hs' hc hp
    have h4 := ih1 hc hp hs' hA hA'
    rw [h3] at h4
    obtain ⟨i1, i2, i3, -⟩ := C43_as_contract_inside he
    have i4 : _ = _ ∧ _ = _ := as_contract_same he
    have h5 := ih2 (by rw [i2]; rfl) (by rw [i4.2, h3]; exact hp) (by rw [i1]; rfl) (by rw [i4.1, h3]; exact hA)
      (by rw [i1, h3]; intro p e; cases e; exact hA)
    rw [i4.1, i3, h3] at h5
    rw [(exit_cur hx).1]
    exact h4.trans h5
  | atBlock h1 he h2 hx ih1 ih2 =>
    have h3 := C43_context_restored h1 hs' hc hp
    rw [C43_at_block_no_trace (by rw [h3]; exact hs') (by rw [h3]; exact hc) (by rw [h3]; exact hp) he h2 hx]
    exact ih1 hc hp hs' hA hA'
  | committed h1 he h2 hx ih1 ih2 =>
    have h3 := C43_context_restored h1 hs' hc hp
    have h4 := ih1 hc hp hs' hA hA'
    simp only [hostFn] at he
    cases he
    rw [h3] at h4 ih2
    have h5 := ih2 hc hp hs' hA hA'
    simp only [hostFn, World.commit] at hx
    split at hx <;> cases hx
    exact h4.trans ⟨h5.stx, h5.liquid, h5.events⟩
  | rolledBack h1 hf he h2 hx ih1 ih2 =>
    have h3 := C43_context_restored h1 hs' hc hp
    rw [C43_roll_back_no_trace hf (by rw [h3]; exact hs') (by rw [h3]; exact hc) (by rw [h3]; exact hp) he h2 hx]
    exact ih1 hc hp hs' hA hA'

/-! ### Any code without `at-block` -/

/-- The module imports the functions of the host, except that it cannot use `at-block`. -/
def OnHostNow (M : Wasm.Mod World) : Prop :=
  ∀ f args g, M.host f args g = if f = .enter_at_block ∨ f = .exit_at_block then .err g else hostFn f args g

/-- The transaction is outside `at-block`, its contract is `c` (being initialised if `i`), the sender and those of the enclosing contexts are in `A`. -/
structure Now (A : Principal → Prop) (c : ContractId) (i : Bool) (w : World) : Prop where
  contract : w.contract = c
  init : w.init = i
  pending : w.pending = true
  sender : ∀ p, w.sender = some p → A p
  stack : ∀ p ∈ w.senderStack, A p

theorem Now.congr {A : Principal → Prop} {c : ContractId} {i : Bool} {w w' : World} (h : Now A c i w) (h1 : w'.contract = w.contract)
    (h0 : w'.init = w.init) (h2 : w'.pending = w.pending) (h3 : w'.sender = w.sender) (h4 : w'.senderStack = w.senderStack) : Now A c i w' :=
  ⟨h1.trans h.contract, h0.trans h.init, h2.trans h.pending, by rw [h3]; exact h.sender, by rw [h4]; exact h.stack⟩

theorem Now.popSender {A : Principal → Prop} {c : ContractId} {i : Bool} {w w' : World} (h : Now A c i w) (e : w.popSender = some w') :
    Now A c i w' := by
  unfold World.popSender at e
  split at e <;> cases e
  exact ⟨h.contract, h.init, h.pending, fun p hp => h.stack p (List.mem_of_mem_head? hp), fun p hp => h.stack p (List.mem_of_mem_tail hp)⟩

theorem Now.popCaller {A : Principal → Prop} {c : ContractId} {i : Bool} {w w' : World} (h : Now A c i w) (e : w.popCaller = some w') :
    Now A c i w' := by
  unfold World.popCaller at e
  split at e <;> cases e
  exact h.congr rfl rfl rfl rfl rfl

theorem Now.pushCaller {A : Principal → Prop} {c : ContractId} {i : Bool} {w : World} (h : Now A c i w) (p : Principal) :
    Now A c i (w.pushCaller p) := by
  unfold World.pushCaller
  split <;> exact h.congr rfl rfl rfl rfl rfl

theorem Now.pushSender {A : Principal → Prop} {c : ContractId} {i : Bool} {w : World} (h : Now A c i w) {p : Principal} (hp : A p) :
    Now A c i (w.pushSender p) := by
  unfold World.pushSender
  split
  · rename_i q hq
    refine ⟨h.contract, h.init, h.pending, fun p' e => by cases e; exact hp, fun p' e => ?_⟩
    rcases List.mem_cons.1 e with rfl | e
    · exact h.sender _ hq
    · exact h.stack _ e
  · exact ⟨h.contract, h.init, h.pending, fun p' e => by cases e; exact hp, h.stack⟩

/-- `Now`, and the current transaction and all the enclosing ones are `Within` what was allowed since `l0`. -/
def Since (A : Principal → Prop) (c : ContractId) (i : Bool) (l0 : Level) (w : World) : Prop :=
  Now A c i w ∧ Within A c l0 w.cur ∧ ∀ l ∈ w.saved, Within A c l0 l

theorem hostFn_since {A : Principal → Prop} {c : ContractId} {i : Bool} {l0 : Level} {f : HostFn} {args : List Val} {g : Store World}
    (hA : A (.contract c)) (hf : ¬ (f = .enter_at_block ∨ f = .exit_at_block)) (h : Since A c i l0 g.host) :
    Since A c i l0 (hostFn f args g).final := by
  obtain ⟨h1, h2, h3⟩ := h
  by_cases hb : f ∈ brackets
  · have same : Since A c i l0 g.host := ⟨h1, h2, h3⟩
    simp only [brackets, List.mem_cons, List.not_mem_nil, or_false] at hb
    generalize e : hostFn f args g = r
    rcases hb with rfl | rfl | rfl | rfl | rfl | rfl | rfl | rfl
    case inr.inr.inl => exact absurd (.inl rfl) hf
    case inr.inr.inr.inl => exact absurd (.inr rfl) hf
    all_goals
      unfold hostFn at e
      simp only at e
      split at e
      all_goals first
        | (subst e; exact same)
        | skip
    · subst e
      obtain ⟨-, -, a3, a4⟩ := push_caller (w := g.host.pushSender g.host.self) (p := g.host.self)
      obtain ⟨-, -, b3, b4⟩ := push_sender (w := g.host) (p := g.host.self)
      refine ⟨(h1.pushSender (p := g.host.self) ?_).pushCaller g.host.self, ?_, ?_⟩
      · rw [World.self, h1.contract]; exact hA
      · exact cast (congrArg (Within A c l0) (a3.trans b3).symm) h2
      · exact cast (congrArg (fun x => ∀ l ∈ x, Within A c l0 l) (a4.trans b4).symm) h3
    · unfold exitAsContract at e
      split at e
      · subst e; exact same
      · rename_i w e1
        have n1 := h1.popSender e1
        have c1 : w.cur = g.host.cur ∧ w.saved = g.host.saved := by
          unfold World.popSender at e1
          split at e1 <;> cases e1
          exact ⟨rfl, rfl⟩
        split at e
        · subst e
          exact ⟨n1, cast (congrArg (Within A c l0) c1.1.symm) h2,
            cast (congrArg (fun x => ∀ l ∈ x, Within A c l0 l) c1.2.symm) h3⟩
        · rename_i w' e2
          subst e
          have c2 : w'.cur = w.cur ∧ w'.saved = w.saved := by
            unfold World.popCaller at e2
            split at e2 <;> cases e2
            exact ⟨rfl, rfl⟩
          exact ⟨n1.popCaller e2, cast (congrArg (Within A c l0) (c2.1.trans c1.1).symm) h2,
            cast (congrArg (fun x => ∀ l ∈ x, Within A c l0 l) (c2.2.trans c1.2).symm) h3⟩
    · subst e
      exact ⟨h1.congr rfl rfl rfl rfl rfl, h2, fun l hl => by
        rcases List.mem_cons.1 hl with rfl | hl
        · exact h2
        · exact h3 l hl⟩
    · subst e
      exact ⟨h1.congr rfl rfl rfl rfl rfl, ⟨h2.stx, h2.liquid, h2.events⟩, fun l hl => by
        rcases List.mem_cons.1 hl with rfl | hl
        · exact h2
        · exact h3 l hl⟩
    · subst e
      unfold World.commit
      split
      · exact same
      · rename_i x xs hx
        exact ⟨h1.congr rfl rfl rfl rfl rfl, ⟨h2.stx, h2.liquid, h2.events⟩, fun l hl =>
          h3 l (by rw [hx]; exact List.mem_cons_of_mem _ hl)⟩
    · subst e
      unfold World.rollBack
      split
      · exact same
      · rename_i x xs hx
        exact ⟨h1.congr rfl rfl rfl rfl rfl, h3 x (by rw [hx]; exact List.mem_cons_self), fun l hl =>
          h3 l (by rw [hx]; exact List.mem_cons_of_mem _ hl)⟩
  · obtain ⟨o, w⟩ := hostFn_within (args := args) hb h1.sender h1.pending
    rw [h1.contract] at w
    refine ⟨?_, h2.trans w, ?_⟩
    · rw [o]; exact h1.congr rfl rfl rfl rfl rfl
    · rw [o]; exact h3

theorem since_kept {M : Wasm.Mod World} (hM : OnHostNow M) {A : Principal → Prop} {c : ContractId} {i : Bool} (hA : A (.contract c))
    (l0 : Level) : M.Keeps (Since A c i l0) := by
  intro f args g1 h1
  rw [hM]
  by_cases hf : f = .enter_at_block ∨ f = .exit_at_block
  · rw [if_pos hf]; exact h1
  · rw [if_neg hf]
    have h2 := hostFn_since (args := args) hA hf h1
    cases e : hostFn f args g1 <;> rw [e] at h2 <;> exact h2

/-- **C50.** Any Wasm code whatever that does not use `at-block`, started in the outermost transaction, whether it returns
or traps: nobody loses STX but the sender and the contract itself, no STX are made, and events are only added, each of them
about the contract or about STX paid by the sender or the contract. -/
theorem C50_any_code_authority {M : Wasm.Mod World} (hM : OnHostNow M) {f : FId} {args : List Val} {g g' : Store World}
    {vs : List Val} {p0 : Principal} (hs : g.host.sender = some p0) (hn : g.host.senderStack = []) (hp : g.host.pending = true)
    (ho : g.host.saved = []) (h : Runs M f args g (.ret vs g') ∨ Runs M f args g (.trap g')) :
    Within (fun p => p = p0 ∨ p = .contract g.host.contract) g.host.contract g.host.cur g'.host.cur := by
  have hk := since_kept hM (A := fun p => p = p0 ∨ p = .contract g.host.contract) (i := g.host.init) (.inr rfl) g.host.cur
  have h0 : Since (fun p => p = p0 ∨ p = .contract g.host.contract) g.host.contract g.host.init g.host.cur g.host :=
    ⟨⟨rfl, rfl, hp, fun p e => .inl (Option.some.inj (e.symm.trans hs)), fun p e => by rw [hn] at e; cases e⟩,
      .rfl' rfl rfl rfl, fun l e => by rw [ho] at e; cases e⟩
  rcases h with h | h
  · exact (show Since _ _ _ _ g'.host from runs_host hk h0 h).2.1
  · exact (show Since _ _ _ _ g'.host from runs_host hk h0 h).2.1

theorem hostFn_ledgers {c : ContractId} {i : Bool} {l0 : Level} {f : HostFn} {args : List Val} {g : Store World}
    (hf : ¬ (f = .enter_at_block ∨ f = .exit_at_block)) (hd : f ≠ .define_ft)
    (h1 : AllBalanced g.host ∧ Since (fun _ => True) c i l0 g.host) :
    AllBalanced (hostFn f args g).final ∧ Since (fun _ => True) c i l0 (hostFn f args g).final := by
  refine ⟨?_, hostFn_since trivial hf h1.2⟩
  have := hostFn_ok (f := f) (args := args) (show LedgerOk g.host from h1.1) ⟨fun _ => h1.2.1.pending, fun e => absurd e hd⟩
  cases e : hostFn f args g <;> rw [e] at this <;> exact this

theorem define_fails {args : List Val} {g : Store World} (hi : g.host.init = false) : hostFn .define_ft args g = .err g := by
  simp only [hostFn]
  split
  · unfold orErr
    split
    · unfold defineFt
      beta_reduce
      rw [if_neg (show ¬ g.host.init = true by rw [hi]; simp)]
    · rfl
  · rfl

/-- **C42.** Any Wasm code whatever that does not use `at-block`, called in the outermost transaction when the contract has
been initialised, whether it returns or traps, leaves the ledgers balanced. -/
theorem C42_any_code {M : Wasm.Mod World} (hM : OnHostNow M) {f : FId} {args : List Val} {g g' : Store World} {vs : List Val}
    (h0 : AllBalanced g.host) (hp : g.host.pending = true) (hi : g.host.init = false)
    (ho : g.host.saved = []) (h : Runs M f args g (.ret vs g') ∨ Runs M f args g (.trap g')) : AllBalanced g'.host := by
  have hk : M.Keeps fun w => AllBalanced w ∧ Since (fun _ => True) g.host.contract false g.host.cur w := by
    intro f args g1 h1
    rw [hM]
    by_cases hf : f = .enter_at_block ∨ f = .exit_at_block
    · rw [if_pos hf]; exact h1
    · rw [if_neg hf]
      by_cases hd : f = .define_ft
      · subst hd
        rw [define_fails h1.2.1.init]
        exact h1
      have h2 := hostFn_ledgers (args := args) hf hd h1
      cases e : hostFn f args g1 <;> rw [e] at h2 <;> exact h2
  have hs : AllBalanced g.host ∧ Since (fun _ => True) g.host.contract false g.host.cur g.host := by
    refine ⟨h0, ⟨rfl, hi, hp, fun _ _ => trivial, fun _ _ => trivial⟩, .rfl' rfl rfl rfl, fun l hl => by rw [ho] at hl; cases hl⟩
  rcases h with h | h
  · exact (show AllBalanced g'.host ∧ _ from runs_host hk hs h).1
  · exact (show AllBalanced g'.host ∧ _ from runs_host hk hs h).1

/-! ### Compiled contracts -/

theorem mayCall_now {f : HostFn} (h : mayCall f = true) : ¬ (f = .enter_at_block ∨ f = .exit_at_block) ∧ f ≠ .define_ft :=
  ⟨by rintro (rfl | rfl) <;> exact absurd h (by decide), by rintro rfl; exact absurd h (by decide)⟩

/-- What the imported functions other than those of `at-block` and definitions preserve, compiled code preserves. -/
theorem compiled_keeps (K : Ctx) {P : World → Prop} (hP : ∀ f, ¬ (f = .enter_at_block ∨ f = .exit_at_block) → f ≠ .define_ft →
    ∀ args (g : Store World), P g.host → P (hostFn f args g).final) : (moduleOf K).KeepsOn mayCall P where
  host f hf args g hg := by
    have h := hP f (mayCall_now hf).1 (mayCall_now hf).2 args g hg
    rw [show (moduleOf K).host f args g = hostFn f args g from rfl]
    cases e : hostFn f args g <;> rw [e] at h <;> exact h
  func f d hd := by
    cases f with
    | std f => cases hd; exact std_only f
    | user j =>
      simp only [Mod.func, moduleOf, Option.map_eq_some_iff] at hd
      obtain ⟨f, -, rfl⟩ := hd
      exact compileFn_only K f
    | host h => cases hd
  table := table_only

/-- **C50.** A compiled contract, whatever its functions are, well typed or not, called in the outermost transaction with
any arguments, whether it returns or traps: nobody loses STX but the sender and the contract itself, no STX are made, and
events are only added, each of them about the contract or about STX paid by the sender or the contract. -/
theorem C50_compiled_authority (K : Ctx) (j : Nat) {args : List Val} {g g' : Store World} {vs : List Val} {p0 : Principal}
    (hs : g.host.sender = some p0) (hn : g.host.senderStack = []) (hp : g.host.pending = true) (ho : g.host.saved = [])
    (h : Runs (moduleOf K) (.user j) args g (.ret vs g') ∨ Runs (moduleOf K) (.user j) args g (.trap g')) :
    Within (fun p => p = p0 ∨ p = .contract g.host.contract) g.host.contract g.host.cur g'.host.cur := by
  have hk := compiled_keeps K (P := Since (fun p => p = p0 ∨ p = .contract g.host.contract) g.host.contract g.host.init g.host.cur)
    fun f hf _ args g hg => hostFn_since (.inr rfl) hf hg
  have h0 : Since (fun p => p = p0 ∨ p = .contract g.host.contract) g.host.contract g.host.init g.host.cur g.host :=
    ⟨⟨rfl, rfl, hp, fun p e => .inl (Option.some.inj (e.symm.trans hs)), fun p e => by rw [hn] at e; cases e⟩,
      .rfl' rfl rfl rfl, fun l e => by rw [ho] at e; cases e⟩
  rcases h with h | h
  · exact (show Since _ _ _ _ g'.host from runs_host_on hk (by simp) h0 h).2.1
  · exact (show Since _ _ _ _ g'.host from runs_host_on hk (by simp) h0 h).2.1

/-- **C42.** A compiled contract, whatever its functions are, called in the outermost transaction with any arguments,
whether it returns or traps, leaves the ledgers balanced. -/
theorem C42_compiled (K : Ctx) (j : Nat) {args : List Val} {g g' : Store World} {vs : List Val}
    (h0 : AllBalanced g.host) (hp : g.host.pending = true) (ho : g.host.saved = [])
    (h : Runs (moduleOf K) (.user j) args g (.ret vs g') ∨ Runs (moduleOf K) (.user j) args g (.trap g')) :
    AllBalanced g'.host := by
  have hk := compiled_keeps K (P := fun w => AllBalanced w ∧ Since (fun _ => True) g.host.contract g.host.init g.host.cur w)
    fun f hf hd args g hg => hostFn_ledgers hf hd hg
  have hs : AllBalanced g.host ∧ Since (fun _ => True) g.host.contract g.host.init g.host.cur g.host := by
    refine ⟨h0, ⟨rfl, rfl, hp, fun _ _ => trivial, fun _ _ => trivial⟩, .rfl' rfl rfl rfl, fun l hl => by rw [ho] at hl; cases hl⟩
  rcases h with h | h
  · exact (show AllBalanced g'.host ∧ _ from runs_host_on hk (by simp) hs h).1
  · exact (show AllBalanced g'.host ∧ _ from runs_host_on hk (by simp) hs h).1

/-! ### Examples -/

/-- The contract of `C33`: its code is such code. -/
example : ∃ us g', Runs (moduleOf cxK) (.user 2) [] cxStore (.ret us g') ∧
    ∀ c, c ≠ ledgerC → SameAt c cxStore.host.cur.db g'.host.cur.db := by
  obtain ⟨us, g', h, -⟩ := cx_executes
  exact ⟨us, g', h, (C50_any_code_isolated (M := moduleOf cxK) rfl (fun l hl => by cases hl) (.inl h)).2.2⟩

/-- Nothing of `ledgerB` was taken and the ledgers are balanced. -/
example : ∃ us g', Runs (moduleOf cxK) (.user 2) [] cxStore (.ret us g') ∧ AllBalanced g'.host ∧
    cxStore.host.cur.db.stx ledgerB ≤ g'.host.cur.db.stx ledgerB := by
  obtain ⟨us, g', h, -⟩ := cx_executes
  refine ⟨us, g', h, C42_compiled cxK 2 (g := cxStore) ledger_balanced rfl rfl (.inl h), ?_⟩
  exact (C50_compiled_authority cxK 2 (g := cxStore) (p0 := ledgerA) rfl rfl rfl rfl (.inl h)).stx _ (by
    rintro (h | h)
    · exact absurd h (by decide)
    · exact absurd h (by decide))

/-- A contract written by hand that burns 5 micro-STX of `ledgerA`, whose principal is at address 100. -/
noncomputable def isoM : Wasm.Mod World where
  user n := if n = 0 then some ⟨[], [.i32, .i32, .i64, .i64], [],
    [.b (.const (.i64 5#64)), .b (.const (.i64 0#64)), .b (.const (.i32 100#32)), .b (.const (.i32 22#32)), .call (.host .stx_burn)]⟩
    else none
  host f args g := if f = .enter_at_block ∨ f = .exit_at_block then .err g else hostFn f args g

/-- The host after initialisation. -/
def isoStore : Store World := { ledgerStore with host := { ledgerStore.host with init := false } }

theorem iso_runs : ∃ us g', Runs isoM (.user 0) [] isoStore (.ret us g') ∧ g'.host.cur.db.liquid = 995 := by
  have h1 : hostFn .stx_burn [.i64 5#64, .i64 0#64, .i32 100#32, .i32 22#32] isoStore = stxBurn isoStore 5 ledgerA := by
    have h : hostFn .stx_burn [.i64 5#64, .i64 0#64, .i32 100#32, .i32 22#32] isoStore =
        orErr isoStore (readPrin ledgerMem 100#32 22#32) fun p => stxBurn isoStore (amountOf 5#64 0#64) p := rfl
    rw [h, ledger_A, show amountOf 5#64 0#64 = 5 from rfl]
    rfl
  have h2 : isoStore.host.view.stx ledgerA = 1000 := by simp [World.view, isoStore, ledgerStore, ledgerDb]
  have h3 : isoStore.host.view.liquid = 1000 := by simp [World.view, isoStore, ledgerStore, ledgerDb]
  have h0 : isoStore.host.sender = some ledgerA := rfl
  have h4 : ∃ g', stxBurn isoStore 5 ledgerA = .ret okTrue g' ∧ g'.host.cur.db.liquid = 995 := by
    simp [stxBurn, h0, h2, h3, emit, withHost, World.pushEvent, World.setDb]
  obtain ⟨g', e, h5⟩ := h4
  refine ⟨okTrue, g', ⟨7, fun n hn => ?_⟩, h5⟩
  obtain ⟨n, rfl⟩ : ∃ m, n = m + 7 := ⟨n - 7, by omega⟩
  have h6 : isoM.host .stx_burn [.i64 5#64, .i64 0#64, .i32 100#32, .i32 22#32] isoStore = .ret okTrue g' := by
    have hM : OnHostNow isoM := fun _ _ _ => rfl
    rw [hM, if_neg (show ¬ (HostFn.stx_burn = .enter_at_block ∨ HostFn.stx_burn = .exit_at_block) by decide), h1, e]
  simp [invoke, Mod.func, isoM, exec, stepB, hostSig, Res.toCall] at h6 ⊢
  rw [h6]
  rfl

example : ∃ us g', Runs isoM (.user 0) [] isoStore (.ret us g') ∧ g'.host.cur.db.liquid = 995 ∧ AllBalanced g'.host ∧
    g'.host.cur.db.stx ledgerB ≥ isoStore.host.cur.db.stx ledgerB := by
  obtain ⟨us, g', h, e⟩ := iso_runs
  have hM : OnHostNow isoM := fun _ _ _ => rfl
  refine ⟨us, g', h, e, C42_any_code hM (g := isoStore) ledger_balanced rfl rfl rfl (.inl h), ?_⟩
  exact (C50_any_code_authority hM (g := isoStore) (p0 := ledgerA) rfl rfl rfl rfl (.inl h)).stx _ (by
    rintro (h | h)
    · exact absurd h (by decide)
    · exact absurd h (by decide))

end Props
