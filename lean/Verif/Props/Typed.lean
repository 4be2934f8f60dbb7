import Verif.Props.Chain

/-!
C45: the datastore stays typed, whatever code runs.
-/

namespace Props
open Wasm Spec Host Core Gen

/-- What has been declared on the chain: types of variables, keys and values of maps, assets of tokens. -/
structure Declared where
  var : ContractId → Name → Option Ty
  map : ContractId → Name → Option (Ty × Ty)
  nft : ContractId → Name → Option Ty
  ft : ContractId → Name → Bool

/-- What the datastore contains has the declared types; amounts of tokens fit 128 bits. -/
structure DbTyped (D : Declared) (db : Db) : Prop where
  var : ∀ c x d, db.var c x = some d → D.var c x = some d.ty ∧ HasType d.ty d.val
  map : ∀ c x d, db.map c x = some d → D.map c x = some (d.key, d.val) ∧
    ∀ k v, d.entry k = some v → HasType d.key k ∧ HasType d.val v
  nft : ∀ c x d, db.nft c x = some d → D.nft c x = some d.key ∧ ∀ v p, d.owner v = some p → HasType d.key v
  ft : ∀ c x t, db.ft c x = some t → t.supply < 2 ^ 128 ∧ ∀ p, t.bal p < 2 ^ 128

/-- Everything declared exists in the datastore. -/
structure DbHas (D : Declared) (db : Db) : Prop where
  var : ∀ c x T, D.var c x = some T → ∃ d, db.var c x = some d
  map : ∀ c x T, D.map c x = some T → ∃ d, db.map c x = some d
  nft : ∀ c x T, D.nft c x = some T → ∃ d, db.nft c x = some d
  ft : ∀ c x, D.ft c x = true → ∃ d, db.ft c x = some d

/-- Everything declared exists and has its declared type. -/
def DbOk (D : Declared) (db : Db) : Prop := DbTyped D db ∧ DbHas D db

/-- What reads inside `at-block` see (if `b`): the known blocks contain nothing of another type; or there is none (if not). -/
def Past (D : Declared) (w : World) : Bool → Prop
  | true => ∀ b db, w.history b = some db → DbTyped D db
  | false => w.pending = true

/-- That is so in the current transaction and the enclosing ones, and in the past. -/
def Typed (b : Bool) (D : Declared) (w : World) : Prop :=
  DbOk D w.cur.db ∧ (∀ l ∈ w.saved, DbOk D l.db) ∧ Past D w b

section
variable {b : Bool} {D : Declared} {w w' : World}

theorem Typed.view (h : Typed b D w) : DbTyped D w.view := by
  unfold World.view
  split
  · exact h.1.1
  · rename_i hp
    cases b with
    | false => exact absurd h.2.2 hp
    | true =>
      cases e : w.history w.tip with
      | none => exact h.1.1
      | some db => exact h.2.2 _ _ e

theorem Past.congr {b : Bool} (h : Past D w b) (h2 : w'.history = w.history) (h5 : b = false → w'.pending = w.pending) : Past D w' b := by
  cases b with
  | true => simp only [Past, h2]; exact h
  | false => exact (h5 rfl).trans h

theorem Typed.setDb {db : Db} (h : Typed b D w) (hd : DbOk D db) : Typed b D (w.setDb db) := ⟨hd, h.2.1, Past.congr h.2.2 rfl fun _ => rfl⟩

theorem Typed.congr (h : Typed b D w) (h2 : w'.history = w.history) (h3 : w'.cur.db = w.cur.db) (h4 : w'.saved = w.saved)
    (h5 : b = false → w'.pending = w.pending) :
    Typed b D w' := ⟨by rw [h3]; exact h.1, by rw [h4]; exact h.2.1, Past.congr h.2.2 h2 h5⟩

theorem Typed.begin_ (h : Typed b D w) : Typed b D w.begin_ :=
  ⟨h.1, fun l hl => by rcases List.mem_cons.1 hl with rfl | hl; exact h.1; exact h.2.1 l hl, Past.congr h.2.2 rfl fun _ => rfl⟩

theorem Typed.beginReadOnly (h : Typed b D w) : Typed b D w.beginReadOnly :=
  ⟨h.1, fun l hl => by rcases List.mem_cons.1 hl with rfl | hl; exact h.1; exact h.2.1 l hl, Past.congr h.2.2 rfl fun _ => rfl⟩

theorem Typed.commit (h : Typed b D w) (e : w.commit = some w') : Typed b D w' := by
  unfold World.commit at e
  split at e
  · cases e
  · rename_i s ss hs
    cases e
    exact ⟨h.1, fun l hl => h.2.1 l (by rw [hs]; exact List.mem_cons_of_mem _ hl), Past.congr h.2.2 rfl fun _ => rfl⟩

theorem Typed.rollBack (h : Typed b D w) (e : w.rollBack = some w') : Typed b D w' := by
  unfold World.rollBack at e
  split at e
  · cases e
  · rename_i s ss hs
    cases e
    exact ⟨h.2.1 s (by rw [hs]; exact List.mem_cons_self), fun l hl => h.2.1 l (by rw [hs]; exact List.mem_cons_of_mem _ hl),
      Past.congr h.2.2 rfl fun _ => rfl⟩

theorem Typed.popSender (h : Typed b D w) (e : w.popSender = some w') : Typed b D w' := by
  unfold World.popSender at e
  split at e <;> cases e
  exact h.congr rfl rfl rfl fun _ => rfl

theorem Typed.popCaller (h : Typed b D w) (e : w.popCaller = some w') : Typed b D w' := by
  unfold World.popCaller at e
  split at e <;> cases e
  exact h.congr rfl rfl rfl fun _ => rfl

theorem Typed.block (h : Typed true D w) {bh : List Byte} {p : Bool} {x : World × List Byte} (e : w.setBlockHash bh p = some x) :
    Typed true D x.1 := by
  unfold World.setBlockHash at e
  split at e <;> cases e
  exact h.congr rfl rfl rfl (fun e => by cases e)
end

theorem upd₂_some {β γ : Type} {f : ContractId → β → Option γ} {a : ContractId} {b : β} {x : γ} {a' : ContractId} {b' : β} {y : γ}
    (h : upd₂ f a b x a' b' = some y) : a' = a ∧ b' = b ∧ x = y ∨ f a' b' = some y := by
  simp only [upd₂] at h
  split at h
  · rename_i e; exact .inl ⟨e.1, e.2, Option.some.inj h⟩
  · exact .inr h

theorem upd₂_has {β γ : Type} {f : ContractId → β → Option γ} {a : ContractId} {b : β} {x : γ} {a' : ContractId} {b' : β}
    (h : ∃ d, f a' b' = some d) : ∃ d, upd₂ f a b x a' b' = some d := by
  simp only [upd₂]
  split
  · exact ⟨_, rfl⟩
  · exact h

section
variable {b : Bool} {D : Declared} {g : Store World} (h : Typed b D g.host)
include h

theorem Typed.setVar {nm : Name} {d : DataVar} {v : Value} (e : g.host.view.var g.host.contract nm = some d)
    (hv : HasType d.ty v) : Typed b D (withHost g (g.host.setDb { g.host.cur.db with
      var := upd₂ g.host.cur.db.var g.host.contract nm { d with val := v } })).host := by
  refine h.setDb ⟨⟨fun c x d' hd => ?_, h.1.1.map, h.1.1.nft, h.1.1.ft⟩,
    ⟨fun c x T hT => upd₂_has (h.1.2.var c x T hT), h.1.2.map, h.1.2.nft, h.1.2.ft⟩⟩
  rcases upd₂_some hd with ⟨rfl, rfl, rfl⟩ | hd
  · exact ⟨(h.view.var _ _ _ e).1, hv⟩
  · exact h.1.1.var _ _ _ hd

theorem Typed.setMap {nm : Name} {d : DataMap} {en : Value → Option Value} (e : g.host.view.map g.host.contract nm = some d)
    (he : ∀ k v, en k = some v → HasType d.key k ∧ HasType d.val v) :
    Typed b D (setMap g nm { d with entry := en }).host := by
  refine h.setDb ⟨⟨h.1.1.var, fun c x d' hd => ?_, h.1.1.nft, h.1.1.ft⟩,
    ⟨h.1.2.var, fun c x T hT => upd₂_has (h.1.2.map c x T hT), h.1.2.nft, h.1.2.ft⟩⟩
  rcases upd₂_some hd with ⟨rfl, rfl, rfl⟩ | hd
  · exact ⟨(h.view.map _ _ _ e).1, he⟩
  · exact h.1.1.map _ _ _ hd

theorem Typed.setNft {nm : Name} {d : Nft} {en : Value → Option Principal} (e : g.host.view.nft g.host.contract nm = some d)
    (he : ∀ v p, en v = some p → HasType d.key v) :
    Typed b D (setNft g nm { d with owner := en }).host := by
  refine h.setDb ⟨⟨h.1.1.var, h.1.1.map, fun c x d' hd => ?_, h.1.1.ft⟩,
    ⟨h.1.2.var, h.1.2.map, fun c x T hT => upd₂_has (h.1.2.nft c x T hT), h.1.2.ft⟩⟩
  rcases upd₂_some hd with ⟨rfl, rfl, rfl⟩ | hd
  · exact ⟨(h.view.nft _ _ _ e).1, he⟩
  · exact h.1.1.nft _ _ _ hd

theorem Typed.setFt {nm : Name} {t : Ft} (h1 : t.supply < 2 ^ 128) (h2 : ∀ p, t.bal p < 2 ^ 128) :
    Typed b D (setFt g nm t).host := by
  refine h.setDb ⟨⟨h.1.1.var, h.1.1.map, h.1.1.nft, fun c x d' hd => ?_⟩,
    ⟨h.1.2.var, h.1.2.map, h.1.2.nft, fun c x hT => upd₂_has (h.1.2.ft c x hT)⟩⟩
  rcases upd₂_some hd with ⟨rfl, rfl, rfl⟩ | hd
  · exact ⟨h1, h2⟩
  · exact h.1.1.ft _ _ _ hd

theorem Typed.stx {stx : Principal → Nat} {n : Nat} : Typed b D (withHost g (g.host.setDb { g.host.cur.db with
    stx := stx, liquid := n })).host :=
  h.setDb ⟨⟨h.1.1.var, h.1.1.map, h.1.1.nft, h.1.1.ft⟩, ⟨h.1.2.var, h.1.2.map, h.1.2.nft, h.1.2.ft⟩⟩
end

theorem upd_some {α β : Type} {f : α → Option β} {a a' : α} {x : Option β} {y : β} (h : upd f a x a' = some y) :
    a' = a ∧ x = some y ∨ f a' = some y := by
  simp only [upd] at h
  split at h
  · rename_i e; exact .inl ⟨e, h⟩
  · exact .inr h

theorem upd_lt {α : Type} {f : α → Nat} {a : α} {n m : Nat} (h : ∀ p, f p < m) (hn : n < m) : ∀ p, upd f a n p < m := by
  intro p
  simp only [upd]
  split
  · exact hn
  · exact h p

theorem push_pending {w : World} {p : Principal} : (w.pushSender p).pending = w.pending ∧ (w.pushCaller p).pending = w.pending := by
  unfold World.pushSender World.pushCaller
  exact ⟨by split <;> rfl, by split <;> rfl⟩

theorem hostFn_typed {b : Bool} {D : Declared} {f : HostFn} {args : List Val} {g : Store World} (h : Typed b D g.host)
    (hf : b = false → ¬ (f = .enter_at_block ∨ f = .exit_at_block)) :
    Typed b D (hostFn f args g).final := by
  have emit' : ∀ {g : Store World} (e : Event), Typed b D g.host → Typed b D (emit g e).host :=
    fun e h => h.congr rfl rfl rfl fun _ => rfl
  generalize hr : hostFn f args g = r
  unfold hostFn at hr
  split at hr
  all_goals
    try split at hr
    all_goals
      try simp only [orErr, writePrin, getVariable, setVariable, Host.mapGet, Host.mapSet, Host.mapInsert, Host.mapDelete, defineFt,
        ftGetSupply, ftGetBalance, stxGetBalance, ftMint, ftBurn, ftTransfer, stxBurn, stxTransfer, nftGetOwner, nftMint, nftBurn,
        nftTransfer, enterAsContract, exitAsContract, enterAtBlock, exitAtBlock, ofWorld] at hr
      try (repeat' split at hr)
      all_goals try subst hr
      all_goals try simp only [HRes.final]
  all_goals try first
        | with_reducible exact h
        | with_reducible exact emit' _ h.stx
        | (show Typed b D (withMem g _).host; exact h)
  · exact h.begin_
  · exact h.beginReadOnly
  · rename_i e; exact h.commit e
  · rename_i e; exact h.rollBack e
  · obtain ⟨_, a2, a3, a4⟩ := push_caller (w := g.host.pushSender g.host.self) (p := g.host.self)
    obtain ⟨_, b2, b3, b4⟩ := push_sender (w := g.host) (p := g.host.self)
    exact h.congr (a2.trans b2) (congrArg Level.db (a3.trans b3)) (a4.trans b4)
      fun _ => push_pending.2.trans push_pending.1
  · rename_i e _ _; exact h.popSender e
  · rename_i e _ _ e'; exact (h.popSender e).popCaller e'
  · exact h.beginReadOnly
  · rename_i e
    cases b with
    | false => exact absurd (.inl rfl) (hf rfl)
    | true => exact (h.beginReadOnly.block e).congr rfl rfl rfl fun _ => rfl
  · rename_i bs _ e _ _
    cases b with
    | false => exact absurd (.inr rfl) (hf rfl)
    | true =>
      refine Typed.block ?_ e
      exact h.congr rfl rfl rfl fun _ => rfl
  · rename_i bs _ e _ _ e'
    cases b with
    | false => exact absurd (.inr rfl) (hf rfl)
    | true =>
      refine Typed.rollBack (Typed.block ?_ e) e'
      exact h.congr rfl rfl rfl fun _ => rfl
  · rename_i e _ _ _ hv
    exact h.setVar e hv
  · rename_i e _ _ _ _ _ _ hv
    refine h.setMap e fun k v hk => ?_
    rcases upd_some hk with ⟨rfl, e'⟩ | hk
    · cases e'; exact hv
    · exact (h.view.map _ _ _ e).2 k v hk
  · rename_i e _ _ _ _ _ _ hv _ _
    refine h.setMap e fun k v hk => ?_
    rcases upd_some hk with ⟨rfl, e'⟩ | hk
    · cases e'; exact hv
    · exact (h.view.map _ _ _ e).2 k v hk
  · rename_i e _ _ _ _ _ _ _
    refine h.setMap e fun k v hk => ?_
    rcases upd_some hk with ⟨rfl, e'⟩ | hk
    · cases e'
    · exact (h.view.map _ _ _ e).2 k v hk
  · rename_i e; exact h.setFt (Nat.two_pow_pos _) (h.1.1.ft _ _ _ e).2
  · exact h.setFt (Nat.two_pow_pos _) fun _ => Nat.two_pow_pos _
  · rename_i e; exact h.setFt (Nat.two_pow_pos _) (h.1.1.ft _ _ _ e).2
  · exact h.setFt (Nat.two_pow_pos _) fun _ => Nat.two_pow_pos _
  · rename_i e hs hb
    exact emit' _ (h.setFt hs.1 (upd_lt (h.view.ft _ _ _ e).2 hb))
  · rename_i e hs hb
    exact h.setFt hs.1 (h.view.ft _ _ _ e).2
  · rename_i e _ _
    have := h.view.ft _ _ _ e
    exact emit' _ (h.setFt (Nat.lt_of_le_of_lt (Nat.sub_le _ _) this.1)
      (upd_lt this.2 (Nat.lt_of_le_of_lt (Nat.sub_le _ _) (this.2 _))))
  · rename_i e _ hb
    have := h.view.ft _ _ _ e
    exact emit' _ (h.setFt this.1 (upd_lt (upd_lt this.2 (Nat.lt_of_le_of_lt (Nat.sub_le _ _) (this.2 _))) hb))
  · rename_i e _ _ _ _ _ _ hv _ _
    refine emit' _ (h.setNft e fun v p hk => ?_)
    rcases upd_some hk with ⟨rfl, e'⟩ | hk
    · exact hv
    · exact (h.view.nft _ _ _ e).2 v p hk
  · rename_i e _ _ _ _ _ _ hv _ _ _ _
    refine emit' _ (h.setNft e fun v p hk => ?_)
    rcases upd_some hk with ⟨rfl, e'⟩ | hk
    · exact hv
    · exact (h.view.nft _ _ _ e).2 v p hk
  · rename_i e _ _ _ _ _ _ _ _ _ hv _ _ _ _ _
    refine emit' _ (h.setNft e fun v p hk => ?_)
    rcases upd_some hk with ⟨rfl, e'⟩ | hk
    · exact hv
    · exact (h.view.nft _ _ _ e).2 v p hk

/-- **C45, types.** Any Wasm code whatever, called in any way, whether it returns or traps: every variable, map and token
that was declared still exists, with its declared type; its value, its entries, its assets are of that type; and amounts of
tokens fit 128 bits. -/
theorem C45_any_code_typed {D : Declared} {M : Wasm.Mod World} (hM : OnHost M) {f : FId} {args : List Val} {g g' : Store World}
    {vs : List Val} (h0 : Typed true D g.host) (h : Runs M f args g (.ret vs g') ∨ Runs M f args g (.trap g')) :
    Typed true D g'.host := by
  have hk : M.Keeps (Typed true D) := by
    intro f args g1 h1
    have h2 := hostFn_typed (f := f) (args := args) h1 (fun e => by cases e)
    rw [show M.host = hostFn from hM]
    cases e : hostFn f args g1 <;> rw [e] at h2 <;> exact h2
  rcases h with h | h <;> exact runs_host hk h0 h

/-- **C45, types over the chain.** Whatever contracts are called, by whomever: declared variables, maps and tokens keep
existing, with contents of their declared types. -/
theorem C45_chain_typed {D : Declared} {db db' : Db} {l : List (Principal × ContractId)} (h : Chain db l db') (h0 : DbOk D db) :
    DbOk D db' := by
  induction h with
  | nil => exact h0
  | cons h _ ih =>
    refine ih ?_
    cases h with
    | undone => exact h0
    | @kept K j _ _ g g' e _ _ _ hp hs hr =>
      subst e
      have hk := compiled_keeps K (P := Typed false D) fun f hf _ args g hg => hostFn_typed (f := f) (args := args) hg fun _ => hf
      have h1 : Typed false D g.host := ⟨h0, fun l hl => by (rw [hs] at hl; cases hl), hp⟩
      exact (show Typed false D g'.host from runs_host_on hk (by simp) h1 hr).1

/-- The contract `me`, with what `K` says it declares, is part of the chain. -/
structure Declared.Has (D : Declared) (K : Ctx) (me : ContractId) : Prop where
  vars : ∀ x T, K.vars x = some T → D.var me x = some T
  maps : ∀ x T, K.maps x = some T → D.map me x = some T
  fts : ∀ x, K.fts x = true → D.ft me x = true

/-- What the theorems about compiled functions (C33, C46) demand of the state. -/
theorem DbOk.stOk {D : Declared} {db : Db} (h : DbOk D db) {K : Ctx} {me : ContractId} (hK : D.Has K me) (es : List Event) :
    StOk K me ⟨db, es⟩ where
  vars x T hT := by
    obtain ⟨d, hd⟩ := h.2.var _ _ _ (hK.vars x T hT)
    obtain ⟨h1, h2⟩ := h.1.var _ _ _ hd
    obtain rfl := Option.some.inj (h1.symm.trans (hK.vars x T hT))
    exact ⟨d, hd, rfl, h2⟩
  maps x A V hT := by
    obtain ⟨d, hd⟩ := h.2.map _ _ _ (hK.maps x _ hT)
    obtain ⟨h1, h2⟩ := h.1.map _ _ _ hd
    have h3 := Option.some.inj (h1.symm.trans (hK.maps x _ hT))
    cases h3
    exact ⟨d, hd, rfl, rfl, fun k v e => (h2 k v e).2⟩
  fts x hx := by
    obtain ⟨d, hd⟩ := h.2.ft _ _ (hK.fts x hx)
    exact ⟨d, hd, h.1.ft _ _ _ hd⟩

/-- **C45.** So a contract finds its state as C33 and C46 need it, after any history of the chain, in which any other
contracts, well typed or not, have been called, and itself too. -/
theorem C45_chain_ready {D : Declared} {db db' : Db} {l : List (Principal × ContractId)} (h : Chain db l db') (h0 : DbOk D db)
    {K : Ctx} {me : ContractId} (hK : D.Has K me) (es : List Event) : StOk K me ⟨db', es⟩ :=
  (C45_chain_typed h h0).stOk hK es

/-! ### Example -/

/-- What the contract of `Props/CompileEx` and the tokens of `Props/Ledger` declare. -/
noncomputable def tyD : Declared where
  var c x := if c = ledgerC ∧ x = cxT then some .uint else none
  map _ _ := none
  nft c x := if c = ledgerC ∧ x = [116#8] then some .bool else none
  ft _ _ := false

theorem ty_has : tyD.Has cxK ledgerC where
  vars x T h := by simpa [tyD, cxK] using h
  maps x T h := by simp [cxK] at h
  fts x h := by simp [cxK] at h

theorem ty_ok : DbOk tyD (cxSt 9).db := by
  refine ⟨⟨fun c x d h => ?_, fun c x d h => ?_, fun c x d h => ?_, fun c x t h => ?_⟩,
    ⟨fun c x T h => ?_, fun c x T h => ?_, fun c x T h => ?_, fun c x h => ?_⟩⟩
  all_goals simp only [tyD, cxSt, ledgerDb] at h ⊢
  · split at h
    · cases h; rename_i e; simp [e, HasType, IsUInt]
    · cases h
  · cases h
  · split at h
    · cases h; rename_i e; simp [e]
    · cases h
  · cases h
  · split at h
    · rename_i e; simp [e]
    · cases h
  · cases h
  · split at h
    · rename_i e; simp [e]
    · cases h
  · cases h

/-- The hypotheses of the theorems above are met: after two calls of `(twice)`, one of them undone, everything is typed. -/
example : ∃ db', Chain (cxSt 9).db [(ledgerA, ledgerC), (ledgerB, ledgerC)] db' ∧ DbOk tyD db' ∧ StOk cxK ledgerC ⟨db', []⟩ ∧
    db'.var ledgerC cxT = some ⟨.uint, .uint 10⟩ := by
  obtain ⟨us, g', h, e, -⟩ := cx_executes
  have h1 : Chain (cxSt 9).db [(ledgerA, ledgerC), (ledgerB, ledgerC)] g'.host.cur.db :=
    .cons (.kept rfl rfl rfl rfl rfl rfl h) (.cons .undone .nil)
  exact ⟨_, h1, C45_chain_typed h1 ty_ok, C45_chain_ready h1 ty_ok ty_has [], by rw [e]; exact cx_get 10⟩

end Props
