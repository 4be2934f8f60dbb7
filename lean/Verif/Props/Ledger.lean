import Verif.Host.LedgerProof

/-!
C42: token ledgers. `hostFn f args g` is the call of the imported function `f` with Wasm arguments
`args` in the store `g` (`Verif/Host/World.lean`).
-/

namespace Props
open Wasm Spec Host

/-- A history of calls of imported functions made by a contract. Between two calls the contract's
code may change memory and globals in any way, only the host state persists. `ok` restricts the
calls. -/
inductive History (ok : HostFn → List Val → Store World → Prop) : World → World → Prop
  | refl (w : World) : History ok w w
  | call {w : World} {g g' : Store World} {f : HostFn} {args vs : List Val} :
      History ok w g.host → ok f args g → hostFn f args g = .ret vs g' → History ok w g'.host

/-- The ledgers of a datastore balance: every fungible token's balances add up to its supply, which
fits 128 bits and respects the recorded maximum; STX balances add up to the liquid supply. -/
def Balanced (db : Db) : Prop :=
  (∀ c nm t, db.ft c nm = some t → SumsTo t.bal t.supply ∧ t.supply < 2 ^ 128 ∧
    ∀ m, t.cap = some m → t.supply ≤ m) ∧
  SumsTo db.stx db.liquid ∧ db.liquid < 2 ^ 128

/-- The ledgers balance in the current transaction and in all the enclosing ones. -/
def AllBalanced (w : World) : Prop := Balanced w.cur.db ∧ ∀ l ∈ w.saved, Balanced l.db

/-- **C42.** Over any history of calls (mints, burns, transfers, definitions, nested transactions
committed or rolled back, everything else), the ledgers stay balanced. `Host.Allowed` is what the
type checker guarantees: no token writes inside `at-block`, tokens defined once. -/
theorem C42_ledgers_balance {w w' : World} (h0 : AllBalanced w) (h : History Host.Allowed w w') :
    AllBalanced w' := by
  induction h with
  | refl => exact h0
  | call _ ha he ih =>
    have := hostFn_ok ih ha
    rw [he] at this
    exact this

/-- **C42.** A call of a token function that aborts leaves the whole state as it was. -/
theorem C42_abort_changes_nothing {f : HostFn} {args : List Val} {g g' : Store World}
    (h0 : AllBalanced g.host) (hp : g.host.pending = true)
    (hf : f ∈ [HostFn.ft_mint, .ft_burn, .ft_transfer, .stx_burn, .stx_transfer, .nft_mint, .nft_burn,
      .nft_transfer])
    (he : hostFn f args g = .err g') : g' = g := by
  have key : ∀ r : HRes World, r = .err g' → (∀ g', r = .err g' → g' = g) → g' = g :=
    fun r h1 h2 => h2 _ h1
  have h0' : LedgerOk g.host := h0
  refine key _ he ?_
  clear he key
  simp only [List.mem_cons, List.mem_nil_iff, or_false] at hf
  rcases hf with rfl | rfl | rfl | rfl | rfl | rfl | rfl | rfl <;> unfold hostFn <;> dsimp only <;> split
  all_goals first
    | (intro g' h; exact (HRes.err.inj h).symm)
    | skip
  all_goals
    repeat
      first
      | exact (ftMint_ok h0' hp).2
      | exact (ftBurn_ok h0' hp).2
      | exact (ftTransfer_ok h0' hp).2
      | exact (stxBurn_ok h0' hp).2
      | exact (stxTransfer_ok h0' hp).2
      | (refine orErr_inv (P := fun r => ∀ g', r = .err g' → g' = g)
          (fun g' h => (HRes.err.inj h).symm) fun x _ => ?_)
  · unfold nftMint; repeat' split
    all_goals intro g' h; cases h; try rfl
  · unfold nftBurn; repeat' split
    all_goals intro g' h; cases h; try rfl
  · unfold nftTransfer; repeat' split
    all_goals intro g' h; cases h; try rfl

/-- **C42.** A call of a token function that returns `(err ..)` leaves the whole state as it was. -/
theorem C42_err_changes_nothing {f : HostFn} {args vs : List Val} {g g' : Store World}
    (hf : f ∈ [HostFn.ft_mint, .ft_burn, .ft_transfer, .stx_burn, .stx_transfer, .nft_mint, .nft_burn,
      .nft_transfer])
    (he : hostFn f args g = .ret vs g') (hv : vs.head? = some (.i32 0#32)) : g' = g := by
  have key : ∀ r : HRes World, r = .ret vs g' →
      (∀ vs g', r = .ret vs g' → vs.head? = some (.i32 0#32) → g' = g) → g' = g :=
    fun r h1 h2 => h2 _ _ h1 hv
  refine key _ he ?_
  clear he key hv vs g'
  simp only [List.mem_cons, List.mem_nil_iff, or_false] at hf
  rcases hf with rfl | rfl | rfl | rfl | rfl | rfl | rfl | rfl <;> unfold hostFn <;> dsimp only <;> split
  all_goals first
    | (intro vs g' h; cases h; done)
    | skip
  all_goals
    repeat
      (refine orErr_inv (P := fun r => ∀ vs g', r = .ret vs g' → vs.head? = some (.i32 0#32) → g' = g)
          (fun vs g' h => by cases h) fun x _ => ?_)
  all_goals
    simp only [ftMint, ftBurn, ftTransfer, stxBurn, stxTransfer, nftMint, nftBurn, nftTransfer]
    repeat' split
  all_goals intro vs g' h hv; cases h
  all_goals first
    | rfl
    | (simp [okTrue, okNft] at hv; done)

/-! ### What each operation does -/

/-- `g'` is `g` except that token `nm` of the running contract is now `t'`, and event `e` has been
emitted. -/
def OnlyFt (g g' : Store World) (nm : Name) (t' : Ft) (e : Event) : Prop :=
  g'.host.cur.db.ft g.host.contract nm = some t' ∧
  (∀ c m, ¬ (c = g.host.contract ∧ m = nm) → g'.host.cur.db.ft c m = g.host.cur.db.ft c m) ∧
  g' = { g with host := { g.host with cur := { g.host.cur with
    db := { g.host.cur.db with ft := g'.host.cur.db.ft }, events := g.host.cur.events ++ [e] } } }

theorem onlyFt_emit (g : Store World) (nm : Name) (t : Ft) (e : Event) :
    OnlyFt g (emit (setFt g nm t) e) nm t e := by
  refine ⟨?_, ?_, ?_⟩
  · simp [emit, setFt, withHost, World.pushEvent, World.setDb, upd₂]
  · intro c m h
    simp [emit, setFt, withHost, World.pushEvent, World.setDb, upd₂, h]
  · simp [emit, setFt, withHost, World.pushEvent, World.setDb]

/-- The two `i64` arguments of an amount `n` stand for `n`. -/
theorem amountOf_enc {n : Nat} (h : IsUInt n) :
    amountOf (BitVec.ofNat 64 n) (BitVec.ofNat 64 (n / 2 ^ 64)) = n := by
  unfold IsUInt at h
  simp only [amountOf, BitVec.toNat_ofNat]
  omega

/-- **C42.** `ft-mint?`: `(err u1)` for the amount 0; abort when the supply would exceed 128 bits or
the maximum; otherwise `(ok true)`, and exactly the supply and the recipient's balance grow. -/
theorem C42_ft_mint {g : Store World} {no nl po pl : BitVec 32} {nm : Name} {p : Principal} {n : Nat}
    {t : Ft} (hn : IsUInt n) (hnm : readClarityName g.mem no nl = some nm)
    (hp : readPrin g.mem po pl = some p) (h0 : AllBalanced g.host) (hpend : g.host.pending = true)
    (ht : g.host.cur.db.ft g.host.contract nm = some t) :
    let r := hostFn .ft_mint [.i32 no, .i32 nl, .i64 (BitVec.ofNat 64 n),
      .i64 (BitVec.ofNat 64 (n / 2 ^ 64)), .i32 po, .i32 pl] g
    (n = 0 → r = .ret (errUint 1) g) ∧
    (n ≠ 0 → ¬ (t.supply + n < 2 ^ 128 ∧ ∀ m, t.cap = some m → t.supply + n ≤ m) → r = .err g) ∧
    (n ≠ 0 → (t.supply + n < 2 ^ 128 ∧ ∀ m, t.cap = some m → t.supply + n ≤ m) →
      ∃ g' t', r = .ret okTrue g' ∧ OnlyFt g g' nm t' (.ftMint g.host.contract nm p n) ∧
        t'.cap = t.cap ∧ t'.supply = t.supply + n ∧ t'.bal p = t.bal p + n ∧
        ∀ q, q ≠ p → t'.bal q = t.bal q) := by
  intro r
  have hr : r = ftMint g nm n p := by
    simp only [r, hostFn, hnm, hp, orErr, amountOf_enc hn]
  rw [hr]
  unfold ftMint
  rw [view_eq hpend, ht]
  have hle := (h0.1.1 _ _ _ ht).1.le p
  refine ⟨fun h => by simp [h], fun h h' => by simp [h, supplyOk, h'], fun h h' => ?_⟩
  simp only [h, if_false]
  rw [if_pos (show supplyOk t n from h'), if_pos (show t.bal p + n < 2 ^ 128 by omega)]
  refine ⟨_, { t with supply := t.supply + n, bal := upd t.bal p (t.bal p + n) }, rfl,
    onlyFt_emit _ _ _ _, rfl, rfl, by simp [upd], ?_⟩
  intro q hq
  simp [upd, hq]

/-- **C42.** `ft-burn?`: `(err u1)` for the amount 0 or more than the balance; otherwise `(ok true)`,
and exactly the supply and the owner's balance shrink. It never aborts. -/
theorem C42_ft_burn {g : Store World} {no nl po pl : BitVec 32} {nm : Name} {p : Principal} {n : Nat}
    {t : Ft} (hn : IsUInt n) (hnm : readClarityName g.mem no nl = some nm)
    (hp : readPrin g.mem po pl = some p) (h0 : AllBalanced g.host) (hpend : g.host.pending = true)
    (ht : g.host.cur.db.ft g.host.contract nm = some t) :
    let r := hostFn .ft_burn [.i32 no, .i32 nl, .i64 (BitVec.ofNat 64 n),
      .i64 (BitVec.ofNat 64 (n / 2 ^ 64)), .i32 po, .i32 pl] g
    ((n = 0 ∨ t.bal p < n) → r = .ret (errUint 1) g) ∧
    (n ≠ 0 → n ≤ t.bal p →
      ∃ g' t', r = .ret okTrue g' ∧ OnlyFt g g' nm t' (.ftBurn g.host.contract nm p n) ∧
        t'.cap = t.cap ∧ t'.supply + n = t.supply ∧ t'.bal p + n = t.bal p ∧
        ∀ q, q ≠ p → t'.bal q = t.bal q) := by
  intro r
  have hr : r = ftBurn g nm n p := by
    simp only [r, hostFn, hnm, hp, orErr, amountOf_enc hn]
  rw [hr]
  unfold ftBurn
  rw [view_eq hpend, ht]
  have hle := (h0.1.1 _ _ _ ht).1.le p
  refine ⟨fun h => ?_, fun h h' => ?_⟩
  · by_cases hz : n = 0
    · simp [hz]
    · simp only [hz, if_false, false_or] at h ⊢
      rw [if_pos h]
  · simp only [h, if_false]
    rw [if_neg (by omega), if_neg (by omega)]
    refine ⟨_, { t with supply := t.supply - n, bal := upd t.bal p (t.bal p - n) }, rfl,
      onlyFt_emit _ _ _ _, rfl, by simp only; omega, by simp [upd]; omega, ?_⟩
    intro q hq
    simp [upd, hq]

/-- **C42.** `ft-transfer?`: `(err u3)` for the amount 0, `(err u2)` when sender and recipient are
the same, `(err u1)` when the balance is too small; otherwise `(ok true)`, and exactly the two
balances change. It never aborts. -/
theorem C42_ft_transfer {g : Store World} {no nl so sl ro rl : BitVec 32} {nm : Name}
    {s r : Principal} {n : Nat}
    {t : Ft} (hn : IsUInt n) (hnm : readClarityName g.mem no nl = some nm)
    (hs : readPrin g.mem so sl = some s) (hr : readPrin g.mem ro rl = some r)
    (h0 : AllBalanced g.host) (hpend : g.host.pending = true)
    (ht : g.host.cur.db.ft g.host.contract nm = some t) :
    let res := hostFn .ft_transfer [.i32 no, .i32 nl, .i64 (BitVec.ofNat 64 n),
      .i64 (BitVec.ofNat 64 (n / 2 ^ 64)), .i32 so, .i32 sl, .i32 ro, .i32 rl] g
    (n = 0 → res = .ret (errUint 3) g) ∧
    (n ≠ 0 → s = r → res = .ret (errUint 2) g) ∧
    (n ≠ 0 → s ≠ r → t.bal s < n → res = .ret (errUint 1) g) ∧
    (n ≠ 0 → s ≠ r → n ≤ t.bal s →
      ∃ g' t', res = .ret okTrue g' ∧ OnlyFt g g' nm t' (.ftTransfer g.host.contract nm s r n) ∧
        t'.cap = t.cap ∧ t'.supply = t.supply ∧ t'.bal s + n = t.bal s ∧ t'.bal r = t.bal r + n ∧
        ∀ q, q ≠ s → q ≠ r → t'.bal q = t.bal q) := by
  intro res
  have hr' : res = ftTransfer g nm n s r := by
    simp only [res, hostFn, hnm, hs, hr, orErr, amountOf_enc hn]
  rw [hr']
  unfold ftTransfer
  rw [view_eq hpend, ht]
  obtain ⟨h1, h2, -⟩ := h0.1.1 _ _ _ ht
  refine ⟨fun h => by simp [h], fun h h' => by simp [h, h'], fun h h' hb => by simp [h, h', hb],
    fun h h' hb => ?_⟩
  have hsum := move_ok h1 h' hb
  have hle := hsum.le r
  simp only [upd, if_true] at hle
  simp only [h, h', if_false]
  rw [if_neg (by omega), if_pos (by omega)]
  refine ⟨_, { t with bal := upd (upd t.bal s (t.bal s - n)) r (t.bal r + n) }, rfl,
    onlyFt_emit _ _ _ _, rfl, rfl, ?_, by simp [upd], ?_⟩
  · simp [upd, h']; omega
  · intro q hq hq'
    simp [upd, hq, hq']

/-! ### The declared maximum -/

/-- The full statement: a token defined with the maximum `d` never has a supply above `d`. -/
def C42_declared_max_full : Prop :=
  ∀ (g g' : Store World) (no nl : BitVec 32) (nm : Name) (d : Nat) (vs : List Val) (w' : World)
    (t : Ft), IsUInt d → AllBalanced g.host →
    readClarityName g.mem no nl = some nm →
    (∀ l ∈ g.host.cur :: g.host.saved, l.db.ft g.host.contract nm = none) →
    hostFn .define_ft [.i32 no, .i32 nl, .i32 1#32, .i64 (BitVec.ofNat 64 d),
      .i64 (BitVec.ofNat 64 (d / 2 ^ 64))] g = .ret vs g' →
    History (fun f args g => Host.Allowed f args g ∧ f ≠ .define_ft) g'.host w' →
    w'.cur.db.ft g.host.contract nm = some t → t.supply ≤ d

/-- **C42** (partial: declared maxima whose low 64 bits are below 2^63). Over any history after
`define-fungible-token` with maximum `d`, the supply stays at most `d`. Missing: the other maxima,
for which the statement is false, see `C42_declared_max_counterexample`. -/
theorem C42_declared_max_partial {g g' : Store World} {no nl : BitVec 32} {nm : Name} {d : Nat}
    {vs : List Val} {w' : World} {t : Ft} (hd : IsUInt d) (hlow : d % 2 ^ 64 < 2 ^ 63)
    (h0 : AllBalanced g.host) (hnm : readClarityName g.mem no nl = some nm)
    (hfresh : ∀ l ∈ g.host.cur :: g.host.saved, l.db.ft g.host.contract nm = none)
    (hdef : hostFn .define_ft [.i32 no, .i32 nl, .i32 1#32, .i64 (BitVec.ofNat 64 d),
      .i64 (BitVec.ofNat 64 (d / 2 ^ 64))] g = .ret vs g')
    (h : History (fun f args g => Host.Allowed f args g ∧ f ≠ .define_ft) g'.host w')
    (ht : w'.cur.db.ft g.host.contract nm = some t) : t.supply ≤ d := by
  have hal : Host.Allowed .define_ft [.i32 no, .i32 nl, .i32 1#32, .i64 (BitVec.ofNat 64 d),
      .i64 (BitVec.ofNat 64 (d / 2 ^ 64))] g := by
    refine ⟨by simp, fun _ no' nl' ind lo hi nm' h1 h2 => ?_⟩
    simp only [List.cons.injEq, Val.i32.injEq] at h1
    obtain ⟨rfl, rfl, -⟩ := h1
    rw [hnm] at h2
    cases h2
    exact hfresh _ (by simp)
  have hb : AllBalanced g'.host := by
    have := hostFn_ok h0 hal
    rw [hdef] at this
    exact this
  have hcap : LevelsOk (CapIs g.host.contract nm (some d)) g'.host := by
    simp only [hostFn, hnm, orErr, defineFt] at hdef
    split at hdef
    rotate_left
    · cases hdef
    cases hdef
    have hc : ((BitVec.ofNat 64 (d / 2 ^ 64)).signExtend 128 <<< 64 |||
        (BitVec.ofNat 64 d).signExtend 128).toNat = d := by
      have h1 : (BitVec.ofNat 64 d).signExtend 128 = BitVec.ofNat 128 (d % 2 ^ 64) := by
        rw [BitVec.signExtend_eq_setWidth_of_msb_false]
        · apply BitVec.eq_of_toNat_eq
          simp
        · rw [BitVec.msb_eq_false_iff_two_mul_lt]
          simp only [BitVec.toNat_ofNat]
          omega
      have h2 : (BitVec.ofNat 64 (d / 2 ^ 64)).signExtend 128 <<< 64 =
          BitVec.ofNat 128 (d / 2 ^ 64 * 2 ^ 64) := by
        apply BitVec.eq_of_getLsbD_eq
        intro i hi
        unfold IsUInt at hd
        have e : d / 2 ^ 64 * 2 ^ 64 = (d / 2 ^ 64) <<< 64 := by rw [Nat.shiftLeft_eq]
        simp only [BitVec.getLsbD_shiftLeft, BitVec.getLsbD_signExtend, BitVec.getLsbD_ofNat, e,
          Nat.testBit_shiftLeft]
        by_cases h64 : i < 64
        · simp [h64]; omega
        · have h3 : i - 64 < 64 := by omega
          have h4 : i - 64 < 128 := by omega
          simp [h64, h3, h4, hi]; omega
      rw [h1, h2]
      unfold IsUInt at hd
      simp only [BitVec.toNat_or, BitVec.toNat_ofNat]
      rw [Nat.mod_eq_of_lt (show d / 2 ^ 64 * 2 ^ 64 < 2 ^ 128 by omega),
        Nat.mod_eq_of_lt (show d % 2 ^ 64 < 2 ^ 128 by omega)]
      rw [Nat.mul_comm, ← Nat.two_pow_add_eq_or_of_lt (by omega)]
      omega
    refine ⟨?_, ?_⟩
    · intro t' ht'
      simp only [setFt, withHost, World.setDb, upd₂, and_self, if_true, Option.some.injEq] at ht'
      subst ht'
      simp only [if_true]
      rw [hc]
    · intro l hl t' ht'
      rw [hfresh l (by simp [hl, setFt, withHost, World.setDb] at hl ⊢; exact .inr hl)] at ht'
      cases ht'
  have key : ∀ w'', History (fun f args g => Host.Allowed f args g ∧ f ≠ .define_ft) g'.host w'' →
      AllBalanced w'' ∧ LevelsOk (CapIs g.host.contract nm (some d)) w'' := by
    intro w'' h
    induction h with
    | refl => exact ⟨hb, hcap⟩
    | call _ ha he ih =>
      have h1 := hostFn_ok ih.1 ha.1
      have h2 := hostFn_cap ih.2 ha.1 ha.2
      rw [he] at h1 h2
      exact ⟨h1, h2⟩
  obtain ⟨h1, h2⟩ := key _ h
  exact (h1.1.1 _ _ _ ht).2.2 _ (h2.1 _ ht)

/-! ### A concrete state -/

/-- A standard principal for examples. -/
def ledgerA : Principal := .standard ⟨22#8, List.replicate 20 1#8⟩
/-- Another one. -/
def ledgerB : Principal := .standard ⟨22#8, List.replicate 20 2#8⟩
/-- A contract for examples. -/
def ledgerC : ContractId := ⟨⟨22#8, List.replicate 20 1#8⟩, [97#8]⟩

/-- Memory holding the name `t` at 0, `ledgerA` at 100, `ledgerB` at 200, the bool `true` at 300. -/
def ledgerMem : Mem where
  size := 65536
  le := by decide
  byte i := (if i = 0 then [116#8] else
    if 100 ≤ i ∧ i < 200 then (principalBytes ledgerA).drop (i - 100) else
    if 200 ≤ i ∧ i < 300 then (principalBytes ledgerB).drop (i - 200) else
    if i = 300 then [1#8] else []).headD 0#8

/-- A datastore with one non-fungible token `t` of booleans and no fungible token. -/
def ledgerDb : Db where
  ft _ _ := none
  nft c n := if c = ledgerC ∧ n = [116#8] then some ⟨.bool, fun _ => none⟩ else none
  var _ _ := none
  map _ _ := none
  stx p := if p = ledgerA then 1000 else 0
  liquid := 1000

/-- A store with that memory and that datastore, initialising the contract. -/
def ledgerStore : Store World where
  g32 _ := 0#32
  g64 _ := 0#64
  mem := ledgerMem
  host := {
    contract := ledgerC, init := true, sender := some ledgerA, caller := some ledgerA,
    senderStack := [], callerStack := [], bhhStack := [], tip := [], pending := true,
    history := fun _ => none, cur := ⟨ledgerDb, [], false⟩, saved := [] }

theorem ledger_name : readClarityName ledgerMem 0#32 1#32 = some [116#8] := by decide +kernel
theorem ledger_A : readPrin ledgerMem 100#32 22#32 = some ledgerA := by
  have : readFromWasm .principal ledgerMem 100 22 = some (.principal ledgerA) := by
    simp only [readFromWasm]; rfl
  simp [readPrin, this]
theorem ledger_B : readPrin ledgerMem 200#32 22#32 = some ledgerB := by
  have : readFromWasm .principal ledgerMem 200 22 = some (.principal ledgerB) := by
    simp only [readFromWasm]; rfl
  simp [readPrin, this]

theorem ledger_balanced : AllBalanced ledgerStore.host := by
  refine ⟨⟨?_, ⟨[ledgerA], by simp, ?_, by simp [ledgerStore, ledgerDb]⟩, by decide⟩, by
    simp [ledgerStore]⟩
  · intro c nm t h; simp [ledgerStore, ledgerDb] at h
  · intro p hp
    simp only [List.mem_singleton] at hp
    simp [ledgerStore, ledgerDb, hp]

/-- The arguments of `define_ft` for the maximum `d`. -/
def ledgerDefArgs (d : Nat) : List Val :=
  [.i32 0#32, .i32 1#32, .i32 1#32, .i64 (BitVec.ofNat 64 d), .i64 (BitVec.ofNat 64 (d / 2 ^ 64))]

/-- The arguments of `ft_mint` of `n` to `ledgerA`. -/
def ledgerMintArgs (n : Nat) : List Val :=
  [.i32 0#32, .i32 1#32, .i64 (BitVec.ofNat 64 n), .i64 (BitVec.ofNat 64 (n / 2 ^ 64)),
   .i32 100#32, .i32 22#32]

/-- **C42 counterexample.** A token defined with the maximum 2^63 can be minted beyond it: after
`(define-fungible-token t u9223372036854775808)`, `(ft-mint? t u9223372036854775809 A)` succeeds. The
low half of the maximum is sign-extended (linker.rs 236). -/
theorem C42_declared_max_counterexample : ¬ C42_declared_max_full := by
  intro hfull
  let g1 : Store World := setFt ledgerStore [116#8] ⟨some (2 ^ 128 - 2 ^ 63), 0, fun _ => 0⟩
  have hdef : hostFn .define_ft (ledgerDefArgs (2 ^ 63)) ledgerStore = .ret [] g1 := by
    simp only [hostFn, ledgerDefArgs]
    rw [show ledgerStore.mem = ledgerMem from rfl, ledger_name]
    simp only [orErr, defineFt]
    rw [if_pos (show ledgerStore.host.init = true from rfl)]
    simp only [g1]
    congr 2
  have hmem : g1.mem = ledgerMem := rfl
  have hbal : AllBalanced g1.host := by
    have := C42_ledgers_balance ledger_balanced (.call (.refl _)
      (g := ledgerStore) (f := .define_ft) (args := ledgerDefArgs (2 ^ 63)) ⟨by simp, by
        intro _ no nl ind lo hi nm _ _
        simp [ledgerStore, ledgerDb]⟩ hdef)
    exact this
  have ht : g1.host.cur.db.ft g1.host.contract [116#8] =
      some ⟨some (2 ^ 128 - 2 ^ 63), 0, fun _ => 0⟩ := by
    simp [g1, setFt, withHost, World.setDb, upd₂]
  have hm := C42_ft_mint (g := g1) (no := 0#32) (nl := 1#32) (po := 100#32) (pl := 22#32)
    (n := 2 ^ 63 + 1) (by decide) (by rw [hmem]; exact ledger_name) (by rw [hmem]; exact ledger_A)
    hbal rfl ht
  obtain ⟨g', t', hr, hO, -, hsup, -⟩ := hm.2.2 (by decide) ⟨by decide, by
    intro m hm; cases hm; decide⟩
  have := hfull ledgerStore g1 0#32 1#32 [116#8] (2 ^ 63) [] g'.host t' (by decide) ledger_balanced
    ledger_name (by
      intro l hl
      simp only [ledgerStore, List.mem_singleton] at hl
      subst hl; rfl) hdef
    (.call (.refl _) (g := g1) (f := .ft_mint) (args := ledgerMintArgs (2 ^ 63 + 1))
      ⟨⟨fun _ => rfl, by intro h; cases h⟩, by intro h; cases h⟩ hr) hO.1
  rw [hsup] at this
  revert this
  decide

/-! ### Non-fungible tokens -/

/-- `g'` is `g` except that the owner of asset `v` of token `nm` is now `o`, and event `e` has been
emitted. -/
def OnlyNft (g g' : Store World) (nm : Name) (t : Nft) (v : Value) (o : Option Principal) (e : Event) :
    Prop :=
  (∃ t', g'.host.cur.db.nft g.host.contract nm = some t' ∧ t'.key = t.key ∧ t'.owner v = o ∧
    ∀ v', v' ≠ v → t'.owner v' = t.owner v') ∧
  (∀ c m, ¬ (c = g.host.contract ∧ m = nm) → g'.host.cur.db.nft c m = g.host.cur.db.nft c m) ∧
  g' = { g with host := { g.host with cur := { g.host.cur with
    db := { g.host.cur.db with nft := g'.host.cur.db.nft }, events := g.host.cur.events ++ [e] } } }

theorem onlyNft_emit (g : Store World) (nm : Name) (t : Nft) (v : Value) (o : Option Principal)
    (e : Event) : OnlyNft g (emit (setNft g nm { t with owner := upd t.owner v o }) e) nm t v o e := by
  refine ⟨⟨{ t with owner := upd t.owner v o }, ?_, rfl, ?_, ?_⟩, ?_, ?_⟩
  · simp [emit, setNft, withHost, World.pushEvent, World.setDb, upd₂]
  · simp [upd]
  · intro v' h; simp [upd, h]
  · intro c m h
    simp [emit, setNft, withHost, World.pushEvent, World.setDb, upd₂, h]
  · simp [emit, setNft, withHost, World.pushEvent, World.setDb]

/-- **C42** (partial). `nft-mint?`: `(err u1)` when the asset has an owner; otherwise the recipient
becomes its owner and nothing else changes. Missing: the value returned on success should be
`(ok true)`; it is not, see `C42_nft_ok_counterexample`. -/
theorem C42_nft_mint_partial {g : Store World} {no nl ao al po pl : BitVec 32} {nm : Name} {t : Nft}
    {v : Value} {p : Principal} (hnm : readClarityName g.mem no nl = some nm)
    (hpend : g.host.pending = true)
    (ht : g.host.cur.db.nft g.host.contract nm = some t) (hv : readArg t.key g.mem ao al = some v)
    (hty : HasType t.key v) (hp : readPrin g.mem po pl = some p) :
    let r := hostFn .nft_mint [.i32 no, .i32 nl, .i32 ao, .i32 al, .i32 po, .i32 pl] g
    (t.owner v ≠ none → r = .ret (errUint 1) g) ∧
    (t.owner v = none → ∃ vs g', r = .ret vs g' ∧ vs.head? = some (.i32 1#32) ∧
      OnlyNft g g' nm t v (some p) (.nftMint g.host.contract nm p v)) := by
  intro r
  have hr : r = nftMint g nm t v p := by
    simp only [r, hostFn, hnm, hp, orErr, view_eq hpend, ht, hv]
  rw [hr]; unfold nftMint
  rw [if_pos hty]
  constructor
  · intro h
    cases ho : t.owner v with
    | none => exact absurd ho h
    | some o => rfl
  · intro h
    rw [h]
    exact ⟨_, _, rfl, rfl, onlyNft_emit _ _ _ _ _ _⟩

/-- **C42** (partial). `nft-transfer?`: `(err u2)` when sender and recipient are the same, `(err u3)`
when the asset has no owner, `(err u1)` when the sender is not its owner; otherwise the recipient
becomes its owner and nothing else changes. Missing: the value returned on success. -/
theorem C42_nft_transfer_partial {g : Store World} {no nl ao al so sl ro rl : BitVec 32} {nm : Name}
    {t : Nft} {v : Value} {s r : Principal} (hnm : readClarityName g.mem no nl = some nm)
    (hpend : g.host.pending = true)
    (ht : g.host.cur.db.nft g.host.contract nm = some t) (hv : readArg t.key g.mem ao al = some v)
    (hty : HasType t.key v) (hs : readPrin g.mem so sl = some s) (hr : readPrin g.mem ro rl = some r) :
    let res := hostFn .nft_transfer
      [.i32 no, .i32 nl, .i32 ao, .i32 al, .i32 so, .i32 sl, .i32 ro, .i32 rl] g
    (s = r → res = .ret (errUint 2) g) ∧
    (s ≠ r → t.owner v = none → res = .ret (errUint 3) g) ∧
    (s ≠ r → ∀ o, t.owner v = some o → o ≠ s → res = .ret (errUint 1) g) ∧
    (s ≠ r → t.owner v = some s → ∃ vs g', res = .ret vs g' ∧ vs.head? = some (.i32 1#32) ∧
      OnlyNft g g' nm t v (some r) (.nftTransfer g.host.contract nm s r v)) := by
  intro res
  have hr' : res = nftTransfer g nm t v s r := by
    simp only [res, hostFn, hnm, hs, hr, orErr, view_eq hpend, ht, hv]
  rw [hr']; unfold nftTransfer
  rw [if_pos hty]
  refine ⟨fun h => if_pos h, fun h ho => ?_, fun h o ho hne => ?_, fun h ho => ?_⟩
  · rw [if_neg h, ho]
  · rw [if_neg h, ho]; exact if_pos hne
  · rw [if_neg h, ho]
    simp only [ne_eq, not_true, if_false]
    exact ⟨_, _, rfl, rfl, onlyNft_emit _ _ _ _ _ _⟩

/-- **C42** (partial). `nft-burn?`: `(err u3)` when the asset has no owner, `(err u1)` when the sender
is not its owner; otherwise the asset has no owner any more and nothing else changes. Missing: the
value returned on success. -/
theorem C42_nft_burn_partial {g : Store World} {no nl ao al so sl : BitVec 32} {nm : Name}
    {t : Nft} {v : Value} {s : Principal} (hnm : readClarityName g.mem no nl = some nm)
    (hpend : g.host.pending = true)
    (ht : g.host.cur.db.nft g.host.contract nm = some t) (hv : readArg t.key g.mem ao al = some v)
    (hty : HasType t.key v) (hs : readPrin g.mem so sl = some s) :
    let res := hostFn .nft_burn [.i32 no, .i32 nl, .i32 ao, .i32 al, .i32 so, .i32 sl] g
    (t.owner v = none → res = .ret (errUint 3) g) ∧
    (∀ o, t.owner v = some o → o ≠ s → res = .ret (errUint 1) g) ∧
    (t.owner v = some s → ∃ vs g', res = .ret vs g' ∧ vs.head? = some (.i32 1#32) ∧
      OnlyNft g g' nm t v none (.nftBurn g.host.contract nm s v)) := by
  intro res
  have hr' : res = nftBurn g nm t v s := by
    simp only [res, hostFn, hnm, hs, orErr, view_eq hpend, ht, hv]
  rw [hr']; unfold nftBurn
  rw [if_pos hty]
  refine ⟨fun ho => ?_, fun o ho hne => ?_, fun ho => ?_⟩
  · rw [ho]
  · rw [ho]; exact if_pos hne
  · rw [ho]
    simp only [ne_eq, not_true, if_false]
    exact ⟨_, _, rfl, rfl, onlyNft_emit _ _ _ _ _ _⟩

/-- The full statement about success of the non-fungible token functions: the value is `(ok true)`
(tag 1, then `true` as 1, then the unused error value). -/
def C42_nft_ok_full : Prop :=
  ∀ f ∈ [HostFn.nft_mint, .nft_burn, .nft_transfer], ∀ (args vs : List Val) (g g' : Store World),
    hostFn f args g = .ret vs g' → vs.head? = some (.i32 1#32) →
      vs = .i32 1#32 :: encB true ++ encU 0

/-- **C42 counterexample.** A successful `nft-mint?` returns the number 132 where `true` should be
(linker.rs 2408: `132` for `1i32`), so its value is neither `(ok true)` nor `(ok false)`. -/
theorem C42_nft_ok_counterexample : ¬ C42_nft_ok_full := by
  intro h
  have hv : readArg .bool ledgerMem 300#32 4#32 = some (.bool true) := by
    simp only [readArg, isInMemoryType, readFromWasm]; rfl
  have hr : ∃ g', hostFn .nft_mint
      [.i32 0#32, .i32 1#32, .i32 300#32, .i32 4#32, .i32 100#32, .i32 22#32] ledgerStore =
      .ret okNft g' := by
    have ht : ledgerStore.host.view.nft ledgerStore.host.contract [116#8] =
        some ⟨.bool, fun _ => none⟩ := by
      simp [ledgerStore, World.view, ledgerDb]
    simp only [hostFn]
    rw [show ledgerStore.mem = ledgerMem from rfl, ledger_name]
    simp only [orErr, ht, hv, ledger_A, nftMint]
    rw [if_pos (by simp [HasType])]
    exact ⟨_, rfl⟩
  obtain ⟨g', hr⟩ := hr
  have := h .nft_mint (by simp) _ _ _ _ hr rfl
  simp [okNft, encB] at this

/-! ### STX -/

/-- **C42.** `stx-transfer?`: the documented error codes in order, and otherwise exactly the two
balances change; it only moves the STX of the transaction sender and it never aborts. -/
theorem C42_stx_transfer {g : Store World} {so sl ro rl mo ml : BitVec 32} {s r : Principal} {n : Nat}
    {memo : List Byte} (hn : IsUInt n)
    (hs : readPrin g.mem so sl = some s) (hr : readPrin g.mem ro rl = some r)
    (hmemo : (if 0 < ml.toInt then memRead g.mem mo.toNat ml.toNat else some []) = some memo)
    (h0 : AllBalanced g.host) (hpend : g.host.pending = true) :
    let bal := g.host.cur.db.stx
    let res := hostFn .stx_transfer [.i64 (BitVec.ofNat 64 n), .i64 (BitVec.ofNat 64 (n / 2 ^ 64)),
      .i32 so, .i32 sl, .i32 ro, .i32 rl, .i32 mo, .i32 ml] g
    (n = 0 → res = .ret (errUint 3) g) ∧
    (n ≠ 0 → s = r → res = .ret (errUint 2) g) ∧
    (n ≠ 0 → s ≠ r → g.host.sender ≠ some s → res = .ret (errUint 4) g) ∧
    (n ≠ 0 → s ≠ r → g.host.sender = some s → bal s < n → res = .ret (errUint 1) g) ∧
    (n ≠ 0 → s ≠ r → g.host.sender = some s → n ≤ bal s →
      ∃ g', res = .ret okTrue g' ∧ g'.host.cur.db.stx s + n = bal s ∧
        g'.host.cur.db.stx r = bal r + n ∧ (∀ q, q ≠ s → q ≠ r → g'.host.cur.db.stx q = bal q) ∧
        g' = { g with host := { g.host with cur := { g.host.cur with
          db := { g.host.cur.db with stx := g'.host.cur.db.stx },
          events := g.host.cur.events ++ [.stxTransfer s r n memo] } } }) := by
  intro bal res
  have hr' : res = stxTransfer g n s r memo := by
    simp only [res, hostFn, hs, hr, orErr, amountOf_enc hn, hmemo]
  rw [hr']
  unfold stxTransfer
  simp only [view_eq hpend]
  refine ⟨fun h => by simp [h], fun h h' => by simp [h, h'], fun h h' hb => ?_, fun h h' hb hl => ?_,
    fun h h' hb hl => ?_⟩
  · rw [if_neg h, if_neg h', if_pos (Ne.symm hb)]
  · rw [if_neg h, if_neg h', if_neg (by simp [hb]), if_pos hl]
  · have hsum := move_ok h0.1.2.1 h' hl
    have hle := hsum.le r
    simp only [upd, if_true] at hle
    have hliq := h0.1.2.2
    have hl' : ¬ g.host.cur.db.stx s < n := by simpa [bal] using hl
    rw [if_neg h, if_neg h', if_neg (by simp [hb]), if_neg hl', if_pos (by omega)]
    refine ⟨_, rfl, ?_, ?_, ?_, rfl⟩
    · simp [emit, withHost, World.pushEvent, World.setDb, upd, h', bal]; omega
    · simp [emit, withHost, World.pushEvent, World.setDb, upd, bal]
    · intro q hq hq'
      simp [emit, withHost, World.pushEvent, World.setDb, upd, hq, hq', bal]

/-- **C42.** `stx-burn?`: the documented error codes in order, and otherwise exactly the sender's
balance and the liquid supply shrink. -/
theorem C42_stx_burn {g : Store World} {so sl : BitVec 32} {s : Principal} {n : Nat}
    (hn : IsUInt n) (hs : readPrin g.mem so sl = some s)
    (h0 : AllBalanced g.host) (hpend : g.host.pending = true) :
    let bal := g.host.cur.db.stx
    let res := hostFn .stx_burn [.i64 (BitVec.ofNat 64 n), .i64 (BitVec.ofNat 64 (n / 2 ^ 64)),
      .i32 so, .i32 sl] g
    (n = 0 → res = .ret (errUint 3) g) ∧
    (n ≠ 0 → g.host.sender ≠ some s → res = .ret (errUint 4) g) ∧
    (n ≠ 0 → g.host.sender = some s → bal s < n → res = .ret (errUint 1) g) ∧
    (n ≠ 0 → g.host.sender = some s → n ≤ bal s →
      ∃ g', res = .ret okTrue g' ∧ g'.host.cur.db.stx s + n = bal s ∧
        g'.host.cur.db.liquid + n = g.host.cur.db.liquid ∧
        (∀ q, q ≠ s → g'.host.cur.db.stx q = bal q) ∧
        g' = { g with host := { g.host with cur := { g.host.cur with
          db := { g.host.cur.db with stx := g'.host.cur.db.stx, liquid := g'.host.cur.db.liquid },
          events := g.host.cur.events ++ [.stxBurn s n] } } }) := by
  intro bal res
  have hr' : res = stxBurn g n s := by
    simp only [res, hostFn, hs, orErr, amountOf_enc hn]
  rw [hr']
  unfold stxBurn
  simp only [view_eq hpend]
  refine ⟨fun h => by simp [h], fun h hb => ?_, fun h hb hl => ?_, fun h hb hl => ?_⟩
  · rw [if_neg h, if_pos (Ne.symm hb)]
  · rw [if_neg h, if_neg (by simp [hb]), if_pos hl]
  · have hle := h0.1.2.1.le s
    have hl' : ¬ g.host.cur.db.stx s < n := by simpa [bal] using hl
    rw [if_neg h, if_neg (by simp [hb]), if_neg hl', if_neg (by omega)]
    refine ⟨_, rfl, ?_, ?_, ?_, rfl⟩
    · simp [emit, withHost, World.pushEvent, World.setDb, upd, bal]; omega
    · simp [emit, withHost, World.pushEvent, World.setDb]; omega
    · intro q hq
      simp [emit, withHost, World.pushEvent, World.setDb, upd, hq, bal]

/-- The hypotheses of the theorems on STX are met by the example state: `ledgerA`, the sender, sends
700 of its 1000. -/
example : ∃ g', hostFn .stx_transfer [.i64 700#64, .i64 0#64, .i32 100#32, .i32 22#32, .i32 200#32,
    .i32 22#32, .i32 0#32, .i32 0#32] ledgerStore = .ret okTrue g' ∧
    g'.host.cur.db.stx ledgerB = 700 := by
  obtain ⟨g', h1, -, h2, -⟩ := (C42_stx_transfer (g := ledgerStore) (so := 100#32) (sl := 22#32)
    (ro := 200#32) (rl := 22#32) (mo := 0#32) (ml := 0#32) (n := 700) (memo := []) (by decide)
    ledger_A ledger_B (by decide) ledger_balanced rfl).2.2.2.2 (by decide) (by decide) rfl (by decide)
  exact ⟨g', h1, by rw [h2]; decide⟩

end Props
