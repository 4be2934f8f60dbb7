import Verif.Props.Words
import Verif.Props.Ledger

/-!
C49: the words on STX and on the fungible tokens of the contract, in a compiled contract. `Balanced` (C42) says that
balances add up to supplies, which fit 128 bits. The operands `es` are evaluated left to right.
-/

namespace Props
open Wasm Spec Host Core Gen

/-- Balances after `n` has gone from `a` to `b`. -/
def afterMove (f : Principal → Nat) (a b : Principal) (n : Nat) (p : Principal) : Nat :=
  if p = a then f a - n else if p = b then f b + n else f p

theorem moved_eq {f : Principal → Nat} {a b : Principal} (h : a ≠ b) (n : Nat) : moved f a b n = afterMove f a b n := by
  funext p
  unfold moved afterMove
  by_cases h1 : p = b
  · have : p ≠ a := fun h2 => h (h2.symm.trans h1)
    rw [if_pos h1, if_neg this, if_pos h1]
  · rw [if_neg h1]
    by_cases h2 : p = a
    · rw [if_pos h2, if_pos h2]
    · rw [if_neg h2, if_neg h2, if_neg h1]

/-- Balances after `p` has got or lost. -/
def withBal (f : Principal → Nat) (p : Principal) (n : Nat) (q : Principal) : Nat := if q = p then n else f q

theorem upd_withBal (f : Principal → Nat) (p : Principal) (n : Nat) : upd f p n = withBal f p n := by
  funext q
  unfold upd withBal
  split <;> rfl

/-- Two accounts together hold no more than there is. -/
theorem two_balances {f : Principal → Nat} {t : Nat} (h : SumsTo f t) {a b : Principal} (hab : a ≠ b) : f a + f b ≤ t := by
  have h1 := SumsTo.upd' h a 0
  have h2 := h1.le b
  have h3 := h.le a
  rw [show upd f a 0 b = f b from if_neg fun e => hab e.symm] at h2
  omega

/-- A state with another ledger and one more event. -/
def stxState (s : St) (bal : Principal → Nat) (liquid : Nat) (e : Event) : St :=
  { db := { s.db with stx := bal, liquid := liquid }, events := s.events ++ [e] }

/-- A state with another token and one more event. -/
noncomputable def ftState (s : St) (c : ContractId) (x : Name) (t : Ft) (e : Event) : St :=
  { db := { s.db with ft := upd₂ s.db.ft c x t }, events := s.events ++ [e] }

section
variable (K : Ctx) (M : Wasm.Mod World) (hC : ContractOk K) (hL : Linked K M) (k : Nat) (R : Ty) (er : Bool)
  (Δ : TEnv) (ρ : Env) (c : Cx) (s s1 : St) (es : Exprs)

include hC hL

theorem token_leaves {wr : Bool} (hte : wts K k wr R es er Δ) {vs : List Value}
    (he : evals (sem K.fns k) es ρ c s = .val vs s1) {q : TWord} {U : Ty} (ht : tokenTy K wr q (Gen.tys es) U) {v : Value} {s2 : St}
    (hv : q.run vs c s1 = .val v s2) : Leaves K M k R wr Δ (.token q es) U ρ c s v s2 :=
  leaves hC hL (er := er) (by simp only [wt]; exact ⟨hte, ht⟩) (by simp only [eval, he, Out.bind, hv])

/-- What a transfer of `n` micro-STX from `a` to `b` does: `L v s'` says that the code leaves the value `v` in the state
`s'`. -/
def StxMoves (c : Cx) (s1 : St) (n : Nat) (a b : Principal) (memo : List Byte) (L : Value → St → Prop) : Prop :=
  (n = 0 → L (.err (.uint 3)) s1) ∧
  (0 < n → a = b → L (.err (.uint 2)) s1) ∧
  (0 < n → a ≠ b → a ≠ c.sender → L (.err (.uint 4)) s1) ∧
  (0 < n → a ≠ b → a = c.sender → s1.db.stx a < n → L (.err (.uint 1)) s1) ∧
  (0 < n → a ≠ b → a = c.sender → n ≤ s1.db.stx a →
    L (.ok (.bool true)) (stxState s1 (afterMove s1.db.stx a b n) s1.db.liquid (.stxTransfer a b n memo)))

omit hC hL in
theorem stx_moves {c : Cx} {s1 : St} {n : Nat} {a b : Principal} {memo : List Byte} {L : Value → St → Prop}
    (hb : Balanced s1.db) (h : ∀ v s2, stxMove n a b memo c s1 = .val v s2 → L v s2) : StxMoves c s1 n a b memo L := by
  refine ⟨fun h0 => ?_, fun h0 h1 => ?_, fun h0 h1 h2 => ?_, fun h0 h1 h2 h3 => ?_, fun h0 h1 h2 h3 => ?_⟩ <;>
    refine h _ _ ?_ <;> unfold stxMove
  · rw [if_pos h0]; rfl
  · rw [if_neg (by omega), if_pos h1]; rfl
  · rw [if_neg (by omega), if_neg h1, if_pos h2]; rfl
  · rw [if_neg (by omega), if_neg h1, if_neg (fun h => h h2), if_pos h3]; rfl
  · have h4 : s1.db.stx b + n < 2 ^ 128 := by
      have := two_balances hb.2.1 h1
      have := hb.2.2
      omega
    rw [if_neg (by omega), if_neg h1, if_neg (fun h => h h2), if_neg (by omega), if_pos h4, moved_eq h1]
    rfl

/-- **C49**, `(stx-transfer? n a b)`. -/
theorem C49_stx_transfer (hte : wts K k true R es er Δ) (hty : Gen.tys es = [.uint, .principal, .principal])
    (n : Nat) (a b : Principal) (he : evals (sem K.fns k) es ρ c s = .val [.uint n, .principal a, .principal b] s1)
    (hb : Balanced s1.db) :
    StxMoves c s1 n a b [] (Leaves K M k R true Δ (.token .stxTransfer es) (.resp .bool .uint) ρ c s) :=
  stx_moves hb fun v s2 h => token_leaves (q := .stxTransfer) (U := .resp .bool .uint) K M hC hL k R er Δ ρ c s s1 es hte he ⟨rfl, hty, rfl⟩ (by
    simp only [TWord.run]; exact h)

/-- **C49**, `(stx-transfer-memo? n a b memo)`: the same, and the event carries the memo. -/
theorem C49_stx_transfer_memo (hte : wts K k true R es er Δ) (m : Nat) (hm : m ≤ 34)
    (hty : Gen.tys es = [.uint, .principal, .principal, .buff m]) (n : Nat) (a b : Principal) (memo : List Byte)
    (he : evals (sem K.fns k) es ρ c s = .val [.uint n, .principal a, .principal b, .buff memo] s1) (hb : Balanced s1.db) :
    StxMoves c s1 n a b memo (Leaves K M k R true Δ (.token .stxMemo es) (.resp .bool .uint) ρ c s) :=
  stx_moves hb fun v s2 h => token_leaves (q := .stxMemo) (U := .resp .bool .uint) K M hC hL k R er Δ ρ c s s1 es hte he ⟨rfl, ⟨m, hm, hty⟩, rfl⟩ (by
    simp only [TWord.run]; exact h)

/-- **C49**, `(stx-burn? n a)`: what is burnt also leaves the liquid supply. -/
theorem C49_stx_burn (hte : wts K k true R es er Δ) (hty : Gen.tys es = [.uint, .principal])
    (n : Nat) (a : Principal) (he : evals (sem K.fns k) es ρ c s = .val [.uint n, .principal a] s1) (hb : Balanced s1.db) :
    let L := Leaves K M k R true Δ (.token .stxBurn es) (.resp .bool .uint) ρ c s
    (n = 0 → L (.err (.uint 3)) s1) ∧
    (0 < n → a ≠ c.sender → L (.err (.uint 4)) s1) ∧
    (0 < n → a = c.sender → s1.db.stx a < n → L (.err (.uint 1)) s1) ∧
    (0 < n → a = c.sender → n ≤ s1.db.stx a →
      L (.ok (.bool true)) (stxState s1 (withBal s1.db.stx a (s1.db.stx a - n)) (s1.db.liquid - n) (.stxBurn a n))) := by
  have h : ∀ v s2, TWord.stxBurn.run [.uint n, .principal a] c s1 = .val v s2 →
      Leaves K M k R true Δ (.token .stxBurn es) (.resp .bool .uint) ρ c s v s2 :=
    fun v s2 h => token_leaves (q := .stxBurn) (U := .resp .bool .uint) K M hC hL k R er Δ ρ c s s1 es hte he ⟨rfl, hty, rfl⟩ h
  refine ⟨fun h0 => ?_, fun h0 h2 => ?_, fun h0 h2 h3 => ?_, fun h0 h2 h3 => ?_⟩ <;>
    refine h _ _ ?_ <;> simp only [TWord.run]
  · rw [if_pos h0]; rfl
  · rw [if_neg (by omega), if_pos h2]; rfl
  · rw [if_neg (by omega), if_neg (fun h => h h2), if_pos h3]; rfl
  · have h4 : ¬ s1.db.liquid < n := by
      have := hb.2.1.le a
      omega
    rw [if_neg (by omega), if_neg (fun h => h h2), if_neg (by omega), if_neg h4, upd_withBal]
    rfl

/-- **C49**, `(ft-mint? x n p)`. Missing: that the call aborts when the new supply is above the maximum or above 128 bits. -/
theorem C49_ft_mint_partial (x : Name) (hx : tokenIn K x) (hte : wts K k true R es er Δ) (hty : Gen.tys es = [.uint, .principal])
    (n : Nat) (p : Principal) (he : evals (sem K.fns k) es ρ c s = .val [.uint n, .principal p] s1) (hb : Balanced s1.db)
    (t : Ft) (ht : s1.db.ft c.self x = some t) :
    let L := Leaves K M k R true Δ (.token (.ftMint x) es) (.resp .bool .uint) ρ c s
    (n = 0 → L (.err (.uint 1)) s1) ∧
    (0 < n → t.supply + n < 2 ^ 128 → (∀ m, t.cap = some m → t.supply + n ≤ m) →
      L (.ok (.bool true)) (ftState s1 c.self x
        { t with supply := t.supply + n, bal := withBal t.bal p (t.bal p + n) } (.ftMint c.self x p n))) := by
  have h : ∀ v s2, (TWord.ftMint x).run [.uint n, .principal p] c s1 = .val v s2 →
      Leaves K M k R true Δ (.token (.ftMint x) es) (.resp .bool .uint) ρ c s v s2 :=
    fun v s2 h => token_leaves (q := (.ftMint x)) (U := .resp .bool .uint) K M hC hL k R er Δ ρ c s s1 es hte he ⟨hx, rfl, hty, rfl⟩ h
  refine ⟨fun h0 => ?_, fun h0 h2 h3 => ?_⟩ <;> refine h _ _ ?_ <;> simp only [TWord.run, ht]
  · rw [if_pos h0]; rfl
  · have h4 : t.bal p + n < 2 ^ 128 := by
      have := (hb.1 _ _ _ ht).1.le p
      omega
    rw [if_neg (by omega), if_pos ⟨h2, h3, h4⟩, upd_withBal]
    rfl

/-- **C49**, `(ft-burn? x n p)`. -/
theorem C49_ft_burn (x : Name) (hx : tokenIn K x) (hte : wts K k true R es er Δ) (hty : Gen.tys es = [.uint, .principal])
    (n : Nat) (p : Principal) (he : evals (sem K.fns k) es ρ c s = .val [.uint n, .principal p] s1) (hb : Balanced s1.db)
    (t : Ft) (ht : s1.db.ft c.self x = some t) :
    let L := Leaves K M k R true Δ (.token (.ftBurn x) es) (.resp .bool .uint) ρ c s
    (n = 0 ∨ t.bal p < n → L (.err (.uint 1)) s1) ∧
    (0 < n → n ≤ t.bal p → L (.ok (.bool true)) (ftState s1 c.self x
        { t with supply := t.supply - n, bal := withBal t.bal p (t.bal p - n) } (.ftBurn c.self x p n))) := by
  have h : ∀ v s2, (TWord.ftBurn x).run [.uint n, .principal p] c s1 = .val v s2 →
      Leaves K M k R true Δ (.token (.ftBurn x) es) (.resp .bool .uint) ρ c s v s2 :=
    fun v s2 h => token_leaves (q := (.ftBurn x)) (U := .resp .bool .uint) K M hC hL k R er Δ ρ c s s1 es hte he ⟨hx, rfl, hty, rfl⟩ h
  refine ⟨fun h0 => ?_, fun h0 h2 => ?_⟩ <;> refine h _ _ ?_ <;> simp only [TWord.run, ht]
  · by_cases h1 : n = 0
    · rw [if_pos h1]; rfl
    · rw [if_neg h1, if_pos (by omega)]; rfl
  · have h4 := (hb.1 _ _ _ ht).1.le p
    rw [if_neg (by omega), if_neg (by omega), if_neg (by omega), upd_withBal]
    rfl

/-- **C49**, `(ft-transfer? x n a b)`. -/
theorem C49_ft_transfer (x : Name) (hx : tokenIn K x) (hte : wts K k true R es er Δ)
    (hty : Gen.tys es = [.uint, .principal, .principal]) (n : Nat) (a b : Principal)
    (he : evals (sem K.fns k) es ρ c s = .val [.uint n, .principal a, .principal b] s1) (hb : Balanced s1.db)
    (t : Ft) (ht : s1.db.ft c.self x = some t) :
    let L := Leaves K M k R true Δ (.token (.ftTransfer x) es) (.resp .bool .uint) ρ c s
    (n = 0 → L (.err (.uint 3)) s1) ∧
    (0 < n → a = b → L (.err (.uint 2)) s1) ∧
    (0 < n → a ≠ b → t.bal a < n → L (.err (.uint 1)) s1) ∧
    (0 < n → a ≠ b → n ≤ t.bal a → L (.ok (.bool true)) (ftState s1 c.self x
        { t with bal := afterMove t.bal a b n } (.ftTransfer c.self x a b n))) := by
  have h : ∀ v s2, (TWord.ftTransfer x).run [.uint n, .principal a, .principal b] c s1 = .val v s2 →
      Leaves K M k R true Δ (.token (.ftTransfer x) es) (.resp .bool .uint) ρ c s v s2 :=
    fun v s2 h => token_leaves (q := (.ftTransfer x)) (U := .resp .bool .uint) K M hC hL k R er Δ ρ c s s1 es hte he ⟨hx, rfl, hty, rfl⟩ h
  refine ⟨fun h0 => ?_, fun h0 h1 => ?_, fun h0 h1 h3 => ?_, fun h0 h1 h3 => ?_⟩ <;>
    refine h _ _ ?_ <;> simp only [TWord.run, ht]
  · rw [if_pos h0]; rfl
  · rw [if_neg (by omega), if_pos h1]; rfl
  · rw [if_neg (by omega), if_neg h1, if_pos h3]; rfl
  · have h4 : t.bal b + n < 2 ^ 128 := by
      obtain ⟨h5, h6, -⟩ := hb.1 _ _ _ ht
      have := two_balances h5 h1
      omega
    rw [if_neg (by omega), if_neg h1, if_neg (by omega), if_pos h4, moved_eq h1]
    rfl

/-- **C49**, `(ft-get-supply x)` and `(ft-get-balance x p)`. -/
theorem C49_ft_reads (wr : Bool) (x : Name) (hx : tokenIn K x) (t : Ft) :
    (s.db.ft c.self x = some t → Leaves K M k R wr Δ (.token (.ftSupply x) .nil) .uint ρ c s (.uint t.supply) s) ∧
    (∀ (e : Expr) (p : Principal), wt K k wr R e er Δ .principal → eval (sem K.fns k) e ρ c s = .val (.principal p) s1 →
      s1.db.ft c.self x = some t →
      Leaves K M k R wr Δ (.token (.ftBalance x) (.cons .principal e .nil)) .uint ρ c s (.uint (t.bal p)) s1) := by
  refine ⟨fun ht => ?_, fun e p hte he ht => ?_⟩
  · exact token_leaves (q := .ftSupply x) (U := .uint) (vs := []) K M hC hL k R er Δ ρ c s s .nil (by simp [wts]) (by simp only [evals]) ⟨hx, rfl, rfl⟩ (by
      simp only [TWord.run, ht])
  · exact token_leaves (q := .ftBalance x) (U := .uint) (vs := [.principal p]) K M hC hL k R er Δ ρ c s s1 _ (by simp only [wts]; exact ⟨hte, trivial⟩)
      (by simp only [evals, he, Out.bind]) ⟨hx, rfl, rfl⟩ (by simp only [TWord.run, ht])

/-- **C49**, `(stx-get-balance p)`. -/
theorem C49_stx_get_balance (wr : Bool) (e : Expr) (p : Principal) (hte : wt K k wr R e er Δ .principal)
    (he : eval (sem K.fns k) e ρ c s = .val (.principal p) s1) (hb : Balanced s1.db) :
    Leaves K M k R wr Δ (.token .stxBalance (.cons .principal e .nil)) .uint ρ c s (.uint (s1.db.stx p)) s1 :=
  token_leaves (q := .stxBalance) (U := .uint) (vs := [.principal p]) K M hC hL k R er Δ ρ c s s1 _ (by simp only [wts]; exact ⟨hte, trivial⟩)
    (by simp only [evals, he, Out.bind]) ⟨rfl, rfl⟩ (by
      have h1 := hb.2.1.le p
      have h2 := hb.2.2
      simp only [TWord.run]
      rw [if_pos (by omega)])

end

/-! ### A contract with these words -/

/-- `t` -/
def tkT : Name := [116#8]
/-- `p` -/
def tkP : Name := [112#8]

/-- `(define-public (buy (n uint) (p principal)) (begin (try! (stx-transfer? n tx-sender p)) (ft-mint? t n tx-sender)))` -/
def tkBuy : FunDef := ⟨[(cxN, .uint), (tkP, .principal)], .resp .bool .uint, .pub, true,
  .begin_ (.cons .bool (.tryResp .uint (.token .stxTransfer
      (.cons .uint (.var cxN) (.cons .principal .txSender (.cons .principal (.var tkP) .nil)))))
    (.cons (.resp .bool .uint) (.token (.ftMint tkT) (.cons .uint (.var cxN) (.cons .principal .txSender .nil))) .nil))⟩

/-- The contract; it has `(define-fungible-token t)`, the name of which is at address 0. -/
def tkK : Ctx where
  fns := [tkBuy]
  off _ := 0
  lits := [tkT]
  vars _ := none
  maps _ := none
  fts x := x = tkT

theorem tk_ok : ContractOk tkK where
  fns k f h := by
    match k, h with
    | 0, h =>
      obtain rfl : tkBuy = f := Option.some.inj h
      refine ⟨?_, by simp [tkBuy, cxN, tkP], by simp [tkBuy], by simp [tkBuy]⟩
      simp [tkBuy, wt, wts, wtSeq, Gen.tys, look, Fit.refl, tokenTy, tokenIn, tkK, tkT, tkP, cxN]
      decide
    | k + 1, h => simp [tkK] at h
  vars x T h := by simp [tkK] at h
  maps x D V h := by simp [tkK] at h

/-- The state before: `ledgerA` has 1000 micro-STX, nobody has tokens. -/
noncomputable def tkSt : St where
  db := { ledgerDb with ft := fun c x => if c = ledgerC ∧ x = tkT then some ⟨none, 0, fun _ => 0⟩ else none }
  events := []

noncomputable def tkStore : Store World :=
  { (withHost ledgerStore (put ledgerStore.host tkSt)) with g32 := fun _ => 1000#32 }

theorem tk_balanced : Balanced tkSt.db := by
  refine ⟨?_, ⟨[ledgerA], by simp, ?_, by simp [tkSt, ledgerDb]⟩, by decide⟩
  · intro c nm t h
    simp only [tkSt] at h
    split at h
    · cases h
      exact ⟨⟨[], by simp, by simp, rfl⟩, by simp, by simp⟩
    · cases h
  · intro p hp
    simp only [List.mem_singleton] at hp
    simp [tkSt, ledgerDb, hp]

/-- The state after `(buy u7 'ledgerB)`. -/
noncomputable def tkAfter : St :=
  { db := { tkSt.db with
      stx := fun p => if p = ledgerA then 993 else if p = ledgerB then 7 else 0
      ft := fun c x => if c = ledgerC ∧ x = tkT then some ⟨none, 7, fun p => if p = ledgerA then 7 else 0⟩ else none }
    events := [.stxTransfer ledgerA ledgerB 7 [], .ftMint ledgerC tkT ledgerA 7] }

theorem tk_run : tkBuy.run (sem tkK.fns 0) [.uint 7, .principal ledgerB] cxCx tkSt = .val (.ok (.bool true)) tkAfter := by
  have hab : ledgerA ≠ ledgerB := by decide
  simp only [tkBuy, FunDef.run, eval, evals, evalSeq, Out.bind, Out.body, TWord.run, stxMove, cxCx]
  simp [hab, Env.get, cxN, tkP]
  have h1 : tkSt.db.stx ledgerA = 1000 := by simp [tkSt, ledgerDb]
  have h2 : tkSt.db.stx ledgerB = 0 := by simp [tkSt, ledgerDb, hab.symm]
  rw [h1, h2, if_neg (by decide), if_pos (by decide)]
  have h3 : ((tkSt.setStx (moved tkSt.db.stx ledgerA ledgerB 7) tkSt.db.liquid).emit
      (.stxTransfer ledgerA ledgerB 7 [])).db.ft ledgerC tkT = some ⟨none, 0, fun _ => 0⟩ := by
    simp [tkSt, St.setStx, St.emit]
  simp only [h3]
  rw [if_pos (by simp)]
  simp only [Out.val.injEq, true_and]
  simp only [St.setFt, St.setStx, St.emit, tkAfter, tkSt, St.mk.injEq, Db.mk.injEq, List.nil_append, List.cons_append,
    and_true, true_and, ledgerDb]
  refine ⟨?_, ?_⟩
  · funext c x
    simp only [upd₂]
    split
    · rw [upd_withBal]
      rfl
    · rfl
  · funext p
    simp only [moved, if_neg hab.symm]
    by_cases ha : p = ledgerA
    · simp [ha, hab]
    · by_cases hb : p = ledgerB <;> simp [ha, hb, hab.symm]

theorem tk_lits : LitOk tkK tkStore.mem (below (sp tkStore)) := by
  intro bs h
  obtain rfl : bs = tkT := by simpa [tkK] using h
  exact ⟨⟨by decide +kernel, fun _ _ _ h => h⟩, by decide +kernel⟩

/-- `(buy u7 'ledgerB)` by `ledgerA` moves 7 micro-STX to `ledgerB` and mints 7 tokens for `ledgerA`. -/
example (sig : List Byte → Option Ty) (a : Reply) :
    Calls sig (moduleOf tkK) 0 (.resp .bool .uint) [(.uint, .uint 7), (.principal, .principal ledgerB)] tkStore a ↔
      a = .value (.ok (.bool true)) (put ledgerStore.host tkAfter) := by
  have h := C46_call_from_outside_partial sig tkK (moduleOf tkK) tk_ok (linked_moduleOf tkK) 0 tkBuy rfl cxCx ledgerStore.host tkSt tkStore
    [.uint 7, .principal ledgerB] {
    cx := { cx_ready.cx with writable := fun _ => rfl }
    host := rfl
    st := ⟨fun x T h => by simp [tkK] at h, fun x D V h => by simp [tkK] at h, fun x h => by
      obtain rfl : x = tkT := by simpa [tkK] using h
      exact ⟨⟨none, 0, fun _ => 0⟩, by simp [tkSt, ledgerStore], by decide, fun _ => Nat.pow_pos (by decide)⟩⟩
    lits := tk_lits
    count := rfl
    typed := by
      intro a h
      simp only [passed, tkBuy, List.map_cons, List.map_nil, List.zip_cons_cons, List.zip_nil_left, List.mem_cons,
        List.not_mem_nil, or_false] at h
      rcases h with rfl | rfl
      · simp [Ty.WF, ArgTy, HasType, IsUInt]
      · simp only [Ty.WF, ArgTy, HasType]
        exact ⟨trivial, trivial, by decide, by decide⟩
    ret := by simp [tkBuy, Ty.WF, ArgTy]
    room := by decide +kernel
    small := by decide }
  rw [tk_run] at h
  exact h a

end Props
