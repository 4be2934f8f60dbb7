import Verif.Spec.Ledger
import Verif.Host.World

/-! Ledger invariants of the host functions. -/

namespace Spec

theorem SumsTo.mem {bal : Principal → Nat} {n : Nat} (h : SumsTo bal n) (p : Principal) :
    ∃ ps : List Principal, (p :: ps).Nodup ∧ (∀ q, q ∉ p :: ps → bal q = 0) ∧
      bal p + (ps.map bal).sum = n := by
  obtain ⟨ps, hn, hz, hs⟩ := h
  by_cases hp : p ∈ ps
  · refine ⟨ps.erase p, ?_, ?_, ?_⟩
    · exact (List.perm_cons_erase hp).nodup_iff.1 hn
    · intro q hq
      apply hz
      intro hq'
      exact hq ((List.perm_cons_erase hp).mem_iff.1 hq')
    · have := ((List.perm_cons_erase hp).map bal).sum_nat
      rw [← hs, this]; simp
  · refine ⟨ps, List.nodup_cons.2 ⟨hp, hn⟩, ?_, ?_⟩
    · intro q hq
      exact hz q fun h => hq (List.mem_cons_of_mem _ h)
    · rw [hz p hp, hs]; simp

theorem SumsTo.le {bal : Principal → Nat} {n : Nat} (h : SumsTo bal n) (p : Principal) :
    bal p ≤ n := by
  obtain ⟨ps, _, _, hs⟩ := h.mem p
  omega

theorem SumsTo.upd {bal bal' : Principal → Nat} {n : Nat} (h : SumsTo bal n) (p : Principal) (x : Nat)
    (hp : bal' p = x) (hq : ∀ q, q ≠ p → bal' q = bal q) : SumsTo bal' (n - bal p + x) := by
  obtain ⟨ps, hn, hz, hs⟩ := h.mem p
  refine ⟨p :: ps, hn, ?_, ?_⟩
  · intro q hq'
    rw [hq q (by intro h; exact hq' (by simp [h])), hz q hq']
  · have : ps.map bal' = ps.map bal := by
      apply List.map_congr_left
      intro q hq'
      apply hq
      intro h
      exact (List.nodup_cons.1 hn).1 (h ▸ hq')
    simp [this, hp]; omega

/-- The sum is unique. -/
theorem SumsTo.unique {bal : Principal → Nat} {n m : Nat} (h : SumsTo bal n) (h' : SumsTo bal m) :
    n = m := by
  obtain ⟨ps, hn, hz, hs⟩ := h
  induction ps generalizing bal n m with
  | nil =>
    obtain ⟨qs, _, _, hs'⟩ := h'
    have : (qs.map bal).sum = 0 := by
      have : qs.map bal = qs.map fun _ => 0 := List.map_congr_left fun q _ => hz q (by simp)
      rw [this]
      clear hs'
      induction qs <;> simp_all
    simp at hs
    omega
  | cons p ps ih =>
    have hle := SumsTo.le ⟨_, hn, hz, hs⟩ p
    have hle' := h'.le p
    let bal' : Principal → Nat := fun q => if q = p then 0 else bal q
    have h1 : SumsTo bal' (m - bal p + 0) := h'.upd p 0 (by simp [bal']) (by
      intro q hq; simp [bal', hq])
    have hps : ps.map bal' = ps.map bal := by
      apply List.map_congr_left
      intro q hq
      have : q ≠ p := fun h => (List.nodup_cons.1 hn).1 (h ▸ hq)
      simp [bal', this]
    have := ih (bal := bal') (n := n - bal p) (m := m - bal p + 0) h1 (List.nodup_cons.1 hn).2 (by
      intro q hq
      by_cases h : q = p
      · simp [bal', h]
      · simp only [bal', h, if_false]
        exact hz q (by simp [h, hq])) (by rw [hps]; simp at hs; omega)
    omega

end Spec

namespace Host
open Wasm Spec Classical

/-- Ledger invariant of a datastore. -/
def DbOk (db : Db) : Prop :=
  (∀ c nm t, db.ft c nm = some t → SumsTo t.bal t.supply ∧ t.supply < 2 ^ 128 ∧
    ∀ m, t.cap = some m → t.supply ≤ m) ∧
  SumsTo db.stx db.liquid ∧ db.liquid < 2 ^ 128

theorem upd₂_some {α β γ : Type} {f : α → β → Option γ} {a a' : α} {b b' : β} {x y : γ}
    (h : upd₂ f a b x a' b' = some y) : (a' = a ∧ b' = b ∧ y = x) ∨ f a' b' = some y := by
  unfold upd₂ at h
  split at h
  · rename_i h'; cases h; exact .inl ⟨h'.1, h'.2, rfl⟩
  · exact .inr h

theorem SumsTo.upd' {bal : Principal → Nat} {n : Nat} (h : SumsTo bal n) (p : Principal) (x : Nat) :
    SumsTo (Host.upd bal p x) (n - bal p + x) :=
  h.upd p x (by simp [Host.upd]) (by intro q hq; simp [Host.upd, hq])

theorem DbOk.setFt {db : Db} (h : DbOk db) (c : ContractId) (nm : Name) (t : Ft)
    (h1 : SumsTo t.bal t.supply) (h2 : t.supply < 2 ^ 128)
    (h3 : ∀ m, t.cap = some m → t.supply ≤ m) :
    DbOk { db with ft := upd₂ db.ft c nm t } := by
  refine ⟨?_, h.2⟩
  intro c' nm' t' ht
  rcases upd₂_some ht with ⟨_, _, rfl⟩ | ht
  · exact ⟨h1, h2, h3⟩
  · exact h.1 _ _ _ ht

/-- All levels of the host state satisfy `P`. -/
def LevelsOk (P : Db → Prop) (w : World) : Prop :=
  P w.cur.db ∧ (∀ l ∈ w.saved, P l.db)

/-- Ledger invariant of the host state. -/
abbrev LedgerOk (w : World) : Prop := LevelsOk DbOk w

/-- The store after a host call, whatever its outcome. -/
def _root_.Wasm.HRes.store {σ : Type} : HRes σ → Store σ
  | .ret _ g => g
  | .err g => g

theorem orErr_inv {α : Type} {g : Store World} {o : Option α} {k : α → HRes World}
    {P : HRes World → Prop} (h0 : P (.err g)) (h : ∀ a, o = some a → P (k a)) :
    P (orErr g o k) := by
  unfold orErr; split <;> simp_all

theorem LevelsOk.of_db {P : Db → Prop} {w w' : World} (h : LevelsOk P w) (hc : w'.cur.db = w.cur.db)
    (hs : w'.saved = w.saved) : LevelsOk P w' := by
  unfold LevelsOk at *; rw [hc, hs]; exact h

theorem view_eq {w : World} (h : w.pending = true) : w.view = w.cur.db := by
  simp [World.view, h]

/-- What the steps of a history are allowed to do (guaranteed by the type checker): writes happen
outside of `at-block`, and a token is defined once. -/
def Allowed (f : HostFn) (args : List Val) (g : Store World) : Prop :=
  (f ∈ [HostFn.ft_mint, .ft_burn, .ft_transfer, .stx_burn, .stx_transfer] → g.host.pending = true) ∧
  (f = .define_ft → ∀ no nl ind lo hi nm, args = [.i32 no, .i32 nl, .i32 ind, .i64 lo, .i64 hi] →
    readClarityName g.mem no nl = some nm → g.host.cur.db.ft g.host.contract nm = none)

theorem LedgerOk.setFt {g : Store World} (h : LedgerOk g.host) (nm : Name) (t : Ft)
    (h1 : SumsTo t.bal t.supply) (h2 : t.supply < 2 ^ 128)
    (h3 : ∀ m, t.cap = some m → t.supply ≤ m) : LedgerOk (Host.setFt g nm t).host :=
  ⟨h.1.setFt _ _ _ h1 h2 h3, h.2⟩

theorem LevelsOk.emit {P : Db → Prop} {g : Store World} {e : Event} (h : LevelsOk P g.host) :
    LevelsOk P (Host.emit g e).host := h.of_db rfl rfl

theorem ftMint_ok {g : Store World} {nm n to_} (h : LedgerOk g.host) (hp : g.host.pending = true) :
    LedgerOk (ftMint g nm n to_).store.host ∧ ∀ g', ftMint g nm n to_ = .err g' → g' = g := by
  unfold ftMint
  split
  · exact ⟨h, by simp⟩
  split
  · exact ⟨h, by simp⟩
  · rename_i t ht
    rw [view_eq hp] at ht
    obtain ⟨h1, h2, h3⟩ := h.1.1 _ _ _ ht
    have hle := h1.le to_
    split
    · rename_i hs
      obtain ⟨hs1, hs2⟩ := hs
      split
      · refine ⟨(h.setFt nm _ ?_ hs1 hs2).emit, by simp⟩
        have := SumsTo.upd' h1 to_ (t.bal to_ + n)
        rwa [show t.supply - t.bal to_ + (t.bal to_ + n) = t.supply + n by omega] at this
      · omega
    · exact ⟨h, by simp⟩

theorem ftBurn_ok {g : Store World} {nm n p} (h : LedgerOk g.host) (hp : g.host.pending = true) :
    LedgerOk (ftBurn g nm n p).store.host ∧ ∀ g', ftBurn g nm n p = .err g' → g' = g := by
  unfold ftBurn
  split
  · exact ⟨h, by simp⟩
  split
  · exact ⟨h, by simp⟩
  · rename_i t ht
    rw [view_eq hp] at ht
    obtain ⟨h1, h2, h3⟩ := h.1.1 _ _ _ ht
    have hle := h1.le p
    split
    · exact ⟨h, by simp⟩
    split
    · exact ⟨h, by simp⟩
    refine ⟨(h.setFt nm _ ?_ (by simp only; omega) ?_).emit, by simp⟩
    · have := SumsTo.upd' h1 p (t.bal p - n)
      rwa [show t.supply - t.bal p + (t.bal p - n) = t.supply - n by omega] at this
    · intro m hm
      have := h3 m hm
      simp only; omega

theorem move_ok {bal : Principal → Nat} {s n : Nat} {p q : Principal} (h : SumsTo bal s)
    (hpq : p ≠ q) (hn : n ≤ bal p) :
    SumsTo (upd (upd bal p (bal p - n)) q (bal q + n)) s := by
  have h1 := SumsTo.upd' h p (bal p - n)
  have hle := h.le p
  have hq : upd bal p (bal p - n) q = bal q := by simp [upd, Ne.symm hpq]
  have hle2 := h1.le q
  have h2 := SumsTo.upd' h1 q (bal q + n)
  rw [hq] at h2 hle2
  rwa [show s - bal p + (bal p - n) - bal q + (bal q + n) = s by omega] at h2

theorem ftTransfer_ok {g : Store World} {nm n p q} (h : LedgerOk g.host)
    (hp : g.host.pending = true) :
    LedgerOk (ftTransfer g nm n p q).store.host ∧
      ∀ g', ftTransfer g nm n p q = .err g' → g' = g := by
  unfold ftTransfer
  split
  · exact ⟨h, by simp⟩
  split
  · exact ⟨h, by simp⟩
  split
  · exact ⟨h, by simp⟩
  · rename_i hne _ t ht
    rw [view_eq hp] at ht
    obtain ⟨h1, h2, h3⟩ := h.1.1 _ _ _ ht
    split
    · exact ⟨h, by simp⟩
    split
    · have hm := move_ok (n := n) h1 hne (by omega)
      exact ⟨(h.setFt nm { t with bal := upd (upd t.bal p (t.bal p - n)) q (t.bal q + n) }
        hm h2 h3).emit, by simp⟩
    · exact ⟨h, by simp⟩

theorem stxTransfer_ok {g : Store World} {n p q memo} (h : LedgerOk g.host)
    (hp : g.host.pending = true) :
    LedgerOk (stxTransfer g n p q memo).store.host ∧
      ∀ g', stxTransfer g n p q memo = .err g' → g' = g := by
  unfold stxTransfer
  split
  · exact ⟨h, by simp⟩
  split
  · exact ⟨h, by simp⟩
  rename_i hne
  split
  · exact ⟨h, by simp⟩
  simp only [view_eq hp]
  split
  · exact ⟨h, by simp⟩
  split
  · refine ⟨?_, by simp⟩
    apply LevelsOk.emit
    exact ⟨⟨h.1.1, move_ok h.1.2.1 hne (by omega), h.1.2.2⟩, h.2⟩
  · exact ⟨h, by simp⟩

theorem stxBurn_ok {g : Store World} {n p} (h : LedgerOk g.host) (hp : g.host.pending = true) :
    LedgerOk (stxBurn g n p).store.host ∧ ∀ g', stxBurn g n p = .err g' → g' = g := by
  unfold stxBurn
  split
  · exact ⟨h, by simp⟩
  split
  · exact ⟨h, by simp⟩
  simp only [view_eq hp]
  split
  · exact ⟨h, by simp⟩
  split
  · exact ⟨h, by simp⟩
  refine ⟨?_, by simp⟩
  apply LevelsOk.emit
  have hle := h.1.2.1.le p
  have := SumsTo.upd' h.1.2.1 p (g.host.cur.db.stx p - n)
  rw [show g.host.cur.db.liquid - g.host.cur.db.stx p + (g.host.cur.db.stx p - n) =
    g.host.cur.db.liquid - n by omega] at this
  exact ⟨⟨h.1.1, this, by have := h.1.2.2; simp only [withHost, World.setDb]; omega⟩, h.2⟩

theorem saved_cons_ok {P : Db → Prop} {w : World} {l : Level} {ls : List Level} (h : LevelsOk P w)
    (hs : w.saved = l :: ls) : P l.db ∧ ∀ x ∈ ls, P x.db := by
  have := h.2
  rw [hs] at this
  exact ⟨this _ (by simp), fun x hx => this _ (by simp [hx])⟩

theorem rollBack_ok {P : Db → Prop} {w w' : World} (h : LevelsOk P w) (hw : w.rollBack = some w') : LevelsOk P w' := by
  unfold World.rollBack at hw
  split at hw
  · cases hw
  · rename_i s ss hs
    cases hw
    exact saved_cons_ok h hs

theorem commit_ok {P : Db → Prop} {w w' : World} (h : LevelsOk P w) (hw : w.commit = some w') : LevelsOk P w' := by
  unfold World.commit at hw
  split at hw
  · cases hw
  · rename_i s ss hs
    cases hw
    exact ⟨h.1, (saved_cons_ok h hs).2⟩

theorem begin_ok {P : Db → Prop} {w : World} (h : LevelsOk P w) : LevelsOk P w.begin_ :=
  ⟨h.1, by
    intro l hl; simp [World.begin_] at hl; rcases hl with rfl | hl
    · exact h.1
    · exact h.2 l hl⟩

theorem beginReadOnly_ok {P : Db → Prop} {w : World} (h : LevelsOk P w) : LevelsOk P w.beginReadOnly :=
  ⟨h.1, by
    intro l hl; simp [World.beginReadOnly] at hl; rcases hl with rfl | hl
    · exact h.1
    · exact h.2 l hl⟩

theorem setBlockHash_eq {w w' : World} {b p b'} (h : w.setBlockHash b p = some (w', b')) :
    w' = { w with tip := b, pending := p } ∧ b' = w.tip := by
  unfold World.setBlockHash at h
  split at h <;> simp at h
  exact ⟨h.1.symm, h.2.symm⟩

theorem pushSender_db (w : World) (p) : (w.pushSender p).cur = w.cur ∧
    (w.pushSender p).saved = w.saved := by
  unfold World.pushSender; split <;> simp
theorem pushCaller_db (w : World) (p) : (w.pushCaller p).cur = w.cur ∧
    (w.pushCaller p).saved = w.saved := by
  unfold World.pushCaller; split <;> simp
theorem popSender_db {w w' : World} (h : w.popSender = some w') : w'.cur = w.cur ∧
    w'.saved = w.saved := by
  unfold World.popSender at h; split at h <;> simp at h; subst h; simp
theorem popCaller_db {w w' : World} (h : w.popCaller = some w') : w'.cur = w.cur ∧
    w'.saved = w.saved := by
  unfold World.popCaller at h; split at h <;> simp at h; subst h; simp

/-- `P` only depends on the fungible tokens and STX. -/
def Local (P : Db → Prop) : Prop :=
  ∀ db db' : Db, db'.ft = db.ft → db'.stx = db.stx → db'.liquid = db.liquid → P db → P db'

theorem LevelsOk.setDb {P : Db → Prop} (hP : Local P) {w : World} {db : Db} (h : LevelsOk P w)
    (h1 : db.ft = w.cur.db.ft) (h2 : db.stx = w.cur.db.stx) (h3 : db.liquid = w.cur.db.liquid) :
    LevelsOk P (w.setDb db) :=
  ⟨hP _ _ h1 h2 h3 h.1, h.2⟩

theorem hostFn_levels {P : Db → Prop} (hP : Local P) {f : HostFn} {args : List Val}
    {g : Store World} (h : LevelsOk P g.host)
    (hmint : f = .ft_mint → ∀ nm n p, LevelsOk P (ftMint g nm n p).store.host)
    (hburn : f = .ft_burn → ∀ nm n p, LevelsOk P (ftBurn g nm n p).store.host)
    (htrans : f = .ft_transfer → ∀ nm n p q, LevelsOk P (ftTransfer g nm n p q).store.host)
    (hsburn : f = .stx_burn → ∀ n p, LevelsOk P (stxBurn g n p).store.host)
    (hstrans : f = .stx_transfer → ∀ n p q memo, LevelsOk P (stxTransfer g n p q memo).store.host)
    (hdef : f = .define_ft → ∀ no nl ind lo hi nm,
      args = [.i32 no, .i32 nl, .i32 ind, .i64 lo, .i64 hi] →
      readClarityName g.mem no nl = some nm → LevelsOk P (defineFt g nm ind lo hi).store.host) :
    LevelsOk P (hostFn f args g).store.host := by
  unfold hostFn
  split
  case h_1 =>
    split
    case h_2 => exact h
    exact begin_ok h
  case h_2 =>
    split
    case h_2 => exact h
    exact beginReadOnly_ok h
  case h_3 =>
    split
    case h_2 => exact h
    unfold ofWorld; split
    · rename_i hw; exact commit_ok h hw
    · exact h
  case h_4 =>
    split
    case h_2 => exact h
    unfold ofWorld; split
    · rename_i hw; exact rollBack_ok h hw
    · exact h
  case h_5 =>
    split
    case h_2 => exact h
    exact h.of_db (by simp [enterAsContract, HRes.store, withHost, pushCaller_db, pushSender_db])
      (by simp [enterAsContract, HRes.store, withHost, pushCaller_db, pushSender_db])
  case h_6 =>
    split
    case h_2 => exact h
    unfold exitAsContract
    split
    · exact h
    · rename_i hs
      split
      · exact h.of_db (by simp [HRes.store, withHost, popSender_db hs])
          (by simp [HRes.store, withHost, popSender_db hs])
      · rename_i hc
        exact h.of_db (by simp [HRes.store, withHost, popSender_db hs, popCaller_db hc])
          (by simp [HRes.store, withHost, popSender_db hs, popCaller_db hc])
  case h_7 =>
    split
    case h_2 => exact h
    unfold enterAtBlock; dsimp only
    split
    · exact h
    · split
      · exact h
      · split
        · exact beginReadOnly_ok h
        · rename_i hb
          rw [(setBlockHash_eq hb).1]
          exact (beginReadOnly_ok h).of_db rfl rfl
  case h_8 =>
    split
    case h_2 => exact h
    unfold exitAtBlock; dsimp only
    split
    · exact h
    · split
      · exact h.of_db rfl rfl
      · rename_i hb
        split
        · rw [(setBlockHash_eq hb).1]; exact h.of_db rfl rfl
        · rename_i hr
          exact rollBack_ok (by rw [(setBlockHash_eq hb).1]; exact h.of_db rfl rfl) hr
  case h_9 =>
    split
    case h_2 => exact h
    unfold writePrin; repeat' split
    all_goals exact h
  case h_10 =>
    split
    case h_2 => exact h
    unfold writePrin; repeat' split
    all_goals exact h
  case h_11 =>
    split
    case h_2 => exact h
    refine orErr_inv (P := fun r => LevelsOk P r.store.host) h fun nm _ => ?_
    unfold getVariable; repeat' split
    all_goals exact h
  case h_12 =>
    split
    case h_2 => exact h
    refine orErr_inv (P := fun r => LevelsOk P r.store.host) h fun nm _ => ?_
    unfold setVariable; repeat' split
    all_goals first | exact h | exact h.setDb hP rfl rfl rfl
  case h_13 =>
    split
    case h_2 => exact h
    refine orErr_inv (P := fun r => LevelsOk P r.store.host) h fun nm _ => ?_
    unfold mapGet; repeat' split
    all_goals first | exact h | exact h.setDb hP rfl rfl rfl
  case h_14 =>
    split
    case h_2 => exact h
    refine orErr_inv (P := fun r => LevelsOk P r.store.host) h fun nm _ => ?_
    unfold mapSet; repeat' split
    all_goals first | exact h | exact h.setDb hP rfl rfl rfl
  case h_15 =>
    split
    case h_2 => exact h
    refine orErr_inv (P := fun r => LevelsOk P r.store.host) h fun nm _ => ?_
    unfold mapInsert; repeat' split
    all_goals first | exact h | exact h.setDb hP rfl rfl rfl
  case h_16 =>
    split
    case h_2 => exact h
    refine orErr_inv (P := fun r => LevelsOk P r.store.host) h fun nm _ => ?_
    unfold mapDelete; repeat' split
    all_goals first | exact h | exact h.setDb hP rfl rfl rfl
  case h_17 =>
    split
    case h_2 => exact h
    rename_i no nl ind lo hi
    refine orErr_inv (P := fun r => LevelsOk P r.store.host) h fun nm hnm => ?_
    exact hdef rfl no nl ind lo hi nm rfl hnm
  case h_18 =>
    split
    case h_2 => exact h
    refine orErr_inv (P := fun r => LevelsOk P r.store.host) h fun nm _ => ?_
    unfold ftGetSupply; split <;> exact h
  case h_19 =>
    split
    case h_2 => exact h
    refine orErr_inv (P := fun r => LevelsOk P r.store.host) h fun nm _ => ?_
    refine orErr_inv (P := fun r => LevelsOk P r.store.host) h fun p _ => ?_
    unfold ftGetBalance; split <;> exact h
  case h_20 =>
    split
    case h_2 => exact h
    refine orErr_inv (P := fun r => LevelsOk P r.store.host) h fun nm _ => ?_
    refine orErr_inv (P := fun r => LevelsOk P r.store.host) h fun p _ => ?_
    exact hmint rfl _ _ _
  case h_21 =>
    split
    case h_2 => exact h
    refine orErr_inv (P := fun r => LevelsOk P r.store.host) h fun nm _ => ?_
    refine orErr_inv (P := fun r => LevelsOk P r.store.host) h fun p _ => ?_
    exact hburn rfl _ _ _
  case h_22 =>
    split
    case h_2 => exact h
    refine orErr_inv (P := fun r => LevelsOk P r.store.host) h fun nm _ => ?_
    refine orErr_inv (P := fun r => LevelsOk P r.store.host) h fun p _ => ?_
    refine orErr_inv (P := fun r => LevelsOk P r.store.host) h fun q _ => ?_
    exact htrans rfl _ _ _ _
  case h_23 =>
    split
    case h_2 => exact h
    refine orErr_inv (P := fun r => LevelsOk P r.store.host) h fun p _ => ?_
    exact hsburn rfl _ _
  case h_24 =>
    split
    case h_2 => exact h
    refine orErr_inv (P := fun r => LevelsOk P r.store.host) h fun p _ => ?_
    refine orErr_inv (P := fun r => LevelsOk P r.store.host) h fun q _ => ?_
    refine orErr_inv (P := fun r => LevelsOk P r.store.host) h fun memo _ => ?_
    exact hstrans rfl _ _ _ _
  case h_25 =>
    split
    case h_2 => exact h
    refine orErr_inv (P := fun r => LevelsOk P r.store.host) h fun nm _ => ?_
    refine orErr_inv (P := fun r => LevelsOk P r.store.host) h fun t _ => ?_
    refine orErr_inv (P := fun r => LevelsOk P r.store.host) h fun v _ => ?_
    unfold nftGetOwner; repeat' split
    all_goals exact h
  case h_26 =>
    split
    case h_2 => exact h
    refine orErr_inv (P := fun r => LevelsOk P r.store.host) h fun nm _ => ?_
    refine orErr_inv (P := fun r => LevelsOk P r.store.host) h fun t _ => ?_
    refine orErr_inv (P := fun r => LevelsOk P r.store.host) h fun v _ => ?_
    refine orErr_inv (P := fun r => LevelsOk P r.store.host) h fun p _ => ?_
    unfold nftMint; repeat' split
    all_goals first | exact h | exact LevelsOk.emit (h.setDb hP rfl rfl rfl)
  case h_27 =>
    split
    case h_2 => exact h
    refine orErr_inv (P := fun r => LevelsOk P r.store.host) h fun nm _ => ?_
    refine orErr_inv (P := fun r => LevelsOk P r.store.host) h fun t _ => ?_
    refine orErr_inv (P := fun r => LevelsOk P r.store.host) h fun v _ => ?_
    refine orErr_inv (P := fun r => LevelsOk P r.store.host) h fun p _ => ?_
    unfold nftBurn; repeat' split
    all_goals first | exact h | exact LevelsOk.emit (h.setDb hP rfl rfl rfl)
  case h_28 =>
    split
    case h_2 => exact h
    refine orErr_inv (P := fun r => LevelsOk P r.store.host) h fun nm _ => ?_
    refine orErr_inv (P := fun r => LevelsOk P r.store.host) h fun t _ => ?_
    refine orErr_inv (P := fun r => LevelsOk P r.store.host) h fun v _ => ?_
    refine orErr_inv (P := fun r => LevelsOk P r.store.host) h fun p _ => ?_
    refine orErr_inv (P := fun r => LevelsOk P r.store.host) h fun q _ => ?_
    unfold nftTransfer; repeat' split
    all_goals first | exact h | exact LevelsOk.emit (h.setDb hP rfl rfl rfl)
  case h_29 =>
    split
    case h_2 => exact h
    exact orErr_inv (P := fun r => LevelsOk P r.store.host) h fun p _ => h
  case h_30 => exact h

theorem dbOk_local : Local DbOk := by
  intro db db' h1 h2 h3 h
  unfold DbOk at *
  rw [h1, h2, h3]; exact h

theorem hostFn_ok {f : HostFn} {args : List Val} {g : Store World} (h : LedgerOk g.host)
    (ha : Allowed f args g) : LedgerOk (hostFn f args g).store.host := by
  refine hostFn_levels dbOk_local h ?_ ?_ ?_ ?_ ?_ ?_
  · rintro rfl nm n p; exact (ftMint_ok h (ha.1 (by simp))).1
  · rintro rfl nm n p; exact (ftBurn_ok h (ha.1 (by simp))).1
  · rintro rfl nm n p q; exact (ftTransfer_ok h (ha.1 (by simp))).1
  · rintro rfl n p; exact (stxBurn_ok h (ha.1 (by simp))).1
  · rintro rfl n p q memo; exact (stxTransfer_ok h (ha.1 (by simp))).1
  · rintro rfl no nl ind lo hi nm rfl hnm
    have hf := ha.2 rfl no nl ind lo hi nm rfl hnm
    unfold defineFt
    split
    · apply h.setFt
      · simp only [hf]; exact ⟨[], by simp⟩
      · simp
      · simp
    · exact h

/-- The recorded maximum of a token. -/
def CapIs (c : ContractId) (nm : Name) (cap : Option Nat) (db : Db) : Prop :=
  ∀ t, db.ft c nm = some t → t.cap = cap

theorem capIs_local (c nm cap) : Local (CapIs c nm cap) := by
  intro db db' h1 _ _ h
  unfold CapIs at *
  rw [h1]; exact h

theorem setFt_cap {c nm cap} {g : Store World} {nm' : Name} {t t' : Ft}
    (h : LevelsOk (CapIs c nm cap) g.host) (ht : g.host.cur.db.ft g.host.contract nm' = some t)
    (hc : t'.cap = t.cap) : LevelsOk (CapIs c nm cap) (setFt g nm' t').host := by
  refine ⟨?_, h.2⟩
  intro t₁ ht₁
  rcases upd₂_some ht₁ with ⟨rfl, rfl, rfl⟩ | ht₁
  · rw [hc]; exact h.1 _ ht
  · exact h.1 _ ht₁

theorem hostFn_cap {c nm cap} {f : HostFn} {args : List Val} {g : Store World}
    (h : LevelsOk (CapIs c nm cap) g.host) (ha : Allowed f args g) (hd : f ≠ .define_ft) :
    LevelsOk (CapIs c nm cap) (hostFn f args g).store.host := by
  refine hostFn_levels (capIs_local c nm cap) h ?_ ?_ ?_ ?_ ?_ ?_
  · rintro rfl nm n p
    unfold ftMint
    rw [view_eq (ha.1 (by simp))]
    repeat' split
    all_goals first
      | exact h
      | (rename_i ht _; refine setFt_cap h ht ?_; rfl)
      | (rename_i ht _ _; refine LevelsOk.emit (setFt_cap h ht ?_); rfl)
      | (rename_i ht _ _; refine setFt_cap h ht ?_; rfl)
  · rintro rfl nm n p
    unfold ftBurn
    rw [view_eq (ha.1 (by simp))]
    repeat' split
    all_goals first
      | exact h
      | (rename_i ht _ _; refine LevelsOk.emit (setFt_cap h ht ?_); rfl)
  · rintro rfl nm n p q
    unfold ftTransfer
    rw [view_eq (ha.1 (by simp))]
    repeat' split
    all_goals first
      | exact h
      | (rename_i ht _ _; refine LevelsOk.emit (setFt_cap h ht ?_); rfl)
  · rintro rfl n p
    unfold stxBurn; dsimp only
    repeat' split
    all_goals first
      | exact h
      | exact LevelsOk.emit ⟨h.1, h.2⟩
  · rintro rfl n p q memo
    unfold stxTransfer; dsimp only
    repeat' split
    all_goals first
      | exact h
      | exact LevelsOk.emit ⟨h.1, h.2⟩
  · intro h; exact absurd h hd

end Host
