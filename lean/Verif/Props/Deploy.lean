import Verif.Props.Typed
import Verif.Props.History
import Verif.Host.Define

/-!
C45: initialising a contract makes its state what C33 and C46 need.
-/

namespace Props
open Wasm Spec Host Core Gen

/-- What a contract can declare. -/
inductive Decl
  | var (x : Name) (T : Ty)
  | map (x : Name) (K V : Ty)
  | nft (x : Name) (T : Ty)
  | ft (x : Name)

open Classical in
/-- The declarations of the chain and one of contract `me`. -/
noncomputable def Declared.add (D : Declared) (me : ContractId) : Decl → Declared
  | .var y T => { D with var := fun c x => if c = me ∧ x = y then some T else D.var c x }
  | .map y K V => { D with map := fun c x => if c = me ∧ x = y then some (K, V) else D.map c x }
  | .nft y T => { D with nft := fun c x => if c = me ∧ x = y then some T else D.nft c x }
  | .ft y => { D with ft := fun c x => if c = me ∧ x = y then true else D.ft c x }

/-- It is a new one. -/
def Declared.New (D : Declared) (me : ContractId) : Decl → Prop
  | .var x _ => D.var me x = none
  | .map x _ _ => D.map me x = none
  | .nft x _ => D.nft me x = none
  | .ft _ => True

/-- A call of the host that makes a declaration, and succeeds. -/
inductive Makes (A : Analysis) (g : Store World) : Decl → Store World → Prop
  | var {no nl vo vl : BitVec 32} {x : Name} {T : Ty} {g' : Store World} : readClarityName g.mem no nl = some x → A.var x = some T →
      defineFn A .define_variable [.i32 no, .i32 nl, .i32 vo, .i32 vl] g = .ret [] g' → Makes A g (.var x T) g'
  | map {no nl : BitVec 32} {x : Name} {K V : Ty} {g' : Store World} : readClarityName g.mem no nl = some x → A.map x = some (K, V) →
      defineFn A .define_map [.i32 no, .i32 nl] g = .ret [] g' → Makes A g (.map x K V) g'
  | nft {no nl : BitVec 32} {x : Name} {T : Ty} {g' : Store World} : readClarityName g.mem no nl = some x → A.nft x = some T →
      defineFn A .define_nft [.i32 no, .i32 nl] g = .ret [] g' → Makes A g (.nft x T) g'
  | ft {no nl ind : BitVec 32} {lo hi : BitVec 64} {x : Name} {g' : Store World} : readClarityName g.mem no nl = some x →
      defineFn A .define_ft [.i32 no, .i32 nl, .i32 ind, .i64 lo, .i64 hi] g = .ret [] g' → Makes A g (.ft x) g'

/-- The initialisation of contract `me`: declarations, outside nested transactions, with any code run in between (initial
values, other expressions at the top level). -/
inductive Init (A : Analysis) (me : ContractId) (w : World) : List Decl → World → Prop
  | start : Init A me w [] w
  | declare {ds : List Decl} {d : Decl} {g g' : Store World} : Init A me w ds g.host → g.host.contract = me → g.host.saved = [] →
      Makes A g d g' → Init A me w (ds ++ [d]) g'.host
  | code {ds : List Decl} {M : Wasm.Mod World} {f : FId} {args vs : List Val} {g g' : Store World} : Init A me w ds g.host → OnHost M →
      Runs M f args g (.ret vs g') → Init A me w ds g'.host

/-- The declarations of the chain and these of contract `me`. -/
noncomputable def Declared.addAll (D : Declared) (me : ContractId) (ds : List Decl) : Declared := ds.foldl (·.add me ·) D

/-- They are new, and there are no two of the same name and kind. -/
def Declared.NewAll (D : Declared) (me : ContractId) : List Decl → Prop
  | [] => True
  | d :: ds => D.New me d ∧ (D.add me d).NewAll me ds

theorem DbTyped.add {D : Declared} {me : ContractId} {d : Decl} {db : Db} (hn : D.New me d) (h : DbTyped D db) :
    DbTyped (D.add me d) db := by
  cases d with
  | var y T =>
    refine ⟨fun c x v hv => ?_, h.map, h.nft, h.ft⟩
    have := h.var c x v hv
    simp only [Declared.add]
    rw [if_neg]
    · exact this
    · rintro ⟨rfl, rfl⟩
      rw [show D.var c x = none from hn] at this
      cases this.1
  | map y K V =>
    refine ⟨h.var, fun c x v hv => ?_, h.nft, h.ft⟩
    have := h.map c x v hv
    simp only [Declared.add]
    rw [if_neg]
    · exact this
    · rintro ⟨rfl, rfl⟩
      rw [show D.map c x = none from hn] at this
      cases this.1
  | nft y T =>
    refine ⟨h.var, h.map, fun c x v hv => ?_, h.ft⟩
    have := h.nft c x v hv
    simp only [Declared.add]
    rw [if_neg]
    · exact this
    · rintro ⟨rfl, rfl⟩
      rw [show D.nft c x = none from hn] at this
      cases this.1
  | ft y => exact ⟨h.var, h.map, h.nft, h.ft⟩

theorem upd₂_here {β γ : Type} {f : ContractId → β → Option γ} {a : ContractId} {b : β} {x : γ} : upd₂ f a b x a b = some x := by
  simp [upd₂]

/-- After a declaration it is there, and everything else still is. -/
theorem makes_typed {A : Analysis} {D : Declared} {g g' : Store World} {d : Decl} (h : Typed true D g.host)
    (hs : g.host.saved = []) (hn : D.New g.host.contract d) (hm : Makes A g d g') :
    Typed true (D.add g.host.contract d) g'.host := by
  have past : ∀ b db, g.host.history b = some db → DbTyped (D.add g.host.contract d) db := fun b db e => (h.2.2 b db e).add hn
  have ht := h.1.1.add hn
  have key : ∀ db, DbOk (D.add g.host.contract d) db → Typed true (D.add g.host.contract d) (g.host.setDb db) := fun db hd =>
    ⟨hd, fun l hl => (by rw [show (g.host.setDb db).saved = g.host.saved from rfl, hs] at hl; cases hl), past⟩
  cases hm with
  | @var no nl vo vl x T _ h1 h2 h3 =>
    simp only [defineFn, h1, h2, orErr] at h3
    split at h3
    · rename_i y e
      split at e
      · cases e
        simp only [defineVariable] at h3
        split at h3
        · cases h3
        · split at h3
          · cases h3
            rename_i hv
            refine key _ ⟨⟨fun c z d' hd => ?_, ht.map, ht.nft, ht.ft⟩, ⟨fun c z T' hT => ?_, h.1.2.map, h.1.2.nft, h.1.2.ft⟩⟩
            · rcases upd₂_some hd with ⟨rfl, rfl, rfl⟩ | hd
              · exact ⟨by simp [Declared.add], hv⟩
              · exact ht.var _ _ _ hd
            · simp only [Declared.add] at hT
              split at hT
              · rename_i e; rw [e.1, e.2]; exact ⟨_, upd₂_here⟩
              · exact upd₂_has (h.1.2.var c z T' hT)
          · cases h3
      · cases e
    · cases h3
  | @map no nl x K V _ h1 h2 h3 =>
    simp only [defineFn, h1, h2, orErr] at h3
    split at h3
    · rename_i y e
      split at e
      · cases e
        cases h3
        refine key _ ⟨⟨ht.var, fun c z d' hd => ?_, ht.nft, ht.ft⟩, ⟨h.1.2.var, fun c z T' hT => ?_, h.1.2.nft, h.1.2.ft⟩⟩
        · rcases upd₂_some hd with ⟨rfl, rfl, rfl⟩ | hd
          · exact ⟨by simp [Declared.add], fun _ _ e => by cases e⟩
          · exact ht.map _ _ _ hd
        · simp only [Declared.add] at hT
          split at hT
          · rename_i e; rw [e.1, e.2]; exact ⟨_, upd₂_here⟩
          · exact upd₂_has (h.1.2.map c z T' hT)
      · cases e
    · cases h3
  | @nft no nl x T _ h1 h2 h3 =>
    simp only [defineFn, h1, h2, orErr] at h3
    split at h3
    · rename_i y e
      split at e
      · cases e
        cases h3
        refine key _ ⟨⟨ht.var, ht.map, fun c z d' hd => ?_, ht.ft⟩, ⟨h.1.2.var, h.1.2.map, fun c z T' hT => ?_, h.1.2.ft⟩⟩
        · rcases upd₂_some hd with ⟨rfl, rfl, rfl⟩ | hd
          · exact ⟨by simp [Declared.add], fun _ _ e => by cases e⟩
          · exact ht.nft _ _ _ hd
        · simp only [Declared.add] at hT
          split at hT
          · rename_i e; rw [e.1, e.2]; exact ⟨_, upd₂_here⟩
          · exact upd₂_has (h.1.2.nft c z T' hT)
      · cases e
    · cases h3
  | @ft no nl ind lo hi x _ h1 h3 =>
    simp only [defineFn, hostFn, h1, orErr, defineFt] at h3
    split at h3
    · cases h3
      refine key _ ⟨⟨ht.var, ht.map, ht.nft, fun c z d' hd => ?_⟩, ⟨h.1.2.var, h.1.2.map, h.1.2.nft, fun c z hT => ?_⟩⟩
      · rcases upd₂_some hd with ⟨rfl, rfl, rfl⟩ | hd
        · refine ⟨Nat.two_pow_pos _, fun p => ?_⟩
          dsimp only
          split
          · rename_i e; exact (h.1.1.ft _ _ _ e).2 p
          · exact Nat.two_pow_pos _
        · exact ht.ft _ _ _ hd
      · simp only [Declared.add] at hT
        split at hT
        · rename_i e; rw [e.1, e.2]; exact ⟨_, upd₂_here⟩
        · exact upd₂_has (h.1.2.ft c z hT)
    · cases h3

theorem newAll_append {D : Declared} {me : ContractId} : ∀ {ds : List Decl} {d : Decl}, D.NewAll me (ds ++ [d]) →
    D.NewAll me ds ∧ (D.addAll me ds).New me d
  | [], d, h => ⟨trivial, h.1⟩
  | e :: ds, d, h => by
    obtain ⟨h1, h2⟩ := newAll_append (D := D.add me e) (ds := ds) h.2
    exact ⟨⟨h.1, h1⟩, h2⟩

/-- **C45, initialisation.** Whatever a contract declares when it is initialised, and whatever code runs in between: if the
chain was typed it is afterwards, and the new declarations are there, with their types. -/
theorem C45_init {A : Analysis} {me : ContractId} {D : Declared} {w w' : World} {ds : List Decl} (h : Init A me w ds w')
    (h0 : Typed true D w) (hn : D.NewAll me ds) : Typed true (D.addAll me ds) w' := by
  induction h with
  | start => exact h0
  | declare _ hc hs hm ih =>
    obtain ⟨h1, h2⟩ := newAll_append hn
    subst hc
    have := makes_typed (ih h1) hs h2 hm
    simp only [Declared.addAll, List.foldl_append, List.foldl_cons, List.foldl_nil] at this ⊢
    exact this
  | code _ hM hr ih => exact C45_any_code_typed hM (ih hn) (.inl hr)

/-- **C45.** So a contract whose declarations were made finds, after its initialisation and any later history of the chain,
its state as C33 and C46 need it. -/
theorem C45_deployed {A : Analysis} {me : ContractId} {D : Declared} {w w' : World} {ds : List Decl} (h : Init A me w ds w')
    (h0 : Typed true D w) (hn : D.NewAll me ds) {K : Ctx} (hK : (D.addAll me ds).Has K me) {l : List (Principal × ContractId)}
    {db : Db} (hl : Chain w'.cur.db l db) (es : List Event) : StOk K me ⟨db, es⟩ :=
  C45_chain_ready hl (C45_init h h0 hn).1 hK es

/-- **C46, from the initialisation on.** A contract is initialised, then other contracts and itself are called by anybody; from
the state that is left, its histories of calls are exactly those of Clarity. Missing: as in `C46_history_partial`. -/
theorem C46_from_deployment_partial {A : Analysis} {me : ContractId} {D : Declared} {w w' : World} {ds : List Decl}
    (h : Init A me w ds w') (h0 : Typed true D w) (hn : D.NewAll me ds) {K : Ctx} (hK : (D.addAll me ds).Has K me)
    {l : List (Principal × ContractId)} {db : Db} (hl : Chain w'.cur.db l db) (es : List Event)
    (sig : List Byte → Option Ty) (M : Wasm.Mod World) (hC : ContractOk K) (hL : Linked K M) (g0 : Store World)
    (hi : InstanceOf K g0) (ts : List Tx) (ht : ∀ t ∈ ts, t.Fits K me g0) (hf : Follows K ⟨db, es⟩ ts) :
    (∃ as s', Session sig M g0 ⟨db, es⟩ ts as s') ∧
    ∀ as s', Session sig M g0 ⟨db, es⟩ ts as s' ↔ ByClarity K ⟨db, es⟩ ts as s' :=
  C46_history_partial sig K M hC hL me g0 hi ts ht _ (C45_deployed h h0 hn hK hl es) hf

/-! ### What a declaration does exactly -/

/-- Only the datastore of the current transaction differs, and it is `db`. -/
def OnlyDb (g g' : Store World) (db : Db) : Prop :=
  g' = { g with host := { g.host with cur := { g.host.cur with db := db } } }

open Classical in
/-- **C45.** `define-data-var` succeeds for a value of the declared type, which is then the value of the variable; nothing
else changes. -/
theorem C45_define_var {A : Analysis} {g : Store World} {no nl vo vl : BitVec 32} {x : Name} {T : Ty} {v : Value}
    (hx : readClarityName g.mem no nl = some x) (hi : g.host.init = true) (hT : A.var x = some T)
    (rv : readArg T g.mem vo vl = some v) (hv : HasType T v) :
    ∃ g', defineFn A .define_variable [.i32 no, .i32 nl, .i32 vo, .i32 vl] g = .ret [] g' ∧
      OnlyDb g g' { g.host.cur.db with
        var := fun c y => if c = g.host.contract ∧ y = x then some ⟨T, v⟩ else g.host.cur.db.var c y } := by
  refine ⟨_, ?_, rfl⟩
  simp only [defineFn, hx, orErr, hi, if_true, hT, defineVariable, rv]
  rw [if_pos hv]
  simp only [withHost, World.setDb]
  congr 5
  funext c y
  simp only [upd₂]
  by_cases e : c = g.host.contract ∧ y = x
  · rw [if_pos e, if_pos e]
  · rw [if_neg e, if_neg e]

open Classical in
/-- **C45.** `define-map` makes an empty map; nothing else changes. -/
theorem C45_define_map {A : Analysis} {g : Store World} {no nl : BitVec 32} {x : Name} {K V : Ty}
    (hx : readClarityName g.mem no nl = some x) (hi : g.host.init = true) (hT : A.map x = some (K, V)) :
    ∃ g', defineFn A .define_map [.i32 no, .i32 nl] g = .ret [] g' ∧
      OnlyDb g g' { g.host.cur.db with
        map := fun c y => if c = g.host.contract ∧ y = x then some ⟨K, V, fun _ => none⟩ else g.host.cur.db.map c y } := by
  refine ⟨_, ?_, rfl⟩
  simp only [defineFn, hx, orErr, hi, if_true, hT, defineMap, setMap, withHost, World.setDb]
  congr 5
  funext c y
  simp only [upd₂]
  by_cases e : c = g.host.contract ∧ y = x
  · rw [if_pos e, if_pos e]
  · rw [if_neg e, if_neg e]

open Classical in
/-- **C45.** `define-non-fungible-token` makes a token of which nobody owns anything; nothing else changes. -/
theorem C45_define_nft {A : Analysis} {g : Store World} {no nl : BitVec 32} {x : Name} {T : Ty}
    (hx : readClarityName g.mem no nl = some x) (hi : g.host.init = true) (hT : A.nft x = some T) :
    ∃ g', defineFn A .define_nft [.i32 no, .i32 nl] g = .ret [] g' ∧
      OnlyDb g g' { g.host.cur.db with
        nft := fun c y => if c = g.host.contract ∧ y = x then some ⟨T, fun _ => none⟩ else g.host.cur.db.nft c y } := by
  refine ⟨_, ?_, rfl⟩
  simp only [defineFn, hx, orErr, hi, if_true, hT, defineNft, setNft, withHost, World.setDb]
  congr 5
  funext c y
  simp only [upd₂]
  by_cases e : c = g.host.contract ∧ y = x
  · rw [if_pos e, if_pos e]
  · rw [if_neg e, if_neg e]

/-! ### Example: `(define-data-var t bool true)` in the store of `Props/Ledger` -/

def deA : Analysis := ⟨fun x => if x = cxT then some .bool else none, fun _ => none, fun _ => none⟩

/-- Before it, only the non-fungible token. -/
noncomputable def deD : Declared := ⟨fun _ _ => none, fun _ _ => none, fun c x => if c = ledgerC ∧ x = [116#8] then some .bool else none,
  fun _ _ => false⟩

theorem de_typed : Typed true deD ledgerStore.host := by
  refine ⟨⟨⟨fun c x d h => ?_, fun c x d h => ?_, fun c x d h => ?_, fun c x t h => ?_⟩,
    ⟨fun c x T h => ?_, fun c x T h => ?_, fun c x T h => ?_, fun c x h => ?_⟩⟩, fun l hl => ?_, fun b db h => ?_⟩
  all_goals simp only [deD, ledgerStore, ledgerDb] at *
  · cases h
  · cases h
  · split at h
    · cases h; rename_i e; simp [e]
    · cases h
  · cases h
  · cases h
  · cases h
  · split at h
    · rename_i e; simp [e]
    · cases h
  · cases h
  · cases hl
  · cases h

/-- The hypotheses of `C45_define_var` are met. -/
example : ∃ g', defineFn deA .define_variable [.i32 0#32, .i32 1#32, .i32 300#32, .i32 1#32] ledgerStore = .ret [] g' ∧
    g'.host.cur.db.var ledgerC cxT = some ⟨.bool, .bool true⟩ := by
  have hr : readArg .bool ledgerMem 300#32 1#32 = some (.bool true) := by
    simp only [readArg, isInMemoryType, readFromWasm]; rfl
  obtain ⟨g', h1, h2⟩ := C45_define_var (A := deA) (g := ledgerStore) (x := cxT) (T := .bool) ledger_name rfl (by simp [deA]) hr (by simp [HasType])
  refine ⟨g', h1, ?_⟩
  rw [h2]
  dsimp only
  rw [if_pos ⟨rfl, rfl⟩]

/-- The hypotheses are met: afterwards the contract finds its variable, of type `bool`. -/
example : ∃ g' : Store World, Init deA ledgerC ledgerStore.host [.var cxT .bool] g'.host ∧
    StOk { cxK with vars := fun x => if x = cxT then some .bool else none } ledgerC ⟨g'.host.cur.db, []⟩ := by
  have hr : readArg .bool ledgerMem 300#32 1#32 = some (.bool true) := by
    simp only [readArg, isInMemoryType, readFromWasm]; rfl
  have h1 : ∃ g', defineFn deA .define_variable [.i32 0#32, .i32 1#32, .i32 300#32, .i32 1#32] ledgerStore = .ret [] g' := by
    simp only [defineFn]
    rw [show ledgerStore.mem = ledgerMem from rfl, ledger_name]
    simp only [orErr, show ledgerStore.host.init = true from rfl, if_true, deA, show cxT = [116#8] from rfl, defineVariable]
    rw [show ledgerStore.mem = ledgerMem from rfl, hr]
    dsimp only
    rw [if_pos (show HasType .bool (.bool true) by simp [HasType])]
    exact ⟨_, rfl⟩
  obtain ⟨g', h1⟩ := h1
  have h2 : Init deA ledgerC ledgerStore.host ([] ++ [.var cxT .bool]) g'.host :=
    .declare (g := ledgerStore) .start rfl rfl (.var (x := cxT) ledger_name (by simp [deA]) h1)
  refine ⟨g', h2, C45_deployed h2 de_typed ⟨rfl, trivial⟩ ⟨fun x T h => ?_, fun x T h => (by cases h),
    fun x h => (by cases h)⟩ .nil []⟩
  dsimp only at h
  split at h
  · rename_i e
    cases h
    simp [Declared.addAll, Declared.add, e]
  · cases h

/-! ### Example: the contract of `Props/CompileEx` from its initialisation with `(define-data-var t uint u0)` -/

def duA : Analysis := ⟨fun x => if x = cxT then some .uint else none, fun _ => none, fun _ => none⟩

theorem du_init : Init duA ledgerC ledgerStore.host [.var cxT .uint] (put ledgerStore.host (cxSt 0)) := by
  have hr : readArg .uint ledgerMem 304#32 16#32 = some (.uint 0) := by
    simp only [readArg, isInMemoryType, readFromWasm]; rfl
  obtain ⟨g', h1, h2⟩ := C45_define_var (A := duA) (g := ledgerStore) (x := cxT) (T := .uint) ledger_name rfl (by simp [duA]) hr
    (by simp [HasType, IsUInt])
  have h3 : Init duA ledgerC ledgerStore.host ([] ++ [.var cxT .uint]) g'.host :=
    .declare (g := ledgerStore) .start rfl rfl (.var (x := cxT) ledger_name (by simp [duA]) h1)
  have h4 : g'.host = put ledgerStore.host (cxSt 0) := by
    rw [h2]
    simp only [Gen.put, cxSt, ledgerStore, World.mk.injEq, Level.mk.injEq, Db.mk.injEq, and_true, true_and, ledgerDb]
    funext c y
    by_cases e : c = ledgerC ∧ y = cxT
    · exact (if_pos e).trans (if_pos e).symm
    · exact (if_neg e).trans (if_neg e).symm
  rw [h4] at h3
  exact h3

/-- The hypotheses of `C46_from_deployment_partial` are met: the first call of `incr` answers `(ok u1)`. -/
example (sig : List Byte → Option Ty) (as : List Answer) (s' : St) :
    Session sig (moduleOf cxK) cxStore (cxSt 0) [hiTx] as s' ↔ as = [.value (.ok (.uint 1))] ∧ s' = cxSt 1 := by
  have r0 : hiTx.f.run (sem cxK.fns hiTx.j) hiTx.vs hiTx.c (cxSt 0) = .val (.ok (.uint 1)) (cxSt 1) := hi_run 0 (by decide)
  have hK : (deD.addAll ledgerC [.var cxT .uint]).Has cxK ledgerC := ⟨fun x T h => by
      simp only [cxK] at h
      split at h
      · rename_i e; cases h; simp [Declared.addAll, Declared.add, e]
      · (cases h), (fun x T h => by cases h), (fun x h => by cases h)⟩
  have h := (C46_from_deployment_partial du_init de_typed ⟨rfl, trivial⟩ hK (.nil : Chain _ [] _) [] sig (moduleOf cxK) cx_ok
    (linked_moduleOf cxK) cxStore ⟨cx_ready.lits, by decide⟩ [hiTx]
    (by simp only [List.mem_cons, List.not_mem_nil, or_false]; rintro _ rfl; exact hi_fits)
    (by
      show Follows cxK (cxSt 0) [hiTx]
      simp only [Follows]
      rw [r0]; trivial)).2 as s'
  replace h : Session sig (moduleOf cxK) cxStore (cxSt 0) [hiTx] as s' ↔ ByClarity cxK (cxSt 0) [hiTx] as s' := h
  rw [h]
  constructor
  · intro h
    cases h with
    | error a => rw [r0] at a; cases a
    | value a h =>
      rw [r0] at a; cases a
      simp only [txKeeps, if_true] at h
      cases h
      exact ⟨rfl, rfl⟩
  · rintro ⟨rfl, rfl⟩
    exact .value r0 .nil

end Props
