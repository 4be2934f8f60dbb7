import Verif.Host.LedgerProof
import Verif.Props.Abi
import Verif.Props.Ledger

/-! C45: data variables and data maps. -/

namespace Props
open Wasm Spec Host Classical

/-- Operations on a data map, with their results as in Clarity: `map-set`, `map-insert`,
`map-delete`. -/
inductive MapOp
  | set (k v : Value) | insert (k v : Value) | delete (k : Value)

/-- The specification: a data map is a partial function from keys to values. -/
noncomputable def MapOp.spec (e : Value → Option Value) : MapOp → Bool × (Value → Option Value)
  | .set k v => (true, fun k' => if k' = k then some v else e k')
  | .insert k v => match e k with
    | some _ => (false, e)
    | none => (true, fun k' => if k' = k then some v else e k')
  | .delete k => match e k with
    | some _ => (true, fun k' => if k' = k then none else e k')
    | none => (false, e)

/-- The imported function and the arguments of an operation on the map named by `no`, `nl`: the
memory of `g` holds the key (and the value) of types `kt` and `vt` at the given places. -/
inductive MapCall (kt vt : Ty) (g : Store World) (no nl : BitVec 32) :
    MapOp → HostFn → List Val → Prop
  | set {k v ko kl vo vl} : HasType kt k → HasType vt v → readArg kt g.mem ko kl = some k →
      readArg vt g.mem vo vl = some v →
      MapCall kt vt g no nl (.set k v) .map_set [.i32 no, .i32 nl, .i32 ko, .i32 kl, .i32 vo, .i32 vl]
  | insert {k v ko kl vo vl} : HasType kt k → HasType vt v → readArg kt g.mem ko kl = some k →
      readArg vt g.mem vo vl = some v →
      MapCall kt vt g no nl (.insert k v) .map_insert
        [.i32 no, .i32 nl, .i32 ko, .i32 kl, .i32 vo, .i32 vl]
  | delete {k ko kl} : HasType kt k → readArg kt g.mem ko kl = some k →
      MapCall kt vt g no nl (.delete k) .map_delete [.i32 no, .i32 nl, .i32 ko, .i32 kl]

/-- `g'` is `g` except for the entries of map `nm` of the running contract, which are now `e`. -/
def OnlyMap (g g' : Store World) (nm : Name) (d : DataMap) (e : Value → Option Value) : Prop :=
  g'.host.cur.db.map g.host.contract nm = some { d with entry := e } ∧
  (∀ c m, ¬ (c = g.host.contract ∧ m = nm) → g'.host.cur.db.map c m = g.host.cur.db.map c m) ∧
  g' = { g with host := { g.host with cur := { g.host.cur with
    db := { g.host.cur.db with map := g'.host.cur.db.map } } } }

theorem onlyMap_set (g : Store World) (nm : Name) (d : DataMap) (e : Value → Option Value) :
    OnlyMap g (setMap g nm { d with entry := e }) nm d e := by
  refine ⟨?_, ?_, ?_⟩
  · simp [setMap, withHost, World.setDb, upd₂]
  · intro c m h
    simp [setMap, withHost, World.setDb, upd₂, h]
  · simp [setMap, withHost, World.setDb]

theorem onlyMap_refl {g : Store World} {nm : Name} {d : DataMap}
    (h : g.host.cur.db.map g.host.contract nm = some d) : OnlyMap g g nm d d.entry :=
  ⟨h, fun _ _ _ => rfl, rfl⟩

/-- **C45.** Each map operation returns what the specification says and changes exactly the entries
of that map as the specification says. -/
theorem C45_map_op {g : Store World} {no nl : BitVec 32} {nm : Name} {d : DataMap} {op : MapOp}
    {f : HostFn} {args : List Val} (hnm : readIdent g.mem no nl = some nm)
    (hpend : g.host.pending = true) (hro : g.host.cur.readOnly = false)
    (hd : g.host.cur.db.map g.host.contract nm = some d)
    (hc : MapCall d.key d.val g no nl op f args) :
    ∃ g', hostFn f args g = .ret (encB (op.spec d.entry).1) g' ∧
      OnlyMap g g' nm d (op.spec d.entry).2 := by
  cases hc with
  | set hk hv rk rv =>
    simp only [hostFn, hnm, orErr, mapSet, hro, view_eq hpend, hd, rk, rv, hk, hv, and_self, if_true,
      MapOp.spec, encB]
    exact ⟨_, rfl, onlyMap_set _ _ _ _⟩
  | insert hk hv rk rv =>
    rename_i k v _ _ _ _
    simp only [hostFn, hnm, orErr, mapInsert, hro, view_eq hpend, hd, rk, rv, hk, hv, and_self, if_true,
      Bool.false_eq_true, if_false]
    cases he : d.entry k with
    | none =>
      rw [show MapOp.spec d.entry (.insert k v) = (true, upd d.entry k (some v)) by
        simp only [MapOp.spec, he]; rfl]
      exact ⟨_, rfl, onlyMap_set _ _ _ _⟩
    | some x =>
      rw [show MapOp.spec d.entry (.insert k v) = (false, d.entry) by simp only [MapOp.spec, he]]
      exact ⟨_, rfl, onlyMap_refl hd⟩
  | delete hk rk =>
    rename_i k _ _
    simp only [hostFn, hnm, orErr, mapDelete, hro, view_eq hpend, hd, rk, hk, if_true,
      Bool.false_eq_true, if_false]
    cases he : d.entry k with
    | none =>
      rw [show MapOp.spec d.entry (.delete k) = (false, d.entry) by simp only [MapOp.spec, he]]
      exact ⟨_, rfl, onlyMap_refl hd⟩
    | some x =>
      rw [show MapOp.spec d.entry (.delete k) = (true, upd d.entry k none) by
        simp only [MapOp.spec, he]; rfl]
      exact ⟨_, rfl, onlyMap_set _ _ _ _⟩

/-- A sequence of operations on one map, with the results the calls returned. Memory and globals may
change arbitrarily between the calls. -/
inductive MapTrace (kt vt : Ty) (nm : Name) : World → List (MapOp × List Val) → World → Prop
  | nil (w : World) : MapTrace kt vt nm w [] w
  | step {w w' : World} {g g' : Store World} {ops no nl op f args vs} :
      MapTrace kt vt nm w ops g.host → readIdent g.mem no nl = some nm →
      MapCall kt vt g no nl op f args → hostFn f args g = .ret vs g' → g'.host = w' →
      MapTrace kt vt nm w (ops ++ [(op, vs)]) w'

/-- The specification of a sequence of operations: results in order and final entries. -/
noncomputable def mapRun (e : Value → Option Value) : List MapOp → List Bool × (Value → Option Value)
  | [] => ([], e)
  | op :: ops =>
    let (b, e') := op.spec e
    let (bs, e'') := mapRun e' ops
    (b :: bs, e'')

theorem mapRun_snoc (e : Value → Option Value) (ops : List MapOp) (op : MapOp) :
    mapRun e (ops ++ [op]) =
      ((mapRun e ops).1 ++ [(op.spec (mapRun e ops).2).1], (op.spec (mapRun e ops).2).2) := by
  induction ops generalizing e with
  | nil => simp [mapRun]
  | cons o os ih => simp [mapRun, ih]

/-- **C45.** Over any sequence of operations, the returned booleans and the final entries are those
of the specification; all other data stays as it was. -/
theorem C45_map_history {nm : Name} {d : DataMap} {w w' : World} {tr : List (MapOp × List Val)}
    (hpend : w.pending = true) (hro : w.cur.readOnly = false)
    (hd : w.cur.db.map w.contract nm = some d) (h : MapTrace d.key d.val nm w tr w') :
    tr.map (·.2) = (mapRun d.entry (tr.map (·.1))).1.map encB ∧
    w'.cur.db.map w.contract nm = some { d with entry := (mapRun d.entry (tr.map (·.1))).2 } ∧
    w' = { w with cur := { w.cur with db := { w.cur.db with map := w'.cur.db.map } } } ∧
    ∀ c m, ¬ (c = w.contract ∧ m = nm) → w'.cur.db.map c m = w.cur.db.map c m := by
  induction h with
  | nil => exact ⟨rfl, hd, rfl, fun _ _ _ => rfl⟩
  | step _ hnm hc he hw ih =>
    rename_i g g' ops no nl op f args vs ht
    obtain ⟨h1, h2, h3, h4⟩ := ih
    have hcon : g.host.contract = w.contract := by rw [h3]
    have hp' : g.host.pending = true := by rw [h3]; exact hpend
    have hr' : g.host.cur.readOnly = false := by rw [h3]; exact hro
    obtain ⟨g'', e1, e2, e3, e4⟩ := C45_map_op
      (d := { d with entry := (mapRun d.entry (ops.map (·.1))).2 }) hnm hp' hr' (by rw [hcon]; exact h2) hc
    rw [he] at e1
    simp only [HRes.ret.injEq] at e1
    obtain ⟨rfl, rfl⟩ := e1
    subst hw
    refine ⟨?_, ?_, ?_, ?_⟩
    · simp [mapRun_snoc, h1]
    · rw [← hcon, e2]; simp [mapRun_snoc]
    · rw [e4]
      simp only
      rw [h3]
    · intro c m hcm
      rw [e3 c m (by rw [hcon]; exact hcm), h4 c m hcm]

/-- **C45.** In a read-only context every map write aborts, and nothing has changed. -/
theorem C45_map_read_only {g : Store World} {f : HostFn} {args : List Val}
    (hf : f ∈ [HostFn.map_set, .map_insert, .map_delete]) (hro : g.host.cur.readOnly = true) :
    hostFn f args g = .err g := by
  simp only [List.mem_cons, List.mem_nil_iff, or_false] at hf
  rcases hf with rfl | rfl | rfl <;> unfold hostFn <;> dsimp only <;> split <;>
    first
    | rfl
    | (unfold orErr; split
       · simp [mapSet, mapInsert, mapDelete, hro]
       · rfl)

/-- **C45** (partial). `map-get?` delivers, as a value of the optional type in the result area,
exactly the entry of the key, and changes nothing in the host. Missing: value types with traits
inside, which the host cannot write (C21). -/
theorem C45_map_get_partial {g : Store World} {no nl ko kl ro rl : BitVec 32} {nm : Name}
    {d : DataMap} {k : Value} (hnm : readIdent g.mem no nl = some nm)
    (hd : g.host.view.map g.host.contract nm = some d)
    (hk : HasType d.key k) (rk : readArg d.key g.mem ko kl = some k)
    (hT : d.val.WF) (hp : Plain d.val) (he : ∀ v, d.entry k = some v → HasType d.val v)
    (hm : g.mem.size < 2 ^ 31)
    (hroom : ro.toNat + typeSize (.opt d.val) + (typeInMemorySize true (.opt d.val) -
      typeSize (.opt d.val)) ≤ g.mem.size) :
    ∃ g', hostFn .map_get [.i32 no, .i32 nl, .i32 ko, .i32 kl, .i32 ro, .i32 rl] g = .ret [] g' ∧
      g'.host = g.host ∧ g'.g32 = g.g32 ∧ g'.mem.size = g.mem.size ∧
      (∀ i, (i < ro.toNat ∨ ro.toNat + typeInMemorySize true (.opt d.val) ≤ i) →
        g'.mem.byte i = g.mem.byte i) ∧
      readFromWasmIndirect (.opt d.val) g'.mem ro.toNat =
        some (optVal (d.entry k)) := by
  have hr : HasType (.opt d.val) (optVal (d.entry k)) := by
    cases hek : d.entry k with
    | none => simp [optVal, HasType]
    | some v => simp only [optVal, HasType]; exact he v hek
  obtain ⟨m', a, b, h1, h2, h3, h4⟩ := C21_write_read_partial (.opt d.val) _ hT hp hr g.mem ro.toNat
    (ro.toNat + typeSize (.opt d.val)) hm (Nat.le_refl _) hroom
  obtain ⟨ha, hab⟩ := C22_written_fits (.opt d.val) _ hT hr g.mem m' _ _ _ _ h1
  refine ⟨withMem g m', ?_, rfl, rfl, h2, ?_, h4 m' h2 fun _ _ => rfl⟩
  · simp only [hostFn, hnm, orErr, mapGet, hd, rk, hk, if_true]
    rw [h1]
  · intro i hi
    exact h3 i (by omega) (by omega)

/-- **C45** (partial). `var-get` after `var-set`: whatever happened in between to memory and to the
rest of the store, as long as no other write to the variable, the value delivered is the one set.
Missing: types with traits inside. -/
theorem C45_var_partial {g g₁ g₂ : Store World} {no nl vo vl no' nl' ro rl : BitVec 32} {nm : Name}
    {d : DataVar} {v : Value} (hnm : readIdent g.mem no nl = some nm)
    (hd : g.host.view.var g.host.contract nm = some d)
    (hv : HasType d.ty v) (rv : readArg d.ty g.mem vo vl = some v)
    (hset : hostFn .set_variable [.i32 no, .i32 nl, .i32 vo, .i32 vl] g = .ret [] g₁)
    (hcon : g₂.host.contract = g.host.contract) (hpend : g₂.host.pending = true)
    (hsame : g₂.host.cur.db.var g.host.contract nm = g₁.host.cur.db.var g.host.contract nm)
    (hnm' : readIdent g₂.mem no' nl' = some nm)
    (hT : d.ty.WF) (hp : Plain d.ty) (hm : g₂.mem.size < 2 ^ 31)
    (hroom : ro.toNat + typeSize d.ty + (typeInMemorySize true d.ty - typeSize d.ty) ≤ g₂.mem.size) :
    ∃ g₃, hostFn .get_variable [.i32 no', .i32 nl', .i32 ro, .i32 rl] g₂ = .ret [] g₃ ∧
      g₃.host = g₂.host ∧ readFromWasmIndirect d.ty g₃.mem ro.toNat = some v := by
  have h1 : g₁.host.cur.db.var g.host.contract nm = some { d with val := v } := by
    simp only [hostFn, hnm, orErr, setVariable, hd, rv, hv, if_true, HRes.ret.injEq, true_and] at hset
    rw [← hset]
    simp [withHost, World.setDb, upd₂]
  obtain ⟨m', a, b, e1, e2, e3, e4⟩ := C21_write_read_partial d.ty v hT hp hv g₂.mem ro.toNat
    (ro.toNat + typeSize d.ty) hm (Nat.le_refl _) hroom
  refine ⟨withMem g₂ m', ?_, rfl, e4 m' e2 fun _ _ => rfl⟩
  simp only [hostFn, hnm', orErr, getVariable, view_eq hpend, hcon, hsame, h1, e1]

/-- **C45.** `var-set` always succeeds for a declared variable and a value of its type, and changes
exactly that variable. -/
theorem C45_var_set {g : Store World} {no nl vo vl : BitVec 32} {nm : Name}
    {d : DataVar} {v : Value} (hnm : readIdent g.mem no nl = some nm)
    (hd : g.host.view.var g.host.contract nm = some d)
    (hv : HasType d.ty v) (rv : readArg d.ty g.mem vo vl = some v) :
    ∃ g₁, hostFn .set_variable [.i32 no, .i32 nl, .i32 vo, .i32 vl] g = .ret [] g₁ ∧
      g₁.host.cur.db.var g.host.contract nm = some { d with val := v } ∧
      (∀ c m, ¬ (c = g.host.contract ∧ m = nm) → g₁.host.cur.db.var c m = g.host.cur.db.var c m) ∧
      g₁ = { g with host := { g.host with cur := { g.host.cur with
        db := { g.host.cur.db with var := g₁.host.cur.db.var } } } } := by
  simp only [hostFn, hnm, orErr, setVariable, hd, rv, hv, if_true]
  refine ⟨_, rfl, ?_, ?_, ?_⟩
  · simp [withHost, World.setDb, upd₂]
  · intro c m h
    simp [withHost, World.setDb, upd₂, h]
  · simp [withHost, World.setDb]

/-! ### A concrete state -/

/-- The example store of `Props/Ledger.lean` with a variable and a map named `t`. -/
def dataStore : Store World :=
  { ledgerStore with host := { ledgerStore.host with cur := { ledgerStore.host.cur with
    db := { ledgerDb with
      var := fun c n => if c = ledgerC ∧ n = [116#8] then some ⟨.bool, .bool false⟩ else none
      map := fun c n => if c = ledgerC ∧ n = [116#8] then some ⟨.bool, .bool, fun _ => none⟩
        else none } } } }

/-- `(map-insert t true true)` in the example store. -/
example : ∃ g', hostFn .map_insert [.i32 0#32, .i32 1#32, .i32 300#32, .i32 4#32, .i32 300#32, .i32 4#32]
    dataStore = .ret (encB true) g' := by
  have hr : readArg .bool ledgerMem 300#32 4#32 = some (.bool true) := by
    simp only [readArg, isInMemoryType, readFromWasm]; rfl
  obtain ⟨g', h, -⟩ := C45_map_op (g := dataStore) (no := 0#32) (nl := 1#32) (nm := [116#8])
    (d := ⟨.bool, .bool, fun _ => none⟩) (op := .insert (.bool true) (.bool true)) (f := .map_insert)
    (args := [.i32 0#32, .i32 1#32, .i32 300#32, .i32 4#32, .i32 300#32, .i32 4#32])
    (by decide +kernel) rfl rfl (by simp [dataStore, ledgerStore])
    (.insert (by simp [HasType]) (by simp [HasType]) hr hr)
  simp only [MapOp.spec] at h
  exact ⟨g', h⟩

/-- `(var-set t true)` in the example store. -/
example : ∃ g', hostFn .set_variable [.i32 0#32, .i32 1#32, .i32 300#32, .i32 4#32] dataStore =
    .ret [] g' := by
  have hr : readArg .bool ledgerMem 300#32 4#32 = some (.bool true) := by
    simp only [readArg, isInMemoryType, readFromWasm]; rfl
  obtain ⟨g', h, -⟩ := C45_var_set (g := dataStore) (no := 0#32) (nl := 1#32) (vo := 300#32)
    (vl := 4#32) (nm := [116#8]) (d := ⟨.bool, .bool false⟩) (v := .bool true) (by decide +kernel)
    (by simp [dataStore, ledgerStore, World.view]) (by simp [HasType]) hr
  exact ⟨g', h⟩

end Props
