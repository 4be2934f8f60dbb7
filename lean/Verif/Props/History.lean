import Verif.Props.Run

/-!
Property C46 over histories: a sequence of calls from outside, each in a new instance of the module
(`call_function` instantiates it for every call, `/repo/clar2wasm/src/wasm_utils.rs` 1262-1287), gives
what Clarity gives.
-/

namespace Props
open Wasm Spec Host Core Gen

/-- A call from outside: function `j`, with definition `f`, on arguments `vs`, in the execution context
`c`, which is that of the host `w`. -/
structure Tx where
  j : Nat
  f : FunDef
  vs : List Value
  c : Cx
  w : World

/-- A new instance of the module (`g0` is the instance before it is given a host), in the host `w` with
contract state `s`. -/
def start (g0 : Store World) (w : World) (s : St) : Store World := { g0 with host := put w s }

/-- What the caller sees. -/
inductive Answer
  | value (v : Value)
  | error (e : VmError)

/-- The changes of a call are kept unless it answers `(err …)`. -/
def txKeeps : Value → Bool
  | .err _ => false
  | _ => true

/-- The history of the compiled contract: from state `s` the calls have these answers and leave this
state. A call that aborts leaves no changes. -/
inductive Session (sig : List Byte → Option Ty) (M : Wasm.Mod World) (g0 : Store World) :
    St → List Tx → List Answer → St → Prop
  | nil {s : St} : Session sig M g0 s [] [] s
  | value {s s' : St} {t : Tx} {ts : List Tx} {v : Value} {w' : World} {as : List Answer} :
      Calls sig M t.j t.f.ret (passed t.f t.vs) (start g0 t.w s) (.value v w') →
      Session sig M g0 (if txKeeps v then ⟨w'.cur.db, w'.cur.events⟩ else s) ts as s' →
      Session sig M g0 s (t :: ts) (.value v :: as) s'
  | error {s s' : St} {t : Tx} {ts : List Tx} {e : VmError} {as : List Answer} :
      Calls sig M t.j t.f.ret (passed t.f t.vs) (start g0 t.w s) (.error (some e)) →
      Session sig M g0 s ts as s' → Session sig M g0 s (t :: ts) (.error e :: as) s'

/-- The history according to Clarity. -/
inductive ByClarity (K : Ctx) : St → List Tx → List Answer → St → Prop
  | nil {s : St} : ByClarity K s [] [] s
  | value {s s1 s' : St} {t : Tx} {ts : List Tx} {v : Value} {as : List Answer} :
      t.f.run (sem K.fns t.j) t.vs t.c s = .val v s1 →
      ByClarity K (if txKeeps v then s1 else s) ts as s' → ByClarity K s (t :: ts) (.value v :: as) s'
  | error {s s' : St} {t : Tx} {ts : List Tx} {code : Nat} {e : RtErr} {as : List Answer} :
      t.f.run (sem K.fns t.j) t.vs t.c s = .fail code → (code, e) ∈ docErrors →
      ByClarity K s ts as s' → ByClarity K s (t :: ts) (.error (.runtime e) :: as) s'

/-- No call of the history meets an operand combination on which the library deviates (C02, C03). -/
def Follows (K : Ctx) : St → List Tx → Prop
  | _, [] => True
  | s, t :: ts => match t.f.run (sem K.fns t.j) t.vs t.c s with
    | .val v s' => Follows K (if txKeeps v then s' else s) ts
    | .fail _ => Follows K s ts
    | .deviates => False
    | _ => True

/-- The call is one of a function of the contract `me`, on arguments of its parameter types, and the
instance has room for it. -/
structure Tx.Fits (K : Ctx) (me : ContractId) (g0 : Store World) (t : Tx) : Prop where
  fn : K.fns[t.j]? = some t.f
  me : t.w.contract = me
  cx : CxOk t.c t.w t.f.writes
  count : t.vs.length = t.f.params.length
  typed : ∀ a ∈ passed t.f t.vs, a.1.WF ∧ ArgTy a.1 ∧ HasType a.1 a.2
  ret : t.f.ret.WF ∧ ArgTy t.f.ret
  room : sp g0 + ((passed t.f t.vs).map fun a => typeInMemorySize false a.1).sum +
    ((passed t.f t.vs).map fun a => argIn a.1 a.2).sum + reserve t.f.ret + need K (t.j + 1) ≤ g0.mem.size

/-- The instance is that of the contract: its data segment holds the literals. -/
structure InstanceOf (K : Ctx) (g0 : Store World) : Prop where
  lits : LitOk K g0.mem (below (sp g0))
  small : g0.mem.size < 2 ^ 31

theorem Tx.Fits.outside {K : Ctx} {me : ContractId} {g0 : Store World} {t : Tx} (h : t.Fits K me g0) (hi : InstanceOf K g0)
    {s : St} (hs : StOk K me s) : Outside K t.j t.f t.c t.w s (start g0 t.w s) t.vs :=
  ⟨h.cx, rfl, h.me ▸ hs, hi.lits, h.count, h.typed, h.ret, h.room, hi.small⟩

/-- The declared variables, maps and tokens keep existing, with values of their types; the result has
the type of results of the function. -/
theorem run_ok_typed {K : Ctx} {M : Wasm.Mod World} (hC : ContractOk K) (hL : Linked K M) {j : Nat} {f : FunDef}
    (hf : K.fns[j]? = some f) {c : Cx} {w : World} {s : St} {g : Store World} {vs : List Value}
    (h : Outside K j f c w s g vs) {v : Value} {s' : St} (hr : f.run (sem K.fns j) vs c s = .val v s') :
    StOk K w.contract s' ∧ HasType f.ret v := by
  obtain ⟨ws, g1, _, _, hd⟩ := h.ready
  have hg := good_fn hC hL j f hf (fun _ => False) vs ws c w s g1 hd.cx (hd.inv hf) hd.args
  rw [hr] at hg
  obtain ⟨r, _, _, us, g', hi, _, _, _, _, _, hst, _, _, hrep⟩ := call_iff (hg (by simp))
  exact ⟨hst, hrep.hasType⟩

/-- The error of a code is determined. -/
theorem docErrors_unique {n : Nat} {e e' : RtErr} (h : (n, e) ∈ docErrors) (h' : (n, e') ∈ docErrors) : e = e' := by
  have : ∀ p ∈ docErrors, ∀ q ∈ docErrors, p.1 = q.1 → p.2 = q.2 := by decide +kernel
  exact this _ h _ h' rfl

/-- **C46 over histories.** Whatever calls are made one after the other, by whomever: the compiled
contract has a history, and its histories are exactly those of Clarity: the same answers, values and
errors, and the same state and events in the end. Missing: as in `C46_call_from_outside_partial`. -/
theorem C46_history_partial (sig : List Byte → Option Ty) (K : Ctx) (M : Wasm.Mod World) (hC : ContractOk K)
    (hL : Linked K M) (me : ContractId) (g0 : Store World) (hi : InstanceOf K g0) (ts : List Tx)
    (ht : ∀ t ∈ ts, t.Fits K me g0) (s : St) (hs : StOk K me s) (hf : Follows K s ts) :
    (∃ as s', Session sig M g0 s ts as s') ∧
    ∀ as s', Session sig M g0 s ts as s' ↔ ByClarity K s ts as s' := by
  induction ts generalizing s with
  | nil =>
    refine ⟨⟨[], s, .nil⟩, fun as s' => ⟨fun h => ?_, fun h => ?_⟩⟩
    · cases h; exact .nil
    · cases h; exact .nil
  | cons t ts ih =>
    have h1 := ht t (.head _)
    have ho := h1.outside hi hs
    have hc := C46_call_from_outside_partial sig K M hC hL t.j t.f h1.fn t.c t.w s _ t.vs ho
    have hst := fun v s' => run_ok_typed hC hL h1.fn ho (v := v) (s' := s')
    simp only [Follows] at hf
    cases hr : t.f.run (sem K.fns t.j) t.vs t.c s with
    | deviates => rw [hr] at hf; exact hf.elim
    | ret _ _ => rw [hr] at hc; exact hc.elim
    | wrong => rw [hr] at hc; exact hc.elim
    | val v s1 =>
      rw [hr] at hc hf
      have hs1 : StOk K me s1 := h1.me ▸ (hst v s1 hr).1
      have hk : StOk K me (if txKeeps v then s1 else s) := by split <;> assumption
      obtain ⟨⟨as, s', e⟩, q⟩ := ih (fun t h => ht t (.tail _ h)) _ hk hf
      refine ⟨⟨_, s', .value ((hc _).2 rfl) e⟩, fun as s' => ⟨fun h => ?_, fun h => ?_⟩⟩
      · cases h with
        | value a b =>
          have := (hc _).1 a
          cases this
          exact .value hr ((q _ _).1 b)
        | error a b => have := (hc _).1 a; cases this
      · cases h with
        | value a b =>
          rw [hr] at a
          cases a
          exact .value ((hc _).2 rfl) ((q _ _).2 b)
        | error a _ _ => rw [hr] at a; cases a
    | fail n =>
      rw [hr] at hc hf
      obtain ⟨x, hx, hc⟩ := hc
      obtain ⟨⟨as, s', e⟩, q⟩ := ih (fun t h => ht t (.tail _ h)) _ hs hf
      refine ⟨⟨_, s', .error ((hc _).2 rfl) e⟩, fun as s' => ⟨fun h => ?_, fun h => ?_⟩⟩
      · cases h with
        | error a b =>
          have := (hc _).1 a
          cases this
          exact .error hr hx ((q _ _).1 b)
        | value a b => have := (hc _).1 a; cases this
      · cases h with
        | error a a' b =>
          rw [hr] at a
          cases a
          obtain rfl := docErrors_unique hx a'
          exact .error ((hc _).2 rfl) ((q _ _).2 b)
        | value a _ => rw [hr] at a; cases a

/-- The answer, if a value, has the declared type of results. -/
def Answer.Typed (T : Ty) : Answer → Prop
  | .value v => HasType T v
  | .error _ => True

/-- **C46, types.** Through any history every answer has the type its function declares, and the data
variables, maps and tokens keep existing, with values of their declared types. -/
theorem C46_history_typed_partial (sig : List Byte → Option Ty) (K : Ctx) (M : Wasm.Mod World) (hC : ContractOk K)
    (hL : Linked K M) (me : ContractId) (g0 : Store World) (hi : InstanceOf K g0) (ts : List Tx)
    (ht : ∀ t ∈ ts, t.Fits K me g0) (s : St) (hs : StOk K me s) (hf : Follows K s ts) (as : List Answer) (s' : St)
    (h : Session sig M g0 s ts as s') :
    StOk K me s' ∧ List.Forall₂ (fun t a => a.Typed t.f.ret) ts as := by
  replace h := ((C46_history_partial sig K M hC hL me g0 hi ts ht s hs hf).2 as s').1 h
  induction h with
  | nil => exact ⟨hs, .nil⟩
  | @value s s1 s2 t ts v as hr _ ih =>
    have h1 := ht t (.head _)
    have h2 := run_ok_typed hC hL h1.fn (h1.outside hi hs) hr
    simp only [Follows, hr] at hf
    obtain ⟨h3, h4⟩ := ih (fun t h => ht t (.tail _ h)) (by split; exact h1.me ▸ h2.1; exact hs) hf
    exact ⟨h3, .cons h2.2 h4⟩
  | error hr _ _ ih =>
    simp only [Follows, hr] at hf
    obtain ⟨h3, h4⟩ := ih (fun t h => ht t (.tail _ h)) hs hf
    exact ⟨h3, .cons trivial h4⟩

/-! ### An example: `(incr)` three times, from 9 -/

/-- The call. -/
def hiTx : Tx := ⟨1, cxIncr, [], cxCx, ledgerStore.host⟩

theorem hi_fits : hiTx.Fits cxK ledgerC cxStore where
  fn := rfl
  me := rfl
  cx := cx_ready.cx
  count := rfl
  typed a h := by simp [passed, hiTx, cxIncr] at h
  ret := by simp [hiTx, cxIncr, cxR, Ty.WF, ArgTy]
  room := by decide +kernel

theorem hi_run (n : Nat) (h : n + 1 < 2 ^ 128) : cxIncr.run (sem cxK.fns hiTx.j) hiTx.vs hiTx.c (cxSt n) =
    .val (if 10 < n + 1 then .err (.uint (n + 1)) else .ok (.uint (n + 1))) (cxSt (n + 1)) := cx_incr n h

/-- The hypotheses of `C46_history_partial` are met: the first call is kept, the next two fail and are
undone; this is the only history. -/
example (sig : List Byte → Option Ty) (as : List Answer) (s' : St) :
    Session sig (moduleOf cxK) cxStore (cxSt 9) [hiTx, hiTx, hiTx] as s' ↔
      as = [.value (.ok (.uint 10)), .value (.err (.uint 11)), .value (.err (.uint 11))] ∧ s' = cxSt 10 := by
  have r9 : hiTx.f.run (sem cxK.fns hiTx.j) hiTx.vs hiTx.c (cxSt 9) = .val (.ok (.uint 10)) (cxSt 10) := hi_run 9 (by decide)
  have r10 : hiTx.f.run (sem cxK.fns hiTx.j) hiTx.vs hiTx.c (cxSt 10) = .val (.err (.uint 11)) (cxSt 11) := hi_run 10 (by decide)
  have h := (C46_history_partial sig cxK (moduleOf cxK) cx_ok (linked_moduleOf cxK) ledgerC cxStore ⟨cx_ready.lits, by decide⟩
    [hiTx, hiTx, hiTx] (by simp only [List.mem_cons, List.not_mem_nil, or_false, or_self]; rintro _ rfl; exact hi_fits) (cxSt 9) (cx_st 9 (by decide))
    (by simp [Follows, r9, r10, txKeeps])).2 as s'
  rw [h]
  constructor
  · intro h
    cases h with
    | error a => rw [r9] at a; cases a
    | value a h =>
      rw [r9] at a; cases a
      simp only [txKeeps, if_true] at h
      cases h with
      | error a => rw [r10] at a; cases a
      | value a h =>
        rw [r10] at a; cases a
        simp only [txKeeps, Bool.false_eq_true, if_false] at h
        cases h with
        | error a => rw [r10] at a; cases a
        | value a h =>
          rw [r10] at a; cases a
          simp only [txKeeps, Bool.false_eq_true, if_false] at h
          cases h
          exact ⟨rfl, rfl⟩
  · rintro ⟨rfl, rfl⟩
    exact .value r9 (.value r10 (.value r10 .nil))

end Props
