import Verif.Props.CompileEx
import Verif.Props.Safety
import Verif.Gen.RepArgs
import Verif.Gen.Codes
import Verif.Host.Run

/-!
Property C46: calling a function of a contract from outside, with Clarity values in and out.

`Calls` (`Host/Run.lean`) is the model of `call_function`: arguments are written to the memory of the
instance, the function runs, its result is read back.
-/

namespace Props
open Wasm Spec Host Core Gen

theorem zip_types {f : FunDef} {vs : List Value} (h : vs.length = f.params.length) :
    (((f.params.map Prod.snd).zip vs).map (·.1)) = f.params.map Prod.snd ∧
    (((f.params.map Prod.snd).zip vs).map (·.2)) = vs :=
  ⟨List.map_fst_zip (by simp [h]), List.map_snd_zip (by simp [h])⟩

/-- The arguments as they are passed. -/
def passed (f : FunDef) (vs : List Value) : List (Ty × Value) := (f.params.map Prod.snd).zip vs

/-- A function is called from outside with arguments `vs` of its parameter types: `c` and `s` are the
execution context and state in the host state `w`, the data segment holds the literals, and the memory
has room, beyond the stack pointer, for the arguments, the result and the frames. -/
structure Outside (K : Ctx) (j : Nat) (f : FunDef) (c : Cx) (w : World) (s : St) (g : Store World)
    (vs : List Value) : Prop where
  cx : CxOk c w f.writes
  host : g.host = put w s
  st : StOk K w.contract s
  lits : LitOk K g.mem (below (sp g))
  count : vs.length = f.params.length
  typed : ∀ a ∈ passed f vs, a.1.WF ∧ ArgTy a.1 ∧ HasType a.1 a.2
  ret : f.ret.WF ∧ ArgTy f.ret
  room : sp g + ((passed f vs).map fun a => typeInMemorySize false a.1).sum +
    ((passed f vs).map fun a => argIn a.1 a.2).sum + reserve f.ret + need K (j + 1) ≤ g.mem.size
  small : g.mem.size < 2 ^ 31

/-- The function is started on representations of the arguments. -/
theorem Outside.ready {K : Ctx} {j : Nat} {f : FunDef} {c : Cx} {w : World} {s : St} {g : Store World}
    {vs : List Value} (h : Outside K j f c w s g vs) :
    ∃ ws g1, prepare f.ret (passed f vs) g = some (ws, g1) ∧ g1.mem.size = g.mem.size ∧ Ready K j f c w s g1 vs ws := by
  have hr := h.room
  have hs := h.small
  have hz := zip_types h.count
  have ho : ((passed f vs).map fun a => argOff a.1 a.2).sum ≤ ((passed f vs).map fun a => typeInMemorySize false a.1).sum :=
    sum_map_le fun a ha => argOff_le _ _ (h.typed a ha).2.2
  generalize hA : ((passed f vs).map fun a => typeInMemorySize false a.1).sum = A at *
  have hp := pass_all (passed f vs) h.typed (sp g) (sp g + A) g.mem ⟨by omega, by omega, by omega⟩
  generalize hB : ((passed f vs).map fun a => argOff a.1 a.2).sum = B at *
  generalize hI : ((passed f vs).map fun a => argIn a.1 a.2).sum = I at *
  obtain ⟨ws, m', h1, h2, h3, h4⟩ := hp
  have hm := h4 m' h2 (fun _ _ _ => rfl) (fun _ _ _ => rfl)
  rw [show (passed f vs).map (·.1) = _ from hz.1, show (passed f vs).map (·.2) = _ from hz.2] at hm
  have hsp : (BitVec.ofNat 32 (sp g + A + I + reserve f.ret)).toNat = sp g + A + I + reserve f.ret := by
    simp only [BitVec.toNat_ofNat]; omega
  obtain ⟨g1, hg1⟩ : ∃ g1 : Store World, g1 = { g with mem := m', g32 := fun x => if x = .stackPointer then BitVec.ofNat 32 (sp g + A + I + reserve f.ret) else g.g32 x } := ⟨_, rfl⟩
  have e1 : sp g1 = sp g + A + I + reserve f.ret := by subst hg1; exact hsp
  have e2 : g1.mem = m' := by subst hg1; rfl
  have e3 : g1.host = g.host := by subst hg1; rfl
  refine ⟨ws, g1, ?_, by rw [e2, h2], ⟨h.cx, by rw [e3]; exact h.host, h.st, ?_, by rw [e1, e2, h2]; omega, by rw [e2, h2]; omega, ?_⟩⟩
  · rw [hg1]
    simp only [prepare, passArgs, hA]
    show (passArgsFrom (passed f vs) (sp g) (sp g + A) g.mem).bind _ = _
    rw [show passArgsFrom (passed f vs) (sp g) (sp g + A) g.mem = _ from h1]
    rfl
  · intro bs hb
    obtain ⟨⟨l1, l2⟩, l3⟩ := h.lits bs hb
    have l1' : K.off bs + bs.length ≤ sp g := l1
    refine ⟨⟨?_, fun i _ _ h => h⟩, ?_⟩
    · show _ ≤ sp g1
      omega
    · rw [bytesAt_eq (m := g.mem) fun i i1 i2 => ?_, l3]
      rw [e2]
      exact h3 i (by omega) (by omega)
  · rw [e2]
    refine hm.mono (fun _ _ _ => rfl) ⟨?_, fun _ _ (h : False) => h.elim⟩
    show _ ≤ sp g1
    rw [e1]
    show sp g + A + I ≤ _
    omega

/-- **C46.** Calling a function of a well-typed contract from outside, with any arguments of the types
of its parameters: the caller gets the value that Clarity gives, and the state is the one that Clarity
gives, the rest of the host state being as before; or, if Clarity gives a runtime error, the caller gets
the documented error. There is no other answer (`Calls.unique`). Missing: as for C33; and the memory of
the instance must have room for the arguments (`Outside.room`), which the code does not provide for (see
`C46_no_room_counterexample`). -/
theorem C46_call_from_outside_partial (sig : List Byte → Option Ty) (K : Ctx) (M : Wasm.Mod World) (hC : ContractOk K)
    (hL : Linked K M) (j : Nat) (f : FunDef) (hf : K.fns[j]? = some f) (c : Cx) (w : World) (s : St) (g : Store World)
    (vs : List Value) (h : Outside K j f c w s g vs) :
    match f.run (sem K.fns j) vs c s with
    | .val v s' => ∀ a, Calls sig M j f.ret (passed f vs) g a ↔ a = .value v (put w s')
    | .fail code => ∃ e, (code, e) ∈ docErrors ∧
        ∀ a, Calls sig M j f.ret (passed f vs) g a ↔ a = .error (some (.runtime e))
    | .deviates => True
    | _ => False := by
  obtain ⟨ws, g1, hp, hz, hr⟩ := h.ready
  have hg := C33_compiled_functions_partial K M hC hL j f hf c w s g1 vs ws hr
  have hk := run_codes (sem_codes K.fns j) f vs c s
  have fin : ∀ r, r ≠ .oof → Runs M (.user j) ws g1 r → ∀ a, Calls sig M j f.ret (passed f vs) g a ↔ a = finish sig f.ret r := by
    intro r h0 hrun a
    exact ⟨fun h => h.unique (.runs hp h0 hrun), fun h => h ▸ .runs hp h0 hrun⟩
  generalize f.run (sem K.fns j) vs c s = o at hg hk ⊢
  cases o with
  | deviates => trivial
  | ret _ _ => exact hg
  | wrong => exact hg
  | val v s' =>
    obtain ⟨us, g', h1, h2, h3, h4⟩ := hg
    intro a
    rw [fin _ (by simp) h1 a]
    have := Rep.back (pre := []) (post := []) (Nat.le_refl _) (by rw [h4, hz]; exact h.small) h.ret.1 h.ret.2 h3
    simp only [List.nil_append, List.append_nil, List.length_nil] at this
    simp only [finish, this, h2]
  | fail code =>
    obtain ⟨g', h1, h2⟩ := hg
    have := hk code rfl
    have hd : ∀ code ∈ [eOverflow, eUnderflow, eDivZero, eLog2, eSqrti, ePanic, eBadType, ePow], ∃ e, (code, e) ∈ docErrors := by
      intro code h
      simp only [List.mem_cons, List.not_mem_nil, or_false] at h
      rcases h with rfl | rfl | rfl | rfl | rfl | rfl | rfl | rfl
      · exact ⟨.arithmeticOverflow, by simp [docErrors, eOverflow]⟩
      · exact ⟨.arithmeticUnderflow, by simp [docErrors, eUnderflow]⟩
      · exact ⟨.divisionByZero, by simp [docErrors, eDivZero]⟩
      · exact ⟨.arithmeticLog2, by simp [docErrors, eLog2]⟩
      · exact ⟨.arithmeticSqrti, by simp [docErrors, eSqrti]⟩
      · exact ⟨.unwrapFailure, by simp [docErrors, ePanic]⟩
      · exact ⟨.badTypeConstruction, by simp [docErrors, eBadType]⟩
      · exact ⟨.arithmeticPow, by simp [docErrors, ePow]⟩
    obtain ⟨e, he⟩ := hd code this
    refine ⟨e, he, fun a => ?_⟩
    rw [fin _ (by simp) h1 a]
    have h5 := C25_documented sig g' code e he
    have : fromRuntimeErrorCode sig g' = some (.runtime e) := by
      simp only [docErrors, List.mem_cons, Prod.mk.injEq, List.not_mem_nil, or_false] at he
      rcases he with ⟨rfl, rfl⟩ | ⟨rfl, rfl⟩ | ⟨rfl, rfl⟩ | ⟨rfl, rfl⟩ | ⟨rfl, rfl⟩ | ⟨rfl, rfl⟩ |
        ⟨rfl, rfl⟩ | ⟨rfl, rfl⟩ <;> (unfold fromRuntimeErrorCode; rw [h2]; rfl)
    simp only [finish, this]

/-- Room for the largest values of the parameter types is enough for all arguments. -/
theorem C46_room {f : FunDef} {vs : List Value} (h : ∀ a ∈ passed f vs, HasType a.1 a.2) :
    ((passed f vs).map fun a => argIn a.1 a.2).sum ≤ ((passed f vs).map fun a => typeInMemorySize true a.1).sum :=
  sum_map_le fun a ha => argIn_le _ _ (h a ha)

/-! ### An example

```
(define-read-only (big (n (buff 100000))) true)
(define-read-only (echo (n (buff 4))) (some n))
```
-/

def runBig : FunDef := ⟨[(cxN, .buff 100000)], .bool, .ro, false, .lit (.bool true)⟩
def runEcho : FunDef := ⟨[(cxN, .buff 4)], .opt (.buff 4), .ro, false, .prim .some_ (.cons (.buff 4) (.var cxN) .nil)⟩

def runK : Ctx where
  fns := [runBig, runEcho]
  off _ := 0
  lits := []
  vars _ := none
  maps _ := none

theorem run_ok : ContractOk runK where
  fns k f h := by
    match k, h with
    | 0, h =>
      obtain rfl : runBig = f := Option.some.inj h
      refine ⟨?_, by simp [runBig], by simp [runBig], by simp [runBig]⟩
      simp [runBig, wt, LitTy, LitIn, HasType, Fit.refl]
    | 1, h =>
      obtain rfl : runEcho = f := Option.some.inj h
      refine ⟨?_, by simp [runEcho], by simp [runEcho], by simp [runEcho]⟩
      simp [runEcho, wt, wts, Gen.tys, primTy, look, Fit.refl]
    | k + 2, h => simp [runK] at h
  vars x T h := by simp [runK] at h
  maps x D V h := by simp [runK] at h

theorem run_outside : Outside runK 1 runEcho cxCx ledgerStore.host (cxSt 9) cxStore [.buff [1#8, 2#8, 3#8]] where
  cx := { cx_ready.cx with writable := fun h => by cases h }
  host := rfl
  st := ⟨fun x T h => by simp [runK] at h, fun x D V h => by simp [runK] at h, fun x h => by simp [runK] at h⟩
  lits bs h := by simp [runK] at h
  count := rfl
  typed a h := by
    simp only [passed, runEcho, List.map_cons, List.map_nil, List.zip_cons_cons, List.zip_nil_left, List.mem_singleton] at h
    subst h
    simp [Ty.WF, ArgTy, HasType]
  ret := by simp [runEcho, Ty.WF, ArgTy]
  room := by decide +kernel
  small := by decide

/-- The hypotheses of `C46_call_from_outside_partial` are met: `(echo 0x010203)` is `(some 0x010203)`. -/
example (sig : List Byte → Option Ty) (a : Reply) :
    Calls sig (moduleOf runK) 1 (.opt (.buff 4)) [(.buff 4, .buff [1#8, 2#8, 3#8])] cxStore a ↔
      a = .value (.some (.buff [1#8, 2#8, 3#8])) (put ledgerStore.host (cxSt 9)) := by
  have h := C46_call_from_outside_partial sig runK (moduleOf runK) run_ok (linked_moduleOf runK) 1 runEcho rfl cxCx _ _ _ _
    run_outside
  have hr : runEcho.run (sem runK.fns 1) [.buff [1#8, 2#8, 3#8]] cxCx (cxSt 9) =
      .val (.some (.buff [1#8, 2#8, 3#8])) (cxSt 9) := by
    simp [runEcho, FunDef.run, eval, evals, Env.get, Out.bind, Out.body, Prim.eval, Ans.out]
  rw [hr] at h
  exact h a

/-- **C46**, what is missing: the memory of the module is as large as its literals, stack frames and
work spaces (wasm_generator.rs 361-378), 65536 bytes for the contract above, and is never enlarged for the
arguments. `(big 0x0000...)` with an argument of more than that is `true` in Clarity; the call fails
with an internal error. -/
theorem C46_no_room_counterexample (sig : List Byte → Option Ty) (M : Wasm.Mod World) (g : Store World) (bs : List Byte)
    (hm : g.mem.size = memoryBytes (sp g) (need runK 2) 0) (h0 : 0 < sp g) (hs : sp g < 60000) (hb : 65536 ≤ bs.length) (hb' : bs.length ≤ 100000)
    (c : Cx) (s : St) :
    HasType (.buff 100000) (.buff bs) ∧ runBig.run (sem runK.fns 0) [.buff bs] c s = .val (.bool true) s ∧
    ∀ a, Calls sig M 0 runBig.ret (passed runBig [.buff bs]) g a ↔ a = .internal := by
  have hn : need runK 2 = 0 := by decide +kernel
  have hz : g.mem.size = 65536 := by rw [hm, hn]; unfold memoryBytes; simp only; split <;> omega
  have hp : prepare runBig.ret (passed runBig [.buff bs]) g = none := by
    simp only [prepare, passArgs, passed, runBig, List.map_cons, List.map_nil, List.zip_cons_cons, List.zip_nil_left,
      passArgsFrom, passArg, passBytes, memWrite]
    rw [if_neg (by unfold sp at h0; omega)]
    rfl
  refine ⟨by simp [HasType, hb'], by simp [runBig, FunDef.run, eval, Out.body], fun a => ?_⟩
  exact ⟨fun h => h.unique (.noArgs hp), fun h => h ▸ .noArgs hp⟩

end Props
