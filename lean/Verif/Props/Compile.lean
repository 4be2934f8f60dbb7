import Verif.Gen.ExprProof8
import Verif.Gen.Tidy

/-!
Properties C33, C34, C36, C38, C43: compiled functions mean what Clarity says.

`Core` (`Spec/Core.lean`) is the meaning of the source language: `FunDef.run` evaluates the body of a
function on Clarity values, `sem` resolves calls of earlier functions. `Gen.compileFn`
(`Gen/Compile.lean`) is the code generator. `Rep` (`Gen/Rep.lean`) says which Wasm values represent a
Clarity value. Everything here is about executions of the generated code.
-/

namespace Props
open Wasm Spec Host Core Gen

/-- The whole memory below the stack pointer. -/
def below (n : Nat) : Reg := ⟨n, fun _ => False⟩

/-- The situation when function `f`, number `j` of the contract `K`, is called: the execution context
`c` and the contract state `s` are those of the host state `w`, the data segment holds the literals,
the memory has room for the stack of the function and of the functions it may call, and `ws` are the
arguments `vs`. -/
structure Ready (K : Ctx) (j : Nat) (f : FunDef) (c : Cx) (w : World) (s : St) (g : Store World)
    (vs : List Value) (ws : List Val) : Prop where
  cx : CxOk c w f.writes
  host : g.host = put w s
  st : StOk K w.contract s
  lits : LitOk K g.mem (below (sp g))
  room : sp g + need K (j + 1) ≤ g.mem.size
  small : g.mem.size + 65536 ≤ 2 ^ 32
  args : RepAll g.mem (below (sp g)) (f.params.map Prod.snd) vs ws

theorem Ready.inv {K : Ctx} {M : Wasm.Mod World} {j : Nat} {f : FunDef} {c : Cx} {w : World} {s : St} {g : Store World}
    {vs : List Value} {ws : List Val} (h : Ready K j f c w s g vs ws) (hf : K.fns[j]? = some f) :
    Inv ⟨K, M, need K j, f.ret, fun _ => False⟩ w s (compileFn K f).2 g :=
  ⟨h.host, h.st, h.lits, fun _ h => h.elim, by have := h.room; rw [need_succ hf] at this; show _ + need K j ≤ _; omega, h.small⟩

theorem call_iff {M : Wasm.Mod World} {f : FId} {args : List Val} {g : Store World} {Q : CRes World → Prop}
    (h : Call M f args g Q) : ∃ r, r ≠ .oof ∧ Runs M f args g r ∧ Q r := by
  obtain ⟨n, r, h1, h2, h3⟩ := h
  exact ⟨r, h2, ⟨n, fun m hm => by rw [invoke_mono hm (by rw [h1]; exact h2), h1]⟩, h3⟩

/-- **C33.** A call of a compiled function of a well-typed contract terminates. If Clarity gives a
value `v` and state `s'` the code returns Wasm values representing `v`, and the host state is the old
one with `s'`; if Clarity gives a runtime error, the code aborts with the code of that error. Nothing
else can happen. Missing: nothing is claimed when an operand combination is met on which the library
deviates (C02, C03); `asserts!` with a thrown expression that has effects, variadic operators whose
later operands have effects, early returns inside `as-contract`, and `try!` of an optional in a
function returning another optional type are excluded by `ContractOk`, as they are compiled wrongly
(see the counterexamples below); language constructs outside `Core.Expr` are not covered. -/
theorem C33_compiled_functions_partial (K : Ctx) (M : Wasm.Mod World) (hC : ContractOk K) (hL : Linked K M)
    (j : Nat) (f : FunDef) (hf : K.fns[j]? = some f) (c : Cx) (w : World) (s : St) (g : Store World)
    (vs : List Value) (ws : List Val) (h : Ready K j f c w s g vs ws) :
    match f.run (sem K.fns j) vs c s with
    | .val v s' => ∃ us g', Runs M (.user j) ws g (.ret us g') ∧ g'.host = put w s' ∧
        Rep g'.mem (below g'.mem.size) f.ret v us ∧ g'.mem.size = g.mem.size
    | .fail code => ∃ g', Runs M (.user j) ws g (.trap g') ∧ g'.g32 .errCode = BitVec.ofNat 32 code
    | .deviates => True
    | _ => False := by
  have hg := good_fn hC hL j f hf (fun _ => False) vs ws c w s g h.cx (h.inv hf) h.args
  cases hr : f.run (sem K.fns j) vs c s with
  | deviates => trivial
  | val v s' =>
    rw [hr] at hg
    obtain ⟨r, _, h1, us, g', hi, rfl, _, _, hsz, h3, _, _, h4, h5⟩ := call_iff (hg (by simp))
    exact ⟨us, g', h1, h3, Rep.mono (b := ⟨hi, fun _ => False⟩) (b' := below g'.mem.size) (fun _ _ _ => rfl) ⟨by show hi ≤ g'.mem.size; omega, fun _ _ h => h⟩ h5, hsz⟩
  | fail code =>
    rw [hr] at hg
    obtain ⟨r, _, h1, g', rfl, h2⟩ := call_iff (hg (by simp))
    exact ⟨g', h1, h2⟩
  | ret v s' =>
    rw [hr] at hg
    obtain ⟨r, _, h1, h2⟩ := call_iff (hg (by simp))
    exact h2
  | wrong =>
    rw [hr] at hg
    obtain ⟨r, _, h1, h2⟩ := call_iff (hg (by simp))
    exact h2

/-! ### C34: `and` and `or` -/

/-- Operands are evaluated one after the other as long as they give `!stop`; the first one that gives
`stop` decides, the others are not evaluated; an operand that fails or returns early does so for the
whole expression. -/
inductive ShortCircuit (call : FSem) (ρ : Env) (c : Cx) (stop : Bool) : Exprs → St → Out Value → Prop
  | none {s : St} : ShortCircuit call ρ c stop .nil s (.val (.bool (!stop)) s)
  | more {T : Ty} {e : Expr} {es : Exprs} {s s' : St} {o : Out Value} :
      eval call e ρ c s = .val (.bool (!stop)) s' → ShortCircuit call ρ c stop es s' o →
      ShortCircuit call ρ c stop (.cons T e es) s o
  | decides {T : Ty} {e : Expr} {es : Exprs} {s s' : St} :
      eval call e ρ c s = .val (.bool stop) s' →
      ShortCircuit call ρ c stop (.cons T e es) s (.val (.bool stop) s')
  | leaves {T : Ty} {e : Expr} {es : Exprs} {s : St} {o : Out Value} :
      eval call e ρ c s = o → (∀ v s', o ≠ .val v s') →
      ShortCircuit call ρ c stop (.cons T e es) s o

theorem evalAnd_of {call : FSem} {ρ : Env} {c : Cx} {es : Exprs} {s : St} {o : Out Value}
    (h : ShortCircuit call ρ c false es s o) : eval call (.and_ es) ρ c s = o := by
  simp only [eval]
  induction h with
  | none => rfl
  | more h1 _ ih => rw [evalAnd, h1]; exact ih
  | decides h1 => rw [evalAnd, h1]; rfl
  | leaves h1 h2 =>
    rw [evalAnd, h1]
    rename_i o
    cases o with
    | val v s' => exact absurd rfl (h2 v s')
    | _ => rfl

theorem evalOr_of {call : FSem} {ρ : Env} {c : Cx} {es : Exprs} {s : St} {o : Out Value}
    (h : ShortCircuit call ρ c true es s o) : eval call (.or_ es) ρ c s = o := by
  simp only [eval]
  induction h with
  | none => rfl
  | more h1 _ ih => rw [evalOr, h1]; exact ih
  | decides h1 => rw [evalOr, h1]; rfl
  | leaves h1 h2 =>
    rw [evalOr, h1]
    rename_i o
    cases o with
    | val v s' => exact absurd rfl (h2 v s')
    | _ => rfl

/-- The operands as a list. -/
def exprList : Exprs → List (Ty × Expr)
  | .nil => []
  | .cons T e es => (T, e) :: exprList es

/-- Every operand list has such an evaluation, unless one of the operands is ill-typed. -/
theorem shortCircuit_total (call : FSem) (ρ : Env) (c : Cx) (stop : Bool) : ∀ (es : Exprs) (s : St),
    (∃ o, ShortCircuit call ρ c stop es s o) ∨
    ∃ T e s1 v s2, (T, e) ∈ exprList es ∧ eval call e ρ c s1 = .val v s2 ∧ ∀ b, v ≠ .bool b
  | .nil, s => Or.inl ⟨_, .none⟩
  | .cons T e es, s => by
    cases h : eval call e ρ c s with
    | val v s' =>
      by_cases hv : ∃ b, v = .bool b
      · obtain ⟨b, rfl⟩ := hv
        by_cases hb : b = stop
        · subst hb; exact Or.inl ⟨_, .decides h⟩
        · obtain rfl : b = !stop := by cases b <;> cases stop <;> simp_all
          rcases shortCircuit_total call ρ c stop es s' with ⟨o, ho⟩ | ⟨T', e', s1, v, s2, h1, h2, h3⟩
          · exact Or.inl ⟨o, .more h ho⟩
          · exact Or.inr ⟨T', e', s1, v, s2, by simp [exprList, h1], h2, h3⟩
      · exact Or.inr ⟨T, e, s, v, s', by simp [exprList], h, fun b hb => hv ⟨b, hb⟩⟩
    | ret v s' => exact Or.inl ⟨_, .leaves h (by simp)⟩
    | fail code => exact Or.inl ⟨_, .leaves h (by simp)⟩
    | deviates => exact Or.inl ⟨_, .leaves h (by simp)⟩
    | wrong => exact Or.inl ⟨_, .leaves h (by simp)⟩

/-- How executions of code for a boolean expression end: on the stack `stk`, inside `d` blocks of a
function with return type `R`, when Clarity gives `o`. -/
def BoolEnds (R : Ty) (w : World) (d : Nat) (stk : List Val) (o : Out Value) (r : Res World) : Prop :=
  match o with
  | .val v s' => ∃ b loc' g', v = .bool b ∧
      r = .norm (.i32 (if b then 1#32 else 0#32) :: stk) loc' g' ∧ g'.host = put w s'
  | .ret v s' => ∃ us junk loc' g' reg, r = .br d (us.reverse ++ junk) loc' g' ∧ g'.host = put w s' ∧
      Rep g'.mem reg R v us
  | .fail code => ∃ g', r = .trap g' ∧ g'.g32 .errCode = BitVec.ofNat 32 code
  | .deviates => True
  | .wrong => False

theorem setup {K : Ctx} {M : Wasm.Mod World} (hC : ContractOk K) (hL : Linked K M) (k : Nat) (R : Ty)
    (H : Nat → Prop) : Setup ⟨K, M, need K k, R, H⟩ k :=
  ⟨hC, hL, fun j _ => good_fn hC hL j, Nat.le_refl _⟩

theorem bool_ends {p : P} {w : World} {d n al : Nat} {er : Bool} {is : List Instr} {stk loc : List Val}
    {g : Store World} {o : Out Value} (h : Does p w d er n al is stk stk loc g o (IsRep p .bool)) :
    o = .deviates ∨ ∃ N r, r ≠ .oof ∧ exec p.M N is stk loc g = r ∧ BoolEnds p.R w d stk o r := by
  by_cases hd : o = .deviates
  · exact Or.inl hd
  · right
    obtain ⟨N, r, h1, h2, h3⟩ := h hd
    refine ⟨N, r, h2, h1, ?_⟩
    revert h3 hd
    cases o with
    | val v s' =>
      rintro _ ⟨ws, loc', g', rfl, _, h4, _, h5⟩
      simp only [IsRep, Rep] at h5
      obtain ⟨b, rfl, rfl⟩ := h5
      exact ⟨b, loc', g', rfl, by cases b <;> rfl, h4⟩
    | ret v s' =>
      rintro _ ⟨_, ws, junk, loc', g', rfl, _, h4, _, h5⟩
      exact ⟨ws, junk, loc', g', _, rfl, h4, h5⟩
    | fail code => exact fun _ h => h
    | deviates => exact fun h => absurd rfl h
    | wrong => exact fun _ h => h

/-- **C34.** The code of `and` (of `or`), at any place of function `k` of a well-typed contract (in any
scope, on any operand stack), evaluates the operands in order up to the first `false` (`true`), and no
further: the result, the contract state, the early return or the error are those of `ShortCircuit`.
Nothing is claimed if an operand meets a known deviation of the library (C02, C03). -/
theorem C34_short_circuit (K : Ctx) (M : Wasm.Mod World) (hC : ContractOk K) (hL : Linked K M) (k : Nat)
    (R : Ty) (H : Nat → Prop) (isAnd : Bool) (es : Exprs) (wr er : Bool) (Δ : TEnv) (Γ : Scope) (ρ : Env)
    (n d : Nat) (w : World) (c : Cx) (s : St) (stk loc : List Val) (g : Store World) (o : Out Value)
    (e : Expr) (he : e = if isAnd then .and_ es else .or_ es)
    (ht : wts K k wr R es er Δ) (hb : ∀ U ∈ tys es, U = .bool)
    (hok : Ok ⟨K, M, need K k, R, H⟩ wr c w s Δ Γ ρ n (compile K R e .bool d Γ n).al
      (compile K R e .bool d Γ n).ls.length loc g)
    (h : ShortCircuit (sem K.fns k) ρ c (!isAnd) es s o) :
    o = .deviates ∨ ∃ N r, r ≠ .oof ∧ exec M N (compile K R e .bool d Γ n).is stk loc g = r ∧
      BoolEnds R w d stk o r := by
  subst he
  cases isAnd with
  | true =>
    have := good_expr (k := k) (wr := wr) (.and_ es) ⟨K, M, need K k, R, H⟩ (setup hC hL k R H) .bool er Δ Γ ρ n w c s d stk loc g
      (by simp only [wt]; exact ⟨trivial, ht, hb⟩) hok
    rw [show eval (sem K.fns k) (.and_ es) ρ c s = o from evalAnd_of h] at this
    exact bool_ends this
  | false =>
    have := good_expr (k := k) (wr := wr) (.or_ es) ⟨K, M, need K k, R, H⟩ (setup hC hL k R H) .bool er Δ Γ ρ n w c s d stk loc g
      (by simp only [wt]; exact ⟨trivial, ht, hb⟩) hok
    rw [show eval (sem K.fns k) (.or_ es) ρ c s = o from evalOr_of h] at this
    exact bool_ends this

/-- Running the codes of boolean operands one after the other, each on an empty stack, as long as they
give `!stop`: the first one that gives `stop` decides, the others are not run, and an operand that
does not end normally (it aborts, branches out, returns) ends the evaluation. -/
inductive ShortRun {σ : Type} (M : Wasm.Mod σ) (stop : Bool) (stk : List Val) :
    List (List Instr) → List Val → Store σ → Res σ → Prop
  | none {loc : List Val} {g : Store σ} :
      ShortRun M stop stk [] loc g (.norm (.i32 (b32 (!stop)) :: stk) loc g)
  | more {c : List Instr} {cs : List (List Instr)} {loc loc' : List Val} {g g' : Store σ} {r : Res σ} :
      Ends M c [] loc g (.norm [.i32 (b32 (!stop))] loc' g') → ShortRun M stop stk cs loc' g' r →
      ShortRun M stop stk (c :: cs) loc g r
  | decides {c : List Instr} {cs : List (List Instr)} {loc loc' : List Val} {g g' : Store σ} :
      Ends M c [] loc g (.norm [.i32 (b32 stop)] loc' g') →
      ShortRun M stop stk (c :: cs) loc g (.norm (.i32 (b32 stop) :: stk) loc' g')
  | aborts {c : List Instr} {cs : List (List Instr)} {loc : List Val} {g g' : Store σ} :
      Ends M c [] loc g (.trap g') → ShortRun M stop stk (c :: cs) loc g (.trap g')
  | leaves {c : List Instr} {cs : List (List Instr)} {loc loc' st : List Val} {g g' : Store σ} {l : Nat} :
      Ends M c [] loc g (.br (l + 1) st loc' g') → ShortRun M stop stk (c :: cs) loc g (.br l st loc' g')

/-- The codes of the operands of `and` and `or`. -/
def operandCodes (K : Ctx) (R : Ty) : Exprs → Nat → Scope → Nat → List (List Instr)
  | .nil, _, _, _ => []
  | .cons T e es, d, Γ, n =>
    (compile K R e T (d + 1) Γ n).is :: operandCodes K R es d Γ (n + (compile K R e T (d + 1) Γ n).ls.length)

theorem branches_code (K : Ctx) (R : Ty) (isAnd : Bool) : ∀ (es : Exprs) (d : Nat) (Γ : Scope) (n : Nat),
    (compileBranches K R isAnd es d Γ n).is = (operandCodes K R es d Γ n).map (circuit isAnd)
  | .nil, _, _, _ => rfl
  | .cons T e es, d, Γ, n => by
    simp only [compileBranches, operandCodes, List.map_cons, branches_code K R isAnd es]

/-- Once decided, the remaining operands are passed over. -/
theorem decided {σ : Type} {M : Wasm.Mod σ} (isAnd : Bool) {stk loc : List Val} {g : Store σ} :
    ∀ cs : List (List Instr), WP M (cs.map (circuit isAnd)) (.i32 (b32 (!isAnd)) :: stk) loc g
      (· = .norm (.i32 (b32 (!isAnd)) :: stk) loc g)
  | [] => wp_nil.2 rfl
  | c :: cs => by
    have ih := decided isAnd (M := M) (stk := stk) (loc := loc) (g := g) cs
    cases isAnd <;>
    · simp only [List.map_cons, circuit, Bool.not_true, Bool.not_false, b32, c32, if_true, if_false, Bool.false_eq_true] at ih ⊢
      rw [wp_ite]
      simp only [if_true, if_false, Bool.false_eq_true, wp_block0, show (1#32 = 0#32) = False by decide, show (0#32 = 0#32) = True by simp]
      rw [wp_b]
      simp only [stepB, stepK, wp_nil, blockK]
      exact ih

theorem short_run {σ : Type} {M : Wasm.Mod σ} (isAnd : Bool) {stk loc : List Val} {g : Store σ} {r : Res σ}
    {cs : List (List Instr)} (h : ShortRun M (!isAnd) stk cs loc g r) :
    WP M (cs.map (circuit isAnd)) (.i32 (b32 isAnd) :: stk) loc g (· = r) := by
  have hc : ∀ {c : List Instr} {cs : List (List Instr)} {loc : List Val} {g : Store σ} {r0 : Res σ} {Q : Res σ → Prop},
      Ends M c [] loc g r0 → r0 ≠ .oof → blockK M 1 (cs.map (circuit isAnd)) stk Q r0 →
      WP M ((c :: cs).map (circuit isAnd)) (.i32 (b32 isAnd) :: stk) loc g Q := by
    intro c cs loc g r0 Q h1 h2 h3
    have := (wp_of_ends h1 h2).2 h3
    cases isAnd <;>
    · simp only [List.map_cons, circuit, b32, if_true, if_false, Bool.false_eq_true]
      rw [wp_ite]
      simp only [if_true, if_false, Bool.false_eq_true, wp_block0, show (1#32 = 0#32) = False by decide, show (0#32 = 0#32) = True by simp]
      exact this
  induction h with
  | none => rw [Bool.not_not]; exact wp_nil.2 rfl
  | more h1 _ ih =>
    rw [Bool.not_not] at h1
    exact hc h1 (by simp) (by simpa [blockK] using ih)
  | decides h1 => exact hc h1 (by simp) (by simpa [blockK] using decided isAnd _)
  | aborts h1 => exact hc h1 (by simp) (by simp [blockK])
  | leaves h1 => exact hc h1 (by simp) (by simp [blockK])

/-- **C34**, on executions: whatever the operands are, well typed or not, and whatever they do, with any
host: the code of `and` (of `or`) runs the codes of the operands in order up to the first one that
gives `false` (`true`), and no further. -/
theorem C34_any_operands {σ : Type} (K : Ctx) (R : Ty) (M : Wasm.Mod σ) (isAnd : Bool) (es : Exprs) (d : Nat)
    (Γ : Scope) (n : Nat) (stk loc : List Val) (g : Store σ) (r : Res σ) (hr : r ≠ .oof)
    (h : ShortRun M (!isAnd) stk (operandCodes K R es d Γ n) loc g r) :
    Ends M (compile K R (if isAnd then .and_ es else .or_ es) .bool d Γ n).is stk loc g r := by
  rw [ends_iff hr]
  have := short_run isAnd h
  rw [← branches_code] at this
  cases isAnd <;>
  · simp only [if_true, if_false, Bool.false_eq_true, compile, c32]
    rw [wp_b]
    simpa [stepB, stepK, b32] using this

/-! ### C36: calls -/

/-- A call of a function that returned `v` keeps what the function wrote. -/
def keeps (kind : Kind) (v : Value) : Bool :=
  match kind, v with
  | .priv, _ => true
  | .pub, .ok _ => true
  | .pub, _ => false
  | .ro, _ => false

/-- **C36.** The code of a call of a function of the same contract, with the arguments on the stack,
when the body of the called function (and everything it calls, to any depth) evaluates to the value `v`
with state `s'`, or fails. The host state after the call is the one before the call, except that the
contract state is `s'` if the function is private, or public and returned `(ok ..)`: a public function
that returned `(err ..)` leaves no trace, and neither does a read-only function. A runtime error aborts
the execution with its code. Whatever parts the returned value has in memory are then in memory that
belongs to the caller. Missing: calls of other contracts. -/
theorem C36_calls_partial (K : Ctx) (M : Wasm.Mod World) (hC : ContractOk K) (hL : Linked K M)
    (j : Nat) (f : FunDef) (hf : K.fns[j]? = some f) (hT : f.ret.WF) (k : Nat) (hk : j < k) (R : Ty)
    (H : Nat → Prop) (n : Nat) (w : World) (c : Cx) (s : St) (vs : List Value) (ws stk loc : List Val)
    (g : Store World) (hcx : CxOk c w f.writes) (hinv : Inv ⟨K, M, need K k, R, H⟩ w s
    (callUser j f.kind f.ret n).al g)
    (hl : n + (callUser j f.kind f.ret n).ls.length ≤ loc.length)
    (hargs : RepAll g.mem ⟨sp g, H⟩ (f.params.map Prod.snd) vs ws) :
    match f.run (sem K.fns j) vs c s with
    | .val v s' => ∃ N us loc' g', Rep g'.mem ⟨sp g', H⟩ f.ret v us ∧
        exec M N (callUser j f.kind f.ret n).is (ws.reverse ++ stk) loc g = .norm (us.reverse ++ stk) loc' g' ∧
        g'.host = if keeps f.kind v then put w s' else g.host
    | .fail code => ∃ N g', exec M N (callUser j f.kind f.ret n).is (ws.reverse ++ stk) loc g = .trap g' ∧
        g'.g32 .errCode = BitVec.ofNat 32 code
    | .deviates => True
    | _ => False := by
  have hd := Does.callUser (d := 0) (er := false) (p := ⟨K, M, need K k, R, H⟩) (stk := stk) hL (good_fn hC hL j) hf hT
    (hC.fns j f hf) (need_le hk) hcx hinv hl hargs
  unfold FunDef.call at hd
  cases hr : f.run (sem K.fns j) vs c s with
  | deviates => trivial
  | fail code =>
    rw [hr] at hd
    obtain ⟨N, r, h1, _, g', h2, h3⟩ := hd (by simp [Out.bind])
    exact ⟨N, g', by rw [← h2]; exact h1, h3⟩
  | val v s' =>
    rw [hr] at hd
    have hd' : Does ⟨K, M, need K k, R, H⟩ w 0 false n (callUser j f.kind f.ret n).al (callUser j f.kind f.ret n).is (ws.reverse ++ stk) stk loc g
        (.val v (if keeps f.kind v then s' else s)) (IsRep ⟨K, M, need K k, R, H⟩ f.ret) := by
      cases hk : f.kind with
      | priv => rw [hk] at hd; exact hd
      | ro => rw [hk] at hd; cases v <;> exact hd
      | pub => rw [hk] at hd; cases v <;> exact hd
    obtain ⟨N, r, h1, _, us, loc', g', h2, _, h3, _, h4⟩ := hd' (by simp)
    refine ⟨N, us, loc', g', h4, by rw [← h2]; exact h1, ?_⟩
    rw [h3]
    split
    · rfl
    · rw [hinv.host]
  | ret v s' =>
    rw [hr] at hd
    obtain ⟨N, r, h1, _, h2⟩ := hd (by simp [Out.bind])
    exact absurd h2.1 (by decide)
  | wrong =>
    rw [hr] at hd
    obtain ⟨N, r, h1, _, h2⟩ := hd (by simp [Out.bind])
    exact h2

/-! ### C38: the call stack -/

/-- **C38.** Whatever path a compiled function leaves by, if it returns, the call-stack pointer has
the value it had at the call. This holds for every function definition of the modelled language, well
typed or not, every contract around it, every behaviour of the host, every argument list and store. -/
theorem C38_stack_pointer {σ : Type} (K : Ctx) (f : FunDef) (M : Wasm.Mod σ) (j : Nat)
    (hM : M.user j = some (compileFn K f).1) (args us : List Val) (g g' : Store σ)
    (h : Runs M (.user j) args g (.ret us g')) : g'.g32 .stackPointer = g.g32 .stackPointer := by
  obtain ⟨n, hn⟩ := h
  exact fn_restores hM (hn n (Nat.le_refl _))

end Props
