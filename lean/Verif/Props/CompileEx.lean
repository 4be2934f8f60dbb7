import Verif.Props.Compile
import Verif.Props.Data

/-!
A concrete contract that meets the hypotheses of `Props/Compile.lean`, and programs that are compiled
wrongly (the reason why the theorems there are restricted).
-/

namespace Props
open Wasm Spec Host Core Gen

/-- The module of a contract. -/
noncomputable def moduleOf (K : Ctx) : Wasm.Mod World where
  user j := (K.fns[j]?).map fun f => (compileFn K f).1
  host := hostFn

theorem linked_moduleOf (K : Ctx) : Linked K (moduleOf K) where
  host := rfl
  user j f h := by simp [moduleOf, h]

/-! ### A contract

```
(define-data-var t uint u9)
(define-private (add1 (n uint)) (+ n u1))
(define-public (incr)
  (let ((n (add1 (var-get t)))) (var-set t n) (if (> n u10) (err n) (ok n))))
(define-public (twice) (begin (try! (incr)) (match (incr) v (ok v) e (ok e))))
```
-/

/-- `t`, `n`, `v`, `e`. -/
def cxT : Name := [116#8]
def cxN : Name := [110#8]
def cxV : Name := [118#8]
def cxE : Name := [101#8]

/-- `(response uint uint)`. -/
def cxR : Ty := .resp .uint .uint

def cxAdd1 : FunDef := ⟨[(cxN, .uint)], .uint, .priv, false,
  .nary .add (.cons .uint (.var cxN) (.cons .uint (.lit (.uint 1)) .nil))⟩

def cxIncr : FunDef := ⟨[], cxR, .pub, true,
  .let_ (.cons cxN .uint (.call 0 (.cons .uint (.varGet cxT) .nil)) .nil)
    (.cons .bool (.varSet cxT (.var cxN))
      (.cons cxR (.ite (.prim .gt (.cons .uint (.var cxN) (.cons .uint (.lit (.uint 10)) .nil)))
        (.prim .err_ (.cons .uint (.var cxN) .nil)) (.prim .ok_ (.cons .uint (.var cxN) .nil))) .nil))⟩

def cxTwice : FunDef := ⟨[], cxR, .pub, true,
  .begin_ (.cons .uint (.tryResp .uint (.call 1 .nil))
    (.cons cxR (.matchResp .uint .uint (.call 1 .nil) cxV (.prim .ok_ (.cons .uint (.var cxV) .nil))
      cxE (.prim .ok_ (.cons .uint (.var cxE) .nil))) .nil))⟩

/-- The contract; the name of its variable is at address 0. -/
def cxK : Ctx where
  fns := [cxAdd1, cxIncr, cxTwice]
  off _ := 0
  lits := [cxT]
  vars x := if x = cxT then some .uint else none
  maps _ := none

theorem cx_vars : cxK.vars cxT = some .uint := by simp [cxK]

theorem cx_ok : ContractOk cxK where
  fns k f h := by
    match k, h with
    | 0, h =>
      obtain rfl : cxAdd1 = f := Option.some.inj h
      refine ⟨?_, by simp [cxAdd1], by simp [cxAdd1], by simp [cxAdd1]⟩
      simp [cxAdd1, wt, wts, IntTy, tys, look, LitTy, LitIn, HasType, IsUInt, Simples, Fit.refl]
    | 1, h =>
      obtain rfl : cxIncr = f := Option.some.inj h
      refine ⟨?_, by simp [cxIncr], by simp [cxIncr], by simp [cxIncr, cxR]⟩
      simp [cxIncr, cxR, wt, wts, wtSeq, wtBinds, primTy, btys, CmpTy, IntTy, tys, look, LitTy, LitIn, HasType, IsUInt,
        Fit.refl, cxK, cxAdd1, Ty.WF]
    | 2, h =>
      obtain rfl : cxTwice = f := Option.some.inj h
      refine ⟨?_, by simp [cxTwice], by simp [cxTwice], by simp [cxTwice, cxR]⟩
      simp [cxTwice, cxR, wt, wts, wtSeq, primTy, tys, look, Fit.refl, cxK, cxIncr, Ty.WF]
    | k + 3, h => simp [cxK] at h
  vars x T h := by
    simp only [cxK] at h
    split at h
    · cases h; exact ⟨by simp [Ty.WF], by simp [Plain]⟩
    · cases h
  maps x D V h := by simp [cxK] at h

/-- The contract state in which `t` is `n`. -/
def cxSt (n : Nat) : St where
  db := { ledgerDb with var := fun c x => if c = ledgerC ∧ x = cxT then some ⟨.uint, .uint n⟩ else none }
  events := []

/-- The example store: `t` is 9, the stack starts at 1000. -/
def cxStore : Store World :=
  { (withHost ledgerStore (put ledgerStore.host (cxSt 9))) with g32 := fun _ => 1000#32 }

/-- The execution context. -/
def cxCx : Cx := ⟨ledgerC, ledgerA, ledgerA⟩

theorem cx_set (n m : Nat) : (cxSt n).setVar ledgerC cxT ⟨.uint, .uint m⟩ = cxSt m := by
  simp only [St.setVar, cxSt, St.mk.injEq, Db.mk.injEq, and_true, true_and]
  funext c x
  simp only [upd₂]
  split <;> rfl

theorem cx_need : need cxK 3 ≤ 100 := by decide +kernel

theorem cx_st (n : Nat) (hn : n < 2 ^ 128) : StOk cxK ledgerC (cxSt n) where
  vars x T h := by
    simp only [cxK] at h
    split at h
    · rename_i e; cases h
      exact ⟨⟨.uint, .uint n⟩, by simp [cxSt, e], rfl, by simp only [HasType, IsUInt]; exact hn⟩
    · cases h
  maps x D V h := by simp [cxK] at h
  fts x h := by simp [cxK] at h

theorem cx_ready : Ready cxK 2 cxTwice cxCx ledgerStore.host (cxSt 9) cxStore [] [] where
  cx := ⟨rfl, rfl, rfl, ⟨by decide, by decide⟩, ⟨by decide, by decide⟩, ⟨⟨by decide, by decide⟩, by decide, by decide⟩, rfl,
    fun _ => rfl⟩
  host := rfl
  st := cx_st 9 (by decide)
  lits bs h := by
    obtain rfl : bs = cxT := by simpa [cxK] using h
    exact ⟨⟨by decide +kernel, fun _ _ _ h => h⟩, by decide +kernel⟩
  room := by
    have h : sp cxStore = 1000 ∧ cxStore.mem.size = 65536 := by decide +kernel
    have := cx_need
    show sp cxStore + need cxK 3 ≤ _
    omega
  small := by decide
  args := ⟨rfl, rfl⟩

theorem cx_get (n : Nat) : (cxSt n).db.var ledgerC cxT = some ⟨.uint, .uint n⟩ := by simp [cxSt]

theorem cx_add1 (n : Nat) (s : St) (h : n + 1 < 2 ^ 128) :
    cxAdd1.run (sem cxK.fns 0) [.uint n] cxCx s = .val (.uint (n + 1)) s := by
  have : IsUInt (n + 1) := h
  simp only [cxAdd1, FunDef.run, eval, evals, List.map_cons, List.map_nil, List.zip_cons_cons, List.zip_nil_left,
    List.reverse_cons, List.reverse_nil, List.nil_append, Env.get, if_true, Out.bind, NOp.eval, NOp.fold, NOp.bin, this,
    Ans.out, Out.body]

theorem cx_incr (n : Nat) (h : n + 1 < 2 ^ 128) : cxIncr.run (sem cxK.fns 1) [] cxCx (cxSt n) =
    .val (if 10 < n + 1 then .err (.uint (n + 1)) else .ok (.uint (n + 1))) (cxSt (n + 1)) := by
  have c0 : sem cxK.fns 1 0 [.uint n] ⟨ledgerC, ledgerA, ledgerA⟩ (cxSt n) = .val (.uint (n + 1)) (cxSt n) := by
    rw [sem_lt cxK.fns (by omega) cxAdd1 rfl, FunDef.call, show (⟨ledgerC, ledgerA, ledgerA⟩ : Cx) = cxCx from rfl,
      cx_add1 n _ h]
    rfl
  have hs := cx_set n (n + 1)
  simp only [cxIncr, FunDef.run, eval, evals, evalBinds, evalSeq, List.map_nil, List.zip_nil_left, List.reverse_nil, cxCx,
    cx_get]
  simp only [Out.bind, c0, Env.get, if_true, cx_get, hs, Prim.eval, Core.cmp, Ans.out]
  by_cases hn : 10 < n + 1
  · have : (10 : Int) < ((n + 1 : Nat) : Int) := by omega
    rw [show decide (((10 : Nat) : Int) < ((n + 1 : Nat) : Int)) = true from decide_eq_true this, if_pos hn]
    rfl
  · have : ¬ (10 : Int) < ((n + 1 : Nat) : Int) := by omega
    rw [show decide (((10 : Nat) : Int) < ((n + 1 : Nat) : Int)) = false from decide_eq_false this, if_neg hn]
    rfl

/-- What Clarity gives for `(twice)`: the first increment is kept, the second one is undone. -/
theorem cx_run : cxTwice.run (sem cxK.fns 2) [] cxCx (cxSt 9) = .val (.ok (.uint 11)) (cxSt 10) := by
  have c1 : ∀ n, n + 1 < 2 ^ 128 → sem cxK.fns 2 1 [] cxCx (cxSt n) =
      if 10 < n + 1 then .val (.err (.uint (n + 1))) (cxSt n) else .val (.ok (.uint (n + 1))) (cxSt (n + 1)) := by
    intro n h
    rw [sem_lt cxK.fns (by omega) cxIncr rfl, FunDef.call, cx_incr n h]
    by_cases hn : 10 < n + 1
    · simp only [hn, if_true]; rfl
    · simp only [hn, if_false]; rfl
  simp only [cxTwice, FunDef.run, eval, evals, evalSeq, Out.bind, List.map_nil, List.zip_nil_left, List.reverse_nil]
  rw [c1 9 (by decide)]
  simp only [show ¬ (10 < 9 + 1) by decide, if_false]
  rw [c1 10 (by decide)]
  rfl

/-- The hypotheses of `C33_compiled_functions_partial` are met: the compiled `(twice)` returns
`(ok u11)` and leaves 10 in `t`. -/
theorem cx_executes : ∃ us g', Runs (moduleOf cxK) (.user 2) [] cxStore (.ret us g') ∧
    g'.host = put ledgerStore.host (cxSt 10) ∧ us = [.i32 1#32, .i64 11#64, .i64 0#64] ++ us.drop 3 := by
  have h := C33_compiled_functions_partial cxK (moduleOf cxK) cx_ok (linked_moduleOf cxK) 2 cxTwice rfl cxCx _ _ _ [] []
    cx_ready
  rw [cx_run] at h
  obtain ⟨us, g', h1, h2, h3⟩ := h
  refine ⟨us, g', h1, h2, ?_⟩
  simp only [cxTwice, cxR, Rep] at h3
  rcases h3 with ⟨x, vs, js, hx, rfl, ⟨n, rfl, _, rfl⟩, _⟩ | ⟨x, vs, js, hx, _⟩
  · cases hx; rfl
  · cases hx

/-- The hypotheses of `C36_calls_partial` are met by the second call of `incr` in `twice`. -/
example : ∃ (N : Nat) (us loc' : List Val) (g' : Store World), exec (moduleOf cxK) N (callUser 1 .pub cxR 0).is [] (List.replicate 5 (.i32 0#32))
      (withHost cxStore (put ledgerStore.host (cxSt 10))) = .norm (us.reverse ++ []) loc' g' ∧
    g'.host = put ledgerStore.host (cxSt 10) := by
  have hi : Inv ⟨cxK, moduleOf cxK, need cxK 2, cxR, fun _ => False⟩ ledgerStore.host (cxSt 10) 0
      (withHost cxStore (put ledgerStore.host (cxSt 10))) := by
    exact ⟨rfl, cx_st 10 (by decide), cx_ready.lits, fun _ h => h.elim, by decide +kernel, by decide⟩
  have h := C36_calls_partial cxK (moduleOf cxK) cx_ok (linked_moduleOf cxK) 1 cxIncr rfl (by simp [cxIncr, cxR, Ty.WF]) 2
    (by omega) cxR (fun _ => False) 0 ledgerStore.host cxCx (cxSt 10) [] [] [] (List.replicate 5 (.i32 0#32)) _
    cx_ready.cx hi (by decide +kernel) ⟨rfl, rfl⟩
  have hr : cxIncr.run (sem cxK.fns 1) [] cxCx (cxSt 10) = .val (.err (.uint 11)) (cxSt 11) := by
    rw [cx_incr 10 (by decide)]; rfl
  rw [hr] at h
  obtain ⟨N, us, loc', g', _, h2, h3⟩ := h
  exact ⟨N, us, loc', g', h2, h3⟩

/-! `(define-private (names) (list "t" "t"))`: the returned list and its strings are in the frame of the function. -/

/-- `(list 2 (string-ascii 1))`. -/
def cpT : Ty := .list 2 (.ascii 1)

def cpNames : FunDef := ⟨[], cpT, .priv, false,
  .list (.cons (.ascii 1) (.lit (.ascii [116#8])) (.cons (.ascii 1) (.lit (.ascii [116#8])) .nil))⟩

def cpK : Ctx := { cxK with fns := [cpNames] }

theorem cp_ok : ContractOk cpK where
  fns k f h := by
    match k, h with
    | 0, h =>
      obtain rfl : cpNames = f := Option.some.inj h
      refine ⟨?_, by simp [cpNames], by simp [cpNames], by simp [cpNames]⟩
      simp [cpNames, cpK, cpT, wt, wts, tys, LitTy, LitIn, HasType, asciiOk, cxK, cxT, Ty.WF]
    | k + 1, h => simp [cpK] at h
  vars := cx_ok.vars
  maps := cx_ok.maps

/-- The hypotheses of `C36_calls_partial` are met by a call of `names`: the list is in the caller's frame. -/
example : ∃ (N : Nat) (us loc' : List Val) (g' : Store World), exec (moduleOf cpK) N (callUser 0 .priv cpT 0).is []
      (List.replicate 9 (.i32 0#32)) cxStore = .norm (us.reverse ++ []) loc' g' ∧
    Rep g'.mem ⟨sp g', fun _ => False⟩ cpT (.list [.ascii [116#8], .ascii [116#8]]) us := by
  have hi : Inv ⟨cpK, moduleOf cpK, need cpK 1, cpT, fun _ => False⟩ ledgerStore.host (cxSt 9)
      (callUser 0 .priv cpT 0).al cxStore :=
    ⟨rfl, ⟨(cx_st 9 (by decide)).vars, (cx_st 9 (by decide)).maps, (cx_st 9 (by decide)).fts⟩, cx_ready.lits, fun _ h => h.elim, by decide +kernel, by decide⟩
  have h := C36_calls_partial cpK (moduleOf cpK) cp_ok (linked_moduleOf cpK) 0 cpNames rfl (by simp [cpNames, cpT, Ty.WF]) 1
    (by omega) cpT (fun _ => False) 0 ledgerStore.host cxCx (cxSt 9) [] [] [] (List.replicate 9 (.i32 0#32)) _
    (cx_ready.cx.sub (by simp [cpNames])) hi (by decide +kernel) ⟨rfl, rfl⟩
  have hr : cpNames.run (sem cpK.fns 0) [] cxCx (cxSt 9) = .val (.list [.ascii [116#8], .ascii [116#8]]) (cxSt 9) := by rfl
  rw [hr] at h
  obtain ⟨N, us, loc', g', h1, h2, _⟩ := h
  exact ⟨N, us, loc', g', h2, h1⟩

/-! ### Programs that are compiled wrongly -/

/-- The error code of an aborted call. -/
def CRes.code {σ : Type} : CRes σ → Option (BitVec 32)
  | .trap g => some (g.g32 .errCode)
  | _ => none

/-- The results of a call. -/
def CRes.vals {σ : Type} : CRes σ → Option (List Val)
  | .ret vs _ => some vs
  | _ => none

theorem trapped {M : Wasm.Mod World} {n : Nat} {f : FId} {args : List Val} {g : Store World} {c : BitVec 32}
    (h : CRes.code (invoke M n f args g) = some c) : ∃ g', Runs M f args g (.trap g') ∧ g'.g32 .errCode = c := by
  cases hr : invoke M n f args g with
  | trap g' =>
    rw [hr] at h
    exact ⟨g', ⟨n, fun m hm => by rw [invoke_mono hm (by rw [hr]; simp), hr]⟩, Option.some.inj h⟩
  | ret _ _ => rw [hr] at h; cases h
  | stuck => rw [hr] at h; cases h
  | oof => rw [hr] at h; cases h

theorem returned {M : Wasm.Mod World} {n : Nat} {f : FId} {args vs : List Val} {g : Store World}
    (h : CRes.vals (invoke M n f args g) = some vs) : ∃ g', Runs M f args g (.ret vs g') := by
  cases hr : invoke M n f args g with
  | ret us g' =>
    rw [hr] at h
    cases Option.some.inj h
    exact ⟨g', ⟨n, fun m hm => by rw [invoke_mono hm (by rw [hr]; simp), hr]⟩⟩
  | trap _ => rw [hr] at h; cases h
  | stuck => rw [hr] at h; cases h
  | oof => rw [hr] at h; cases h

/-- A contract with one function without parameters. -/
def cxOne (T : Ty) (e : Expr) : Ctx := ⟨[⟨[], T, .priv, false, e⟩], fun _ => 0, [], fun _ => none, fun _ => none, fun _ => false, 0⟩

/-- `(asserts! true (unwrap-panic none))`. -/
def cxAsserts : Expr := .asserts (.lit (.bool true)) (.prim .unwrapPanic (.cons (.opt .bool) .none_ .nil))

/-- **C33 counterexample.** `asserts!` evaluates the thrown value even if the condition is true:
`(asserts! true (unwrap-panic none))` is true in Clarity, the compiled code aborts. -/
theorem C33_asserts_counterexample (call : FSem) (ρ : Env) (c : Cx) (s : St) :
    eval call cxAsserts ρ c s = .val (.bool true) s ∧
    ∃ g', Runs (moduleOf (cxOne .bool cxAsserts)) (.user 0) [] cxStore (.trap g') ∧ g'.g32 .errCode = 6#32 :=
  ⟨by simp [cxAsserts, eval, Out.bind], trapped (n := 50) (by decide +kernel)⟩

/-- `(+ u340282366920938463463374607431768211455 u1 (unwrap! none u7))`. -/
def cxNary : Expr := .nary .add (.cons .uint (.lit (.uint (2 ^ 128 - 1))) (.cons .uint (.lit (.uint 1))
  (.cons .uint (.unwrapOpt .none_ (.lit (.uint 7))) .nil)))

/-- **C33 counterexample.** Operators with more than two operands are applied before the later operands
are evaluated: in Clarity the third operand makes the function return `u7`, the compiled code aborts
with an overflow. -/
theorem C33_nary_counterexample (call : FSem) (ρ : Env) (c : Cx) (s : St) :
    eval call cxNary ρ c s = .ret (.uint 7) s ∧
    ∃ g', Runs (moduleOf (cxOne .uint cxNary)) (.user 0) [] cxStore (.trap g') ∧ g'.g32 .errCode = 0#32 :=
  ⟨by simp [cxNary, eval, evals, Out.bind], trapped (n := 50) (by decide +kernel)⟩

/-- `(begin (try! none) (some 1))`, where `none` is an `(optional bool)`. -/
def cxTry : Expr := .begin_ (.cons .bool (.tryOpt .none_)
  (.cons (.opt .int) (.prim .some_ (.cons .int (.lit (.int 1)) .nil)) .nil))

/-- **C33 counterexample.** `try!` of an `(optional bool)` in a function that returns an
`(optional int)`: the code leaves a `none` of the former type, two Wasm values instead of three; the
module is not valid Wasm. -/
theorem C33_try_counterexample (call : FSem) (ρ : Env) (c : Cx) (s : St) :
    eval call cxTry ρ c s = .ret .none s ∧
    ∃ us g', Runs (moduleOf (cxOne (.opt .int) cxTry)) (.user 0) [] cxStore (.ret us g') ∧
      us = [.i32 0#32, .i32 0#32] ∧ ∀ reg, ¬ Rep g'.mem reg (.opt .int) .none us := by
  refine ⟨by simp [cxTry, eval, evalSeq, Out.bind], ?_⟩
  obtain ⟨g', h⟩ := returned (M := moduleOf (cxOne (.opt .int) cxTry)) (n := 50) (f := .user 0) (args := [])
    (g := cxStore) (vs := [.i32 0#32, .i32 0#32]) (by decide +kernel)
  exact ⟨_, g', h, rfl, fun reg hr => by have := hr.ty; simp [wty, Val.ty] at this⟩

/-- `(let ((x none)) x)` as an `(optional int)`: the type checker gives the bound `none` the type
`(optional NoType)`. -/
def cxLetNone : Expr := .let_ (.cons cxN (.opt .noType) .none_ .nil) (.cons (.opt .int) (.var cxN) .nil)

/-- **C33 counterexample.** A `none` bound by `let` and used as an `(optional int)` is pushed as two
Wasm values instead of three. -/
theorem C33_let_none_counterexample (call : FSem) (ρ : Env) (c : Cx) (s : St) :
    eval call cxLetNone ρ c s = .val .none s ∧
    ∃ us g', Runs (moduleOf (cxOne (.opt .int) cxLetNone)) (.user 0) [] cxStore (.ret us g') ∧
      us = [.i32 0#32, .i32 0#32] ∧ ∀ reg, ¬ Rep g'.mem reg (.opt .int) .none us := by
  refine ⟨by simp [cxLetNone, eval, evalSeq, evalBinds, Env.get, Out.bind], ?_⟩
  obtain ⟨g', h⟩ := returned (M := moduleOf (cxOne (.opt .int) cxLetNone)) (n := 50) (f := .user 0) (args := [])
    (g := cxStore) (vs := [.i32 0#32, .i32 0#32]) (by decide +kernel)
  exact ⟨_, g', h, rfl, fun reg hr => by have := hr.ty; simp [wty, Val.ty] at this⟩

end Props
