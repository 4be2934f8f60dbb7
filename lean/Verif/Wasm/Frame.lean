import Verif.Wasm.WP

/-!
A static analysis of code and its soundness: if code only contains allowed basic instructions, only
calls allowed functions and only aborts with allowed error codes, then every execution changes the
store only as a given pair of relations (for normal and trapping executions) permits.
-/

namespace Wasm

variable {σ : Type} {M : Mod σ}

/-- What code may contain. -/
structure Pol where
  /-- allowed basic instructions -/
  okB : Basic → Bool
  /-- allowed callees -/
  okF : FId → Bool
  /-- are indirect calls allowed -/
  okInd : Bool
  /-- allowed arguments of `runtime-error` -/
  codes : List (BitVec 32)

/-- The constant an instruction leaves on top of the stack. -/
def constOf : Instr → Option (BitVec 32)
  | .b (.const (.i32 c)) => some c
  | _ => none

/-- Is the instruction a call of `runtime-error`? -/
def isErrCall : Instr → Bool
  | .call (.std .runtime_error) => true
  | _ => false

mutual
/-- One instruction obeys the policy. -/
def okI (P : Pol) : Instr → Bool
  | .b op => P.okB op
  | .block _ _ is => okL P none is
  | .loop _ _ is => okL P none is
  | .ite _ _ t e => okL P none t && okL P none e
  | .call f => P.okF f
  | .callIndirect _ _ => P.okInd
  | .br _ | .brIf _ | .ret | .unreachable => true
/-- A sequence obeys the policy, where `p` is the constant known to be on top of the stack. -/
def okL (P : Pol) (p : Option (BitVec 32)) : List Instr → Bool
  | [] => true
  | i :: is =>
    if isErrCall i then (match p with
      | some c => P.codes.contains c
      | none => false)
    else okI P i && okL P (constOf i) is
end

/-- The store in which an execution ends is related to `g`. -/
def Res.rel (R T : Store σ → Store σ → Prop) (g : Store σ) : Res σ → Prop
  | .norm _ _ g' => R g g'
  | .br _ _ _ g' => R g g'
  | .ret _ g' => R g g'
  | .trap g' => T g g'
  | .stuck => True
  | .oof => True

/-- The store in which a call ends is related to `g`. -/
def CRes.rel (R T : Store σ → Store σ → Prop) (g : Store σ) : CRes σ → Prop
  | .ret _ g' => R g g'
  | .trap g' => T g g'
  | .stuck => True
  | .oof => True

/-- The store in which a host function ends is related to `g`. -/
def HRes.rel (R T : Store σ → Store σ → Prop) (g : Store σ) : HRes σ → Prop
  | .ret _ g' => R g g'
  | .err g' => T g g'

/-- The policy is sound in module `M`: for `R` when execution goes on, for `T` when it traps. -/
structure Sound (P : Pol) (M : Mod σ) (R T : Store σ → Store σ → Prop) : Prop where
  refl : ∀ g, R g g
  trans : ∀ a b c, R a b → R b c → R a c
  trap : ∀ g, T g g
  transT : ∀ a b c, R a b → T b c → T a c
  basic : ∀ op, P.okB op = true → ∀ stk loc g s l g', stepB (σ := σ) op stk loc g = .ok s l g' → R g g'
  code : ∀ c ∈ P.codes, ∀ g, T g (g.set32 .errCode c)
  func : ∀ f d, P.okF f = true → M.func f = some d → okL P none d.body = true
  host : ∀ h, P.okF (.host h) = true → ∀ args g, (M.host h args g).rel R T g
  ind : P.okInd = true → ∀ k f, stdTable k = some f → P.okF f = true
  err : P.okF (.std .runtime_error) = false

theorem Res.rel.trans {R T : Store σ → Store σ → Prop} (ht : ∀ a b c, R a b → R b c → R a c)
    (ht' : ∀ a b c, R a b → T b c → T a c)
    {g g' : Store σ} (h : R g g') {r : Res σ} (hr : r.rel R T g') : r.rel R T g := by
  cases r <;> first | exact ht _ _ _ h hr | exact ht' _ _ _ h hr | trivial

theorem Res.rel.toCall {R T : Store σ → Store σ → Prop} {g : Store σ} {r : Res σ} (h : r.rel R T g)
    (nr : Nat) : (r.toCall nr).rel R T g := by
  cases r with
  | br k s l g' => cases k <;> first | exact h | trivial
  | _ => exact h

theorem exec_errCall {n : Nat} {is : List Instr} {stk loc : List Val} {g : Store σ}
    {c : BitVec 32} :
    exec M n (.call (.std .runtime_error) :: is) (.i32 c :: stk) loc g = .oof ∨
    exec M n (.call (.std .runtime_error) :: is) (.i32 c :: stk) loc g = .trap (g.set32 .errCode c) := by
  cases n with
  | zero => exact .inl rfl
  | succ n =>
    simp only [exec, Mod.func, stdFunc, Std.runtime_error, Std.runtime_error_body]
    cases n with
    | zero => left; simp [exec, Res.toCall]
    | succ n =>
      cases n with
      | zero => left; simp [exec, Res.toCall, stepB]
      | succ n =>
        cases n with
        | zero => left; simp [exec, Res.toCall, stepB]
        | succ n => right; simp [exec, Res.toCall, stepB]

theorem exec_frame {P : Pol} {R T : Store σ → Store σ → Prop} (hS : Sound P M R T) (n : Nat) :
    ∀ (is : List Instr) (p : Option (BitVec 32)) (stk loc : List Val) (g : Store σ),
      okL P p is = true → (∀ c, p = some c → stk.head? = some (.i32 c)) →
      (exec M n is stk loc g).rel R T g := by
  induction n with
  | zero => intros; trivial
  | succ n ih =>
    intro is p stk loc g hok hp
    cases is with
    | nil => exact hS.refl g
    | cons i is =>
      simp only [okL] at hok
      split at hok
      · -- an abort
        rename_i hc
        cases p with
        | none => simp at hok
        | some c =>
          have hh := hp c rfl
          cases i with
          | call f =>
            cases f with
            | std f =>
              cases f <;> simp only [isErrCall, Bool.false_eq_true] at hc
              cases stk with
              | nil => simp at hh
              | cons v stk =>
                simp only [List.head?_cons, Option.some.injEq] at hh
                subst hh
                rcases exec_errCall (M := M) (n := n + 1) (is := is) (stk := stk) (loc := loc) (g := g)
                  (c := c) with h | h <;> rw [h]
                · trivial
                · exact hS.code c (by simpa using hok) g
            | _ => simp [isErrCall] at hc
          | _ => simp [isErrCall] at hc
      · rename_i hne
        simp only [Bool.and_eq_true] at hok
        obtain ⟨hi, his⟩ := hok
        have rest : ∀ (is' : List Instr), okL P none is' = true → ∀ s l g', R g g' →
            (exec M n is' s l g').rel R T g := fun is' h' s l g' h =>
          Res.rel.trans hS.trans hS.transT h (ih is' none s l g' h' (by simp))
        have callf : ∀ (f : FId) (stk : List Val), (∀ h, f ≠ .host h) → P.okF f = true →
            constOf i = none →
            (match M.func f with
              | none => Res.stuck
              | some d =>
                if stk.length < d.params.length then .stuck else
                match (exec M n d.body [] ((stk.take d.params.length).reverse ++ d.locals.map VT.zero) g).toCall
                    d.results.length with
                | .ret vs g' => exec M n is (vs.reverse ++ stk.drop d.params.length) loc g'
                | .trap g' => .trap g'
                | .stuck => .stuck
                | .oof => .oof).rel R T g := by
          intro f stk _ hf hcn
          rw [hcn] at his
          split
          · trivial
          · rename_i d hd
            split
            · trivial
            · have hb := ih d.body none [] ((stk.take d.params.length).reverse ++ d.locals.map VT.zero) g
                (hS.func f d hf hd) (by simp)
              have := hb.toCall d.results.length
              split <;> rename_i heq <;> rw [heq] at this
              · exact rest is his _ _ _ this
              · exact this
              · trivial
              · trivial
        cases i with
        | b op =>
          simp only [exec]
          simp only [okI] at hi
          split
          · rename_i s l g' heq
            refine Res.rel.trans hS.trans hS.transT (hS.basic op hi _ _ _ _ _ _ heq) (ih is _ _ _ _ his ?_)
            intro c hc
            cases op <;> simp only [constOf, reduceCtorEq] at hc
            rename_i v
            cases v <;> simp only [constOf, reduceCtorEq, Option.some.injEq] at hc
            subst hc
            simp only [stepB, SRes.ok.injEq] at heq
            rw [← heq.1]; rfl
          · exact hS.trap g
          · trivial
        | block np nr body =>
          simp only [exec]
          simp only [okI] at hi
          split
          · trivial
          · have hb := ih body none (stk.take np) loc g hi (by simp)
            split <;> rename_i heq <;> rw [heq] at hb
            · exact rest is his _ _ _ hb
            · exact rest is his _ _ _ hb
            all_goals first | exact hb | trivial
        | loop np nr body =>
          simp only [exec]
          split
          · trivial
          · have hb := ih body none (stk.take np) loc g (by simp only [okI] at hi; exact hi) (by simp)
            split <;> rename_i heq <;> rw [heq] at hb
            · exact rest is his _ _ _ hb
            · refine rest _ ?_ _ _ _ hb
              simp only [okL, isErrCall, Bool.false_eq_true, if_false, hi, Bool.true_and]
              exact his
            all_goals first | exact hb | trivial
        | ite np nr t e =>
          simp only [okI] at hi
          simp only [Bool.and_eq_true] at hi
          simp only [exec]
          split
          · refine rest _ ?_ _ _ _ (hS.refl g)
            simp only [okL, isErrCall, Bool.false_eq_true, if_false, okI, Bool.and_eq_true]
            refine ⟨?_, his⟩
            split
            · exact hi.2
            · exact hi.1
          · trivial
        | br l => exact hS.refl g
        | brIf l =>
          simp only [exec]
          split
          · split
            · exact rest is his _ _ _ (hS.refl g)
            · exact hS.refl g
          · trivial
        | ret => exact hS.refl g
        | unreachable => exact hS.trap g
        | call f =>
          simp only [okI] at hi
          cases f with
          | host h =>
            simp only [exec]
            split
            · trivial
            · have hh := hS.host h hi (stk.take (hostSig h).1.length).reverse g
              split <;> rename_i heq <;> rw [heq] at hh
              · exact rest is his _ _ _ hh
              · exact hh
          | std f => simp only [exec]; exact callf (.std f) stk (by simp) hi rfl
          | user f => simp only [exec]; exact callf (.user f) stk (by simp) hi rfl
        | callIndirect ps rs =>
          simp only [okI] at hi
          simp only [exec]
          split
          · split
            · exact hS.trap g
            · rename_i f hf
              split
              · refine rest _ ?_ _ _ _ (hS.refl g)
                have hkf := hS.ind hi _ f hf
                unfold okL
                have : isErrCall (.call f) = false := by
                  cases f with
                  | std f =>
                    cases f <;> first | rfl | (rw [hS.err] at hkf; exact absurd hkf (by simp))
                  | _ => rfl
                simp only [this, Bool.false_eq_true, if_false, okI, hkf, Bool.true_and]
                exact his
              · exact hS.trap g
          · trivial

/-- Calls of allowed functions change the store only as `R` and (when they trap) `T` permit. -/
theorem invoke_frame {P : Pol} {R T : Store σ → Store σ → Prop} (hS : Sound P M R T) (n : Nat) (f : FId)
    (hf : P.okF f = true) (args : List Val) (g : Store σ) : (invoke M n f args g).rel R T g := by
  have key : ∀ f, P.okF f = true → (match M.func f with
    | none => CRes.stuck
    | some d => (exec M n d.body [] (args ++ d.locals.map VT.zero) g).toCall d.results.length).rel R T g := by
    intro f hf
    split
    · trivial
    · rename_i d hd
      exact (exec_frame hS n d.body none [] _ g (hS.func f d hf hd) (by simp)).toCall _
  unfold invoke
  cases f with
  | host h =>
    have hh := hS.host h hf args g
    simp only
    split <;> rename_i heq <;> rw [heq] at hh <;> exact hh
  | std f => exact key _ hf
  | user f => exact key _ hf

end Wasm
