import Verif.Gen.Tidy
import Verif.Wasm.HostInv

/-! Compiled code, well typed or not, never calls the imported functions for definitions or those of `at-block`. -/

namespace Gen
open Wasm Spec Host Core

/-- The imported function is one that compiled code may call. -/
def mayCall (h : HostFn) : Bool := decide (h ∉ notCalled)

mutual
theorem tidyI_only {n : Nat} : ∀ {d : Nat} {i : Instr}, tidyI n d i → onlyI mayCall i = true
  | _, .call (.host _), h => decide_eq_true (by simp only [tidyI] at h; exact h)
  | _, .call (.std _), _ | _, .call (.user _), _ => rfl
  | _, .block _ _ _, h => by simp only [onlyI]; exact tidyL_only (by simpa only [tidyI] using h)
  | _, .loop _ _ _, h => by simp only [onlyI]; exact tidyL_only (by simpa only [tidyI] using h)
  | _, .ite _ _ _ _, h => by
    simp only [tidyI] at h
    simp only [onlyI]
    rw [tidyL_only h.1, tidyL_only h.2]; rfl
  | _, .b _, _ | _, .br _, _ | _, .brIf _, _ | _, .ret, _ | _, .unreachable, _ | _, .callIndirect _ _, _ => rfl
theorem tidyL_only {n : Nat} : ∀ {d : Nat} {is : List Instr}, tidyL n d is → onlyL mayCall is = true
  | _, [], _ => rfl
  | _, _ :: _, h => by
    simp only [tidyL] at h
    simp only [onlyL]
    rw [tidyI_only h.1, tidyL_only h.2]; rfl
end

theorem std_only (f : StdFn) : onlyL mayCall (stdFunc f).body = true := by
  cases f <;> decide +kernel

theorem compileFn_only (K : Ctx) (f : FunDef) : onlyL mayCall (compileFn K f).1.body = true := by
  have h := tidyL_only (tidy_compile (K := K) (R := f.ret) (n := 0) f.body f.ret 0 (paramScope f.params 0)
    ((f.params.flatMap fun p => wty p.2).length + 1) (Nat.zero_le _))
  simp only [compileFn, onlyL, onlyI, lset, lget, Bool.true_and, Bool.and_true]
  exact h

theorem table_only (k : Nat) (h : HostFn) (e : stdTable k = some (.host h)) : mayCall h = true := by
  unfold stdTable at e
  split at e <;> cases e
  rfl

end Gen
