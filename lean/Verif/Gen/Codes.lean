import Verif.Spec.Core

/-! The runtime errors that evaluation can end in: overflow, underflow, division by zero, panic, bad
construction of a value. -/

namespace Core
open Spec Host

/-- If it is a failure, it has one of the codes of arithmetic errors and panics. -/
def Out.codes {α : Type} (o : Out α) : Prop := ∀ c, o = .fail c → c ∈ [eOverflow, eUnderflow, eDivZero, eLog2, eSqrti, ePanic, eBadType, ePow]

theorem Out.codes.bind {α β : Type} {o : Out α} {k : α → St → Out β} (h : o.codes) (hk : ∀ a s, (k a s).codes) :
    (o.bind k).codes := by
  cases o with
  | val a s => exact hk a s
  | ret v s => intro c hc; cases hc
  | fail c => intro c' hc; cases hc; exact h c rfl
  | deviates => intro c hc; cases hc
  | wrong => intro c hc; cases hc

theorem codes_val {α : Type} {a : α} {s : St} : (Out.val a s).codes := fun _ h => by cases h
theorem codes_ret {α : Type} {v : Value} {s : St} : (Out.ret v s : Out α).codes := fun _ h => by cases h
theorem codes_wrong {α : Type} : (Out.wrong : Out α).codes := fun _ h => by cases h
theorem codes_deviates {α : Type} : (Out.deviates : Out α).codes := fun _ h => by cases h

/-- The same for the answers of operators. -/
def Ans.codes (r : Ans) : Prop := ∀ c, r = .fail c → c ∈ [eOverflow, eUnderflow, eDivZero, eLog2, eSqrti, ePanic, eBadType, ePow]

theorem Ans.codes.out {r : Ans} {s : St} (h : r.codes) : (r.out s).codes := by
  cases r with
  | fail c => intro c' hc; cases hc; exact h c rfl
  | _ => intro c hc; cases hc

theorem bin_codes (o : NOp) (a b : Value) : (o.bin a b).codes := by
  intro c hc
  unfold NOp.bin at hc
  repeat' split at hc
  all_goals first
    | cases hc; simp
    | cases hc

theorem un_codes (o : NOp) (a : Value) : (o.un a).codes := by
  intro c hc
  unfold NOp.un at hc
  repeat' split at hc
  all_goals first
    | cases hc; simp
    | cases hc

theorem cmp_codes (i : Int → Int → Bool) (a b : Value) : (Core.cmp i a b).codes := by
  intro c hc
  unfold Core.cmp at hc
  split at hc <;> cases hc

theorem elementAt_codes (v i : Value) : (Core.elementAt v i).codes := by
  intro c hc
  unfold Core.elementAt at hc
  split at hc <;> cases hc

theorem slice_codes (v l r : Value) : (sliceAns v l r).codes := by
  intro c hc
  unfold sliceAns at hc
  repeat' split at hc
  all_goals cases hc

theorem replace_codes (v i x : Value) : (replaceAns v i x).codes := by
  intro c hc
  unfold replaceAns at hc
  repeat' split at hc
  all_goals first
    | (cases hc; simp; done)
    | cases hc

theorem bits_bin_codes (o : BitOp) (a b : Value) : (o.bin a b).codes := by
  intro c hc
  unfold BitOp.bin at hc
  split at hc <;> cases hc

theorem bits_codes (o : BitOp) (vs : List Value) : (o.eval vs).codes := by
  match vs with
  | [] => intro c hc; cases hc
  | [a] => intro c hc; cases hc
  | a :: b :: vs =>
    intro c hc
    rw [BitOp.eval] at hc
    split at hc
    · exact bits_bin_codes _ _ _ c hc
    · exact bits_codes o (b :: vs) c hc

theorem word_codes (q : Word) (vs : List Value) : (q.eval vs).codes := by
  intro c hc
  unfold Word.eval parseIAns parseUAns at hc
  repeat' split at hc
  all_goals first
    | exact bits_codes _ _ c hc
    | (cases hc; simp; done)
    | cases hc

theorem prim_codes (p : Prim) (vs : List Value) : (p.eval vs).codes := by
  intro c hc
  unfold Prim.eval at hc
  repeat' split at hc
  all_goals first
    | exact cmp_codes _ _ _ c hc
    | exact word_codes _ _ c hc
    | (cases hc; simp; done)
    | cases hc

theorem fold_codes (o : NOp) (a : Value) (vs : List Value) : (o.fold a vs).codes := by
  induction vs generalizing a with
  | nil => intro c hc; cases hc
  | cons b vs ih =>
    intro c hc
    rw [NOp.fold] at hc
    split at hc
    · exact ih _ c hc
    · exact bin_codes o a b c hc

theorem nary_codes (o : NOp) (vs : List Value) : (o.eval vs).codes := by
  match vs with
  | [] => intro c hc; cases hc
  | [a] => exact un_codes o a
  | a :: b :: vs => exact fold_codes o a (b :: vs)

/-- Closes the goals about the last step of an expression. -/
macro "fin" : tactic => `(tactic| (repeat' split) <;>
  first | exact codes_val | exact codes_ret | exact codes_wrong | exact codes_deviates)

section
variable {call : FSem} (hc : ∀ f vs c s, (call f vs c s).codes)
include hc

theorem apply_codes (f : Fn) (vs : List Value) (c : Cx) (s : St) : (f.apply call vs c s).codes := by
  cases f with
  | user j => exact hc _ _ _ _
  | word q => exact (prim_codes _ _).out
  | nary o => exact (nary_codes _ _).out
  | and_ => simp only [Fn.apply]; split <;> first | exact codes_val | exact codes_wrong
  | or_ => simp only [Fn.apply]; split <;> first | exact codes_val | exact codes_wrong

theorem foldElems_codes (f : Fn) (c : Cx) (xs : List Value) (a : Value) (s : St) : (foldElems call f c xs a s).codes := by
  induction xs generalizing a s with
  | nil => exact codes_val
  | cons x xs ih => exact (apply_codes hc _ _ _ _).bind fun _ _ => ih _ _

theorem maskElems_codes (f : Nat) (c : Cx) (xs : List Value) (s : St) : (maskElems call f c xs s).codes := by
  induction xs generalizing s with
  | nil => exact codes_val
  | cons x xs ih =>
    refine (hc _ _ _ _).bind fun b _ => ?_
    split
    · exact (ih _).bind fun _ _ => codes_val
    · exact codes_wrong

theorem mapRows_codes (f : Fn) (c : Cx) (rs : List (List Value)) (s : St) : (mapRows call f c rs s).codes := by
  induction rs generalizing s with
  | nil => exact codes_val
  | cons x xs ih => exact (apply_codes hc _ _ _ _).bind fun _ _ => (ih _).bind fun _ _ => codes_val

theorem token_codes (q : TWord) (vs : List Value) (c : Cx) (s : St) : (q.run vs c s).codes := by
  unfold TWord.run
  split <;> (try unfold stxMove) <;> (try split) <;> (repeat' split) <;> fin

mutual
theorem eval_codes (e : Expr) (ρ : Env) (c : Cx) (s : St) : (eval call e ρ c s).codes := by
  cases e with
  | lit v => simp only [eval]; fin
  | none_ => simp only [eval]; fin
  | var x => simp only [eval]; fin
  | txSender => simp only [eval]; fin
  | contractCaller => simp only [eval]; fin
  | prim p es => simp only [eval]; exact (evals_codes es ρ c s).bind fun _ _ => (prim_codes _ _).out
  | nary o es => simp only [eval]; exact (evals_codes es ρ c s).bind fun _ _ => (nary_codes _ _).out
  | isEq T es => simp only [eval]; exact (evals_codes es ρ c s).bind fun _ _ => codes_val
  | tuple bs => simp only [eval]; exact (evalFields_codes bs ρ c s).bind fun _ _ => codes_val
  | let_ bs body => simp only [eval]; exact (evalBinds_codes bs ρ c s).bind fun _ _ => evalSeq_codes body _ _ _
  | begin_ body => simp only [eval]; exact evalSeq_codes body _ _ _
  | ite e a b =>
    simp only [eval]
    refine (eval_codes e ρ c s).bind fun v s => ?_
    split
    · exact eval_codes a _ _ _
    · exact eval_codes b _ _ _
    · exact codes_wrong
  | and_ es => simp only [eval]; exact evalAnd_codes es _ _ _
  | or_ es => simp only [eval]; exact evalOr_codes es _ _ _
  | matchOpt U e x a b =>
    simp only [eval]
    refine (eval_codes e ρ c s).bind fun v s => ?_
    split
    · exact eval_codes a _ _ _
    · exact eval_codes b _ _ _
    · exact codes_wrong
  | matchResp O E e x a y b =>
    simp only [eval]
    refine (eval_codes e ρ c s).bind fun v s => ?_
    split
    · exact eval_codes a _ _ _
    · exact eval_codes b _ _ _
    · exact codes_wrong
  | asserts e t =>
    simp only [eval]
    refine (eval_codes e ρ c s).bind fun v s => ?_
    split
    · exact codes_val
    · exact (eval_codes t _ _ _).bind fun _ _ => codes_ret
    · exact codes_wrong
  | unwrapOpt e t =>
    simp only [eval]
    refine (eval_codes e ρ c s).bind fun v s => (eval_codes t _ _ _).bind fun _ _ => ?_
    fin
  | unwrapResp E e t =>
    simp only [eval]
    refine (eval_codes e ρ c s).bind fun v s => (eval_codes t _ _ _).bind fun _ _ => ?_
    fin
  | unwrapErr O e t =>
    simp only [eval]
    refine (eval_codes e ρ c s).bind fun v s => (eval_codes t _ _ _).bind fun _ _ => ?_
    fin
  | tryOpt e => simp only [eval]; refine (eval_codes e ρ c s).bind fun v s => ?_; fin
  | tryResp E e => simp only [eval]; refine (eval_codes e ρ c s).bind fun v s => ?_; fin
  | call f es => simp only [eval]; exact (evals_codes es ρ c s).bind fun _ _ => hc _ _ _ _
  | asContract e => simp only [eval]; exact eval_codes e _ _ _
  | varGet x => simp only [eval]; fin
  | varSet x e => simp only [eval]; refine (eval_codes e ρ c s).bind fun v s => ?_; fin
  | mapGet m k =>
    simp only [eval]; refine (eval_codes k ρ c s).bind fun v s => ?_
    split
    · exact codes_val
    · exact codes_wrong
  | mapSet m k v =>
    simp only [eval]
    refine (eval_codes k ρ c s).bind fun _ s => (eval_codes v _ _ _).bind fun _ _ => ?_
    fin
  | mapInsert m k v =>
    simp only [eval]
    refine (eval_codes k ρ c s).bind fun _ s => (eval_codes v _ _ _).bind fun _ _ => ?_
    fin
  | mapDelete m k => simp only [eval]; refine (eval_codes k ρ c s).bind fun v s => ?_; fin
  | elementAt S e i =>
    simp only [eval]
    exact (eval_codes e ρ c s).bind fun _ s => (eval_codes i _ _ _).bind fun _ _ => (elementAt_codes _ _).out
  | slice S e l r =>
    simp only [eval]
    exact (eval_codes e ρ c s).bind fun _ s => (eval_codes l _ _ _).bind fun _ _ =>
      (eval_codes r _ _ _).bind fun _ _ => (slice_codes _ _ _).out
  | indexOf S e x =>
    simp only [eval]
    refine (eval_codes e ρ c s).bind fun v s => ?_
    split
    · split
      · exact codes_val
      · exact codes_deviates
    · exact (eval_codes x _ _ _).bind fun _ _ => codes_val
    · exact codes_wrong
  | list es => simp only [eval]; exact (evals_codes es ρ c s).bind fun _ _ => codes_val
  | token q es => simp only [eval]; exact (evals_codes es ρ c s).bind fun _ _ => token_codes hc _ _ _ _
  | append e x =>
    simp only [eval]
    exact (eval_codes e ρ c s).bind fun _ s => (eval_codes x _ _ _).bind fun _ _ => by fin
  | concat T a b =>
    simp only [eval]
    exact (eval_codes a ρ c s).bind fun _ s => (eval_codes b _ _ _).bind fun _ _ => by fin
  | replaceAt S e i x =>
    simp only [eval]
    exact (eval_codes e ρ c s).bind fun _ s => (eval_codes i _ _ _).bind fun _ _ =>
      (eval_codes x _ _ _).bind fun _ _ => (replace_codes _ _ _).out
  | mem q S e =>
    simp only [eval]
    exact (eval_codes e ρ c s).bind fun v s => by
      cases q <;> simp only [MWord.eval]
      · cases numeral v <;> first | exact codes_val | exact codes_wrong
      · cases numeral v <;> first | exact codes_val | exact codes_wrong
      all_goals cases hashInput v <;> first | exact codes_val | exact codes_wrong
  | toBuff T e =>
    simp only [eval]
    exact (eval_codes e ρ c s).bind fun _ s => by fin
  | fromBuff T m e =>
    simp only [eval]
    exact (eval_codes e ρ c s).bind fun v s => by
      split
      · split <;> first | exact codes_val | exact codes_deviates
      · exact codes_wrong
  | fold f S e i =>
    simp only [eval]
    refine (eval_codes e ρ c s).bind fun _ s => (eval_codes i _ _ _).bind fun _ _ => ?_
    split
    · exact foldElems_codes hc _ _ _ _ _
    · exact codes_wrong
  | filter f e =>
    simp only [eval]
    refine (eval_codes e ρ c s).bind fun _ s => ?_
    split
    · exact codes_deviates
    · exact (maskElems_codes hc _ _ _ _).bind fun _ _ => codes_val
    · exact codes_wrong
  | map f es =>
    simp only [eval]
    refine (evals_codes es ρ c s).bind fun _ s => ?_
    split
    · exact (mapRows_codes hc _ _ _ _).bind fun _ _ => codes_val
    · exact codes_wrong
theorem evals_codes (es : Exprs) (ρ : Env) (c : Cx) (s : St) : (evals call es ρ c s).codes := by
  cases es with
  | nil => simp only [evals]; fin
  | cons T e es =>
    simp only [evals]
    exact (eval_codes e _ _ _).bind fun _ _ => (evals_codes es _ _ _).bind fun _ _ => codes_val
theorem evalSeq_codes (es : Exprs) (ρ : Env) (c : Cx) (s : St) : (evalSeq call es ρ c s).codes := by
  match es with
  | .nil => simp only [evalSeq]; fin
  | .cons T e .nil => simp only [evalSeq]; exact eval_codes e _ _ _
  | .cons T e (.cons T' e' es) =>
    simp only [evalSeq]
    exact (eval_codes e _ _ _).bind fun _ _ => evalSeq_codes (.cons T' e' es) _ _ _
theorem evalAnd_codes (es : Exprs) (ρ : Env) (c : Cx) (s : St) : (evalAnd call es ρ c s).codes := by
  cases es with
  | nil => simp only [evalAnd]; fin
  | cons T e es =>
    simp only [evalAnd]
    refine (eval_codes e _ _ _).bind fun _ _ => ?_
    split
    · exact evalAnd_codes es _ _ _
    · exact codes_val
    · exact codes_wrong
theorem evalOr_codes (es : Exprs) (ρ : Env) (c : Cx) (s : St) : (evalOr call es ρ c s).codes := by
  cases es with
  | nil => simp only [evalOr]; fin
  | cons T e es =>
    simp only [evalOr]
    refine (eval_codes e _ _ _).bind fun _ _ => ?_
    split
    · exact evalOr_codes es _ _ _
    · exact codes_val
    · exact codes_wrong
theorem evalBinds_codes (bs : Binds) (ρ : Env) (c : Cx) (s : St) : (evalBinds call bs ρ c s).codes := by
  cases bs with
  | nil => simp only [evalBinds]; fin
  | cons x T e bs =>
    simp only [evalBinds]
    exact (eval_codes e _ _ _).bind fun _ _ => evalBinds_codes bs _ _ _
theorem evalFields_codes (bs : Binds) (ρ : Env) (c : Cx) (s : St) : (evalFields call bs ρ c s).codes := by
  cases bs with
  | nil => simp only [evalFields]; fin
  | cons x T e bs =>
    simp only [evalFields]
    exact (eval_codes e _ _ _).bind fun _ _ => (evalFields_codes bs _ _ _).bind fun _ _ => codes_val
end

theorem run_codes (f : FunDef) (vs : List Value) (c : Cx) (s : St) : (f.run call vs c s).codes := by
  intro k h
  unfold FunDef.run at h
  generalize ho : eval call f.body ((f.params.map Prod.fst).zip vs).reverse c s = o at h
  cases o with
  | fail c' => cases h; exact eval_codes hc _ _ _ _ _ ho
  | _ => cases h

end

theorem sem_codes (P : List FunDef) (k : Nat) : ∀ f vs c s, (sem P k f vs c s).codes := by
  induction k with
  | zero => intro f vs c s; exact codes_wrong
  | succ k ih =>
    intro f vs c s
    unfold sem
    repeat' split
    · refine (run_codes ih _ _ _ _).bind fun v s' => ?_
      fin
    · exact codes_wrong
    · exact ih _ _ _ _

end Core
