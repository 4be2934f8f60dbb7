import Verif.Gen.ExprProof4
import Verif.Gen.EqualProof

/-! Code of expressions: `is-eq`. -/

namespace Gen
open Wasm Spec Host Core
open Classical

section
variable {p : P} {k : Nat} {call : FSem} {wr : Bool} {w : World} {d n al : Nat} {er : Bool}
  {stk bs loc loc' : List Val} {g : Store World}

/-- Comparing the remaining operands with the first one. -/
def EqsGood (p : P) (k : Nat) (call : FSem) (wr : Bool) (es : Exprs) : Prop :=
  ∀ T as er Δ Γ ρ n w c s d stk loc g v ws (b : Bool), comparable T = true → T.WF → wts p.K k wr p.R es er Δ →
    (∀ U ∈ tys es, U = T) →
    Ok p wr c w s Δ Γ ρ n (compileEqs p.K p.R T as es d Γ n).al
      (compileEqs p.K p.R T as es d Γ n).ls.length loc g → Rep g.mem (p.reg g) T v ws →
    as.map (loc[·]?) = ws.map some → (∀ x ∈ as, x < n) →
    Does p w d er n (compileEqs p.K p.R T as es d Γ n).al (compileEqs p.K p.R T as es d Γ n).is
      ((encB b).reverse ++ stk) stk loc g
      ((evals call es ρ c s).bind fun vs s => .val (.bool (b && decide (∀ u ∈ vs, v = u))) s) (IsRep p .bool)

theorem good_eqs_nil : EqsGood p k call wr .nil := by
  intro T as er Δ Γ ρ n w c s d stk loc g v ws b hc hwf ht hU ok hr ha hn
  simp only [compileEqs, evals, Out.bind]
  refine Does.done (ws := encB b) rfl ok.inv.host ok.inv.st ?_
  have : (b && decide (∀ u ∈ ([] : List Value), v = u)) = b := by simp
  rw [this]
  exact rep_bool b

theorem good_eqs_cons {U : Ty} {e : Expr} {es : Exprs} (he : EGood p k call wr e)
    (hes : EqsGood p k call wr es) : EqsGood p k call wr (.cons U e es) := by
  intro T as er Δ Γ ρ n w c s d stk loc g v ws b hc hwf ht hU ok hr ha hn
  simp only [wts] at ht
  obtain rfl : U = T := hU U (by simp [tys])
  simp only [compileEqs, List.length_append, Nat.add_assoc] at ok
  simp only [compileEqs, List.append_assoc, Nat.add_assoc]
  generalize hA : compile p.K p.R e U d Γ n = A at *
  have e0 : ((evals call (.cons U e es) ρ c s).bind fun vs s => Out.val (Value.bool (b && decide (∀ u ∈ vs, v = u))) s) =
      (eval call e ρ c s).bind fun x s => (evals call es ρ c s).bind fun vs s =>
        Out.val (Value.bool (b && decide (v = x) && decide (∀ u ∈ vs, v = u))) s := by
    simp only [evals]
    cases eval call e ρ c s with
    | val x s =>
      simp only [Out.bind]
      cases evals call es ρ c s <;> simp [Bool.and_assoc]
    | _ => rfl
  rw [e0]
  refine he.then ht.1 hA ok ?_
  intro x s' wx loc1 g1 _ hf1 ok1 hx
  have hr1 := hr.step hf1
  have ha1 : as.map (loc1[·]?) = ws.map some := by
    rw [← ha]; exact List.map_congr_left fun i hi => hf1.keep i (hn i hi)
  obtain ⟨loc2, hst, hf2, _, hw2⟩ := saved (p := p) (T := U) (ws := wx) (loc := loc1) (g := g1)
    (stk := (encB b).reverse ++ stk) (m := n + A.ls.length) hx.len (by have := ok1.locs; omega)
  refine Does.steps0 hst hf2 (Nat.le_refl _) ?_
  have ok2 := ok1.locals hf2
  have ha2 : as.map (loc2[·]?) = ws.map some := by
    rw [← ha1]; exact List.map_congr_left fun i hi => hf2.keep i (by have := hn i hi; omega)
  have hmem := fun i (hi : i ∈ saveLocals U (n + A.ls.length)) => mem_saveLocals.1 hi
  have hcode := wp_equal (M := p.M) (b := p.reg g1) U as (saveLocals U (n + A.ls.length))
    (n + A.ls.length + (wty U).length) ((encB b).reverse ++ stk) loc2 g1 v x ws wx hc hwf hr1 hx ha2 hw2
    (fun i hi => by have := hn i hi; omega) (fun i hi => by have := hmem i hi; omega)
    (fun i hi hi' => by have := hn i hi; have := hmem i hi'; omega) (by simp [saveLocals, List.nodup_range'])
    (by have := ok2.locs; simp only [Nat.add_assoc] at this ⊢; omega)
    (by have := ok2.inv.room; show sp g1 ≤ _; omega)
  simp only [Nat.add_assoc] at hcode ok2
  generalize hE : equalCode U as (saveLocals U (n + A.ls.length)) (n + (A.ls.length + (wty U).length)) = E at *
  have hcmp : Does p w d er (n + A.ls.length) 0 (E.1 ++ [.b (.i32bin .and)]) ((encB b).reverse ++ stk) stk loc2 g1
      (.val (b && decide (v = x)) s') (fun y ws _ _ => ws = encB y) := by
    intro _
    rw [wp_append]
    refine hcode.mono ?_
    rintro r ⟨q, loc3, rfl, hq, hK⟩
    have hf3 : Fr (n + A.ls.length) 0 loc2 loc3 g1 g1 := Fr.locals hK.1 fun i hi =>
      hK.2 i (by omega) (fun hi' => by have := hmem i hi'; omega)
    have e2 : ∃ z, stepB (.i32bin .and) (.i32 q :: ((encB b).reverse ++ stk)) loc3 g1 = .ok (z :: stk) loc3 g1 ∧
        [z] = encB (b && decide (v = x)) := by
      rcases hq with ⟨rfl, h⟩ | ⟨rfl, h⟩ <;> cases b <;> exact ⟨_, rfl, by simp [h, encB, IBin.eval]⟩
    obtain ⟨z, hz, hzz⟩ := e2
    refine ((Steps.b hz).wp).2 ⟨[z], loc3, g1, rfl, hf3, ok2.inv.host, ok2.inv.st, hzz⟩
  rw [show E.1 ++ (Instr.b (.i32bin .and)) :: (compileEqs p.K p.R U as es d Γ (n + (A.ls.length + ((wty U).length + E.2.length)))).is =
    (E.1 ++ [.b (.i32bin .and)]) ++ (compileEqs p.K p.R U as es d Γ (n + (A.ls.length + ((wty U).length + E.2.length)))).is by simp]
  have := Does.bind (n' := n + (A.ls.length + ((wty U).length + E.2.length)))
    (al' := (compileEqs p.K p.R U as es d Γ (n + (A.ls.length + ((wty U).length + E.2.length)))).al)
    (is' := (compileEqs p.K p.R U as es d Γ (n + (A.ls.length + ((wty U).length + E.2.length)))).is)
    (bs2 := stk) (Q2 := IsRep p .bool)
    (k := fun y s => (evals call es ρ c s).bind fun vs s => Out.val (Value.bool (y && decide (∀ u ∈ vs, v = u))) s)
    hcmp (by omega) ?_
  · rwa [Nat.zero_add] at this
  · rintro y s2 us loc3 g3 hy hf3 hh3 hs3 rfl
    exact hes U as er Δ Γ ρ _ w c s2 d stk loc3 g3 v ws y hc hwf ht.2 (fun V hV => hU V (by simp [tys, hV]))
      (Ok.step (al := 0) (by rw [Nat.zero_add]; exact ok1) (hf2.trans hf3 (Nat.le_refl _)) hh3 hs3 (by omega) (by omega))
      (hr1.step hf3) (by
        rw [← ha2]; exact List.map_congr_left fun i hi => hf3.keep i (by have := hn i hi; omega))
      (fun i hi => by have := hn i hi; omega)

theorem good_isEq_one {T U : Ty} {e : Expr} (he : EGood p k call wr e) :
    EGood p k call wr (.isEq T (.cons U e .nil)) := by
  intro T' er Δ Γ ρ n w c s d stk loc g ht ok
  simp only [wt, wts] at ht
  obtain ⟨rfl, hc, hwf, ⟨ht, -⟩, hU, -⟩ := ht
  obtain rfl : U = T := hU U (by simp [tys])
  simp only [compile, compileEq] at ok
  simp only [compile, compileEq, eval, List.append_assoc]
  generalize hA : compile p.K p.R e U d Γ n = A at *
  have e0 : ((evals call (.cons U e .nil) ρ c s).bind fun vs s => Out.val (Value.bool (decide (AllEqual vs))) s) =
      (eval call e ρ c s).bind fun _ s => .val (.bool true) s := by
    simp only [evals]
    cases eval call e ρ c s <;> simp [Out.bind, AllEqual]
  rw [e0]
  have := he.then (al' := 0) (ll' := 0) (is' := dropValue U ++ [c32 1]) (bs2 := stk) (Q2 := IsRep p .bool)
    (f := fun _ s => .val (.bool true) s) (stk := stk) ht hA ok ?_
  · exact this
  · intro v s' ws loc' g' _ hf ok' hq
    refine Does.steps0 (steps_dropValue hq.len) Fr.refl (Nat.le_refl _) ?_
    exact Does.ends (ws := encB true) steps_c32 Fr.refl ok'.inv.host ok'.inv.st (rep_bool true)

theorem good_isEq_more {T U V : Ty} {e e' : Expr} {es : Exprs} (he : EGood p k call wr e)
    (hes : EqsGood p k call wr (.cons V e' es)) :
    EGood p k call wr (.isEq T (.cons U e (.cons V e' es))) := by
  intro T' er Δ Γ ρ n w c s d stk loc g ht ok
  simp only [wt] at ht
  obtain ⟨rfl, hc, hwf, ht, hU, -⟩ := ht
  rw [wts] at ht
  obtain rfl : U = T := hU U (by simp [tys])
  have hU' : ∀ W ∈ tys (.cons V e' es), W = U := fun W hW => hU W (by rw [tys]; simp [hW])
  generalize hes' : Exprs.cons V e' es = fs at *
  have e1 : compile p.K p.R (.isEq U (.cons U e fs)) .bool d Γ n =
      ⟨(compile p.K p.R e U d Γ n).is ++ saveCode U (n + (compile p.K p.R e U d Γ n).ls.length) ++ c32 1 ::
        (compileEqs p.K p.R U (saveLocals U (n + (compile p.K p.R e U d Γ n).ls.length)) fs d Γ
          (n + (compile p.K p.R e U d Γ n).ls.length + (wty U).length)).is,
       (compile p.K p.R e U d Γ n).ls ++ wty U ++
        (compileEqs p.K p.R U (saveLocals U (n + (compile p.K p.R e U d Γ n).ls.length)) fs d Γ
          (n + (compile p.K p.R e U d Γ n).ls.length + (wty U).length)).ls,
       (compile p.K p.R e U d Γ n).al +
        (compileEqs p.K p.R U (saveLocals U (n + (compile p.K p.R e U d Γ n).ls.length)) fs d Γ
          (n + (compile p.K p.R e U d Γ n).ls.length + (wty U).length)).al⟩ := by
    subst hes'
    simp only [compile, compileEq]
  rw [e1] at ok ⊢
  simp only [List.length_append, Nat.add_assoc] at ok
  simp only [eval, Nat.add_assoc, List.append_assoc]
  generalize hA : compile p.K p.R e U d Γ n = A at *
  have e0 : ((evals call (.cons U e fs) ρ c s).bind fun vs s => Out.val (Value.bool (decide (AllEqual vs))) s) =
      (eval call e ρ c s).bind fun v s => (evals call fs ρ c s).bind fun vs s =>
        .val (.bool (true && decide (∀ u ∈ vs, v = u))) s := by
    simp only [evals]
    cases eval call e ρ c s with
    | val x s =>
      simp only [Out.bind]
      cases evals call fs ρ c s with
      | val vs s =>
        simp only [Bool.true_and, Out.val.injEq, Value.bool.injEq, and_true]
        exact decide_eq_decide.2 Iff.rfl
      | _ => rfl
    | _ => rfl
  rw [e0]
  refine he.then ht.1 hA ok ?_
  intro v s' ws loc1 g1 _ hf1 ok1 hq
  obtain ⟨loc2, hst, hf2, _, hw2⟩ := saved (p := p) (T := U) (ws := ws) (loc := loc1) (g := g1)
    (stk := stk) (m := n + A.ls.length) hq.len (by have := ok1.locs; omega)
  have ok2 := ok1.locals hf2
  rw [Nat.add_assoc] at ok2
  refine Does.steps0 hst hf2 (n' := n + (A.ls.length + (wty U).length)) (by omega) ?_
  refine Does.steps0 (is := [c32 1]) steps_c32 Fr.refl (Nat.le_refl _) ?_
  exact hes U _ er Δ Γ ρ _ w c s' d stk loc2 g1 v ws true hc hwf ht.2 hU' ok2 hq hw2
    (fun i hi => by have := mem_saveLocals.1 hi; omega)

end
end Gen
