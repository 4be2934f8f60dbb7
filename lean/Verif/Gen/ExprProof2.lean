import Verif.Gen.ExprProof

/-! Code of expressions: matching responses, short-circuit operators, early returns. -/

namespace Gen
open Wasm Spec Host Core

section
variable {p : P} {k : Nat} {call : FSem} {wr : Bool} {w : World} {d n al : Nat} {er : Bool}
  {stk bs loc loc' : List Val} {g : Store World}

/-- Two values saved one after the other. -/
theorem saved2 {O E : Ty} {m : Nat} {us vs : List Val} (hu : us.length = (wty O).length)
    (hv : vs.length = (wty E).length) (hl : m + (wty E).length + (wty O).length ≤ loc.length) :
    ∃ loc', Steps p.M (saveCode E m ++ saveCode O (m + (wty E).length)) ((us ++ vs).reverse ++ stk) loc g
        stk loc' g ∧ Fr m 0 loc loc' g g ∧
      (saveLocals E m).map (loc'[·]?) = vs.map some ∧
      (saveLocals O (m + (wty E).length)).map (loc'[·]?) = us.map some := by
  obtain ⟨loc1, s1, f1, _, w1⟩ := saved (p := p) (T := E) (m := m) (stk := us.reverse ++ stk) (g := g) (loc := loc)
    hv (by omega)
  obtain ⟨loc2, s2, f2, _, w2⟩ := saved (p := p) (T := O) (m := m + (wty E).length) (stk := stk) (g := g)
    (loc := loc1) hu (by rw [f1.len]; omega)
  refine ⟨loc2, ?_, f1.trans f2 (by omega), ?_, w2⟩
  · rw [List.reverse_append, List.append_assoc]; exact s1.append s2
  · rw [← w1]
    exact List.map_congr_left fun l hl => f2.keep l (mem_saveLocals.1 hl).2

theorem good_matchResp {O E : Ty} {e a b : Expr} {x y : Name} (he : EGood p k call wr e)
    (ha : EGood p k call wr a) (hb : EGood p k call wr b) :
    EGood p k call wr (.matchResp O E e x a y b) := by
  intro T er Δ Γ ρ n w c s d stk loc g ht ok
  simp only [wt] at ht
  simp only [compile, List.length_append, Nat.add_assoc] at ok
  simp only [compile, eval, Nat.add_assoc, List.append_assoc]
  generalize hC : compile p.K p.R e (.resp O E) d Γ n = C at *
  generalize hA : compile p.K p.R a T (d + 1) _ _ = A at *
  generalize hB : compile p.K p.R b T (d + 1) _ _ = B at *
  refine he.then ht.1 hC ok ?_
  intro v s' ws loc' g' _ hf ok' hq
  simp only [Rep] at hq
  have hl := ok'.locs
  rcases hq with ⟨v, us, js, rfl, rfl, hu, hj⟩ | ⟨v, us, js, rfl, rfl, hu, hj⟩
  · obtain ⟨loc2, hst, hf2, _, hw2⟩ := saved2 (p := p) (O := O) (E := E) (us := us) (vs := js) (loc := loc') (g := g')
      (stk := .i32 1#32 :: stk) (m := n + C.ls.length) hu.len (typed_length hj) (by omega)
    have ok2 := ((ok'.at (Nat.le_refl _) (ll' := (wty E).length + (wty O).length + (A.ls.length + B.ls.length)) (by omega) (Nat.le_refl _)).locals hf2).bind (x := x) (T := O) (m := n + C.ls.length + (wty E).length)
      (by omega) hw2 hu
    rw [List.reverse_cons, List.append_assoc, ← List.append_assoc (saveCode E _)]
    rw [Nat.add_assoc n] at hst ok2
    refine Does.steps0 hst hf2 (Nat.le_refl _) (Does.ite (c := 1#32) ?_)
    exact ha.branch ht.2.1 hA (ok2.at (by omega) (by omega) (Nat.le_refl _)) (by omega) (by omega)
  · obtain ⟨loc2, hst, hf2, hw2, _⟩ := saved2 (p := p) (O := O) (E := E) (us := js) (vs := us) (loc := loc') (g := g')
      (stk := .i32 0#32 :: stk) (m := n + C.ls.length) (typed_length hj) hu.len (by omega)
    have ok2 := ((ok'.at (Nat.le_refl _) (ll' := (wty E).length + (wty O).length + (A.ls.length + B.ls.length)) (by omega) (Nat.le_refl _)).locals hf2).bind (x := y) (T := E) (m := n + C.ls.length)
      (by omega) hw2 hu
    rw [List.reverse_cons, List.append_assoc, ← List.append_assoc (saveCode E _)]
    rw [Nat.add_assoc n] at hst
    refine Does.steps0 hst hf2 (Nat.le_refl _) (Does.ite (c := 0#32) ?_)
    exact hb.branch ht.2.2 hB (ok2.at (by omega) (by omega) (Nat.le_refl _)) (by omega) (by omega)

/-! ### and, or -/

/-- `and`/`or` of the remaining operands, after the value `x` of the previous ones. -/
noncomputable def evalMore (call : FSem) (isAnd : Bool) (es : Exprs) (ρ : Env) (c : Cx) (s : St)
    (x : Bool) : Out Value :=
  if x = isAnd then (if isAnd then evalAnd call es ρ c s else evalOr call es ρ c s)
  else .val (.bool x) s

/-- The code of the operands of `and`, `or` implements their evaluation. -/
def BrGood (p : P) (k : Nat) (call : FSem) (wr : Bool) (es : Exprs) : Prop :=
  ∀ (isAnd x : Bool) er Δ Γ ρ n w c s d stk loc g, wts p.K k wr p.R es er Δ → (∀ U ∈ tys es, U = .bool) →
    Ok p wr c w s Δ Γ ρ n (compileBranches p.K p.R isAnd es d Γ n).al
      (compileBranches p.K p.R isAnd es d Γ n).ls.length loc g →
    Does p w d er n (compileBranches p.K p.R isAnd es d Γ n).al (compileBranches p.K p.R isAnd es d Γ n).is
      ((encB x).reverse ++ stk) stk loc g (evalMore call isAnd es ρ c s x) (IsRep p .bool)

theorem rep_bool {m : Mem} {b : Reg} (x : Bool) : Rep m b .bool (.bool x) (encB x) := by
  simp only [Rep]; exact ⟨x, rfl, rfl⟩

theorem good_br_nil : BrGood p k call wr .nil := by
  intro isAnd x er Δ Γ ρ n w c s d stk loc g _ _ ok
  simp only [compileBranches]
  have : evalMore call isAnd .nil ρ c s x = .val (.bool x) s := by
    cases isAnd <;> cases x <;> simp [evalMore, evalAnd, evalOr]
  rw [this]
  exact Does.done rfl ok.inv.host ok.inv.st (rep_bool x)

theorem evalMore_cons {isAnd x : Bool} {T : Ty} {e : Expr} {es : Exprs} {ρ : Env} {c : Cx} {s : St} :
    evalMore call isAnd (.cons T e es) ρ c s x =
      (if x = isAnd then eval call e ρ c s else .val (.bool x) s).bind fun v s => match v with
        | .bool y => evalMore call isAnd es ρ c s y
        | _ => .wrong := by
  unfold evalMore
  cases isAnd <;> cases x <;> simp [evalAnd, evalOr, Out.bind] <;>
    (congr 1; funext v s; cases v <;> first | rfl | skip) <;> (rename_i b; cases b <;> simp)

theorem good_br_cons {T : Ty} {e : Expr} {es : Exprs} (he : EGood p k call wr e)
    (hes : BrGood p k call wr es) : BrGood p k call wr (.cons T e es) := by
  intro isAnd x er Δ Γ ρ n w c s d stk loc g ht hb ok
  simp only [wts] at ht
  obtain rfl : T = .bool := hb T (by simp [tys])
  simp only [compileBranches, List.length_append] at ok
  simp only [compileBranches, evalMore_cons]
  generalize hA : compile p.K p.R e .bool (d + 1) Γ n = A at *
  have h0 : Does p w d er n A.al [circuit isAnd A.is] ((encB x).reverse ++ stk) stk loc g
      (if x = isAnd then eval call e ρ c s else .val (.bool x) s) (IsRep p .bool) := by
    have hrun : Does p w (d + 1) er n A.al A.is [] [] loc g (eval call e ρ c s) (IsRep p .bool) := by
      have := he .bool er Δ Γ ρ n w c s (d + 1) [] loc g ht.1 (by rw [hA]; exact ok.weaken (by omega) (by omega))
      rwa [hA] at this
    have hlit : ∀ y : Bool, Does p w (d + 1) er n A.al [c32 y.toNat] [] [] loc g (.val (.bool y) s) (IsRep p .bool) :=
      fun y => Does.ends (ws := encB y) (by
        have := steps_c32 (M := p.M) (v := y.toNat) (s := []) (l := loc) (g := g)
        cases y <;> exact this) (Fr.refl.weaken (Nat.le_refl _) (Nat.zero_le _)) ok.inv.host ok.inv.st (rep_bool y)
    unfold circuit
    cases isAnd <;> cases x
    · exact Does.ite (c := 0#32) hrun
    · exact Does.ite (c := 1#32) (hlit true)
    · exact Does.ite (c := 0#32) (hlit false)
    · exact Does.ite (c := 1#32) hrun
  refine Does.bind (is := [_]) h0 (Nat.le_add_right n A.ls.length) ?_
  intro v s' ws loc' g' _ hf hh hs hq
  have ok' := ok.step hf hh hs (Nat.le_add_right n _) (Nat.le_of_eq (Nat.add_assoc _ _ _))
  simp only [IsRep, Rep] at hq
  obtain ⟨y, rfl, rfl⟩ := hq
  exact hes isAnd y er Δ Γ ρ _ w c s' d stk loc' g' ht.2 (fun U hU => hb U (by simp [tys, hU])) ok'

theorem good_and {es : Exprs} (hes : BrGood p k call wr es) : EGood p k call wr (.and_ es) := by
  intro T er Δ Γ ρ n w c s d stk loc g ht ok
  simp only [wt] at ht
  obtain ⟨rfl, h1, h2⟩ := ht
  simp only [compile] at ok
  have : eval call (.and_ es) ρ c s = evalMore call true es ρ c s true := by simp [eval, evalMore]
  rw [this]
  exact Does.steps0 (is := [c32 1]) steps_c32 Fr.refl (Nat.le_refl _)
    (hes true true er Δ Γ ρ n w c s d stk loc g h1 h2 ok)

theorem good_or {es : Exprs} (hes : BrGood p k call wr es) : EGood p k call wr (.or_ es) := by
  intro T er Δ Γ ρ n w c s d stk loc g ht ok
  simp only [wt] at ht
  obtain ⟨rfl, h1, h2⟩ := ht
  simp only [compile] at ok
  have : eval call (.or_ es) ρ c s = evalMore call false es ρ c s false := by simp [eval, evalMore]
  rw [this]
  exact Does.steps0 (is := [c32 0]) steps_c32 Fr.refl (Nat.le_refl _)
    (hes false false er Δ Γ ρ n w c s d stk loc g h1 h2 ok)

/-! ### Early returns -/

/-- The test of `handle_short_return_function` succeeds: the value on the stack is returned. -/
theorem Does.early {α : Type} {cl : Nat} {neg : Bool} {x : BitVec 32} {v : Value} {s : St}
    {ws : List Val} {is : List Instr} {Q : α → List Val → List Val → Store World → Prop} (her : er = true)
    (hl : loc[cl]? = some (.i32 x)) (hx : (x = 0#32) = (neg = true)) (hh : g.host = put w s)
    (hs : StOk p.K w.contract s) (hr : Rep g.mem (p.reg g) p.R v ws) :
    Does p w d er n al (shortReturn p.R d cl neg ++ is) (ws.reverse ++ stk) bs loc g (.ret v s) Q := by
  intro _
  have fin : Post p w d er n al bs loc g (.ret v s) Q (.br d (ws.reverse ++ stk) loc g) :=
    ⟨her, ws, stk, loc, g, rfl, Fr.refl.weaken (Nat.le_refl _) (Nat.zero_le _), hh, hs, hr⟩
  unfold shortReturn lget
  cases neg
  · simp only [Bool.false_eq_true, eq_iff_iff, iff_false] at hx
    rw [List.cons_append, show ∀ r Q, WP p.M (.b (.localGet cl) :: r) _ loc g Q ↔ _ from steps_get hl]
    simp only [Bool.false_eq_true, if_false, List.nil_append, List.cons_append, wp_brIf, hx]
    exact fin
  · simp only [eq_iff_iff, iff_true] at hx
    subst hx
    rw [List.cons_append, show ∀ r Q, WP p.M (.b (.localGet cl) :: r) _ loc g Q ↔ _ from steps_get hl]
    simp only [if_true, List.cons_append, List.nil_append, wp_i32eqz, wp_brIf]
    exact fin

/-- The test fails: the value is dropped. -/
theorem Does.noReturn {α : Type} {cl : Nat} {neg : Bool} {x : BitVec 32} {o : Out α} {ws : List Val}
    {is : List Instr} {Q : α → List Val → List Val → Store World → Prop}
    (hl : loc[cl]? = some (.i32 x)) (hx : (x = 0#32) = (neg = false)) (hw : ws.length = (wty p.R).length)
    (h : Does p w d er n al is stk bs loc g o Q) :
    Does p w d er n al (shortReturn p.R d cl neg ++ is) (ws.reverse ++ stk) bs loc g o Q := by
  refine Does.steps0 ?_ Fr.refl (Nat.le_refl _) h
  unfold shortReturn lget
  refine Steps.cons (steps_get hl) ?_
  cases neg
  · simp only [eq_iff_iff, iff_true] at hx
    subst hx
    simp only [Bool.false_eq_true, if_false, List.nil_append]
    refine Steps.cons (s1 := ws.reverse ++ stk) (l1 := loc) (g1 := g) ?_ (steps_dropValue hw)
    refine Steps.of_wp fun Q => ?_
    rw [wp_brIf, if_pos rfl, wp_nil]
  · simp only [Bool.true_eq_false, eq_iff_iff, iff_false] at hx
    simp only [if_true, List.cons_append, List.nil_append]
    refine Steps.cons (s1 := .i32 0#32 :: (ws.reverse ++ stk)) (l1 := loc) (g1 := g) ?_
      (Steps.cons (s1 := ws.reverse ++ stk) (l1 := loc) (g1 := g) ?_ (steps_dropValue hw))
    · refine Steps.of_wp fun Q => ?_
      rw [wp_i32eqz]
      simp [hx, b32, wp_nil]
    · refine Steps.of_wp fun Q => ?_
      rw [wp_brIf, if_pos rfl, wp_nil]

/-- Setting a fresh local. -/
theorem set_local {M : Wasm.Mod World} {m : Nat} {v : Val} (h : m < loc.length) :
    Steps M [lset m] (v :: stk) loc g stk (loc.set m v) g ∧ Fr m 0 loc (loc.set m v) g g ∧
      (loc.set m v)[m]? = some v :=
  ⟨steps_set h, Fr.locals (by simp) (fun i hi => List.getElem?_set_ne (by omega)),
    List.getElem?_set_self h⟩

theorem total_ans {q : Prim} (h : Total q) (vs : List Value) :
    q.eval vs = .wrong ∨ ∃ v, q.eval vs = .ok v := by
  unfold Prim.eval Core.cmp
  split <;> first
    | exact h.elim
    | exact .inr ⟨_, rfl⟩
    | exact .inl rfl
    | (split <;> first | exact .inr ⟨_, rfl⟩ | exact .inl rfl)

mutual
theorem simple_out : ∀ (e : Expr), Simple e → ∀ (ρ : Env) (c : Cx) (s : St),
    eval call e ρ c s = .wrong ∨ ∃ v, eval call e ρ c s = .val v s
  | .lit v, _, ρ, c, s => by simp only [eval]; exact .inr ⟨_, rfl⟩
  | .none_, _, ρ, c, s => by simp only [eval]; exact .inr ⟨_, rfl⟩
  | .var x, _, ρ, c, s => by
    simp only [eval]
    cases ρ.get x
    · exact .inl rfl
    · exact .inr ⟨_, rfl⟩
  | .txSender, _, ρ, c, s => by simp only [eval]; exact .inr ⟨_, rfl⟩
  | .contractCaller, _, ρ, c, s => by simp only [eval]; exact .inr ⟨_, rfl⟩
  | .prim q es, h, ρ, c, s => by
    simp only [Simple] at h
    simp only [eval]
    rcases simples_out es h.2 ρ c s with e | ⟨vs, e⟩ <;> rw [e]
    · exact .inl rfl
    · rcases total_ans h.1 vs with e | ⟨v, e⟩ <;> simp only [Out.bind, e, Ans.out]
      · exact .inl trivial
      · exact .inr ⟨v, rfl⟩
  | .nary .., h, _, _, _ | .isEq .., h, _, _, _ | .tuple .., h, _, _, _ | .let_ .., h, _, _, _ | .begin_ .., h, _, _, _
  | .ite .., h, _, _, _ | .and_ .., h, _, _, _ | .or_ .., h, _, _, _ | .matchOpt .., h, _, _, _
  | .matchResp .., h, _, _, _ | .asserts .., h, _, _, _ | .unwrapOpt .., h, _, _, _
  | .unwrapResp .., h, _, _, _ | .unwrapErr .., h, _, _, _ | .tryOpt .., h, _, _, _
  | .tryResp .., h, _, _, _ | .call .., h, _, _, _ | .asContract .., h, _, _, _
  | .varGet .., h, _, _, _ | .varSet .., h, _, _, _ | .mapGet .., h, _, _, _
  | .mapSet .., h, _, _, _ | .mapInsert .., h, _, _, _ | .mapDelete .., h, _, _, _
  | .elementAt .., h, _, _, _ | .slice .., h, _, _, _ | .indexOf .., h, _, _, _
  | .fold .., h, _, _, _ | .filter .., h, _, _, _ | .map .., h, _, _, _ => by
    simp only [Simple] at h
theorem simples_out : ∀ (es : Exprs), Simples es → ∀ (ρ : Env) (c : Cx) (s : St),
    evals call es ρ c s = .wrong ∨ ∃ vs, evals call es ρ c s = .val vs s
  | .nil, _, ρ, c, s => by simp only [evals]; exact .inr ⟨_, rfl⟩
  | .cons T e es, h, ρ, c, s => by
    simp only [Simples] at h
    simp only [evals]
    rcases simple_out e h.1 ρ c s with e1 | ⟨v, e1⟩ <;> rw [e1]
    · exact .inl rfl
    · rcases simples_out es h.2 ρ c s with e2 | ⟨vs, e2⟩ <;> simp only [Out.bind, e2]
      · exact .inl trivial
      · exact .inr ⟨_, rfl⟩
end

theorem Does.not_wrong {α : Type} {is : List Instr} {o : Out α} {Q : α → List Val → List Val → Store World → Prop}
    (h : Does p w d er n al is stk bs loc g o Q) : o ≠ .wrong := by
  rintro rfl
  obtain ⟨_, _, _, _, h⟩ := h nofun
  exact h

theorem simple_val {e : Expr} {T : Ty} {Δ : TEnv} {Γ : Scope} {ρ : Env} {c : Cx} {s : St} {A : Blk}
    (he : EGood p k call wr e) (hs : Simple e) (ht : wt p.K k wr p.R e er Δ T)
    (hA : compile p.K p.R e T d Γ n = A) (ok : Ok p wr c w s Δ Γ ρ n A.al A.ls.length loc g) :
    ∃ v, eval call e ρ c s = .val v s := by
  refine (simple_out e hs ρ c s).resolve_left ?_
  exact (he T er Δ Γ ρ n w c s d [] loc g ht (by rw [hA]; exact ok)).not_wrong

theorem good_asserts {e t : Expr} (he : EGood p k call wr e) (htt : EGood p k call wr t) :
    EGood p k call wr (.asserts e t) := by
  intro T er Δ Γ ρ n w c s d stk loc g ht ok
  simp only [wt] at ht
  obtain ⟨her, rfl, ht1, ht2, hsim⟩ := ht
  simp only [compile, List.length_append, List.length_cons, Nat.add_assoc] at ok
  simp only [compile, eval, Nat.add_assoc, List.append_assoc]
  generalize hC : compile p.K p.R e .bool d Γ n = C at *
  generalize hA : compile p.K p.R t p.R d Γ _ = A at *
  refine he.then ht1 hC ok ?_
  intro v s' ws loc' g' _ hf ok' hq
  simp only [Rep] at hq
  obtain ⟨x, rfl, rfl⟩ := hq
  have hl := ok'.locs
  obtain ⟨hst, hf2, hw2⟩ := set_local (M := p.M) (stk := stk) (g := g') (loc := loc') (m := n + C.ls.length)
    (v := .i32 (if x then 1#32 else 0#32)) (by omega)
  have ok2 := (ok'.at (Nat.le_refl _) (ll' := 1 + A.ls.length) (by omega) (Nat.le_refl _)).locals hf2
  rw [Nat.add_assoc] at ok2
  refine Does.steps0 hst hf2 (n' := n + (C.ls.length + 1)) (by omega) ?_
  obtain ⟨u, hu⟩ := simple_val htt hsim ht2 hA ok2
  cases x
  · refine htt.then ht2 hA (al' := 0) (ll' := 0) ok2 ?_
    intro v s2 us loc3 g3 _ hf3 ok3 hr
    exact Does.early her (by rw [hf3.keep _ (by omega)]; exact hw2) (by simp) ok3.inv.host ok3.inv.st hr
  · have e0 : Out.val (Value.bool true) s' = (eval call t ρ c s').bind fun _ s => .val (Value.bool true) s := by
      rw [hu]; rfl
    show Does p w d er _ _ _ _ _ _ _ (Out.val (Value.bool true) s') _
    rw [e0]
    refine htt.then ht2 hA (al' := 0) (ll' := 0) ok2 ?_
    intro v s2 us loc3 g3 _ hf3 ok3 hr
    refine Does.noReturn (by rw [hf3.keep _ (by omega)]; exact hw2) (by simp) hr.len ?_
    exact Does.ends (ws := encB true) steps_c32 Fr.refl ok3.inv.host ok3.inv.st (rep_bool true)

/-- The end of `unwrap!` when the wrapped value is there. -/
theorem unwrap_val {t : Expr} {T : Ty} {Δ : TEnv} {Γ : Scope} {ρ : Env} {c : Cx} {s : St} {A : Blk} {cl : Nat}
    {neg : Bool} {x : BitVec 32} {ls : List Nat} {us : List Val} {v : Value}
    (ht : EGood p k call wr t) (htt : wt p.K k wr p.R t er Δ p.R) (hA : compile p.K p.R t p.R d Γ n = A)
    (ok : Ok p wr c w s Δ Γ ρ n A.al A.ls.length loc g) (hc : cl < n) (hl : loc[cl]? = some (.i32 x))
    (hx : (x = 0#32) = (neg = false)) (hls : ∀ l ∈ ls, l < n) (hw : ls.map (loc[·]?) = us.map some)
    (hr : Rep g.mem (p.reg g) T v us) :
    Does p w d er n A.al (A.is ++ (shortReturn p.R d cl neg ++ getLocals ls)) stk stk loc g
      ((eval call t ρ c s).bind fun _ s => .val v s) (IsRep p T) := by
  refine ht.then htt hA (al' := 0) (ll' := 0) ok ?_
  intro u s2 rs loc3 g3 _ hf3 ok3 hu
  refine Does.noReturn (by rw [hf3.keep _ hc]; exact hl) hx hu.len ?_
  refine Does.ends (ws := us) (steps_getLocals ?_) Fr.refl ok3.inv.host ok3.inv.st (hr.step hf3)
  rw [← hw]
  exact List.map_congr_left fun l hl => hf3.keep l (hls l hl)

/-- The end of `unwrap!` when the thrown value is returned. -/
theorem unwrap_ret {t : Expr} {T : Ty} {Δ : TEnv} {Γ : Scope} {ρ : Env} {c : Cx} {s : St} {A : Blk} {cl : Nat}
    {neg : Bool} {x : BitVec 32} {is : List Instr}
    (ht : EGood p k call wr t) (her : er = true) (htt : wt p.K k wr p.R t er Δ p.R)
    (hA : compile p.K p.R t p.R d Γ n = A)
    (ok : Ok p wr c w s Δ Γ ρ n A.al A.ls.length loc g) (hc : cl < n) (hl : loc[cl]? = some (.i32 x))
    (hx : (x = 0#32) = (neg = true)) :
    Does p w d er n A.al (A.is ++ (shortReturn p.R d cl neg ++ is)) stk stk loc g
      ((eval call t ρ c s).bind fun u s => .ret u s) (IsRep p T) := by
  refine ht.then htt hA (al' := 0) (ll' := 0) ok ?_
  intro u s2 rs loc3 g3 _ hf3 ok3 hu
  exact Does.early her (by rw [hf3.keep _ hc]; exact hl) hx ok3.inv.host ok3.inv.st hu

/-- An optional value and its tag, saved in locals. -/
theorem saved_opt {T : Ty} {m : Nat} {x : BitVec 32} {us : List Val} (hu : us.length = (wty T).length)
    (hl : m + (wty T).length + 1 ≤ loc.length) :
    ∃ loc', Steps p.M (saveCode T m ++ [lset (m + (wty T).length)]) ((.i32 x :: us).reverse ++ stk) loc g
        stk loc' g ∧ Fr m 0 loc loc' g g ∧ loc'[m + (wty T).length]? = some (.i32 x) ∧
      (saveLocals T m).map (loc'[·]?) = us.map some := by
  obtain ⟨loc1, s1, f1, _, w1⟩ := saved (p := p) (T := T) (m := m) (stk := .i32 x :: stk) (g := g) (loc := loc)
    hu (by omega)
  obtain ⟨s2, f2, w2⟩ := set_local (M := p.M) (stk := stk) (g := g) (loc := loc1) (m := m + (wty T).length)
    (v := .i32 x) (by rw [f1.len]; omega)
  refine ⟨_, ?_, f1.trans f2 (by omega), w2, ?_⟩
  · rw [List.reverse_cons, List.append_assoc]; exact s1.append s2
  · rw [← w1]
    exact List.map_congr_left fun l hl => f2.keep l (mem_saveLocals.1 hl).2

/-- A response and its tag, saved in locals. -/
theorem saved_resp {O E : Ty} {m : Nat} {x : BitVec 32} {us vs : List Val} (hu : us.length = (wty O).length)
    (hv : vs.length = (wty E).length) (hl : m + (wty E).length + (wty O).length + 1 ≤ loc.length) :
    ∃ loc', Steps p.M (saveCode E m ++ (saveCode O (m + (wty E).length) ++
          [lset (m + (wty E).length + (wty O).length)])) ((.i32 x :: (us ++ vs)).reverse ++ stk) loc g
        stk loc' g ∧ Fr m 0 loc loc' g g ∧ loc'[m + (wty E).length + (wty O).length]? = some (.i32 x) ∧
      (saveLocals E m).map (loc'[·]?) = vs.map some ∧
      (saveLocals O (m + (wty E).length)).map (loc'[·]?) = us.map some := by
  obtain ⟨loc1, s1, f1, w0, w1⟩ := saved2 (p := p) (O := O) (E := E) (m := m) (stk := .i32 x :: stk) (g := g) (loc := loc)
    hu hv (by omega)
  obtain ⟨s2, f2, w2⟩ := set_local (M := p.M) (stk := stk) (g := g) (loc := loc1)
    (m := m + (wty E).length + (wty O).length) (v := .i32 x) (by rw [f1.len]; omega)
  refine ⟨_, ?_, f1.trans f2 (by omega), w2, ?_, ?_⟩
  · rw [List.reverse_cons, List.append_assoc, ← List.append_assoc (saveCode E m)]; exact s1.append s2
  · rw [← w0]
    exact List.map_congr_left fun l hl => f2.keep l (by have := (mem_saveLocals.1 hl).2; omega)
  · rw [← w1]
    exact List.map_congr_left fun l hl => f2.keep l (mem_saveLocals.1 hl).2

theorem good_unwrapOpt {e t : Expr} (he : EGood p k call wr e) (htt : EGood p k call wr t) :
    EGood p k call wr (.unwrapOpt e t) := by
  intro T er Δ Γ ρ n w c s d stk loc g ht ok
  simp only [wt] at ht
  obtain ⟨her, ht1, ht2⟩ := ht
  simp only [compile, List.length_append, List.length_cons, Nat.add_assoc] at ok
  simp only [compile, eval, Nat.add_assoc, List.append_assoc]
  generalize hC : compile p.K p.R e (.opt T) d Γ n = C at *
  generalize hA : compile p.K p.R t p.R d Γ _ = A at *
  refine he.then ht1 hC ok ?_
  intro v s' ws loc' g' _ hf ok' hq
  simp only [Rep] at hq
  have hl := ok'.locs
  rw [← List.append_assoc (saveCode T _)]
  rcases hq with ⟨us, rfl, rfl, hu⟩ | ⟨v, us, rfl, rfl, hu⟩
  · obtain ⟨loc2, hst, hf2, hx, hw2⟩ := saved_opt (p := p) (T := T) (us := us) (x := 0#32) (loc := loc') (g := g')
      (stk := stk) (m := n + C.ls.length) (typed_length hu) (by omega)
    have ok2 := (ok'.at (Nat.le_refl _) (ll' := (wty T).length + 1 + A.ls.length) (by omega) (Nat.le_refl _)).locals hf2
    simp only [Nat.add_assoc] at hst hx ok2
    exact Does.steps0 hst hf2 (n' := n + (C.ls.length + ((wty T).length + 1))) (by omega)
      (unwrap_ret htt her ht2 hA ok2 (by omega) hx (by simp))
  · obtain ⟨loc2, hst, hf2, hx, hw2⟩ := saved_opt (p := p) (T := T) (us := us) (x := 1#32) (loc := loc') (g := g')
      (stk := stk) (m := n + C.ls.length) hu.len (by omega)
    have ok2 := (ok'.at (Nat.le_refl _) (ll' := (wty T).length + 1 + A.ls.length) (by omega) (Nat.le_refl _)).locals hf2
    simp only [Nat.add_assoc] at hst hx ok2
    exact Does.steps0 hst hf2 (n' := n + (C.ls.length + ((wty T).length + 1))) (by omega)
      (unwrap_val htt ht2 hA ok2 (by omega) hx (by simp)
        (fun l hl => by have := (mem_saveLocals.1 hl).2; omega) hw2 hu)

theorem good_unwrapResp {E : Ty} {e t : Expr} (he : EGood p k call wr e) (htt : EGood p k call wr t) :
    EGood p k call wr (.unwrapResp E e t) := by
  intro T er Δ Γ ρ n w c s d stk loc g ht ok
  simp only [wt] at ht
  obtain ⟨her, ht1, ht2⟩ := ht
  simp only [compile, List.length_append, List.length_cons, Nat.add_assoc] at ok
  simp only [compile, eval, Nat.add_assoc, List.append_assoc]
  generalize hC : compile p.K p.R e (.resp T E) d Γ n = C at *
  generalize hA : compile p.K p.R t p.R d Γ _ = A at *
  refine he.then ht1 hC ok ?_
  intro v s' ws loc' g' _ hf ok' hq
  simp only [Rep] at hq
  have hl := ok'.locs
  rw [← List.append_assoc (saveCode T _), ← List.append_assoc (saveCode E _)]
  rcases hq with ⟨v, us, js, rfl, rfl, hu, hj⟩ | ⟨v, us, js, rfl, rfl, hu, hj⟩
  · obtain ⟨loc2, hst, hf2, hx, _, hw2⟩ := saved_resp (p := p) (O := T) (E := E) (us := us) (vs := js) (x := 1#32) (loc := loc') (g := g')
      (stk := stk) (m := n + C.ls.length) hu.len (typed_length hj) (by omega)
    have ok2 := (ok'.at (Nat.le_refl _) (ll' := (wty E).length + ((wty T).length + 1) + A.ls.length) (by omega) (Nat.le_refl _)).locals hf2
    simp only [Nat.add_assoc] at hst hx ok2 hw2
    exact Does.steps0 hst hf2 (n' := n + (C.ls.length + ((wty E).length + ((wty T).length + 1)))) (by omega)
      (unwrap_val htt ht2 hA ok2 (by omega) hx (by simp)
        (fun l hl => by have := (mem_saveLocals.1 hl).2; omega) hw2 hu)
  · obtain ⟨loc2, hst, hf2, hx, _, hw2⟩ := saved_resp (p := p) (O := T) (E := E) (us := js) (vs := us) (x := 0#32) (loc := loc') (g := g')
      (stk := stk) (m := n + C.ls.length) (typed_length hj) hu.len (by omega)
    have ok2 := (ok'.at (Nat.le_refl _) (ll' := (wty E).length + ((wty T).length + 1) + A.ls.length) (by omega) (Nat.le_refl _)).locals hf2
    simp only [Nat.add_assoc] at hst hx ok2
    exact Does.steps0 hst hf2 (n' := n + (C.ls.length + ((wty E).length + ((wty T).length + 1)))) (by omega)
      (unwrap_ret htt her ht2 hA ok2 (by omega) hx (by simp))

theorem good_unwrapErr {O : Ty} {e t : Expr} (he : EGood p k call wr e) (htt : EGood p k call wr t) :
    EGood p k call wr (.unwrapErr O e t) := by
  intro T er Δ Γ ρ n w c s d stk loc g ht ok
  simp only [wt] at ht
  obtain ⟨her, ht1, ht2⟩ := ht
  simp only [compile, List.length_append, List.length_cons, Nat.add_assoc] at ok
  simp only [compile, eval, Nat.add_assoc, List.append_assoc]
  generalize hC : compile p.K p.R e (.resp O T) d Γ n = C at *
  generalize hA : compile p.K p.R t p.R d Γ _ = A at *
  refine he.then ht1 hC ok ?_
  intro v s' ws loc' g' _ hf ok' hq
  simp only [Rep] at hq
  have hl := ok'.locs
  rw [← List.append_assoc (saveCode O _), ← List.append_assoc (saveCode T _)]
  rcases hq with ⟨v, us, js, rfl, rfl, hu, hj⟩ | ⟨v, us, js, rfl, rfl, hu, hj⟩
  · obtain ⟨loc2, hst, hf2, hx, _, hw2⟩ := saved_resp (p := p) (O := O) (E := T) (us := us) (vs := js) (x := 1#32) (loc := loc') (g := g')
      (stk := stk) (m := n + C.ls.length) hu.len (typed_length hj) (by omega)
    have ok2 := (ok'.at (Nat.le_refl _) (ll' := (wty T).length + ((wty O).length + 1) + A.ls.length) (by omega) (Nat.le_refl _)).locals hf2
    simp only [Nat.add_assoc] at hst hx ok2 hw2
    exact Does.steps0 hst hf2 (n' := n + (C.ls.length + ((wty T).length + ((wty O).length + 1)))) (by omega)
      (unwrap_ret htt her ht2 hA ok2 (by omega) hx (by simp))
  · obtain ⟨loc2, hst, hf2, hx, hw2, _⟩ := saved_resp (p := p) (O := O) (E := T) (us := js) (vs := us) (x := 0#32) (loc := loc') (g := g')
      (stk := stk) (m := n + C.ls.length) (typed_length hj) hu.len (by omega)
    have ok2 := (ok'.at (Nat.le_refl _) (ll' := (wty T).length + ((wty O).length + 1) + A.ls.length) (by omega) (Nat.le_refl _)).locals hf2
    simp only [Nat.add_assoc] at hst hx ok2
    exact Does.steps0 hst hf2 (n' := n + (C.ls.length + ((wty T).length + ((wty O).length + 1)))) (by omega)
      (unwrap_val htt ht2 hA ok2 (by omega) hx (by simp)
        (fun l hl => by have := (mem_saveLocals.1 hl).2; omega) hw2 hu)

theorem good_tryOpt {e : Expr} (he : EGood p k call wr e) : EGood p k call wr (.tryOpt e) := by
  intro T er Δ Γ ρ n w c s d stk loc g ht ok
  simp only [wt] at ht
  obtain ⟨her, ht1, U, hR, hU⟩ := ht
  simp only [compile, List.length_append, List.length_cons, Nat.add_assoc] at ok
  simp only [compile, eval, Nat.add_assoc, List.append_assoc, List.cons_append, List.nil_append]
  generalize hC : compile p.K p.R e (.opt T) d Γ n = C at *
  refine he.then ht1 hC (al' := 0) ok ?_
  intro v s' ws loc' g' _ hf ok' hq
  simp only [Rep] at hq
  have hl := ok'.locs
  simp only [List.length_nil] at hl ok'
  rw [← List.singleton_append (x := lset _), ← List.append_assoc (saveCode T _),
    ← List.singleton_append (x := c32 0), ← List.append_assoc [c32 0]]
  have hz : ((Val.i32 0#32 :: (wty T).map VT.zero)).length = (wty p.R).length := by simp [hR, wty, hU]
  have hph : ∀ loc2, Steps p.M ([c32 0] ++ placeholder T) stk loc2 g'
      ((Val.i32 0#32 :: (wty T).map VT.zero).reverse ++ stk) loc2 g' := by
    intro loc2
    have := steps_c32 (M := p.M) (v := 0) (s := stk) (l := loc2) (g := g') |>.append (steps_placeholder T)
    simpa using this
  rcases hq with ⟨us, rfl, rfl, hu⟩ | ⟨v, us, rfl, rfl, hu⟩
  · obtain ⟨loc2, hst, hf2, hx, hw2⟩ := saved_opt (p := p) (T := T) (us := us) (x := 0#32) (loc := loc') (g := g')
      (stk := stk) (m := n + C.ls.length) (typed_length hu) (by omega)
    simp only [Nat.add_assoc] at hst hx
    refine Does.steps0 hst hf2 (Nat.le_refl _) (Does.steps0 (hph loc2) Fr.refl (Nat.le_refl _) ?_)
    · refine Does.early her hx (by simp) ok'.inv.host ok'.inv.st ?_
      rw [hR]
      simp only [Rep]
      exact .inl ⟨(wty T).map VT.zero, trivial, rfl, by rw [hU]; exact zeros_ty _⟩
  · obtain ⟨loc2, hst, hf2, hx, hw2⟩ := saved_opt (p := p) (T := T) (us := us) (x := 1#32) (loc := loc') (g := g')
      (stk := stk) (m := n + C.ls.length) hu.len (by omega)
    simp only [Nat.add_assoc] at hst hx
    refine Does.steps0 hst hf2 (Nat.le_refl _) (Does.steps0 (hph loc2) Fr.refl (Nat.le_refl _) ?_)
    · refine Does.noReturn hx (by simp) hz ?_
      exact Does.ends (steps_getLocals hw2) Fr.refl ok'.inv.host ok'.inv.st hu

theorem good_tryResp {E : Ty} {e : Expr} (he : EGood p k call wr e) : EGood p k call wr (.tryResp E e) := by
  intro T er Δ Γ ρ n w c s d stk loc g ht ok
  simp only [wt] at ht
  obtain ⟨her, ht1, O, E', hR, hE⟩ := ht
  simp only [compile, List.length_append, List.length_cons, Nat.add_assoc] at ok
  simp only [compile, eval, Nat.add_assoc, List.append_assoc, List.cons_append, List.nil_append]
  generalize hC : compile p.K p.R e (.resp T E) d Γ n = C at *
  have hO : okTy p.R = O := by rw [hR]; rfl
  rw [hO]
  refine he.then ht1 hC (al' := 0) ok ?_
  intro v s' ws loc' g' _ hf ok' hq
  simp only [Rep] at hq
  have hl := ok'.locs
  simp only [List.length_nil] at hl ok'
  rw [← List.singleton_append (x := lset _), ← List.append_assoc (saveCode T _), ← List.append_assoc (saveCode E _),
    ← List.singleton_append (x := c32 0), ← List.append_assoc (placeholder O), ← List.append_assoc [c32 0]]
  have hph : ∀ (loc2 : List Val) (us : List Val),
      (saveLocals E (n + C.ls.length)).map (loc2[·]?) = us.map some →
      Steps p.M ([c32 0] ++ (placeholder O ++ getLocals (saveLocals E (n + C.ls.length)))) stk loc2 g'
      ((Val.i32 0#32 :: ((wty O).map VT.zero ++ us)).reverse ++ stk) loc2 g' := by
    intro loc2 us h
    have := steps_c32 (M := p.M) (v := 0) (s := stk) (l := loc2) (g := g') |>.append
      ((steps_placeholder O).append (steps_getLocals h))
    simpa using this
  rcases hq with ⟨v, us, js, rfl, rfl, hu, hj⟩ | ⟨v, us, js, rfl, rfl, hu, hj⟩
  · obtain ⟨loc2, hst, hf2, hx, hw1, hw2⟩ := saved_resp (p := p) (O := T) (E := E) (us := us) (vs := js) (x := 1#32) (loc := loc') (g := g')
      (stk := stk) (m := n + C.ls.length) hu.len (typed_length hj) (by omega)
    simp only [Nat.add_assoc] at hst hx hw1 hw2
    refine Does.steps0 hst hf2 (Nat.le_refl _) (Does.steps0 (hph loc2 js hw1) Fr.refl (Nat.le_refl _) ?_)
    refine Does.noReturn hx (by simp) ?_ ?_
    · simp [hR, wty, typed_length hj, hE.layout.1]
    · exact Does.ends (steps_getLocals hw2) Fr.refl ok'.inv.host ok'.inv.st hu
  · obtain ⟨loc2, hst, hf2, hx, hw1, hw2⟩ := saved_resp (p := p) (O := T) (E := E) (us := js) (vs := us) (x := 0#32) (loc := loc') (g := g')
      (stk := stk) (m := n + C.ls.length) (typed_length hj) hu.len (by omega)
    simp only [Nat.add_assoc] at hst hx hw1 hw2
    refine Does.steps0 hst hf2 (Nat.le_refl _) (Does.steps0 (hph loc2 us hw1) Fr.refl (Nat.le_refl _) ?_)
    refine Does.early her hx (by simp) ok'.inv.host ok'.inv.st ?_
    rw [hR]
    simp only [Rep]
    exact .inr ⟨v, us, (wty O).map VT.zero, rfl, rfl, hu.fit hE, zeros_ty _⟩

end

end Gen
