import Verif.Gen.ExprProof3

/-! Code of expressions: application of operators, arithmetic, tuples. -/

namespace Gen
open Wasm Spec Host Core

section
variable {p : P} {k : Nat} {call : FSem} {wr : Bool} {w : World} {d n al : Nat} {er : Bool}
  {stk bs loc loc' : List Val} {g : Store World}

theorem primPost_al (q : Prim) (Ts : List Ty) (T : Ty) (n : Nat) : (primPost q Ts T n).al = 0 := by
  unfold primPost
  split <;> first | rfl | (split <;> rfl)

/-- First the code of operands, then the rest. -/
theorem EsGood.then {β : Type} {es : Exprs} {Δ : TEnv} {Γ : Scope} {ρ : Env} {c : Cx} {s : St}
    {A : Blk} {al' ll' : Nat} {is' : List Instr} {bs2 : List Val} {f : List Value → St → Out β}
    {Q2 : β → List Val → List Val → Store World → Prop}
    (he : EsGood p k call wr es) (ht : wts p.K k wr p.R es er Δ) (hA : compileArgs p.K p.R es d Γ n = A)
    (ok : Ok p wr c w s Δ Γ ρ n (A.al + al') (A.ls.length + ll') loc g)
    (next : ∀ vs s' ws loc' g', evals call es ρ c s = .val vs s' → Fr n A.al loc loc' g g' →
      Ok p wr c w s' Δ Γ ρ (n + A.ls.length) al' ll' loc' g' → RepAll g'.mem (p.reg g') (tys es) vs ws →
      Does p w d er (n + A.ls.length) al' is' (ws.reverse ++ stk) bs2 loc' g' (f vs s') Q2) :
    Does p w d er n (A.al + al') (A.is ++ is') stk bs2 loc g ((evals call es ρ c s).bind f) Q2 := by
  have h0 := he er Δ Γ ρ n w c s d stk loc g ht (by rw [hA]; exact ok.weaken (by omega) (by omega))
  rw [hA] at h0
  refine Does.bind h0 (Nat.le_add_right n A.ls.length) ?_
  intro v s' ws loc' g' hv hf hh hs hq
  exact next v s' ws loc' g' hv hf (ok.step hf hh hs (Nat.le_add_right _ _) (by omega)) hq

theorem good_prim {q : Prim} {es : Exprs} (hes : EsGood p k call wr es) : EGood p k call wr (.prim q es) := by
  intro T er Δ Γ ρ n w c s d stk loc g ht ok
  simp only [wt] at ht
  simp only [compile, List.length_append, primPost_al] at ok
  simp only [compile, eval, primPost_al, List.append_assoc]
  generalize hA : compileArgs p.K p.R es d Γ n = A at *
  refine Does.steps0 (steps_pre q T) Fr.refl (Nat.le_refl _) ?_
  refine hes.then ht.1 hA ok ?_
  intro vs s' ws loc' g' _ hf ok' hq
  exact prim_post ht.2 hq (by have := ok'.inv.room; omega) ok'.inv.host ok'.inv.st ok'.locs

/-! ### Arithmetic with any number of operands -/

theorem ops_ls {K : Ctx} {R T : Ty} {o : NOp} : ∀ (es : Exprs) (d : Nat) (Γ : Scope) (n : Nat),
    (compileOps K R o T es d Γ n).ls = (compileArgs K R es d Γ n).ls ∧
    (compileOps K R o T es d Γ n).al = (compileArgs K R es d Γ n).al
  | .nil, _, _, _ => by simp [compileOps, compileArgs]
  | .cons U e es, d, Γ, n => by
    simp only [compileOps, compileArgs]
    have := ops_ls (K := K) (R := R) (T := T) (o := o) es d Γ (n + (compile K R e U d Γ n).ls.length)
    rw [this.1, this.2]
    exact ⟨rfl, rfl⟩

theorem simples_val {es : Exprs} {Δ : TEnv} {Γ : Scope} {ρ : Env} {c : Cx} {s : St} {A : Blk}
    (he : EsGood p k call wr es) (hs : Simples es) (ht : wts p.K k wr p.R es er Δ)
    (hA : compileArgs p.K p.R es d Γ n = A) (ok : Ok p wr c w s Δ Γ ρ n A.al A.ls.length loc g) :
    ∃ vs, evals call es ρ c s = .val vs s := by
  refine (simples_out es hs ρ c s).resolve_left ?_
  exact (he er Δ Γ ρ n w c s d [] loc g ht (by rw [hA]; exact ok)).not_wrong

theorem std_params {o : NOp} {T : Ty} : (stdFunc (NOp.std o T)).params.length = 4 := by
  cases o <;> cases T <;> rfl

/-- The operator applied to the last two operands. -/
theorem Does.op {o : NOp} {T : Ty} {x y : Value} {wx wy : List Val} {s : St} (hT : IntTy T)
    (hx : Rep g.mem (p.reg g) T x wx) (hy : Rep g.mem (p.reg g) T y wy) (hh : g.host = put w s)
    (hs : StOk p.K w.contract s) :
    Does p w d er n 0 [.call (.std (NOp.std o T))] (wy.reverse ++ (wx.reverse ++ stk)) stk loc g
      ((o.bin x y).out s) (IsRep p T) := by
  have := Does.run (p := p) (w := w) (d := d) (er := er) (n := n) (stk := stk) (loc := loc)
    (bin_runs (M := p.M) (g := g) (o := o) hT hx hy)
    (by rw [List.length_append, hx.len, hy.len, std_params]; rcases hT with rfl | rfl <;> rfl) hh hs
  rwa [List.reverse_append, List.append_assoc] at this

theorem fold_cons {o : NOp} {a b : Value} {vs : List Value} {s : St} :
    (o.fold a (b :: vs)).out s = ((o.bin a b).out s).bind fun c s => (o.fold c vs).out s := by
  simp only [NOp.fold]
  cases o.bin a b <;> rfl

/-- Applying the operator to more operands, none of which has an effect. -/
def OpsGood (p : P) (k : Nat) (call : FSem) (wr : Bool) (es : Exprs) : Prop :=
  ∀ (o : NOp) T er Δ Γ ρ n w c s d stk loc g x vs wx, IntTy T → wts p.K k wr p.R es er Δ →
    (∀ U ∈ tys es, U = T) → evals call es ρ c s = .val vs s → Simples es →
    Ok p wr c w s Δ Γ ρ n (compileOps p.K p.R o T es d Γ n).al
      (compileOps p.K p.R o T es d Γ n).ls.length loc g → Rep g.mem (p.reg g) T x wx →
    Does p w d er n (compileOps p.K p.R o T es d Γ n).al (compileOps p.K p.R o T es d Γ n).is
      (wx.reverse ++ stk) stk loc g ((o.fold x vs).out s) (IsRep p T)

theorem good_ops_nil : OpsGood p k call wr .nil := by
  intro o T er Δ Γ ρ n w c s d stk loc g x vs wx hT ht hU hv _ ok hx
  simp only [evals, Out.val.injEq, and_true] at hv
  subst hv
  simp only [compileOps, NOp.fold, Ans.out]
  exact Does.done rfl ok.inv.host ok.inv.st hx

theorem good_ops_cons {U : Ty} {e : Expr} {es : Exprs} (he : EGood p k call wr e)
    (hes : OpsGood p k call wr es) : OpsGood p k call wr (.cons U e es) := by
  intro o T er Δ Γ ρ n w c s d stk loc g x vs wx hT ht hU hv hsim ok hx
  simp only [wts] at ht
  simp only [Simples] at hsim
  obtain rfl : U = T := hU U (by simp [tys])
  simp only [compileOps, List.length_append] at ok
  simp only [compileOps]
  generalize hA : compile p.K p.R e U d Γ n = A at *
  obtain ⟨b, hb⟩ := simple_val he hsim.1 ht.1 hA (ok.weaken (by omega) (by omega))
  simp only [evals, hb, Out.bind] at hv
  obtain ⟨vs', hvs, rfl⟩ : ∃ vs', evals call es ρ c s = .val vs' s ∧ vs = b :: vs' := by
    cases h : evals call es ρ c s <;> simp only [h, reduceCtorEq, Out.val.injEq] at hv
    obtain ⟨rfl, rfl⟩ := hv
    exact ⟨_, rfl, rfl⟩
  have e0 : (o.fold x (b :: vs')).out s = (eval call e ρ c s).bind fun b s => (o.fold x (b :: vs')).out s := by
    rw [hb]; rfl
  rw [e0]
  refine he.then ht.1 hA ok ?_
  intro b' s' ws loc' g' hb' hf ok' hq
  rw [hb] at hb'
  obtain ⟨rfl, rfl⟩ : b = b' ∧ s = s' := by simpa using hb'
  rw [fold_cons]
  have h1 := Does.op (p := p) (w := w) (d := d) (er := er) (n := n + A.ls.length) (stk := stk) (loc := loc') (o := o) hT (hx.step hf) hq ok'.inv.host ok'.inv.st
  have := Does.bind (al' := (compileOps p.K p.R o U es d Γ (n + A.ls.length)).al)
    (is' := (compileOps p.K p.R o U es d Γ (n + A.ls.length)).is) (bs2 := stk) (Q2 := IsRep p U)
    (k := fun c s => (o.fold c vs').out s) h1 (Nat.le_refl _) ?_
  · rwa [Nat.zero_add] at this
  · intro y s2 us loc2 g2 hy hf2 hh2 hs2 hq2
    obtain rfl : s = s2 := by
      cases h : o.bin x b <;> simp [h, Ans.out] at hy
      exact hy.2
    exact hes o U er Δ Γ ρ _ w c s d stk loc2 g2 y vs' us hT ht.2 (fun V hV => hU V (by simp [tys, hV])) hvs
      hsim.2 (Ok.step (al := 0) (by rw [Nat.zero_add]; exact ok') hf2 hh2 hs2 (Nat.le_refl _) (Nat.le_refl _)) hq2

theorem encI_zero : encI 0 = [.i64 0#64, .i64 0#64] := by decide

/-- One operand. -/
theorem Does.un {o : NOp} {T : Ty} {x : Value} {wx : List Val} {s : St} (hT : IntTy T)
    (hx : Rep g.mem (p.reg g) T x wx) (hh : g.host = put w s) (hs : StOk p.K w.contract s)
    (hl : n + (unCode o T n).ls.length ≤ loc.length) :
    Does p w d er n 0 (unCode o T n).is (wx.reverse ++ stk) stk loc g ((o.un x).out s) (IsRep p T) := by
  rcases hT with rfl | rfl
  · have hx0 := hx
    simp only [Rep] at hx
    obtain ⟨z, rfl, hz, rfl⟩ := hx
    cases o with
    | sub =>
      simp only [unCode, List.length_cons, List.length_nil] at hl
      have hsub := bin_runs (M := p.M) (g := g) (o := .sub) (.inl rfl) (rep_int (m := g.mem) (b := p.reg g) (z := 0) (by decide)) hx0
      have hbin : NOp.bin .sub (.int 0) (.int z) = NOp.un .sub (.int z) := by
        simp [NOp.bin, NOp.un]
      rw [hbin] at hsub
      have hrun := Does.run (p := p) (w := w) (d := d) (er := er) (n := n) (stk := stk)
        (loc := (loc.set (n + 1) (.i64 (BitVec.ofInt 64 (z / 2 ^ 64)))).set n (.i64 (BitVec.ofInt 64 z))) hsub rfl hh hs
      have hlen : ∀ a b, ((loc.set (n + 1) a).set n b).length = loc.length := by simp
      refine Does.steps0 (is := [lset (n + 1), lset n, .b (.const (.i64 0#64)), .b (.const (.i64 0#64)), lget n, lget (n + 1)])
        ?_ (Fr.locals (hlen _ _) fun i hi => ?_) (Nat.le_refl _) hrun
      · have h1 : ((loc.set (n + 1) (.i64 (BitVec.ofInt 64 (z / 2 ^ 64)))).set n (.i64 (BitVec.ofInt 64 z)))[n]? =
            some (.i64 (BitVec.ofInt 64 z)) := by rw [List.getElem?_set_self (by simp; omega)]
        have h2 : ((loc.set (n + 1) (.i64 (BitVec.ofInt 64 (z / 2 ^ 64)))).set n (.i64 (BitVec.ofInt 64 z)))[n + 1]? =
            some (.i64 (BitVec.ofInt 64 (z / 2 ^ 64))) := by
          rw [List.getElem?_set_ne (by omega), List.getElem?_set_self (by omega)]
        refine Steps.cons (steps_set (by omega)) (Steps.cons (steps_set (by simp; omega)) (Steps.cons steps_const
          (Steps.cons steps_const (Steps.cons (steps_get h1) ?_))))
        exact steps_get h2
      · rw [List.getElem?_set_ne (by omega), List.getElem?_set_ne (by omega)]
    | add => exact Does.done rfl hh hs hx0
    | mul => exact Does.done rfl hh hs hx0
    | div => exact Does.done rfl hh hs hx0
  · have hx0 := hx
    simp only [Rep] at hx
    obtain ⟨z, rfl, hz, rfl⟩ := hx
    cases o with
    | sub =>
      have := Does.raise (p := p) (w := w) (d := d) (er := er) (n := n) (al := 0) (is := []) (stk := (encU z).reverse ++ stk)
        (bs := stk) (loc := loc) (g := g) (α := Value) (c := 1) (Q := IsRep p .uint)
      rwa [List.append_nil] at this
    | add => exact Does.done rfl hh hs hx0
    | mul => exact Does.done rfl hh hs hx0
    | div => exact Does.done rfl hh hs hx0

theorem unCode_al {o : NOp} {T : Ty} {n : Nat} : (unCode o T n).al = 0 := by
  unfold unCode; split <;> rfl

theorem good_nary_one {o : NOp} {U : Ty} {e : Expr} (he : EGood p k call wr e) :
    EGood p k call wr (.nary o (.cons U e .nil)) := by
  intro T er Δ Γ ρ n w c s d stk loc g ht ok
  simp only [wt, wts] at ht
  obtain ⟨hT, ⟨ht1, -⟩, hU, -⟩ := ht
  obtain rfl : U = T := hU U (by simp [tys])
  simp only [compile, compileNary, List.length_append, unCode_al] at ok
  simp only [compile, compileNary, unCode_al, eval]
  generalize hA : compile p.K p.R e U d Γ n = A at *
  have e0 : ((evals call (.cons U e .nil) ρ c s).bind fun vs s => (o.eval vs).out s) =
      (eval call e ρ c s).bind fun v s => (o.un v).out s := by
    simp only [evals]
    cases eval call e ρ c s <;> rfl
  rw [e0]
  refine he.then ht1 hA ok ?_
  intro v s' ws loc' g' _ hf ok' hq
  exact Does.un hT hq ok'.inv.host ok'.inv.st ok'.locs

theorem good_nary_more {o : NOp} {U V : Ty} {e e' : Expr} {es : Exprs} (he : EGood p k call wr e)
    (he' : EGood p k call wr e') (hes : OpsGood p k call wr es) (hes' : EsGood p k call wr es) :
    EGood p k call wr (.nary o (.cons U e (.cons V e' es))) := by
  intro T er Δ Γ ρ n w c s d stk loc g ht ok
  have ht : IntTy T ∧ (wt p.K k wr p.R e er Δ U ∧ wt p.K k wr p.R e' er Δ V ∧ wts p.K k wr p.R es er Δ) ∧
    (∀ W ∈ tys (.cons U e (.cons V e' es)), W = T) ∧ Simples es := by simpa only [wt, wts] using ht
  obtain ⟨hT, ⟨ht1, ht2, ht3⟩, hU, hsim⟩ := ht
  obtain rfl : U = T := hU U (by simp [tys])
  obtain rfl : V = U := hU V (by simp [tys])
  replace hU : ∀ W ∈ tys es, W = V := fun W hW => hU W (by simp [tys, hW])
  have e1 : compile p.K p.R (.nary o (.cons V e (.cons V e' es))) V d Γ n =
      ⟨(compile p.K p.R e V d Γ n).is ++ (compileOps p.K p.R o V (.cons V e' es) d Γ (n + (compile p.K p.R e V d Γ n).ls.length)).is,
       (compile p.K p.R e V d Γ n).ls ++ (compileOps p.K p.R o V (.cons V e' es) d Γ (n + (compile p.K p.R e V d Γ n).ls.length)).ls,
       (compile p.K p.R e V d Γ n).al + (compileOps p.K p.R o V (.cons V e' es) d Γ (n + (compile p.K p.R e V d Γ n).ls.length)).al⟩ := by
    simp only [compile, compileNary]
  rw [e1] at ok ⊢
  simp only [compileOps, List.length_append] at ok
  simp only [compileOps, eval]
  generalize hA : compile p.K p.R e V d Γ n = A at *
  generalize hB : compile p.K p.R e' V d Γ (n + A.ls.length) = B at *
  have e0 : ((evals call (.cons V e (.cons V e' es)) ρ c s).bind fun vs s => (o.eval vs).out s) =
      (eval call e ρ c s).bind fun x s => (eval call e' ρ c s).bind fun y s =>
        (evals call es ρ c s).bind fun vs s => (o.fold x (y :: vs)).out s := by
    simp only [evals]
    cases eval call e ρ c s with
    | val x s =>
      simp only [Out.bind]
      cases eval call e' ρ c s with
      | val y s =>
        simp only
        cases evals call es ρ c s <;> rfl
      | _ => rfl
    | _ => rfl
  rw [e0]
  refine he.then ht1 hA ok ?_
  intro x s1 wx loc1 g1 _ hf1 ok1 hx
  refine he'.then ht2 hB ok1 ?_
  intro y s2 wy loc2 g2 _ hf2 ok2 hy
  have hle := ops_ls (K := p.K) (R := p.R) (T := V) (o := o) es d Γ (n + A.ls.length + B.ls.length)
  obtain ⟨vs, hvs⟩ := simples_val hes' hsim ht3 (Eq.refl (compileArgs p.K p.R es d Γ (n + A.ls.length + B.ls.length)))
    (by rw [← hle.1, ← hle.2]; exact ok2)
  simp only [hvs, Out.bind]
  rw [fold_cons]
  have h1 := Does.op (p := p) (w := w) (d := d) (er := er) (n := n + A.ls.length + B.ls.length) (stk := stk) (loc := loc2) (o := o) hT (hx.step hf2) hy ok2.inv.host ok2.inv.st
  have := Does.bind (al' := (compileOps p.K p.R o V es d Γ (n + A.ls.length + B.ls.length)).al)
    (is' := (compileOps p.K p.R o V es d Γ (n + A.ls.length + B.ls.length)).is) (bs2 := stk) (Q2 := IsRep p V)
    (k := fun c s => (o.fold c vs).out s) h1 (Nat.le_refl _) ?_
  · rwa [Nat.zero_add] at this
  · intro z s3 us loc3 g3 hz hf3 hh3 hs3 hq3
    obtain rfl : s2 = s3 := by
      cases h : o.bin x y <;> simp [h, Ans.out] at hz
      exact hz.2
    exact hes o V er Δ Γ ρ _ w c s2 d stk loc3 g3 z vs us hT ht3 hU hvs
      hsim (Ok.step (al := 0) (by rw [Nat.zero_add]; exact ok2) hf3 hh3 hs3 (Nat.le_refl _) (Nat.le_refl _)) hq3

/-! ### Tuples -/

/-- The locals hold the fields. -/
def FRep (m : Mem) (b : Reg) (loc : List Val) (N : Nat) :
    List (Name × Ty) → List (Name × Value) → Scope → Prop
  | [], kvs, Γ => kvs = [] ∧ Γ = []
  | (x, T) :: ts, kvs, Γ => ∃ v ls ws r Γ', kvs = (x, v) :: r ∧ Γ = (x, ls) :: Γ' ∧ (∀ l ∈ ls, l < N) ∧
      ls.map (loc[·]?) = ws.map some ∧ Rep m b T v ws ∧ FRep m b loc N ts r Γ'

theorem FRep.step {N N' al : Nat} {loc loc' : List Val} {g g' : Store World} (hf : Fr N al loc loc' g g')
    (hn : N ≤ N') : ∀ {ts : List (Name × Ty)} {kvs : List (Name × Value)} {Γ : Scope},
    FRep g.mem (p.reg g) loc N ts kvs Γ → FRep g'.mem (p.reg g') loc' N' ts kvs Γ
  | [], _, _, h => h
  | (x, T) :: ts, _, _, h => by
    obtain ⟨v, ls, ws, r, Γ', rfl, rfl, h1, h2, h3, h4⟩ := h
    refine ⟨v, ls, ws, r, Γ', rfl, rfl, fun l hl => by have := h1 l hl; omega, ?_, h3.step hf, FRep.step hf hn h4⟩
    rw [← h2]
    exact List.map_congr_left fun l hl => hf.keep l (h1 l hl)

theorem FRep.insert {m : Mem} {b : Reg} {N : Nat} {loc : List Val} {x : Name} {T : Ty} {v : Value} {ls : List Nat}
    {ws : List Val} (h1 : ∀ l ∈ ls, l < N) (h2 : ls.map (loc[·]?) = ws.map some) (h3 : Rep m b T v ws) :
    ∀ {ts : List (Name × Ty)} {kvs : List (Name × Value)} {Γ : Scope}, FRep m b loc N ts kvs Γ →
    FRep m b loc N (insertField x T ts) (insertField x v kvs) (insertField x ls Γ)
  | [], _, _, h => by
    obtain ⟨rfl, rfl⟩ := h
    exact ⟨v, ls, ws, [], [], rfl, rfl, h1, h2, h3, rfl, rfl⟩
  | (y, U) :: ts, _, _, h => by
    obtain ⟨v', ls', ws', r, Γ', rfl, rfl, h1', h2', h3', h4⟩ := h
    simp only [insertField]
    by_cases e : nameLe x y
    · simp only [e, if_true]
      exact ⟨v, ls, ws, _, _, rfl, rfl, h1, h2, h3, v', ls', ws', r, Γ', rfl, rfl, h1', h2', h3', h4⟩
    · simp only [e, if_false, Bool.false_eq_true]
      exact ⟨v', ls', ws', _, _, rfl, rfl, h1', h2', h3', FRep.insert h1 h2 h3 h4⟩

theorem FRep.sort {m : Mem} {b : Reg} {N : Nat} {loc : List Val} :
    ∀ {ts : List (Name × Ty)} {kvs : List (Name × Value)} {Γ : Scope}, FRep m b loc N ts kvs Γ →
    FRep m b loc N (sortFields ts) (sortFields kvs) (sortFields Γ)
  | [], _, _, h => by
    obtain ⟨rfl, rfl⟩ := h
    exact ⟨rfl, rfl⟩
  | (y, U) :: ts, _, _, h => by
    obtain ⟨v', ls', ws', r, Γ', rfl, rfl, h1', h2', h3', h4⟩ := h
    simp only [sortFields]
    exact FRep.insert h1' h2' h3' (FRep.sort h4)

theorem FRep.rep {m : Mem} {b : Reg} {N : Nat} {loc : List Val} :
    ∀ {ts : List (Name × Ty)} {kvs : List (Name × Value)} {Γ : Scope}, FRep m b loc N ts kvs Γ →
    ∃ ws, RepF m b (toFields ts) kvs ws ∧ (Γ.flatMap Prod.snd).map (loc[·]?) = ws.map some
  | [], _, _, h => by
    obtain ⟨rfl, rfl⟩ := h
    exact ⟨[], by simp [toFields, RepF], rfl⟩
  | (y, U) :: ts, _, _, h => by
    obtain ⟨v, ls, us, r, Γ', rfl, rfl, h1, h2, h3, h4⟩ := h
    obtain ⟨ws, h5, h6⟩ := FRep.rep h4
    refine ⟨us ++ ws, ?_, ?_⟩
    · simp only [toFields, RepF]
      exact ⟨v, r, us, ws, rfl, rfl, h3, h5⟩
    · simp only [List.flatMap_cons, List.map_append, h2, h6]

/-- The code of the fields of a tuple implements their evaluation. -/
def FsGood (p : P) (k : Nat) (call : FSem) (wr : Bool) (bs : Binds) : Prop :=
  ∀ er Δ Γ ρ n w c s d stk loc g, wtFields p.K k wr p.R bs er Δ →
    Ok p wr c w s Δ Γ ρ n (compileFields p.K p.R bs d Γ n).1.al
      (compileFields p.K p.R bs d Γ n).1.ls.length loc g →
    Does p w d er n (compileFields p.K p.R bs d Γ n).1.al (compileFields p.K p.R bs d Γ n).1.is stk stk loc g
      (evalFields call bs ρ c s) (fun kvs ws loc' g' => ws = [] ∧
        FRep g'.mem (p.reg g') loc' (n + (compileFields p.K p.R bs d Γ n).1.ls.length) (btys bs) kvs
          (compileFields p.K p.R bs d Γ n).2)

theorem good_fields_nil : FsGood p k call wr .nil := by
  intro er Δ Γ ρ n w c s d stk loc g _ ok
  simp only [compileFields, evalFields]
  exact Does.done (ws := []) rfl ok.inv.host ok.inv.st ⟨rfl, rfl, rfl⟩

theorem good_fields_cons {x : Name} {T : Ty} {e : Expr} {bs : Binds} (he : EGood p k call wr e)
    (hbs : FsGood p k call wr bs) : FsGood p k call wr (.cons x T e bs) := by
  intro er Δ Γ ρ n w c s d stk loc g ht ok
  simp only [wtFields] at ht
  simp only [compileFields, List.length_append, Nat.add_assoc] at ok
  simp only [compileFields, evalFields, List.append_assoc, Nat.add_assoc]
  generalize hA : compile p.K p.R e T d Γ n = A at *
  refine he.then ht.1 hA ok ?_
  intro v s' ws loc' g' _ hf ok' hq
  obtain ⟨loc2, hst, hf2, _, hw2⟩ := saved (p := p) (loc := loc') (g := g') (stk := stk)
    (m := n + A.ls.length) hq.len (by have := ok'.locs; omega)
  have ok2 := ok'.locals hf2
  rw [Nat.add_assoc] at ok2
  have h1 := hbs er _ _ _ _ w c s' d stk loc2 g' ht.2 ok2
  refine Does.steps0 hst hf2 (n' := n + (A.ls.length + (wty T).length)) (by omega) (Does.map h1 ?_)
  rintro kvs s2 us loc3 g3 _ hf3 ⟨rfl, h⟩
  refine ⟨rfl, v, saveLocals T (n + A.ls.length), ws, _, _, rfl, rfl, ?_, ?_, hq.step hf3, ?_⟩
  · intro l hl
    have := (mem_saveLocals.1 hl).2
    simp only [List.length_append]
    omega
  · rw [← hw2]
    exact List.map_congr_left fun l hl => hf3.keep l (by have := (mem_saveLocals.1 hl).2; omega)
  · simp only [List.length_append]
    simpa only [Nat.add_assoc] using h

theorem good_tuple {bs : Binds} (hb : FsGood p k call wr bs) : EGood p k call wr (.tuple bs) := by
  intro T er Δ Γ ρ n w c s d stk loc g ht ok
  simp only [wt] at ht
  obtain ⟨ht, rfl⟩ := ht
  simp only [compile] at ok
  simp only [compile, eval]
  have h0 := hb er Δ Γ ρ n w c s d stk loc g ht ok
  generalize compileFields p.K p.R bs d Γ n = A at *
  refine Does.bind (al' := 0) h0 (Nat.le_refl n) ?_
  rintro kvs s' ws loc' g' _ hf hh hs ⟨rfl, he⟩
  obtain ⟨ws, h1, h2⟩ := he.sort.rep
  refine Does.ends (ws := ws) (steps_getLocals h2) Fr.refl hh hs ?_
  simp only [IsRep, Rep]
  exact ⟨_, rfl, h1⟩

end

end Gen
