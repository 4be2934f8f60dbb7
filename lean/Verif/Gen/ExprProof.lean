import Verif.Gen.Does
import Verif.Gen.RepWrite
import Verif.Gen.RepHost

/-! Code of expressions: leaves, sequencing, control flow. -/

namespace Gen
open Wasm Spec Host Core

/-- The values on the stack represent the result. -/
def IsRep (p : P) (T : Ty) : Value → List Val → List Val → Store World → Prop :=
  fun v ws _ g => Rep g.mem (p.reg g) T v ws

/-- The values on the stack represent the results. -/
def AreRep (p : P) (Ts : List Ty) : List Value → List Val → List Val → Store World → Prop :=
  fun vs ws _ g => RepAll g.mem (p.reg g) Ts vs ws

/-- The code of `e` implements its evaluation. -/
def EGood (p : P) (k : Nat) (call : FSem) (wr : Bool) (e : Expr) : Prop :=
  ∀ T er Δ Γ ρ n w c s d stk loc g, wt p.K k wr p.R e er Δ T →
    Ok p wr c w s Δ Γ ρ n (compile p.K p.R e T d Γ n).al (compile p.K p.R e T d Γ n).ls.length loc g →
    Does p w d er n (compile p.K p.R e T d Γ n).al (compile p.K p.R e T d Γ n).is stk stk loc g
      (eval call e ρ c s) (IsRep p T)

/-- The code of operands implements their evaluation. -/
def EsGood (p : P) (k : Nat) (call : FSem) (wr : Bool) (es : Exprs) : Prop :=
  ∀ er Δ Γ ρ n w c s d stk loc g, wts p.K k wr p.R es er Δ →
    Ok p wr c w s Δ Γ ρ n (compileArgs p.K p.R es d Γ n).al (compileArgs p.K p.R es d Γ n).ls.length loc g →
    Does p w d er n (compileArgs p.K p.R es d Γ n).al (compileArgs p.K p.R es d Γ n).is stk stk loc g
      (evals call es ρ c s) (AreRep p (tys es))

/-- The code of a statement list implements its evaluation. -/
def SeqGood (p : P) (k : Nat) (call : FSem) (wr : Bool) (es : Exprs) : Prop :=
  ∀ T er Δ Γ ρ n w c s d stk loc g, wtSeq p.K k wr p.R es er Δ T →
    Ok p wr c w s Δ Γ ρ n (compileSeq p.K p.R es d Γ n).al (compileSeq p.K p.R es d Γ n).ls.length loc g →
    Does p w d er n (compileSeq p.K p.R es d Γ n).al (compileSeq p.K p.R es d Γ n).is stk stk loc g
      (evalSeq call es ρ c s) (IsRep p T)

/-- The code of `let` bindings implements their evaluation. -/
def BsGood (p : P) (k : Nat) (call : FSem) (wr : Bool) (bs : Binds) : Prop :=
  ∀ er Δ Γ ρ n w c s d stk loc g, wtBinds p.K k wr p.R bs er Δ →
    Ok p wr c w s Δ Γ ρ n (compileBinds p.K p.R bs d Γ n).1.al
      (compileBinds p.K p.R bs d Γ n).1.ls.length loc g →
    Does p w d er n (compileBinds p.K p.R bs d Γ n).1.al (compileBinds p.K p.R bs d Γ n).1.is stk stk loc g
      (evalBinds call bs ρ c s) (fun ρ' ws loc' g' => ws = [] ∧
        EnvRep g'.mem (p.reg g') ((btys bs).reverse ++ Δ) (compileBinds p.K p.R bs d Γ n).2 ρ' loc'
          (n + (compileBinds p.K p.R bs d Γ n).1.ls.length))

section
variable {p : P} {k : Nat} {call : FSem} {wr : Bool} {w : World} {d n al : Nat} {er : Bool}
  {stk bs loc loc' : List Val} {g : Store World}

theorem Fr.locals {n al : Nat} {loc loc' : List Val} {g : Store World} (h1 : loc'.length = loc.length)
    (h2 : ∀ i, i < n → loc'[i]? = loc[i]?) : Fr n al loc loc' g g :=
  ⟨h1, h2, fun _ _ => rfl, rfl, Nat.le_refl _, by omega⟩

theorem steps_c32 {M : Wasm.Mod World} {v : Nat} {s l : List Val} {g : Store World} :
    Steps M [c32 v] s l g (.i32 (BitVec.ofNat 32 v) :: s) l g := steps_const

theorem steps_addr {M : Wasm.Mod World} {K : Ctx} {b : List Byte} {s l : List Val} {g : Store World} :
    Steps M (addr K b) s l g
      (.i32 (BitVec.ofNat 32 b.length) :: .i32 (BitVec.ofNat 32 (K.off b)) :: s) l g :=
  steps_c32.append steps_c32

theorem BytesIn.lit {K : Ctx} {m : Mem} {b : Reg} {x : List Byte} (h : LitOk K m b) (hx : x ∈ K.lits)
    (hb : b.hi < 2 ^ 32) :
    BytesIn m b x [.i32 (BitVec.ofNat 32 (K.off x)), .i32 (BitVec.ofNat 32 x.length)] := by
  obtain ⟨h1, h2⟩ := h x hx
  have h3 := h1.1
  have e : (BitVec.ofNat 32 (K.off x)).toNat = K.off x := toNat_ofNat32 (by omega)
  exact ⟨_, _, rfl, toNat_ofNat32 (by omega), by rw [e]; exact h1, by rw [e]; exact h2⟩

theorem Inv.sp_lt {s : St} (h : Inv p w s al g) : sp g < 2 ^ 32 := by
  have := h.room; have := h.small; omega

/-- The values pushed for a literal. -/
def litVals (K : Ctx) : Value → List Val
  | .int z => encI z
  | .uint n => encU n
  | .bool b => encB b
  | .buff bs => [.i32 (BitVec.ofNat 32 (K.off bs)), .i32 (BitVec.ofNat 32 bs.length)]
  | .ascii bs => [.i32 (BitVec.ofNat 32 (K.off bs)), .i32 (BitVec.ofNat 32 bs.length)]
  | .utf8 cs => let bs := cs.flatMap beBytes4
    [.i32 (BitVec.ofNat 32 (K.off bs)), .i32 (BitVec.ofNat 32 bs.length)]
  | .principal p => let bs := principalBytes p
    [.i32 (BitVec.ofNat 32 (K.off bs)), .i32 (BitVec.ofNat 32 bs.length)]
  | _ => []

theorem steps_lit {M : Wasm.Mod World} {K : Ctx} {v : Value} {s l : List Val} {g : Store World} :
    Steps M (litCode K v) s l g ((litVals K v).reverse ++ s) l g := by
  cases v <;> first
    | exact steps_consts _
    | exact steps_addr
    | exact Steps.refl

theorem rep_lit {K : Ctx} {m : Mem} {b : Reg} {T : Ty} {v : Value} (hT : LitTy T) (hv : HasType T v)
    (hl : LitIn K v) (h : LitOk K m b) (hb : b.hi < 2 ^ 32) : Rep m b T v (litVals K v) := by
  cases T <;> simp only [LitTy] at hT <;> cases v <;>
    first
    | (exfalso; simp only [HasType] at hv; done)
    | (simp only [HasType] at hv; simp only [Rep, litVals]; exact ⟨_, rfl, hv, rfl⟩)
    | (simp only [Rep, litVals]; exact ⟨_, rfl, rfl⟩)
    | (simp only [Rep]; exact ⟨hv, BytesIn.lit h hl hb⟩)

theorem good_lit (v : Value) : EGood p k call wr (.lit v) := by
  intro T er Δ Γ ρ n w c s d stk loc g ht ok
  simp only [wt] at ht
  simp only [compile, eval]
  exact Does.ends steps_lit Fr.refl ok.inv.host ok.inv.st (rep_lit ht.1 ht.2.1 ht.2.2 ok.inv.lits ok.inv.sp_lt)

theorem zeros_ty (ts : List VT) : (ts.map VT.zero).map Val.ty = ts := by
  rw [List.map_map]
  conv => rhs; rw [← List.map_id ts]
  exact List.map_congr_left fun t _ => by cases t <;> rfl

theorem good_none : EGood p k call wr .none_ := by
  intro T er Δ Γ ρ n w c s d stk loc g ht ok
  simp only [wt] at ht
  obtain ⟨U, rfl⟩ := ht
  simp only [compile, eval]
  refine Does.ends (steps_placeholder _) Fr.refl ok.inv.host ok.inv.st ?_
  simp only [IsRep, Rep]
  exact .inl ⟨(wty U).map VT.zero, trivial, by simp [wty, VT.zero], zeros_ty _⟩

theorem good_var (x : Name) : EGood p k call wr (.var x) := by
  intro T er Δ Γ ρ n w c s d stk loc g ht ok
  simp only [wt] at ht
  obtain ⟨D, hx, hf⟩ := ht
  obtain ⟨v, ls, ws, h1, h2, h3, h4, h5⟩ := ok.env x D hx
  simp only [compile, eval, h1, h2, Option.getD_some]
  exact Does.ends (steps_getLocals h4) Fr.refl ok.inv.host ok.inv.st (h5.fit hf)

/-! ### Sequencing -/

theorem Rep.step {T : Ty} {v : Value} {ws : List Val} {n al : Nat} {loc loc' : List Val}
    {g g' : Store World} (h : Rep g.mem (p.reg g) T v ws) (hf : Fr n al loc loc' g g') :
    Rep g'.mem (p.reg g') T v ws := h.mono hf.same hf.le

theorem RepAll.step {Ts : List Ty} {vs : List Value} {ws : List Val} {n al : Nat} {loc loc' : List Val}
    {g g' : Store World} (h : RepAll g.mem (p.reg g) Ts vs ws) (hf : Fr n al loc loc' g g') :
    RepAll g'.mem (p.reg g') Ts vs ws := h.mono hf.same hf.le

/-- The result of the second part, put on top of the first. -/
theorem Does.under {α : Type} {o : Out α} {is : List Instr} {us : List Val}
    {Q Q' : α → List Val → List Val → Store World → Prop}
    (h : Does p w d er n al is stk (us.reverse ++ bs) loc g o Q)
    (hq : ∀ a s' ws loc' g', o = .val a s' → Fr n al loc loc' g g' → Q a ws loc' g' →
      Q' a (us ++ ws) loc' g') :
    Does p w d er n al is stk bs loc g o Q' := by
  intro hd
  refine (h hd).mono ?_
  intro r hr
  cases o with
  | val a s' =>
    obtain ⟨ws, loc', g', rfl, hf, hh, hs, hq'⟩ := hr
    exact ⟨us ++ ws, loc', g', by simp, hf, hh, hs, hq _ _ _ _ _ rfl hf hq'⟩
  | ret v s' => exact hr
  | fail c => exact hr
  | deviates => exact hr
  | wrong => exact hr

/-- Applying a pure function to the result. -/
theorem Does.map {α β : Type} {o : Out α} {is : List Instr} {f : α → β}
    {Q : α → List Val → List Val → Store World → Prop} {Q' : β → List Val → List Val → Store World → Prop}
    (h : Does p w d er n al is stk bs loc g o Q)
    (hq : ∀ a s' ws loc' g', o = .val a s' → Fr n al loc loc' g g' → Q a ws loc' g' →
      Q' (f a) ws loc' g') :
    Does p w d er n al is stk bs loc g (o.bind fun a s => .val (f a) s) Q' := by
  intro hd
  refine (h (bind_ne hd)).mono ?_
  intro r hr
  cases o with
  | val a s' =>
    obtain ⟨ws, loc', g', rfl, hf, hh, hs, hq'⟩ := hr
    exact ⟨ws, loc', g', rfl, hf, hh, hs, hq _ _ _ _ _ rfl hf hq'⟩
  | ret v s' => exact hr
  | fail c => exact hr
  | deviates => exact hr
  | wrong => exact hr

/-- First the code of an expression, then the rest. -/
theorem EGood.then {β : Type} {e : Expr} {T : Ty} {Δ : TEnv} {Γ : Scope} {ρ : Env} {c : Cx} {s : St}
    {A : Blk} {al' ll' : Nat} {is' : List Instr} {bs2 : List Val} {f : Value → St → Out β}
    {Q2 : β → List Val → List Val → Store World → Prop}
    (he : EGood p k call wr e) (ht : wt p.K k wr p.R e er Δ T) (hA : compile p.K p.R e T d Γ n = A)
    (ok : Ok p wr c w s Δ Γ ρ n (A.al + al') (A.ls.length + ll') loc g)
    (next : ∀ v s' ws loc' g', eval call e ρ c s = .val v s' → Fr n A.al loc loc' g g' →
      Ok p wr c w s' Δ Γ ρ (n + A.ls.length) al' ll' loc' g' → Rep g'.mem (p.reg g') T v ws →
      Does p w d er (n + A.ls.length) al' is' (ws.reverse ++ stk) bs2 loc' g' (f v s') Q2) :
    Does p w d er n (A.al + al') (A.is ++ is') stk bs2 loc g ((eval call e ρ c s).bind f) Q2 := by
  have h0 := he T er Δ Γ ρ n w c s d stk loc g ht (by rw [hA]; exact ok.weaken (by omega) (by omega))
  rw [hA] at h0
  refine Does.bind h0 (Nat.le_add_right n A.ls.length) ?_
  intro v s' ws loc' g' hv hf hh hs hq
  exact next v s' ws loc' g' hv hf (ok.step hf hh hs (Nat.le_add_right _ _) (by omega)) hq

/-- Straight-line code that takes no stack, then the rest. -/
theorem Does.steps0 {α : Type} {is is' : List Instr} {stk1 loc1 : List Val} {g1 : Store World} {o : Out α}
    {n' : Nat} {Q : α → List Val → List Val → Store World → Prop}
    (hst : Steps p.M is stk loc g stk1 loc1 g1) (hf : Fr n 0 loc loc1 g g1) (hn : n ≤ n')
    (h : Does p w d er n' al is' stk1 bs loc1 g1 o Q) :
    Does p w d er n al (is ++ is') stk bs loc g o Q := by
  have := Does.steps hst hf hn h
  rwa [Nat.zero_add] at this

theorem good_args_nil : EsGood p k call wr .nil := by
  intro er Δ Γ ρ n w c s d stk loc g _ ok
  simp only [compileArgs, evals]
  exact Does.done (ws := []) rfl ok.inv.host ok.inv.st ⟨rfl, rfl⟩

theorem good_args_cons {T : Ty} {e : Expr} {es : Exprs} (he : EGood p k call wr e)
    (hes : EsGood p k call wr es) : EsGood p k call wr (.cons T e es) := by
  intro er Δ Γ ρ n w c s d stk loc g ht ok
  simp only [wts] at ht
  simp only [compileArgs, List.length_append] at ok
  simp only [compileArgs, evals]
  generalize hA : compile p.K p.R e T d Γ n = A at *
  refine he.then ht.1 hA ok ?_
  intro v s' ws loc' g' _ hf ok' hq
  have := hes er Δ Γ ρ _ w c s' d (ws.reverse ++ stk) loc' g' ht.2 ok'
  refine Does.map (Does.under this (Q' := fun vs us _ g' => RepAll g'.mem (p.reg g') (T :: tys es) (v :: vs) us) ?_) ?_
  · intro vs s2 us loc2 g2 _ hf2 hq2
    exact ⟨v, vs, ws, us, rfl, rfl, hq.step hf2, hq2⟩
  · exact fun _ _ _ _ _ _ _ h => h

theorem steps_dropValue {M : Wasm.Mod World} {T : Ty} {ws s l : List Val} {g : Store World}
    (h : ws.length = (wty T).length) : Steps M (dropValue T) (ws.reverse ++ s) l g s l g :=
  steps_drops (wty T) ws.reverse (by simpa using h)

theorem good_seq_one {T : Ty} {e : Expr} (he : EGood p k call wr e) :
    SeqGood p k call wr (.cons T e .nil) := by
  intro U er Δ Γ ρ n w c s d stk loc g ht ok
  simp only [wtSeq] at ht
  obtain ⟨ht, rfl⟩ := ht
  simp only [compileSeq] at ok ⊢
  simp only [evalSeq]
  exact he _ er Δ Γ ρ n w c s d stk loc g ht ok

theorem good_seq_cons {T T' : Ty} {e e' : Expr} {es : Exprs} (he : EGood p k call wr e)
    (hes : SeqGood p k call wr (.cons T' e' es)) : SeqGood p k call wr (.cons T e (.cons T' e' es)) := by
  intro U er Δ Γ ρ n w c s d stk loc g ht ok
  have ht : wt p.K k wr p.R e er Δ T ∧ wtSeq p.K k wr p.R (.cons T' e' es) er Δ U := ht
  have ok : Ok p wr c w s Δ Γ ρ n ((compile p.K p.R e T d Γ n).al +
      (compileSeq p.K p.R (.cons T' e' es) d Γ (n + (compile p.K p.R e T d Γ n).ls.length)).al)
      ((compile p.K p.R e T d Γ n).ls ++ (compileSeq p.K p.R (.cons T' e' es) d Γ
        (n + (compile p.K p.R e T d Γ n).ls.length)).ls).length loc g := ok
  rw [List.length_append] at ok
  show Does p w d er n ((compile p.K p.R e T d Γ n).al +
      (compileSeq p.K p.R (.cons T' e' es) d Γ (n + (compile p.K p.R e T d Γ n).ls.length)).al)
    ((compile p.K p.R e T d Γ n).is ++ dropValue T ++ (compileSeq p.K p.R (.cons T' e' es) d Γ
        (n + (compile p.K p.R e T d Γ n).ls.length)).is) stk stk loc g
    ((eval call e ρ c s).bind fun _ s => evalSeq call (.cons T' e' es) ρ c s) (IsRep p U)
  generalize hA : compile p.K p.R e T d Γ n = A at *
  rw [List.append_assoc]
  refine he.then ht.1 hA ok ?_
  intro v s' ws loc' g' _ hf ok' hq
  exact Does.steps0 (steps_dropValue hq.len) Fr.refl (Nat.le_refl _)
    (hes U er Δ Γ ρ _ w c s' d stk loc' g' ht.2 ok')

theorem good_begin {es : Exprs} (h : SeqGood p k call wr es) : EGood p k call wr (.begin_ es) := by
  intro T er Δ Γ ρ n w c s d stk loc g ht ok
  simp only [wt] at ht
  simp only [compile] at ok ⊢
  simp only [eval]
  exact h T er Δ Γ ρ n w c s d stk loc g ht ok

/-! ### Saving values in locals -/

/-- What holds of the locals that hold a saved value. -/
theorem saved {T : Ty} {m : Nat} {ws : List Val} (hw : ws.length = (wty T).length)
    (hl : m + (wty T).length ≤ loc.length) :
    ∃ loc', Steps p.M (saveCode T m) (ws.reverse ++ stk) loc g stk loc' g ∧
      Fr m 0 loc loc' g g ∧ (∀ i, m + (wty T).length ≤ i → loc'[i]? = loc[i]?) ∧
      (saveLocals T m).map (loc'[·]?) = ws.map some := by
  obtain ⟨loc', h1, h2, h3, h4⟩ := steps_save (M := p.M) (s := stk) (g := g) T m ws hw hl
  exact ⟨loc', h1, Fr.locals h2 (fun i hi => h3 i (by omega)),
    fun i hi => h3 i (.inr hi), h4⟩

/-- `Ok` after steps that only change fresh locals. -/
theorem Ok.locals {c : Cx} {s : St} {Δ : TEnv} {Γ : Scope} {ρ : Env} {ll m : Nat}
    (ok : Ok p wr c w s Δ Γ ρ n al (m + ll) loc g) (hf : Fr n 0 loc loc' g g) :
    Ok p wr c w s Δ Γ ρ (n + m) al ll loc' g :=
  Ok.step (al := 0) (by rw [Nat.zero_add]; exact ok) hf ok.inv.host ok.inv.st (by omega) (by omega)

theorem Ok.bind {c : Cx} {s : St} {Δ : TEnv} {Γ : Scope} {ρ : Env} {ll m : Nat} {x : Name} {T : Ty} {v : Value}
    {ws : List Val} (ok : Ok p wr c w s Δ Γ ρ n al ll loc g) (hm : m + (wty T).length ≤ n)
    (hw : (saveLocals T m).map (loc[·]?) = ws.map some) (hr : Rep g.mem (p.reg g) T v ws) :
    Ok p wr c w s ((x, T) :: Δ) ((x, saveLocals T m) :: Γ) ((x, v) :: ρ) n al ll loc g :=
  ⟨ok.cx, ok.inv, ok.env.cons (fun l hl => by have := (mem_saveLocals.1 hl).2; omega) hw hr, ok.locs⟩

theorem good_binds_nil : BsGood p k call wr .nil := by
  intro er Δ Γ ρ n w c s d stk loc g _ ok
  simp only [compileBinds, evalBinds]
  exact Does.done (ws := []) rfl ok.inv.host ok.inv.st ⟨rfl, ok.env⟩

theorem good_binds_cons {x : Name} {T : Ty} {e : Expr} {bs : Binds} (he : EGood p k call wr e)
    (hbs : BsGood p k call wr bs) : BsGood p k call wr (.cons x T e bs) := by
  intro er Δ Γ ρ n w c s d stk loc g ht ok
  simp only [wtBinds] at ht
  simp only [compileBinds, List.length_append, Nat.add_assoc] at ok
  simp only [compileBinds, evalBinds, List.append_assoc, Nat.add_assoc]
  generalize hA : compile p.K p.R e T d Γ n = A at *
  refine he.then ht.1 hA ok ?_
  intro v s' ws loc' g' _ hf ok' hq
  obtain ⟨loc2, hst, hf2, _, hw2⟩ := saved (p := p) (loc := loc') (g := g') (stk := stk)
    (m := n + A.ls.length) hq.len (by have := ok'.locs; omega)
  have ok2 := (ok'.locals hf2).bind (x := x) (Nat.le_refl _) hw2 hq
  rw [Nat.add_assoc] at ok2
  have h1 := hbs er _ _ _ _ w c s' d stk loc2 g' ht.2 ok2
  refine Does.steps0 hst hf2 (by omega) (h1.mono (Nat.le_refl _) ?_)
  rintro a s2 us loc3 g3 _ _ ⟨rfl, h⟩
  refine ⟨rfl, ?_⟩
  simp only [btys, List.reverse_cons, List.append_assoc, List.cons_append, List.nil_append, List.length_append]
  simpa only [Nat.add_assoc] using h

theorem good_let {bs : Binds} {body : Exprs} (hb : BsGood p k call wr bs)
    (h : SeqGood p k call wr body) : EGood p k call wr (.let_ bs body) := by
  intro T er Δ Γ ρ n w c s d stk loc g ht ok
  simp only [wt] at ht
  simp only [compile, List.length_append] at ok
  simp only [compile, eval]
  have h0 := hb er Δ Γ ρ n w c s d stk loc g ht.1 (ok.weaken (by omega) (by omega))
  generalize compileBinds p.K p.R bs d Γ n = A at *
  refine Does.bind h0 (Nat.le_add_right n A.1.ls.length) ?_
  rintro ρ' s' ws loc' g' _ hf hh hs ⟨rfl, he⟩
  have ok' := ok.step hf hh hs (Nat.le_add_right n _) (Nat.le_of_eq (Nat.add_assoc _ _ _))
  exact h T er _ _ ρ' _ w c s' d stk loc' g' ht.2 ⟨ok'.cx, ok'.inv, he, ok'.locs⟩

/-! ### Conditionals -/

/-- An expression in a branch. -/
theorem EGood.branch {e : Expr} {T : Ty} {Δ : TEnv} {Γ : Scope} {ρ : Env} {c : Cx} {s : St}
    {A : Blk} {n1 al1 : Nat} (he : EGood p k call wr e) (ht : wt p.K k wr p.R e er Δ T)
    (hA : compile p.K p.R e T d Γ n1 = A)
    (ok : Ok p wr c w s Δ Γ ρ n1 al1 A.ls.length loc g) (hn : n ≤ n1) (ha : A.al ≤ al1) :
    Does p w d er n al1 A.is stk stk loc g (eval call e ρ c s) (IsRep p T) := by
  have h0 := he T er Δ Γ ρ n1 w c s d stk loc g ht (by rw [hA]; exact ok.weaken ha (Nat.le_refl _))
  rw [hA] at h0
  have := Does.steps0 (Steps.refl (M := p.M)) (Fr.refl (n := n)) hn (h0.mono ha fun _ _ _ _ _ _ _ h => h)
  exact this

theorem Ok.at {c : Cx} {s : St} {Δ : TEnv} {Γ : Scope} {ρ : Env} {ll ll' al' n' : Nat}
    (ok : Ok p wr c w s Δ Γ ρ n al ll loc g) (hn : n ≤ n') (hl : n' + ll' ≤ n + ll) (ha : al' ≤ al) :
    Ok p wr c w s Δ Γ ρ n' al' ll' loc g :=
  have := ok.weaken ha (Nat.le_refl _)
  ⟨this.cx, this.inv, this.env.step (Fr.refl) hn, by have := ok.locs; omega⟩

theorem good_ite {e a b : Expr} (he : EGood p k call wr e) (ha : EGood p k call wr a)
    (hb : EGood p k call wr b) : EGood p k call wr (.ite e a b) := by
  intro T er Δ Γ ρ n w c s d stk loc g ht ok
  simp only [wt] at ht
  simp only [compile, List.length_append, Nat.add_assoc] at ok
  simp only [compile, eval, Nat.add_assoc]
  generalize hC : compile p.K p.R e .bool d Γ n = C at *
  generalize hA : compile p.K p.R a T (d + 1) Γ (n + C.ls.length) = A at *
  generalize hB : compile p.K p.R b T (d + 1) Γ (n + (C.ls.length + A.ls.length)) = B at *
  refine he.then ht.1 hC ok ?_
  intro v s' ws loc' g' _ hf ok' hq
  simp only [Rep] at hq
  obtain ⟨x, rfl, rfl⟩ := hq
  refine Does.ite (c := if x then 1#32 else 0#32) ?_
  cases x
  · exact hb.branch ht.2.2 hB (ok'.at (by omega) (by omega) (Nat.le_refl _)) (by omega) (by omega)
  · exact ha.branch ht.2.1 hA (ok'.at (by omega) (by omega) (Nat.le_refl _)) (by omega) (by omega)

theorem good_matchOpt {U : Ty} {e a b : Expr} {x : Name} (he : EGood p k call wr e)
    (ha : EGood p k call wr a) (hb : EGood p k call wr b) : EGood p k call wr (.matchOpt U e x a b) := by
  intro T er Δ Γ ρ n w c s d stk loc g ht ok
  simp only [wt] at ht
  simp only [compile, List.length_append, Nat.add_assoc] at ok
  simp only [compile, eval, Nat.add_assoc, List.append_assoc]
  generalize hC : compile p.K p.R e (.opt U) d Γ n = C at *
  generalize hA : compile p.K p.R a T (d + 1) _ _ = A at *
  generalize hB : compile p.K p.R b T (d + 1) Γ _ = B at *
  refine he.then ht.1 hC ok ?_
  intro v s' ws loc' g' _ hf ok' hq
  simp only [Rep] at hq
  rcases hq with ⟨us, rfl, rfl, hu⟩ | ⟨v, us, rfl, rfl, hu⟩
  · obtain ⟨loc2, hst, hf2, _, hw2⟩ := saved (p := p) (T := U) (ws := us) (loc := loc') (g := g')
      (stk := .i32 0#32 :: stk) (m := n + C.ls.length) (typed_length hu) (by have := ok'.locs; omega)
    have ok2 := ok'.locals hf2
    rw [List.reverse_cons, List.append_assoc]
    refine Does.steps0 hst hf2 (Nat.le_refl _) (Does.ite (c := 0#32) ?_)
    exact hb.branch ht.2.2 hB (ok2.at (by omega) (by omega) (Nat.le_refl _)) (by omega) (by omega)
  · obtain ⟨loc2, hst, hf2, _, hw2⟩ := saved (p := p) (T := U) (ws := us) (loc := loc') (g := g')
      (stk := .i32 1#32 :: stk) (m := n + C.ls.length) hu.len (by have := ok'.locs; omega)
    have ok2 := (ok'.locals hf2).bind (x := x) (Nat.le_refl _) hw2 hu
    rw [List.reverse_cons, List.append_assoc]
    refine Does.steps0 hst hf2 (Nat.le_refl _) (Does.ite (c := 1#32) ?_)
    exact ha.branch ht.2.1 hA (ok2.at (by omega) (by omega) (Nat.le_refl _)) (by omega) (by omega)

end

end Gen
