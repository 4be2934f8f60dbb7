import Verif.Gen.ExprProof6
import Verif.Gen.CopyProof

/-! Code of expressions: `as-contract`, calls of functions of the contract, and function bodies. -/

namespace Gen
open Wasm Spec Host Core

section
variable {p : P} {k : Nat} {call : FSem} {wr : Bool} {w : World} {d n al : Nat} {er : Bool}
  {stk bs loc loc' : List Val} {g g0 : Store World}

/-- The host state inside `as-contract`. -/
def asSelf (w : World) (c : Cx) : World :=
  { w with sender := some w.self, caller := some w.self,
           senderStack := c.sender :: w.senderStack, callerStack := c.caller :: w.callerStack }

theorem enter_put {c : Cx} (h : CxOk c w wr) (s : St) :
    ((Gen.put w s).pushSender (Gen.put w s).self).pushCaller (Gen.put w s).self =
      Gen.put (asSelf w c) s := by
  obtain ⟨_, h1, h2, _, _, _, _, _⟩ := h
  cases w
  simp only at h1 h2
  subst h1 h2
  rfl

theorem exit_put {c : Cx} (h : CxOk c w wr) (s : St) (hg : g.host = Gen.put (asSelf w c) s) :
    hostFn .exit_as_contract [] g = .ret [] (withHost g (Gen.put w s)) := by
  obtain ⟨_, h1, h2, _, _, _, _, _⟩ := h
  simp only [hostFn, exitAsContract, hg]
  cases w
  simp only at h1 h2
  subst h1 h2
  rfl

theorem CxOk.asSelf {c : Cx} (h : CxOk c w wr) :
    CxOk { c with sender := .contract c.self, caller := .contract c.self } (asSelf w c) wr where
  self := h.self
  sender := by show some w.self = _; rw [World.self, h.self]
  caller := by show some w.self = _; rw [World.self, h.self]
  senderOk := h.selfOk
  callerOk := h.selfOk
  selfOk := h.selfOk
  pending := h.pending
  writable := h.writable

theorem Fr.withHost {w' : World} : Fr n 0 loc loc g (withHost g w') :=
  ⟨rfl, fun _ _ => rfl, fun _ _ => rfl, rfl, Nat.le_refl _, Nat.le_refl _⟩

theorem good_asContract (hM : p.M.host = hostFn) {e : Expr} (he : EGood p k call wr e) :
    EGood p k call wr (.asContract e) := by
  intro T er Δ Γ ρ n w c s d stk loc g ht ok
  simp only [wt] at ht
  simp only [compile] at ok
  simp only [compile, eval, List.append_assoc]
  generalize hA : compile p.K p.R e T d Γ n = A at *
  have hin : hostFn .enter_as_contract [] g = .ret [] (withHost g (Gen.put (asSelf w c) s)) := by
    simp only [hostFn, enterAsContract, ok.inv.host, enter_put ok.cx]
  have s1 := steps_host (stk := stk) (loc := loc) hM (f := .enter_as_contract) (args := []) rfl hin
  refine Does.steps0 s1 Fr.withHost (Nat.le_refl _) ?_
  have ok1 : Ok p wr { c with sender := .contract c.self, caller := .contract c.self } (asSelf w c) s Δ Γ ρ n A.al
      A.ls.length loc (withHost g (Gen.put (asSelf w c) s)) :=
    ⟨ok.cx.asSelf, ⟨rfl, ok.inv.st, ok.inv.lits, ok.inv.holes, ok.inv.room, ok.inv.small⟩, ok.env, ok.locs⟩
  have h1 := he T false Δ Γ ρ n (asSelf w c) _ s d stk loc _ ht (by rw [hA]; exact ok1)
  rw [hA] at h1
  intro hd
  rw [wp_append]
  refine (h1 hd).mono ?_
  intro r hr
  revert hr hd
  cases eval call e ρ { c with sender := .contract c.self, caller := .contract c.self } s with
  | val v s' =>
    rintro _ ⟨ws, loc', g', rfl, hf, hh, hs, hq⟩
    rw [seqK_norm]
    have s2 := steps_host (stk := ws.reverse ++ stk) (loc := loc') hM (f := .exit_as_contract) (args := []) rfl
      (exit_put ok.cx s' hh)
    rw [show ([].reverse ++ (ws.reverse ++ stk) : List Val) = ws.reverse ++ stk from rfl] at s2
    rw [s2.wp]
    exact ⟨ws, loc', _, rfl, ⟨hf.len, hf.keep, hf.mem, hf.size, hf.lo, hf.hi⟩, rfl, hs, hq⟩
  | ret v s' => exact fun _ h => absurd h.1 (by decide)
  | fail c => rintro _ ⟨g', rfl, h⟩; exact ⟨g', rfl, h⟩
  | deviates => exact fun h => absurd rfl h
  | wrong => exact fun _ h => h.elim

/-! ### Calls -/

/-- Stack bytes that the functions before number `k` need together, and the work space of the library. -/
def need (K : Ctx) (k : Nat) : Nat := K.ws + ((K.fns.take k).map fun f => (compileFn K f).2).sum

theorem need_succ {K : Ctx} {j : Nat} {f : FunDef} (h : K.fns[j]? = some f) :
    need K (j + 1) = need K j + (compileFn K f).2 := by
  simp only [need, List.take_add_one, h, Option.toList_some, List.map_append, List.map_cons, List.map_nil, List.sum_append,
    List.sum_cons, List.sum_nil, Nat.add_zero, Nat.add_assoc]

theorem need_le {K : Ctx} {i j : Nat} (h : i ≤ j) : need K i ≤ need K j := by
  induction h with
  | refl => exact Nat.le_refl _
  | step h ih =>
    rename_i m
    refine Nat.le_trans ih ?_
    cases hm : K.fns[m]? with
    | some f => rw [need_succ hm]; omega
    | none =>
      simp only [need, List.take_add_one, hm, Option.toList_none, List.append_nil]
      omega

/-- What the call of a function may result in, for an evaluation of its body with outcome `o`. -/
def FPost (K : Ctx) (T : Ty) (w : World) (H : Nat → Prop) (g : Store World) (o : Out Value) : CRes World → Prop := fun r =>
  match o with
  | .val v s' => ∃ us g' hi, r = .ret us g' ∧ sp g' = sp g ∧ Below (sp g) g.mem g'.mem ∧
      g'.mem.size = g.mem.size ∧ g'.host = put w s' ∧ StOk K w.contract s' ∧ sp g ≤ hi ∧ hi ≤ g.mem.size ∧
      Rep g'.mem ⟨hi, H⟩ T v us
  | .ret _ _ => False
  | .fail c => ∃ g', r = .trap g' ∧ g'.g32 .errCode = BitVec.ofNat 32 c
  | .deviates => True
  | .wrong => False

/-- The code of function `j` implements it. -/
def FnGood (K : Ctx) (M : Wasm.Mod World) (j : Nat) : Prop :=
  ∀ f, K.fns[j]? = some f → ∀ H vs ws c w s g, CxOk c w f.writes →
    Inv ⟨K, M, need K j, f.ret, H⟩ w s (compileFn K f).2 g →
    RepAll g.mem ⟨sp g, H⟩ (f.params.map Prod.snd) vs ws → f.run (sem K.fns j) vs c s ≠ .deviates →
    Call M (.user j) ws g (FPost K f.ret w H g (f.run (sem K.fns j) vs c s))

/-- The module contains the code of the functions of the contract, and the host functions. -/
structure Linked (K : Ctx) (M : Wasm.Mod World) : Prop where
  host : M.host = hostFn
  user : ∀ (j : Nat) f, K.fns[j]? = some f → M.user j = some (compileFn K f).1

/-- Composition when the first part runs in another context of the host, and cannot return early. -/
theorem Does.enter {α β : Type} {w1 : World} {n' al' : Nat} {is is' : List Instr} {o : Out α}
    {f : α → St → Out β} {Q : α → List Val → List Val → Store World → Prop}
    {Q2 : β → List Val → List Val → Store World → Prop} {bs2 : List Val}
    (h1 : Does p w1 d false n al is stk bs loc g o Q) (hn : n ≤ n')
    (h2 : ∀ a s' ws loc' g', o = .val a s' → Fr n al loc loc' g g' → g'.host = Gen.put w1 s' →
      StOk p.K w1.contract s' → Q a ws loc' g' →
      Does p w d er n' al' is' (ws.reverse ++ bs) bs2 loc' g' (f a s') Q2) :
    Does p w d er n (al + al') (is ++ is') stk bs2 loc g (o.bind f) Q2 := by
  intro hd
  rw [wp_append]
  refine (h1 (bind_ne hd)).mono ?_
  intro r hr
  cases o with
  | val a s' =>
    obtain ⟨ws, loc', g', rfl, hf, hh, hs, hq⟩ := hr
    have hd' : f a s' ≠ .deviates := hd
    rw [seqK_norm]
    refine (h2 a s' ws loc' g' rfl hf hh hs hq hd').mono ?_
    intro r hr
    show Post p w d er n (al + al') bs2 loc g (f a s') Q2 r
    revert hr hd'
    cases f a s' with
    | val b s2 =>
      rintro _ ⟨ws2, loc2, g2, rfl, hf2, hh2, hs2, hq2⟩
      exact ⟨ws2, loc2, g2, rfl, hf.trans hf2 hn, hh2, hs2, hq2⟩
    | ret v s2 =>
      rintro _ ⟨he, ws2, junk, loc2, g2, rfl, hf2, hh2, hs2, hq2⟩
      exact ⟨he, ws2, junk, loc2, g2, rfl, hf.trans hf2 hn, hh2, hs2, hq2⟩
    | fail c => exact fun _ h => h
    | deviates => exact fun h => absurd rfl h
    | wrong => exact fun _ h => h
  | ret v s' => exact absurd hr.1 (by decide)
  | fail c =>
    obtain ⟨g', rfl, h⟩ := hr
    exact ⟨g', rfl, h⟩
  | deviates => exact absurd rfl hd
  | wrong => exact hr.elim

theorem RepAll.ty {m : Mem} {b : Reg} : ∀ {Ts : List Ty} {vs : List Value} {ws : List Val}, RepAll m b Ts vs ws →
    ws.map Val.ty = Ts.flatMap wty
  | [], _, _, h => by rw [h.2]; rfl
  | T :: Ts, _, _, h => by
    obtain ⟨x, r, us, rs, h1, rfl, h3, h4⟩ := h
    rw [List.map_append, h3.ty, RepAll.ty h4, List.flatMap_cons]

theorem CxOk.sub {c : Cx} {wr' : Bool} (h : CxOk c w wr) (hw : wr' = true → wr = true) : CxOk c w wr' :=
  ⟨h.self, h.sender, h.caller, h.senderOk, h.callerOk, h.selfOk, h.pending, fun e => h.writable (hw e)⟩

/-- The values represent `v`, whose parts may be above the stack pointer: in the frame of a function that
has returned. -/
def Far (p : P) (T : Ty) (v : Value) (ws _loc : List Val) (g : Store World) : Prop :=
  ∃ hi, hi ≤ g.mem.size ∧ Rep g.mem ⟨hi, p.H⟩ T v ws

/-- The call instruction. -/
theorem Does.user {j : Nat} {f : FunDef} {c : Cx} {s : St} {vs : List Value} {ws : List Val}
    (hL : Linked p.K p.M) (hF : FnGood p.K p.M j) (hf : p.K.fns[j]? = some f)
    (hb : need p.K (j + 1) ≤ p.base) (cx : CxOk c w f.writes) (iv : Inv p w s 0 g)
    (hr : RepAll g.mem (p.reg g) (f.params.map Prod.snd) vs ws) :
    Does p w d false n 0 [.call (.user j)] (ws.reverse ++ stk) stk loc g (f.run (sem p.K.fns j) vs c s)
      (Far p f.ret) := by
  intro hd
  have hsig : p.M.sig (.user j) = some ((compileFn p.K f).1.params, (compileFn p.K f).1.results) := by
    simp [Mod.sig, Mod.func, hL.user j f hf]
  have hlen : ws.length = (compileFn p.K f).1.params.length := by
    have := congrArg List.length hr.ty
    simp only [List.length_map] at this
    rw [this]
    simp only [compileFn, List.flatMap_map]
  rw [wp_call hsig (by simp [hlen])]
  have e1 : List.take (compileFn p.K f).1.params.length (ws.reverse ++ stk) = ws.reverse := by
    rw [← hlen, ← List.length_reverse]; exact List.take_left
  have e2 : List.drop (compileFn p.K f).1.params.length (ws.reverse ++ stk) = stk := by
    rw [← hlen, ← List.length_reverse]; exact List.drop_left
  rw [e1, e2, List.reverse_reverse]
  have hn := need_succ hf
  have iv' : Inv ⟨p.K, p.M, need p.K j, f.ret, p.H⟩ w s (compileFn p.K f).2 g :=
    ⟨iv.host, iv.st, iv.lits, iv.holes, by have := iv.room; show _ + need p.K j ≤ _; omega, iv.small⟩
  refine (hF f hf p.H vs ws c w s g cx iv' hr hd).mono ?_
  intro r h
  revert h hd
  cases f.run (sem p.K.fns j) vs c s with
  | val v s' =>
    rintro _ ⟨us, g', hi, rfl, h1, h2, h3, h4, h5, h6, h7, h8⟩
    show WP p.M [] (us.reverse ++ stk) loc g' _
    rw [wp_nil]
    exact ⟨us, loc, g', rfl, ⟨rfl, fun _ _ => rfl, h2, h3, by omega, by omega⟩, h4, h5, hi, by omega, h8⟩
  | ret v s' => exact fun _ h => h.elim
  | fail c => rintro _ ⟨g', rfl, h⟩; exact ⟨g', rfl, h⟩
  | deviates => exact fun h => absurd rfl h
  | wrong => exact fun _ h => h.elim

theorem bind_val {α : Type} (o : Out α) : o.bind (fun v s => .val v s) = o := by cases o <;> rfl

/-- The host state in a nested transaction. -/
def nested (w : World) (s : St) (ro : Bool) : World :=
  { w with saved := (Gen.put w s).cur :: w.saved, cur := { w.cur with readOnly := ro || w.cur.readOnly } }

theorem roll_put {ro : Bool} {s s' : St} (hg : g.host = Gen.put (nested w s ro) s') :
    hostFn .roll_back_call [] g = .ret [] (withHost g (Gen.put w s)) := by
  simp only [hostFn, hg]; rfl

theorem commit_put {ro : Bool} {s s' : St} (hg : g.host = Gen.put (nested w s ro) s') :
    hostFn .commit_call [] g = .ret [] (withHost g (Gen.put w s')) := by
  simp only [hostFn, hg]; rfl

theorem Does.callFn {j : Nat} {f : FunDef} {c : Cx} {s : St} {vs : List Value} {ws : List Val}
    (hL : Linked p.K p.M) (hF : FnGood p.K p.M j) (hf : p.K.fns[j]? = some f)
    (hO : FnOk p.K j f) (hb : need p.K (j + 1) ≤ p.base) (cx : CxOk c w f.writes) (iv : Inv p w s 0 g)
    (hl : n + (callCode j f.kind f.ret n).ls.length ≤ loc.length)
    (hr : RepAll g.mem (p.reg g) (f.params.map Prod.snd) vs ws) :
    Does p w d er n 0 (callCode j f.kind f.ret n).is (ws.reverse ++ stk) stk loc g
      (f.call (sem p.K.fns j) vs c s) (Far p f.ret) := by
  obtain ⟨_, _, h1, h2⟩ := hO
  unfold FunDef.call
  cases hk : f.kind with
  | priv =>
    simp only [callCode]
    have := (Does.user (d := d) (n := n) (stk := stk) (loc := loc) hL hF hf hb cx iv hr).enter (w := w) (er := er) (al' := 0) (is' := [])
      (f := fun v s => .val v s) (Q2 := Far p f.ret) (bs2 := stk) (Nat.le_refl _)
      (fun v s' us loc' g' _ _ hh hs hq => Does.done rfl hh hs hq)
    exact this
  | ro =>
    simp only [callCode]
    have hin : hostFn .begin_read_only_call [] g = .ret [] (withHost g (Gen.put (nested w s true) s)) := by
      simp only [hostFn, iv.host]; rfl
    have s1 := steps_host (stk := ws.reverse ++ stk) (loc := loc) hL.host (f := .begin_read_only_call) (args := []) rfl hin
    refine Does.steps0 (is := [_]) (is' := [_, _]) s1 Fr.withHost (Nat.le_refl _) ?_
    have cx' : CxOk c (nested w s true) f.writes :=
      ⟨cx.self, cx.sender, cx.caller, cx.senderOk, cx.callerOk, cx.selfOk, cx.pending,
        fun e => by rw [h1 hk] at e; exact absurd e (by decide)⟩
    have iv' : Inv p (nested w s true) s 0 (withHost g (Gen.put (nested w s true) s)) :=
      ⟨rfl, iv.st, iv.lits, iv.holes, iv.room, iv.small⟩
    refine (Does.user (d := d) (n := n) (stk := stk) (loc := loc) hL hF hf hb cx' iv' hr).enter (al' := 0) (is' := [_])
      (Nat.le_refl _) ?_
    intro v s' us loc' g' _ _ hh hs hq
    have s2 := steps_host (stk := us.reverse ++ stk) (loc := loc') hL.host (f := .roll_back_call) (args := []) rfl (roll_put hh)
    have : Does p w d er n 0 [.call (.host .roll_back_call)] (us.reverse ++ stk) stk loc' g' (.val v s) (Far p f.ret) :=
      Does.ends (ws := us) s2 Fr.withHost rfl iv.st hq
    cases v <;> exact this
  | pub =>
    simp only [callCode, hk] at hl ⊢
    have hin : hostFn .begin_public_call [] g = .ret [] (withHost g (Gen.put (nested w s false) s)) := by
      simp only [hostFn, iv.host]; rfl
    have s1 := steps_host (stk := ws.reverse ++ stk) (loc := loc) hL.host (f := .begin_public_call) (args := []) rfl hin
    simp only [List.append_assoc, List.cons_append, List.nil_append]
    refine Does.steps0 (is := [_]) (is' := _ :: _) s1 Fr.withHost (Nat.le_refl _) ?_
    have cx' : CxOk c (nested w s false) f.writes :=
      ⟨cx.self, cx.sender, cx.caller, cx.senderOk, cx.callerOk, cx.selfOk, cx.pending, cx.writable⟩
    have iv' : Inv p (nested w s false) s 0 (withHost g (Gen.put (nested w s false) s)) :=
      ⟨rfl, iv.st, iv.lits, iv.holes, iv.room, iv.small⟩
    refine (Does.user (d := d) (n := n) (stk := stk) (loc := loc) hL hF hf hb cx' iv' hr).enter (al' := 0) (is := [_])
      (Nat.le_refl _) ?_
    intro v s' us loc' g' _ hfr hh hs hq
    obtain ⟨o, e, hR⟩ := h2 hk
    obtain ⟨loc2, s2, f2, _, h2'⟩ := saved (p := p) (stk := stk) (g := g') (loc := loc') (T := f.ret) (m := n) (ws := us) (Rep.len hq.choose_spec.2)
      (by rw [hfr.len]; exact hl)
    refine Does.steps0 s2 f2 (Nat.le_refl _) ?_
    have hget : Steps p.M (getLocals (saveLocals f.ret n)) stk loc2 (withHost g' (Gen.put w s')) (us.reverse ++ stk) loc2
        (withHost g' (Gen.put w s')) := steps_getLocals h2'
    have hget' : Steps p.M (getLocals (saveLocals f.ret n)) stk loc2 (withHost g' (Gen.put w s)) (us.reverse ++ stk) loc2
        (withHost g' (Gen.put w s)) := steps_getLocals h2'
    have key : ∀ x us', us = .i32 x :: us' → loc2[(saveLocals f.ret n).headD 0]? = some (.i32 x) := by
      rintro x us' rfl
      cases hsl : saveLocals f.ret n with
      | nil => rw [hsl] at h2'; simp at h2'
      | cons a as => rw [hsl] at h2'; simp only [List.map_cons, List.cons.injEq] at h2'; exact h2'.1
    obtain ⟨hi, hhi, hq⟩ := hq
    rw [hR] at hq
    simp only [Rep] at hq
    rcases hq with ⟨x, vs', js, rfl, rfl, hx, hj⟩ | ⟨x, vs', js, rfl, rfl, hx, hj⟩
    · refine Does.steps0 (is := [_]) (is' := _ :: _) (steps_get (key _ _ rfl)) Fr.refl (Nat.le_refl _) ?_
      have s3 := steps_host (stk := []) (loc := loc2) hL.host (f := .commit_call) (args := []) rfl (commit_put hh)
      have d3 : Does p w d er n 0 [.ite 0 0 [.call (.host .commit_call)] [.call (.host .roll_back_call)]] (.i32 1#32 :: stk) stk
          loc2 g' (.val () s') (fun _ ws l g => ws = [] ∧ l = loc2 ∧ g = Host.withHost g' (Gen.put w s')) := by
        refine Does.ite ?_
        rw [if_neg (by decide)]
        exact Does.ends (ws := []) s3 Fr.withHost rfl hs ⟨rfl, rfl, rfl⟩
      refine Does.bind (al' := 0) (is := [_]) (k := fun _ s => .val (Value.ok x) s) d3 (Nat.le_refl _) ?_
      rintro _ _ _ _ _ e _ _ _ ⟨rfl, rfl, rfl⟩
      cases e
      refine Does.ends hget Fr.refl rfl hs ?_
      refine ⟨hi, hhi, ?_⟩
      show Rep _ _ _ _ _
      rw [hR]; simp only [Rep]
      exact Or.inl ⟨x, vs', js, rfl, rfl, hx, hj⟩
    · refine Does.steps0 (is := [_]) (is' := _ :: _) (steps_get (key _ _ rfl)) Fr.refl (Nat.le_refl _) ?_
      have s3 := steps_host (stk := []) (loc := loc2) hL.host (f := .roll_back_call) (args := []) rfl (roll_put hh)
      have d3 : Does p w d er n 0 [.ite 0 0 [.call (.host .commit_call)] [.call (.host .roll_back_call)]] (.i32 0#32 :: stk) stk
          loc2 g' (.val () s) (fun _ ws l g => ws = [] ∧ l = loc2 ∧ g = Host.withHost g' (Gen.put w s)) := by
        refine Does.ite ?_
        rw [if_pos rfl]
        exact Does.ends (ws := []) s3 Fr.withHost rfl iv.st ⟨rfl, rfl, rfl⟩
      refine Does.bind (al' := 0) (is := [_]) (k := fun _ s => .val (Value.err x) s) d3 (Nat.le_refl _) ?_
      rintro _ _ _ _ _ e _ _ _ ⟨rfl, rfl, rfl⟩
      cases e
      refine Does.ends hget' Fr.refl rfl iv.st ?_
      refine ⟨hi, hhi, ?_⟩
      show Rep _ _ _ _ _
      rw [hR]; simp only [Rep]
      exact Or.inr ⟨x, vs', js, rfl, rfl, hx, hj⟩

/-- Copying a value into reserved memory. -/
theorem copied {T : Ty} {v : Value} {us : List Val} {a m : Nat} (wf : T.WF) (hq : Far (p.res (sp g0) (countSpace T)) T v us loc g)
    (ha : loc[a]? = some (.i32 (g0.g32 .stackPointer))) (ham : a < m) (hz : sp g0 + countSpace T ≤ g.mem.size)
    (small : g.mem.size < 2 ^ 32)
    (hl : m + (wty T).length + (copyVal T (saveLocals T m) a (m + (wty T).length)).ls.length ≤ loc.length) :
    ∃ us' loc' m', Steps p.M (saveCode T m ++ (copyVal T (saveLocals T m) a (m + (wty T).length)).is ++
        getLocals (saveLocals T m)) (us.reverse ++ stk) loc g (us'.reverse ++ stk) loc' (g.setMem m') ∧
      loc'.length = loc.length ∧ (∀ i, i < a → loc'[i]? = loc[i]?) ∧ m'.size = g.mem.size ∧
      (∀ i, i < sp g0 ∨ sp g0 + countSpace T ≤ i → m'.byte i = g.mem.byte i) ∧
      Rep m' (seg (sp g0) (sp g0 + countSpace T)) T v us' := by
  obtain ⟨hi, hhi, hr⟩ := hq
  obtain ⟨loc1, st1, l1, k1, v1⟩ := steps_save (M := p.M) (s := stk) (loc := loc) (g := g) T m us hr.len (by omega)
  have ha1 := k1 a (.inl ham)
  rw [ha] at ha1
  obtain ⟨us', loc2, m2, cv2, st2, f2⟩ := copy_good (M := p.M) T (saveLocals T m) a (m + (wty T).length) wf
    (by simp [saveLocals]) v ⟨hi, (p.res (sp g0) (countSpace T)).H⟩ us (g0.g32 .stackPointer) stk loc1 g
    ⟨(nth_some ha1).2, nodup_rev List.nodup_range', fun j hj => by have := mem_saveLocals.1 hj; omega, by omega,
      fun hj => by have := mem_saveLocals.1 hj; omega, by omega, fun j h1 h2 => .inl (.inr ⟨h1, h2⟩), hhi, hz, small⟩
    v1 (by omega) hr
  refine ⟨us', loc2, m2, (st1.append st2).append (steps_getLocals f2.vals), by rw [f2.keep.1, l1], ?_, f2.size, f2.mem,
    f2.rep.mono (fun _ _ _ => rfl) (seg_le (Nat.le_refl _) f2.hi)⟩
  intro i hi
  rw [f2.keep.2 i (by omega) (by simp; exact ⟨by omega, fun h => by have := mem_saveLocals.1 h; omega⟩), k1 i (.inl (by omega))]

/-- A call, with the arguments on the stack. -/
theorem Does.callUser {j : Nat} {f : FunDef} {c : Cx} {s : St} {vs : List Value} {ws : List Val}
    (hL : Linked p.K p.M) (hF : FnGood p.K p.M j) (hf : p.K.fns[j]? = some f) (wf : f.ret.WF)
    (hO : FnOk p.K j f) (hb : need p.K (j + 1) ≤ p.base) (cx : CxOk c w f.writes)
    (iv : Inv p w s (Gen.callUser j f.kind f.ret n).al g)
    (hl : n + (Gen.callUser j f.kind f.ret n).ls.length ≤ loc.length)
    (hr : RepAll g.mem (p.reg g) (f.params.map Prod.snd) vs ws) :
    Does p w d er n (Gen.callUser j f.kind f.ret n).al (Gen.callUser j f.kind f.ret n).is (ws.reverse ++ stk) stk loc g
      (f.call (sem p.K.fns j) vs c s) (IsRep p f.ret) := by
  cases hm : hasInMem f.ret with
  | false =>
    have e : Gen.callUser j f.kind f.ret n = callCode j f.kind f.ret n := by simp [Gen.callUser, hm]
    have hal : (callCode j f.kind f.ret n).al = 0 := by cases f.kind <;> rfl
    rw [e, hal] at iv
    rw [e] at hl
    rw [e, hal]
    refine (Does.callFn hL hF hf hO hb cx iv hl hr).mono (Nat.le_refl _) ?_
    rintro v s' us loc' g' _ _ ⟨hi, _, h⟩
    exact h.flat (hasInMem_flat hm)
  | true =>
    simp only [Gen.callUser, hm, if_true, List.append_assoc] at iv hl ⊢
    generalize hC : callCode j f.kind f.ret (n + 1) = C at *
    generalize hZ : countSpace f.ret = Z at *
    simp only [List.cons_append, List.length_cons, List.length_append] at hl
    have room := iv.room
    have small := iv.small
    obtain ⟨loc1, g1, st1, f1, a1, k1, m1, h1, s1⟩ := steps_alloc (M := p.M) (stk := ws.reverse ++ stk) (loc := loc) (g := g)
      (n := n) (size := Z) (by omega) (by omega)
    have hle : (p.reg g).Le ((p.res (sp g) Z).reg g1) := by
      refine ⟨f1.lo, fun i hi h => ?_⟩
      have hi : i < sp g := hi
      rcases h with h | h
      · exact h
      · omega
    have iv1 : Inv (p.res (sp g) Z) w s 0 g1 := by
      refine ⟨h1.trans iv.host, iv.st, ?_, ?_, ?_, ?_⟩
      · intro y hy
        have := iv.lits y hy
        rw [m1]
        exact ⟨this.1.mono hle, this.2⟩
      · intro i hi
        rw [s1]
        rcases hi with hi | hi
        · have := iv.holes i hi; omega
        · omega
      · rw [m1, s1]
        show _ + p.base ≤ _
        omega
      · rw [m1]; exact small
    have hr1 : RepAll g1.mem ((p.res (sp g) Z).reg g1) (f.params.map Prod.snd) vs ws := by
      rw [m1]; exact hr.mono (fun _ _ _ => rfl) hle
    have d0 := Does.callFn (p := p.res (sp g) Z) (d := d) (er := false) (n := n + 1) (stk := stk) (loc := loc1) hL hF hf hO hb cx iv1
      (by rw [hC, f1.len]; omega) hr1
    rw [hC] at d0
    intro hd
    refine (st1 _ _).2 ?_
    rw [wp_append]
    refine WP.mono (show WP p.M C.is (ws.reverse ++ stk) loc1 g1 _ from d0 hd) ?_
    intro r hr
    revert hd hr
    cases f.call (sem p.K.fns j) vs c s with
    | ret v s' => exact fun _ h => absurd h.1 (by decide)
    | fail c => rintro _ ⟨g', rfl, h⟩; exact ⟨g', rfl, h⟩
    | deviates => exact fun h => absurd rfl h
    | wrong => exact fun _ h => h.elim
    | val v s' =>
      rintro _ ⟨us, loc2, g2, rfl, f2, hh2, hs2, hq⟩
      rw [seqK_norm]
      have sz2 : g2.mem.size = g.mem.size := by rw [f2.size, m1]
      have len2 : loc2.length = loc.length := by rw [f2.len, f1.len]
      have sp2 : sp g2 = sp g + Z := by have := f2.lo; have := f2.hi; omega
      subst hZ
      obtain ⟨us', loc3, m3, st3, l3, k3, s3, b3, r3⟩ := copied (g0 := g) (loc := loc2) (stk := stk) (a := n) (m := n + 1 + C.ls.length) wf hq
        (by rw [f2.keep n (by omega), a1]) (by omega) (by omega) (by omega) (by omega)
      rw [← List.append_assoc, st3.wp]
      refine ⟨us', loc3, _, rfl, ⟨?_, ?_, ?_, ?_, ?_, ?_⟩, hh2, hs2, ?_⟩
      · omega
      · intro i hi
        rw [k3 i hi, f2.keep i (by omega), k1 i (by omega)]
      · intro i hi
        show m3.byte i = _
        rw [b3 i (.inl hi), f2.mem i (by omega), m1]
      · show m3.size = _
        rw [s3, sz2]
      · show sp g ≤ sp g2
        omega
      · show sp g2 ≤ _
        omega
      · have hle3 : (seg (sp g) (sp g + countSpace f.ret)).Le (p.reg (g2.setMem m3)) := by
          refine ⟨?_, fun i _ h => ?_⟩
          · show sp g + countSpace f.ret ≤ sp g2
            omega
          · exact iv.holes i h
        exact r3.mono (fun _ _ _ => rfl) hle3

theorem good_call (hC : ContractOk p.K) (hL : Linked p.K p.M) (hF : ∀ j, j < k → FnGood p.K p.M j)
    (hb : need p.K k ≤ p.base) {j : Nat} {es : Exprs} (hes : EsGood p k (sem p.K.fns k) wr es) :
    EGood p k (sem p.K.fns k) wr (.call j es) := by
  intro T er Δ Γ ρ n w c s d stk loc g ht ok
  simp only [wt] at ht
  obtain ⟨h1, hj, f, hf, h2, rfl, h3, h4⟩ := ht
  simp only [compile, hf, List.length_append] at ok
  simp only [compile, hf, eval]
  generalize hA : compileArgs p.K p.R es d Γ n = A at *
  refine hes.then h1 hA ok ?_
  intro vs s' ws loc' g' _ hfr ok' hq
  rw [sem_lt p.K.fns hj f hf]
  exact Does.callUser hL (hF j hj) hf h3 (hC.fns j f hf) (Nat.le_trans (need_le hj) hb) (ok'.cx.sub h4) ok'.inv ok'.locs (h2 ▸ hq)
end
end Gen
