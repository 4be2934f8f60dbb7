import Verif.Gen.ExprFilter
import Verif.Gen.ExprMap
import Verif.Gen.ExprBuff
import Verif.Gen.ExprMem
import Verif.Gen.ExprToken
import Verif.Gen.ExprFromBuff
import Verif.Gen.ExprProof7
import Verif.Gen.ExprEq
import Verif.Gen.ExprSeq
import Verif.Gen.ExprList2

/-! All expressions, and functions. -/

namespace Gen
open Wasm Spec Host Core

/-- What the proof for the body of function `k` relies on. -/
structure Setup (p : P) (k : Nat) : Prop where
  ok : ContractOk p.K
  linked : Linked p.K p.M
  fns : ∀ j, j < k → FnGood p.K p.M j
  base : need p.K k ≤ p.base

theorem Setup.hole {p : P} {k : Nat} (h : Setup p k) (H : Nat → Prop) : Setup { p with H := H } k :=
  ⟨h.ok, h.linked, h.fns, h.base⟩

mutual
theorem good_expr {k : Nat} {wr : Bool} : ∀ (e : Expr) (p : P), Setup p k → EGood p k (sem p.K.fns k) wr e
  | .lit v, _, _ => good_lit v
  | .none_, _, _ => good_none
  | .var x, _, _ => good_var x
  | .txSender, _, h => good_txSender h.linked.host
  | .contractCaller, _, h => good_contractCaller h.linked.host
  | .prim _ es, p, h => good_prim (good_args es p h)
  | .nary _ .nil, _, _ => by
    intro T er Δ Γ ρ n w c s d stk loc g ht
    simp only [wt] at ht
    exact ht.2.2.2.elim
  | .nary _ (.cons _ e .nil), p, h => good_nary_one (good_expr e p h)
  | .nary _ (.cons _ e (.cons _ e' es)), p, h =>
    good_nary_more (good_expr e p h) (good_expr e' p h) (good_ops es p h) (good_args es p h)
  | .isEq _ .nil, _, _ => by
    intro T er Δ Γ ρ n w c s d stk loc g ht
    simp only [wt] at ht
    exact absurd rfl ht.2.2.2.2.2
  | .isEq _ (.cons _ e .nil), p, h => good_isEq_one (good_expr e p h)
  | .isEq _ (.cons _ e (.cons V e' es)), p, h => good_isEq_more (good_expr e p h) (good_eqs (.cons V e' es) p h)
  | .tuple bs, p, h => good_tuple (good_fields bs p h)
  | .let_ bs body, p, h => good_let (good_binds bs p h) (good_seq body p h)
  | .begin_ body, p, h => good_begin (good_seq body p h)
  | .ite c a b, p, h => good_ite (good_expr c p h) (good_expr a p h) (good_expr b p h)
  | .and_ es, p, h => good_and (good_br es p h)
  | .or_ es, p, h => good_or (good_br es p h)
  | .matchOpt _ e _ a b, p, h => good_matchOpt (good_expr e p h) (good_expr a p h) (good_expr b p h)
  | .matchResp _ _ e _ a _ b, p, h => good_matchResp (good_expr e p h) (good_expr a p h) (good_expr b p h)
  | .asserts c t, p, h => good_asserts (good_expr c p h) (good_expr t p h)
  | .unwrapOpt e t, p, h => good_unwrapOpt (good_expr e p h) (good_expr t p h)
  | .unwrapResp _ e t, p, h => good_unwrapResp (good_expr e p h) (good_expr t p h)
  | .unwrapErr _ e t, p, h => good_unwrapErr (good_expr e p h) (good_expr t p h)
  | .tryOpt e, p, h => good_tryOpt (good_expr e p h)
  | .tryResp _ e, p, h => good_tryResp (good_expr e p h)
  | .call _ es, p, h => good_call h.ok h.linked h.fns h.base (good_args es p h)
  | .asContract e, p, h => good_asContract h.linked.host (good_expr e p h)
  | .varGet x, _, h => good_varGet h.ok h.linked.host x
  | .varSet _ e, p, h => good_varSet h.ok h.linked.host (good_expr e p h)
  | .mapGet _ e, p, h => good_mapGet h.ok h.linked.host fun H => good_expr e { p with H := H } (h.hole H)
  | .mapSet _ e v, p, h => good_mapSet h.ok h.linked.host (fun H => good_expr e { p with H := H } (h.hole H))
      (fun H => good_expr v { p with H := H } (h.hole H))
  | .mapInsert _ e v, p, h => good_mapInsert h.ok h.linked.host (fun H => good_expr e { p with H := H } (h.hole H))
      (fun H => good_expr v { p with H := H } (h.hole H))
  | .mapDelete _ e, p, h => good_mapDelete h.ok h.linked.host fun H => good_expr e { p with H := H } (h.hole H)
  | .elementAt _ e i, p, h => good_elementAt (good_expr e p h) (good_expr i p h)
  | .slice _ e l r, p, h => good_slice (good_expr e p h) (good_expr l p h) (good_expr r p h)
  | .indexOf _ e x, p, h => good_indexOf (good_expr e p h) (good_expr x p h)
  | .list es, p, h => good_list (good_ls es p h)
  | .append e x, p, h => good_append (fun H => good_expr e { p with H := H } (h.hole H))
      (fun H => good_expr x { p with H := H } (h.hole H))
  | .concat _ a b, p, h => good_concat (fun H => good_expr a { p with H := H } (h.hole H))
      (fun H => good_expr b { p with H := H } (h.hole H))
  | .replaceAt _ e i x, p, h => good_replaceAt (fun H => good_expr e { p with H := H } (h.hole H))
      (fun H => good_expr i { p with H := H } (h.hole H)) (fun H => good_expr x { p with H := H } (h.hole H))
  | .toBuff _ e, p, h => good_toBuff (good_expr e p h)
  | .mem _ _ e, p, h => good_mem h.base (good_expr e p h)
  | .token _ es, p, h => good_token h.linked.host (good_args es p h)
  | .fromBuff _ _ e, p, h => good_fromBuff (good_expr e p h)
  | .fold _ _ e i, p, h => good_fold h.ok h.linked h.fns h.base (good_expr e p h) (good_expr i p h)
  | .filter _ e, p, h => good_filter h.ok h.linked h.fns h.base (good_expr e p h)
  | .map _ es, p, h => good_map h.ok h.linked h.fns h.base (good_ms es p h)
theorem good_ms {k : Nat} {wr : Bool} : ∀ (es : Exprs) (p : P), Setup p k → MsGood p k (sem p.K.fns k) wr es
  | .nil, _, _ => good_ms_nil
  | .cons _ e es, p, h => good_ms_cons (fun H => good_expr e { p with H := H } (h.hole H)) (good_ms es p h)
theorem good_ls {k : Nat} {wr : Bool} : ∀ (es : Exprs) (p : P), Setup p k → LsGood p k (sem p.K.fns k) wr es
  | .nil, _, _ => good_ls_nil
  | .cons _ e es, p, h => good_ls_cons (fun H => good_expr e { p with H := H } (h.hole H)) (good_ls es p h)
theorem good_args {k : Nat} {wr : Bool} : ∀ (es : Exprs) (p : P), Setup p k → EsGood p k (sem p.K.fns k) wr es
  | .nil, _, _ => good_args_nil
  | .cons _ e es, p, h => good_args_cons (good_expr e p h) (good_args es p h)
theorem good_ops {k : Nat} {wr : Bool} : ∀ (es : Exprs) (p : P), Setup p k → OpsGood p k (sem p.K.fns k) wr es
  | .nil, _, _ => good_ops_nil
  | .cons _ e es, p, h => good_ops_cons (good_expr e p h) (good_ops es p h)
theorem good_eqs {k : Nat} {wr : Bool} : ∀ (es : Exprs) (p : P), Setup p k → EqsGood p k (sem p.K.fns k) wr es
  | .nil, _, _ => good_eqs_nil
  | .cons _ e es, p, h => good_eqs_cons (good_expr e p h) (good_eqs es p h)
theorem good_br {k : Nat} {wr : Bool} : ∀ (es : Exprs) (p : P), Setup p k → BrGood p k (sem p.K.fns k) wr es
  | .nil, _, _ => good_br_nil
  | .cons _ e es, p, h => good_br_cons (good_expr e p h) (good_br es p h)
theorem good_seq {k : Nat} {wr : Bool} : ∀ (es : Exprs) (p : P), Setup p k → SeqGood p k (sem p.K.fns k) wr es
  | .nil, _, _ => by
    intro T er Δ Γ ρ n w c s d stk loc g ht
    simp only [wtSeq] at ht
  | .cons _ e .nil, p, h => good_seq_one (good_expr e p h)
  | .cons _ e (.cons T e' es), p, h => good_seq_cons (good_expr e p h) (good_seq (.cons T e' es) p h)
theorem good_binds {k : Nat} {wr : Bool} : ∀ (bs : Binds) (p : P), Setup p k → BsGood p k (sem p.K.fns k) wr bs
  | .nil, _, _ => good_binds_nil
  | .cons _ _ e bs, p, h => good_binds_cons (good_expr e p h) (good_binds bs p h)
theorem good_fields {k : Nat} {wr : Bool} : ∀ (bs : Binds) (p : P), Setup p k → FsGood p k (sem p.K.fns k) wr bs
  | .nil, _, _ => good_fields_nil
  | .cons _ _ e bs, p, h => good_fields_cons (good_expr e p h) (good_fields bs p h)
end

/-- The parameters are in the first locals. -/
theorem env_params {m : Mem} {b : Reg} {N : Nat} : ∀ {ps : List (Name × Ty)} {vs : List Value} {ws pre post : List Val}
    {Δ : TEnv} {Γ : Scope} {ρ : Env}, RepAll m b (ps.map Prod.snd) vs ws →
    pre.length + ws.length ≤ N → EnvRep m b Δ Γ ρ (pre ++ (ws ++ post)) N →
    EnvRep m b (ps.reverse ++ Δ) (paramScope ps pre.length ++ Γ) (((ps.map Prod.fst).zip vs).reverse ++ ρ)
      (pre ++ (ws ++ post)) N
  | [], _, _, _, _, _, _, _, _, _, h => by simpa [paramScope] using h
  | (x, T) :: ps, _, _, pre, post, Δ, Γ, ρ, hr, hl, h => by
    obtain ⟨v, r, us, rs, rfl, rfl, h1, h2⟩ := hr
    have hus : us.length = (wty T).length := h1.len
    simp only [List.length_append] at hl
    have hl' : ∀ l ∈ List.range' pre.length (wty T).length, l < N := by
      intro l hl'; rw [List.mem_range'_1] at hl'; omega
    have hw : (List.range' pre.length (wty T).length).map ((pre ++ ((us ++ rs) ++ post))[·]?) = us.map some := by
      rw [← hus]
      apply List.ext_getElem?
      intro i
      simp only [List.getElem?_map, List.getElem?_range']
      by_cases hi : i < us.length
      · simp [hi, List.getElem?_append_right, List.getElem?_append_left]
      · simp [hi]
    have h3 := h.cons (x := x) hl' hw h1
    have e : pre ++ ((us ++ rs) ++ post) = (pre ++ us) ++ (rs ++ post) := by simp
    rw [e] at h3 ⊢
    have h4 := env_params (pre := pre ++ us) (ps := ps) h2 (by simp; omega) h3
    simp only [paramScope, List.reverse_cons, List.append_assoc, List.map_cons, List.zip_cons_cons, List.singleton_append,
      List.cons_append, List.nil_append]
    simp only [List.length_append, hus, List.append_assoc, List.cons_append, List.nil_append] at h4
    exact h4

theorem good_fn {K : Ctx} {M : Wasm.Mod World} (hC : ContractOk K) (hL : Linked K M) (j : Nat) : FnGood K M j := by
  induction j using Nat.strongRecOn with
  | ind j ih =>
  intro f hf H vs ws c w s g cx iv hr hd
  obtain ⟨hwt, -, -, -⟩ := hC.fns j f hf
  let p : P := ⟨K, M, need K j, f.ret, H⟩
  have hS : Setup p j := ⟨hC, hL, ih, Nat.le_refl _⟩
  rw [call_user (hL.user j f hf)]
  have hlen : ws.length = (f.params.flatMap fun q => wty q.2).length := by
    have := congrArg List.length hr.ty
    simp only [List.length_map] at this
    rw [this]
    simp only [List.flatMap_map]
  generalize hA : compile K f.ret f.body f.ret 0 (paramScope f.params 0) (ws.length + 1) = A at *
  have hcf : compileFn K f = (⟨f.params.flatMap fun q => wty q.2, wty f.ret, .i32 :: A.ls,
    [.b (.global32Get .stackPointer), lset ws.length, .block 0 (wty f.ret).length A.is,
      lget ws.length, .b (.global32Set .stackPointer)]⟩, A.al) := by
    simp only [compileFn, ← hlen, hA]
  rw [hcf] at iv ⊢
  show WP M _ [] (ws ++ (.i32 0#32 :: A.ls.map VT.zero)) g _
  have hroom : sp g + A.al + need K j ≤ g.mem.size := iv.room
  -- the stack pointer is saved
  have s1 : Steps M [.b (.global32Get .stackPointer)] [] (ws ++ (.i32 0#32 :: A.ls.map VT.zero)) g
      [.i32 (g.g32 .stackPointer)] (ws ++ (.i32 0#32 :: A.ls.map VT.zero)) g := Steps.b rfl
  have s2 := s1.append (steps_set (n := ws.length) (v := .i32 (g.g32 .stackPointer)) (s := [])
    (l := ws ++ (.i32 0#32 :: A.ls.map VT.zero)) (g := g) (by simp))
  have e2 : (ws ++ (.i32 0#32 :: A.ls.map VT.zero)).set ws.length (.i32 (g.g32 .stackPointer)) =
      ws ++ (.i32 (g.g32 .stackPointer) :: A.ls.map VT.zero) := by
    rw [List.set_append_right _ _ (Nat.le_refl _), Nat.sub_self]; rfl
  rw [e2] at s2
  show WP M ([_, lset ws.length] ++ [.block 0 (wty f.ret).length A.is,
      lget ws.length, .b (.global32Set .stackPointer)]) _ _ g _
  rw [show ∀ r Q, WP M ([.b (.global32Get .stackPointer), lset ws.length] ++ r) [] _ g Q ↔ _ from s2]
  -- the body
  have env : EnvRep g.mem (p.reg g) f.params.reverse (paramScope f.params 0) ((f.params.map Prod.fst).zip vs).reverse
      (ws ++ (.i32 (g.g32 .stackPointer) :: A.ls.map VT.zero)) (ws.length + 1) := by
    have := env_params (m := g.mem) (b := p.reg g) (N := ws.length + 1) (ps := f.params) (pre := [])
      (post := .i32 (g.g32 .stackPointer) :: A.ls.map VT.zero) (Δ := []) (Γ := []) (ρ := []) hr
      (by simp) (by intro x D h; simp [look] at h)
    simpa using this
  have ok : Ok p f.writes c w s f.params.reverse (paramScope f.params 0) ((f.params.map Prod.fst).zip vs).reverse
      (ws.length + 1) A.al A.ls.length (ws ++ (.i32 (g.g32 .stackPointer) :: A.ls.map VT.zero)) g :=
    ⟨cx, iv, env, by simp; omega⟩
  have hb := good_expr f.body p hS f.ret true _ _ _ (ws.length + 1) w c s 0 [] _ g hwt (by
    show Ok p f.writes c w s _ _ _ _ (compile K f.ret f.body f.ret 0 _ _).al (compile K f.ret f.body f.ret 0 _ _).ls.length _ g
    rw [hA]; exact ok)
  rw [show compile p.K p.R f.body f.ret 0 (paramScope f.params 0) (ws.length + 1) = A from hA] at hb
  rw [wp_block0]
  -- what follows
  have tail : ∀ (us : List Val) loc' g' v s', us.length = (wty f.ret).length →
      Fr (ws.length + 1) A.al (ws ++ (.i32 (g.g32 .stackPointer) :: A.ls.map VT.zero)) loc' g g' →
      g'.host = Gen.put w s' → StOk K w.contract s' → Rep g'.mem (p.reg g') f.ret v us →
      WP M [lget ws.length, .b (.global32Set .stackPointer)] us.reverse loc' g' fun r =>
        FPost K f.ret w H g (.val v s') (r.toCall (wty f.ret).length) := by
    intro us loc' g' v s' hu hfr hh hs hq
    have hget : loc'[ws.length]? = some (.i32 (g.g32 .stackPointer)) := by
      rw [hfr.keep _ (by omega)]; simp
    have s3 : Steps M ([lget ws.length] ++ [.b (.global32Set .stackPointer)]) us.reverse loc' g' us.reverse loc'
        (g'.set32 .stackPointer (g.g32 .stackPointer)) := (steps_get hget).append (Steps.b rfl)
    rw [show [lget ws.length, .b (.global32Set .stackPointer)] = [lget ws.length] ++ [.b (.global32Set .stackPointer)] from rfl,
      s3.wp]
    refine ⟨us, g'.set32 .stackPointer (g.g32 .stackPointer), sp g', ?_, ?_, hfr.mem, hfr.size, hh, hs, hfr.lo, ?_, hq⟩
    · simp only [Res.toCall]
      rw [List.take_of_length_le (by simp [hu]), List.reverse_reverse]
    · simp [sp, Store.set32]
    · have := hfr.hi; have := hroom; omega
  simp only [FunDef.run] at hd ⊢
  refine (hb (fun e => hd (by rw [e]; rfl))).mono ?_
  intro r hr'
  revert hr' hd
  show _ ≠ _ → _
  cases eval (sem p.K.fns j) f.body ((f.params.map Prod.fst).zip vs).reverse c s with
  | val v s' =>
    rintro _ ⟨us, loc', g', rfl, hfr, hh, hs, hq⟩
    rw [blockK_norm, List.append_nil, List.append_nil]
    exact tail us loc' g' v s' (Rep.len hq) hfr hh hs hq
  | ret v s' =>
    rintro _ ⟨-, us, junk, loc', g', rfl, hfr, hh, hs, hq⟩
    rw [blockK_br0, List.append_nil]
    rw [List.take_append_of_le_length (by simp; exact Nat.le_of_eq (Rep.len hq).symm), List.take_of_length_le (by simp; exact Nat.le_of_eq (Rep.len hq))]
    exact tail us loc' g' v s' (Rep.len hq) hfr hh hs hq
  | fail c =>
    rintro _ ⟨g', rfl, h⟩
    exact ⟨g', rfl, h⟩
  | deviates => exact fun h => absurd rfl h
  | wrong => exact fun _ h => h.elim

end Gen
