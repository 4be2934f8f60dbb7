import Verif.Gen.ExprFn

/-! Code of expressions: `fold`. -/

namespace Gen
open Wasm Spec Host Core

section
variable {p : P} {k : Nat} {wr : Bool} {w : World} {d n n' al al' : Nat} {er : Bool}
  {stk bs loc loc1 : List Val} {g g1 : Store World}

theorem Post.after {α : Type} {o : Out α} {Q : α → List Val → List Val → Store World → Prop} {r : Res World}
    (hf : Fr n al loc loc1 g g1) (hn : n ≤ n') (h : Post p w d er n' al' bs loc1 g1 o Q r) :
    Post p w d er n (al + al') bs loc g o Q r := by
  cases o with
  | val a s' =>
    obtain ⟨ws, loc', g', rfl, hf', hh, hs, hq'⟩ := h
    exact ⟨ws, loc', g', rfl, hf.trans hf' hn, hh, hs, hq'⟩
  | ret v s' =>
    obtain ⟨he, ws2, junk, loc2, g2, rfl, hf2, hh2, hs2, hq2⟩ := h
    exact ⟨he, ws2, junk, loc2, g2, rfl, hf.trans hf2 hn, hh2, hs2, hq2⟩
  | fail c => exact h
  | deviates => exact h
  | wrong => exact h

/-- A round of a loop: straight-line code, then code that cannot return early, then code that goes on or
ends the loop. -/
theorem From.loop {α β : Type} {H : Nat → Prop} {pre is tail body : List Instr} {stk1 bs1 loc0 : List Val} {g0 : Store World} {o : Out α}
    {f : α → St → Out β} {Q : α → List Val → List Val → Store World → Prop} {Q2 : β → List Val → List Val → Store World → Prop}
    (hbody : body = pre ++ (is ++ tail)) (hst : Steps p.M pre [] loc g stk1 loc1 g1)
    (h1 : Does { p with H := H } w (d + 1) false n' al is stk1 bs1 loc1 g1 o Q)
    (h2 : ∀ a s' ws loc' g', o = .val a s' → Fr n' al loc1 loc' g1 g' → g'.host = Gen.put w s' →
      StOk p.K w.contract s' → Q a ws loc' g' → f a s' ≠ .deviates →
      WP p.M tail (ws.reverse ++ bs1) loc' g' (loopK p.M 0 0 body [] stk (Post p w d er n al' stk loc0 g0 (f a s') Q2))) :
    From p w d er n al' [.loop 0 0 body] stk stk loc0 g0 loc g (o.bind f) Q2 := by
  intro hd
  rw [wp_loop0]
  generalize hK : loopK p.M 0 0 body [] stk (Post p w d er n al' stk loc0 g0 (o.bind f) Q2) = K at *
  rw [hbody]
  refine (hst _ _).2 ?_
  rw [wp_append]
  refine WP.mono (show WP p.M is stk1 loc1 g1 _ from h1 (bind_ne hd)) ?_
  intro r hr
  cases o with
  | val a s' =>
    obtain ⟨ws, loc', g', rfl, hf, hh, hs, hq⟩ := hr
    rw [seqK_norm]
    subst hK
    exact h2 a s' ws loc' g' rfl hf hh hs hq hd
  | ret v s' => exact absurd hr.1 (by decide)
  | fail c =>
    obtain ⟨g', rfl, h⟩ := hr
    subst hK
    exact ⟨g', rfl, h⟩
  | deviates => exact absurd rfl hd
  | wrong => exact hr.elim

/-- The accumulator is in the locals. -/
def InLocs (p : P) (T : Ty) (q : Nat) : Value → List Val → List Val → Store World → Prop :=
  fun v ws loc g => ws = [] ∧ ∃ us, (saveLocals T q).map (loc[·]?) = us.map some ∧ Rep g.mem (p.reg g) T v us

theorem does_foldLoop {f : Fn} {T : Ty} {cc : List Instr} {cl : Nat} {c : Cx} {S : Ty} {v : Value} {vs : List Value} {a l : BitVec 32} {o q m : Nat}
    (hcc : ∀ (vs : List Value) (ws loc : List Val) (g : Store World) (s : St), Inv p w s 0 g → m + cl ≤ loc.length →
      RepAll g.mem (p.reg g) [elemTy S, T] vs ws → Does p w (d + 1) false m 0 cc (ws.reverse ++ []) [] loc g
        (f.apply (sem p.K.fns k) vs c s) (IsRep p T))
    (hS : SeqOk S) (hvs : seqElems v = some vs) (hl : l.toNat = vs.length * unit S)
    (hoq : o + 1 < q) (hqm : q + (wty T).length = m) :
    ∀ (xs : List Value) (i : Nat) (acc : Value) (s : St) (us stk loc : List Val) (g : Store World), xs ≠ [] → vs.drop i = xs →
      Inv p w s 0 g → Rep g.mem (p.reg g) S v [.i32 a, .i32 l] → loc[o]? = some (.i32 (a + BitVec.ofNat 32 (i * unit S))) →
      loc[o + 1]? = some (.i32 (a + l)) → (saveLocals T q).map (loc[·]?) = us.map some → Rep g.mem (p.reg g) T acc us →
      m + cl ≤ loc.length →
      Does p w d er o 0 (foldLoop S cc (saveLocals T q) o) stk stk loc g
        (foldElems (sem p.K.fns k) f c xs acc s) (InLocs p T q) := by
  intro xs
  induction xs with
  | nil => exact fun _ _ _ _ _ _ _ h => absurd rfl h
  | cons x xs ih =>
    intro i acc s us stk loc g _ hd iv hv ho he hus hacc hlen
    obtain ⟨vs', a', l', hvs', hmax, hw, hl', hhas⟩ := rep_seq hS.1 hv
    cases hvs.symm.trans hvs'
    cases hw
    have hi : vs[i]? = some x := by
      have := congrArg (·[0]?) hd
      simpa using this
    have hdn : vs.drop (i + 1) = xs := by rw [← List.drop_drop, hd]; rfl
    have hilt := (List.getElem?_eq_some_iff.1 hi).1
    have hsmall := iv.sp_lt
    have hhi : a.toNat + l.toNat ≤ sp g := hhas.1
    have room := iv.room
    have hmul : (i + 1) * unit S = i * unit S + unit S := Nat.succ_mul _ _
    have hle : (i + 1) * unit S ≤ vs.length * unit S := Nat.mul_le_mul_right _ (by omega)
    have ea : (a + BitVec.ofNat 32 (i * unit S)).toNat = a.toNat + i * unit S := add_toNat (by omega)
    have hrx := rep_elem hS.1 hv hsmall hvs hi
    have s1 := steps_readElem (M := p.M) (S := S) (o := o) (a := a + BitVec.ofNat 32 (i * unit S)) (stk := []) (loc := loc) (g := g)
      hS.1 ho (by rw [ea]; omega)
    have s2 := steps_getLocals (M := p.M) (s := (elemVals g.mem S (a + BitVec.ofNat 32 (i * unit S))).reverse ++ []) (g := g) hus
    have hrep : RepAll g.mem (p.reg g) [elemTy S, T] [x, acc] (elemVals g.mem S (a + BitVec.ofNat 32 (i * unit S)) ++ us) :=
      ⟨x, [acc], _, us, rfl, rfl, hrx, acc, [], us, [], rfl, by simp, hacc, rfl, rfl⟩
    have dc := hcc [x, acc] _ loc g s iv hlen hrep
    have ih := ih (i + 1)
    simp only [foldElems]
    obtain ⟨body, hbody⟩ : ∃ body, body = (readElem S o ++ getLocals (saveLocals T q)) ++ (cc ++ (saveCode T q ++
          [lget o, c32 (unit S), .b (.i32bin .add), .b (.localTee o), lget (o + 1), .b (.i32rel .ltU), .brIf 0])) := ⟨_, rfl⟩
    have hcode : foldLoop S cc (saveLocals T q) o = [.loop 0 0 body] := by
      simp only [hbody, foldLoop, saveCode, List.append_assoc]
    rw [hcode] at ih ⊢
    refine (From.loop (n' := m) (al := 0) (H := p.H) (bs1 := []) hbody (s1.append s2) (by simpa using dc) ?_).does
    rintro acc' s' us' loc2 g2 - f2 hh hs hacc' hdev
    have hacc2 : Rep g2.mem (p.reg g2) T acc' us' := hacc'
    have len2 := f2.len
    obtain ⟨loc3, st3, f3, k3, w3⟩ := saved (p := p) (T := T) (m := q) (ws := us') (stk := []) (loc := loc2) (g := g2) hacc2.len (by omega)
    refine (st3 _ _).2 ?_
    have len3 := f3.len
    have ho3 : loc3[o]? = some (.i32 (a + BitVec.ofNat 32 (i * unit S))) := by
      rw [f3.keep o (by omega), f2.keep o (by omega), ho]
    have he3 : loc3[o + 1]? = some (.i32 (a + l)) := by
      rw [f3.keep _ (by omega), f2.keep _ (by omega), he]
    obtain ⟨b1, e1⟩ := nth_some ho3
    obtain ⟨b3, e3⟩ := nth_some he3
    have ea' : a + BitVec.ofNat 32 (i * unit S) + BitVec.ofNat 32 (unit S) = a + BitVec.ofNat 32 ((i + 1) * unit S) := by
      rw [hmul, BitVec.ofNat_add, BitVec.add_assoc]
    have ea2 : (a + BitVec.ofNat 32 ((i + 1) * unit S)).toNat = a.toNat + (i + 1) * unit S := add_toNat (by omega)
    have el : (a + l).toNat = a.toNat + vs.length * unit S := by rw [BitVec.toNat_add, hl, Nat.mod_eq_of_lt (by omega)]
    obtain ⟨loc4, e4⟩ : ∃ x, x = loc3.set o (.i32 (a + BitVec.ofNat 32 ((i + 1) * unit S))) := ⟨_, rfl⟩
    have f4 : Fr o 0 loc loc4 g g2 := by
      refine (f2.weaken (n := o) (by omega) (Nat.le_refl _)).trans (n' := o) (al' := 0) (Fr.locals (by rw [e4, List.length_set, f3.len])
        fun t ht => ?_) (Nat.le_refl _)
      rw [e4, List.getElem?_set_ne (by omega), f3.keep t (by omega)]
    have w4 : (saveLocals T q).map (loc4[·]?) = us'.map some := by
      rw [← w3]
      exact List.map_congr_left fun t ht => by
        have := mem_saveLocals.1 ht
        rw [e4, List.getElem?_set_ne (by omega)]
    simp only [lget, c32]
    wpl [e1, e3, ea', ea2, el]
    rw [← e4]
    by_cases hend : i + 1 = vs.length
    · rw [hend, if_pos (by omega)]
      have hx0 : xs = [] := by rw [← hdn, hend]; exact List.drop_length ..
      subst hx0
      exact ⟨[], loc4, g2, rfl, f4, hh, hs, rfl, us', w4, hacc2⟩
    · have h1 : (i + 2) * unit S ≤ vs.length * unit S := Nat.mul_le_mul_right _ (by omega)
      have h2 : (i + 2) * unit S = (i + 1) * unit S + unit S := Nat.succ_mul _ _
      have hp := hS.pos
      rw [if_neg (by omega)]
      have hx0 : xs ≠ [] := by
        rintro rfl
        have := congrArg List.length hdn
        simp at this; omega
      show WP p.M [.loop 0 0 body] stk loc4 g2 _
      refine (ih acc' s' us' stk loc4 g2 hx0 hdn (Inv.step (al := 0) iv f2 hh hs) (hv.step f2) ?_ ?_ w4 hacc2 (by rw [f4.len]; exact hlen)
        hdev).mono fun r hr => ?_
      · rw [e4, List.getElem?_set_self (by omega)]
      · rw [e4, List.getElem?_set_ne (by omega), he3]
      · simpa using Post.after f4 (Nat.le_refl _) hr

/-- Two-armed conditional with parameters. -/
theorem Does.iteP {α : Type} {o : Out α} {Q : α → List Val → List Val → Store World → Prop} {np nr : Nat} {c : BitVec 32}
    {A B : List Instr} {us : List Val} (hx : us.length = np)
    (h : Does p w (d + 1) er n al (if c = 0#32 then B else A) us [] loc g o Q) :
    Does p w d er n al [.ite np nr A B] (.i32 c :: (us ++ bs)) bs loc g o Q := by
  intro hd
  subst hx
  rw [wp_ite, wp_block (by simp), List.take_left, List.drop_left]
  refine (h hd).mono ?_
  intro r hr
  cases o with
  | val a s' =>
    obtain ⟨ws, loc', g', rfl, hf', hh, hs, hq'⟩ := hr
    rw [blockK_norm, wp_nil]
    exact ⟨ws, loc', g', by simp, hf', hh, hs, hq'⟩
  | ret v s' =>
    obtain ⟨he, ws2, junk, loc2, g2, rfl, hf2, hh2, hs2, hq2⟩ := hr
    exact ⟨he, ws2, junk, loc2, g2, rfl, hf2, hh2, hs2, hq2⟩
  | fail c =>
    obtain ⟨g', rfl, h⟩ := hr
    exact ⟨g', rfl, h⟩
  | deviates => exact absurd rfl hd
  | wrong => exact hr.elim

theorem good_fold (hC : ContractOk p.K) (hL : Linked p.K p.M) (hF : ∀ j, j < k → FnGood p.K p.M j)
    (hb : need p.K k ≤ p.base) {f : Fn} {S : Ty} {e i : Expr} (he : EGood p k (sem p.K.fns k) wr e)
    (hi : EGood p k (sem p.K.fns k) wr i) : EGood p k (sem p.K.fns k) wr (.fold f S e i) := by
  intro T er Δ Γ ρ n w c s d stk loc g ht ok
  simp only [wt] at ht
  obtain ⟨hS, hte, hti, hT, hft⟩ := ht
  simp only [compile] at ok
  simp only [compile, eval]
  generalize hz : stackLocalSize T true true = z at *
  generalize hA : compile p.K p.R e S d Γ (n + 1) = A at *
  generalize hn1 : n + 1 + A.ls.length = n1 at *
  generalize hB : compile p.K p.R i T d Γ (n1 + 3) = B at *
  generalize hn2 : n1 + 3 + B.ls.length = n2 at *
  generalize hm : n2 + (wty T).length = m at *
  generalize hCC : fnAt p.K n f [elemTy S, T] T m = C at *
  have hlc : ∀ x, (Val.i32 x).ty = .i32 := fun _ => rfl
  simp only [List.length_append, List.length_cons, List.length_nil] at ok
  simp only [List.append_assoc]
  have hL0 := ok.locs
  have room0 := ok.inv.room
  have small0 := ok.inv.small
  obtain ⟨loc1, g1, st1, f1, a1, k1, m1, h1, s1⟩ := steps_alloc (M := p.M) (stk := stk) (loc := loc) (g := g)
    (n := n) (size := z) (by omega) (by omega)
  rw [show z + A.al + B.al = z + (A.al + (B.al + 0)) by omega] at ok ⊢
  refine Does.steps st1 f1 (Nat.le_succ n) ?_
  have ok1 : Ok p wr c w s Δ Γ ρ (n + 1) (A.al + (B.al + 0)) (A.ls.length + (3 + B.ls.length + (wty T).length +
      C.ls.length)) loc1 g1 :=
    ok.step f1 (by rw [h1, ok.inv.host]) ok.inv.st (by omega) (by omega)
  refine he.then hte hA ok1 ?_
  intro v s2 ws loc2 g2 _ hf2 ok2 hv
  obtain ⟨vs, o, l, hvs, hlen, rfl, hl, hhas⟩ := rep_seq hS.1 hv
  rw [hn1] at ok2 ⊢
  have hL2 := ok2.locs
  obtain ⟨loc3, e3⟩ : ∃ l3, l3 = ((loc2.set n1 (.i32 l)).set (n1 + 1) (.i32 o)).set (n1 + 2) (.i32 (o + l)) := ⟨_, rfl⟩
  have st3 : Steps p.M [lset n1, .b (.localTee (n1 + 1)), lget n1, .b (.i32bin .add), lset (n1 + 2)]
      ([Val.i32 o, .i32 l].reverse ++ stk) loc2 g2 stk loc3 g2 := by
    refine Steps.of_wp fun Q => ?_
    simp only [lset, lget, List.reverse_cons, List.reverse_nil, List.nil_append, List.cons_append]
    wpl
    rw [← e3]
  have hf3 : Fr n1 0 loc2 loc3 g2 g2 := Fr.locals (by rw [e3]; simp) fun j hj => by
    rw [e3, List.getElem?_set_ne (by omega), List.getElem?_set_ne (by omega), List.getElem?_set_ne (by omega)]
  have hl3 := hf3.len
  refine Does.steps0 (is := [_, _, _, _, _]) st3 hf3 (Nat.le_refl _) ?_
  have ok3 : Ok p wr c w s2 Δ Γ ρ (n1 + 3) (B.al + 0) (B.ls.length + ((wty T).length +
      C.ls.length)) loc3 g2 :=
    Ok.locals (m := 3) (ok2.weaken (Nat.le_refl _) (by omega)) hf3
  refine hi.thenAt hti hB ok3 (by omega) ?_
  intro acc s4 us loc4 g4 _ hf4 ok4 hacc
  rw [hn2] at ok4
  have hL4 := ok4.locs
  have hk4 : ∀ t, t < n1 + 3 → loc4[t]? = loc3[t]? := fun t ht => hf4.keep t ht
  have v1 : loc4[n1]? = some (.i32 l) := by
    rw [hk4 n1 (by omega), e3, List.getElem?_set_ne (by omega), List.getElem?_set_ne (by omega), List.getElem?_set_self (by omega)]
  have v2 : loc4[n1 + 1]? = some (.i32 o) := by
    rw [hk4 _ (by omega), e3, List.getElem?_set_ne (by omega), List.getElem?_set_self (by simp; omega)]
  have v3 : loc4[n1 + 2]? = some (.i32 (o + l)) := by
    rw [hk4 _ (by omega), e3, List.getElem?_set_self (by simp; omega)]
  refine Does.steps0 (is := [_, _]) (is' := [_]) (n' := n1) ((steps_get v1).cons (steps_eqz l)) Fr.refl (Nat.le_refl _) ?_
  refine Does.iteP (by simp [hacc.len]) ?_
  rw [hvs]
  dsimp only
  by_cases hemp : vs = []
  · subst hemp
    have hl0 : l = 0#32 := BitVec.eq_of_toNat_eq (by simpa using hl)
    rw [if_neg (by simp [hl0])]
    exact Does.ends (ws := us) (by simpa using Steps.refl) Fr.refl ok4.inv.host ok4.inv.st hacc
  · have hl0 : l ≠ 0#32 := by
      rintro rfl
      have h1 := hS.pos
      have h2 : 0 < vs.length := List.length_pos_iff.2 hemp
      have := Nat.mul_pos h2 h1
      rw [BitVec.toNat_ofNat, Nat.zero_mod] at hl
      exact absurd hl.symm (Nat.ne_of_gt this)
    rw [if_pos (by simp [hl0])]
    obtain ⟨loc5, st5, hf5, _, hw5⟩ := saved (p := p) (T := T) (ws := us) (loc := loc4) (g := g4)
      (stk := []) (m := n2) hacc.len (by omega)
    have hl5 := hf5.len
    refine Does.steps0 (n' := n1 + 1) (by simpa using st5) (hf5.weaken (by omega) (Nat.le_refl _)) (by omega) ?_
    have hcc : ∀ (vs : List Value) (ws loc : List Val) (g : Store World) (s : St), Inv p w s 0 g → m + C.ls.length ≤ loc.length →
        RepAll g.mem (p.reg g) [elemTy S, T] vs ws → Does p w (d + 1 + 1) false m 0 C.is (ws.reverse ++ []) [] loc g
          (f.apply (sem p.K.fns k) vs c s) (IsRep p T) := by
      intro vs ws loc g s iv hlen hr
      rw [← hCC] at hlen ⊢
      exact does_fn hC hL hF hb hft rfl hT ok4.cx iv hlen hr
    have := does_foldLoop (d := d + 1) (er := er) (o := n1 + 1) hcc hS hvs hl (by omega) hm vs 0 acc s4 us [] loc5 g4
      hemp rfl ok4.inv (hv.step hf4) (by rw [hf5.keep _ (by omega), v2]; simp) (by rw [hf5.keep _ (by omega), v3]) hw5 hacc (by omega)
    rw [← bind_val (foldElems _ _ _ _ _ _)]
    refine this.bind (al' := 0) (Nat.le_refl _) ?_
    rintro v' s6 _ loc6 g6 - hf6 hh hs ⟨rfl, us', w6, hr6⟩
    exact Does.ends (ws := us') (steps_getLocals w6) Fr.refl hh hs hr6
end
end Gen
