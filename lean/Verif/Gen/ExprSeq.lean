import Verif.Gen.ExprProof4
import Verif.Gen.EqualProof
import Verif.Gen.SeqProof

/-! Code of expressions: `element-at?`, `slice?`, `index-of?`. -/

namespace Gen
open Wasm Spec Host Core
open Classical

section
variable {p : P} {k : Nat} {call : FSem} {wr : Bool} {w : World} {d n al : Nat} {er : Bool}
  {stk bs loc loc' : List Val} {g : Store World}

/-- A conditional whose branches take and leave values. -/
theorem steps_ite {σ : Type} {M : Wasm.Mod σ} {np nr : Nat} {A B : List Instr} {c : BitVec 32}
    {xs rs stk loc loc' : List Val} {g g' : Store σ} (hx : xs.length = np)
    (h : Steps M (if c = 0#32 then B else A) xs loc g rs loc' g') :
    Steps M [.ite np nr A B] (.i32 c :: (xs ++ stk)) loc g (rs ++ stk) loc' g' := by
  apply Steps.of_wp
  intro Q
  subst hx
  rw [wp_ite, wp_block (by simp), List.take_left, List.drop_left, h.wp, blockK_norm, wp_nil]

/-- First the code of an expression, then the rest, which may change locals that were requested before. -/
theorem EGood.thenAt {β : Type} {e : Expr} {T : Ty} {Δ : TEnv} {Γ : Scope} {ρ : Env} {c : Cx} {s : St}
    {A : Blk} {al' ll' n0 : Nat} {is' : List Instr} {bs2 : List Val} {f : Value → St → Out β}
    {Q2 : β → List Val → List Val → Store World → Prop}
    (he : EGood p k call wr e) (ht : wt p.K k wr p.R e er Δ T) (hA : compile p.K p.R e T d Γ n = A)
    (ok : Ok p wr c w s Δ Γ ρ n (A.al + al') (A.ls.length + ll') loc g) (hn : n0 ≤ n)
    (next : ∀ v s' ws loc' g', eval call e ρ c s = .val v s' → Fr n A.al loc loc' g g' →
      Ok p wr c w s' Δ Γ ρ (n + A.ls.length) al' ll' loc' g' → Rep g'.mem (p.reg g') T v ws →
      Does p w d er n0 al' is' (ws.reverse ++ stk) bs2 loc' g' (f v s') Q2) :
    Does p w d er n0 (A.al + al') (A.is ++ is') stk bs2 loc g ((eval call e ρ c s).bind f) Q2 := by
  have h0 := he T er Δ Γ ρ n w c s d stk loc g ht (by rw [hA]; exact ok.weaken (by omega) (by omega))
  rw [hA] at h0
  have h1 : Does p w d er n0 A.al A.is stk stk loc g (eval call e ρ c s)
      (fun v ws loc' g' => Fr n A.al loc loc' g g' ∧ IsRep p T v ws loc' g') := by
    have := Does.steps0 (Steps.refl (M := p.M)) (Fr.refl (n := n0)) hn
      (h0.mono (Nat.le_refl _) (Q' := fun v ws loc' g' => Fr n A.al loc loc' g g' ∧ IsRep p T v ws loc' g')
        fun _ _ _ _ _ _ h1 h => ⟨h1, h⟩)
    exact this
  refine Does.bind h1 (Nat.le_refl n0) ?_
  rintro v s' ws loc' g' hv _ hh hs ⟨hf, hq⟩
  exact next v s' ws loc' g' hv hf (ok.step hf hh hs (Nat.le_add_right _ _) (by omega)) hq

/-- Offsets of elements, in 64 bits. -/
theorem scaled {n u : Nat} (hn : n ≤ 2 ^ 20) (hu : u < 2 ^ 32) :
    (BitVec.ofNat 64 n * BitVec.ofNat 64 u).toNat = n * u := by
  have : n * u ≤ 2 ^ 20 * 2 ^ 32 := Nat.mul_le_mul hn (by omega)
  rw [BitVec.toNat_mul, BitVec.toNat_ofNat, BitVec.toNat_ofNat, Nat.mod_eq_of_lt (by omega : n < 2 ^ 64),
    Nat.mod_eq_of_lt (by omega : u < 2 ^ 64), Nat.mod_eq_of_lt (by omega)]

theorem ext_toNat (l : BitVec 32) : (l.setWidth 64).toNat = l.toNat := by
  rw [BitVec.toNat_setWidth]; have := l.isLt; omega

/-- The test for an index out of range. -/
theorem out_of_range {len u n M : Nat} {l : BitVec 32} (hl : l.toNat = len * u) (hM : len ≤ M) (hM' : M ≤ 2 ^ 20)
    (hu : 0 < u) (hu' : u < 2 ^ 32) :
    ((l.setWidth 64).toNat ≤ (BitVec.ofNat 64 n * BitVec.ofNat 64 u).toNat ∨ 2 ^ 20 < n) ↔ len ≤ n := by
  rw [ext_toNat, hl]
  by_cases hn : n ≤ 2 ^ 20
  · rw [scaled hn hu', Nat.mul_le_mul_right_iff hu]; omega
  · constructor
    · intro _; omega
    · intro _; exact .inr (by omega)

theorem wrap_scaled {n u : Nat} : (BitVec.ofNat 64 n * BitVec.ofNat 64 u).setWidth 32 = BitVec.ofNat 32 (n * u) := by
  apply BitVec.eq_of_toNat_eq
  rw [BitVec.toNat_setWidth, BitVec.toNat_mul, BitVec.toNat_ofNat, BitVec.toNat_ofNat, BitVec.toNat_ofNat,
    ← Nat.mul_mod]
  exact Nat.mod_mod_of_dvd _ (by decide)

theorem good_elementAt {S : Ty} {e i : Expr} (he : EGood p k call wr e) (hi : EGood p k call wr i) :
    EGood p k call wr (.elementAt S e i) := by
  intro T er Δ Γ ρ n w c s d stk loc g ht ok
  simp only [wt] at ht
  obtain ⟨hS, rfl, hte, hti⟩ := ht
  simp only [compile, List.length_append, Nat.add_assoc] at ok
  simp only [compile, eval, List.append_assoc, Nat.add_assoc]
  generalize hA : compile p.K p.R e S d Γ n = A at *
  generalize hB : compile p.K p.R i .uint d Γ (n + A.ls.length) = B at *
  refine he.then hte hA ok ?_
  intro v s1 ws loc1 g1 _ hf1 ok1 hv
  obtain ⟨vs, o, l, hvs, hlen, rfl, hl, hhas⟩ := rep_seq hS.1 hv
  refine Does.steps0 (is := [.b .i64extU]) (stk1 := .i64 (l.setWidth 64) :: .i32 o :: stk) (Steps.b rfl) Fr.refl (Nat.le_refl _) ?_
  generalize hM : elementAtCode S (n + (A.ls.length + B.ls.length)) = M at *
  rw [← Nat.add_zero B.al] at ok1 ⊢
  refine hi.then hti hB ok1 ?_
  intro u s2 us loc2 g2 _ hf2 ok2 hu
  simp only [Rep] at hu
  obtain ⟨i, rfl, hi', rfl⟩ := hu
  have hv2 := hv.step hf2
  simp only [Nat.add_assoc] at ok2 ⊢
  have hL := ok2.locs
  simp only [List.length_cons, List.length_nil] at hL
  generalize hq : n + (A.ls.length + B.ls.length) = q at *
  subst hM
  obtain ⟨loc3, h3, l3, k3, ov3, ix3⟩ := steps_index (M := p.M) (S := S) (ov := q) (ix := q + 1) (n := i)
    (stk := .i64 (l.setWidth 64) :: .i32 o :: stk) (loc := loc2) (g := g2) hS.1 hi' (by omega) (by omega) (by omega)
  unfold elementAtCode
  have hf3 : Fr q 0 loc2 loc3 g2 g2 := Fr.locals l3 fun j hj => k3 j (by omega) (by omega)
  refine Does.steps0 h3 hf3 (Nat.le_refl _) ?_
  have hsp := ok2.inv.sp_lt
  have hroom := ok2.inv.room
  obtain ⟨b1, e1⟩ := nth_some ov3
  obtain ⟨b2, e2⟩ := nth_some ix3
  have hr := out_of_range (n := i) hl hlen hS.2.2.1 hS.pos hS.2.2.2
  have h4 : Steps p.M [.b (.i64rel .leU), .b (.localGet q), .b (.i32bin .or)]
      (.i64 (BitVec.ofNat 64 i * BitVec.ofNat 64 (unit S)) :: .i64 (l.setWidth 64) :: .i32 o :: stk) loc3 g2
      (.i32 (b32 (vs.length ≤ i)) :: .i32 o :: stk) loc3 g2 := by
    refine Steps.of_wp fun Q => ?_
    wpl [e1]
    rw [show b32 ((l.setWidth 64).toNat ≤ (BitVec.ofNat 64 i * BitVec.ofNat 64 (unit S)).toNat ∨ 2 ^ 20 < i) =
      b32 (vs.length ≤ i) from if_congr hr rfl rfl]
  refine Does.steps0 (is := [_, _, _]) h4 Fr.refl (Nat.le_refl _) ?_
  simp only [Core.elementAt, hvs, Ans.out]
  by_cases hlt : vs.length ≤ i
  · rw [List.getElem?_eq_none hlt]
    refine Does.ends (ws := .i32 0#32 :: (wty (elemTy S)).map VT.zero) (g1 := g2) (loc1 := loc3)
      (steps_ite (xs := [.i32 o]) (rs := (Val.i32 0#32 :: (wty (elemTy S)).map VT.zero).reverse) rfl ?_)
      Fr.refl ok2.inv.host ok2.inv.st (rep_none (zeros_ty _))
    rw [if_neg (by simp [b32, hlt])]
    refine Steps.cons (s1 := []) (Steps.b rfl) (Steps.cons steps_const ?_)
    have := steps_placeholder (M := p.M) (s := [.i32 0#32]) (l := loc3) (g := g2) (elemTy S)
    simpa using this
  · obtain ⟨x, hx⟩ : ∃ x, vs[i]? = some x := ⟨_, List.getElem?_eq_getElem (by omega)⟩
    rw [hx]
    obtain ⟨loc4, e4⟩ : ∃ l4, l4 = loc3.set (q + 2) (.i32 (o + BitVec.ofNat 32 (i * unit S))) := ⟨_, rfl⟩
    have hin : (i + 1) * unit S ≤ vs.length * unit S := Nat.mul_le_mul_right _ (by omega)
    have hsz : (o + BitVec.ofNat 32 (i * unit S)).toNat + unit S ≤ g2.mem.size := by
      have h1 := hhas.1
      have h2 : (p.reg g1).hi ≤ sp g2 := hf2.lo
      rw [Nat.add_mul] at hin
      rw [add_toNat (by omega)]
      omega
    refine Does.ends (ws := .i32 1#32 :: elemVals g2.mem S (o + BitVec.ofNat 32 (i * unit S))) (g1 := g2) (loc1 := loc4)
      (steps_ite (xs := [.i32 o]) (rs := (Val.i32 1#32 :: elemVals g2.mem S (o + BitVec.ofNat 32 (i * unit S))).reverse) rfl ?_)
      ?_ ok2.inv.host ok2.inv.st (rep_some (rep_elem hS.1 hv2 hsp hvs hx))
    · rw [if_pos (by simp [b32, hlt])]
      refine Steps.append (s1 := [.i32 1#32]) (l1 := loc4) (g1 := g2) (Steps.of_wp fun Q => ?_) ?_
      · wpl [e2]
        rw [wrap_scaled, ← e4]
      · have := steps_readElem (M := p.M) (S := S) (o := q + 2) (stk := [.i32 1#32]) (loc := loc4) (g := g2) hS.1
          (a := o + BitVec.ofNat 32 (i * unit S)) (by rw [e4, List.getElem?_set_self (by omega)]) hsz
        simpa using this
    · exact Fr.locals (by rw [e4]; simp) fun j hj => by rw [e4, List.getElem?_set_ne (by omega)]

/-- The test of `slice?`. -/
theorem slice_range {len u l r M : Nat} {o x : BitVec 32} (hl : x.toNat = len * u) (hM : len ≤ M) (hM' : M ≤ 2 ^ 20)
    (hu : 0 < u) (hu' : u < 2 ^ 32) (ho : o.toNat + x.toNat < 2 ^ 32) (hlt : l < 2 ^ 32) (hr : r ≤ len) :
    ((o.setWidth 64 + BitVec.ofNat 64 r * BitVec.ofNat 64 u).toNat <
      (o.setWidth 64 + BitVec.ofNat 64 l * BitVec.ofNat 64 u).toNat ↔ r < l) ∧
    (l ≤ r → (o.setWidth 64 + BitVec.ofNat 64 l * BitVec.ofNat 64 u).setWidth 32 = o + BitVec.ofNat 32 (l * u) ∧
      (o.setWidth 64 + BitVec.ofNat 64 r * BitVec.ofNat 64 u - (o.setWidth 64 + BitVec.ofNat 64 l * BitVec.ofNat 64 u)).setWidth 32 =
        BitVec.ofNat 32 ((r - l) * u)) := by
  have hol := o.isLt
  have h1 : l * u ≤ (2 ^ 32 - 1) * (2 ^ 32 - 1) := Nat.mul_le_mul (by omega) (by omega)
  have h2 : r * u ≤ len * u := Nat.mul_le_mul_right _ hr
  have e1 : (BitVec.ofNat 64 l * BitVec.ofNat 64 u).toNat = l * u := by
    rw [BitVec.toNat_mul, BitVec.toNat_ofNat, BitVec.toNat_ofNat, Nat.mod_eq_of_lt (by omega : l < 2 ^ 64),
      Nat.mod_eq_of_lt (by omega : u < 2 ^ 64), Nat.mod_eq_of_lt (by omega)]
  have e2 := scaled (n := r) (u := u) (by omega) hu'
  have e3 : (o.setWidth 64 + BitVec.ofNat 64 l * BitVec.ofNat 64 u).toNat = o.toNat + l * u := by
    rw [BitVec.toNat_add, ext_toNat, e1, Nat.mod_eq_of_lt (by omega)]
  have e4 : (o.setWidth 64 + BitVec.ofNat 64 r * BitVec.ofNat 64 u).toNat = o.toNat + r * u := by
    rw [BitVec.toNat_add, ext_toNat, e2, Nat.mod_eq_of_lt (by omega)]
  refine ⟨?_, fun h => ⟨?_, ?_⟩⟩
  · rw [e3, e4, Nat.add_lt_add_iff_left, Nat.mul_lt_mul_right hu]
  · apply BitVec.eq_of_toNat_eq
    rw [BitVec.toNat_setWidth, e3, BitVec.toNat_add, BitVec.toNat_ofNat]; omega
  · have h3 : l * u ≤ r * u := Nat.mul_le_mul_right _ h
    apply BitVec.eq_of_toNat_eq
    rw [BitVec.toNat_setWidth, BitVec.toNat_sub, e3, e4, BitVec.toNat_ofNat, Nat.sub_mul]; omega

theorem good_slice {S : Ty} {e l r : Expr} (he : EGood p k call wr e) (hl : EGood p k call wr l)
    (hr : EGood p k call wr r) : EGood p k call wr (.slice S e l r) := by
  intro T er Δ Γ ρ n w c s d stk loc g ht ok
  simp only [wt] at ht
  obtain ⟨hS, rfl, hte, htl, htr⟩ := ht
  simp only [compile, List.length_append, Nat.add_assoc] at ok
  simp only [compile, eval, List.append_assoc, Nat.add_assoc]
  generalize hA : compile p.K p.R e S d Γ n = A at *
  generalize hB : compile p.K p.R l .uint d Γ (n + (A.ls.length + 4)) = B at *
  generalize hC : compile p.K p.R r .uint d Γ (n + (A.ls.length + (4 + B.ls.length))) = C at *
  generalize hMl : sliceLeft S (n + A.ls.length) = Ml at *
  generalize hMr : sliceRight S (n + A.ls.length) (n + (A.ls.length + (4 + (B.ls.length + C.ls.length)))) = Mr at *
  refine he.then hte hA ok ?_
  intro v s1 ws loc1 g1 _ hf1 ok1 hv
  obtain ⟨vs, o, x, hvs, hlen, rfl, hx, hhas⟩ := rep_seq hS.1 hv
  simp only [List.length_cons, List.length_nil, Nat.zero_add, Nat.reduceAdd] at ok1
  have hL1 := ok1.locs
  generalize hq : n + A.ls.length = q at *
  rw [show n + (A.ls.length + 4) = q + 4 by omega] at *
  rw [show n + (A.ls.length + (4 + B.ls.length)) = q + 4 + B.ls.length by omega] at *
  rw [show n + (A.ls.length + (4 + (B.ls.length + C.ls.length))) = q + 4 + B.ls.length + C.ls.length by omega] at *
  obtain ⟨loc2, e2⟩ : ∃ l2, l2 = loc1.set q (.i64 (x.setWidth 64)) := ⟨_, rfl⟩
  have st2 : Steps p.M [.b .i64extU, .b (.localTee q)] ([Val.i32 o, .i32 x].reverse ++ stk) loc1 g1
      (.i64 (x.setWidth 64) :: .i32 o :: stk) loc2 g1 := by
    refine Steps.of_wp fun Q => ?_
    simp only [List.reverse_cons, List.reverse_nil, List.nil_append, List.cons_append]
    wpl
    rw [← e2]
  have hf2 : Fr q 0 loc1 loc2 g1 g1 := Fr.locals (by rw [e2]; simp) fun j hj => by rw [e2, List.getElem?_set_ne (by omega)]
  refine Does.steps0 st2 hf2 (Nat.le_refl _) ?_
  have ok2 : Ok p wr c w s1 Δ Γ ρ (q + 4) (B.al + C.al) (B.ls.length + (C.ls.length + 2)) loc2 g1 :=
    Ok.locals (m := 4) ok1 hf2
  refine hl.thenAt htl hB ok2 (by omega) ?_
  intro u s2 us loc3 g2 _ hf3 ok3 hu
  simp only [Rep] at hu
  obtain ⟨i, rfl, hi, rfl⟩ := hu
  have hL3 := ok3.locs
  have lx : loc3[q]? = some (.i64 (x.setWidth 64)) := by
    rw [hf3.keep q (by omega), e2, List.getElem?_set_self (by omega)]
  -- the left end
  obtain ⟨loc4, st4, l4, k4, ov4, ix4⟩ := steps_index (M := p.M) (S := S) (ov := q + 1) (ix := q + 2) (n := i)
    (stk := .i64 (x.setWidth 64) :: .i32 o :: stk) (loc := loc3) (g := g2) hS.1 hi (by omega) (by omega) (by omega)
  have lx4 : loc4[q]? = some (.i64 (x.setWidth 64)) := by rw [k4 q (by omega) (by omega), lx]
  obtain ⟨L, hL⟩ : ∃ L, L = o.setWidth 64 + BitVec.ofNat 64 i * BitVec.ofNat 64 (unit S) := ⟨_, rfl⟩
  have left : ∃ loc5, Steps p.M Ml ((encU i).reverse ++ .i64 (x.setWidth 64) :: .i32 o :: stk) loc3 g2
      (.i64 (x.setWidth 64) :: stk) loc5 g2 ∧ loc5.length = loc3.length ∧ (∀ j, j ≤ q ∨ q + 4 ≤ j → loc5[j]? = loc3[j]?) ∧
      loc5[q + 2]? = some (.i64 L) ∧ loc5[q + 3]? = some (.i64 (o.setWidth 64)) := by
    obtain ⟨b0, e0⟩ := nth_some lx4
    obtain ⟨b1, e1⟩ := nth_some ov4
    obtain ⟨b2, e2⟩ := nth_some ix4
    refine ⟨((loc4.set (q + 1) (.i32 (b32 ((x.setWidth 64).toNat ≤
      (BitVec.ofNat 64 i * BitVec.ofNat 64 (unit S)).toNat ∨ 2 ^ 20 < i)))).set (q + 3) (.i64 (o.setWidth 64))).set (q + 2)
      (.i64 L), ?_, ?_, ?_, ?_, ?_⟩
    · rw [← hMl]
      unfold sliceLeft
      refine st4.append (Steps.of_wp fun Q => ?_)
      wpl [e0, e1, e2]
      rw [← hL]
    · simp [l4]
    · intro j hj
      rw [List.getElem?_set_ne (by omega), List.getElem?_set_ne (by omega), List.getElem?_set_ne (by omega),
        k4 j (by omega) (by omega)]
    · rw [List.getElem?_set_self (by simp; omega)]
    · rw [List.getElem?_set_ne (by omega), List.getElem?_set_self (by simp; omega)]
  obtain ⟨loc5, st5, l5, k5, lL, lo⟩ := left
  refine Does.steps0 st5 (Fr.locals l5 fun j hj => k5 j (by omega)) (Nat.le_refl _) ?_
  have ok5 : Ok p wr c w s2 Δ Γ ρ (q + 4 + B.ls.length) (C.al + 0) (C.ls.length + 2) loc5 g2 := by
    refine ⟨ok3.cx, ok3.inv, ?_, by rw [l5]; exact ok3.locs⟩
    have := (ok1.env.step (hf2.trans (hf3.weaken (n := q) (by omega) (Nat.le_refl _)) (Nat.le_refl _)) (Nat.le_refl _)).step
      (Fr.locals (al := 0) l5 fun j hj => k5 j (by omega)) (n' := q + 4 + B.ls.length) (by omega)
    exact this
  rw [← Nat.add_zero C.al]
  refine hr.thenAt htr hC ok5 (by omega) ?_
  intro u s3 us loc6 g3 _ hf6 ok6 hu
  simp only [Rep] at hu
  obtain ⟨j, rfl, hj, rfl⟩ := hu
  have hL6 := ok6.locs
  have lL6 : loc6[q + 2]? = some (.i64 L) := by rw [hf6.keep _ (by omega), lL]
  have lo6 : loc6[q + 3]? = some (.i64 (o.setWidth 64)) := by rw [hf6.keep _ (by omega), lo]
  generalize hm : q + 4 + B.ls.length + C.ls.length = m at *
  obtain ⟨loc7, st7, l7, k7, ov7, ix7⟩ := steps_index (M := p.M) (S := S) (ov := m) (ix := m + 1) (n := j)
    (stk := .i64 (x.setWidth 64) :: stk) (loc := loc6) (g := g3) hS.1 hj (by omega) (by omega) (by omega)
  obtain ⟨b0, e0⟩ := nth_some ov7
  obtain ⟨b1, e1⟩ := nth_some ix7
  obtain ⟨b2, e2⟩ := nth_some ((k7 (q + 2) (by omega) (by omega)).trans lL6)
  obtain ⟨b3, e3⟩ := nth_some ((k7 (q + 3) (by omega) (by omega)).trans lo6)
  obtain ⟨R, hR⟩ : ∃ R, R = o.setWidth 64 + BitVec.ofNat 64 j * BitVec.ofNat 64 (unit S) := ⟨_, rfl⟩
  have hrange : ((x.setWidth 64).toNat < (BitVec.ofNat 64 j * BitVec.ofNat 64 (unit S)).toNat ∨ 2 ^ 20 < j) ↔ vs.length < j := by
    rw [ext_toNat, hx]
    have hM := hS.2.2.1
    by_cases hj : j ≤ 2 ^ 20
    · rw [scaled hj hS.2.2.2, Nat.mul_lt_mul_right hS.pos]; omega
    · constructor
      · intro _; omega
      · intro _; exact .inr (by omega)
  have right : ∃ loc8, Steps p.M Mr ((encU j).reverse ++ .i64 (x.setWidth 64) :: stk) loc6 g3
      ([.i32 (if vs.length < j ∨ R.toNat < L.toNat then 0#32 else 1#32), .i32 (L.setWidth 32), .i32 ((R - L).setWidth 32)].reverse ++ stk) loc8 g3 ∧
      Fr m 0 loc6 loc8 g3 g3 := by
    refine ⟨((loc7.set m (.i32 (b32 ((x.setWidth 64).toNat < (BitVec.ofNat 64 j * BitVec.ofNat 64 (unit S)).toNat ∨ 2 ^ 20 < j)))).set (m + 1)
      (.i64 R)).set m (.i32 (b32 (R.toNat < L.toNat ∨ (x.setWidth 64).toNat < (BitVec.ofNat 64 j * BitVec.ofNat 64 (unit S)).toNat ∨ 2 ^ 20 < j))), ?_, ?_⟩
    · rw [← hMr]
      unfold sliceRight
      refine st7.append (Steps.of_wp fun Q => ?_)
      wpl [e0, e1, e2, e3]
      rw [← hR]
      have hif : ∀ a b : BitVec 32, (if ¬(R.toNat < L.toNat ∨ (x.setWidth 64).toNat < (BitVec.ofNat 64 j * BitVec.ofNat 64 (unit S)).toNat ∨ 2 ^ 20 < j)
          then a else b) = if vs.length < j ∨ R.toNat < L.toNat then b else a := by
        intro a b
        by_cases h : vs.length < j ∨ R.toNat < L.toNat
        · rw [if_pos h, if_neg]; rw [hrange]; tauto
        · rw [if_neg h, if_pos]; rw [hrange]; tauto
      rw [hif]
    · refine Fr.locals (by simp [l7]) fun i hi => ?_
      rw [List.getElem?_set_ne (by omega), List.getElem?_set_ne (by omega), List.getElem?_set_ne (by omega),
        k7 i (by omega) (by omega)]
  obtain ⟨loc8, st8, hf8⟩ := right
  have hf8' : Fr q 0 loc6 loc8 g3 g3 := hf8.weaken (by omega) (Nat.le_refl _)
  have hv3 : Rep g3.mem (p.reg g3) S v [.i32 o, .i32 x] := (hv.step hf3).step hf6
  simp only [sliceAns, hvs]
  by_cases hdev : j ≤ vs.length ∧ 2 ^ 32 ≤ i
  · rw [if_pos hdev]
    exact fun h => absurd rfl h
  rw [if_neg hdev]
  have hlt : o.toNat + x.toNat < 2 ^ 32 := by
    have h1 := hhas.1
    have h2 := ok1.inv.sp_lt
    have h3 : (p.reg g1).hi = sp g1 := rfl
    omega
  have hnone : (if vs.length < j ∨ R.toNat < L.toNat then 0#32 else 1#32) = 0#32 →
      Does p w d er q 0 Mr ((encU j).reverse ++ .i64 (x.setWidth 64) :: stk) stk loc6 g3 ((Ans.ok Value.none).out s3) (IsRep p (.opt S)) := by
    intro h
    rw [h] at st8
    exact Does.ends st8 hf8' ok6.inv.host ok6.inv.st (rep_none (by rw [wty_seq hS.1]; rfl))
  by_cases hjl : vs.length < j
  · rw [if_neg (by omega)]
    exact hnone (if_pos (.inl hjl))
  by_cases hi32 : 2 ^ 32 ≤ i
  · have := hS.2.2.1
    exact absurd ⟨by omega, hi32⟩ hdev
  obtain ⟨hr1, hr2⟩ := slice_range (l := i) (r := j) hx hlen hS.2.2.1 hS.pos hS.2.2.2 hlt (by omega) (by omega)
  rw [← hL, ← hR] at hr1 hr2
  by_cases hij : j < i
  · rw [if_neg (by omega)]
    exact hnone (if_pos (.inr (hr1.2 hij)))
  obtain ⟨hr3, hr4⟩ := hr2 (by omega)
  rw [if_pos ⟨by omega, by omega⟩]
  rw [if_neg (by rw [hr1]; omega), hr3, hr4] at st8
  refine Does.ends st8 hf8' ok6.inv.host ok6.inv.st (rep_some ?_)
  have := rep_part hS.1 hv3 ok6.inv.sp_lt hvs (i := i) (k := j - i) (q := maxLen S) (by omega) (by omega)
  rwa [withMax_self] at this

theorem firstIndex_some {u : Value} : ∀ (vs : List Value) (k : Nat), (∀ j, j < k → vs[j]? ≠ some u) → vs[k]? = some u →
    firstIndex u vs = some k
  | [], k, _, h => by simp at h
  | v :: vs, 0, _, h => by simp at h; simp [firstIndex, h]
  | v :: vs, k + 1, hj, h => by
    have h0 : v ≠ u := fun e => hj 0 (by omega) (by simp [e])
    rw [firstIndex, if_neg h0, firstIndex_some vs k (fun j hj' => by have := hj (j + 1) (by omega); simpa using this) (by simpa using h)]
    rfl

theorem firstIndex_none {u : Value} : ∀ (vs : List Value), (∀ j : Nat, vs[j]? ≠ some u) → firstIndex u vs = none
  | [], _ => rfl
  | v :: vs, hj => by
    have h0 : v ≠ u := fun e => hj 0 (by simp [e])
    rw [firstIndex, if_neg h0, firstIndex_none vs (fun j => by have := hj (j + 1); simpa using this)]
    rfl

/-- The loop of `index-of?`. -/
theorem wp_indexOf {σ : Type} {M : Wasm.Mod σ} {b : Reg} {S : Ty} {as : List Nat} {o ix m : Nat} {v u : Value} {vs : List Value}
    {a l : BitVec 32} {ws stk loc : List Val} {g : Store σ} (hS : SeqOk S) (hc : comparable (elemTy S) = true)
    (hwf : (elemTy S).WF) (hv : Rep g.mem b S v [.i32 a, .i32 l]) (hvs : seqElems v = some vs) (hne : vs ≠ [])
    (hl : l.toNat = vs.length * unit S) (hhas : b.Has a.toNat l.toNat) (hlen : vs.length ≤ maxLen S)
    (hu : Rep g.mem b (elemTy S) u ws) (has : as.map (loc[·]?) = ws.map some)
    (ho : loc[o]? = some (.i32 a)) (he : loc[o + 1]? = some (.i32 (a + l))) (hx : loc[ix]? = some (.i64 0#64))
    (ham : ∀ i ∈ as, i < m) (hom : o + 1 < m) (hxm : ix < m) (hao : o ∉ as) (hax : ix ∉ as) (hox : o ≠ ix) (hox1 : o + 1 ≠ ix)
    (hm : m + (wty (elemTy S)).length + (equalCode (elemTy S) as (saveLocals (elemTy S) m) (m + (wty (elemTy S)).length)).2.length ≤ loc.length)
    (hb : b.hi ≤ g.mem.size) (hb' : b.hi < 2 ^ 32) :
    WP M (indexOfLoop S as o ix m) stk loc g fun r => ∃ rs loc', r = .norm (rs.reverse ++ stk) loc' g ∧
      Keep m [o, ix] loc loc' ∧ Rep g.mem b (.opt .uint) (match firstIndex u vs with
        | some i => .some (.uint i)
        | none => .none) rs := by
  unfold indexOfLoop
  have hmax := hS.2.2.1
  have hpos : 0 < vs.length := List.length_pos_iff.2 hne
  have hlt := hhas.1
  refine wp_loop_inv (α := Nat) (fun k l' g' => g' = g ∧ k < vs.length ∧ Keep m [o, ix] loc l' ∧
      l'[o]? = some (.i32 (a + BitVec.ofNat 32 (k * unit S))) ∧ l'[ix]? = some (.i64 (BitVec.ofNat 64 k)) ∧
      ∀ j, j < k → vs[j]? ≠ some u) (fun k => vs.length - k) 0 ?_ ?_
  · exact ⟨rfl, hpos, Keep.refl, by simpa using ho, by simpa using hx, fun j hj => by omega⟩
  rintro k l1 g' ⟨rfl, hk, hK, ho1, hx1, hj⟩
  have hlen1 := hK.1
  obtain ⟨x, hxk⟩ : ∃ x, vs[k]? = some x := ⟨_, List.getElem?_eq_getElem hk⟩
  have hmul : (k + 1) * unit S = k * unit S + unit S := Nat.succ_mul _ _
  have hle : (k + 1) * unit S ≤ vs.length * unit S := Nat.mul_le_mul_right _ (by omega)
  have ea : (a + BitVec.ofNat 32 (k * unit S)).toNat = a.toNat + k * unit S := add_toNat (by omega)
  have hrx := rep_elem hS.1 hv hb' hvs hxk
  have s1 := steps_readElem (M := M) (S := S) (o := o) (a := a + BitVec.ofNat 32 (k * unit S)) (stk := []) (loc := l1) (g := g')
    hS.1 ho1 (by rw [ea]; omega)
  obtain ⟨l2, s2, len2, k2, w2⟩ := steps_save (M := M) (s := []) (loc := l1) (g := g') (elemTy S) m
    (elemVals g'.mem S (a + BitVec.ofNat 32 (k * unit S))) hrx.len (by omega)
  rw [List.append_assoc, s1, s2, wp_append]
  have hmem := fun i (hi : i ∈ saveLocals (elemTy S) m) => mem_saveLocals.1 hi
  have hK2 : Keep m [o, ix] loc l2 := ⟨by omega, fun i hi hb => by rw [k2 i (.inl hi), hK.2 i hi hb]⟩
  have has2 : as.map (l2[·]?) = ws.map some := hK2.held ham (by
    intro i hi; simp only [List.mem_cons, List.not_mem_nil, or_false, not_or]
    exact ⟨fun e => hao (e ▸ hi), fun e => hax (e ▸ hi)⟩) has
  have hcode := wp_equal (M := M) (b := b) (elemTy S) as (saveLocals (elemTy S) m)
    (m + (wty (elemTy S)).length) [] l2 g' u x ws _ hc hwf hu hrx has2 w2
    (fun i hi => by have := ham i hi; omega) (fun i hi => by have := hmem i hi; omega)
    (fun i hi hi' => by have := ham i hi; have := hmem i hi'; omega) (by simp [saveLocals, List.nodup_range'])
    (by omega) hb
  refine hcode.mono ?_
  rintro r ⟨q, l3, rfl, hq, hK3⟩
  have hK3' : Keep m [o, ix] loc l3 := hK2.trans hK3 (by omega) (fun i hi hi' => by have := hmem i hi'; omega)
  have ho3 : l3[o]? = some (.i32 (a + BitVec.ofNat 32 (k * unit S))) := by
    rw [hK3.2 o (by omega) (fun h => by have := hmem _ h; omega), k2 o (by omega), ho1]
  have hx3 : l3[ix]? = some (.i64 (BitVec.ofNat 64 k)) := by
    rw [hK3.2 ix (by omega) (fun h => by have := hmem _ h; omega), k2 ix (by omega), hx1]
  have he3 : l3[o + 1]? = some (.i32 (a + l)) := by
    rw [hK3'.2 (o + 1) (by omega) (by simp; omega), he]
  obtain ⟨b1, e1⟩ := nth_some ho3
  obtain ⟨b2, e2⟩ := nth_some hx3
  obtain ⟨b3, e3⟩ := nth_some he3
  have hkU : IsUInt k := by unfold IsUInt; omega
  have hk64 : k / 2 ^ 64 = 0 := by omega
  rw [seqK_norm]
  rcases hq with ⟨rfl, hux⟩ | ⟨rfl, hux⟩
  · subst hux
    simp only [c64]
    wpl [e1, e2, e3]
    rw [firstIndex_some vs k hj hxk]
    refine ⟨[.i32 1#32, .i64 (BitVec.ofNat 64 k), .i64 0#64], l3, rfl, hK3', rep_some ?_⟩
    have := rep_uint (m := g'.mem) (b := b) hkU
    rwa [encU, hk64] at this
  · have hxu : vs[k]? ≠ some u := by rw [hxk]; intro h; exact hux (Option.some.inj h).symm
    have hj' : ∀ j, j < k + 1 → vs[j]? ≠ some u := by
      intro j hjk
      by_cases e : j = k
      · rw [e]; exact hxu
      · exact hj j (by omega)
    have ea' : a + BitVec.ofNat 32 (k * unit S) + BitVec.ofNat 32 (unit S) = a + BitVec.ofNat 32 ((k + 1) * unit S) := by
      rw [hmul, BitVec.ofNat_add, BitVec.add_assoc]
    have ea2 : (a + BitVec.ofNat 32 ((k + 1) * unit S)).toNat = a.toNat + (k + 1) * unit S := add_toNat (by omega)
    have el : (a + l).toNat = a.toNat + vs.length * unit S := by rw [BitVec.toNat_add, hl, Nat.mod_eq_of_lt (by omega)]
    simp only [c64]
    wpl [e1, e2, e3, ea', ea2, el]
    by_cases hend : k + 1 = vs.length
    · rw [hend, if_neg (by omega)]
      rw [firstIndex_none vs (fun j h => ?_)]
      · exact ⟨[.i32 0#32, .i64 (BitVec.ofNat 64 k), .i64 0#64], _, rfl, hK3'.set (.inr (by simp)), rep_none rfl⟩
      · have := (List.getElem?_eq_some_iff.1 h).1
        exact hj' j (by omega) h
    · have h1 : (k + 2) * unit S ≤ vs.length * unit S := Nat.mul_le_mul_right _ (by omega)
      have h2 : (k + 2) * unit S = (k + 1) * unit S + unit S := Nat.succ_mul _ _
      have hp := hS.pos
      rw [if_pos (by omega)]
      refine ⟨k + 1, by omega, trivial, by omega, (hK3'.set (.inr (by simp))).set (.inr (by simp)), ?_, ?_, hj'⟩
      · rw [List.getElem?_set_ne (by omega), List.getElem?_set_self (by omega)]
      · rw [List.getElem?_set_self (by simp; omega), BitVec.ofNat_add]

theorem elemTy_wf {S : Ty} (hS : SeqOk S) : (elemTy S).WF := by
  obtain ⟨h1, h2, _⟩ := hS
  cases S with
  | list n e => exact h2
  | buff _ | ascii _ | utf8 _ => trivial
  | _ => simp [isSeq] at h1

theorem good_indexOf {S : Ty} {e x : Expr} (he : EGood p k call wr e) (hx : EGood p k call wr x) :
    EGood p k call wr (.indexOf S e x) := by
  intro T er Δ Γ ρ n w c s d stk loc g ht ok
  simp only [wt] at ht
  obtain ⟨hS, hc, rfl, hte, htx⟩ := ht
  simp only [compile, List.length_append, List.length_cons, List.length_nil, Nat.add_assoc] at ok
  simp only [compile, eval, List.append_assoc, Nat.add_assoc]
  generalize hE : elemTy S = E at *
  generalize hA : compile p.K p.R e S d Γ n = A at *
  generalize hB : compile p.K p.R x E (d + 1) Γ (n + (A.ls.length + 3)) = B at *
  refine he.then hte hA ok ?_
  intro v s1 ws loc1 g1 _ hf1 ok1 hv
  obtain ⟨vs, o, l, hvs, hlen, rfl, hl, hhas⟩ := rep_seq hS.1 hv
  have hL1 := ok1.locs
  generalize hq : n + A.ls.length = q at *
  rw [show n + (A.ls.length + 3) = q + 3 by omega] at *
  rw [show n + (A.ls.length + (3 + B.ls.length)) = q + 3 + B.ls.length by omega] at *
  rw [show n + (A.ls.length + (3 + (B.ls.length + (wty E).length))) = q + 3 + B.ls.length + (wty E).length by omega] at *
  rw [show n + (A.ls.length + (3 + (B.ls.length + ((wty E).length + 1)))) = q + 3 + B.ls.length + (wty E).length + 1 by omega] at *
  rw [show n + (A.ls.length + (3 + (B.ls.length + ((wty E).length + (1 + (wty E).length))))) =
    q + 3 + B.ls.length + (wty E).length + 1 + (wty E).length by omega] at *
  rw [show n + (A.ls.length + 1) = q + 1 by omega, show n + (A.ls.length + 2) = q + 2 by omega]
  generalize hr : q + 3 + B.ls.length = r at *
  generalize hC : (equalCode E (saveLocals E r) (saveLocals E (r + (wty E).length + 1)) (r + (wty E).length + 1 + (wty E).length)).2.length = C at *
  obtain ⟨loc2, e2⟩ : ∃ l2, l2 = ((loc1.set (q + 2) (.i32 l)).set q (.i32 o)).set (q + 1) (.i32 (o + l)) := ⟨_, rfl⟩
  have st2 : Steps p.M [lset (q + 2), .b (.localTee q), lget (q + 2), .b (.i32bin .add), lset (q + 1), lget (q + 2), .b .i32eqz]
      ([Val.i32 o, .i32 l].reverse ++ stk) loc1 g1 (.i32 (b32 (l = 0#32)) :: stk) loc2 g1 := by
    refine Steps.of_wp fun Q => ?_
    simp only [lset, lget, List.reverse_cons, List.reverse_nil, List.nil_append, List.cons_append]
    wpl
    rw [← e2]
  have hf2 : Fr q 0 loc1 loc2 g1 g1 := Fr.locals (by rw [e2]; simp) fun j hj => by
    rw [e2, List.getElem?_set_ne (by omega), List.getElem?_set_ne (by omega), List.getElem?_set_ne (by omega)]
  have hl2 := hf2.len
  refine Does.steps0 (is := [_, _, _, _, _, _, _]) st2 hf2 (Nat.le_refl _) (Does.ite ?_)
  rw [hvs]
  by_cases hemp : vs = []
  · subst hemp
    have hl0 : l = 0#32 := BitVec.eq_of_toNat_eq (by simpa using hl)
    rw [if_neg (by simp [b32, hl0])]
    dsimp only
    split
    · exact (Does.ends (n := q) (al := 0) (ws := [.i32 0#32, .i64 0#64, .i64 0#64]) ((steps_c32.cons (steps_const.cons steps_const))) Fr.refl
        ok1.inv.host ok1.inv.st (rep_none rfl)).mono (Nat.zero_le _) fun _ _ _ _ _ _ _ h => h
    · exact fun h => absurd rfl h
  · have hl0 : l ≠ 0#32 := by
      rintro rfl
      have h1 := hS.pos
      have h2 : 0 < vs.length := List.length_pos_iff.2 hemp
      have := Nat.mul_pos h2 h1
      rw [BitVec.toNat_ofNat, Nat.zero_mod] at hl
      exact absurd hl.symm (Nat.ne_of_gt this)
    rw [if_pos (by simp [b32, hl0])]
    have ok2 : Ok p wr c w s1 Δ Γ ρ (q + 3) (B.al + 0) (B.ls.length + ((wty E).length + (wty E).length + 1 + C)) loc2 g1 :=
      (Ok.locals (m := 3) (ll := B.ls.length + ((wty E).length + (wty E).length + 1 + C)) (ok1.weaken (Nat.le_refl _) (by omega)) hf2)
    have hgoal : Does p w (d + 1) er q (B.al + 0) (B.is ++ (saveCode E r ++ ([c64 0, lset (r + (wty E).length)] ++
        indexOfLoop S (saveLocals E r) q (r + (wty E).length) (r + (wty E).length + 1)))) [] [] loc2 g1
        ((eval call x ρ c s1).bind fun u s => Out.val (match firstIndex u vs with
          | some i => (Value.uint i).some
          | none => Value.none) s) (IsRep p (.opt .uint)) := by
      refine hx.thenAt htx hB ok2 (by omega) ?_
      intro u s2 us loc3 g2 _ hf3 ok3 hu
      rw [hr] at ok3
      have hL3 := ok3.locs
      obtain ⟨loc4, st4, hf4, _, hw4⟩ := saved (p := p) (T := E) (ws := us) (loc := loc3) (g := g2)
        (stk := []) (m := r) hu.len (by omega)
      have hl4 := hf4.len
      refine Does.steps0 (n' := q) st4 (hf4.weaken (by omega) (Nat.le_refl _)) (Nat.le_refl _) ?_
      obtain ⟨loc5, e5⟩ : ∃ l5, l5 = loc4.set (r + (wty E).length) (.i64 0#64) := ⟨_, rfl⟩
      have hf5 : Fr r 0 loc4 loc5 g2 g2 := Fr.locals (by rw [e5]; simp) fun j hj => by rw [e5, List.getElem?_set_ne (by omega)]
      have hl5 := hf5.len
      refine Does.steps0 (n' := q) (is := [_, _]) (stk1 := []) (loc1 := loc5) (g1 := g2)
        (steps_const.cons (by rw [e5]; exact steps_set (by omega))) (hf5.weaken (by omega) (Nat.le_refl _)) (Nat.le_refl _) ?_
      have h5 : ∀ j, j < q + 3 → loc5[j]? = loc2[j]? := fun j hj => by
        rw [hf5.keep j (by omega), hf4.keep j (by omega), hf3.keep j hj]
      have hmem := fun i (hi : i ∈ saveLocals E r) => mem_saveLocals.1 hi
      intro _
      refine (wp_indexOf (M := p.M) (b := p.reg g2) (S := S) (as := saveLocals E r) (o := q) (ix := r + (wty E).length)
        (m := r + (wty E).length + 1) (v := v) (u := u) (vs := vs) (a := o) (l := l) (ws := us) (stk := []) (loc := loc5) (g := g2) hS
        (by rw [hE]; exact hc) (elemTy_wf hS) (hv.step hf3) hvs hemp hl (hhas.mono hf3.le) hlen (by rw [hE]; exact hu) ?_ ?_ ?_ ?_
        (fun i hi => by have := hmem i hi; omega) (by omega) (by omega) (fun h => by have := hmem _ h; omega)
        (fun h => by have := hmem _ h; omega) (by omega) (by omega) ?_ ?_ ok3.inv.sp_lt).mono ?_
      · rw [← hw4]
        exact List.map_congr_left fun i hi => by
          have := hmem i hi
          rw [e5, List.getElem?_set_ne (by omega)]
      · rw [h5 q (by omega), e2, List.getElem?_set_ne (by omega), List.getElem?_set_self (by simp; omega)]
      · rw [h5 _ (by omega), e2, List.getElem?_set_self (by simp; omega)]
      · rw [e5, List.getElem?_set_self (by omega)]
      · rw [hE, hC]; omega
      · have := ok3.inv.room; show sp g2 ≤ _; omega
      · rintro _ ⟨rs, loc6, rfl, hK, hrep⟩
        exact ⟨rs, loc6, g2, rfl, Fr.locals hK.1 fun i hi => hK.2 i (by omega) (by simp; omega), ok3.inv.host, ok3.inv.st, hrep⟩
    cases vs with
    | nil => exact absurd rfl hemp
    | cons v0 vs => exact hgoal
end
end Gen
