import Verif.Gen.SeqAt

/-! Code of expressions: `append`, `concat`, `replace-at?`. -/

namespace Gen
open Wasm Spec Host Core
open Classical

section
variable {p : P} {k : Nat} {call : FSem} {wr : Bool} {w : World} {d n al : Nat} {er : Bool}
  {stk bs loc0 loc loc' : List Val} {g0 g : Store World}

theorem localSize_seq {S : Ty} (hS : isSeq S = true) : stackLocalSize S false true = maxLen S * unit S := by
  cases S <;> simp [isSeq] at hS <;> simp [stackLocalSize, typeInMemorySize, maxLen, unit]

/-- Copy a sequence to reserved memory. -/
theorem hold_copy {a0 Z : Nat} {S : Ty} {v : Value} {vs : List Value} {o l t : BitVec 32} (hS : isSeq S = true)
    (h : Rep g.mem ((p.res a0 Z).reg g) S v [.i32 o, .i32 l]) (hv : seqElems v = some vs)
    (ht : a0 ≤ t.toNat) (ht' : t.toNat + vs.length * unit S ≤ a0 + Z) (hz : a0 + Z ≤ sp g) (hsz : sp g ≤ g.mem.size) :
    ∃ m, Steps p.M [.b .memCopy] (.i32 l :: .i32 o :: .i32 t :: stk) loc g stk loc (g.setMem m) ∧ m.size = g.mem.size ∧
      (∀ i, i < t.toNat ∨ t.toNat + vs.length * unit S ≤ i → m.byte i = g.mem.byte i) ∧
      SeqAt m ((p.res a0 Z).reg g) S t.toNat v := by
  obtain ⟨us, o', l', h1, h2, h3, h4, h5⟩ := rep_seq hS h
  rw [hv] at h1
  cases h1
  cases h3
  have h6 : o.toNat + l.toNat ≤ sp g := h5.1
  refine ⟨g.mem.copy t.toNat o.toNat l.toNat, steps_copy (by omega) (by omega), rfl, fun i hi => copy_out (by omega), ?_⟩
  refine (SeqAt.of_rep hS h).move hv (fun i _ hi => copy_out ?_) ⟨Nat.le_refl _, fun _ _ h => h⟩
    (fun i hi => copy_in (by omega))
  by_cases h : i < t.toNat ∨ t.toNat + l.toNat ≤ i
  · exact h
  · exact absurd (Or.inr ⟨by omega, by omega⟩) hi

/-- A sequence in reserved memory becomes a result. -/
theorem hold_rep {c : Cx} {s0 : St} {Δ : TEnv} {Γ : Scope} {ρ : Env} {n0 al ll Z : Nat} {S : Ty} {v : Value}
    {vs : List Value} {l : BitVec 32} (ok : Ok p wr c w s0 Δ Γ ρ n0 al ll loc0 g0)
    (hz : sp g0 + Z ≤ sp g)
    (h : SeqAt g.mem ((p.res (sp g0) Z).reg g) S (sp g0) v) (hv : seqElems v = some vs)
    (hm : vs.length ≤ maxLen S) (hl : l.toNat = vs.length * unit S) (hZ : l.toNat ≤ Z) :
    Rep g.mem (p.reg g) S v [.i32 (g0.g32 .stackPointer), .i32 l] := by
  refine SeqAt.rep (h.move hv (fun _ _ _ => rfl) (P.res_le g) fun _ _ => rfl) hv hm hl ?_
  refine ⟨show sp g0 + _ ≤ sp g by omega, fun i h3 h4 h5 => ?_⟩
  have := ok.inv.holes i h5
  have h3 : sp g0 ≤ i := h3
  omega

/-- A sequence stays in reserved memory while an operand is evaluated. -/
theorem SeqAt.stay {a0 Z n1 al1 a : Nat} {S : Ty} {v : Value} {vs : List Value} {g1 : Store World}
    (h : SeqAt g.mem ((p.res a0 Z).reg g) S a v) (hv : seqElems v = some vs) (hf : Fr n1 al1 loc loc' g g1)
    (ha : a + vs.length * unit S ≤ sp g) : SeqAt g1.mem ((p.res a0 Z).reg g1) S a v :=
  h.move hv hf.same hf.le fun i hi => hf.mem _ (by omega)

theorem good_concat {T0 : Ty} {a b : Expr} (ha : ∀ H, EGood { p with H := H } k call wr a)
    (hb : ∀ H, EGood { p with H := H } k call wr b) : EGood p k call wr (.concat T0 a b) := by
  intro T er Δ Γ ρ n w c s d stk loc g ht ok
  simp only [wt] at ht
  obtain ⟨hS, hT, hta, htb⟩ := ht
  have hZ := localSize_seq hS.1
  simp only [compile, List.length_cons, List.length_append, List.length_nil, Nat.add_assoc] at ok
  simp only [compile, eval, List.append_assoc, Nat.add_assoc]
  generalize stackLocalSize T false true = Z at *
  generalize hA : compile p.K p.R a T d Γ (n + 1) = A at *
  generalize hB : compile p.K p.R b T d Γ (n + (1 + (A.ls.length + 1))) = B at *
  have hroom := ok.inv.room
  have hsmall := ok.inv.small
  have hlocs := ok.locs
  obtain ⟨loc1, g1, h1, hf1, h3, -, h5, h6, h7⟩ := steps_alloc (M := p.M) (stk := stk) (n := n) (loc := loc) (g := g)
    (size := Z) (by omega) (by omega)
  refine (From.steps h1 (From.steps (steps_get h3) ?_)).does
  refine EGood.from (Z := Z) ha hta hA ok hf1 (by omega) (by rw [h6]; exact ok.inv.host) ok.inv.st (by omega) (by omega)
    (by omega) (Nat.le_refl _) ?_
  intro u s2 us2 loc2 g2 _ hf2 hf2' hh2 hs2 hu
  obtain ⟨us, o, l, hus, hulen, rfl, hl, hhas⟩ := rep_seq hS.1 hu
  have hlo2 := hf2'.lo
  have hhi2 := hf2.hi
  have hL2 := hf2.len
  have hsp : (g.g32 .stackPointer).toNat = sp g := rfl
  have hul : us.length * unit T ≤ Z := by rw [hZ]; exact Nat.mul_le_mul_right _ hulen
  have hn2 : loc2[n]? = some (.i32 (g.g32 .stackPointer)) := by rw [hf2'.keep n (by omega)]; exact h3
  obtain ⟨m3, st3, hm3, out3, at3⟩ := hold_copy (p := p) (stk := stk) (loc := loc2.set (n + (1 + A.ls.length)) (.i32 l))
    (t := g.g32 .stackPointer) hS.1 hu hus (by omega) (by omega) (by omega) (by rw [hf2.size]; omega)
  obtain ⟨loc3, e3⟩ : ∃ l3, l3 = loc2.set (n + (1 + A.ls.length)) (.i32 l) := ⟨_, rfl⟩
  have hn3 : loc3[n]? = some (.i32 (g.g32 .stackPointer)) := by rw [e3, List.getElem?_set_ne (by omega)]; exact hn2
  have hl3 : loc3[n + (1 + A.ls.length)]? = some (.i32 l) := by rw [e3, List.getElem?_set_self (by omega)]
  have hL3 : loc3.length = loc2.length := by rw [e3]; simp
  rw [← e3] at st3
  refine From.steps (is := [_, _, _, _, _]) (stk1 := .i32 (g.g32 .stackPointer + l) :: stk) (loc1 := loc3) (g1 := g2.setMem m3) ?_ ?_
  · refine Steps.cons (s1 := .i32 l :: .i32 o :: .i32 (g.g32 .stackPointer) :: stk) (l1 := loc3) (g1 := g2) ?_ (Steps.cons st3 ?_)
    · refine Steps.of_wp fun Q => ?_
      simp only [List.reverse_cons, List.reverse_nil, List.nil_append, List.cons_append]
      wpl
      rw [← e3]
    · obtain ⟨b1, q1⟩ := nth_some hn3
      obtain ⟨b2, q2⟩ := nth_some hl3
      refine Steps.of_wp fun Q => ?_
      simp only [lget]
      wpl [q1, q2]
  have hf3 : Fr n (Z + A.al) loc loc3 g (g2.setMem m3) := by
    have := hf2.write (m := m3) (fun i hi => out3 i (.inl (by omega))) hm3
    exact ⟨by rw [hL3, this.len], fun i hi => by rw [e3, List.getElem?_set_ne (by omega), this.keep i hi], this.mem, this.size,
      this.lo, this.hi⟩
  refine EGood.from (Z := Z) hb htb hB ok hf3 (by show _ ≤ sp g2; omega) hh2 hs2 (by omega) (by omega)
    (by omega) (Nat.le_refl _) ?_
  intro v s4 us4 loc4 g4 _ hf4 hf4' hh4 hs4 hv
  obtain ⟨vs, o', l', hvs, hvlen, rfl, hl', hhas'⟩ := rep_seq hS.1 hv
  have hlo4 := hf4'.lo
  have hlo4 : sp g2 ≤ sp g4 := hlo4
  have hhi4 := hf4.hi
  have hL4 := hf4.len
  intro hd
  have hu4 := SeqAt.stay (g := g2.setMem m3) at3 hus hf4' (by show _ ≤ sp g2; omega)
  obtain ⟨x, hx, hxs⟩ := hu4.kind hus (SeqAt.of_rep hS.1 hv) hvs
  revert hd
  simp only [hx]
  by_cases hty : HasType T0 x
  swap
  · rw [if_neg hty]
    exact fun h => absurd rfl h
  rw [if_pos hty]
  have hxm := hasType_len hS.1 (hT x hty) hxs
  have hfit : us.length * unit T + vs.length * unit T ≤ Z := by
    rw [hZ, ← Nat.add_mul]
    exact Nat.mul_le_mul_right _ (by simpa using hxm)
  have et : (g.g32 .stackPointer + l).toNat = sp g + us.length * unit T := by
    rw [BitVec.toNat_add, hl, Nat.mod_eq_of_lt (by omega), hsp]
  have hL3' := hf3.len
  obtain ⟨n2, hn2'⟩ : ∃ n2, n2 = n + (1 + (A.ls.length + (1 + B.ls.length))) := ⟨_, rfl⟩
  obtain ⟨m5, st5, hm5, out5, at5⟩ := hold_copy (p := p) (stk := stk) (loc := loc4.set n2 (.i32 l'))
    (t := g.g32 .stackPointer + l) hS.1 hv hvs (by omega) (by omega) (by omega) (by rw [hf4.size]; omega)
  obtain ⟨loc5, e5⟩ : ∃ l5, l5 = loc4.set n2 (.i32 l') := ⟨_, rfl⟩
  obtain ⟨loc6, e6⟩ : ∃ l6, l6 = loc5.set (n2 + 1) (.i32 (l + l')) := ⟨_, rfl⟩
  have h45 : ∀ i, i < n2 → loc5[i]? = loc4[i]? := fun i hi => by rw [e5, List.getElem?_set_ne (by omega)]
  have hn5 : loc5[n]? = some (.i32 (g.g32 .stackPointer)) := by
    rw [h45 n (by omega), hf4'.keep n (by omega)]; exact hn3
  have hl5 : loc5[n + (1 + A.ls.length)]? = some (.i32 l) := by
    rw [h45 _ (by omega), hf4'.keep _ (by omega)]; exact hl3
  have hl5' : loc5[n2]? = some (.i32 l') := by rw [e5, List.getElem?_set_self (by omega)]
  have hL5 : loc5.length = loc4.length := by rw [e5]; simp
  rw [← e5] at st5
  have hf6 : Fr n (Z + A.al + B.al) loc loc6 g (g4.setMem m5) := by
    have := hf4.write (m := m5) (fun i hi => out5 i (.inl (by omega))) hm5
    exact ⟨by rw [e6, List.length_set, hL5, this.len], fun i hi => by
      rw [e6, List.getElem?_set_ne (by omega), h45 i (by omega), this.keep i hi], this.mem, this.size, this.lo, this.hi⟩
  have hlx : (l + l').toNat = (us ++ vs).length * unit T := by
    rw [BitVec.toNat_add, hl, hl', List.length_append, Nat.add_mul, Nat.mod_eq_of_lt (by omega)]
  refine From.ends (ws := [.i32 (g.g32 .stackPointer), .i32 (l + l')]) (loc1 := loc6) (g1 := g4.setMem m5) ?_
    (hf6.weaken (Nat.le_refl _) (by omega)) hh4 hs4 ?_
  · rw [← hn2']
    refine Steps.cons (s1 := .i32 l' :: .i32 o' :: .i32 (g.g32 .stackPointer + l) :: stk) (l1 := loc5) (g1 := g4) ?_ (Steps.cons st5 ?_)
    · refine Steps.of_wp fun Q => ?_
      simp only [List.reverse_cons, List.reverse_nil, List.nil_append, List.cons_append]
      wpl
      rw [← e5]
    · obtain ⟨b1, q1⟩ := nth_some hn5
      obtain ⟨b2, q2⟩ := nth_some hl5
      obtain ⟨b3, q3⟩ := nth_some hl5'
      rw [show n + (1 + (A.ls.length + (1 + (B.ls.length + 1)))) = n2 + 1 by omega]
      refine Steps.of_wp fun Q => ?_
      simp only [lget, List.reverse_cons, List.reverse_nil, List.nil_append, List.cons_append]
      wpl [q1, q2, q3]
      rw [← e6]
  · have hu6 : SeqAt m5 ((p.res (sp g) Z).reg g4) T (sp g) u := by
      refine hu4.move hus (fun i _ hi => out5 i ?_) ⟨Nat.le_refl _, fun _ _ h => h⟩ (fun i hi => out5 _ (.inl (by omega)))
      by_cases h : i < (g.g32 .stackPointer + l).toNat ∨ (g.g32 .stackPointer + l).toNat + vs.length * unit T ≤ i
      · exact h
      · exact absurd (Or.inr ⟨by omega, by omega⟩) hi
    rw [et] at at5
    obtain ⟨x', hx', _, hat⟩ := hu6.cat hus at5 hvs
    rw [hx] at hx'
    cases hx'
    exact hold_rep (g := g4.setMem m5) ok (by show _ ≤ sp g4; omega) hat hxs hxm hlx (by rw [hlx, List.length_append, Nat.add_mul]; exact hfit)

theorem wp_i32divU {σ : Type} {M : Wasm.Mod σ} {a b : BitVec 32} {is : List Instr} {stk loc : List Val} {g : Store σ}
    {Q : Res σ → Prop} (h : b ≠ 0#32) :
    WP M (.b (.i32div .divU) :: is) (.i32 b :: .i32 a :: stk) loc g Q ↔ WP M is (.i32 (a / b) :: stk) loc g Q := by
  rw [wp_b]; simp only [stepB, IDiv.eval, if_neg h, stepK]

theorem good_append {e x : Expr} (he : ∀ H, EGood { p with H := H } k call wr e)
    (hx : ∀ H, EGood { p with H := H } k call wr x) : EGood p k call wr (.append e x) := by
  intro T er Δ Γ ρ n w c s d stk loc g ht ok
  simp only [wt] at ht
  obtain ⟨q, E, rfl, hS, hte, htx⟩ := ht
  have hZ : stackLocalSize (.list (q + 1) E) false true = (q + 1) * typeSize E := rfl
  have hpos := hS.pos
  have hsz := hS.2.2.2
  simp only [unit] at hpos hsz
  simp only [compile, elemTy, maxLen, Nat.add_sub_cancel, List.length_cons, List.length_append, List.length_nil, Nat.add_assoc] at ok
  simp only [compile, eval, elemTy, maxLen, Nat.add_sub_cancel, List.append_assoc, Nat.add_assoc]
  generalize stackLocalSize (.list (q + 1) E) false true = Z at *
  generalize hA : compile p.K p.R e (.list q E) d Γ (n + 1) = A at *
  generalize hB : compile p.K p.R x E d Γ (n + (1 + (A.ls.length + 2))) = B at *
  generalize hW : writeMem n E 0 (n + (1 + (A.ls.length + (2 + B.ls.length)))) = W at *
  have hroom := ok.inv.room
  have hsmall := ok.inv.small
  have hlocs := ok.locs
  obtain ⟨loc1, g1, h1, hf1, h3, -, h5, h6, h7⟩ := steps_alloc (M := p.M) (stk := stk) (n := n) (loc := loc) (g := g)
    (size := Z) (by omega) (by omega)
  refine (From.steps h1 (From.steps (is := [_, _]) ((steps_get h3).cons (steps_get h3)) ?_)).does
  refine EGood.from (Z := Z) he hte hA ok hf1 (by omega) (by rw [h6]; exact ok.inv.host) ok.inv.st (by omega) (by omega)
    (by omega) (Nat.le_refl _) ?_
  intro v s2 us2 loc2 g2 _ hf2 hf2' hh2 hs2 hv
  obtain ⟨vs, o, l, hvs, hvlen, rfl, hl, hhas⟩ := rep_seq rfl hv
  simp only [maxLen, unit] at hvlen hl
  have hlist : v = .list vs := by
    simp only [Rep] at hv
    obtain ⟨us, _, _, rfl, _⟩ := hv
    cases hvs; rfl
  have hlo2 := hf2'.lo
  have hhi2 := hf2.hi
  have hL2 := hf2.len
  have hsp : (g.g32 .stackPointer).toNat = sp g := rfl
  have hZ' : (q + 1) * typeSize E = q * typeSize E + typeSize E := Nat.succ_mul _ _
  have hul : vs.length * typeSize E ≤ q * typeSize E := Nat.mul_le_mul_right _ hvlen
  have hn2 : loc2[n]? = some (.i32 (g.g32 .stackPointer)) := by rw [hf2'.keep n (by omega)]; exact h3
  obtain ⟨n1, hn1⟩ : ∃ n1, n1 = n + (1 + A.ls.length) := ⟨_, rfl⟩
  obtain ⟨loc3, e3⟩ : ∃ l3, l3 = (((loc2.set n1 (.i32 l)).set n (.i32 (g.g32 .stackPointer + l))).set n1
    (.i32 (l + BitVec.ofNat 32 (typeSize E)))).set (n1 + 1)
      (.i32 ((l + BitVec.ofNat 32 (typeSize E)) / BitVec.ofNat 32 (typeSize E))) := ⟨_, rfl⟩
  obtain ⟨m3, st3, hm3, out3, at3⟩ := hold_copy (p := p) (stk := .i32 (g.g32 .stackPointer) :: stk) (loc := loc3)
    (t := g.g32 .stackPointer) rfl hv hvs (by omega) (by simp only [unit]; omega) (by omega) (by rw [hf2.size]; omega)
  simp only [unit] at out3
  have hn3 : loc3[n]? = some (.i32 (g.g32 .stackPointer + l)) := by
    rw [e3, List.getElem?_set_ne (by omega), List.getElem?_set_ne (by omega), List.getElem?_set_self (by simp; omega)]
  have hl3 : loc3[n1]? = some (.i32 (l + BitVec.ofNat 32 (typeSize E))) := by
    rw [e3, List.getElem?_set_ne (by omega), List.getElem?_set_self (by simp; omega)]
  have hL3 : loc3.length = loc2.length := by rw [e3]; simp
  have ets : (BitVec.ofNat 32 (typeSize E)).toNat = typeSize E := toNat_ofNat32 hsz
  have hbase : (g.g32 .stackPointer + l).toNat = sp g + vs.length * typeSize E := by
    rw [BitVec.toNat_add, hl, Nat.mod_eq_of_lt (by omega), hsp]
  refine From.steps (stk1 := .i32 (g.g32 .stackPointer) :: stk) (loc1 := loc3) (g1 := g2.setMem m3) ?_ ?_
  · unfold appendCode
    rw [← hn1]
    refine Steps.append (xs := [_, _, _, _, _, _, _, _, _, _, _, _]) ?_ st3
    obtain ⟨b1, q1⟩ := nth_some hn2
    have : (BitVec.ofNat 32 (typeSize E)) ≠ 0#32 := by
      intro h
      rw [h] at ets
      simp at ets
      omega
    refine Steps.of_wp fun Q => ?_
    simp only [lget, lset, c32, List.reverse_cons, List.reverse_nil, List.nil_append, List.cons_append]
    wpl [q1]
    rw [wp_i32divU this]
    wpl
    rw [← e3]
  have hf3 : Fr n (Z + A.al) loc loc3 g (g2.setMem m3) := by
    have := hf2.write (m := m3) (fun i hi => out3 i (.inl (by omega))) hm3
    exact ⟨by rw [hL3, this.len], fun i hi => by
      rw [e3, List.getElem?_set_ne (by omega), List.getElem?_set_ne (by omega), List.getElem?_set_ne (by omega),
        List.getElem?_set_ne (by omega), this.keep i hi], this.mem, this.size, this.lo, this.hi⟩
  refine EGood.from (Z := Z) hx htx hB ok hf3 (by show _ ≤ sp g2; omega) hh2 hs2 (by omega) (by omega)
    (by omega) (Nat.le_refl _) ?_
  intro u s4 us4 loc4 g4 _ hf4 hf4' hh4 hs4 hu
  have hlo4 : sp g2 ≤ sp g4 := hf4'.lo
  have hhi4 := hf4.hi
  have hL4 := hf4.len
  have hv4 := SeqAt.stay (g := g2.setMem m3) at3 hvs hf4' (by simp only [unit]; show _ ≤ sp g2; omega)
  obtain ⟨loc5, m5, k1, k2, k3, k4, k5, k6⟩ := hold_store (p := p) (T := E) (stk := .i32 (g.g32 .stackPointer) :: stk) (off := 0)
    (ol := n) (m := n + (1 + (A.ls.length + (2 + B.ls.length)))) (a := g.g32 .stackPointer + l)
    (by rw [hf4'.keep n (by omega)]; exact hn3) (by omega)
    (by rw [hW, hL4]; omega) (by rw [hf4.size, hbase]; omega) hu (by rw [hbase]; omega) (by rw [hbase]; omega)
  rw [hW] at k1 k3
  rw [hbase] at k5 k6
  have hf5 : Fr n (Z + A.al + B.al) loc loc5 g (g4.setMem m5) := by
    have := hf4.write (m := m5) (fun i hi => k5 i (.inl (by omega))) k4
    exact ⟨by rw [k2, this.len], fun i hi => by rw [k3 i (.inl (by omega)), this.keep i hi], this.mem, this.size, this.lo, this.hi⟩
  have hlx : (l + BitVec.ofNat 32 (typeSize E)).toNat = (vs ++ [u]).length * typeSize E := by
    rw [BitVec.toNat_add, hl, ets, List.length_append, Nat.add_mul, Nat.mod_eq_of_lt (by omega)]
    simp
  subst hlist
  refine From.ends (ws := [.i32 (g.g32 .stackPointer), .i32 (l + BitVec.ofNat 32 (typeSize E))]) (loc1 := loc5) (g1 := g4.setMem m5)
    (k1.append (steps_get ?_)) (hf5.weaken (Nat.le_refl _) (by omega)) hh4 hs4 ?_
  · rw [← hn1, k3 n1 (.inl (by omega)), hf4'.keep n1 (by omega)]
    exact hl3
  · have hel : ElemsAt g4.mem ((p.res (sp g) Z).reg g4) E (sp g) vs := hv4
    have hel2 : ElemsAt m5 ((p.res (sp g) Z).reg g4) E (sp g) vs := by
      refine hel.mono (fun i h1 h2 => ?_) ⟨Nat.le_refl _, fun _ _ h => h⟩ (fun i _ h2 => k5 i (.inl h2))
      refine k5 i ?_
      by_cases h : i < sp g + vs.length * typeSize E + 0 ∨ sp g + vs.length * typeSize E + 0 + typeSize E ≤ i
      · exact h
      · exact absurd (Or.inr ⟨by omega, by omega⟩) h2
    exact hold_rep (g := g4.setMem m5) (S := .list (q + 1) E) ok (by show _ ≤ sp g4; omega) (hel2.snoc k6) rfl
      (by simp [maxLen]; omega) hlx (by rw [hlx, List.length_append, Nat.add_mul]; simp; omega)

theorem From.raiseIf {α : Type} {x : BitVec 32} {A B is : List Instr} {c : Nat}
    {Q : α → List Val → List Val → Store World → Prop} (h : (if x = 0#32 then B else A) = Gen.raise c) :
    From p w d er n al ([.ite 0 0 A B] ++ is) (.i32 x :: stk) bs loc0 g0 loc g (.fail c) Q :=
  fun hd => Does.raiseIf (α := α) (p := p) (w := w) (d := d) (er := er) (n := n) (al := al) (is := is) (stk := stk) (bs := bs)
    (loc := loc) (g := g) (Q := Q) h hd

/-- The state after the operands of `replace-at?`. -/
structure ReplaceAt (p : P) (w : World) (S : Ty) (n n2 m al : Nat) (loc0 : List Val) (g0 : Store World) (loc : List Val) (g : Store World)
    (s : St) (v x : Value) (vs : List Value) (i : Nat) (l : BitVec 32) (ws : List Val) : Prop where
  seq : SeqOk S
  uint : IsUInt i
  holes : ∀ i, p.H i → i < sp g0
  fr : Fr n al loc0 loc g0 g
  hi : sp g0 + maxLen S * unit S ≤ sp g
  room : sp g ≤ g.mem.size
  small : g.mem.size + 65536 ≤ 2 ^ 32
  host : g.host = Gen.put w s
  st : StOk p.K w.contract s
  val : SeqAt g.mem ((p.res (sp g0) (maxLen S * unit S)).reg g) S (sp g0) v
  vals : seqElems v = some vs
  len : vs.length ≤ maxLen S
  bytes : l.toNat = vs.length * unit S
  item : Rep g.mem ((p.res (sp g0) (maxLen S * unit S)).reg g) (elemTy S) x ws
  l0 : loc[n]? = some (.i32 l)
  l2 : loc[n + 2]? = some (.i32 (g0.g32 .stackPointer))
  ov : loc[n2]? = some (.i32 (b32 (vs.length ≤ i)))
  ix : loc[n2 + 1]? = some (.i64 (BitVec.ofNat 64 i * BitVec.ofNat 64 (unit S)))
  lt2 : n + 2 < n2
  ltm : n2 + 1 < m
  locs : m + (replaceCode S n n2 m).ls.length ≤ loc.length

section
variable {S : Ty} {n2 m i : Nat} {s : St} {v x : Value} {vs : List Value} {l : BitVec 32} {ws : List Val}

theorem ReplaceAt.addr (h : ReplaceAt p w S n n2 m al loc0 g0 loc g s v x vs i l ws) (hi : i < vs.length) :
    (BitVec.setWidth 32 (BitVec.ofNat 64 i * BitVec.ofNat 64 (unit S)) + g0.g32 .stackPointer).toNat = sp g0 + i * unit S := by
  have h1 : i * unit S ≤ maxLen S * unit S := Nat.mul_le_mul_right _ (by have := h.len; omega)
  have h2 := h.hi
  have h3 := h.room
  have h4 := h.small
  have hsp : (g0.g32 .stackPointer).toNat = sp g0 := rfl
  rw [wrap_scaled, BitVec.add_comm, add_toNat (by omega), hsp]

theorem ReplaceAt.out_none (h : ReplaceAt p w S n n2 m al loc0 g0 loc g s v x vs i l ws) (hi : vs.length ≤ i) {y : Value}
    (hy : seqSet i v x = some y) : (replaceAns v (.uint i) x).out s = Out.val .none s := by
  simp only [replaceAns, h.vals, hy, if_neg (Nat.not_lt.2 hi), Ans.out]

theorem ReplaceAt.out_some (h : ReplaceAt p w S n n2 m al loc0 g0 loc g s v x vs i l ws) (hi : i < vs.length) {y : Value}
    (hy : seqSet i v x = some y) : (replaceAns v (.uint i) x).out s = Out.val (.some y) s := by
  simp only [replaceAns, h.vals, hy, if_pos hi, Ans.out]

/-- The result, after the element is in place. -/
theorem ReplaceAt.ends (h : ReplaceAt p w S n n2 m al loc0 g0 loc g s v x vs i l ws) (hi : i < vs.length) {y : Value}
    (hy : seqSet i v x = some y) {loc' : List Val} {m' : Mem} {is : List Instr}
    (hst : Steps p.M is stk loc g (.i32 l :: .i32 (g0.g32 .stackPointer) :: .i32 1#32 :: bs) loc' (g.setMem m'))
    (hl' : loc'.length = loc.length) (hk : ∀ j, j < n → loc'[j]? = loc[j]?) (hsz : m'.size = g.mem.size)
    (ho : ∀ j, j < sp g0 + i * unit S ∨ sp g0 + i * unit S + unit S ≤ j → m'.byte j = g.mem.byte j)
    (he : ElemAt m' ((p.res (sp g0) (maxLen S * unit S)).reg g) S (sp g0 + i * unit S) x) :
    From p w d er n al is stk bs loc0 g0 loc g ((replaceAns v (.uint i) x).out s) (IsRep p (.opt S)) := by
  have h1 : (i + 1) * unit S ≤ maxLen S * unit S := Nat.mul_le_mul_right _ (by have := h.len; omega)
  rw [Nat.add_mul, Nat.one_mul] at h1
  have hm : Same ((p.res (sp g0) (maxLen S * unit S)).reg g) g.mem m' := by
    intro j _ h2
    refine ho j ?_
    by_cases h : j < sp g0 + i * unit S ∨ sp g0 + i * unit S + unit S ≤ j
    · exact h
    · exact absurd (Or.inr ⟨by omega, by omega⟩) h2
  obtain ⟨hat, ys, hys, hyl⟩ := h.val.set h.vals hi hy hm ho he
  rw [h.out_some hi hy]
  have hl : vs.length * unit S ≤ maxLen S * unit S := Nat.mul_le_mul_right _ h.len
  refine From.ends (ws := [.i32 1#32, .i32 (g0.g32 .stackPointer), .i32 l]) hst ?_ h.host h.st (rep_some ?_)
  · have := h.fr.write (m := m') (fun i hi => ho i (.inl (by omega))) hsz
    exact ⟨by rw [hl', this.len], fun i hi => by rw [hk i hi, this.keep i hi], this.mem, this.size, this.lo, this.hi⟩
  · refine SeqAt.rep (vs := ys) (hat.move hys (fun _ _ _ => rfl) (P.res_le g) fun _ _ => rfl) hys (by rw [hyl]; exact h.len)
      (by rw [hyl]; exact h.bytes) ?_
    refine ⟨show sp g0 + _ ≤ sp g from ?_, fun i h3 h4 h5 => ?_⟩
    · have := h.hi
      rw [h.bytes]; omega
    · have := h.holes i h5
      have h3 : sp g0 ≤ i := h3
      omega

theorem from_replace_list {q : Nat} {E : Ty} (h : ReplaceAt p w (.list q E) n n2 m al loc0 g0 loc g s v x vs i l ws) :
    From p w d er n al (replaceCode (.list q E) n n2 m).is (ws.reverse ++ stk) stk loc0 g0 loc g ((replaceAns v (.uint i) x).out s)
      (IsRep p (.opt (.list q E))) := by
  have hx := h.item
  simp only [elemTy] at hx
  obtain ⟨y, hy⟩ : ∃ y, seqSet i v x = some y := by
    have hv := h.val
    cases v <;> simp only [SeqAt] at hv
    exact ⟨_, rfl⟩
  have hlocs := h.locs
  simp only [replaceCode, List.length_cons] at hlocs ⊢
  generalize hW : writeMem m E 0 (m + 1) = W at *
  have hlt2 := h.lt2
  have hltm := h.ltm
  by_cases hi : vs.length ≤ i
  · rw [h.out_none hi hy]
    refine From.ends (ws := [.i32 0#32, .i32 0#32, .i32 0#32]) (Steps.cons (steps_get h.ov) (Steps.append (ys := []) (steps_ite (rs := [.i32 0#32, .i32 0#32, .i32 0#32]) (by simp [hx.len]) ?_) Steps.refl)) h.fr h.host h.st (rep_none rfl)
    rw [if_neg (by simp [b32, hi])]
    have := steps_dropValue (M := p.M) (s := []) (l := loc) (g := g) hx.len
    rw [List.append_nil] at this
    exact this.append (steps_c32.cons (steps_c32.cons steps_c32))
  · have hi' : i < vs.length := by omega
    have ha := h.addr hi'
    have hunit : unit (.list q E) = typeSize E := rfl
    have h1 : (i + 1) * unit (.list q E) ≤ maxLen (.list q E) * unit (.list q E) := Nat.mul_le_mul_right _ (by have := h.len; omega)
    rw [Nat.add_mul, Nat.one_mul] at h1
    have hhi := h.hi
    have hroom := h.room
    obtain ⟨A, hA⟩ : ∃ A, A = BitVec.setWidth 32 (BitVec.ofNat 64 i * BitVec.ofNat 64 (unit (.list q E))) + g0.g32 .stackPointer := ⟨_, rfl⟩
    rw [← hA] at ha
    obtain ⟨loc1, e1⟩ : ∃ l1, l1 = loc.set m (.i32 A) := ⟨_, rfl⟩
    have hL1 : loc1.length = loc.length := by rw [e1]; simp
    obtain ⟨loc2, m2, k1, k2, k3, k4, k5, k6⟩ := hold_store (p := p) (T := E) (stk := []) (off := 0) (loc := loc1)
      (ol := m) (m := m + 1) (a := A) (by rw [e1, List.getElem?_set_self (by omega)]) (by omega)
      (by rw [hW, hL1]; omega) (by rw [ha]; omega) hx (by rw [ha]; omega) (by rw [ha]; omega)
    rw [hW] at k1 k3
    rw [ha, Nat.add_zero] at k5 k6
    have hj : ∀ j, j < m → loc2[j]? = loc[j]? := fun j hj => by
      rw [k3 j (.inl (by omega)), e1, List.getElem?_set_ne (by omega)]
    refine h.ends hi' hy (loc' := loc2) (m' := m2) (Steps.cons (steps_get h.ov) (Steps.append (ys := []) (steps_ite (rs := [.i32 l, .i32 (g0.g32 .stackPointer), .i32 1#32]) (by simp [hx.len]) ?_) Steps.refl)) (by rw [k2, hL1]) (fun j hj' => hj j (by omega)) k4 k5 k6
    rw [if_pos (by simp [b32, hi])]
    refine Steps.append (Steps.append (s1 := ws.reverse ++ []) (l1 := loc1) (g1 := g) ?_ k1) ?_
    · obtain ⟨b1, q1⟩ := nth_some h.ix
      obtain ⟨b2, q2⟩ := nth_some h.l2
      refine Steps.of_wp fun Q => ?_
      simp only [lget, lset, List.append_nil]
      wpl [q1, q2]
      rw [← hA, ← e1]
    · exact steps_c32.cons ((steps_get (by rw [hj _ (by omega)]; exact h.l2)).cons (steps_get (by rw [hj _ (by omega)]; exact h.l0)))

theorem from_replace_bytes (hB : noList S = true) (h : ReplaceAt p w S n n2 m al loc0 g0 loc g s v x vs i l ws) :
    From p w d er n al (replaceCode S n n2 m).is (ws.reverse ++ stk) stk loc0 g0 loc g ((replaceAns v (.uint i) x).out s)
      (IsRep p (.opt S)) := by
  obtain ⟨hS1, hS2, hS3, hS4, hS5⟩ := noList.seq hB
  have hcode : replaceCode S n n2 m = ⟨[.b (.localTee m), .b .i32eqz, .ite 0 0 (raise 5) [], lget m,
      lget n2, .ite 2 3 [.b .drop, .b .drop, c32 0, c32 0, c32 0]
        [lget (n2 + 1), .b .i32wrap, lget (n + 2), .b (.i32bin .add), lset (m + 1),
         .b .drop, lset (m + 2), lget (m + 1), lget (m + 2), c32 (unit S), .b .memCopy,
         c32 1, lget (n + 2), lget n]], [.i32, .i32, .i32], 0⟩ := by
    cases S <;> simp [noList] at hB <;> rfl
  have hx := h.item
  obtain ⟨xs, xo, xl, hxs, hxlen, rfl, hxl, hxh⟩ := rep_seq hS2 hx
  rw [hS4] at hxlen
  rw [hS3] at hxl
  have hcase := seqSet_bytes (i := i) hB h.val ((SeqAt.of_rep hS2 hx).elem hB) hxs hxlen
  have hlocs := h.locs
  rw [hcode] at hlocs ⊢
  simp only [List.length_cons, List.length_nil] at hlocs ⊢
  have hlt2 := h.lt2
  have hltm := h.ltm
  have hp := h.seq.pos
  have hu := h.seq.2.2.2
  have hhi := h.hi
  have hroom := h.room
  obtain ⟨loc1, e1⟩ : ∃ l1, l1 = loc.set m (.i32 xl) := ⟨_, rfl⟩
  have hL1 : loc1.length = loc.length := by rw [e1]; simp
  have h1 : ∀ j, j ≠ m → loc1[j]? = loc[j]? := fun j hj => by rw [e1, List.getElem?_set_ne (by omega)]
  have st1 : Steps p.M [.b (.localTee m), .b .i32eqz] (.i32 xl :: .i32 xo :: stk) loc g (.i32 (b32 (xl = 0#32)) :: .i32 xo :: stk) loc1 g := by
    refine Steps.of_wp fun Q => ?_
    wpl
    rw [← e1]
  refine From.steps (is := [_, _]) st1 ?_
  rcases hcase with ⟨rfl, hnone⟩ | ⟨hone, y, hy⟩
  · have hx0 : xl = 0#32 := BitVec.eq_of_toNat_eq (by simpa using hxl)
    simp only [replaceAns, h.vals, hnone]
    split
    · exact From.raiseIf (by rw [if_neg (by simp [b32, hx0])])
    · exact fun hd => absurd rfl hd
  rw [hone, Nat.one_mul] at hxl
  have hx0 : xl ≠ 0#32 := by
    rintro rfl
    simp at hxl
    omega
  refine From.steps (is := [_]) (stk1 := .i32 xo :: stk) (loc1 := loc1) (g1 := g)
    (steps_ite (np := 0) (xs := []) (rs := []) rfl (by rw [if_pos (by simp [b32, hx0])]; exact Steps.refl)) ?_
  refine From.steps (is := [_, _]) (stk1 := .i32 (b32 (vs.length ≤ i)) :: ([.i32 xl, .i32 xo] ++ stk)) (loc1 := loc1) (g1 := g)
    ((steps_get (by rw [e1, List.getElem?_set_self (by omega)])).cons (steps_get (by rw [h1 _ (by omega)]; exact h.ov))) ?_
  have hf1 : Fr n al loc0 loc1 g0 g := by
    have := h.fr.trans (Fr.locals (al := 0) (g := g) hL1 (n := n) fun j hj => h1 j (by omega)) (Nat.le_refl _)
    exact this
  have h' : ReplaceAt p w S n n2 m al loc0 g0 loc1 g s v x vs i l [.i32 xo, .i32 xl] :=
    { h with fr := hf1, l0 := by rw [h1 _ (by omega)]; exact h.l0, l2 := by rw [h1 _ (by omega)]; exact h.l2,
             ov := by rw [h1 _ (by omega)]; exact h.ov, ix := by rw [h1 _ (by omega)]; exact h.ix,
             locs := by rw [hL1]; exact h.locs }
  by_cases hi : vs.length ≤ i
  · rw [h'.out_none hi hy]
    refine From.ends (ws := [.i32 0#32, .i32 0#32, .i32 0#32]) (steps_ite (rs := [.i32 0#32, .i32 0#32, .i32 0#32]) rfl ?_) hf1 h.host h.st (rep_none (by rw [wty_seq hS1]; rfl))
    rw [if_neg (by simp [b32, hi])]
    exact (Steps.b rfl).cons ((Steps.b rfl).cons (steps_c32.cons (steps_c32.cons steps_c32)))
  · have hi' : i < vs.length := by omega
    have ha := h.addr hi'
    have h2 : (i + 1) * unit S ≤ maxLen S * unit S := Nat.mul_le_mul_right _ (by have := h.len; omega)
    rw [Nat.add_mul, Nat.one_mul] at h2
    obtain ⟨A, hA⟩ : ∃ A, A = BitVec.setWidth 32 (BitVec.ofNat 64 i * BitVec.ofNat 64 (unit S)) + g0.g32 .stackPointer := ⟨_, rfl⟩
    rw [← hA] at ha
    obtain ⟨loc2, e2⟩ : ∃ l2, l2 = (loc1.set (m + 1) (.i32 A)).set (m + 2) (.i32 xo) := ⟨_, rfl⟩
    have hL2 : loc2.length = loc1.length := by rw [e2]; simp
    have hj : ∀ j, j < m → loc2[j]? = loc1[j]? := fun j hj => by
      rw [e2, List.getElem?_set_ne (by omega), List.getElem?_set_ne (by omega)]
    have exl : BitVec.ofNat 32 (unit S) = xl := BitVec.eq_of_toNat_eq (by rw [toNat_ofNat32 hu, hxl])
    obtain ⟨m3, st3, hm3, out3, at3⟩ := hold_copy (p := p) (stk := []) (loc := loc2)
      (t := A) hS2 hx hxs (by omega) (by rw [ha, hone, hS3]; omega) (by omega) hroom
    rw [ha, hone, hS3, Nat.one_mul] at out3
    rw [ha] at at3
    refine h'.ends hi' hy (loc' := loc2) (m' := m3) (steps_ite (rs := [.i32 l, .i32 (g0.g32 .stackPointer), .i32 1#32]) rfl ?_)
      hL2 (fun j hj' => hj j (by omega)) hm3 out3 ?_
    · rw [if_pos (by simp [b32, hi])]
      refine Steps.append (xs := [_, _, _, _, _, _, _, _, _, _]) (s1 := .i32 xl :: .i32 xo :: .i32 A :: []) (l1 := loc2) (g1 := g) ?_
        (Steps.cons st3 ?_)
      · obtain ⟨b1, q1⟩ := nth_some h'.ix
        obtain ⟨b2, q2⟩ := nth_some h'.l2
        refine Steps.of_wp fun Q => ?_
        simp only [lget, lset, c32, exl]
        wpl [q1, q2]
        rw [← hA, ← e2]
      · exact steps_c32.cons ((steps_get (by rw [hj _ (by omega)]; exact h'.l2)).cons (steps_get (by rw [hj _ (by omega)]; exact h'.l0)))
    · have := at3.elem hB
      cases S <;> simp [noList] at hB <;> exact this

end

theorem good_replaceAt {S : Ty} {e i x : Expr} (he : ∀ H, EGood { p with H := H } k call wr e)
    (hi : ∀ H, EGood { p with H := H } k call wr i) (hx : ∀ H, EGood { p with H := H } k call wr x) :
    EGood p k call wr (.replaceAt S e i x) := by
  intro T er Δ Γ ρ n w c s d stk loc g ht ok
  simp only [wt] at ht
  obtain ⟨hS, rfl, hte, hti, htx⟩ := ht
  have hZ := localSize_seq hS.1
  simp only [compile, List.length_cons, List.length_append, List.length_nil, Nat.add_assoc] at ok
  simp only [compile, eval, List.append_assoc, Nat.add_assoc]
  rw [hZ] at ok ⊢
  generalize hA : compile p.K p.R e S d Γ (n + 3) = A at *
  generalize hB : compile p.K p.R i .uint d Γ (n + (3 + A.ls.length)) = B at *
  generalize hn2 : n + (3 + (A.ls.length + B.ls.length)) = n2 at *
  rw [show n + (3 + (A.ls.length + (B.ls.length + 1))) = n2 + 1 by omega] at *
  rw [show n + (3 + (A.ls.length + (B.ls.length + 2))) = n2 + 2 by omega] at *
  generalize hC : compile p.K p.R x (elemTy S) d Γ (n2 + 2) = C at *
  rw [show n + (3 + (A.ls.length + (B.ls.length + (2 + C.ls.length)))) = n2 + 2 + C.ls.length by omega] at *
  generalize hm : n2 + 2 + C.ls.length = m at *
  have hroom := ok.inv.room
  have hsmall := ok.inv.small
  have hlocs := ok.locs
  obtain ⟨loc1, g1, h1, hf1, h3, -, h5, h6, h7⟩ := steps_alloc (M := p.M) (stk := stk) (n := n + 2) (loc := loc) (g := g)
    (size := maxLen S * unit S) (by omega) (by omega)
  have hf1 : Fr n (maxLen S * unit S) loc loc1 g g1 := hf1.weaken (by omega) (Nat.le_refl _)
  refine (From.steps h1 (From.steps (is := [_]) (steps_get h3) ?_)).does
  refine EGood.from (Z := maxLen S * unit S) he hte hA ok hf1 (by omega) (by rw [h6]; exact ok.inv.host) ok.inv.st (by omega) (by omega)
    (by omega) (Nat.le_refl _) ?_
  intro v s2 us2 loc2 g2 _ hf2 hf2' hh2 hs2 hv
  obtain ⟨vs, o, l, hvs, hvlen, rfl, hl, hhas⟩ := rep_seq hS.1 hv
  have hlo2 := hf2'.lo
  have hhi2 := hf2.hi
  have hL2 := hf2.len
  have hsp : (g.g32 .stackPointer).toNat = sp g := rfl
  have hul : vs.length * unit S ≤ maxLen S * unit S := Nat.mul_le_mul_right _ hvlen
  have hn2' : loc2[n + 2]? = some (.i32 (g.g32 .stackPointer)) := by rw [hf2'.keep _ (by omega)]; exact h3
  obtain ⟨loc3, e3⟩ : ∃ l3, l3 = (loc2.set n (.i32 l)).set (n + 1) (.i32 (BitVec.ofNat 32 vs.length)) := ⟨_, rfl⟩
  have hL3 : loc3.length = loc2.length := by rw [e3]; simp
  have h23 : ∀ j, j ≠ n → j ≠ n + 1 → loc3[j]? = loc2[j]? := fun j h1 h2 => by
    rw [e3, List.getElem?_set_ne (by omega), List.getElem?_set_ne (by omega)]
  have hn3 : loc3[n]? = some (.i32 l) := by
    rw [e3, List.getElem?_set_ne (by omega), List.getElem?_set_self (by omega)]
  obtain ⟨m3, st3, hm3, out3, at3⟩ := hold_copy (p := p) (stk := stk) (loc := loc3)
    (t := g.g32 .stackPointer) hS.1 hv hvs (by omega) (by omega) (by omega) (by rw [hf2.size]; omega)
  refine From.steps (is := [_, _]) (stk1 := .i32 l :: .i32 l :: .i32 o :: .i32 (g.g32 .stackPointer) :: stk) (loc1 := loc2.set n (.i32 l)) (g1 := g2) ?_ ?_
  · refine Steps.of_wp fun Q => ?_
    simp only [lget, List.reverse_cons, List.reverse_nil, List.nil_append, List.cons_append]
    wpl
  refine From.steps (steps_count hS hl) ?_
  refine From.steps (is := [_, _, _, _]) (stk1 := .i64 (l.setWidth 64) :: stk) (loc1 := loc3) (g1 := g2.setMem m3) ?_ ?_
  · refine Steps.cons (s1 := .i32 l :: .i32 o :: .i32 (g.g32 .stackPointer) :: stk) (l1 := loc3) (g1 := g2) ?_ (Steps.cons st3
      ((steps_get hn3).cons (Steps.b rfl)))
    rw [e3]
    exact steps_set (by simp; omega)
  have hf3 : Fr n (maxLen S * unit S + A.al) loc loc3 g (g2.setMem m3) := by
    have := hf2.write (m := m3) (fun i hi => out3 i (.inl (by omega))) hm3
    exact ⟨by rw [hL3, this.len], fun i hi => by rw [h23 i (by omega) (by omega), this.keep i hi], this.mem, this.size, this.lo, this.hi⟩
  refine EGood.from (Z := maxLen S * unit S) hi hti hB ok hf3 (by show _ ≤ sp g2; omega) hh2 hs2 (by omega) (by omega)
    (by omega) (Nat.le_refl _) ?_
  intro u s4 us4 loc4 g4 _ hf4 hf4' hh4 hs4 hu
  simp only [Rep] at hu
  obtain ⟨j, rfl, hj, rfl⟩ := hu
  have hlo4 : sp g2 ≤ sp g4 := hf4'.lo
  have hhi4 := hf4.hi
  have hL4 := hf4.len
  have at4 := SeqAt.stay (g := g2.setMem m3) at3 hvs hf4' (by show _ ≤ sp g2; omega)
  obtain ⟨loc5, st5, l5, k5, ov5, ix5⟩ := steps_index (M := p.M) (S := S) (ov := n2) (ix := n2 + 1) (n := j)
    (stk := .i64 (l.setWidth 64) :: stk) (loc := loc4) (g := g4) hS.1 hj (by omega) (by omega) (by omega)
  refine From.steps st5 ?_
  have hr := out_of_range (n := j) hl hvlen hS.2.2.1 hS.pos hS.2.2.2
  obtain ⟨loc6, e6⟩ : ∃ l6, l6 = loc5.set n2 (.i32 (b32 (vs.length ≤ j))) := ⟨_, rfl⟩
  have hL6 : loc6.length = loc5.length := by rw [e6]; simp
  have h46 : ∀ q, q < n2 → loc6[q]? = loc4[q]? := fun q hq => by
    rw [e6, List.getElem?_set_ne (by omega), k5 q (by omega) (by omega)]
  refine From.steps (is := [_, _, _, _]) (stk1 := stk) (loc1 := loc6) (g1 := g4) ?_ ?_
  · obtain ⟨b1, e1⟩ := nth_some ov5
    refine Steps.of_wp fun Q => ?_
    simp only [lget, lset]
    wpl [e1]
    rw [show b32 ((l.setWidth 64).toNat ≤ (BitVec.ofNat 64 j * BitVec.ofNat 64 (unit S)).toNat ∨ 2 ^ 20 < j) =
      b32 (vs.length ≤ j) from if_congr hr rfl rfl, ← e6]
  have hf6 : Fr n (maxLen S * unit S + A.al + B.al) loc loc6 g g4 := by
    have := hf4.trans (Fr.locals (al := 0) (g := g4) (loc := loc4) (loc' := loc6) (by omega) (n := n) fun q hq => h46 q (by omega)) (Nat.le_refl _)
    exact this
  refine EGood.from (Z := maxLen S * unit S) hx htx hC ok hf6 (by omega) hh4 hs4 (by omega) (by omega)
    (by omega) (Nat.le_refl _) ?_
  intro u s7 ws loc7 g7 _ hf7 hf7' hh7 hs7 hu
  have hlo7 := hf7'.lo
  have hhi7 := hf7.hi
  have hL7 := hf7.len
  have at7 := SeqAt.stay at4 hvs hf7' (by omega)
  have hst : ReplaceAt p w S n n2 m (maxLen S * unit S + (A.al + (B.al + C.al))) loc g loc7 g7 s7 v u vs j l ws :=
    { seq := hS, uint := hj, holes := ok.inv.holes, fr := hf7.weaken (Nat.le_refl _) (by omega), hi := by omega
      room := by rw [hf7.size]; omega
      small := by rw [hf7.size]; omega
      host := hh7, st := hs7, val := at7, vals := hvs, len := hvlen, bytes := hl, item := hu
      l0 := by rw [hf7'.keep n (by omega), h46 n (by omega), hf4'.keep n (by omega)]; exact hn3
      l2 := by
        rw [hf7'.keep _ (by omega), h46 _ (by omega), hf4'.keep _ (by omega), h23 _ (by omega) (by omega)]; exact hn2'
      ov := by rw [hf7'.keep _ (by omega), e6, List.getElem?_set_self (by omega)]
      ix := by rw [hf7'.keep _ (by omega), e6, List.getElem?_set_ne (by omega)]; exact ix5
      lt2 := by omega
      ltm := by omega
      locs := by omega }
  by_cases hB : noList S = true
  · exact from_replace_bytes hB hst
  · have h1 := hS.1
    cases S <;> simp [isSeq, noList] at h1 hB
    exact from_replace_list hst
end
end Gen
