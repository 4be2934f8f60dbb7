import Verif.Gen.ExprProof5

/-! Code of expressions: data maps. -/

namespace Gen
open Wasm Spec Host Core

section
variable {p : P} {k : Nat} {call : FSem} {wr : Bool} {w : World} {d n al : Nat} {er : Bool}
  {stk bs loc loc' : List Val} {g : Store World}

theorem Does.cast {α : Type} {is is' : List Instr} {o : Out α}
    {Q : α → List Val → List Val → Store World → Prop} (h : Does p w d er n al is stk bs loc g o Q)
    (e : is = is') : Does p w d er n al is' stk bs loc g o Q := e ▸ h

/-- Reserve the addresses from `a` on. -/
abbrev P.res (p : P) (a size : Nat) : P := { p with H := fun i => p.H i ∨ (a ≤ i ∧ i < a + size) }

theorem Ok.reserve {c : Cx} {s : St} {Δ : TEnv} {Γ : Scope} {ρ : Env} {x ll size : Nat} {g1 : Store World}
    (ok : Ok p wr c w s Δ Γ ρ n (size + al) (x + ll) loc g) (hf : Fr n size loc loc' g g1)
    (hs : sp g1 = sp g + size) (hh : g1.host = g.host) :
    Ok (p.res (sp g) size) wr c w s Δ Γ ρ (n + x) al ll loc' g1 := by
  have hle : (p.reg g).Le ((p.res (sp g) size).reg g1) := by
    refine ⟨hf.lo, fun i hi h => ?_⟩
    have hi : i < sp g := hi
    rcases h with h | h
    · exact h
    · omega
  have h0 := ok.step (n' := n + x) (ll' := ll) hf (by rw [hh]; exact ok.inv.host) ok.inv.st (by omega) (by omega)
  refine ⟨ok.cx, ⟨h0.inv.host, h0.inv.st, fun y hy => ?_, fun i hi => ?_, h0.inv.room, h0.inv.small⟩, ?_, h0.locs⟩
  · have := ok.inv.lits y hy
    exact ⟨this.1.mono hle, (h0.inv.lits y hy).2⟩
  · rcases hi with hi | hi
    · exact h0.inv.holes i hi
    · omega
  · intro y D hy
    obtain ⟨v, ls, ws, h1, h2, h3, h4, h5⟩ := ok.env y D hy
    refine ⟨v, ls, ws, h1, h2, fun l hl => by have := h3 l hl; omega, ?_, h5.mono hf.same hle⟩
    rw [← h4]
    exact List.map_congr_left fun l hl => hf.keep l (h3 l hl)

/-- Reserve space, evaluate an expression, store its value there. -/
theorem EGood.store {β : Type} {e : Expr} {U : Ty} {Δ : TEnv} {Γ : Scope} {ρ : Env} {c : Cx} {s : St}
    {A : Blk} {S : Code} {Z x ol al' ll' : Nat} {is0 is' : List Instr} {bs2 stk1 loc1 : List Val}
    {g1 : Store World} {f : Value → St → Out β} {Q2 : β → List Val → List Val → Store World → Prop}
    (he : ∀ H, EGood { p with H := H } k call wr e) (ht : wt p.K k wr p.R e er Δ U)
    (hZ : Z = typeSize U)
    (ok : Ok p wr c w s Δ Γ ρ n (Z + (A.al + al')) (x + (A.ls.length + (S.ls.length + ll'))) loc g)
    (hst : Steps p.M is0 stk loc g stk1 loc1 g1) (hf : Fr n Z loc loc1 g g1)
    (hs : sp g1 = sp g + Z) (hh : g1.host = g.host)
    (hol : loc1[ol]? = some (.i32 (g.g32 .stackPointer))) (hx : ol < n + x)
    (hA : compile p.K p.R e U d Γ (n + x) = A) (hS : writeMem ol U 0 (n + x + A.ls.length) = S)
    (next : ∀ v s' loc2 g2, eval call e ρ c s = .val v s' → Fr n (Z + A.al) loc loc2 g g2 →
      (∀ i, i < n + x → loc2[i]? = loc1[i]?) →
      Ok p wr c w s' Δ Γ ρ (n + x + A.ls.length + S.ls.length) al' ll' loc2 g2 → sp g + Z ≤ sp g2 →
      Rep g2.mem (p.reg g2) U v (loadVals g2.mem U (sp g)) →
      Does p w d er (n + x + A.ls.length + S.ls.length) al' is' stk1 bs2 loc2 g2 (f v s') Q2) :
    Does p w d er n (Z + (A.al + al')) (is0 ++ (A.is ++ (S.is ++ is'))) stk bs2 loc g
      ((eval call e ρ c s).bind f) Q2 := by
  intro hd
  have ok1 := (ok.reserve hf hs hh).weaken (al' := A.al) (ll' := A.ls.length) (by omega) (by omega)
  have h0 := he (p.res (sp g) Z).H U er Δ Γ ρ (n + x) w c s d stk1 loc1 g1 ht (by
    show Ok (p.res (sp g) Z) wr c w s Δ Γ ρ (n + x) (compile p.K p.R e U d Γ (n + x)).al
      (compile p.K p.R e U d Γ (n + x)).ls.length loc1 g1
    rw [hA]; exact ok1)
  have h0 : Does (p.res (sp g) Z) w d er (n + x) (compile p.K p.R e U d Γ (n + x)).al
    (compile p.K p.R e U d Γ (n + x)).is stk1 stk1 loc1 g1 (eval call e ρ c s) (IsRep (p.res (sp g) Z) U) := h0
  rw [hA] at h0
  rw [hst, wp_append]
  have h0 := h0 (bind_ne hd)
  refine WP.mono (show WP p.M A.is stk1 loc1 g1 _ from h0) ?_
  intro r hr
  revert hd hr
  cases ho : eval call e ρ c s with
  | ret v s' =>
    intro _ hr
    obtain ⟨h1, ws, junk, loc2, g2, rfl, hf2, hh2, hs2, hr⟩ := hr
    exact ⟨h1, ws, junk, loc2, g2, rfl, (hf.trans hf2 (by omega)).weaken (Nat.le_refl _) (by omega), hh2, hs2,
      hr.mono (b := (p.res (sp g) Z).reg g2) (b' := p.reg g2) (fun _ _ _ => rfl) ⟨Nat.le_refl _, fun i _ h => Or.inl h⟩⟩
  | fail c =>
    intro _ hr
    obtain ⟨g', rfl, h⟩ := hr
    exact ⟨g', rfl, h⟩
  | deviates => exact fun h => absurd rfl h
  | wrong => exact fun _ h => h.elim
  | val v s' =>
    intro hd hr
    obtain ⟨ws, loc2, g2, rfl, hf2, hh2, hs2, hr⟩ := hr
    have hr : Rep g2.mem ⟨sp g2, (p.res (sp g) Z).H⟩ U v ws := hr
    rw [seqK_norm]
    have hlocs := ok.locs
    have hroom := ok.inv.room
    have hlo := hf2.lo
    have hf12 := hf.trans hf2 (by omega)
    have hol2 : loc2[ol]? = some (.i32 (g.g32 .stackPointer)) := by rw [hf2.keep ol (by omega)]; exact hol
    obtain ⟨loc3, m3, k1, k2, k3, k4, k5, k6⟩ := stored_value (p := p) (T := U) (stk := stk1) (loc := loc2) (g := g2)
      (m := n + x + A.ls.length) (a := g.g32 .stackPointer) hol2 (by omega)
      (by rw [hS, hf12.len]; omega)
      (by rw [hf12.size]; show sp g + _ ≤ _; omega) hr
      (fun i h1 h2 => .inl (.inr ⟨h1, by rw [hZ]; exact h2⟩))
    rw [hS] at k1 k3
    have hsp : (g.g32 .stackPointer).toNat = sp g := rfl
    rw [hsp] at k5 k6
    have hf3 : Fr n (Z + A.al) loc loc3 g (g2.setMem m3) := by
      have := hf12.write (m := m3) (fun i hi => k5 i (.inl hi)) k4
      exact ⟨by rw [k2, this.len], fun i hi => by rw [k3 i (.inl (by omega)), this.keep i hi], this.mem,
        this.size, this.lo, this.hi⟩
    rw [k1]
    have hd' : f v s' ≠ .deviates := hd
    have := next v s' loc3 (g2.setMem m3) ho hf3
      (fun i hi => by rw [k3 i (.inl (by omega)), hf2.keep i hi])
      ((ok.weaken (al' := Z + A.al + al') (by omega) (Nat.le_refl _)).step hf3 hh2 hs2 (by omega) (by omega))
      (by show _ ≤ sp g2; omega)
      (k6.mono (b := (p.res (sp g) Z).reg g2) (b' := p.reg g2) (fun _ _ _ => rfl) ⟨Nat.le_refl _, fun i _ h => Or.inl h⟩) hd'
    refine this.mono ?_
    intro r hr
    show Post p w d er n (Z + (A.al + al')) bs2 loc g (f v s') Q2 r
    revert hr hd'
    cases f v s' with
    | val b s2 =>
      rintro _ ⟨ws2, loc2, g2, rfl, hf2, hh2, hs2, hq2⟩
      exact ⟨ws2, loc2, g2, rfl, (hf3.trans hf2 (by omega)).weaken (Nat.le_refl _) (by omega), hh2, hs2, hq2⟩
    | ret v s2 =>
      rintro _ ⟨he, ws2, junk, loc2, g2, rfl, hf2, hh2, hs2, hq2⟩
      exact ⟨he, ws2, junk, loc2, g2, rfl, (hf3.trans hf2 (by omega)).weaken (Nat.le_refl _) (by omega), hh2, hs2, hq2⟩
    | fail c => exact fun _ h => h
    | deviates => exact fun h => absurd rfl h
    | wrong => exact fun _ h => h

theorem good_mapGet (hC : ContractOk p.K) (hM : p.M.host = hostFn) {m : Name} {e : Expr}
    (he : ∀ H, EGood { p with H := H } k call wr e) : EGood p k call wr (.mapGet m e) := by
  intro T er Δ Γ ρ n w c s d stk loc g ht ok
  simp only [wt] at ht
  obtain ⟨hm, D, V, hD, rfl, ht⟩ := ht
  obtain ⟨⟨hwD, hpD⟩, hwV, hpV⟩ := hC.maps m D V hD
  simp only [compile, hD, Option.getD_some, List.length_append, List.length_cons, List.length_nil] at ok
  simp only [compile, eval, hD, Option.getD_some]
  generalize hA : compile p.K p.R e D d Γ (n + 1) = A at *
  generalize hS : writeMem n D 0 (n + 1 + A.ls.length) = S at *
  have hks : stackLocalSize D true false = typeSize D := rfl
  generalize hZ : stackLocalSize D true false = Z at *
  have hrs : stackLocalSize (.opt V) true true = typeInMemorySize true (.opt V) + typeSize (.opt V) := rfl
  generalize hY : stackLocalSize (.opt V) true true = Y at *
  have hroom := ok.inv.room
  have hsmall := ok.inv.small
  have hlocs := ok.locs
  obtain ⟨loc1, g1, h1, h2, h3, -, h5, h6, h7⟩ := steps_alloc (M := p.M)
    (stk := .i32 (BitVec.ofNat 32 m.length) :: .i32 (BitVec.ofNat 32 (p.K.off m)) :: stk)
    (n := n) (loc := loc) (g := g) (size := Z) (by omega) (by omega)
  have := EGood.store (p := p) (is0 := addr p.K m ++ allocCode n Z) (x := 1) (Z := Z) (al' := Y) (ll' := 2)
    (bs2 := stk) (Q2 := IsRep p (.opt V)) (S := S) (A := A)
    (is' := [lget n, c32 Z] ++ (allocCode (n + 1 + A.ls.length + S.ls.length) Y ++
      ([c32 Y, lset (n + 1 + A.ls.length + S.ls.length + 1), lget (n + 1 + A.ls.length + S.ls.length),
        lget (n + 1 + A.ls.length + S.ls.length + 1), .call (.host .map_get)] ++
      (readMem (n + 1 + A.ls.length + S.ls.length) (.opt V) 0).is)))
    (f := fun k s => match s.db.map c.self m with
      | some d => .val (match d.entry k with | some v => .some v | none => .none) s
      | none => .wrong)
    he ht hks (ok.at (Nat.le_refl _) (by omega) (by omega)) (steps_addr.append h1) h2 h7 h6 h3 (by omega) hA hS ?_
  · refine (Does.mono this (by omega) (fun _ _ _ _ _ _ _ h => h)).cast ?_
    simp only [List.append_assoc]
  intro v s2 loc2 g2 _ hf2 hk2 ok2 hsp2 hr
  obtain ⟨DM, hd, hk, hv, hent⟩ := ok2.inv.st.maps m D V hD
  have hself := ok2.cx.self
  rw [hself] at hd
  simp only [hd]
  generalize hro : n + 1 + A.ls.length + S.ls.length = ro at *
  have hroom2 := ok2.inv.room
  have hsmall2 := ok2.inv.small
  have hlocs2 := ok2.locs
  have hn2 : loc2[n]? = some (.i32 (g.g32 .stackPointer)) := by rw [hk2 n (by omega)]; exact h3
  obtain ⟨loc3, g3, j1, j2, j3, j4, j5, j6, j7⟩ := steps_alloc (M := p.M)
    (stk := .i32 (BitVec.ofNat 32 Z) :: .i32 (g.g32 .stackPointer) :: .i32 (BitVec.ofNat 32 m.length) ::
      .i32 (BitVec.ofNat 32 (p.K.off m)) :: stk)
    (n := ro) (loc := loc2) (g := g2) (size := Y) (by omega) (by omega)
  have hvT : HasType (.opt V) (optVal (DM.entry v)) := by
    cases he : DM.entry v with
    | none => simp [optVal, HasType]
    | some u => simpa [optVal, HasType] using hent v u he
  obtain ⟨m', k1, k2, k3, k4⟩ := host_value (a := sp g2) (hi := sp g3) (m := g3.mem) (H := p.H)
    (T := .opt V) hwV hpV hvT
    (by omega) (by rw [j5]; omega) (by rw [j5]; exact (by omega)) ok2.inv.holes
  have hh : g3.host = Gen.put w s2 := by rw [j6]; exact ok2.inv.host
  have hroL : ro + 1 < loc3.length := by rw [j2.len]; omega
  obtain ⟨l1, l2, l3⟩ := set_local (M := p.M) (g := g3) (loc := loc3)
    (stk := .i32 (BitVec.ofNat 32 Z) :: .i32 (g.g32 .stackPointer) :: .i32 (BitVec.ofNat 32 m.length) ::
      .i32 (BitVec.ofNat 32 (p.K.off m)) :: stk) (v := .i32 (BitVec.ofNat 32 Y)) hroL
  have j3' : (loc3.set (ro + 1) (.i32 (BitVec.ofNat 32 Y)))[ro]? = some (.i32 (g2.g32 .stackPointer)) := by
    rw [l2.keep ro (by omega)]; exact j3
  have hst : Steps p.M [.call (.host .map_get)]
      ([Val.i32 (BitVec.ofNat 32 (p.K.off m)), .i32 (BitVec.ofNat 32 m.length),
        .i32 (g.g32 .stackPointer), .i32 (BitVec.ofNat 32 Z), .i32 (g2.g32 .stackPointer),
        .i32 (BitVec.ofNat 32 Y)].reverse ++ stk) (loc3.set (ro + 1) (.i32 (BitVec.ofNat 32 Y))) g3
      (([] : List Val).reverse ++ stk) (loc3.set (ro + 1) (.i32 (BitVec.ofNat 32 Y))) (g3.setMem m') := by
    refine steps_host hM rfl ?_
    simp only [hostFn, orErr]
    rw [j5, readIdent_lit ok2.inv.lits hm ok2.inv.sp_le (by omega)]
    simp only [mapGet]
    rw [hh, view_put ok2.cx]
    show (match s2.db.map w.contract m with | none => _ | some d => _) = _
    rw [hself, hd]
    simp only []
    have : (g2.g32 .stackPointer).toNat = sp g2 := rfl
    rw [hk, hv, j5, readArg_rep hwD hpD ok2.inv.sp_le (by
      show sp g + typeSize D ≤ _
      omega) hr]
    simp only []
    rw [if_pos hr.hasType, this, ← j5, k1]
    rfl
  have hf := (j2.trans l2 (by omega : ro ≤ ro + 1)).write (m := m') (fun i hi => k3 i hi) k2
  have hrd := steps_readMem (M := p.M) (g := g3.setMem m') j3' (.opt V) 0 stk (by
    show sp g2 + 0 + _ ≤ m'.size
    rw [k2, j5]; omega)
  refine Does.ends (ws := loadVals m' (.opt V) (sp g2)) ?_ (hf.weaken (Nat.le_refl _) (by omega)) hh ok2.inv.st ?_
  · refine ((steps_get hn2).cons steps_c32).append (j1.append (Steps.append ?_ hrd))
    exact steps_c32.cons (l1.cons ((steps_get j3').cons ((steps_get l3).cons hst)))
  · rw [show (match DM.entry v with | some v => Value.some v | none => Value.none) = optVal (DM.entry v) by
      cases DM.entry v <;> rfl]
    exact k4

theorem StOk.setMap {K : Ctx} {me : ContractId} {s : St} {x : Name} {D : DataMap} {q : Value}
    {o : Option Value} (h : StOk K me s) (hd : s.db.map me x = some D)
    (hv : ∀ v, o = some v → HasType D.val v) :
    StOk K me (s.setMap me x { D with entry := upd D.entry q o }) where
  vars := h.vars
  maps y U V hy := by
    obtain ⟨D', h1, h2, h3, h4⟩ := h.maps y U V hy
    by_cases e : y = x
    · subst e
      rw [hd] at h1
      cases h1
      refine ⟨{ D with entry := upd D.entry q o }, by simp [St.setMap, upd₂], h2, h3, ?_⟩
      intro a v hav
      have hav : upd D.entry q o a = some v := hav
      unfold upd at hav
      split at hav
      · rw [← h3]; exact hv v hav
      · exact h4 a v hav
    · exact ⟨D', by simpa [St.setMap, upd₂, e] using h1, h2, h3, h4⟩
  fts := h.fts

theorem host_setMap {g : Store World} {s : St} {x : Name} {D : DataMap} {c : ContractId}
    (hh : g.host = Gen.put w s) (hc : w.contract = c) :
    Host.setMap g x D = withHost g (Gen.put w (s.setMap c x D)) := by
  subst hc
  unfold Host.setMap
  rw [hh]
  rfl

/-- The end of an operation that writes the map: the host function has the specified effect. -/
theorem Does.mapEnd {f : HostFn} {args : List Val} {b : Bool} {s' : St} {g' : Store World}
    (hM : p.M.host = hostFn) (ha : args.length = (hostSig f).1.length)
    (h : hostFn f args g = .ret [.i32 (if b then 1#32 else 0#32)] g')
    (hg : g' = g ∧ g.host = Gen.put w s' ∨ g' = withHost g (Gen.put w s'))
    (hs : StOk p.K w.contract s') :
    Does p w d er n al [.call (.host f)] (args.reverse ++ stk) stk loc g (.val (.bool b) s') (IsRep p .bool) := by
  have hst := steps_host (stk := stk) (loc := loc) hM ha h
  refine Does.ends (ws := encB b) (loc1 := loc) (g1 := g') ?_ ?_ ?_ hs (rep_bool b)
  · have : encB b = [.i32 (if b then 1#32 else 0#32)] := by cases b <;> rfl
    rw [this]; exact hst
  · rcases hg with ⟨rfl, _⟩ | rfl
    · exact Fr.refl.weaken (Nat.le_refl _) (by omega)
    · exact ⟨rfl, fun _ _ => rfl, fun _ _ => rfl, rfl, Nat.le_refl _, Nat.le_add_right _ _⟩
  · rcases hg with ⟨rfl, h⟩ | rfl
    · exact h
    · rfl

theorem good_mapDelete (hC : ContractOk p.K) (hM : p.M.host = hostFn) {m : Name} {e : Expr}
    (he : ∀ H, EGood { p with H := H } k call wr e) : EGood p k call wr (.mapDelete m e) := by
  intro T er Δ Γ ρ n w c s d stk loc g ht ok
  simp only [wt] at ht
  obtain ⟨rfl, hwr, hm, D, V, hD, ht⟩ := ht
  obtain ⟨⟨hwD, hpD⟩, hwV, hpV⟩ := hC.maps m D V hD
  simp only [compile, hD, Option.getD_some, List.length_append, List.length_cons] at ok
  simp only [compile, eval, hD, Option.getD_some]
  generalize hA : compile p.K p.R e D d Γ (n + 2) = A at *
  generalize hS : writeMem n D 0 (n + 2 + A.ls.length) = S at *
  have hks : stackLocalSize D true false = typeSize D := rfl
  generalize hZ : stackLocalSize D true false = Z at *
  have hroom := ok.inv.room
  have hsmall := ok.inv.small
  have hlocs := ok.locs
  obtain ⟨loc1, g1, h1, h2, h3, -, h5, h6, h7⟩ := steps_alloc (M := p.M)
    (stk := .i32 (BitVec.ofNat 32 m.length) :: .i32 (BitVec.ofNat 32 (p.K.off m)) :: stk)
    (n := n) (loc := loc) (g := g) (size := Z) (by omega) (by omega)
  obtain ⟨l1, l2, l3⟩ := set_local (M := p.M) (g := g1) (loc := loc1) (m := n + 1)
    (stk := .i32 (BitVec.ofNat 32 m.length) :: .i32 (BitVec.ofNat 32 (p.K.off m)) :: stk)
    (v := .i32 (BitVec.ofNat 32 Z)) (by rw [h2.len]; omega)
  have h3' : (loc1.set (n + 1) (.i32 (BitVec.ofNat 32 Z)))[n]? = some (.i32 (g.g32 .stackPointer)) := by
    rw [l2.keep n (by omega)]; exact h3
  have := EGood.store (p := p) (is0 := addr p.K m ++ (allocCode n Z ++ [c32 Z, lset (n + 1)])) (x := 2) (Z := Z) (al' := 0) (ll' := 0)
    (bs2 := stk) (Q2 := IsRep p .bool) (S := S) (A := A)
    (is' := [lget n, lget (n + 1)] ++ [.call (.host .map_delete)])
    (f := fun k s => match s.db.map c.self m with
      | some d => match d.entry k with
        | none => .val (.bool false) s
        | some _ => .val (.bool true)
          (s.setMap c.self m { d with entry := Host.upd d.entry k none })
      | none => .wrong)
    he ht hks (ok.at (Nat.le_refl _) (by omega) (by omega)) (steps_addr.append (h1.append (steps_c32.cons l1)))
    ((h2.trans l2 (by omega : n ≤ n + 1)).weaken (Nat.le_refl _) (by omega)) h7 h6 h3' (by omega) hA hS ?_
  · refine (Does.mono this (by omega) (fun _ _ _ _ _ _ _ h => h)).cast ?_
    simp only [List.append_assoc, List.cons_append, List.nil_append]
  intro v s2 loc2 g2 _ hf2 hk2 ok2 hsp2 hr
  obtain ⟨DM, hd, hk, hv, hent⟩ := ok2.inv.st.maps m D V hD
  have hself := ok2.cx.self
  rw [hself] at hd
  simp only [hd]
  have hroom2 := ok2.inv.room
  have hsmall2 := ok2.inv.small
  have hn2 : loc2[n]? = some (.i32 (g.g32 .stackPointer)) := by rw [hk2 n (by omega)]; exact h3'
  have hn3 : loc2[n + 1]? = some (.i32 (BitVec.ofNat 32 Z)) := by rw [hk2 _ (by omega)]; exact l3
  refine Does.steps0 ((steps_get hn2).cons (steps_get hn3)) Fr.refl (Nat.le_refl _) ?_
  have hro : g2.host.cur.readOnly = false := by
    rw [ok2.inv.host]; exact ok2.cx.writable hwr
  have key : hostFn .map_delete [Val.i32 (BitVec.ofNat 32 (p.K.off m)), .i32 (BitVec.ofNat 32 m.length),
      .i32 (g.g32 .stackPointer), .i32 (BitVec.ofNat 32 Z)] g2 =
      match DM.entry v with
        | none => .ret [.i32 0#32] g2
        | some _ => .ret [.i32 1#32] (Host.setMap g2 m { DM with entry := upd DM.entry v none }) := by
    simp only [hostFn, orErr]
    rw [readIdent_lit ok2.inv.lits hm ok2.inv.sp_le (by omega)]
    simp only [mapDelete]
    rw [hro, if_neg (by simp)]
    have : g2.host.view.map g2.host.contract m = some DM := by
      rw [ok2.inv.host, view_put ok2.cx]
      show s2.db.map w.contract m = _
      rw [hself, hd]
    rw [this]
    simp only []
    rw [hk, readArg_rep hwD hpD ok2.inv.sp_le (by
      show sp g + typeSize D ≤ _
      omega) hr]
    simp only []
    rw [if_pos hr.hasType]
    cases DM.entry v <;> rfl
  cases hc : DM.entry v with
  | none =>
    rw [hc] at key
    exact Does.mapEnd (b := false) (args := [_, _, _, _]) hM rfl key (.inl ⟨rfl, ok2.inv.host⟩) ok2.inv.st
  | some u =>
    rw [hc] at key
    refine Does.mapEnd (b := true) (args := [_, _, _, _]) hM rfl key (.inr (host_setMap ok2.inv.host hself)) ?_
    rw [hself]
    exact (hself ▸ ok2.inv.st).setMap hd (by simp)

theorem Rep.stored {U : Ty} {v : Value} {a : Nat} {g' : Store World} (hf : Fr n al loc loc' g g')
    (h : Rep g.mem (p.reg g) U v (loadVals g.mem U a)) (ha : a + typeSize U ≤ sp g) :
    Rep g'.mem (p.reg g') U v (loadVals g'.mem U a) := by
  rw [loadVals_congr (m := g.mem) U a fun i _ h2 => hf.mem i (by omega)]
  exact h.mono hf.same hf.le

/-- `map-set` and `map-insert`: evaluate and store key and value, then call the host. -/
theorem mapWrite_does (hC : ContractOk p.K) {m : Name} {ek ev : Expr} {D V : Ty} {h : HostFn}
    {Δ : TEnv} {Γ : Scope} {ρ : Env} {c : Cx} {s : St} {f : Value → Value → St → Out Value}
    (hek : ∀ H, EGood { p with H := H } k call wr ek) (hev : ∀ H, EGood { p with H := H } k call wr ev)
    (hD : p.K.maps m = some (D, V)) (htk : wt p.K k wr p.R ek er Δ D) (htv : wt p.K k wr p.R ev er Δ V)
    (hm : m ∈ p.K.lits) {B : Blk}
    (hB : mapWrite p.K h m (fun n => compile p.K p.R ek D d Γ n) (fun n => compile p.K p.R ev V d Γ n) n = B)
    (ok : Ok p wr c w s Δ Γ ρ n B.al B.ls.length loc g)
    (next : ∀ kv vv s' loc' g' DM ko kl vo vl n', s'.db.map c.self m = some DM → DM.val = V →
      Ok p wr c w s' Δ Γ ρ n' 0 0 loc' g' → HasType DM.key kv → HasType DM.val vv →
      readArg DM.key g'.mem ko kl = some kv → readArg DM.val g'.mem vo vl = some vv →
      Does p w d er n' 0 [.call (.host h)] ([Val.i32 (BitVec.ofNat 32 (p.K.off m)),
        .i32 (BitVec.ofNat 32 m.length), .i32 ko, .i32 kl, .i32 vo, .i32 vl].reverse ++ stk) stk loc' g'
        (f kv vv s') (IsRep p .bool)) :
    Does p w d er n B.al B.is stk stk loc g
      ((eval call ek ρ c s).bind fun a s => (eval call ev ρ c s).bind fun b s => f a b s) (IsRep p .bool) := by
  obtain ⟨⟨hwD, hpD⟩, hwV, hpV⟩ := hC.maps m D V hD
  subst hB
  simp only [mapWrite, hD, Option.getD_some, List.length_append, List.length_cons] at ok ⊢
  generalize hA : compile p.K p.R ek D d Γ (n + 1) = A at *
  generalize hS : writeMem n D 0 (n + 1 + A.ls.length) = S at *
  have hks : stackLocalSize D true false = typeSize D := rfl
  generalize hZ : stackLocalSize D true false = Z at *
  have hvs : stackLocalSize V true false = typeSize V := rfl
  generalize hY : stackLocalSize V true false = Y at *
  generalize hvo : n + 1 + A.ls.length + S.ls.length = vo at *
  generalize hA2 : compile p.K p.R ev V d Γ (vo + 2) = A2 at *
  generalize hS2 : writeMem vo V 0 (vo + 2 + A2.ls.length) = S2 at *
  have hroom := ok.inv.room
  have hsmall := ok.inv.small
  have hlocs := ok.locs
  obtain ⟨loc1, g1, h1, h2, h3, -, h5, h6, h7⟩ := steps_alloc (M := p.M)
    (stk := .i32 (BitVec.ofNat 32 m.length) :: .i32 (BitVec.ofNat 32 (p.K.off m)) :: stk)
    (n := n) (loc := loc) (g := g) (size := Z) (by omega) (by omega)
  have := EGood.store (p := p) (is0 := addr p.K m ++ allocCode n Z) (x := 1) (Z := Z) (al' := Y + (A2.al + 0))
    (ll' := 2 + (A2.ls.length + (S2.ls.length + 0))) (bs2 := stk) (Q2 := IsRep p .bool) (S := S) (A := A)
    (is' := ([lget n, c32 Z] ++ (allocCode vo Y ++ [c32 Y, lset (vo + 1)])) ++ (A2.is ++ (S2.is ++
      ([lget vo, lget (vo + 1)] ++ [.call (.host h)]))))
    (f := fun a s => (eval call ev ρ c s).bind fun b s => f a b s)
    hek htk hks (ok.at (Nat.le_refl _) (by omega) (by omega)) (steps_addr.append h1) h2 h7 h6 h3 (by omega) hA hS ?_
  · refine (Does.mono this (by omega) (fun _ _ _ _ _ _ _ h => h)).cast ?_
    simp only [List.append_assoc, List.cons_append, List.nil_append]
  intro kv s2 loc2 g2 _ hf2 hk2 ok2 hsp2 hr
  rw [hvo] at ok2 ⊢
  have hroom2 := ok2.inv.room
  have hsmall2 := ok2.inv.small
  have hlocs2 := ok2.locs
  have hn2 : loc2[n]? = some (.i32 (g.g32 .stackPointer)) := by rw [hk2 n (by omega)]; exact h3
  obtain ⟨loc3, g3, j1, j2, j3, -, j5, j6, j7⟩ := steps_alloc (M := p.M)
    (stk := .i32 (BitVec.ofNat 32 Z) :: .i32 (g.g32 .stackPointer) :: .i32 (BitVec.ofNat 32 m.length) ::
      .i32 (BitVec.ofNat 32 (p.K.off m)) :: stk)
    (n := vo) (loc := loc2) (g := g2) (size := Y) (by omega) (by omega)
  obtain ⟨l1, l2, l3⟩ := set_local (M := p.M) (g := g3) (loc := loc3) (m := vo + 1)
    (stk := .i32 (BitVec.ofNat 32 Z) :: .i32 (g.g32 .stackPointer) :: .i32 (BitVec.ofNat 32 m.length) ::
      .i32 (BitVec.ofNat 32 (p.K.off m)) :: stk) (v := .i32 (BitVec.ofNat 32 Y)) (by rw [j2.len]; omega)
  have j3' : (loc3.set (vo + 1) (.i32 (BitVec.ofNat 32 Y)))[vo]? = some (.i32 (g2.g32 .stackPointer)) := by
    rw [l2.keep vo (by omega)]; exact j3
  refine EGood.store (p := p) (x := 2) (Z := Y) (A := A2) (S := S2) (al' := 0) (ll' := 0) hev htv hvs ok2
    (((steps_get hn2).cons steps_c32).append (j1.append (steps_c32.cons l1)))
    ((j2.trans l2 (by omega : vo ≤ vo + 1)).weaken (Nat.le_refl _) (by omega)) j7 j6 j3' (by omega) hA2 hS2 ?_
  intro vv s4 loc4 g4 _ hf4 hk4 ok4 hsp4 hr4
  obtain ⟨DM, hd, hk, hv, hent⟩ := ok4.inv.st.maps m D V hD
  have hself := ok4.cx.self
  rw [hself] at hd
  have hroom4 := ok4.inv.room
  have hm1 : loc4[vo]? = some (.i32 (g2.g32 .stackPointer)) := by rw [hk4 vo (by omega)]; exact j3'
  have hm2 : loc4[vo + 1]? = some (.i32 (BitVec.ofNat 32 Y)) := by rw [hk4 _ (by omega)]; exact l3
  have hrk := Rep.stored hf4 hr (by omega)
  refine Does.steps0 ((steps_get hm1).cons (steps_get hm2)) Fr.refl (Nat.le_refl _) ?_
  have hlo4 := hf4.lo
  exact next kv vv s4 loc4 g4 DM _ _ _ _ _ hd hv ok4 (by rw [hk]; exact hrk.hasType)
    (by rw [hv]; exact hr4.hasType)
    (by rw [hk]; exact readArg_rep hwD hpD ok4.inv.sp_le (by show sp g + typeSize D ≤ _; omega) hrk)
    (by rw [hv]; exact readArg_rep hwV hpV ok4.inv.sp_le (by show sp g2 + typeSize V ≤ _; omega) hr4)

theorem good_mapSet (hC : ContractOk p.K) (hM : p.M.host = hostFn) {m : Name} {ek ev : Expr}
    (hek : ∀ H, EGood { p with H := H } k call wr ek) (hev : ∀ H, EGood { p with H := H } k call wr ev) :
    EGood p k call wr (.mapSet m ek ev) := by
  intro T er Δ Γ ρ n w c s d stk loc g ht ok
  simp only [wt] at ht
  obtain ⟨rfl, hwr, hm, D, V, hD, htk, htv⟩ := ht
  simp only [compile, hD, Option.getD_some] at ok
  simp only [compile, eval, hD, Option.getD_some]
  refine mapWrite_does hC hek hev hD htk htv hm rfl ok ?_
  intro kv vv s' loc' g' DM ko kl vo vl n' hd hV ok' hk hv hrk hrv
  have hself := ok'.cx.self
  have hro : g'.host.cur.readOnly = false := by
    rw [ok'.inv.host]; exact ok'.cx.writable hwr
  have key : hostFn .map_set [Val.i32 (BitVec.ofNat 32 (p.K.off m)), .i32 (BitVec.ofNat 32 m.length),
      .i32 ko, .i32 kl, .i32 vo, .i32 vl] g' =
      .ret [.i32 1#32] (Host.setMap g' m { DM with entry := upd DM.entry kv (some vv) }) := by
    simp only [hostFn, orErr]
    rw [readIdent_lit ok'.inv.lits hm ok'.inv.sp_le (by have := ok'.inv.small; omega)]
    simp only [Host.mapSet]
    rw [hro, if_neg (by simp)]
    have : g'.host.view.map g'.host.contract m = some DM := by
      rw [ok'.inv.host, view_put ok'.cx]
      show s'.db.map w.contract m = _
      rw [hself, hd]
    rw [this]
    simp only [hrk, hrv]
    rw [if_pos ⟨hk, hv⟩]
  simp only [hd]
  refine Does.mapEnd (b := true) (args := [_, _, _, _, _, _]) hM rfl key (.inr (host_setMap ok'.inv.host hself)) ?_
  rw [hself]
  exact (hself ▸ ok'.inv.st).setMap hd (by rintro _ ⟨⟩; exact hv)

theorem good_mapInsert (hC : ContractOk p.K) (hM : p.M.host = hostFn) {m : Name} {ek ev : Expr}
    (hek : ∀ H, EGood { p with H := H } k call wr ek) (hev : ∀ H, EGood { p with H := H } k call wr ev) :
    EGood p k call wr (.mapInsert m ek ev) := by
  intro T er Δ Γ ρ n w c s d stk loc g ht ok
  simp only [wt] at ht
  obtain ⟨rfl, hwr, hm, D, V, hD, htk, htv⟩ := ht
  simp only [compile, hD, Option.getD_some] at ok
  simp only [compile, eval, hD, Option.getD_some]
  refine mapWrite_does hC hek hev hD htk htv hm rfl ok ?_
  intro kv vv s' loc' g' DM ko kl vo vl n' hd hV ok' hk hv hrk hrv
  have hself := ok'.cx.self
  have hro : g'.host.cur.readOnly = false := by
    rw [ok'.inv.host]; exact ok'.cx.writable hwr
  have key : hostFn .map_insert [Val.i32 (BitVec.ofNat 32 (p.K.off m)), .i32 (BitVec.ofNat 32 m.length),
      .i32 ko, .i32 kl, .i32 vo, .i32 vl] g' =
      match DM.entry kv with
        | some _ => .ret [.i32 0#32] g'
        | none => .ret [.i32 1#32] (Host.setMap g' m { DM with entry := upd DM.entry kv (some vv) }) := by
    simp only [hostFn, orErr]
    rw [readIdent_lit ok'.inv.lits hm ok'.inv.sp_le (by have := ok'.inv.small; omega)]
    simp only [Host.mapInsert]
    rw [hro, if_neg (by simp)]
    have : g'.host.view.map g'.host.contract m = some DM := by
      rw [ok'.inv.host, view_put ok'.cx]
      show s'.db.map w.contract m = _
      rw [hself, hd]
    rw [this]
    simp only [hrk, hrv]
    rw [if_pos ⟨hk, hv⟩]
    cases DM.entry kv <;> rfl
  simp only [hd]
  cases hc : DM.entry kv with
  | some u =>
    rw [hc] at key
    exact Does.mapEnd (b := false) (args := [_, _, _, _, _, _]) hM rfl key (.inl ⟨rfl, ok'.inv.host⟩) ok'.inv.st
  | none =>
    rw [hc] at key
    refine Does.mapEnd (b := true) (args := [_, _, _, _, _, _]) hM rfl key (.inr (host_setMap ok'.inv.host hself)) ?_
    rw [hself]
    exact (hself ▸ ok'.inv.st).setMap hd (by rintro _ ⟨⟩; exact hv)

end
end Gen
