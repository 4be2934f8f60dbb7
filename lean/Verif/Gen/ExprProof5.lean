import Verif.Gen.ExprProof4

/-! Code of expressions: operations of the host on the datastore and the execution context. -/

namespace Gen
open Wasm Spec Host Core

section
variable {p : P} {k : Nat} {call : FSem} {wr : Bool} {w : World} {d n al : Nat} {er : Bool}
  {stk bs loc loc' : List Val} {g : Store World}

/-- Reserving stack space: the local `n` holds its address. -/
theorem steps_alloc {M : Wasm.Mod World} {size : Nat} (hn : n < loc.length) (hs : sp g + size < 2 ^ 32) :
    ∃ loc' g', Steps M (allocCode n size) stk loc g stk loc' g' ∧ Fr n size loc loc' g g' ∧
      loc'[n]? = some (.i32 (g.g32 .stackPointer)) ∧ (∀ i, i ≠ n → loc'[i]? = loc[i]?) ∧
      g'.mem = g.mem ∧ g'.host = g.host ∧ sp g' = sp g + size := by
  have e : sp (g.set32 .stackPointer (g.g32 .stackPointer + BitVec.ofNat 32 size)) = sp g + size := by
    simp only [sp, Store.set32, if_true, BitVec.toNat_add, BitVec.toNat_ofNat] at hs ⊢
    omega
  refine ⟨loc.set n (.i32 (g.g32 .stackPointer)),
    g.set32 .stackPointer (g.g32 .stackPointer + BitVec.ofNat 32 size), ?_, ?_, ?_, ?_, rfl, rfl, e⟩
  · refine Steps.cons (Steps.b rfl) (Steps.cons (Steps.b (by simp [stepB, hn]; exact ⟨rfl, rfl, rfl⟩)) (Steps.cons steps_const
      (Steps.cons (Steps.b (by simp [stepB]; exact ⟨rfl, rfl, rfl⟩)) (Steps.b ?_))))
    simp only [stepB]
    rfl
  · exact ⟨by simp, fun i hi => List.getElem?_set_ne (by omega), fun _ _ => rfl, rfl, by omega, by omega⟩
  · exact List.getElem?_set_self hn
  · exact fun i hi => List.getElem?_set_ne (by omega)

/-- A call of a host function. -/
theorem steps_host {M : Wasm.Mod World} (hM : M.host = hostFn) {f : HostFn} {args rs : List Val}
    {g' : Store World} (ha : args.length = (hostSig f).1.length) (h : hostFn f args g = .ret rs g') :
    Steps M [.call (.host f)] (args.reverse ++ stk) loc g (rs.reverse ++ stk) loc g' := by
  intro rest Q
  show WP M (.call (.host f) :: rest) _ loc g Q ↔ _
  rw [wp_call (ps := (hostSig f).1) (rs := (hostSig f).2) rfl (by simp [ha]), call_host, hM]
  have e1 : List.take (hostSig f).1.length (args.reverse ++ stk) = args.reverse := by
    rw [← ha, ← List.length_reverse]; exact List.take_left
  have e2 : List.drop (hostSig f).1.length (args.reverse ++ stk) = stk := by
    rw [← ha, ← List.length_reverse]; exact List.drop_left
  rw [e1, e2, List.reverse_reverse, h]
  rfl

theorem readFromWasm_flat {T : Ty} (h : isInMemoryType T = false) (m : Mem) (o l l' : Nat) :
    readFromWasm T m o l = readFromWasm T m o l' := by
  cases T <;> simp only [isInMemoryType, reduceCtorEq] at h <;> simp only [readFromWasm]

/-- Arguments are read as stored. -/
theorem readArg_rep {T : Ty} {v : Value} {m : Mem} {b : Reg} {a l : BitVec 32} (hw : T.WF) (hp : Plain T)
    (hb : b.hi ≤ m.size) (hs : a.toNat + typeSize T ≤ m.size)
    (h : Rep m b T v (loadVals m T a.toNat)) : readArg T m a l = some v := by
  have := h.read hb hw hp hs
  simp only [readFromWasmIndirect, indirect] at this
  unfold readArg
  cases hi : isInMemoryType T
  · rw [hi] at this
    rw [if_neg (by simp), readFromWasm_flat hi _ _ _ (typeSize T)]
    simpa using this
  · rw [hi] at this
    rw [if_pos rfl]
    simp only [if_true, Option.bind_eq_bind] at this
    cases hr : readIndirectOffsetAndLength m a.toNat with
    | none => rw [hr] at this; simp at this
    | some q => rw [hr] at this; simpa using this

theorem readIdent_lit {K : Ctx} {m : Mem} {b : Reg} {x : Name} (h : LitOk K m b) (hx : x ∈ K.lits)
    (hb : b.hi ≤ m.size) (hs : m.size < 2 ^ 32) :
    readIdent m (BitVec.ofNat 32 (K.off x)) (BitVec.ofNat 32 x.length) = some x := by
  obtain ⟨h1, h2⟩ := h x hx
  have h3 := h1.1
  rw [readIdent, toNat_ofNat32 (by omega), toNat_ofNat32 (by omega), memRead_ok (by omega), h2]

theorem Inv.sp_le {s : St} (h : Inv p w s al g) : sp g ≤ g.mem.size := by
  have := h.room; omega

/-- The effects of writing memory from the old stack pointer on. -/
theorem Fr.write {m : Mem} {al : Nat} {g1 : Store World} (hf : Fr n al loc loc' g g1)
    (hm : ∀ i, i < sp g → m.byte i = g1.mem.byte i) (hs : m.size = g1.mem.size) :
    Fr n al loc loc' g (g1.setMem m) :=
  ⟨hf.len, hf.keep, fun i hi => by show m.byte i = _; rw [hm i hi, hf.mem i hi],
    by show m.size = _; rw [hs, hf.size], hf.lo, hf.hi⟩

/-- A value written by the host at the address `a` of reserved space. -/
theorem host_value {T : Ty} {v : Value} {a hi : Nat} {m : Mem} {H : Nat → Prop} (hw : T.WF) (hp : Plain T)
    (hv : HasType T v) (hs : a + (typeInMemorySize true T + typeSize T) ≤ hi) (hm : hi ≤ m.size)
    (h32 : m.size < 2 ^ 32) (hH : ∀ i, H i → i < a) :
    ∃ m', writeToWasm T a (a + typeSize T) v true m = some (m', typeSize T, inLen T v) ∧
      m'.size = m.size ∧ (∀ i, i < a → m'.byte i = m.byte i) ∧ Rep m' ⟨hi, H⟩ T v (loadVals m' T a) := by
  have hsz := size_le T v hv
  obtain ⟨m', h1, h2, h3, h4⟩ := write_rep (off := a) (im := a + typeSize T) (m := m) hw hp hv
    ⟨by omega, by omega, by omega, h32⟩
  refine ⟨m', h1, h2, fun i hi => h3 i (by omega) (by omega), h4.mono (fun _ _ _ => rfl) ⟨?_, ?_⟩⟩
  · show a + typeSize T + inLen T v ≤ hi
    omega
  · intro i _ hi
    have := hH i hi
    show i < a + typeSize T
    omega

/-! ### Sender and caller -/

theorem prin_bytes {q : Principal} (hq : q.Ok) {a : BitVec 32} {m : Mem}
    (hs : a.toNat + PRINCIPAL_BYTES_MAX ≤ m.size) :
    ∃ m', writeToWasm .principal a.toNat a.toNat (.principal q) false m =
        some (m', 0, (principalBytes q).length) ∧
      m'.size = m.size ∧ (∀ i, i < a.toNat → m'.byte i = m.byte i) ∧
      bytesAt m' a.toNat (principalBytes q).length = principalBytes q := by
  have hl := length_principalBytes hq
  refine ⟨Host.put m a.toNat (principalBytes q), ?_, rfl, fun i hi => put_out (.inl hi), bytesAt_put _ _ _⟩
  simp only [writeToWasm, writeBytes, writeRepr]
  rw [memWrite_ok (by omega)]
  rfl

/-- `tx_sender` and `contract_caller`. -/
theorem good_prin {f : HostFn} {q : Principal} {c : Cx} {s : St} {Δ : TEnv} {Γ : Scope} {ρ : Env}
    (hM : p.M.host = hostFn) (hsig : (hostSig f).1.length = 2)
    (hf : ∀ g o l, g.host = Gen.put w s → hostFn f [.i32 o, .i32 l] g = writePrin g (some q) o) (hq : q.Ok)
    (ok : Ok p wr c w s Δ Γ ρ n (stackLocalSize .principal false true) 1 loc g) :
    Does p w d er n (stackLocalSize .principal false true)
      (allocCode n (stackLocalSize .principal false true) ++
        [lget n, c32 (stackLocalSize .principal false true), .call (.host f)]) stk stk loc g
      (.val (.principal q) s) (IsRep p .principal) := by
  have hsz : stackLocalSize .principal false true = PRINCIPAL_BYTES_MAX := rfl
  have hroom := ok.inv.room
  have hsmall := ok.inv.small
  have hlocs := ok.locs
  generalize hZ : stackLocalSize .principal false true = Z at *
  obtain ⟨loc1, g1, h1, h2, h3, -, h5, h6, h7⟩ := steps_alloc (M := p.M) (stk := stk) (n := n) (loc := loc)
    (g := g) (size := Z) (by omega) (by omega)
  obtain ⟨m', k1, k2, k3, k4⟩ := prin_bytes hq (a := g.g32 .stackPointer) (m := g1.mem) (by
    rw [h5, ← hsz]; show sp g + Z ≤ _; omega)
  have hl := length_principalBytes hq
  have hst : Steps p.M [.call (.host f)] ([Val.i32 (g.g32 .stackPointer), .i32 (BitVec.ofNat 32 Z)].reverse ++ stk)
      loc1 g1 ([Val.i32 (g.g32 .stackPointer), .i32 (BitVec.ofNat 32 (principalBytes q).length)].reverse ++ stk)
      loc1 (g1.setMem m') := by
    refine steps_host hM hsig.symm ?_
    rw [hf _ _ _ (by rw [h6]; exact ok.inv.host)]
    unfold writePrin
    simp only [k1]
    rfl
  refine Does.ends (h1.append ((steps_get h3).cons (steps_c32.cons hst))) (h2.write (fun i hi => k3 i hi) k2) ?_ ok.inv.st ?_
  · show g1.host = _
    rw [h6]; exact ok.inv.host
  · simp only [IsRep, Rep]
    refine ⟨hq, _, _, rfl, toNat_ofNat32 (by omega), ⟨?_, ?_⟩, k4⟩
    · show sp g + _ ≤ sp g1
      simp only [memBytes]; omega
    · intro i hi _ hh
      have : i < sp g := ok.inv.holes i hh
      have hi : sp g ≤ i := hi
      omega

theorem good_txSender (hM : p.M.host = hostFn) : EGood p k call wr .txSender := by
  intro T er Δ Γ ρ n w c s d stk loc g ht ok
  simp only [wt] at ht
  subst ht
  simp only [compile, eval] at ok ⊢
  refine good_prin hM rfl ?_ ok.cx.senderOk ok
  intro g o l hg
  simp only [hostFn]
  rw [hg]
  show writePrin g w.sender o = _
  rw [ok.cx.sender]

theorem good_contractCaller (hM : p.M.host = hostFn) : EGood p k call wr .contractCaller := by
  intro T er Δ Γ ρ n w c s d stk loc g ht ok
  simp only [wt] at ht
  subst ht
  simp only [compile, eval] at ok ⊢
  refine good_prin hM rfl ?_ ok.cx.callerOk ok
  intro g o l hg
  simp only [hostFn]
  rw [hg]
  show writePrin g w.caller o = _
  rw [ok.cx.caller]

/-! ### Data variables -/

theorem view_put {c : Cx} (h : CxOk c w wr) {s : St} : (Gen.put w s).view = s.db := by
  unfold World.view
  rw [if_pos (show (Gen.put w s).pending = true from h.pending)]
  rfl

theorem good_varGet (hC : ContractOk p.K) (hM : p.M.host = hostFn) (x : Name) :
    EGood p k call wr (.varGet x) := by
  intro T er Δ Γ ρ n w c s d stk loc g ht ok
  simp only [wt] at ht
  obtain ⟨hx, hT⟩ := ht
  obtain ⟨hw, hp⟩ := hC.vars x T hT
  obtain ⟨D, hd, rfl, hv⟩ := ok.inv.st.vars x T hT
  have hself := ok.cx.self
  rw [hself] at hd
  simp only [compile, List.length_singleton] at ok
  simp only [compile, eval, hd]
  have hsz : stackLocalSize D.ty true true = typeInMemorySize true D.ty + typeSize D.ty := rfl
  have hroom := ok.inv.room
  have hsmall := ok.inv.small
  have hlocs := ok.locs
  generalize hZ : stackLocalSize D.ty true true = Z at *
  obtain ⟨loc1, g1, h1, h2, h3, -, h5, h6, h7⟩ := steps_alloc (M := p.M) (stk := stk) (n := n) (loc := loc)
    (g := g) (size := Z) (by omega) (by omega)
  obtain ⟨m', k1, k2, k3, k4⟩ := host_value (a := sp g) (hi := sp g1) (m := g1.mem) (H := p.H) hw hp hv
    (by omega) (by rw [h5]; omega) (by rw [h5]; exact (by omega)) ok.inv.holes
  have hh : g1.host = Gen.put w s := by rw [h6]; exact ok.inv.host
  have hst : Steps p.M [.call (.host .get_variable)]
      ([Val.i32 (BitVec.ofNat 32 (p.K.off x)), .i32 (BitVec.ofNat 32 x.length),
        .i32 (g.g32 .stackPointer), .i32 (BitVec.ofNat 32 Z)].reverse ++ stk) loc1 g1
      (([] : List Val).reverse ++ stk) loc1 (g1.setMem m') := by
    refine steps_host hM rfl ?_
    simp only [hostFn, orErr]
    rw [h5, readIdent_lit ok.inv.lits hx ok.inv.sp_le (by omega)]
    simp only [getVariable]
    rw [hh, view_put ok.cx]
    show (match s.db.var w.contract x with | none => _ | some d => _) = _
    rw [hself, hd]
    simp only []
    have : (g.g32 .stackPointer).toNat = sp g := rfl
    rw [this, k1]
    rfl
  have hf := h2.write (m := m') (fun i hi => k3 i hi) k2
  have hrd := steps_readMem (M := p.M) (g := g1.setMem m') h3 D.ty 0 stk (by
    show sp g + 0 + _ ≤ m'.size
    rw [k2, h5]; omega)
  refine Does.ends (ws := loadVals m' D.ty (sp g)) ?_ hf hh ok.inv.st k4
  rw [List.append_assoc, List.append_assoc]
  refine h1.append (steps_addr.append (((steps_get h3).cons (steps_c32.cons hst)).append hrd))

theorem StOk.setVar {K : Ctx} {self : ContractId} {s : St} {x : Name} {D : DataVar} {v : Value}
    (h : StOk K self s) (hd : s.db.var self x = some D) (hv : HasType D.ty v) :
    StOk K self (s.setVar self x { D with val := v }) where
  vars y T hy := by
    obtain ⟨D', h1, h2, h3⟩ := h.vars y T hy
    by_cases e : y = x
    · subst e
      rw [hd] at h1
      cases h1
      exact ⟨{ D with val := v }, by simp [St.setVar, upd₂], h2, by rw [← h2]; exact hv⟩
    · exact ⟨D', by simpa [St.setVar, upd₂, e] using h1, h2, h3⟩
  maps := h.maps
  fts := h.fts

theorem put_setVar {s : St} {x : Name} {D : DataVar} {c : ContractId} (hc : w.contract = c) :
    (Gen.put w s).setDb { (Gen.put w s).cur.db with
      var := upd₂ (Gen.put w s).cur.db.var (Gen.put w s).contract x D } = Gen.put w (s.setVar c x D) := by
  subst hc; rfl

/-- Storing a value in reserved space `[a, a + size)` that it does not lie in. -/
theorem stored_value {T : Ty} {v : Value} {ws : List Val} {ol m : Nat} {a : BitVec 32} {g : Store World}
    {hi : Nat} {H : Nat → Prop}
    (ha : loc[ol]? = some (.i32 a)) (ho : ol < m) (hl : m + (writeMem ol T 0 m).ls.length ≤ loc.length)
    (hs : a.toNat + typeSize T ≤ g.mem.size) (hr : Rep g.mem ⟨hi, H⟩ T v ws)
    (hH : ∀ i, a.toNat ≤ i → i < a.toNat + typeSize T → H i ∨ hi ≤ i) :
    ∃ loc' m', Steps p.M (writeMem ol T 0 m).is (ws.reverse ++ stk) loc g stk loc' (g.setMem m') ∧
      loc'.length = loc.length ∧ (∀ i, i < m ∨ m + (writeMem ol T 0 m).ls.length ≤ i → loc'[i]? = loc[i]?) ∧
      m'.size = g.mem.size ∧
      (∀ i, i < a.toNat ∨ a.toNat + typeSize T ≤ i → m'.byte i = g.mem.byte i) ∧
      Rep m' ⟨hi, H⟩ T v (loadVals m' T a.toNat) := by
  obtain ⟨loc', m', hst, hld⟩ := stored_writeMem (M := p.M) T 0 m stk loc g ws ha ho hl hs hr.ty
  refine ⟨loc', m', hst.steps, hst.len, hst.keep, hst.msize, hst.out, ?_⟩
  rw [Nat.add_zero] at hld
  rw [hld]
  refine hr.clean.mono (fun i h1 h2 => hst.out i ?_) ⟨Nat.le_refl _, fun _ _ h => h⟩
  by_cases h : i < a.toNat ∨ a.toNat + typeSize T ≤ i
  · exact h
  · have := hH i (by omega) (by omega)
    rcases this with h | h
    · exact absurd h h2
    · have : i < hi := h1
      omega

theorem good_varSet (hC : ContractOk p.K) (hM : p.M.host = hostFn) {x : Name} {e : Expr}
    (he : EGood p k call wr e) : EGood p k call wr (.varSet x e) := by
  intro T er Δ Γ ρ n w c s d stk loc g ht ok
  simp only [wt] at ht
  obtain ⟨rfl, hwr, hx, D, hD, ht⟩ := ht
  obtain ⟨hw, hp⟩ := hC.vars x D hD
  simp only [compile, hD, Option.getD_some, List.length_append, List.length_cons] at ok
  simp only [compile, eval, hD, Option.getD_some, List.append_assoc]
  generalize hA : compile p.K p.R e D d Γ n = A at *
  have hsz : stackLocalSize D true false = typeSize D := rfl
  generalize hZ : stackLocalSize D true false = Z at *
  refine he.then ht hA ok ?_
  intro v s' ws loc1 g1 _ hf1 ok1 hr
  have hroom := ok1.inv.room
  have hsmall := ok1.inv.small
  have hlocs := ok1.locs
  obtain ⟨loc2, g2, h1, h2, h3, -, h5, h6, h7⟩ := steps_alloc (M := p.M) (stk := ws.reverse ++ stk)
    (n := n + A.ls.length) (loc := loc1) (g := g1) (size := Z) (by omega) (by omega)
  obtain ⟨loc3, m3, k1, k2, k3, k4, k5, k6⟩ := stored_value (p := p) (T := D) (stk := stk) (loc := loc2) (g := g2)
    (m := n + A.ls.length + 1) (H := p.H) h3 (Nat.lt_succ_self _) (by rw [h2.len]; omega)
    (by rw [h5]; show sp g1 + _ ≤ _; omega) (by rw [h5]; exact hr)
    (fun i hi _ => .inr hi)
  have hs1 : sp g1 = (g1.g32 .stackPointer).toNat := rfl
  rw [← hs1] at k5 k6
  obtain ⟨DV, hd, hty, hv⟩ := ok1.inv.st.vars x D hD
  have hself := ok1.cx.self
  rw [hself] at hd
  have h3' : loc3[n + A.ls.length]? = some (.i32 (g1.g32 .stackPointer)) := by
    rw [k3 _ (.inl (Nat.lt_succ_self _))]; exact h3
  have hh : g2.host = Gen.put w s' := by rw [h6]; exact ok1.inv.host
  have hlit : LitOk p.K m3 (p.reg g1) := by
    intro y hy
    have := ok1.inv.lits y hy
    refine ⟨this.1, ?_⟩
    rw [bytesAt_eq (m := g1.mem) fun i _ h => by
      rw [k5 i (.inl (Nat.lt_of_lt_of_le h this.1.1)), h5], this.2]
  have hst : Steps p.M [.call (.host .set_variable)]
      ([Val.i32 (BitVec.ofNat 32 (p.K.off x)), .i32 (BitVec.ofNat 32 x.length),
        .i32 (g1.g32 .stackPointer), .i32 (BitVec.ofNat 32 Z)].reverse ++ stk) loc3 (g2.setMem m3)
      (([] : List Val).reverse ++ stk) loc3
      (withHost (g2.setMem m3) (Gen.put w (s'.setVar c.self x { DV with val := v }))) := by
    refine steps_host hM rfl ?_
    simp only [hostFn, orErr]
    rw [show (g2.setMem m3).mem = m3 from rfl,
      readIdent_lit hlit hx (by rw [k4, h5]; exact ok1.inv.sp_le) (by rw [k4, h5]; exact (by omega))]
    simp only [setVariable]
    rw [show (g2.setMem m3).host = Gen.put w s' from hh, view_put ok1.cx]
    show (match s'.db.var w.contract x with | none => _ | some d => _) = _
    rw [hself, hd]
    simp only []
    rw [show (g2.setMem m3).mem = m3 from rfl, hty, readArg_rep hw hp (by show sp g1 ≤ _; rw [k4, h5]; exact ok1.inv.sp_le)
      (by rw [k4, h5]; show sp g1 + _ ≤ _; omega) k6]
    simp only []
    rw [if_pos k6.hasType, put_setVar hself]
  simp only [hd]
  have hf2 : Fr (n + A.ls.length) Z loc1 loc3 g1 (g2.setMem m3) := by
    have := h2.write (m := m3) (fun i hi => k5 i (.inl hi)) k4
    exact ⟨by rw [k2, this.len], fun i hi => by rw [k3 i (.inl (by omega)), this.keep i hi], this.mem,
      this.size, this.lo, this.hi⟩
  refine Does.ends (ws := encB true) ?_ (g1 := withHost (g2.setMem m3) (Gen.put w (s'.setVar c.self x { DV with val := v })))
    ⟨hf2.len, hf2.keep, hf2.mem, hf2.size, hf2.lo, hf2.hi⟩ rfl ?_ (rep_bool true)
  · exact h1.append (k1.append (steps_addr.append ((steps_get h3').cons (steps_c32.cons (hst.cons steps_c32)))))
  · rw [hself]
    exact (hself ▸ ok1.inv.st).setVar hd (by rw [hty]; exact k6.hasType)

end
end Gen
