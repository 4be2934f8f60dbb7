import Verif.Gen.DesProof
import Verif.Gen.ExprProof5

/-! The generated deserialization code: optionals, responses, lists. -/

namespace Gen
open Wasm Spec Host

variable {σ : Type} {M : Wasm.Mod σ}

/-- The code `a` reads values of the type `t`. -/
def DGood (M : Wasm.Mod σ) (t : Ty) (a : Emit) (ol el rl n S : Nat) : Prop :=
  ∀ (lo : Nat) (o e r : BitVec 32) (stk loc : List Val) (g : Store σ), Din ol el rl n lo o e r S loc g →
    n + a.ls.length ≤ loc.length → decode t (input g.mem o e) ≠ .deviates →
    DSteps M a.is t (decode t (input g.mem o e)) ol rl n lo e r S stk loc g

theorem Dfin.ty {T : Ty} {d : Dec Value} {ol rl n lo : Nat} {e r : BitVec 32} {S : Nat} {loc : List Val} {g : Store σ}
    {ok : BitVec 32} {ws loc' : List Val} {m' : Mem} {o' r' : BitVec 32}
    (h : Dfin T d ol rl n lo e r S loc g ok ws loc' m' o' r') (hd : d ≠ .deviates) : ws.map Val.ty = wty T := by
  have ho := h.out
  cases d with
  | val v rest => exact ho.2.2.ty
  | bad => exact ho.2
  | deviates => exact absurd rfl hd

theorem input_cons {m : Mem} {o e : BitVec 32} (h : o.toNat < e.toNat) :
    input m o e = m.byte o.toNat :: input m (o + 1#32) e := by
  have := e.isLt
  have e1 : (o + 1#32).toNat = o.toNat + 1 := add_k (k := 1) (by omega)
  rw [input, input, e1, show e.toNat - o.toNat = (e.toNat - (o.toNat + 1)) + 1 by omega]
  rfl

theorem setMem_setMem' (g : Store σ) (a b : Mem) : (g.setMem a).setMem b = g.setMem b := rfl

/-- Skip the prefix, read a value and save it. -/
theorem wp_inner {t : Ty} {a : Emit} {ol el rl n n1 s lo S S' : Nat} {o e r : BitVec 32} {stk loc : List Val}
    {g : Store σ} {rest : List Instr} {Q : Res σ → Prop} (hg : DGood M t a ol el rl n1 S')
    (H : Din ol el rl n lo o e r S loc g) (hS : S' ≤ S) (hn : n ≤ n1) (hs : n1 + a.ls.length ≤ s)
    (hl : s + (wty t).length ≤ loc.length) (ho : o.toNat < e.toNat)
    (hd : decode t (input g.mem (o + 1#32) e) ≠ .deviates)
    (k : ∀ ok ws loc' m' o' r', Dfin t (decode t (input g.mem (o + 1#32) e)) ol rl n lo e r S loc g ok ws loc' m' o' r' →
      (saveLocals t s).map (loc'[·]?) = ws.map some → WP M rest (.i32 ok :: stk) loc' (g.setMem m') Q) :
    WP M (incr ol 1 ++ (a.is ++ (saveCode t s ++ rest))) stk loc g Q := by
  obtain ⟨vo, ve, vr, h1, h2, h3, h4, h5, h6, h7, h8, h9, h10, h11, h12⟩ := H
  have e1 : (o + 1#32).toNat = o.toNat + 1 := add_k (k := 1) (by omega)
  unfold incr plus lget lset c32
  simp only [List.cons_append, List.nil_append]
  wpl [vo]
  have H1 : Din ol el rl n1 lo (o + 1#32) e r S' (loc.set ol (.i32 (o + 1#32))) g := by
    refine ⟨?_, ?_, ?_, by omega, by omega, by omega, h4, h5, h6, by simp; omega, by omega, by omega, h10, by omega, h12⟩
    · wpl
    · wpl [ve]
    · wpl [vr]
  obtain ⟨ok, ws, loc1, m1, o1, r1, st1, f1⟩ := hg lo _ _ _ stk _ _ H1 (by simp; omega) hd
  refine (st1 _ _).2 ?_
  have hty := f1.ty hd
  have hlen1 : loc1.length = loc.length := by rw [f1.keep.1, List.length_set]
  obtain ⟨loc2, st2, l2, k2, v2⟩ := steps_save (M := M) (s := .i32 ok :: stk) (loc := loc1) (g := g.setMem m1) t s ws
    (by rw [← hty, List.length_map]) (by omega)
  refine (st2 _ _).2 (k ok ws loc2 m1 o1 r1 ?_ v2)
  have keep2 : Keep n [ol, rl] loc1 loc2 := ⟨l2, fun i hi _ => k2 i (.inl (by omega))⟩
  have keep1 : Keep n [ol, rl] loc loc1 :=
    (Keep.refl.set (.inr (by simp))).trans f1.keep (by omega) (fun i _ h => h)
  refine ⟨keep1.trans keep2 (Nat.le_refl _) (fun i _ h => h), ?_, ?_, f1.rlo, by have := f1.rhi; omega, f1.size,
    fun i hi => f1.mem i (by omega), f1.out⟩
  · have := k2 ol (.inl (by omega))
    rw [nth_of_lt (by omega), nth_of_lt (by omega)] at this
    rw [Option.some.inj this, f1.vo]
  · have := k2 rl (.inl (by omega))
    rw [nth_of_lt (by omega), nth_of_lt (by omega)] at this
    rw [Option.some.inj this, f1.vr]

theorem wp_ph {T : Ty} {rest : List Instr} {stk loc : List Val} {g : Store σ} {Q : Res σ → Prop} :
    WP M (placeholder T ++ rest) stk loc g Q ↔ WP M rest (((wty T).map VT.zero).reverse ++ stk) loc g Q :=
  steps_placeholder T rest Q

theorem wp_ph' {T : Ty} {stk loc : List Val} {g : Store σ} {Q : Res σ → Prop} :
    WP M (placeholder T) stk loc g Q ↔ Q (.norm (((wty T).map VT.zero).reverse ++ stk) loc g) :=
  (steps_placeholder T).wp

theorem take_ph {T : Ty} {a b : Val} : List.take (2 + (wty T).length) (((wty T).map VT.zero).reverse ++ [a, b]) =
    ((wty T).map VT.zero).reverse ++ [a, b] := by
  rw [List.take_of_length_le]
  simp; omega

theorem des_opt {t : Ty} {a : Emit} {ol el rl n S : Nat} (hg : DGood M t a ol el rl (n + 1) S) :
    DGood M (.opt t) (desOpt t a ol el n) ol el rl n S := by
  intro lo o e r stk loc g H hn hdev
  obtain ⟨vo, ve, vr, h1, h2, h3, h4, h5, h6, h7, h8, h9, h10, h11, h12⟩ := H
  have H := Din.mk vo ve vr h1 h2 h3 h4 h5 h6 h7 h8 h9 h10 h11 h12
  simp only [desOpt, List.length_cons, List.length_append] at hn
  have e1 : (o + 1#32).toNat = o.toNat + 1 := add_k (k := 1) (by omega)
  have hz : (Val.i32 0#32 :: (wty t).map VT.zero).map Val.ty = wty (.opt t) := by
    rw [List.map_cons, zeros_ty]; rfl
  have hz' : ∀ x, ((wty t).map VT.zero).reverse ++ Val.i32 0#32 :: Val.i32 x :: stk =
      (Val.i32 0#32 :: (wty t).map VT.zero).reverse ++ Val.i32 x :: stk := by
    intro x; simp
  apply DSteps.of_wp
  unfold desOpt
  simp only
  generalize hX : incr ol 1 ++ a.is ++ saveCode t (n + 1 + a.ls.length) ++ _ ++ _ = X
  unfold incr plus lget lset c32 load8
  simp only [List.cons_append, List.nil_append, List.append_assoc]
  wpl [vo, ve, wp_ph, wp_ph', take_ph, List.append_assoc, List.cons_append, List.nil_append]
  by_cases hc : e.toNat ≤ o.toNat
  · rw [show input g.mem o e = [] by rw [input, show e.toNat - o.toNat = 0 by omega]; rfl]
    wif hc
    exact DTo.fail H (Val.i32 0#32 :: (wty t).map VT.zero) hz (hz' _) Keep.refl vo vr
  wif hc
  rw [input_cons (by omega)] at hdev ⊢
  simp only [decode] at hdev ⊢
  have b9 := byte_eq (m := g.mem) (a := o.toNat) (t := 0x09#8) (w := 9#32) rfl
  have b10 := byte_eq (m := g.mem) (a := o.toNat) (t := 0x0a#8) (w := 10#32) rfl
  by_cases t9 : g.mem.byte o.toNat = 0x09#8
  · rw [if_pos t9]
    wif (b9.2 t9)
    refine DTo.done (o' := o + 1#32) H (Val.i32 0#32 :: (wty t).map VT.zero) (hz' _)
      ((Keep.refl.set (.inl (by omega))).set (.inr (by simp))) ?_ ?_ ?_ (rep_none (zeros_ty _))
    · wpl
    · wpl [vr]
    · rw [input, e1, Wasm.length_bytesAt]; omega
  rw [if_neg t9] at hdev ⊢
  wif (mt b9.1 t9)
  by_cases t10 : g.mem.byte o.toNat = 0x0a#8
  swap
  · rw [if_neg t10]
    wif (mt b10.1 t10)
    refine DTo.fail (o' := o) H (Val.i32 0#32 :: (wty t).map VT.zero) hz (hz' _) (Keep.refl.set (.inl (by omega))) ?_ ?_
    · wpl [vo]
    · wpl [vr]
  rw [if_pos t10] at hdev ⊢
  wif (b10.2 t10)
  subst hX
  simp only [List.append_assoc]
  obtain ⟨loc0, hl0⟩ : ∃ l0, l0 = loc.set n (.i32 (BitVec.ofNat 32 (g.mem.read o.toNat 1))) := ⟨_, rfl⟩
  rw [← hl0]
  have len0 : loc0.length = loc.length := by rw [hl0, List.length_set]
  have keep0 : Keep n [ol, rl] loc loc0 := by rw [hl0]; exact Keep.refl.set (.inl (by omega))
  have H0 : Din ol el rl n lo o e r S loc0 g := by
    refine ⟨?_, ?_, ?_, h1, h2, h3, h4, h5, h6, by omega, h8, h9, h10, h11, h12⟩
    all_goals rw [hl0]
    · wpl [vo]
    · wpl [ve]
    · wpl [vr]
  have hdi : decode t (input g.mem (o + 1#32) e) ≠ .deviates := fun h => hdev (by rw [h]; rfl)
  refine wp_inner hg H0 (Nat.le_refl _) (by omega) (Nat.le_refl _) (by omega) (by omega) hdi ?_
  intro ok ws loc' m' o' r' f hv
  have hty := f.ty hdi
  have hlen : ws.length = (wty t).length := by rw [← hty, List.length_map]
  have hkeep := keep0.trans f.keep (Nat.le_refl _) (fun _ _ h => h)
  have hout := f.out
  generalize hX : decode t (input g.mem (o + 1#32) e) = D at *
  unfold c32
  simp only [List.cons_append, List.nil_append]
  cases D with
  | deviates => exact absurd rfl hdi
  | bad =>
    obtain ⟨rfl, _⟩ := hout
    wpl [wp_ph, wp_ph', take_ph, List.append_assoc, List.cons_append, List.nil_append]
    rw [bind_bad]
    exact ⟨0#32, Val.i32 0#32 :: (wty t).map VT.zero, loc', m', o', r', by rw [hz'], hkeep, f.vo, f.vr, f.rlo, f.rhi,
      f.size, f.mem, rfl, hz⟩
  | val v rest =>
    obtain ⟨rfl, hlen', hrep⟩ := hout
    wpl [wp_ph, wp_ph', take_ph, List.append_assoc, List.cons_append, List.nil_append]
    refine (steps_getLocals hv).wp.2 ?_
    rw [bind_ok, blockK_norm, wp_nil, List.append_nil, blockK_norm, wp_nil]
    exact ⟨1#32, Val.i32 1#32 :: ws, loc', m', o', r', by simp, hkeep, f.vo, f.vr, f.rlo, f.rhi,
      f.size, f.mem, rfl, hlen', rep_some hrep⟩

theorem take_ph2 {T U : Ty} {a b : Val} : List.take (2 + ((wty T).length + (wty U).length))
    (((wty U).map VT.zero).reverse ++ (((wty T).map VT.zero).reverse ++ [a, b])) =
    ((wty U).map VT.zero).reverse ++ (((wty T).map VT.zero).reverse ++ [a, b]) := by
  rw [List.take_of_length_le]
  simp; omega

theorem des_resp {t u : Ty} {a b : Emit} {ol el rl n S S' : Nat} (hg : DGood M t a ol el rl (n + 1) S)
    (hg' : DGood M u b ol el rl (n + 1 + a.ls.length + (wty t).length) S') :
    DGood M (.resp t u) (desResp t u a b ol el n) ol el rl n (max S S') := by
  intro lo o e r stk loc g H hn hdev
  obtain ⟨vo, ve, vr, h1, h2, h3, h4, h5, h6, h7, h8, h9, h10, h11, h12⟩ := H
  have H := Din.mk vo ve vr h1 h2 h3 h4 h5 h6 h7 h8 h9 h10 h11 h12
  simp only [desResp, List.length_cons, List.length_append] at hn
  have e1 : (o + 1#32).toNat = o.toNat + 1 := add_k (k := 1) (by omega)
  have hz : (Val.i32 0#32 :: ((wty t).map VT.zero ++ (wty u).map VT.zero)).map Val.ty = wty (.resp t u) := by
    rw [List.map_cons, List.map_append, zeros_ty, zeros_ty]; rfl
  have hz' : ((wty u).map VT.zero).reverse ++ (((wty t).map VT.zero).reverse ++ Val.i32 0#32 :: Val.i32 0#32 :: stk) =
      (Val.i32 0#32 :: ((wty t).map VT.zero ++ (wty u).map VT.zero)).reverse ++ Val.i32 0#32 :: stk := by
    simp
  apply DSteps.of_wp
  unfold desResp
  simp only
  generalize hX : incr ol 1 ++ a.is ++ saveCode t (n + 1 + a.ls.length) ++ _ ++ _ ++ _ = X
  generalize hY : ([lget n, c32 8, _, _] : List Instr) ++ incr ol 1 ++ b.is ++ _ ++ _ ++ _ ++ _ = Y
  unfold lget c32 load8
  simp only [List.cons_append, List.append_assoc]
  wpl [vo, ve, wp_ph, wp_ph', take_ph2, List.append_assoc, List.cons_append, List.nil_append]
  by_cases hc : e.toNat ≤ o.toNat
  · rw [show input g.mem o e = [] by rw [input, show e.toNat - o.toNat = 0 by omega]; rfl]
    wif hc
    exact DTo.fail H (Val.i32 0#32 :: ((wty t).map VT.zero ++ (wty u).map VT.zero)) hz hz' Keep.refl vo vr
  wif hc
  rw [input_cons (by omega)] at hdev ⊢
  simp only [decode] at hdev ⊢
  have b7 := byte_eq (m := g.mem) (a := o.toNat) (t := 0x07#8) (w := 7#32) rfl
  have b8 := byte_eq (m := g.mem) (a := o.toNat) (t := 0x08#8) (w := 8#32) rfl
  obtain ⟨loc0, hl0⟩ : ∃ l0, l0 = loc.set n (.i32 (BitVec.ofNat 32 (g.mem.read o.toNat 1))) := ⟨_, rfl⟩
  have v0 : nth loc0 n = .i32 (BitVec.ofNat 32 (g.mem.read o.toNat 1)) := by rw [hl0]; wpl
  rw [← hl0]
  have len0 : loc0.length = loc.length := by rw [hl0, List.length_set]
  have keep0 : Keep n [ol, rl] loc loc0 := by rw [hl0]; exact Keep.refl.set (.inl (by omega))
  have H0 : Din ol el rl n lo o e r (max S S') loc0 g := by
    refine ⟨?_, ?_, ?_, h1, h2, h3, h4, h5, h6, by omega, h8, h9, h10, h11, h12⟩
    all_goals rw [hl0]
    · wpl [vo]
    · wpl [ve]
    · wpl [vr]
  by_cases t7 : g.mem.byte o.toNat = 0x07#8
  · rw [if_pos t7] at hdev ⊢
    wif (b7.2 t7)
    subst hX
    simp only [List.append_assoc]
    have hdi : decode t (input g.mem (o + 1#32) e) ≠ .deviates := fun h => hdev (by rw [h]; rfl)
    refine wp_inner hg H0 (Nat.le_max_left _ _) (by omega) (Nat.le_refl _) (by omega) (by omega) hdi ?_
    intro ok ws loc' m' o' r' f hv
    have hty := f.ty hdi
    have hlen : ws.length = (wty t).length := by rw [← hty, List.length_map]
    have hkeep := keep0.trans f.keep (Nat.le_refl _) (fun _ _ h => h)
    have hout := f.out
    generalize hX : decode t (input g.mem (o + 1#32) e) = D at *
    unfold c32
    simp only [List.cons_append, List.nil_append]
    cases D with
    | deviates => exact absurd rfl hdi
    | bad =>
      obtain ⟨rfl, _⟩ := hout
      wpl [wp_ph, wp_ph', take_ph2, List.append_assoc, List.cons_append, List.nil_append]
      rw [bind_bad]
      exact ⟨0#32, _, loc', m', o', r', by rw [hz'], hkeep, f.vo, f.vr, f.rlo, f.rhi,
        f.size, f.mem, rfl, hz⟩
    | val v rest =>
      obtain ⟨rfl, hlen', hrep⟩ := hout
      wpl [wp_ph, wp_ph', take_ph2, List.append_assoc, List.cons_append, List.nil_append]
      refine (steps_getLocals hv _ _).2 ?_
      rw [wp_ph', bind_ok, blockK_norm, wp_nil, List.append_nil, blockK_norm, wp_nil]
      exact ⟨1#32, Val.i32 1#32 :: (ws ++ (wty u).map VT.zero), loc', m', o', r', by simp, hkeep, f.vo, f.vr, f.rlo, f.rhi,
        f.size, f.mem, rfl, hlen', rep_ok hrep (zeros_ty _)⟩
  rw [if_neg t7] at hdev ⊢
  wif (mt b7.1 t7)
  subst hY
  generalize hX : incr ol 1 = X1
  unfold lget c32
  simp only [List.cons_append, List.nil_append, List.append_assoc]
  wpl [v0, wp_ph, wp_ph', take_ph2, List.append_assoc, List.cons_append, List.nil_append]
  subst hX
  by_cases t8 : g.mem.byte o.toNat = 0x08#8
  swap
  · rw [if_neg t8]
    rw [if_neg (fun h => h (mt b8.1 t8))]
    exact DTo.fail (o' := o) H (Val.i32 0#32 :: ((wty t).map VT.zero ++ (wty u).map VT.zero)) hz hz' keep0
      H0.vo H0.vr
  rw [if_pos t8] at hdev ⊢
  rw [if_pos (fun h => h (b8.2 t8))]
  have hdi : decode u (input g.mem (o + 1#32) e) ≠ .deviates := fun h => hdev (by rw [h]; rfl)
  refine wp_inner hg' H0 (Nat.le_max_right _ _) (by omega) (Nat.le_refl _) (by omega) (by omega) hdi ?_
  intro ok ws loc' m' o' r' f hv
  have hty := f.ty hdi
  have hlen : ws.length = (wty u).length := by rw [← hty, List.length_map]
  have hkeep := keep0.trans f.keep (Nat.le_refl _) (fun _ _ h => h)
  have hout := f.out
  generalize hX : decode u (input g.mem (o + 1#32) e) = D at *
  cases D with
  | deviates => exact absurd rfl hdi
  | bad =>
    obtain ⟨rfl, _⟩ := hout
    wpl [wp_ph, wp_ph', take_ph2, List.append_assoc, List.cons_append, List.nil_append]
    rw [bind_bad]
    exact ⟨0#32, _, loc', m', o', r', by rw [hz'], hkeep, f.vo, f.vr, f.rlo, f.rhi,
      f.size, f.mem, rfl, hz⟩
  | val v rest =>
    obtain ⟨rfl, hlen', hrep⟩ := hout
    wpl [wp_ph, wp_ph', take_ph2, List.append_assoc, List.cons_append, List.nil_append]
    refine (steps_getLocals hv).wp.2 ?_
    rw [bind_ok, blockK_norm, wp_nil, List.append_nil, blockK_norm, wp_nil]
    exact ⟨1#32, Val.i32 0#32 :: ((wty t).map VT.zero ++ ws), loc', m', o', r', by simp, hkeep, f.vo, f.vr, f.rlo, f.rhi,
      f.size, f.mem, rfl, hlen', rep_err hrep (zeros_ty _)⟩

/-- A value written to memory whose parts are elsewhere. -/
theorem stored_rep {T : Ty} {v : Value} {ws : List Val} {ol m : Nat} {a : BitVec 32} {g : Store σ} {b : Reg}
    {stk loc : List Val}
    (ha : loc[ol]? = some (.i32 a)) (ho : ol < m) (hl : m + (writeMem ol T 0 m).ls.length ≤ loc.length)
    (hs : a.toNat + typeSize T ≤ g.mem.size) (hr : Rep g.mem b T v ws)
    (hH : ∀ i, a.toNat ≤ i → i < a.toNat + typeSize T → b.hole i ∨ b.hi ≤ i) :
    ∃ loc' m', Steps M (writeMem ol T 0 m).is (ws.reverse ++ stk) loc g stk loc' (g.setMem m') ∧
      loc'.length = loc.length ∧ (∀ i, i < m ∨ m + (writeMem ol T 0 m).ls.length ≤ i → loc'[i]? = loc[i]?) ∧
      m'.size = g.mem.size ∧
      (∀ i, i < a.toNat ∨ a.toNat + typeSize T ≤ i → m'.byte i = g.mem.byte i) ∧
      Rep m' b T v (loadVals m' T a.toNat) := by
  obtain ⟨loc', m', hst, hld⟩ := stored_writeMem (M := M) T 0 m stk loc g ws ha ho hl hs hr.ty
  refine ⟨loc', m', hst.steps, hst.len, hst.keep, hst.msize, hst.out, ?_⟩
  rw [Nat.add_zero] at hld
  rw [hld]
  refine hr.clean.mono (fun i h1 h2 => hst.out i ?_) ⟨Nat.le_refl _, fun _ _ h => h⟩
  by_cases h : i < a.toNat ∨ a.toNat + typeSize T ≤ i
  · exact h
  · have := hH i (by omega) (by omega)
    rcases this with h | h
    · exact absurd h h2
    · have : i < b.hi := h1
      omega

theorem rest_bytes {m : Mem} {a k : Nat} {X rest : List Byte} (h : bytesAt m a k = X ++ rest) :
    rest = bytesAt m (a + k - rest.length) rest.length := by
  have hl := congrArg List.length h
  rw [Wasm.length_bytesAt, List.length_append] at hl
  rw [show k = X.length + rest.length by omega, bytesAt_add] at h
  have := (List.append_inj h (by rw [Wasm.length_bytesAt])).2
  rw [show a + k - rest.length = a + X.length by omega]
  exact this.symm

theorem rest_input {T : Ty} {m : Mem} {o e o' : BitVec 32} {v : Value} {rest : List Byte} (ho : o.toNat ≤ e.toNat)
    (h : decode T (input m o e) = .val v rest) (h' : o'.toNat + rest.length = e.toNat) :
    rest = input m o' e ∧ o.toNat ≤ o'.toNat := by
  obtain ⟨_, h1⟩ := decode_sound h
  have hl := congrArg List.length h1
  rw [input, Wasm.length_bytesAt, List.length_append] at hl
  have h2 := rest_bytes h1
  rw [show o.toNat + (e.toNat - o.toNat) - rest.length = o'.toNat by omega,
    show rest.length = e.toNat - o'.toNat by omega] at h2
  exact ⟨h2, by omega⟩

theorem decodeN_next {f : List Byte → Dec Value} {k : Nat} {bs rest : List Byte} {v : Value} {vs : List Value}
    (h : f bs = .val v rest) :
    ((decodeN f (k + 1) bs).bind fun us r => .val (vs ++ us) r) =
      (decodeN f k rest).bind fun us r => .val ((vs ++ [v]) ++ us) r := by
  rw [decodeN, h, bind_ok]
  cases decodeN f k rest with
  | val us r => simp [bind_ok]
  | bad => rfl
  | deviates => rfl

/-- The state before the element `i` is read, when `k` elements are left. -/
structure LInv (t : Ty) (ol el rl n lo : Nat) (e r l : BitVec 32) (S sp : Nat) (D : Dec (List Value)) (loc : List Val)
    (g : Store σ) (k : Nat) (loc' : List Val) (i : Nat) (vs : List Value) (m' : Mem) (o' r' : BitVec 32) : Prop where
  cnt : i + k = l.toNat
  num : vs.length = i
  keep : Keep n [ol, rl] loc loc'
  vo : nth loc' ol = .i32 o'
  vr : nth loc' rl = .i32 r'
  vl : nth loc' n = .i32 l
  vb : nth loc' (n + 1) = .i32 r
  va : nth loc' (n + 2) = .i32 (r + BitVec.ofNat 32 (i * typeSize t))
  vi : nth loc' (n + 3) = .i32 (BitVec.ofNat 32 i)
  o1 : lo ≤ o'.toNat
  o2 : o'.toNat ≤ e.toNat
  rlo : r.toNat + l.toNat * typeSize t ≤ r'.toNat
  rhi : r'.toNat ≤ r.toNat + l.toNat * typeSize t + i * sp
  size : m'.size = g.mem.size
  mem : ∀ i, i < r.toNat ∨ r.toNat + S ≤ i → m'.byte i = g.mem.byte i
  dec : D = (decodeN (decode t) k (input g.mem o' e)).bind fun us rest => .val (vs ++ us) rest
  rep : ∀ (j : Nat) x, vs[j]? = some x →
    Rep m' (dreg lo e.toNat (r.toNat + l.toNat * typeSize t) r'.toNat) t x (loadVals m' t (r.toNat + j * typeSize t))

theorem wp_list_loop {t : Ty} {a : Emit} {max ol el rl n lo S sp : Nat} {o e r l : BitVec 32} {D : Dec (List Value)}
    {stk loc loc0 : List Val} {g : Store σ} (hg : DGood M t a ol el rl (n + 4) sp)
    (H : Din ol el rl n lo o e r S loc g) (hS : S = max * (typeSize t + sp)) (hm : l.toNat ≤ max)
    (hn : n + (desList max t a ol el rl n).ls.length ≤ loc.length) (hD : D ≠ .deviates) {o0 r0 : BitVec 32}
    (h0 : LInv t ol el rl n lo e r l S sp D loc g l.toNat loc0 0 [] g.mem o0 r0) {body : List Instr}
    (hb : body = [lget (n + 3), lget n, .b (.i32rel .geU),
         .ite 0 0 [c32 1, lget (n + 1), lget n, c32 (typeSize t), .b (.i32bin .mul), .br 2] []] ++ a.is ++
        saveCode t (n + 4 + a.ls.length) ++ [.b .i32eqz, .ite 0 0 [c32 0, c32 0, c32 0, .br 2] []] ++
        getLocals (saveLocals t (n + 4 + a.ls.length)) ++
        (writeMem (n + 2) t 0 (n + 4 + a.ls.length + (wty t).length)).is ++
        incr (n + 2) (writeMem (n + 2) t 0 (n + 4 + a.ls.length + (wty t).length)).sz ++
        incr (n + 3) 1 ++ [.br 0]) :
    WP M [.loop 0 3 body] [] loc0 g (blockK M 3 [] stk
      (DTo (.list max t) (D.bind fun vs r => .val (.list vs) r) ol rl n lo e r S stk loc g)) := by
  obtain ⟨vo, ve, vr, h1, h2, h3, h4, h5, h6, h7, h8, h9, h10, h11, h12⟩ := H
  simp only [desList, List.length_cons, List.length_append] at hn
  refine wp_loop_inv (fun k loc' g' => ∃ i vs m' o' r', g' = g.setMem m' ∧
    LInv t ol el rl n lo e r l S sp D loc g k loc' i vs m' o' r') id l.toNat ⟨0, [], g.mem, o0, r0, rfl, h0⟩ ?_
  clear h0
  rintro k loc' g' ⟨i, vs, m', o', r', rfl, I⟩
  obtain ⟨cnt, num, keep, vo', vr', vl, vb, va, vi, o1, o2, rlo, rhi, size, mem, dec, rep⟩ := I
  have hlen : loc'.length = loc.length := keep.1
  have ve' : nth loc' el = .i32 e := by
    rw [keep.nth h2 (by simp; exact ⟨h4.symm, h6⟩) (by omega), ve]
  generalize hts : typeSize t = ts at *
  have p1 : l.toNat * ts ≤ max * ts := Nat.mul_le_mul_right _ hm
  have p2 : i * sp ≤ max * sp := Nat.mul_le_mul_right _ (by omega)
  have hS2 : S = max * ts + max * sp := by rw [hS, Nat.mul_add]
  have ei : (BitVec.ofNat 32 i).toNat = i := by rw [BitVec.toNat_ofNat]; omega
  subst hb
  generalize hR : saveCode t _ = SC
  generalize hU : getLocals _ = GL
  unfold incr plus lget c32
  simp only [List.cons_append, List.nil_append, List.append_assoc]
  wpl [vi, vl, vb, ei]
  subst hR hU
  by_cases hk : l.toNat ≤ i
  · wif hk
    have hk0 : k = 0 := by omega
    subst hk0
    rw [decodeN, bind_ok, List.append_nil] at dec
    subst dec
    have ml : (l * BitVec.ofNat 32 ts).toNat = l.toNat * ts := by
      rw [BitVec.toNat_mul, BitVec.toNat_ofNat, Nat.mul_mod_mod, Nat.mod_eq_of_lt (by omega)]
    show loopK M 0 3 _ [] [] (blockK M 3 [] stk _) (.br 1 [.i32 _, .i32 _, .i32 _] _ _)
    wpl
    show DTo (.list max t) (.val (.list vs) (input g.mem o' e)) ol rl n lo e r S stk loc g (.norm _ loc' (g.setMem m'))
    refine ⟨1#32, [.i32 r, .i32 (l * BitVec.ofNat 32 ts)], loc', m', o', r', rfl, keep, vo', vr', by omega, by omega,
      size, mem, rfl, ?_, ?_⟩
    · rw [input, Wasm.length_bytesAt]; omega
    · simp only [Rep]
      refine ⟨vs, _, _, rfl, by omega, rfl, by rw [ml, hts]; congr 1; omega, ?_, ?_⟩
      · rw [ml]
        refine ⟨?_, ?_⟩
        · show _ ≤ r'.toNat
          omega
        · intro j hj _ hh
          have := hh.2
          omega
      · intro j x hj
        rw [hts]
        have hle : (dreg lo e.toNat (r.toNat + l.toNat * ts) r'.toNat).Le (dreg lo e.toNat r.toNat r'.toNat) :=
          ⟨Nat.le_refl _, fun q _ hq => ⟨hq.1, by have := hq.2; omega⟩⟩
        exact (rep j x hj).mono (fun _ _ _ => rfl) hle
  wif hk
  obtain ⟨k, rfl⟩ : ∃ j, k = j + 1 := ⟨k - 1, by omega⟩
  have p3 : (i + 1) * sp ≤ max * sp := Nat.mul_le_mul_right _ (by omega)
  have p4 : (i + 1) * ts ≤ l.toNat * ts := Nat.mul_le_mul_right _ (by omega)
  have p5 : (i + 1) * ts = i * ts + ts := by rw [Nat.add_mul, Nat.one_mul]
  have p6 : (i + 1) * sp = i * sp + sp := by rw [Nat.add_mul, Nat.one_mul]
  have hin : ∀ x : BitVec 32, input m' x e = input g.mem x e := by
    intro x
    exact bytesAt_congr fun j hj => mem _ (.inl (by omega))
  have H1 : Din ol el rl (n + 4) lo o' e r' sp loc' (g.setMem m') := by
    refine ⟨vo', ve', vr', by omega, by omega, by omega, h4, h5, h6, by omega, o1, o2, by omega, ?_, ?_⟩
    · rw [mem_setMem, size]; omega
    · rw [mem_setMem, size]; exact h12
  have hdi : decode t (input g.mem o' e) ≠ .deviates := by
    intro h
    rw [decodeN, h] at dec
    exact hD dec
  obtain ⟨ok, ws, loc1, m1, o1', r1, st1, f1⟩ := hg lo _ _ _ [] _ _ H1 (by omega) (by rw [mem_setMem, hin]; exact hdi)
  refine (st1 _ _).2 ?_
  rw [mem_setMem, hin] at f1
  have hty := f1.ty hdi
  obtain ⟨keep1, f1o, f1r, f1lo, f1hi, f1s, f1m, f1out⟩ := f1
  rw [mem_setMem] at f1s f1m
  have hlen1 : loc1.length = loc.length := by rw [keep1.1, hlen]
  obtain ⟨loc2, st2, l2, k2, v2⟩ := steps_save (M := M) (s := [.i32 ok]) (loc := loc1) (g := (g.setMem m').setMem m1) t
    (n + 4 + a.ls.length) ws (by rw [← hty, List.length_map]) (by omega)
  refine (st2 _ _).2 ?_
  have n2 : ∀ j, j < n + 4 → nth loc2 j = nth loc1 j := by
    intro j hj
    have := k2 j (.inl (by omega))
    rw [nth_of_lt (by omega), nth_of_lt (by omega)] at this
    exact Option.some.inj this
  have n1 : ∀ j, j < n + 4 → j ≠ ol → j ≠ rl → nth loc1 j = nth loc' j := fun j hj hj1 hj2 =>
    keep1.nth hj (by simp; exact ⟨hj1, hj2⟩) (by omega)
  have K1 : Keep n [ol, rl] loc loc1 := keep.trans keep1 (by omega) (fun _ _ h => h)
  have K2 : Keep n [ol, rl] loc loc2 :=
    K1.trans (⟨l2, fun i hi _ => k2 i (.inl (by omega))⟩ : Keep n [ol, rl] loc1 loc2) (Nat.le_refl _) (fun _ _ h => h)
  have M1 : ∀ i, i < r.toNat ∨ r.toNat + S ≤ i → m1.byte i = g.mem.byte i := by
    intro j hj
    rw [f1m j (by omega), mem j hj]
  rw [setMem_setMem']
  generalize hE : decode t (input g.mem o' e) = E at *
  cases E with
  | deviates => exact absurd rfl hdi
  | bad =>
    obtain ⟨rfl, _⟩ := f1out
    rw [decodeN, hE, bind_bad, bind_bad] at dec
    subst dec
    wpl
    show loopK M 0 3 _ [] [] (blockK M 3 [] stk _) (.br 1 [.i32 _, .i32 _, .i32 _] _ _)
    wpl
    show DTo (.list max t) .bad ol rl n lo e r S stk loc g (.norm _ loc2 (g.setMem m1))
    exact ⟨0#32, [.i32 0#32, .i32 0#32], loc2, m1, o1', r1, rfl, K2, by rw [n2 _ (by omega), f1o],
      by rw [n2 _ (by omega), f1r], by omega, by omega, by rw [f1s, size], M1, rfl, rfl⟩
  | val v rest =>
    obtain ⟨rfl, hl', hrep⟩ := f1out
    obtain ⟨hrest, hmono⟩ := rest_input o2 hE hl'
    wpl
    refine (steps_getLocals v2 _ _).2 ?_
    have ea : (r + BitVec.ofNat 32 (i * ts)).toNat = r.toNat + i * ts := add_k (by omega)
    have hva : loc2[n + 2]? = some (.i32 (r + BitVec.ofNat 32 (i * ts))) := by
      rw [nth_of_lt (by omega), n2 _ (by omega), n1 _ (by omega) (by omega) (by omega), va]
    obtain ⟨loc3, m3, st3, l3, k3, s3, b3, rep3⟩ := stored_rep (M := M) (T := t) (v := v) (ws := ws) (stk := [])
      (g := g.setMem m1) (b := dreg lo e.toNat r'.toNat r1.toNat) hva
      (m := n + 4 + a.ls.length + (wty t).length) (by omega) (by omega)
      (by rw [ea, hts, mem_setMem, f1s, size]; omega) hrep
      (by
        intro j hj hj'
        rw [ea] at hj hj'
        rw [hts] at hj'
        exact .inl ⟨by omega, by omega⟩)
    refine (st3 _ _).2 ?_
    rw [ea, hts, mem_setMem] at b3
    rw [mem_setMem] at s3
    have n3 : ∀ j, j < n + 4 → nth loc3 j = nth loc2 j := by
      intro j hj
      have := k3 j (.inl (by omega))
      rw [nth_of_lt (by omega), nth_of_lt (by omega)] at this
      exact Option.some.inj this
    have a3 : nth loc3 (n + 2) = .i32 (r + BitVec.ofNat 32 (i * ts)) := by
      rw [n3 _ (by omega), n2 _ (by omega), n1 _ (by omega) (by omega) (by omega), va]
    have i3 : nth loc3 (n + 3) = .i32 (BitVec.ofNat 32 i) := by
      rw [n3 _ (by omega), n2 _ (by omega), n1 _ (by omega) (by omega) (by omega), vi]
    rw [setMem_setMem', writeMem_sz, hts]
    unfold lset
    wpl [a3, i3]
    have K3 : Keep n [ol, rl] loc loc3 :=
      K2.trans (⟨l3, fun i hi _ => k3 i (.inl (by omega))⟩ : Keep n [ol, rl] loc2 loc3) (Nat.le_refl _) (fun _ _ h => h)
    refine ⟨k, by simp, i + 1, vs ++ [v], m3, o1', r1, rfl, ⟨by omega, by simp; omega, ?_, ?_, ?_, ?_, ?_, ?_, ?_,
      by omega, by omega, by rw [hts]; omega, by rw [hts]; omega, by rw [s3, f1s, size], ?_, ?_, ?_⟩⟩
    · exact (K3.set (.inl (by omega))).set (.inl (by omega))
    · wpl [n3, n2, f1o]
    · wpl [n3, n2, f1r]
    · wpl [n3, n2, n1, vl]
    · wpl [n3, n2, n1, vb]
    · rw [hts]
      wpl
      rw [p5, BitVec.ofNat_add, BitVec.add_assoc]
    · wpl
      rw [BitVec.ofNat_add]
    · intro j hj
      rw [b3 j (by omega), M1 j hj]
    · rw [dec, ← hrest]
      exact decodeN_next hE
    · rw [hts]
      intro j x hj
      have hle : (dreg lo e.toNat r'.toNat r1.toNat).Le (dreg lo e.toNat (r.toNat + l.toNat * ts) r1.toNat) :=
        ⟨Nat.le_refl _, fun q _ hq => ⟨hq.1, by have := hq.2; omega⟩⟩
      by_cases hj2 : j < i
      · rw [List.getElem?_append_left (by omega)] at hj
        have p7 : (j + 1) * ts ≤ i * ts := Nat.mul_le_mul_right _ (by omega)
        have p8 : (j + 1) * ts = j * ts + ts := by rw [Nat.add_mul, Nat.one_mul]
        have hold := rep j x hj
        rw [loadVals_congr (m := m') (m' := m3) t (r.toNat + j * ts) (by
          intro q hq1 hq2
          rw [hts] at hq2
          rw [b3 q (by omega), f1m q (by omega)])]
        refine hold.mono ?_ ⟨?_, ?_⟩
        · intro q hq1 hq2
          have hq1 : q < r'.toNat := hq1
          have hq2 : ¬ (¬ (lo ≤ q ∧ q < e.toNat) ∧ q < r.toNat + l.toNat * ts) := hq2
          rw [b3 q (by omega), f1m q (by omega)]
        · show r'.toNat ≤ r1.toNat
          omega
        · intro q _ hq
          exact hq
      · have hj3 : j = i := by
          have := (List.getElem?_eq_some_iff.1 hj).1
          simp at this
          omega
        subst hj3
        rw [List.getElem?_append_right (by omega), num, Nat.sub_self] at hj
        obtain rfl : v = x := by simpa using hj
        rw [ea] at rep3
        exact rep3.mono (fun _ _ _ => rfl) hle

theorem des_list {t : Ty} {a : Emit} {max ol el rl n sp : Nat} (hp : 0 < typeSize t)
    (hg : DGood M t a ol el rl (n + 4) sp) :
    DGood M (.list max t) (desList max t a ol el rl n) ol el rl n (max * (typeSize t + sp)) := by
  intro lo o e r stk loc g H hn hdev
  have hn' := hn
  obtain ⟨vo, ve, vr, h1, h2, h3, h4, h5, h6, h7, h8, h9, h10, h11, h12⟩ := H
  have H := Din.mk vo ve vr h1 h2 h3 h4 h5 h6 h7 h8 h9 h10 h11 h12
  simp only [desList, List.length_cons, List.length_append] at hn'
  have e5 : (o + 5#32).toNat = o.toNat + 5 := add_k (k := 5) (by omega)
  have e1 : (o + 1#32).toNat = o.toNat + 1 := add_k (k := 1) (by omega)
  have hD : decode (.list max t) (input g.mem o e) =
      if 5 ≤ e.toNat - o.toNat ∧ g.mem.byte o.toNat = 0x0b#8 ∧ beNat (bytesAt g.mem (o.toNat + 1) 4) ≤ max then
        (decodeN (decode t) (beNat (bytesAt g.mem (o.toNat + 1) 4)) (input g.mem (o + 5#32) e)).bind
          fun vs r => .val (.list vs) r
      else .bad := by
    simp only [decode, input, e5]
    rw [tagged_bytes, takeLen_bytes]
    generalize beNat (bytesAt g.mem (o.toNat + 1) 4) = l
    by_cases q1 : 5 ≤ e.toNat - o.toNat
    swap
    · rw [if_neg (c := 5 ≤ _ ∧ _) (fun h => q1 h.1)]
      split
      · rw [if_neg (by omega)]; rfl
      · rfl
    split
    swap
    · next h => rw [if_neg (fun h' => h ⟨by omega, h'.2.1⟩)]
    next h =>
    rw [if_pos (by omega), bind_ok]
    by_cases q2 : l ≤ max
    swap
    · rw [if_neg q2, if_neg (fun h' => q2 h'.2.2)]
    rw [if_pos q2, if_pos ⟨q1, h.2, q2⟩, show e.toNat - o.toNat - 1 - 4 = e.toNat - (o.toNat + 5) by omega]
  generalize decode (.list max t) (input g.mem o e) = D at *
  apply DSteps.of_wp
  unfold desList
  simp only
  generalize hX : [lget (n + 3), lget n, Instr.b (.i32rel .geU), _] ++ a.is ++ _ ++ _ ++ _ ++ _ ++ _ ++ _ ++ _ = X
  unfold incr plus lget lset c32 load8
  simp only [List.cons_append, List.nil_append]
  wpl [vo, ve, vr, e5]
  by_cases hc : 5 ≤ e.toNat - o.toNat
  swap
  · rw [if_neg (fun h => hc h.1)] at hD
    subst hD
    wif (show e.toNat < o.toNat + 5 by omega)
    exact DTo.fail H [.i32 0#32, .i32 0#32] rfl rfl Keep.refl vo vr
  wif (show ¬ e.toNat < o.toNat + 5 by omega)
  have bt := byte_eq (m := g.mem) (a := o.toNat) (t := 0x0b#8) (w := 11#32) rfl
  by_cases ht : g.mem.byte o.toNat = 0x0b#8
  swap
  · rw [if_neg (fun h => ht h.2.1)] at hD
    subst hD
    rw [if_neg (fun h => h (mt bt.1 ht))]
    exact DTo.fail H [.i32 0#32, .i32 0#32] rfl rfl Keep.refl vo vr
  rw [if_pos (fun h => h (bt.2 ht))]
  rw [wp_loadLen (by omega), e1]
  obtain ⟨l, hl⟩ : ∃ l : BitVec 32, l = BitVec.ofNat 32 (beNat (bytesAt g.mem (o.toNat + 1) 4)) := ⟨_, rfl⟩
  have el' : l.toNat = beNat (bytesAt g.mem (o.toNat + 1) 4) := by
    have := beNat_lt (bytesAt g.mem (o.toNat + 1) 4)
    rw [Wasm.length_bytesAt] at this
    rw [hl, BitVec.toNat_ofNat]; omega
  rw [← el'] at hD
  rw [← hl]
  have hl2 := l.isLt
  have p0 : max * (typeSize t + sp) = max * typeSize t + max * sp := Nat.mul_add _ _ _
  have p1 : max ≤ max * typeSize t := Nat.le_mul_of_pos_right _ hp
  have hmx : (BitVec.ofNat 32 max).toNat = max := by rw [BitVec.toNat_ofNat]; omega
  wpl [vo, ve, vr, hmx]
  by_cases hm : l.toNat ≤ max
  swap
  · rw [if_neg (fun h => hm h.2.2)] at hD
    subst hD
    wif (show max < l.toNat by omega)
    refine DTo.fail (o' := o) H [.i32 0#32, .i32 0#32] rfl rfl (Keep.refl.set (.inl (by omega))) ?_ ?_
    · wpl [vo]
    · wpl [vr]
  rw [if_pos ⟨hc, ht, hm⟩] at hD
  subst hD
  wif (show ¬ max < l.toNat by omega)
  have p2 : l.toNat * typeSize t ≤ max * typeSize t := Nat.mul_le_mul_right _ hm
  have ml : (l * BitVec.ofNat 32 (typeSize t)).toNat = l.toNat * typeSize t := by
    rw [BitVec.toNat_mul, BitVec.toNat_ofNat, Nat.mul_mod_mod, Nat.mod_eq_of_lt (by omega)]
  have er1 : (r + l * BitVec.ofNat 32 (typeSize t)).toNat = r.toNat + l.toNat * typeSize t := by
    rw [BitVec.toNat_add, ml, Nat.mod_eq_of_lt (by omega)]
  have hdi : decodeN (decode t) l.toNat (input g.mem (o + 5#32) e) ≠ .deviates := fun h => hdev (by rw [h]; rfl)
  refine wp_list_loop (o := o) (l := l) hg H rfl hm hn hdi (o0 := o + 5#32) (r0 := r + l * BitVec.ofNat 32 (typeSize t))
    ?_ hX.symm
  refine ⟨by omega, rfl, ?_, ?_, ?_, ?_, ?_, ?_, ?_, by omega, by omega, by omega, by omega, rfl, fun _ _ => rfl, ?_, ?_⟩
  · exact (((((Keep.refl.set (.inl (by omega))).set (.inl (by omega))).set (.inl (by omega))).set (.inr (by simp))).set
      (.inr (by simp))).set (.inl (by omega))
  · wpl
  · wpl
  · wpl
  · wpl
  · wpl
    simp
  · wpl
  · cases decodeN (decode t) l.toNat (input g.mem (o + 5#32) e) <;> rfl
  · intro j x hj
    simp at hj

/-- The generated code for any type reads what `decode` reads. -/
theorem des_good (ol el rl : Nat) : ∀ (T : Ty) (n : Nat), T.WF → DGood M T (des T ol el rl n) ol el rl n (space T)
  | .int, _, _ => fun _ _ _ _ _ _ _ H hn _ => des_int (signed := true) H hn
  | .uint, _, _ => fun _ _ _ _ _ _ _ H hn _ => des_int (signed := false) H hn
  | .bool, _, _ => fun _ _ _ _ _ _ _ H hn _ => des_bool H hn
  | .principal, _, _ => fun _ _ _ _ _ _ _ H hn hd => des_principal H hn hd
  | .buff _, _, _ => fun _ _ _ _ _ _ _ H hn _ => des_bytes (check := false) H hn
  | .ascii _, _, _ => fun _ _ _ _ _ _ _ H hn _ => des_bytes (check := true) H hn
  | .utf8 _, _, _ => fun _ _ _ _ _ _ _ H hn _ => des_utf8 H hn
  | .list _ t, n, wf => des_list (typeSize_pos t wf) (des_good ol el rl t (n + 4) wf)
  | .opt t, n, wf => des_opt (des_good ol el rl t (n + 1) wf)
  | .resp t u, n, wf => des_resp (des_good ol el rl t (n + 1) wf.1) (des_good ol el rl u _ wf.2)
  | .callable _, _, _ | .trait _, _, _ | .traitRef _, _, _ | .tuple _, _, _ | .noType, _, _ =>
    fun _ _ _ _ _ _ _ _ _ hd => absurd rfl hd

end Gen
