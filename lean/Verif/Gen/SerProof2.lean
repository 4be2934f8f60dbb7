import Verif.Gen.SerProof

/-! Serialization of lists and tuples, and the general theorem. -/

namespace Gen
open Wasm Spec Host

variable {σ : Type} {M : Wasm.Mod σ}

theorem consensusAll_append (xs ys : List Value) : consensusAll (xs ++ ys) = consensusAll xs ++ consensusAll ys := by
  induction xs with
  | nil => rfl
  | cons x xs ih => rw [List.cons_append, consensusAll, consensusAll, ih, List.append_assoc]

theorem wp_divU32 {a b : BitVec 32} {is : List Instr} {stk loc : List Val} {g : Store σ}
    {Q : Res σ → Prop} (h : b ≠ 0#32) :
    WP M (.b (.i32div .divU) :: is) (.i32 b :: .i32 a :: stk) loc g Q ↔ WP M is (.i32 (a / b) :: stk) loc g Q := by
  rw [wp_b]; simp only [stepB, IDiv.eval, if_neg h, stepK]

theorem wrote_zero4 (m : Mem) (a : Nat) : Wrote m (m.write a 4 0) a (lenBytes 0) := by
  refine wrote_write rfl fun k hk => ?_
  rcases k with _ | _ | _ | _ | k
  all_goals first | rfl | omega

/-- A list, given that the code of the element serializes any element. -/
theorem ser_list {e : Ty} {elem : Emit} {ol off n : Nat} {w o l : BitVec 32} {vs : List Value} {stk loc : List Val}
    {g : Store σ} {a : Nat} (ha : w.toNat + off = a) (h : loc[ol]? = some (.i32 w)) (hol : ol < n)
    (hs : a + 5 + (consensusAll vs).length ≤ g.mem.size) (hm : g.mem.size < 2 ^ 32)
    (hn : n + 3 + elem.ls.length ≤ loc.length) (hsize : 0 < typeSize e)
    (hl : l.toNat = vs.length * typeSize e) (ho : o.toNat + l.toNat ≤ a)
    (helem : ∀ (k : Nat) x l' m' (p : BitVec 32), vs[k]? = some x → m'.size = g.mem.size →
      (∀ i, i < a → m'.byte i = g.mem.byte i) → l'.length = loc.length → l'[n]? = some (.i32 p) → a ≤ p.toNat →
      p.toNat + (consensus x).length ≤ g.mem.size →
      SerSteps M elem.is (consensus x) p.toNat (n + 3)
        ((loadVals g.mem e (o.toNat + k * typeSize e)).reverse ++ []) [] l' (g.setMem m')) :
    SerSteps M (serList e elem ol off n).is (consensus (.list vs)) a n
      (.i32 l :: .i32 o :: stk) stk loc g := by
  have h0 := h
  obtain ⟨hol', h⟩ := nth_some h
  have A := wrote_byte g.mem a 11
  apply SerSteps.of_wp
  unfold serList lset
  dsimp only
  refine (steps_putTag (w := w) h0 (by omega) (by omega) _ _).2 ?_
  rw [ha]
  unfold lget c32
  wpl [h]
  by_cases hl0 : l = 0#32
  · subst hl0
    obtain rfl : vs = [] := by
      cases vs with
      | nil => rfl
      | cons x xs => simp [Nat.add_mul] at hl; omega
    wif rfl
    rw [wp_i32store (by rw [mem_setMem, size_write]; simp only [consensusAll, List.length_nil] at hs; omega)]
    wpl [mem_setMem, setMem2]
    refine SerTo.intro ?_ ?_ ?_
    · simp [consensus, consensusAll, lenBytes, length_bigEndian]
    · exact (Keep.refl.set (.inl (by omega))).set (.inl (by omega))
    · rw [← Nat.add_assoc, ha]
      exact (A.append (wrote_zero4 _ (a + 1)) (by simp)).cast rfl (by simp [consensus, consensusAll])
  · wif hl0
    have hvs : 0 < vs.length := by
      rcases Nat.eq_zero_or_pos vs.length with h | h
      · rw [h, Nat.zero_mul] at hl
        exact absurd (BitVec.eq_of_toNat_eq (by simpa using hl)) hl0
      · exact h
    have hts : typeSize e ≤ l.toNat := by rw [hl]; exact Nat.le_mul_of_pos_left _ hvs
    have hlt := l.isLt
    have ets : (BitVec.ofNat 32 (typeSize e)).toNat = typeSize e := by rw [BitVec.toNat_ofNat]; omega
    obtain ⟨p, hp⟩ : ∃ p, p = w + BitVec.ofNat 32 (off + 1) := ⟨_, rfl⟩
    have ep : p.toNat = a + 1 := by rw [hp, BitVec.toNat_add, BitVec.toNat_ofNat]; omega
    rw [wp_divU32 (fun e0 => by rw [e0] at ets; simp at ets; omega), ← hp]
    have ed : (l / BitVec.ofNat 32 (typeSize e)).toNat = vs.length := by
      rw [BitVec.toNat_udiv, ets, hl, Nat.mul_div_cancel _ hsize]
    rw [wp_store32 (by rw [mem_setMem, size_write, ep]; omega), ed, ep]
    wpl [mem_setMem, setMem2]
    have hvl : vs.length < 2 ^ 32 := by
      have : vs.length ≤ vs.length * typeSize e := Nat.le_mul_of_pos_right _ hsize
      omega
    have B := A.append (wrote_i32_be _ (a + 1) vs.length hvl) (by simp)
    have ep4 : (p + 4#32).toNat = a + 5 := by rw [BitVec.toNat_add, ep]; simp; omega
    refine wp_loop_inv (α := Nat) (fun k l' g' => k < vs.length ∧ Keep n [] loc l' ∧
        Wasm.nth l' n = .i32 (p + 4#32 + BitVec.ofNat 32 (consensusAll (vs.take k)).length) ∧
        Wasm.nth l' (n + 1) = .i32 (o + BitVec.ofNat 32 (k * typeSize e)) ∧
        Wasm.nth l' (n + 2) = .i32 (l - BitVec.ofNat 32 (k * typeSize e)) ∧
        ∃ m', g' = g.setMem m' ∧ Wrote g.mem m' a (0x0b#8 :: (lenBytes vs.length ++ consensusAll (vs.take k))))
      (fun k => vs.length - k) 0 ?_ ?_
    · refine ⟨hvs, ?_, ?_, ?_, ?_, _, rfl, ?_⟩
      · exact (((Keep.refl.set (.inl (by omega))).set (.inl (by omega))).set (.inl (by omega))).set (.inl (by omega))
      · wpl; simp [consensusAll]
      · wpl; simp
      · wpl; simp
      · exact B.cast rfl (by simp [consensusAll, lenBytes])
    · rintro k l' g' ⟨hk, hK, e0, e1, e2, m', rfl, hW⟩
      have hlen := hK.1
      have eol := hK.nth hol (by simp) hol'
      obtain ⟨x, hx⟩ : ∃ x, vs[k]? = some x := ⟨vs[k], List.getElem?_eq_getElem hk⟩
      have htake : vs.take (k + 1) = vs.take k ++ [x] := by rw [List.take_add_one, hx]; rfl
      have hcat : consensusAll (vs.take (k + 1)) = consensusAll (vs.take k) ++ consensus x := by
        rw [htake, consensusAll_append]; simp [consensusAll]
      have hle : (consensusAll (vs.take (k + 1))).length ≤ (consensusAll vs).length := by
        conv => rhs; rw [← List.take_append_drop (k + 1) vs, consensusAll_append, List.length_append]
        omega
      rw [hcat, List.length_append] at hle
      obtain ⟨c, hc⟩ : ∃ c, c = consensusAll (vs.take k) := ⟨_, rfl⟩
      rw [← hc] at hW e0 hcat hle
      obtain ⟨q, hq⟩ : ∃ q, q = p + 4#32 + BitVec.ofNat 32 c.length := ⟨_, rfl⟩
      have eq' : q.toNat = a + 5 + c.length := by rw [hq, BitVec.toNat_add, ep4, BitVec.toNat_ofNat]; omega
      rw [← hq] at e0
      have hmul : (k + 1) * typeSize e = k * typeSize e + typeSize e := Nat.succ_mul k _
      have hkl : (k + 1) * typeSize e ≤ vs.length * typeSize e := Nat.mul_le_mul_right _ hk
      have eo : (o + BitVec.ofNat 32 (k * typeSize e)).toNat = o.toNat + k * typeSize e := by
        rw [BitVec.toNat_add, BitVec.toNat_ofNat]; omega
      have hbelow : ∀ i, i < a → m'.byte i = g.mem.byte i := fun i hi => hW.rest i (.inl hi)
      refine (steps_readMem (by rw [nth_of_lt (by omega), e1]) e 0 [] (by
        rw [mem_setMem, hW.size, eo]; omega) _ _).2 ?_
      rw [eo, Nat.add_zero, mem_setMem, loadVals_congr e _ (m := g.mem) (fun i h1 h2 => hbelow i (by omega))]
      obtain ⟨l2, m2, hst, hk2, hw2⟩ := helem k x l' m' q hx hW.size hbelow hlen (by rw [nth_of_lt (by omega), e0])
        (by omega) (by omega)
      refine (hst _ _).2 ?_
      have hlen2 := hk2.1
      have f0 := hk2.nth (i := n) (by omega) (by simp) (by omega)
      have f1 := hk2.nth (i := n + 1) (by omega) (by simp) (by omega)
      have f2 := hk2.nth (i := n + 2) (by omega) (by simp) (by omega)
      have fol := hk2.nth (i := ol) (by omega) (by simp) (by omega)
      rw [e0] at f0; rw [e1] at f1; rw [e2] at f2; rw [eol, h] at fol
      have ex : l - BitVec.ofNat 32 (k * typeSize e) - BitVec.ofNat 32 (typeSize e)
          = l - BitVec.ofNat 32 ((k + 1) * typeSize e) := by
        rw [hmul, BitVec.ofNat_add]; bv_omega
      wpl [f0, f1, f2, ex]
      have hKK : Keep n [] loc l2 := hK.trans hk2 (by omega) (by simp)
      have hK3 : ∀ u v z, Keep n [] loc (((l2.set n u).set (n + 1) v).set (n + 2) z) := fun u v z =>
        ((hKK.set (.inl (by omega))).set (.inl (by omega))).set (.inl (by omega))
      have hW2 : Wrote g.mem m2 a (0x0b#8 :: (lenBytes vs.length ++ consensusAll (vs.take (k + 1)))) := by
        refine (hW.append hw2 ?_).cast rfl ?_
        · rw [eq']; simp [lenBytes, length_bigEndian]; omega
        · rw [hcat]; simp
      by_cases hk1 : k + 1 = vs.length
      · have : l - BitVec.ofNat 32 ((k + 1) * typeSize e) = 0#32 := by rw [hk1, ← hl]; simp
        rw [if_pos this]
        wpl [fol]
        rw [hk1, List.take_length] at hW2 hcat
        refine SerTo.intro ?_ (hK3 _ _ _) (hW2.cast rfl (by simp [consensus]))
        have e3 : (q + BitVec.ofNat 32 (consensus x).length).toNat = a + 5 + c.length + (consensus x).length := by
          rw [BitVec.toNat_add, eq', BitVec.toNat_ofNat]; omega
        have e4 : (w + BitVec.ofNat 32 off).toNat = a := by rw [BitVec.toNat_add, BitVec.toNat_ofNat]; omega
        rw [BitVec.add_comm, BitVec.toNat_sub, e3, e4]
        simp only [consensus, List.length_cons, List.length_append, lenBytes, length_bigEndian, hcat]
        omega
      · have : l - BitVec.ofNat 32 ((k + 1) * typeSize e) ≠ 0#32 := by
          apply sub_ne_zero
          rw [hl]
          exact Nat.mul_lt_mul_of_pos_right (by omega) hsize
        rw [if_neg this]
        refine ⟨k + 1, by omega, by omega, hK3 _ _ _, ?_, ?_, ?_, m2, rfl, hW2⟩
        · rw [hcat, List.length_append, BitVec.ofNat_add, hq, BitVec.add_comm]
          simp only [BitVec.add_assoc]
        · rw [hmul, BitVec.ofNat_add, BitVec.add_assoc]
        · rfl

/-- The names are in the data segment, below `a`. -/
def KeysAt (lit : Name → Nat) (ks : List Name) (m : Mem) (a : Nat) : Prop :=
  ∀ k ∈ ks, lit k + k.length ≤ a ∧ bytesAt m (lit k) k.length = k

theorem KeysAt.mono {lit : Name → Nat} {ks ks' : List Name} {m m' : Mem} {a a' : Nat} (h : KeysAt lit ks m a)
    (hk : ∀ k ∈ ks', k ∈ ks) (ha : a ≤ a') (hm : ∀ i, i < a → m'.byte i = m.byte i) : KeysAt lit ks' m' a' := by
  intro k hk'
  obtain ⟨h1, h2⟩ := h k (hk k hk')
  exact ⟨by omega, (bytesAt_congr fun i hi => hm _ (by omega)).trans h2⟩

theorem countF_len {m : Mem} {b : Reg} : ∀ {fs : Fields} {kvs : List (Name × Value)} {ws : List Val},
    RepF m b fs kvs ws → countF fs = kvs.length
  | .nil, _, _, h => by simp only [RepF] at h; rw [h.1]; rfl
  | .cons _ _ _, _, _, h => by
    simp only [RepF] at h
    obtain ⟨x, r, us, vs, rfl, rfl, _, h⟩ := h
    rw [countF, countF_len h, List.length_cons]

theorem rep_below {m m' : Mem} {b : Reg} {a : Nat} {T : Ty} {v : Value} {ws : List Val} (h : Rep m b T v ws)
    (hb : b.hi ≤ a) (hm : ∀ i, i < a → m'.byte i = m.byte i) : Rep m' b T v ws :=
  h.mono (fun i hi _ => hm i (by omega)) ⟨Nat.le_refl _, fun _ _ h => h⟩

theorem repF_below {m m' : Mem} {b : Reg} {a : Nat} {fs : Fields} {kvs : List (Name × Value)} {ws : List Val}
    (h : RepF m b fs kvs ws) (hb : b.hi ≤ a) (hm : ∀ i, i < a → m'.byte i = m.byte i) : RepF m' b fs kvs ws := by
  have h1 : Rep m b (.tuple fs) (.tuple kvs) ws := by simp only [Rep]; exact ⟨kvs, rfl, h⟩
  have := rep_below h1 hb hm
  simp only [Rep] at this
  obtain ⟨_, e, h⟩ := this
  cases e
  exact h

theorem bigEndian16 (lo hi : BitVec 64) : bigEndian 16 (u128 lo hi) = bigEndian 8 hi.toNat ++ bigEndian 8 lo.toNat := by
  rw [show (16 : Nat) = 8 + 8 from rfl, bigEndian_add, ← bigEndian_mod 8 (u128 lo hi)]
  have h1 := lo.isLt
  unfold u128
  congr 2 <;> omega

theorem i128_mod (lo hi : BitVec 64) : (i128 lo hi % 2 ^ 128).toNat = u128 lo hi := by
  have h1 := lo.isLt; have h2 := hi.isLt
  have h3 := toInt_cases hi
  unfold i128 u128
  omega

/-- The value of a principal or trait type is a principal. -/
theorem princ_key {T : Ty} {v : Value} (hT : (match T with
    | .principal | .callable _ | .trait _ | .traitRef _ => true
    | _ => false) = true) (h : HasType T v) :
    ∃ p : Principal, p.Ok ∧ memBytes v = principalBytes p ∧ consensus v = consensus (.principal p) := by
  cases T <;> cases v <;> simp only [HasType, Bool.false_eq_true] at hT h
  case principal.principal p => exact ⟨p, h, rfl, rfl⟩
  case callable.principal c p =>
    cases p with
    | standard s => simp [HasType] at h
    | contract c' =>
      simp only [HasType] at h
      obtain ⟨rfl, h⟩ := h
      exact ⟨.contract c', h, rfl, rfl⟩
  case trait.callable t c t' =>
    cases t' with
    | none => simp [HasType] at h
    | some t' =>
      simp only [HasType] at h
      exact ⟨.contract c, h.1, rfl, by simp [consensus]⟩
  case traitRef.principal t p =>
    cases p with
    | standard s => simp [HasType] at h
    | contract c' =>
      simp only [HasType] at h
      exact ⟨.contract c', h, rfl, rfl⟩

mutual
/-- The code that `serialize_to_memory` emits writes the consensus encoding of the value. -/
theorem ser_ok {lit : Name → Nat} : ∀ (T : Ty) {v : Value} {ws : List Val} {ol off n a : Nat} {w : BitVec 32}
    {stk loc : List Val} {g : Store σ} {b : Reg}, T.WF → Rep g.mem b T v ws → w.toNat + off = a → b.hi ≤ a →
    KeysAt lit (keysOf T) g.mem a → loc[ol]? = some (.i32 w) → ol < n → a + (consensus v).length ≤ g.mem.size →
    g.mem.size < 2 ^ 32 → n + (ser lit T ol off n).ls.length ≤ loc.length →
    SerSteps M (ser lit T ol off n).is (consensus v) a n (ws.reverse ++ stk) stk loc g
  | .noType, v, ws, ol, off, n, a, w, stk, loc, g, b, wf, hr, ha, hb, hk, h, hol, hs, hm, hn => by simp [Rep] at hr
  | .int, v, ws, ol, off, n, a, w, stk, loc, g, b, wf, hr, ha, hb, hk, h, hol, hs, hm, hn => by
    simp only [Rep] at hr
    obtain ⟨z, rfl, hz, rfl⟩ := hr
    obtain ⟨lo, hi, rfl⟩ := exists_i128 hz
    rw [encI_i128]
    simp only [ser] at hn ⊢
    subst ha
    simp only [consensus, i128_mod, bigEndian16, List.length_cons, List.length_append, length_bigEndian] at hs ⊢
    exact ser_int (signed := true) h hol (by omega) hm hn
  | .uint, v, ws, ol, off, n, a, w, stk, loc, g, b, wf, hr, ha, hb, hk, h, hol, hs, hm, hn => by
    simp only [Rep] at hr
    obtain ⟨z, rfl, hz, rfl⟩ := hr
    obtain ⟨lo, hi, rfl⟩ := exists_u128 hz
    rw [encU_u128]
    simp only [ser] at hn ⊢
    subst ha
    simp only [consensus, bigEndian16, List.length_cons, List.length_append, length_bigEndian] at hs ⊢
    exact ser_int (signed := false) h hol (by omega) hm hn
  | .bool, v, ws, ol, off, n, a, w, stk, loc, g, b, wf, hr, ha, hb, hk, h, hol, hs, hm, hn => by
    simp only [Rep] at hr
    obtain ⟨x, rfl, rfl⟩ := hr
    simp only [ser] at hn ⊢
    subst ha
    exact ser_bool h hol (by cases x <;> simpa [consensus] using hs) hn
  | .principal, v, ws, ol, off, n, a, w, stk, loc, g, b, wf, hr, ha, hb, hk, h, hol, hs, hm, hn
  | .callable _, v, ws, ol, off, n, a, w, stk, loc, g, b, wf, hr, ha, hb, hk, h, hol, hs, hm, hn
  | .trait _, v, ws, ol, off, n, a, w, stk, loc, g, b, wf, hr, ha, hb, hk, h, hol, hs, hm, hn
  | .traitRef _, v, ws, ol, off, n, a, w, stk, loc, g, b, wf, hr, ha, hb, hk, h, hol, hs, hm, hn => by
    simp only [Rep] at hr
    obtain ⟨hty, o, l, rfl, hl, ⟨h1, h2⟩, hbs⟩ := hr
    simp only [ser] at hn ⊢
    subst ha
    have key := princ_key rfl hty
    obtain ⟨p, hp, e1, e2⟩ := key
    rw [e1] at hl hbs h1
    rw [e2] at hs ⊢
    exact ser_principal hp h hol hs hm hn hl (by omega) hbs
  | .buff _, v, ws, ol, off, n, a, w, stk, loc, g, b, wf, hr, ha, hb, hk, h, hol, hs, hm, hn
  | .ascii _, v, ws, ol, off, n, a, w, stk, loc, g, b, wf, hr, ha, hb, hk, h, hol, hs, hm, hn => by
    simp only [Rep] at hr
    obtain ⟨hty, o, l, rfl, hl, ⟨h1, h2⟩, hbs⟩ := hr
    simp only [ser] at hn ⊢
    subst ha
    cases v <;> try (simp [HasType] at hty; done)
    all_goals
      simp only [memBytes] at hl hbs h1
      simp only [consensus, lenBytes, List.length_cons, List.length_append, length_bigEndian] at hs ⊢
      exact ser_bytes (by omega) h hol (by omega) hm hn hl (by omega) hbs
  | .utf8 _, v, ws, ol, off, n, a, w, stk, loc, g, b, wf, hr, ha, hb, hk, h, hol, hs, hm, hn => by
    simp only [Rep] at hr
    obtain ⟨hty, o, l, rfl, hl, ⟨h1, h2⟩, hbs⟩ := hr
    simp only [ser] at hn ⊢
    subst ha
    cases v <;> try (simp [HasType] at hty; done)
    rename_i cs
    simp only [memBytes] at hl hbs h1
    have e4 : (cs.flatMap beBytes4).length = 4 * cs.length := by
      clear * -
      induction cs with
      | nil => rfl
      | cons c cs ih => rw [List.flatMap_cons, List.length_append, ih, List.length_cons]; simp [beBytes4]; omega
    simp only [HasType] at hty
    refine ser_utf8 h hol ?_ hm hn hty.2 (by omega) (by omega) hbs
    simp only [consensus, lenBytes, List.length_cons, List.length_append, length_bigEndian, List.length_map] at hs
    omega
  | .list _ e, v, ws, ol, off, n, a, w, stk, loc, g, b, wf, hr, ha, hb, hk, h, hol, hs, hm, hn => by
    simp only [Rep] at hr
    obtain ⟨vs, o, l, rfl, hlen, rfl, hl, ⟨h1, h2⟩, he⟩ := hr
    simp only [ser] at hn ⊢
    simp only [Ty.WF] at wf
    simp only [keysOf] at hk
    simp only [serList, List.length_cons] at hn
    refine ser_list ha h hol ?_ hm (by omega) (typeSize_pos e wf) hl (by omega) ?_
    · simp only [consensus, lenBytes, List.length_cons, List.length_append, length_bigEndian] at hs; omega
    · intro k x l' m' p hx hs' hbel hl' hp hpa hps
      have hr' := rep_below (he k x hx) hb hbel
      exact ser_ok e (off := 0) wf hr' rfl (by omega) (hk.mono (fun _ h => h) (by omega) hbel) hp (by omega)
        (by rw [mem_setMem, hs']; omega) (by rw [mem_setMem, hs']; omega) (by omega)
  | .opt t, v, ws, ol, off, n, a, w, stk, loc, g, b, wf, hr, ha, hb, hk, h, hol, hs, hm, hn => by
    simp only [Rep] at hr
    simp only [ser] at hn ⊢
    simp only [Ty.WF] at wf
    simp only [keysOf] at hk
    rw [List.length_append] at hn
    have h0 : ∃ (c : BitVec 32) (us : List Val), ws = .i32 c :: us ∧ us.length = (wty t).length ∧
        (v = .none ∧ c = 0#32 ∨ ∃ x, v = .some x ∧ c = 1#32 ∧ Rep g.mem b t x us) := by
      rcases hr with ⟨us, rfl, rfl, hu⟩ | ⟨x, us, rfl, rfl, hu⟩
      · exact ⟨_, us, rfl, by rw [← hu, List.length_map], .inl ⟨rfl, rfl⟩⟩
      · exact ⟨_, us, rfl, hu.len, .inr ⟨x, rfl, rfl, hu⟩⟩
    obtain ⟨c, us, rfl, hul, hcase⟩ := h0
    obtain ⟨loc1, hst, hl1, hkeep, hget⟩ := steps_save (M := M) (s := .i32 c :: stk) (loc := loc) (g := g) t n us hul (by omega)
    have hol1 : loc1[ol]? = some (.i32 w) := by rw [hkeep ol (.inl hol), h]
    have hK1 : Keep n [] loc loc1 := ⟨hl1, fun i hi _ => hkeep i (.inl hi)⟩
    apply SerSteps.of_wp
    rw [List.reverse_cons, List.append_assoc us.reverse]
    refine (hst _ _).2 ?_
    have hpos : 1 ≤ (consensus v).length := by rcases hcase with ⟨rfl, _⟩ | ⟨x, rfl, _⟩ <;> simp [consensus]
    rcases hcase with ⟨rfl, rfl⟩ | ⟨x, rfl, rfl, hx⟩
    · wpl
      refine (steps_putTag hol1 (by omega) (by omega) _ _).2 ?_
      unfold c32
      wpl
      refine SerTo.intro (by simp [consensus]) hK1 ?_
      rw [ha]
      exact (wrote_byte _ a 9).cast rfl (by simp [consensus])
    · have A := wrote_byte g.mem a 10
      simp only [consensus, List.length_cons] at hs
      have hbel : ∀ i, i < a → (g.mem.write a 1 10).byte i = g.mem.byte i := fun i hi => A.rest i (.inl hi)
      obtain ⟨l2, m2, hst2, hk2, hw2⟩ := ser_ok t (stk := []) (off := off + 1) (g := g.setMem (g.mem.write a 1 10)) wf
        (rep_below hx hb hbel) (by omega : w.toNat + (off + 1) = a + 1) (by omega)
        (hk.mono (fun _ h => h) (by omega) hbel) hol1 (n := n + (wty t).length) (by omega)
        (by rw [mem_setMem, size_write]; omega) (by rw [mem_setMem, size_write]; omega) (by omega)
      wpl
      refine (steps_putTag hol1 (by omega) (by omega) _ _).2 ?_
      rw [ha]
      refine (steps_getLocals hget _ _).2 ?_
      refine (hst2 _ _).2 ?_
      unfold c32
      wpl [setMem2]
      refine SerTo.intro ?_ (hK1.trans hk2 (by omega) (by simp)) ?_
      · rw [BitVec.toNat_add, BitVec.toNat_ofNat]; simp [consensus]; omega
      · exact (A.append hw2 (by simp)).cast rfl (by simp [consensus])
  | .resp t e, v, ws, ol, off, n, a, w, stk, loc, g, b, wf, hr, ha, hb, hk, h, hol, hs, hm, hn => by
    simp only [Rep] at hr
    simp only [ser] at hn ⊢
    simp only [Ty.WF] at wf
    simp only [keysOf] at hk
    simp only [List.length_append] at hn
    have h0 : ∃ (c : BitVec 32) (us vs : List Val), ws = .i32 c :: (us ++ vs) ∧ us.length = (wty t).length ∧
        vs.length = (wty e).length ∧
        (∃ x, (v = .ok x ∧ c = 1#32 ∧ Rep g.mem b t x us) ∨ (v = .err x ∧ c = 0#32 ∧ Rep g.mem b e x vs)) := by
      rcases hr with ⟨x, us, js, rfl, rfl, hu, hj⟩ | ⟨x, us, js, rfl, rfl, hu, hj⟩
      · exact ⟨_, us, js, rfl, hu.len, by rw [← hj, List.length_map], x, .inl ⟨rfl, rfl, hu⟩⟩
      · exact ⟨_, js, us, rfl, by rw [← hj, List.length_map], hu.len, x, .inr ⟨rfl, rfl, hu⟩⟩
    obtain ⟨c, us, vs, rfl, hul, hvl, x, hcase⟩ := h0
    obtain ⟨loc1, hst1, hl1, hkeep1, hget1⟩ := steps_save (M := M) (s := us.reverse ++ .i32 c :: stk) (loc := loc) (g := g) e n vs hvl (by omega)
    obtain ⟨loc2, hst2, hl2, hkeep2, hget2⟩ := steps_save (M := M) (s := .i32 c :: stk) (loc := loc1) (g := g) t (n + (wty e).length) us hul (by omega)
    have hol1 : loc2[ol]? = some (.i32 w) := by rw [hkeep2 ol (.inl (by omega)), hkeep1 ol (.inl hol), h]
    have hK1 : Keep n [] loc loc2 :=
      ⟨by rw [hl2, hl1], fun i hi _ => by rw [hkeep2 i (.inl (by omega)), hkeep1 i (.inl hi)]⟩
    have hgete : (saveLocals e n).map (loc2[·]?) = vs.map some := by
      rw [← hget1]
      exact List.map_congr_left fun i hi => hkeep2 i (.inl (by have := mem_saveLocals.1 hi; omega))
    have hpos : (consensus v).length = 1 + (consensus x).length := by
      rcases hcase with ⟨rfl, _⟩ | ⟨rfl, _⟩ <;> simp [consensus] <;> omega
    apply SerSteps.of_wp
    simp only [List.reverse_cons, List.reverse_append, List.append_assoc]
    refine (hst1 _ _).2 ?_
    refine (hst2 _ _).2 ?_
    have A := wrote_byte g.mem a
    have hbel : ∀ t i, i < a → (g.mem.write a 1 t).byte i = g.mem.byte i := fun t i hi => (A t).rest i (.inl hi)
    rcases hcase with ⟨rfl, rfl, hx⟩ | ⟨rfl, rfl, hx⟩
    · obtain ⟨l2, m2, hst3, hk3, hw3⟩ := ser_ok t (stk := []) (off := off + 1) (g := g.setMem (g.mem.write a 1 7)) wf.1
        (rep_below hx hb (hbel 7)) (by omega : w.toNat + (off + 1) = a + 1) (by omega)
        (hk.mono (fun _ h => by simp [h]) (by omega) (hbel 7)) hol1 (n := n + (wty e).length + (wty t).length) (by omega)
        (by rw [mem_setMem, size_write]; omega) (by rw [mem_setMem, size_write]; omega) (by omega)
      wpl
      refine (steps_putTag hol1 (by omega) (by omega) _ _).2 ?_
      rw [ha]
      refine (steps_getLocals hget2 _ _).2 ?_
      rw [hst3.wp, blockK_norm]
      unfold c32
      wpl [setMem2]
      refine SerTo.intro ?_ (hK1.trans hk3 (by omega) (by simp)) ?_
      · rw [BitVec.toNat_add, BitVec.toNat_ofNat]; simp [consensus]; omega
      · exact ((A 7).append hw3 (by simp)).cast rfl (by simp [consensus])
    · obtain ⟨l2, m2, hst3, hk3, hw3⟩ := ser_ok e (stk := []) (off := off + 1) (g := g.setMem (g.mem.write a 1 8)) wf.2
        (rep_below hx hb (hbel 8)) (by omega : w.toNat + (off + 1) = a + 1) (by omega)
        (hk.mono (fun _ h => by simp [h]) (by omega) (hbel 8)) hol1
        (n := n + (wty e).length + (wty t).length + (ser lit t ol (off + 1) (n + (wty e).length + (wty t).length)).ls.length)
        (by omega)
        (by rw [mem_setMem, size_write]; omega) (by rw [mem_setMem, size_write]; omega) (by omega)
      wpl
      refine (steps_putTag hol1 (by omega) (by omega) _ _).2 ?_
      rw [ha]
      refine (steps_getLocals hgete _ _).2 ?_
      rw [hst3.wp, blockK_norm]
      unfold c32
      wpl [setMem2]
      refine SerTo.intro ?_ (hK1.trans hk3 (by omega) (by simp)) ?_
      · rw [BitVec.toNat_add, BitVec.toNat_ofNat]; simp [consensus]; omega
      · exact ((A 8).append hw3 (by simp)).cast rfl (by simp [consensus])
  | .tuple fs, v, ws, ol, off, n, a, w, stk, loc, g, b, wf, hr, ha, hb, hk, h, hol, hs, hm, hn => by
    have hrl := hr.len
    simp only [Rep] at hr
    obtain ⟨kvs, rfl, hr⟩ := hr
    simp only [ser] at hn ⊢
    simp only [Ty.WF] at wf
    simp only [keysOf] at hk
    simp only [List.length_cons, List.length_append] at hn
    simp only [wty] at hrl
    simp only [consensus, lenBytes, List.length_cons, List.length_append, length_bigEndian] at hs
    obtain ⟨loc1, hst, hl1, hkeep, hget⟩ := steps_save (M := M) (s := stk) (loc := loc) (g := g) (.tuple fs) (n + 1) ws
      (by simp only [wty]; exact hrl) (by simp only [wty]; omega)
    simp only [wty] at hkeep
    have hol1 : loc1[ol]? = some (.i32 w) := by rw [hkeep ol (.inl (by omega)), h]
    have h0 := nth_some hol1
    have hK1 : Keep n [] loc loc1 := ⟨hl1, fun i hi _ => hkeep i (.inl (by omega))⟩
    obtain ⟨p, hp⟩ : ∃ p, p = w + BitVec.ofNat 32 (off + 1) := ⟨_, rfl⟩
    have ep : p.toNat = a + 1 := by rw [hp, BitVec.toNat_add, BitVec.toNat_ofNat]; omega
    have ep4 : (p + 4#32).toNat = a + 5 := by rw [BitVec.toNat_add, ep]; simp; omega
    obtain ⟨g1, hg1⟩ : ∃ g1, g1 = g.setMem ((g.mem.write a 1 12).write (a + 1) 4 (rev4 (BitVec.ofNat 32 (countF fs)).toNat)) :=
      ⟨_, rfl⟩
    have A : Wrote g.mem g1.mem a (0x0c#8 :: lenBytes kvs.length) := by
      have := (wrote_byte g.mem a 12).append (wrote_i32_be _ (a + 1) (BitVec.ofNat 32 (countF fs)).toNat (BitVec.isLt _)) (by simp)
      rw [hg1]
      refine this.cast rfl ?_
      rw [BitVec.toNat_ofNat, show (2 : Nat) ^ 32 = 256 ^ 4 from rfl, bigEndian_mod, countF_len hr]
      rfl
    have hbel : ∀ i, i < a → g1.mem.byte i = g.mem.byte i := fun i hi => A.rest i (.inl hi)
    obtain ⟨l2, hl2⟩ : ∃ l2, l2 = (loc1.set n (.i32 p)).set n (.i32 (p + 4#32)) := ⟨_, rfl⟩
    have hnlt : n < loc1.length := by omega
    have hl2n : l2[n]? = some (.i32 (p + 4#32)) := by
      rw [hl2, List.getElem?_set_self (by rw [List.length_set]; exact hnlt)]
    have hl2o : ∀ i, i ≠ n → l2[i]? = loc1[i]? := fun i hi => by
      rw [hl2, List.getElem?_set_ne (Ne.symm hi), List.getElem?_set_ne (Ne.symm hi)]
    have hl2l : l2.length = loc.length := by rw [hl2, List.length_set, List.length_set, hl1]
    have hgetl : (saveLocals (.tuple fs) (n + 1)).map (l2[·]?) = ws.map some := by
      rw [← hget]
      exact List.map_congr_left fun i hi => hl2o i (by have := mem_saveLocals.1 hi; omega)
    obtain ⟨l3, m3, hst3, hk3, hw3⟩ := ser_fields fs (stk := stk) (wp := n) (n := n + 1 + (wtyF fs).length)
      (g := g1) (w := p + 4#32) (a := a + 5) wf.2.2
      (repF_below hr hb hbel) ep4 (by omega) (hk.mono (fun _ h => h) (by omega) hbel) hl2n (by omega) hgetl
      (by intro i hi; have := mem_saveLocals.1 hi; simp only [wty] at this; omega)
      (by rw [A.size]; omega) (by rw [A.size]; omega) (by omega)
    apply SerSteps.of_wp
    simp only [List.append_assoc]
    refine (hst _ _).2 ?_
    refine (steps_putTag hol1 (by omega) (by omega) _ _).2 ?_
    rw [ha]
    unfold lget c32
    simp only [List.cons_append, List.nil_append]
    wpl [h0]
    rw [← hp, wp_store32 (by rw [mem_setMem, size_write, ep]; omega), ep]
    wpl [mem_setMem, setMem2]
    rw [← hg1, ← hl2]
    refine (hst3 _ _).2 ?_
    have hKf : Keep n [] loc l3 :=
      ⟨by rw [hk3.1, hl2l], fun i hi _ => by
        rw [hk3.2 i (by omega) (by simp; omega), hl2o i (by omega), hkeep i (.inl (by omega))]⟩
    have h3 := (nth_some ((hKf.2 ol hol (by simp)).trans h)).2
    have hl3 := hKf.1
    wpl [h3]
    rw [hg1, setMem2]
    refine SerTo.intro ?_ hKf ?_
    · have e4 : (w + BitVec.ofNat 32 off).toNat = a := by rw [BitVec.toNat_add, BitVec.toNat_ofNat]; omega
      rw [BitVec.toNat_sub, e4, BitVec.toNat_add, ep4, BitVec.toNat_ofNat]
      simp only [consensus, lenBytes, List.length_cons, List.length_append, length_bigEndian]
      omega
    · exact (A.append hw3 (by simp [lenBytes, length_bigEndian])).cast rfl (by simp [consensus])
/-- The same for the fields of a tuple. -/
theorem ser_fields {lit : Name → Nat} : ∀ (fs : Fields) {kvs : List (Name × Value)} {ws : List Val} {wp n a : Nat}
    {ls : List Nat} {w : BitVec 32} {stk loc : List Val} {g : Store σ} {b : Reg}, fs.WF → RepF g.mem b fs kvs ws →
    w.toNat = a → b.hi ≤ a → KeysAt lit (keysOfF fs) g.mem a → loc[wp]? = some (.i32 w) → wp < n →
    ls.map (loc[·]?) = ws.map some → (∀ i ∈ ls, i < n ∧ i ≠ wp) → a + (consensusFields kvs).length ≤ g.mem.size →
    g.mem.size < 2 ^ 32 → n + (serF lit fs wp ls n).ls.length ≤ loc.length →
    ∃ loc' m', Steps M (serF lit fs wp ls n).is (.i32 w :: stk) loc g
        (.i32 (w + BitVec.ofNat 32 (consensusFields kvs).length) :: stk) loc' (g.setMem m') ∧
      Keep n [wp] loc loc' ∧ Wrote g.mem m' a (consensusFields kvs)
  | .nil, kvs, ws, wp, n, a, ls, w, stk, loc, g, b, wf, hr, ha, hb, hk, h, hwp, hls, hlt, hs, hm, hn => by
    simp only [RepF] at hr
    obtain ⟨rfl, rfl⟩ := hr
    refine ⟨loc, g.mem, ?_, Keep.refl, Wrote.nil⟩
    simp only [serF, consensusFields, List.length_nil]
    rw [show w + BitVec.ofNat 32 0 = w by simp]
    exact Steps.refl
  | .cons k t fs, kvs, ws, wp, n, a, ls, w, stk, loc, g, b, wf, hr, ha, hb, hk, h, hwp, hls, hlt, hs, hm, hn => by
    simp only [RepF] at hr
    obtain ⟨x, r, us, vs, rfl, rfl, hx, hr⟩ := hr
    simp only [serF] at hn ⊢
    simp only [Fields.WF] at wf
    simp only [keysOfF] at hk
    simp only [List.length_append] at hn
    simp only [consensusFields, nameBytes, List.length_cons, List.length_append] at hs
    obtain ⟨hwl, hw⟩ := nth_some h
    obtain ⟨hk1, hk2⟩ := hk k (by simp)
    obtain ⟨g1, hg1⟩ : ∃ g1, g1 = g.setMem ((g.mem.write a 1 (BitVec.ofNat 32 k.length).toNat).copy (a + 1) (lit k) k.length) :=
      ⟨_, rfl⟩
    have A0 := wrote_byte g.mem a (BitVec.ofNat 32 k.length).toNat
    have ekl : (BitVec.ofNat 32 k.length).toNat = k.length := by rw [BitVec.toNat_ofNat]; omega
    have elk : (BitVec.ofNat 32 (lit k)).toNat = lit k := by rw [BitVec.toNat_ofNat]; omega
    have A : Wrote g.mem g1.mem a (nameBytes k) := by
      rw [hg1]
      refine (A0.append (wrote_copy _ (a + 1) (lit k) k (by rw [A0.below hk1, hk2])) (by simp)).cast rfl ?_
      rw [ekl]; rfl
    have hbel : ∀ i, i < a → g1.mem.byte i = g.mem.byte i := fun i hi => A.rest i (.inl hi)
    have e1 : (w + 1#32).toNat = a + 1 := by rw [BitVec.toNat_add]; simp; omega
    obtain ⟨p, hp⟩ : ∃ p, p = w + 1#32 + BitVec.ofNat 32 k.length := ⟨_, rfl⟩
    have ep : p.toNat = a + 1 + k.length := by rw [hp, BitVec.toNat_add, e1, ekl]; omega
    obtain ⟨l2, hl2⟩ : ∃ l2, l2 = (loc.set wp (.i32 (w + 1#32))).set wp (.i32 p) := ⟨_, rfl⟩
    have hl2n : l2[wp]? = some (.i32 p) := by
      rw [hl2, List.getElem?_set_self (by rw [List.length_set]; exact hwl)]
    have hl2o : ∀ i, i ≠ wp → l2[i]? = loc[i]? := fun i hi => by
      rw [hl2, List.getElem?_set_ne (Ne.symm hi), List.getElem?_set_ne (Ne.symm hi)]
    have hl2l : l2.length = loc.length := by rw [hl2, List.length_set, List.length_set]
    have hgl : ls.map (l2[·]?) = us.map some ++ vs.map some := by
      rw [← List.map_append, ← hls]
      exact List.map_congr_left fun i hi => hl2o i (hlt i hi).2
    have hul := hx.len
    have hg1' : (ls.take (wty t).length).map (l2[·]?) = us.map some := by
      rw [List.map_take, hgl, ← hul, List.take_left' (by simp)]
    have hg2' : (ls.drop (wty t).length).map (l2[·]?) = vs.map some := by
      rw [List.map_drop, hgl, ← hul, List.drop_left' (by simp)]
    obtain ⟨l3, m3, hst3, hk3, hw3⟩ := ser_ok t (stk := stk) (off := 0) (ol := wp) (n := n) (w := p) (loc := l2) (g := g1) wf.1
      (rep_below hx hb hbel) ep (by omega) (hk.mono (fun _ h => by simp [h]) (by omega) hbel) hl2n hwp
      (by rw [A.size]; omega) (by rw [A.size]; omega) (by omega)
    have B := A.append hw3 (by simp [nameBytes]; omega)
    have hbel3 : ∀ i, i < a → m3.byte i = g.mem.byte i := fun i hi => B.rest i (.inl hi)
    have hl3n : l3[wp]? = some (.i32 p) := by rw [hk3.2 wp hwp (by simp), hl2n]
    have hl3 := hk3.1
    have h3 := (nth_some hl3n).2
    obtain ⟨q, hq⟩ : ∃ q, q = p + BitVec.ofNat 32 (consensus x).length := ⟨_, rfl⟩
    have eq' : q.toNat = a + 1 + k.length + (consensus x).length := by
      rw [hq, BitVec.toNat_add, ep, BitVec.toNat_ofNat]; omega
    obtain ⟨l4, hl4⟩ : ∃ l4, l4 = l3.set wp (.i32 q) := ⟨_, rfl⟩
    obtain ⟨l5, m5, hst5, hk5, hw5⟩ := ser_fields fs (stk := stk) (wp := wp)
      (n := n + (ser lit t wp 0 n).ls.length) (ls := ls.drop (wty t).length)
      (g := g1.setMem m3) (w := q) (loc := l4) wf.2
      (repF_below hr hb hbel3) eq' (by omega) (hk.mono (fun _ h => by simp [h]) (by omega) hbel3)
      (by rw [hl4, List.getElem?_set_self (by omega)]) (by omega)
      (by
        rw [← hg2']
        refine List.map_congr_left fun i hi => ?_
        have := hlt i (List.mem_of_mem_drop hi)
        rw [hl4, List.getElem?_set_ne (Ne.symm this.2), hk3.2 i this.1 (by simp)])
      (by intro i hi; have := hlt i (List.mem_of_mem_drop hi); omega)
      (by rw [mem_setMem, B.size]; omega) (by rw [mem_setMem, B.size]; omega) (by rw [hl4, List.length_set]; omega)
    refine ⟨l5, m5, ?_, ?_, ?_⟩
    · apply Steps.of_wp
      intro Q
      unfold lget lset c32
      simp only [List.append_assoc, List.cons_append, List.nil_append]
      wpl
      rw [wp_i32store (by omega)]
      wpl [hw]
      rw [wp_memCopy (by rw [mem_setMem, size_write, elk, ekl]; omega) (by rw [mem_setMem, size_write, e1, ekl]; omega)]
      wpl [mem_setMem, setMem2]
      rw [ha, e1, elk, ekl]
      rw [ekl] at hg1
      rw [← hg1, ← hp, ← hl2, steps_getLocals hg1', hst3]
      wpl [h3]
      rw [BitVec.add_comm, ← hq, ← hl4, hst5.wp, hg1, setMem2, setMem2]
      have e : q + BitVec.ofNat 32 (consensusFields r).length
          = w + BitVec.ofNat 32 (consensusFields ((k, x) :: r)).length := by
        apply BitVec.eq_of_toNat_eq
        rw [BitVec.toNat_add, BitVec.toNat_add, eq', ha, BitVec.toNat_ofNat, BitVec.toNat_ofNat]
        simp only [consensusFields, nameBytes, List.length_cons, List.length_append]
        omega
      rw [e]
    · refine ⟨by rw [hk5.1, hl4, List.length_set, hl3, hl2l], fun i hi hb' => ?_⟩
      have hne : i ≠ wp := by simpa using hb'
      rw [hk5.2 i (by omega) (by simpa using hne), hl4, List.getElem?_set_ne (Ne.symm hne), hk3.2 i hi (by simp),
        hl2o i hne]
    · exact (B.append hw5 (by rw [List.length_append]; simp [nameBytes]; omega)).cast rfl (by simp [consensusFields])
end

end Gen
