import Verif.Gen.RepHost

/-! What the host writes into memory represents the value. -/

namespace Gen
open Wasm Spec Host

open Classical in
/-- A check as a reading function. -/
noncomputable def chk (P : Mem → Prop) : Mem → Option Unit := fun m => if P m then some () else none

theorem chk_iff {P : Mem → Prop} {m : Mem} : chk P m = some () ↔ P m := by
  unfold chk; split <;> simp_all

/-- Writing a value of type `T`, the memory then represents it. -/
def GoodR (T : Ty) : Prop := ∀ v off im m, HasType T v → Fits m off (typeSize T) im (inLen T v) →
  RT (fun m => writeToWasm T off im v true m)
    (chk fun m => Rep m (seg im <| im + inLen T v) T v (loadVals m T off)) () off (typeSize T) im (inLen T v) m

theorem ld32_bytes {m : Mem} {a x : Nat} (hx : x < 2 ^ 32) (h : bytesAt m a 4 = leBytes 4 x) :
    ld32 m a = .i32 (BitVec.ofNat 32 x) := by
  apply ld32_of
  rw [← leNat_bytesAt, h, leNat_leBytes4 hx]

theorem toNat_ofNat32 {x : Nat} (h : x < 2 ^ 32) : (BitVec.ofNat 32 x).toNat = x := by
  rw [BitVec.toNat_ofNat, Nat.mod_eq_of_lt h]

theorem wr_bytes {m : Mem} {off im : Nat} {bs : List Byte} (hf : Fits m off 8 im bs.length) :
    RT (fun m => writeBytes m off im bs true)
      (chk fun m => BytesIn m (seg im <| im + bs.length) bs [ld32 m off, ld32 m (off + 4)]) () off 8 im
      bs.length m := by
  obtain ⟨h1, h2, h3, h4⟩ := hf
  have l4 := length_leBytes 4 im
  have l4' := length_leBytes 4 bs.length
  refine ⟨put (put (put m im bs) off (leBytes 4 im)) (off + 4) (leBytes 4 bs.length), ?_, rfl, ?_, ?_⟩
  · simp only [writeBytes, writeRepr]
    rw [memWrite_ok h2]
    simp only [Option.bind_eq_bind, Option.bind_some, if_true]
    rw [memWrite_ok (by rw [put_size]; omega)]
    simp only [Option.bind_some]
    rw [memWrite_ok (by rw [put_size, put_size]; omega)]
    rfl
  · intro i hi hi'
    rw [put_out (by omega), put_out (by omega), put_out (by omega)]
  · intro m'' hs ha hb
    have e1 : bytesAt m'' off 4 = leBytes 4 im := by
      rw [bytesAt_eq (ha.mono (Nat.le_refl _) (by omega : off + 4 ≤ off + 8))]
      rw [bytesAt_eq (m := put (put m im bs) off (leBytes 4 im)) (fun i hi hi' => put_out (by omega))]
      have := bytesAt_put (put m im bs) off (leBytes 4 im)
      rwa [l4] at this
    have e2 : bytesAt m'' (off + 4) 4 = leBytes 4 bs.length := by
      rw [bytesAt_eq (ha.mono (by omega) (by omega : off + 4 + 4 ≤ off + 8))]
      have := bytesAt_put (put (put m im bs) off (leBytes 4 im)) (off + 4) (leBytes 4 bs.length)
      rwa [l4'] at this
    have e3 : bytesAt m'' im bs.length = bs := by
      rw [bytesAt_eq hb]
      rw [bytesAt_eq (m := put (put m im bs) off (leBytes 4 im)) (fun i hi hi' => put_out (by omega))]
      rw [bytesAt_eq (m := put m im bs) (fun i hi hi' => put_out (by omega))]
      exact bytesAt_put m im bs
    rw [chk_iff, ld32_bytes (by omega) e1, ld32_bytes (by omega) e2]
    refine ⟨_, _, rfl, toNat_ofNat32 (by omega), ⟨?_, fun i hi _ (hh : i < im) => ?_⟩, ?_⟩
    · rw [toNat_ofNat32 (by omega)]; exact Nat.le_refl _
    · rw [toNat_ofNat32 (by omega)] at hi; omega
    · rw [toNat_ofNat32 (by omega)]; exact e3

theorem wr_int {m : Mem} {off im : Nat} {z : Int} {ws : List Val}
    (hf : Fits m off 16 im 0)
    (hw : ws = [.i64 (BitVec.ofInt 64 z), .i64 (BitVec.ofInt 64 (z / 2 ^ 64))]) :
    RT (fun m => do
      let m ← memWrite m off (intBytes z)
      some (m, 16, 0)) (chk fun m => [ld64 m off, ld64 m (off + 8)] = ws) () off 16 im 0 m := by
  obtain ⟨h1, h2, h3, h4⟩ := hf
  have hl := length_intBytes z
  refine ⟨put m off (intBytes z), ?_, rfl, ?_, ?_⟩
  · simp only []
    rw [memWrite_ok (by omega)]; rfl
  · intro i hi _
    exact put_out (by omega)
  · intro m'' hs ha _
    rw [chk_iff, hw]
    have e : bytesAt m'' off (intBytes z).length = intBytes z := by
      rw [hl, bytesAt_eq ha, ← hl]; exact bytesAt_put _ _ _
    obtain ⟨e1, e2⟩ := bytesAt_split e
    rw [length_leBytes] at e1 e2
    rw [length_leBytes] at e2
    have P : (256 : Nat) ^ 8 = 18446744073709551616 := by norm_num
    have P' : (2 : Int) ^ 64 = 18446744073709551616 := by norm_num
    have a1 : m''.read off 8 = (z % 2 ^ 64).toNat := by
      rw [← leNat_bytesAt, e1, leNat_leBytes, P, P', Nat.mod_eq_of_lt (by omega)]
    have a2 : m''.read (off + 8) 8 = (z / 2 ^ 64 % 2 ^ 64).toNat := by
      rw [← leNat_bytesAt, e2, leNat_leBytes]
      generalize z / 2 ^ 64 = z'
      rw [P, P', Nat.mod_eq_of_lt (by omega)]
    have key : ∀ y : Int, BitVec.ofNat 64 (y % 2 ^ 64).toNat = BitVec.ofInt 64 y := by
      intro y
      apply BitVec.eq_of_toNat_eq
      rw [half_ofInt, BitVec.toNat_ofNat, Nat.mod_eq_of_lt (by rw [P']; omega)]
    simp only [ld64, a1, a2, key]

theorem rt_imp {α β : Type} {w : Mem → Option (Mem × Nat × Nat)} {rd : Mem → Option α}
    {rd' : Mem → Option β} {v : α} {v' : β} {off ts im il : Nat} {m : Mem}
    (h : RT w rd v off ts im il m) (hi : ∀ m, rd m = some v → rd' m = some v') :
    RT w rd' v' off ts im il m := by
  obtain ⟨m', w1, s, o, r⟩ := h
  exact ⟨m', w1, s, o, fun m'' a b c => hi _ (r m'' a b c)⟩

theorem ld32_of_read {m : Mem} {off x : Nat} (h : (memRead m off 4).map leNat = some x) :
    ld32 m off = .i32 (BitVec.ofNat 32 x) := by
  unfold memRead at h
  split at h
  · simp only [Option.map_some, Option.some.injEq, leNat_bytesAt] at h
    exact ld32_of h
  · exact absurd h (by simp)

theorem wr_elems {e : Ty} (he : GoodR e) : ∀ (vs : List Value) (off im : Nat) (m : Mem),
    (∀ v ∈ vs, HasType e v) →
    Fits m off (vs.length * typeSize e) im ((vs.map (inLen e)).sum) →
    RT (fun m => writeElems (fun o i v m => writeToWasm e o i v true m) off im vs m)
      (chk fun m => ∀ (i : Nat) x, vs[i]? = some x →
        Rep m (seg im <| im + (vs.map (inLen e)).sum) e x (loadVals m e (off + i * typeSize e)))
        () off (vs.length * typeSize e) im ((vs.map (inLen e)).sum) m := by
  intro vs
  induction vs with
  | nil =>
    intro off im m _ _
    refine ⟨m, by simp [writeElems], rfl, fun _ _ _ => rfl, ?_⟩
    intro m'' _ _ _
    rw [chk_iff]; simp
  | cons v vs ih =>
    intro off im m hv hf
    obtain ⟨f1, f2, f3, f4⟩ := hf
    have hlen : (v :: vs).length * typeSize e = typeSize e + vs.length * typeSize e := by
      rw [List.length_cons, Nat.succ_mul, Nat.add_comm]
    have hsum : ((v :: vs).map (inLen e)).sum = inLen e v + (vs.map (inLen e)).sum := by simp
    rw [hlen] at f1 f3 ⊢
    rw [hsum] at f2 f3 ⊢
    clear hlen hsum
    generalize hT : vs.length * typeSize e = A at *
    generalize hI : (vs.map (inLen e)).sum = B at *
    obtain ⟨m1, w1, s1, o1, r1⟩ := he v off im m (hv v (List.mem_cons_self ..))
      ⟨by omega, by omega, by omega, f4⟩
    obtain ⟨m2, w2, s2, o2, r2⟩ := ih (off + typeSize e) (im + inLen e v) m1
      (fun v h => hv v (List.mem_cons_of_mem _ h)) ⟨by omega, by omega, by omega, by omega⟩
    refine ⟨m2, ?_, by omega, ?_, ?_⟩
    · simp only [writeElems]
      simp only [] at w1 w2
      rw [w1]
      simp only [Option.bind_eq_bind, Option.bind_some]
      rw [w2]; rfl
    · intro i hi hi'
      rw [o2 i (by omega) (by omega), o1 i (by omega) (by omega)]
    · intro m'' hs ha hb
      have R2 := r2 m'' (by omega) (ha.mono (by omega) (by omega)) (hb.mono (by omega) (by omega))
      have R1 := r1 m'' hs
        (fun i hi hi' => by rw [ha i hi (by omega), o2 i (by omega) (by omega)])
        (fun i hi hi' => by rw [hb i hi (by omega), o2 i (by omega) (by omega)])
      rw [chk_iff] at R1 R2 ⊢
      intro i x hi
      cases i with
      | zero =>
        simp only [List.getElem?_cons_zero, Option.some.injEq] at hi
        subst hi
        rw [Nat.zero_mul, Nat.add_zero]
        exact R1.mono (fun _ _ _ => rfl) (seg_le (by omega) (by omega))
      | succ i =>
        have := R2 i x (by simpa using hi)
        rw [Nat.succ_mul, show off + (i * typeSize e + typeSize e) = off + typeSize e + i * typeSize e
          by omega]
        exact this.mono (fun _ _ _ => rfl) (seg_le (by omega) (by omega))

theorem goodR_list {n : Nat} {e : Ty} (he : GoodR e) : GoodR (.list n e) := by
  intro v off im m hv hf
  cases v <;> try (exfalso; simp only [HasType] at hv; done)
  rename_i vs
  obtain ⟨hl, hv⟩ := hv
  simp only [typeSize, inLen] at hf ⊢
  obtain ⟨f1, f2, f3, f4⟩ := hf
  generalize hA : vs.length * typeSize e = A at f1 f2 f3 ⊢
  generalize hB : (vs.map (inLen e)).sum = B at f1 f2 f3 ⊢
  obtain ⟨m1, w1, s1, o1, r1⟩ := wr_elems he vs im (im + A) m hv
    (by rw [hA, hB]; exact ⟨by omega, by omega, by omega, f4⟩)
  rw [hA] at w1 o1 r1
  rw [hB] at w1 o1 r1
  have l4 := length_leBytes 4 im
  have l4' := length_leBytes 4 A
  refine ⟨put (put m1 off (leBytes 4 im)) (off + 4) (leBytes 4 A), ?_, by simpa using s1, ?_, ?_⟩
  · simp only [writeToWasm, hA]
    simp only [] at w1
    rw [w1]
    simp only [Option.bind_eq_bind, Option.bind_some, writeRepr, if_true]
    rw [memWrite_ok (by omega)]
    simp only [Option.bind_some]
    rw [memWrite_ok (by rw [put_size]; omega)]
    rfl
  · intro i hi hi'
    rw [put_out (by omega), put_out (by omega), o1 i (by omega) (by omega)]
  · intro m'' hs ha hb
    have e1 : bytesAt m'' off 4 = leBytes 4 im := by
      rw [bytesAt_eq (ha.mono (Nat.le_refl _) (by omega : off + 4 ≤ off + 8))]
      rw [bytesAt_eq (m := put m1 off (leBytes 4 im)) (fun i hi hi' => put_out (by omega))]
      have := bytesAt_put m1 off (leBytes 4 im)
      rwa [l4] at this
    have e2 : bytesAt m'' (off + 4) 4 = leBytes 4 A := by
      rw [bytesAt_eq (ha.mono (by omega) (by omega : off + 4 + 4 ≤ off + 8))]
      have := bytesAt_put (put m1 off (leBytes 4 im)) (off + 4) (leBytes 4 A)
      rwa [l4'] at this
    have R := r1 m'' hs
      (fun i hi hi' => by rw [hb i hi (by omega), put_out (by omega), put_out (by omega)])
      (fun i hi hi' => by rw [hb i (by omega) (by omega), put_out (by omega), put_out (by omega)])
    rw [chk_iff] at R ⊢
    simp only [Rep, loadVals]
    rw [ld32_bytes (by omega) e1, ld32_bytes (by omega) e2]
    refine ⟨vs, _, _, rfl, hl, rfl, ?_, ?_, fun i x hi => ?_⟩
    · rw [toNat_ofNat32 (by omega), hA]
    · rw [toNat_ofNat32 (by omega), toNat_ofNat32 (by omega)]
      exact ⟨(show im + A ≤ im + (A + B) by omega), fun i hi _ (hh : i < im) => by omega⟩
    · rw [toNat_ofNat32 (by omega)]
      exact (R i x hi).mono (fun _ _ _ => rfl) (seg_le (by omega) (by omega))

theorem goodR_bytes {ty : Ty} {v : Value} {off im : Nat} {m : Mem} (hs8 : typeSize ty = 8)
    (hlen : inLen ty v = (memBytes v).length)
    (hw : ∀ m, writeToWasm ty off im v true m = writeBytes m off im (memBytes v) true)
    (hr : ∀ m, BytesIn m (seg im <| im + (memBytes v).length) (memBytes v) [ld32 m off, ld32 m (off + 4)] →
      Rep m (seg im <| im + (memBytes v).length) ty v (loadVals m ty off))
    (hf : Fits m off (typeSize ty) im (inLen ty v)) :
    RT (fun m => writeToWasm ty off im v true m)
      (chk fun m => Rep m (seg im <| im + inLen ty v) ty v (loadVals m ty off)) () off (typeSize ty) im
      (inLen ty v) m := by
  rw [hlen, hs8] at *
  simp only [hw]
  refine rt_imp (wr_bytes hf) fun m h => ?_
  rw [chk_iff] at h ⊢
  exact hr m h

/-- The statement for the fields of a tuple; `pre` are the bindings already written. -/
def GoodRF (fs : Fields) : Prop := ∀ pre kvs off im m, HasFields fs kvs →
  (pre.map Prod.fst ++ fs.keys).Nodup → Fits m off (fieldsSize fs) im (inLenF fs kvs) →
  RT (fun m => writeFields fs off im (pre ++ kvs) m)
    (chk fun m => RepF m (seg im <| im + inLenF fs kvs) fs kvs (loadValsF m fs off)) () off
    (fieldsSize fs) im (inLenF fs kvs) m

theorem wr_cons {k : Name} {t : Ty} {fs : Fields} (ht : GoodR t) (hfs : GoodRF fs) :
    GoodRF (.cons k t fs) := by
  intro pre kvs off im m hv hn hf
  match kvs with
  | [] => exact absurd hv (by simp [HasFields])
  | (k', v) :: kvs =>
    obtain ⟨rfl, hv, hvs⟩ := hv
    simp only [fieldsSize, inLenF] at hf ⊢
    obtain ⟨f1, f2, f3, f4⟩ := hf
    simp only [Fields.keys] at hn
    have hk : k' ∉ pre.map Prod.fst := by
      intro hmem
      have := (List.nodup_append.1 hn).2.2 _ hmem _ (List.mem_cons_self ..)
      exact this rfl
    obtain ⟨m1, w1, s1, o1, r1⟩ := ht v off im m hv ⟨by omega, by omega, by omega, f4⟩
    obtain ⟨m2, w2, s2, o2, r2⟩ := hfs (pre ++ [(k', v)]) kvs (off + typeSize t) (im + inLen t v)
      m1 hvs (by simpa using hn) ⟨by omega, by omega, by omega, by omega⟩
    refine ⟨m2, ?_, by omega, ?_, ?_⟩
    · simp only [writeFields]
      rw [lookup_split hk]
      simp only [] at w1 w2
      simp only [Option.bind_eq_bind, Option.bind_some, w1]
      rw [show pre ++ (k', v) :: kvs = pre ++ [(k', v)] ++ kvs by simp, w2]
      rfl
    · intro i hi hi'
      rw [o2 i (by omega) (by omega), o1 i (by omega) (by omega)]
    · intro m'' hs ha hb
      have R2 := r2 m'' (by omega) (ha.mono (by omega) (by omega)) (hb.mono (by omega) (by omega))
      have R1 := r1 m'' hs
        (fun i hi hi' => by rw [ha i hi (by omega), o2 i (by omega) (by omega)])
        (fun i hi hi' => by rw [hb i hi (by omega), o2 i (by omega) (by omega)])
      rw [chk_iff] at R1 R2 ⊢
      simp only [RepF, loadValsF]
      exact ⟨v, kvs, _, _, rfl, rfl, R1.mono (fun _ _ _ => rfl) (seg_le (by omega) (by omega)),
        RepF.mono (fun _ _ _ => rfl) (seg_le (by omega) (by omega)) R2⟩

mutual
theorem goodR : ∀ T : Ty, T.WF → Plain T → GoodR T
  | .noType, _, _ => fun v _ _ _ hv _ => by cases v <;> exact absurd hv (by simp [HasType])
  | .int, _, _ => fun v off im m hv hf => by
    cases v <;> try (exfalso; simp only [HasType] at hv; done)
    rename_i z
    simp only [typeSize, inLen] at hf ⊢
    simp only [writeToWasm]
    refine rt_imp (wr_int (z := z) hf rfl) fun m h => ?_
    rw [chk_iff] at h ⊢
    simp only [Rep, loadVals]
    exact ⟨z, rfl, hv, h⟩
  | .uint, _, _ => fun v off im m hv hf => by
    cases v <;> try (exfalso; simp only [HasType] at hv; done)
    rename_i z
    simp only [typeSize, inLen] at hf ⊢
    simp only [writeToWasm]
    refine rt_imp (wr_int (z := z) hf rfl) fun m h => ?_
    rw [chk_iff] at h ⊢
    simp only [Rep, loadVals]
    refine ⟨z, rfl, hv, ?_⟩
    rw [h]
    simp only [encU]
    rw [BitVec.ofInt_natCast]
    rw [show ((z : Int) / 2 ^ 64) = ((z / 2 ^ 64 : Nat) : Int) by norm_num, BitVec.ofInt_natCast]
  | .bool, _, _ => fun v off im m hv hf => by
    cases v <;> try (exfalso; simp only [HasType] at hv; done)
    rename_i b
    simp only [typeSize, inLen] at hf ⊢
    simp only [writeToWasm]
    refine rt_imp (rt_word (x := if b then 1 else 0) (by split <;> omega) hf) fun m h => ?_
    rw [chk_iff]
    have : (memRead m off 4).map leNat = some (if b then 1 else 0) := by
      rw [← h]; cases memRead m off 4 <;> rfl
    simp only [Rep, loadVals]
    refine ⟨b, rfl, ?_⟩
    rw [ld32_of_read this]
    cases b <;> rfl
  | .principal, _, _ => fun v off im m hv hf => by
    cases v <;> try (exfalso; simp only [HasType] at hv; done)
    exact goodR_bytes rfl (by simp [inLen, memBytes]) (by simp [writeToWasm, memBytes])
      (fun m h => by simp only [Rep, loadVals]; exact ⟨hv, h⟩) hf
  | .callable c, _, _ => fun v off im m hv hf => by
    cases v <;> try (exfalso; simp only [HasType] at hv; done)
    exact goodR_bytes rfl (by simp [inLen, memBytes]) (by simp [writeToWasm, memBytes])
      (fun m h => by simp only [Rep, loadVals]; exact ⟨hv, h⟩) hf
  | .trait _, _, h => h.elim
  | .traitRef t, _, _ => fun v off im m hv hf => by
    cases v <;> try (exfalso; simp only [HasType] at hv; done)
    exact goodR_bytes rfl (by simp [inLen, memBytes]) (by simp [writeToWasm, memBytes])
      (fun m h => by simp only [Rep, loadVals]; exact ⟨hv, h⟩) hf
  | .buff n, _, _ => fun v off im m hv hf => by
    cases v <;> try (exfalso; simp only [HasType] at hv; done)
    exact goodR_bytes rfl (by simp [inLen, memBytes]) (by simp [writeToWasm, memBytes])
      (fun m h => by simp only [Rep, loadVals]; exact ⟨hv, h⟩) hf
  | .ascii n, _, _ => fun v off im m hv hf => by
    cases v <;> try (exfalso; simp only [HasType] at hv; done)
    exact goodR_bytes rfl (by simp [inLen, memBytes]) (by simp [writeToWasm, memBytes])
      (fun m h => by simp only [Rep, loadVals]; exact ⟨hv, h⟩) hf
  | .utf8 n, _, _ => fun v off im m hv hf => by
    cases v <;> try (exfalso; simp only [HasType] at hv; done)
    exact goodR_bytes rfl (by simp only [inLen, memBytes, length_flatMap_be])
      (by simp [writeToWasm, memBytes])
      (fun m h => by simp only [Rep, loadVals]; exact ⟨hv, h⟩) hf
  | .list n e, hw, hp => goodR_list (goodR e hw hp)
  | .opt t, hw, hp => fun v off im m hv hf => by
    cases v <;> try (exfalso; simp only [HasType] at hv; done)
    · simp only [typeSize, inLen] at hf ⊢
      refine rt_tag (x := 0) (off' := off + 4) (ts := 0) (w := fun m => some (m, 0, 0))
        (rd := fun _ => some ()) (v := ()) (by omega) (by omega) (by omega) hf ?_ ?_ ?_
      · intro m hf
        exact ⟨m, rfl, rfl, fun _ _ _ => rfl, fun _ _ _ _ => rfl⟩
      · intro m m1 m2 h1 h2
        simp only [Option.some.injEq, Prod.mk.injEq] at h2
        simp only [writeToWasm, h1, h2.1]
        rfl
      · intro m'' h1 _
        rw [chk_iff]
        simp only [Rep, loadVals, ld32_of_read h1]
        exact Or.inl ⟨_, trivial, rfl, loadVals_ty _ _ _⟩
    · rename_i v
      simp only [typeSize, inLen] at hf ⊢
      refine rt_tag (x := 1) (off' := off + 4) (by omega) (by omega) (by omega) hf
        (fun m hf => goodR t hw hp v (off + 4) im m hv hf) ?_ ?_
      · intro m m1 m2 h1 h2
        try simp only [] at h2
        simp only [writeToWasm, h1, Option.bind_eq_bind, Option.bind_some, h2]
      · intro m'' h1 h2
        rw [chk_iff] at h2 ⊢
        simp only [Rep, loadVals, ld32_of_read h1]
        exact Or.inr ⟨_, _, rfl, rfl, h2⟩
  | .resp o e, hw, hp => fun v off im m hv hf => by
    cases v <;> try (exfalso; simp only [HasType] at hv; done)
    · rename_i v
      simp only [typeSize, inLen] at hf ⊢
      refine rt_tag (x := 1) (off' := off + 4) (by omega) (by omega) (by omega) hf
        (fun m hf => goodR o hw.1 hp.1 v (off + 4) im m hv hf) ?_ ?_
      · intro m m1 m2 h1 h2
        try simp only [] at h2
        simp only [writeToWasm, h1, Option.bind_eq_bind, Option.bind_some, h2]
      · intro m'' h1 h2
        rw [chk_iff] at h2 ⊢
        simp only [Rep, loadVals, ld32_of_read h1]
        exact Or.inl ⟨_, _, _, rfl, rfl, h2, loadVals_ty _ _ _⟩
    · rename_i v
      simp only [typeSize, inLen] at hf ⊢
      refine rt_tag (x := 0) (off' := off + (4 + typeSize o)) (by omega) (by omega) (by omega) hf
        (fun m hf => goodR e hw.2 hp.2 v (off + (4 + typeSize o)) im m hv hf) ?_ ?_
      · intro m m1 m2 h1 h2
        try simp only [] at h2
        simp only [writeToWasm, h1, Option.bind_eq_bind, Option.bind_some, h2]
      · intro m'' h1 h2
        rw [chk_iff] at h2 ⊢
        simp only [Rep, loadVals, ld32_of_read h1]
        refine Or.inr ⟨_, _, _, rfl, rfl, ?_, loadVals_ty _ _ _⟩
        simpa only [Nat.add_assoc] using h2
  | .tuple fs, hw, hp => fun v off im m hv hf => by
    cases v <;> try (exfalso; simp only [HasType] at hv; done)
    rename_i kvs
    simp only [typeSize, inLen] at hf ⊢
    obtain ⟨m', w, s, o, r⟩ := goodRF fs hw.2.2 hp [] kvs off im m hv (by simpa using hw.2.1) hf
    refine ⟨m', by simpa [writeToWasm] using w, s, o, fun m'' hs ha hb => ?_⟩
    have := r m'' hs ha hb
    rw [chk_iff] at this ⊢
    simp only [Rep, loadVals]
    exact ⟨kvs, rfl, this⟩
theorem goodRF : ∀ fs : Fields, fs.WF → PlainF fs → GoodRF fs
  | .nil, _, _ => fun pre kvs off im m hv _ _ => by
    cases kvs with
    | cons => exact absurd hv (by simp [HasFields])
    | nil =>
      refine ⟨m, by simp [writeFields, fieldsSize, inLenF], rfl, fun _ _ _ => rfl, fun _ _ _ _ => ?_⟩
      rw [chk_iff]
      simp [RepF, loadValsF]
  | .cons k t fs, hw, hp => wr_cons (goodR t hw.1 hp.1) (goodRF fs hw.2 hp.2)
end

/-- A written value is represented. -/
theorem write_rep {T : Ty} {v : Value} {off im : Nat} {m : Mem} (hw : T.WF) (hp : Plain T)
    (hv : HasType T v) (hf : Fits m off (typeSize T) im (inLen T v)) :
    ∃ m', writeToWasm T off im v true m = some (m', typeSize T, inLen T v) ∧ m'.size = m.size ∧
      (∀ i, (i < off ∨ off + typeSize T ≤ i) → (i < im ∨ im + inLen T v ≤ i) →
        m'.byte i = m.byte i) ∧ Rep m' (seg im (im + inLen T v)) T v (loadVals m' T off) := by
  obtain ⟨m', w, s, o, r⟩ := goodR T hw hp v off im m hv hf
  exact ⟨m', w, s, o, chk_iff.1 (r m' s (Agree.refl _ _ _) (Agree.refl _ _ _))⟩

end Gen
