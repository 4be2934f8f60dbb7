import Verif.Gen.Seq
import Verif.Gen.Rep
import Verif.Gen.Typing
import Verif.Gen.EqualProof

/-! Sequences in memory: their elements and parts. -/

namespace Gen
open Wasm Spec Host Core

variable {m : Mem} {b : Reg} {S : Ty} {v : Value} {vs : List Value} {ws : List Val}

theorem SeqOk.pos (h : SeqOk S) : 0 < unit S := by
  obtain ⟨h1, h2, _⟩ := h
  cases S with
  | list n e => exact typeSize_pos e h2
  | buff _ | ascii _ | utf8 _ => simp [unit]
  | _ => simp [isSeq] at h1

theorem withMax_self (S : Ty) : withMax (maxLen S) S = S := by cases S <;> rfl

theorem unit_withMax (k : Nat) (S : Ty) : unit (withMax k S) = unit S := by cases S <;> rfl

theorem wty_seq (h : isSeq S = true) : wty S = [.i32, .i32] := by
  cases S <;> simp [isSeq] at h <;> rfl

theorem bytesAt_part {m : Mem} {o : Nat} {bs : List Byte} (h : bytesAt m o bs.length = bs) {i k : Nat}
    (hk : i + k ≤ bs.length) : bytesAt m (o + i) k = (bs.drop i).take k := by
  obtain ⟨r, hr⟩ := Nat.exists_eq_add_of_le hk
  rw [hr, bytesAt_add, bytesAt_add] at h
  rw [← h, List.append_assoc, List.drop_append, List.drop_of_length_le (by rw [Wasm.length_bytesAt]),
    Wasm.length_bytesAt, Nat.sub_self, List.drop_zero, List.nil_append,
    List.take_append_of_le_length (by rw [Wasm.length_bytesAt]), List.take_of_length_le (by rw [Wasm.length_bytesAt])]

theorem flatMap4_length (cs : List Nat) : (cs.flatMap beBytes4).length = cs.length * 4 := by
  induction cs with
  | nil => rfl
  | cons c cs ih => simp [List.flatMap_cons, ih, beBytes4]; omega

theorem flatMap4_part (cs : List Nat) (i k : Nat) (h : i + k ≤ cs.length) :
    ((cs.flatMap beBytes4).drop (i * 4)).take (k * 4) = ((cs.drop i).take k).flatMap beBytes4 := by
  have h1 : cs = cs.take i ++ ((cs.drop i).take k ++ (cs.drop i).drop k) := by simp
  have l1 : ((cs.take i).flatMap beBytes4).length = i * 4 := by rw [flatMap4_length, List.length_take]; congr 1; omega
  have l2 : (((cs.drop i).take k).flatMap beBytes4).length = k * 4 := by
    rw [flatMap4_length, List.length_take, List.length_drop]; congr 1; omega
  conv => lhs; rw [h1]
  rw [List.flatMap_append, List.flatMap_append, List.drop_append, List.drop_of_length_le (by omega), l1, Nat.sub_self,
    List.drop_zero, List.nil_append, List.take_append_of_le_length (by omega), List.take_of_length_le (by omega)]

theorem add_toNat {o : BitVec 32} {i : Nat} (h : o.toNat + i < 2 ^ 32) :
    (o + BitVec.ofNat 32 i).toNat = o.toNat + i := by
  rw [BitVec.toNat_add, BitVec.toNat_ofNat]; omega

theorem Reg.Has.part {b : Reg} {o l i k : Nat} (h : b.Has o l) (hk : i + k ≤ l) : b.Has (o + i) k :=
  ⟨by have := h.1; omega, fun j h1 h2 => h.2 j (by omega) (by omega)⟩

theorem BytesIn.part {bs : List Byte} {o l : BitVec 32} (h : BytesIn m b bs [.i32 o, .i32 l]) (hb : b.hi < 2 ^ 32) {i k : Nat}
    (hk : i + k ≤ bs.length) :
    BytesIn m b ((bs.drop i).take k) [.i32 (o + BitVec.ofNat 32 i), .i32 (BitVec.ofNat 32 k)] := by
  obtain ⟨o', l', e, h1, h2, h3⟩ := h
  cases e
  have h4 := h2.1
  have hz : o.toNat + i < 2 ^ 32 := by omega
  refine ⟨_, _, rfl, ?_, ?_, ?_⟩
  · rw [BitVec.toNat_ofNat, List.length_take, List.length_drop]; omega
  · rw [add_toNat hz, List.length_take, List.length_drop, Nat.min_eq_left (by omega)]
    exact h2.part hk
  · rw [add_toNat hz, List.length_take, List.length_drop, Nat.min_eq_left (by omega)]
    exact bytesAt_part h3 hk

/-- What is known about a sequence in memory. -/
theorem rep_seq (hs : isSeq S = true) (h : Rep m b S v ws) :
    ∃ vs, ∃ o l : BitVec 32, seqElems v = some vs ∧ vs.length ≤ maxLen S ∧ ws = [.i32 o, .i32 l] ∧
      l.toNat = vs.length * unit S ∧ b.Has o.toNat l.toNat := by
  cases S with
  | list n e =>
    simp only [Rep] at h
    obtain ⟨vs, o, l, rfl, h1, h2, h3, h4, _⟩ := h
    exact ⟨vs, o, l, rfl, h1, h2, h3, h4⟩
  | buff n =>
    simp only [Rep] at h
    obtain ⟨h0, o, l, h1, h2, h3, h4⟩ := h
    cases v <;> simp only [HasType] at h0
    simp only [memBytes] at h2 h3
    exact ⟨_, o, l, rfl, by simpa [maxLen] using h0, h1, by simp [h2, unit], by rw [h2]; exact h3⟩
  | ascii n =>
    simp only [Rep] at h
    obtain ⟨h0, o, l, h1, h2, h3, h4⟩ := h
    cases v <;> simp only [HasType] at h0
    simp only [memBytes] at h2 h3
    exact ⟨_, o, l, rfl, by simpa [maxLen] using h0.1, h1, by simp [h2, unit], by rw [h2]; exact h3⟩
  | utf8 n =>
    simp only [Rep] at h
    obtain ⟨h0, o, l, h1, h2, h3, h4⟩ := h
    cases v <;> simp only [HasType] at h0
    simp only [memBytes] at h2 h3
    exact ⟨_, o, l, rfl, by simpa [maxLen] using h0.1, h1, by simp [h2, unit, flatMap4_length], by rw [h2]; exact h3⟩
  | _ => simp [isSeq] at hs

/-- A part of a sequence is a sequence. -/
theorem rep_part (hs : isSeq S = true) {o l : BitVec 32} (h : Rep m b S v [.i32 o, .i32 l]) (hb : b.hi < 2 ^ 32)
    (hv : seqElems v = some vs) {i k q : Nat} (hk : i + k ≤ vs.length) (hq : k ≤ q) :
    Rep m b (withMax q S) (seqPart i k v)
      [.i32 (o + BitVec.ofNat 32 (i * unit S)), .i32 (BitVec.ofNat 32 (k * unit S))] := by
  cases S with
  | list n e =>
    simp only [Rep] at h
    obtain ⟨us, o', l', rfl, h1, h2, h3, h4, h5⟩ := h
    cases hv
    cases h2
    have hlt := h4.1
    have hm : (i + k) * typeSize e ≤ vs.length * typeSize e := Nat.mul_le_mul_right _ hk
    rw [Nat.add_mul] at hm
    simp only [Rep, withMax, seqPart, unit]
    have e1 := add_toNat (o := o) (i := i * typeSize e) (by omega)
    refine ⟨_, _, _, rfl, ?_, rfl, ?_, ?_, ?_⟩
    · rw [List.length_take]; omega
    · rw [BitVec.toNat_ofNat, List.length_take, List.length_drop, Nat.min_eq_left (by omega), Nat.mod_eq_of_lt (by omega)]
    · rw [e1, BitVec.toNat_ofNat, Nat.mod_eq_of_lt (by omega)]
      exact h4.part (by omega)
    · intro j x hj
      have hjk : j < k := by
        have := (List.getElem?_eq_some_iff.1 hj).1
        rw [List.length_take] at this; omega
      rw [List.getElem?_take_of_lt hjk, List.getElem?_drop] at hj
      have := h5 _ _ hj
      rwa [Nat.add_mul, ← Nat.add_assoc, ← e1] at this
  | buff n =>
    simp only [Rep] at h
    obtain ⟨h0, h1⟩ := h
    cases v <;> simp only [HasType] at h0
    cases hv
    simp only [List.length_map] at hk
    simp only [withMax, seqPart, Rep, unit, Nat.mul_one, memBytes] at *
    exact ⟨by simp [HasType]; omega, h1.part hb hk⟩
  | ascii n =>
    simp only [Rep] at h
    obtain ⟨h0, h1⟩ := h
    cases v <;> simp only [HasType] at h0
    cases hv
    simp only [List.length_map] at hk
    simp only [withMax, seqPart, Rep, unit, Nat.mul_one, memBytes] at *
    refine ⟨?_, h1.part hb hk⟩
    simp only [HasType]
    exact ⟨by simp; omega, fun c hc => h0.2 c (List.mem_of_mem_drop (List.mem_of_mem_take hc))⟩
  | utf8 n =>
    simp only [Rep] at h
    obtain ⟨h0, h1⟩ := h
    cases v <;> simp only [HasType] at h0
    cases hv
    simp only [List.length_map] at hk
    simp only [withMax, seqPart, Rep, unit, memBytes] at *
    refine ⟨?_, ?_⟩
    · simp only [HasType]
      exact ⟨by simp; omega, fun c hc => h0.2 c (List.mem_of_mem_drop (List.mem_of_mem_take hc))⟩
    · rw [← flatMap4_part _ _ _ hk]
      exact h1.part hb (by rw [flatMap4_length]; omega)
  | _ => simp [isSeq] at hs

/-- A smaller bound on the number of elements. -/
theorem rep_max (hs : isSeq S = true) (h : Rep m b S v ws) (hv : seqElems v = some vs) {q : Nat}
    (hq : vs.length ≤ q) : Rep m b (withMax q S) v ws := by
  cases S with
  | list n e =>
    simp only [Rep, withMax] at h ⊢
    obtain ⟨us, o', l', rfl, h1, h2, h3, h4, h5⟩ := h
    cases hv
    exact ⟨_, o', l', rfl, hq, h2, h3, h4, h5⟩
  | buff n | ascii n | utf8 n =>
    simp only [Rep] at h
    obtain ⟨h0, h1⟩ := h
    cases v <;> simp only [HasType] at h0
    cases hv
    simp only [List.length_map] at hq
    simp only [withMax, Rep, HasType]
    simp_all
  | _ => simp [isSeq] at hs

/-- The words that represent the element at address `a`. -/
def elemVals (m : Mem) (S : Ty) (a : BitVec 32) : List Val :=
  match S with
  | .list _ e => loadVals m e a.toNat
  | _ => [.i32 a, .i32 (BitVec.ofNat 32 (unit S))]

theorem rep_elem (hs : isSeq S = true) {o l : BitVec 32} (h : Rep m b S v [.i32 o, .i32 l]) (hb : b.hi < 2 ^ 32)
    (hv : seqElems v = some vs) {i : Nat} {x : Value} (hi : vs[i]? = some x) :
    Rep m b (elemTy S) x (elemVals m S (o + BitVec.ofNat 32 (i * unit S))) := by
  have hlt : i < vs.length := (List.getElem?_eq_some_iff.1 hi).1
  cases S with
  | list n e =>
    simp only [Rep] at h
    obtain ⟨us, o', l', rfl, h1, h2, h3, h4, h5⟩ := h
    cases hv
    cases h2
    have h6 := h4.1
    have hm : i * typeSize e ≤ vs.length * typeSize e := Nat.mul_le_mul_right _ (by omega)
    simp only [elemVals, elemTy, unit]
    rw [add_toNat (by omega)]
    exact h5 i x hi
  | buff n =>
    have := rep_part rfl h hb hv (i := i) (k := 1) (q := 1) (by omega) (Nat.le_refl _)
    simp only [Rep] at h
    obtain ⟨h0, h1⟩ := h
    cases v <;> simp only [HasType] at h0
    cases hv
    simp only [List.getElem?_map, Option.map_eq_some_iff] at hi
    obtain ⟨c, hc, rfl⟩ := hi
    simp only [withMax, seqPart] at this
    rw [List.take_one, List.head?_drop, hc] at this
    simpa [elemVals, elemTy, unit] using this
  | ascii n =>
    have := rep_part rfl h hb hv (i := i) (k := 1) (q := 1) (by omega) (Nat.le_refl _)
    simp only [Rep] at h
    obtain ⟨h0, h1⟩ := h
    cases v <;> simp only [HasType] at h0
    cases hv
    simp only [List.getElem?_map, Option.map_eq_some_iff] at hi
    obtain ⟨c, hc, rfl⟩ := hi
    simp only [withMax, seqPart] at this
    rw [List.take_one, List.head?_drop, hc] at this
    simpa [elemVals, elemTy, unit] using this
  | utf8 n =>
    have := rep_part rfl h hb hv (i := i) (k := 1) (q := 1) (by omega) (Nat.le_refl _)
    simp only [Rep] at h
    obtain ⟨h0, h1⟩ := h
    cases v <;> simp only [HasType] at h0
    cases hv
    simp only [List.getElem?_map, Option.map_eq_some_iff] at hi
    obtain ⟨c, hc, rfl⟩ := hi
    simp only [withMax, seqPart] at this
    rw [List.take_one, List.head?_drop, hc] at this
    simpa [elemVals, elemTy, unit] using this
  | _ => simp [isSeq] at hs

theorem elem_len (S : Ty) (hs : isSeq S = true) (a : BitVec 32) : (elemVals m S a).map Val.ty = wty (elemTy S) := by
  cases S with
  | list n e => exact loadVals_ty m e a.toNat
  | buff _ | ascii _ | utf8 _ => rfl
  | _ => simp [isSeq] at hs

theorem steps_readElem {σ : Type} {M : Wasm.Mod σ} {o : Nat} {a : BitVec 32} {stk loc : List Val} {g : Store σ} (hs : isSeq S = true)
    (h : loc[o]? = some (.i32 a)) (hb : a.toNat + unit S ≤ g.mem.size) :
    Steps M (readElem S o) stk loc g ((elemVals g.mem S a).reverse ++ stk) loc g := by
  cases S with
  | list n e =>
    have := steps_readMem (M := M) h e 0 stk (by simpa [unit] using hb)
    simpa [readElem, elemVals] using this
  | buff _ | ascii _ | utf8 _ => exact (steps_get h).append steps_const
  | _ => simp [isSeq] at hs

/-! ### The index computations -/

theorem c64_eq (n : Nat) : c64 n = .b (.const (.i64 (BitVec.ofNat 64 n))) := rfl

theorem steps_scale {σ : Type} {M : Wasm.Mod σ} {lo : BitVec 64} {stk loc : List Val} {g : Store σ} (hs : isSeq S = true) :
    Steps M (scaleCode S) (.i64 lo :: stk) loc g (.i64 (lo * BitVec.ofNat 64 (unit S)) :: stk) loc g := by
  cases S with
  | list n e => exact (Steps.append (xs := [_]) steps_const (Steps.b rfl))
  | buff _ | ascii _ => simpa [scaleCode, unit] using Steps.refl
  | utf8 _ =>
    have : lo * BitVec.ofNat 64 4 = lo <<< 2 := by bv_omega
    refine (Steps.append (xs := [_]) steps_const (Steps.b ?_))
    simp only [stepB, IBin.eval, unit, this]
    rfl
  | _ => simp [isSeq] at hs

/-- From the number of bytes to the number of elements. -/
theorem steps_count {σ : Type} {M : Wasm.Mod σ} {l : BitVec 32} {k : Nat} {stk loc : List Val} {g : Store σ} (hs : SeqOk S)
    (hl : l.toNat = k * unit S) :
    Steps M (countCode S) (.i32 l :: stk) loc g (.i32 (BitVec.ofNat 32 k) :: stk) loc g := by
  have hp := hs.pos
  have hlt := l.isLt
  obtain ⟨hs, _, _, hu⟩ := hs
  cases S with
  | list n e =>
    simp only [unit] at *
    have e1 : (BitVec.ofNat 32 (typeSize e)).toNat = typeSize e := by rw [BitVec.toNat_ofNat]; omega
    have e2 : (BitVec.ofNat 32 (typeSize e)) ≠ 0#32 := by
      intro h; rw [h] at e1; simp at e1; omega
    have e3 : l / BitVec.ofNat 32 (typeSize e) = BitVec.ofNat 32 k := by
      apply BitVec.eq_of_toNat_eq
      rw [BitVec.toNat_udiv, e1, hl, Nat.mul_div_cancel _ hp, BitVec.toNat_ofNat, Nat.mod_eq_of_lt]
      have : k * 1 ≤ k * typeSize e := Nat.mul_le_mul_left _ hp
      omega
    exact (Steps.append (xs := [_]) steps_const (Steps.b (by simp [stepB, IDiv.eval, e2, e3])))
  | buff _ | ascii _ =>
    simp only [unit, Nat.mul_one] at hl
    have : l = BitVec.ofNat 32 k := by rw [← hl]; simp
    rw [← this]
    exact Steps.refl
  | utf8 _ =>
    simp only [unit] at hl
    have : l >>> 2 = BitVec.ofNat 32 k := by
      apply BitVec.eq_of_toNat_eq
      rw [BitVec.toNat_ushiftRight, hl, Nat.shiftRight_eq_div_pow, BitVec.toNat_ofNat]; omega
    refine (Steps.append (xs := [_]) steps_const (Steps.b ?_))
    simp only [stepB, IBin.eval, ← this]
    rfl
  | _ => simp [isSeq] at hs

theorem steps_index {σ : Type} {M : Wasm.Mod σ} {ov ix n : Nat} {stk loc : List Val} {g : Store σ} (hs : isSeq S = true)
    (hn : IsUInt n) (hov : ov < loc.length) (hix : ix < loc.length) (hne : ov ≠ ix) :
    ∃ loc', Steps M (indexCode S ov ix) ((encU n).reverse ++ stk) loc g
        (.i64 (BitVec.ofNat 64 n * BitVec.ofNat 64 (unit S)) :: stk) loc' g ∧ loc'.length = loc.length ∧
      (∀ i, i ≠ ov → i ≠ ix → loc'[i]? = loc[i]?) ∧ loc'[ov]? = some (.i32 (b32 (2 ^ 20 < n))) ∧
      loc'[ix]? = some (.i64 (BitVec.ofNat 64 n * BitVec.ofNat 64 (unit S))) := by
  obtain ⟨lo, hi, rfl⟩ := exists_u128 hn
  have hlo : BitVec.ofNat 64 (u128 lo hi) = lo := by
    apply BitVec.eq_of_toNat_eq
    rw [BitVec.toNat_ofNat, u128]; have := lo.isLt; omega
  have hb : b32 ((BitVec.ofNat 64 (1024 * 1024)).toNat < lo.toNat ∨ 0 < hi.toNat) = b32 (2 ^ 20 < u128 lo hi) := by
    unfold b32
    refine if_congr ?_ rfl rfl
    simp only [u128, Nat.reduceMul, BitVec.toNat_ofNat, Nat.reducePow, Nat.reduceMod]; have := lo.isLt; omega
  rw [encU_u128, hlo]
  unfold indexCode
  refine ⟨((((loc.set ov (.i32 (b32 (0 < hi.toNat)))).set ix (.i64 lo)).set ov (.i32 (b32 (2 ^ 20 < u128 lo hi))))).set ix
    (.i64 (lo * BitVec.ofNat 64 (unit S))), ?_, by simp, ?_, ?_, ?_⟩
  · refine Steps.append (Steps.append (s1 := .i64 lo :: stk) (g1 := g) (l1 := ((loc.set ov (.i32 (b32 (0 < hi.toNat)))).set ix
      (.i64 lo)).set ov (.i32 (b32 (2 ^ 20 < u128 lo hi)))) ?_ (steps_scale hs)) (Steps.b ?_)
    · apply Steps.of_wp
      intro Q
      simp only [c64]
      show WP M _ (.i64 hi :: .i64 lo :: stk) loc g Q ↔ _
      wpl [hb]
    · simp [stepB, hix]
  · intro i h1 h2
    simp [Ne.symm h1, Ne.symm h2]
  · simp [Ne.symm hne, hov]
  · simp [hix]

end Gen
