import Verif.Gen.ExprList

/-! Sequences in memory, by the address of their first byte. -/

namespace Gen
open Wasm Spec Host Core

theorem read_move {m m' : Mem} : ∀ {n a a' : Nat}, (∀ i, i < n → m'.byte (a' + i) = m.byte (a + i)) →
    m'.read a' n = m.read a n
  | 0, _, _, _ => rfl
  | n + 1, a, a', h => by
    have h0 := h 0 (by omega)
    rw [Nat.add_zero, Nat.add_zero] at h0
    simp only [Mem.read]
    rw [h0, read_move (n := n) (a := a + 1) (a' := a' + 1) fun i hi => by
      have := h (i + 1) (by omega)
      rwa [show a' + (i + 1) = a' + 1 + i by omega, show a + (i + 1) = a + 1 + i by omega] at this]

theorem ld32_move {m m' : Mem} {a a' : Nat} (h : ∀ i, i < 4 → m'.byte (a' + i) = m.byte (a + i)) :
    ld32 m' a' = ld32 m a := by simp only [ld32, read_move h]
theorem ld64_move {m m' : Mem} {a a' : Nat} (h : ∀ i, i < 8 → m'.byte (a' + i) = m.byte (a + i)) :
    ld64 m' a' = ld64 m a := by simp only [ld64, read_move h]

theorem part_move {m m' : Mem} {a a' n : Nat} (h : ∀ i, i < n → m'.byte (a' + i) = m.byte (a + i)) {k j : Nat} (hk : k + j ≤ n) :
    ∀ i, i < j → m'.byte (a' + k + i) = m.byte (a + k + i) := by
  intro i hi
  rw [Nat.add_assoc, Nat.add_assoc]
  exact h (k + i) (by omega)

mutual
/-- The representation of a value may be moved. -/
theorem loadVals_move {m m' : Mem} : ∀ T a a',
    (∀ i, i < typeSize T → m'.byte (a' + i) = m.byte (a + i)) → loadVals m' T a' = loadVals m T a
  | .noType, _, _, _ => rfl
  | .int, a, a', h | .uint, a, a', h => by
    simp only [typeSize] at h
    simp only [loadVals]
    rw [ld64_move fun i hi => h i (by omega), ld64_move (part_move h (by omega))]
  | .bool, a, a', h => by
    simp only [typeSize] at h
    simp only [loadVals]
    rw [ld32_move h]
  | .principal, a, a', h | .callable _, a, a', h | .trait _, a, a', h
  | .traitRef _, a, a', h | .buff _, a, a', h | .ascii _, a, a', h | .utf8 _, a, a', h | .list _ _, a, a', h => by
    simp only [typeSize] at h
    simp only [loadVals]
    rw [ld32_move fun i hi => h i (by omega), ld32_move (part_move h (by omega))]
  | .opt t, a, a', h => by
    simp only [typeSize] at h
    simp only [loadVals]
    rw [ld32_move fun i hi => h i (by omega), loadVals_move t _ _ (part_move h (by omega))]
  | .resp o e, a, a', h => by
    simp only [typeSize] at h
    simp only [loadVals]
    rw [ld32_move fun i hi => h i (by omega), loadVals_move o _ _ (part_move h (by omega)),
      Nat.add_assoc a, Nat.add_assoc a', loadVals_move e _ _ (part_move h (by omega))]
  | .tuple fs, a, a', h => by
    simp only [typeSize] at h
    simp only [loadVals]
    exact loadVals_moveF fs a a' h
theorem loadVals_moveF {m m' : Mem} : ∀ fs a a',
    (∀ i, i < fieldsSize fs → m'.byte (a' + i) = m.byte (a + i)) → loadValsF m' fs a' = loadValsF m fs a
  | .nil, _, _, _ => rfl
  | .cons _ t fs, a, a', h => by
    simp only [fieldsSize] at h
    simp only [loadValsF]
    rw [loadVals_move t _ _ fun i hi => h i (by omega), loadVals_moveF fs _ _ (part_move h (by omega))]
end

theorem bytesAt_move {m m' : Mem} {a a' : Nat} : ∀ {n : Nat}, (∀ i, i < n → m'.byte (a' + i) = m.byte (a + i)) →
    bytesAt m' a' n = bytesAt m a n := by
  intro n
  induction n generalizing a a' with
  | zero => intro _; rfl
  | succ n ih =>
    intro h
    have h0 := h 0 (by omega)
    rw [Nat.add_zero, Nat.add_zero] at h0
    rw [bytesAt, bytesAt, h0, ih fun i hi => by
      have := h (i + 1) (by omega)
      rwa [show a' + (i + 1) = a' + 1 + i by omega, show a + (i + 1) = a + 1 + i by omega] at this]

/-- The sequence `v` is stored from address `a` on. -/
def SeqAt (m : Mem) (b : Reg) (S : Ty) (a : Nat) (v : Value) : Prop :=
  match S, v with
  | .list _ E, .list vs => ElemsAt m b E a vs
  | .buff _, .buff bs => bytesAt m a bs.length = bs
  | .ascii _, .ascii bs => bytesAt m a bs.length = bs ∧ ∀ c ∈ bs, asciiOk c.toNat
  | .utf8 _, .utf8 cs => bytesAt m a (cs.length * 4) = cs.flatMap beBytes4 ∧ ∀ c ∈ cs, isScalar c
  | _, _ => False

variable {m m' : Mem} {b b' : Reg} {S : Ty} {v : Value} {vs : List Value}

theorem SeqAt.of_rep (hs : isSeq S = true) {o l : BitVec 32} (h : Rep m b S v [.i32 o, .i32 l]) : SeqAt m b S o.toNat v := by
  cases S with
  | list n e =>
    simp only [Rep] at h
    obtain ⟨us, o', l', rfl, _, e, _, _, h⟩ := h
    cases e
    exact h
  | buff n =>
    simp only [Rep] at h
    obtain ⟨h0, o', l', e, h2, h3, h4⟩ := h
    cases e
    cases v <;> simp only [HasType] at h0
    exact h4
  | ascii n =>
    simp only [Rep] at h
    obtain ⟨h0, o', l', e, h2, h3, h4⟩ := h
    cases e
    cases v <;> simp only [HasType] at h0
    exact ⟨h4, h0.2⟩
  | utf8 n =>
    simp only [Rep] at h
    obtain ⟨h0, o', l', e, h2, h3, h4⟩ := h
    cases e
    cases v <;> simp only [HasType] at h0
    simp only [memBytes, flatMap4_length] at h4
    exact ⟨h4, h0.2⟩
  | _ => simp [isSeq] at hs

theorem SeqAt.rep {o l : BitVec 32} (h : SeqAt m b S o.toNat v) (hv : seqElems v = some vs) (hm : vs.length ≤ maxLen S)
    (hl : l.toNat = vs.length * unit S) (hb : b.Has o.toNat l.toNat) : Rep m b S v [.i32 o, .i32 l] := by
  unfold SeqAt at h
  split at h
  · cases hv
    exact h.rep hm hl hb
  · cases hv
    simp only [List.length_map, maxLen, unit, Nat.mul_one] at hm hl
    simp only [Rep, HasType, memBytes]
    exact ⟨hm, o, l, rfl, hl, by rw [← hl]; exact hb, h⟩
  · cases hv
    simp only [List.length_map, maxLen, unit, Nat.mul_one] at hm hl
    simp only [Rep, HasType, memBytes]
    exact ⟨⟨hm, h.2⟩, o, l, rfl, hl, by rw [← hl]; exact hb, h.1⟩
  · cases hv
    simp only [List.length_map, maxLen, unit] at hm hl
    simp only [Rep, HasType, memBytes]
    exact ⟨⟨hm, h.2⟩, o, l, rfl, by rw [flatMap4_length]; exact hl, by rw [flatMap4_length, ← hl]; exact hb,
      by rw [flatMap4_length]; exact h.1⟩
  · exact h.elim

/-- A sequence may be moved. -/
theorem SeqAt.move {a a' : Nat} (h : SeqAt m b S a v) (hv : seqElems v = some vs) (hm : Same b m m') (hb : b.Le b')
    (hs : ∀ i, i < vs.length * unit S → m'.byte (a' + i) = m.byte (a + i)) : SeqAt m' b' S a' v := by
  unfold SeqAt at h ⊢
  split at h
  · cases hv
    rename_i E
    intro i x hx
    have hi : i < vs.length := (List.getElem?_eq_some_iff.1 hx).1
    simp only [unit] at hs
    have h1 : (i + 1) * typeSize E ≤ vs.length * typeSize E := Nat.mul_le_mul_right _ hi
    rw [Nat.add_mul, Nat.one_mul] at h1
    rw [loadVals_move (m := m) E (a + i * typeSize E) _ (part_move hs h1)]
    exact (h i x hx).mono hm hb
  · cases hv
    simp only [List.length_map, unit, Nat.mul_one] at hs
    exact (bytesAt_move hs).trans h
  · cases hv
    simp only [List.length_map, unit, Nat.mul_one] at hs
    exact ⟨(bytesAt_move hs).trans h.1, h.2⟩
  · cases hv
    simp only [List.length_map, unit] at hs
    exact ⟨(bytesAt_move hs).trans h.1, h.2⟩
  · exact h.elim

/-- One sequence after the other. -/
theorem SeqAt.cat {a : Nat} {u : Value} {us : List Value} (hu : SeqAt m b S a u) (hus : seqElems u = some us)
    (hv : SeqAt m b S (a + us.length * unit S) v) (hvs : seqElems v = some vs) :
    ∃ x, seqCat u v = some x ∧ seqElems x = some (us ++ vs) ∧ SeqAt m b S a x := by
  unfold SeqAt at hu
  split at hu
  · cases v <;> simp only [SeqAt] at hv
    cases hus; cases hvs
    refine ⟨_, rfl, rfl, ?_⟩
    intro i x hx
    rcases Nat.lt_or_ge i us.length with hi | hi
    · rw [List.getElem?_append_left hi] at hx
      exact hu i x hx
    · rw [List.getElem?_append_right hi] at hx
      have := hv _ x hx
      simp only [unit] at this
      rwa [Nat.add_assoc, ← Nat.add_mul, show us.length + (i - us.length) = i by omega] at this
  · cases v <;> simp only [SeqAt] at hv
    cases hus; cases hvs
    refine ⟨_, rfl, by simp [seqElems], ?_⟩
    simp only [List.length_map, unit, Nat.mul_one] at hv
    simp only [SeqAt, List.length_append]
    rw [bytesAt_add, hu, hv]
  · cases v <;> simp only [SeqAt] at hv
    cases hus; cases hvs
    refine ⟨_, rfl, by simp [seqElems], ?_⟩
    simp only [List.length_map, unit, Nat.mul_one] at hv
    simp only [SeqAt, List.length_append]
    rw [bytesAt_add, hu.1, hv.1]
    exact ⟨rfl, fun c hc => (List.mem_append.1 hc).elim (hu.2 c) (hv.2 c)⟩
  · cases v <;> simp only [SeqAt] at hv
    cases hus; cases hvs
    refine ⟨_, rfl, by simp [seqElems], ?_⟩
    simp only [List.length_map, unit] at hv
    simp only [SeqAt, List.length_append]
    rw [Nat.add_mul, bytesAt_add, hu.1, hv.1, List.flatMap_append]
    exact ⟨rfl, fun c hc => (List.mem_append.1 hc).elim (hu.2 c) (hv.2 c)⟩
  · exact hu.elim

theorem SeqAt.kind {a a' : Nat} {u : Value} {us : List Value} (hu : SeqAt m b S a u) (hus : seqElems u = some us)
    (hv : SeqAt m' b' S a' v) (hvs : seqElems v = some vs) :
    ∃ x, seqCat u v = some x ∧ seqElems x = some (us ++ vs) := by
  unfold SeqAt at hu
  split at hu
  · cases v <;> simp only [SeqAt] at hv
    cases hus; cases hvs
    exact ⟨_, rfl, rfl⟩
  · cases v <;> simp only [SeqAt] at hv
    cases hus; cases hvs
    exact ⟨_, rfl, by simp [seqElems]⟩
  · cases v <;> simp only [SeqAt] at hv
    cases hus; cases hvs
    exact ⟨_, rfl, by simp [seqElems]⟩
  · cases v <;> simp only [SeqAt] at hv
    cases hus; cases hvs
    exact ⟨_, rfl, by simp [seqElems]⟩
  · exact hu.elim

theorem hasType_len (hs : isSeq S = true) (h : HasType S v) (hv : seqElems v = some vs) : vs.length ≤ maxLen S := by
  cases S <;> simp [isSeq] at hs <;> cases v <;> simp only [HasType] at h <;> cases hv <;> simp_all [maxLen]

theorem bytesAt_patch {a : Nat} {A B B' C : List Byte} (h : bytesAt m a (A ++ (B ++ C)).length = A ++ (B ++ C))
    (hB : B'.length = B.length) (h' : bytesAt m' (a + A.length) B'.length = B')
    (ho : ∀ i, i < a + A.length ∨ a + A.length + B'.length ≤ i → m'.byte i = m.byte i) :
    bytesAt m' a (A ++ (B' ++ C)).length = A ++ (B' ++ C) := by
  rw [List.length_append, bytesAt_add, List.length_append, bytesAt_add] at h ⊢
  obtain ⟨h1, h2⟩ := List.append_inj h (by rw [Wasm.length_bytesAt])
  obtain ⟨h2, h3⟩ := List.append_inj h2 (by rw [Wasm.length_bytesAt])
  rw [h', bytesAt_move (m := m) (a := a) (fun i hi => ho _ (by omega)), h1,
    bytesAt_move (m := m) (a := a + A.length + B.length) (fun i hi => by rw [hB]; exact ho _ (by omega)), h3]

theorem bytesAt_set {a i : Nat} {bs : List Byte} {c : Byte} (h : bytesAt m a bs.length = bs) (hi : i < bs.length)
    (h' : bytesAt m' (a + i) [c].length = [c]) (ho : ∀ j, j < a + i ∨ a + i + 1 ≤ j → m'.byte j = m.byte j) :
    bytesAt m' a (bs.set i c).length = bs.set i c := by
  have e1 : bs = bs.take i ++ ([bs[i]] ++ bs.drop (i + 1)) := by
    rw [List.singleton_append, ← List.drop_eq_getElem_cons hi, List.take_append_drop]
  have l1 : (bs.take i).length = i := by rw [List.length_take, Nat.min_eq_left (by omega)]
  rw [e1] at h
  have := bytesAt_patch (B' := [c]) h rfl (by rw [l1]; exact h') (by rw [l1]; exact ho)
  rw [List.set_eq_take_append_cons_drop, if_pos hi]
  exact this

theorem flatMap4_set (cs : List Nat) {i c : Nat} (hi : i < cs.length) : ∃ A B C, cs.flatMap beBytes4 = A ++ (B ++ C) ∧
    (cs.set i c).flatMap beBytes4 = A ++ (beBytes4 c ++ C) ∧ A.length = i * 4 ∧ B.length = 4 := by
  refine ⟨(cs.take i).flatMap beBytes4, beBytes4 cs[i], (cs.drop (i + 1)).flatMap beBytes4, ?_, ?_, ?_, rfl⟩
  · rw [← List.flatMap_cons, ← List.flatMap_append, ← List.drop_eq_getElem_cons hi, List.take_append_drop]
  · rw [List.set_eq_take_append_cons_drop, if_pos hi]
    simp [List.flatMap_append, List.flatMap_cons]
  · rw [flatMap4_length, List.length_take, Nat.min_eq_left (by omega)]

/-- One element, stored at address `a`. -/
def ElemAt (m : Mem) (b : Reg) (S : Ty) (a : Nat) (x : Value) : Prop :=
  match S with
  | .list _ E => Rep m b E x (loadVals m E a)
  | S => SeqAt m b S a x

/-- Another element. -/
theorem SeqAt.set {a i : Nat} {x y : Value} (h : SeqAt m b S a v) (hv : seqElems v = some vs) (hi : i < vs.length)
    (hx : seqSet i v x = some y)
    (hm : Same b m m') (ho : ∀ j, j < a + i * unit S ∨ a + i * unit S + unit S ≤ j → m'.byte j = m.byte j)
    (he : ElemAt m' b S (a + i * unit S) x) :
    SeqAt m' b S a y ∧ ∃ ys, seqElems y = some ys ∧ ys.length = vs.length := by
  unfold SeqAt at h
  split at h
  · cases hv
    rename_i E
    simp only [seqSet, Option.some.injEq] at hx
    subst hx
    refine ⟨?_, _, rfl, by simp⟩
    simp only [unit] at ho he
    intro j z hz
    have hj : j < vs.length := by have := (List.getElem?_eq_some_iff.1 hz).1; simpa using this
    by_cases e : i = j
    · subst e
      rw [List.getElem?_set_self hi] at hz
      cases hz
      exact he
    · rw [List.getElem?_set_ne e] at hz
      rw [loadVals_congr (m := m)]
      · exact (h j z hz).mono hm ⟨Nat.le_refl _, fun _ _ h => h⟩
      · intro q h1 h2
        refine ho q ?_
        rcases Nat.lt_or_ge i j with h3 | h3
        · have := Nat.mul_le_mul_right (typeSize E) h3
          rw [Nat.succ_mul] at this; omega
        · have := Nat.mul_le_mul_right (typeSize E) (show j + 1 ≤ i by omega)
          rw [Nat.succ_mul] at this; omega
  · cases hv
    simp only [List.length_map] at hi
    simp only [unit, Nat.mul_one] at he ho
    cases x <;> simp only [ElemAt, SeqAt] at he
    rename_i us
    match us, hx, he with
    | [c], hx, he =>
      simp only [seqSet, Option.some.injEq] at hx
      subst hx
      refine ⟨?_, _, rfl, by simp⟩
      exact bytesAt_set h hi he ho
    | [], hx, _ => simp [seqSet] at hx
    | _ :: _ :: _, hx, _ => simp [seqSet] at hx
  · cases hv
    simp only [List.length_map] at hi
    simp only [unit, Nat.mul_one] at he ho
    cases x <;> simp only [ElemAt, SeqAt] at he
    rename_i us
    match us, hx, he with
    | [c], hx, he =>
      simp only [seqSet, Option.some.injEq] at hx
      subst hx
      refine ⟨?_, _, rfl, by simp⟩
      simp only [SeqAt]
      refine ⟨bytesAt_set h.1 hi he.1 ho, ?_⟩
      · intro z hz
        rcases List.mem_or_eq_of_mem_set hz with hz | rfl
        · exact h.2 z hz
        · exact he.2 z (by simp)
    | [], hx, _ => simp [seqSet] at hx
    | _ :: _ :: _, hx, _ => simp [seqSet] at hx
  · cases hv
    simp only [List.length_map] at hi
    simp only [unit] at he ho
    cases x <;> simp only [ElemAt, SeqAt] at he
    rename_i us
    match us, hx, he with
    | [c], hx, he =>
      simp only [seqSet, Option.some.injEq] at hx
      subst hx
      refine ⟨?_, _, rfl, by simp⟩
      obtain ⟨A, B, C, e1, e2, l1, l2⟩ := flatMap4_set _ (c := c) hi
      have h1 := h.1
      rw [← flatMap4_length, e1] at h1
      have := bytesAt_patch (B' := beBytes4 c) h1 (by rw [l2]; rfl) (by rw [l1]; simpa [beBytes4] using he.1)
        (by rw [l1]; exact ho)
      simp only [SeqAt]
      refine ⟨?_, ?_⟩
      · rw [← flatMap4_length, e2]
        exact this
      · intro z hz
        rcases List.mem_or_eq_of_mem_set hz with hz | rfl
        · exact h.2 z hz
        · exact he.2 z (by simp)
    | [], hx, _ => simp [seqSet] at hx
    | _ :: _ :: _, hx, _ => simp [seqSet] at hx
  · exact h.elim

/-- Sequences of bytes: no lists. -/
def noList : Ty → Bool
  | .buff _ | .ascii _ | .utf8 _ => true
  | _ => false

theorem noList.seq (h : noList S = true) : isSeq S = true ∧ isSeq (elemTy S) = true ∧ unit (elemTy S) = unit S ∧
    maxLen (elemTy S) = 1 ∧ wty (elemTy S) = [.i32, .i32] := by
  cases S <;> simp [noList] at h <;> simp [isSeq, unit, elemTy, maxLen, wty]

theorem SeqAt.elem {a : Nat} (hs : noList S = true) (h : SeqAt m b (elemTy S) a v) : SeqAt m b S a v := by
  cases S <;> simp [noList] at hs <;> cases v <;> simp_all [SeqAt, elemTy]

theorem seqSet_bytes {a a' i : Nat} {u : Value} {us : List Value} (hs : noList S = true) (hv : SeqAt m b S a v)
    (hu : SeqAt m' b' S a' u) (hus : seqElems u = some us) (h1 : us.length ≤ 1) :
    us = [] ∧ seqSet i v u = none ∨ us.length = 1 ∧ ∃ y, seqSet i v u = some y := by
  cases S <;> simp [noList] at hs <;> cases v <;> simp only [SeqAt] at hv <;> cases u <;> simp only [SeqAt] at hu
  all_goals
    rename_i us0
    cases hus
    simp only [List.length_map] at h1
    match us0, h1 with
    | [], _ => exact .inl ⟨rfl, rfl⟩
    | [c], _ => exact .inr ⟨rfl, _, rfl⟩

theorem copy_out {m : Mem} {d s n i : Nat} (h : i < d ∨ d + n ≤ i) : (m.copy d s n).byte i = m.byte i := by
  simp only [Mem.copy]; rw [if_neg (by omega)]
theorem copy_in {m : Mem} {d s n i : Nat} (h : i < n) : (m.copy d s n).byte (d + i) = m.byte (s + i) := by
  simp only [Mem.copy]; rw [if_pos (by omega), Nat.add_sub_cancel_left]

end Gen
