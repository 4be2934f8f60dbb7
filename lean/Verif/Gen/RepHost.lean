import Verif.Gen.Rep

/-!
The host reads represented values, and the values it writes are represented.
-/

namespace Gen
open Wasm Spec Host

theorem leNat_bytesAt (m : Mem) (a n : Nat) : leNat (bytesAt m a n) = m.read a n := by
  induction n generalizing a with
  | zero => rfl
  | succ n ih => simp only [bytesAt, leNat, Mem.read, ih]

theorem ld32_eq {m : Mem} {a : Nat} {x : BitVec 32} (h : ld32 m a = .i32 x) : m.read a 4 = x.toNat := by
  simp only [ld32, Val.i32.injEq] at h
  rw [← h, BitVec.toNat_ofNat]
  have := read_lt' m a 4
  rw [Nat.mod_eq_of_lt (by omega)]

theorem ld64_eq {m : Mem} {a : Nat} {x : BitVec 64} (h : ld64 m a = .i64 x) : m.read a 8 = x.toNat := by
  simp only [ld64, Val.i64.injEq] at h
  rw [← h, BitVec.toNat_ofNat]
  have := read_lt' m a 8
  rw [Nat.mod_eq_of_lt (by omega)]

theorem ld32_of {m : Mem} {a x : Nat} (h : m.read a 4 = x) : ld32 m a = .i32 (BitVec.ofNat 32 x) := by
  simp only [ld32, h]

theorem readElems_all {rd : Nat → Option Value} {size : Nat} (hz : 0 < size) : ∀ {vs : List Value}
    {cur fuel : Nat}, (∀ (i : Nat) x, vs[i]? = some x → rd (cur + i * size) = some x) →
    vs.length ≤ fuel → readElems rd size (cur + vs.length * size) fuel cur = some vs
  | [], cur, fuel, _, _ => by
    cases fuel <;> simp [readElems]
  | v :: vs, cur, fuel, h, hf => by
    obtain ⟨fuel, rfl⟩ : ∃ k, fuel = k + 1 := ⟨fuel - 1, by simp at hf; omega⟩
    have hv := h 0 v (by simp)
    rw [Nat.zero_mul, Nat.add_zero] at hv
    have hl : (v :: vs).length * size = size + vs.length * size := by
      rw [List.length_cons, Nat.succ_mul, Nat.add_comm]
    rw [hl]
    have ih := readElems_all hz (vs := vs) (cur := cur + size) (fuel := fuel)
      (fun i x hi => by
        have := h (i + 1) x (by simpa using hi)
        rwa [Nat.succ_mul, show cur + (i * size + size) = cur + size + i * size by omega] at this)
      (by simpa using hf)
    simp only [readElems]
    rw [if_pos (by omega), hv]
    simp only [Option.bind_eq_bind, Option.bind_some]
    rw [← Nat.add_assoc, ih]
    rfl

/-- What is read for an in-memory type. -/
theorem indirect_mem {ty : Ty} (h : isInMemoryType ty = true) {m : Mem} {a : Nat} {o l : BitVec 32}
    (hs : a + 8 ≤ m.size) (hw : [ld32 m a, ld32 m (a + 4)] = [.i32 o, .i32 l])
    (rd : Nat → Nat → Option Value) : indirect ty rd m a = rd o.toNat l.toNat := by
  simp only [List.cons.injEq, and_true] at hw
  unfold indirect readIndirectOffsetAndLength
  rw [if_pos h, memRead_ok (by omega), memRead_ok (by omega)]
  simp only [Option.bind_eq_bind, Option.bind_some]
  rw [leNat_bytesAt, leNat_bytesAt, ld32_eq hw.1, ld32_eq hw.2]

theorem half_ofInt (z : Int) : (BitVec.ofInt 64 z).toNat = (z % 2 ^ 64).toNat := by
  rw [BitVec.toNat_ofInt]; rfl

mutual
theorem Rep.read {m : Mem} {b : Reg} (hb : b.hi ≤ m.size) : ∀ {T : Ty} {v : Value} {a : Nat},
    T.WF → Plain T → a + typeSize T ≤ m.size → Rep m b T v (loadVals m T a) →
    readFromWasmIndirect T m a = some v
  | .noType, _, _, _, _, _, h => by simp [Rep] at h
  | .int, v, a, _, _, hs, h => by
    simp only [Rep, loadVals, encI, List.cons.injEq, and_true] at h
    obtain ⟨z, rfl, hz, h1, h2⟩ := h
    simp only [typeSize] at hs
    rw [ind_flat rfl]
    simp only [readFromWasm]
    rw [memRead_ok (by omega), memRead_ok (by omega)]
    simp only [Option.bind_eq_bind, Option.bind_some]
    rw [leNat_bytesAt, leNat_bytesAt, ld64_eq h1, ld64_eq h2, half_ofInt, half_ofInt]
    exact congrArg (fun x => some (Value.int x)) (wrap_halves hz)
  | .uint, v, a, _, _, hs, h => by
    simp only [Rep, loadVals, encU, List.cons.injEq, and_true] at h
    obtain ⟨z, rfl, hz, h1, h2⟩ := h
    simp only [typeSize] at hs
    rw [ind_flat rfl]
    simp only [readFromWasm]
    rw [memRead_ok (by omega), memRead_ok (by omega)]
    simp only [Option.bind_eq_bind, Option.bind_some]
    rw [leNat_bytesAt, leNat_bytesAt, ld64_eq h1, ld64_eq h2, BitVec.toNat_ofNat, BitVec.toNat_ofNat]
    simp only [IsUInt] at hz
    congr 2
    omega
  | .bool, v, a, _, _, hs, h => by
    simp only [Rep, loadVals, encB, List.cons.injEq, and_true] at h
    obtain ⟨x, rfl, h1⟩ := h
    simp only [typeSize] at hs
    rw [ind_flat rfl]
    simp only [readFromWasm]
    rw [memRead_ok (by omega)]
    simp only [Option.bind_eq_bind, Option.bind_some]
    rw [leNat_bytesAt, ld32_eq h1]
    cases x <;> simp
  | .principal, v, a, _, _, hs, h => by
    simp only [Rep, loadVals] at h
    obtain ⟨hv, o, l, hw, hl, hlt, hby⟩ := h
    replace hlt := hlt.1
    simp only [typeSize] at hs
    simp only [readFromWasmIndirect]
    rw [indirect_mem rfl (by omega) hw]
    cases v <;> try (exfalso; simp only [HasType] at hv; done)
    simp only [readFromWasm]
    exact readPrincipal_ok (by simp) hv (by simp only [memBytes] at hlt; omega) hby
  | .callable c, v, a, _, _, hs, h => by
    simp only [Rep, loadVals] at h
    obtain ⟨hv, o, l, hw, hl, hlt, hby⟩ := h
    replace hlt := hlt.1
    simp only [typeSize] at hs
    simp only [readFromWasmIndirect]
    rw [indirect_mem rfl (by omega) hw]
    cases v <;> try (exfalso; simp only [HasType] at hv; done)
    rename_i p
    cases p <;> simp only [HasType] at hv
    simp only [readFromWasm]
    exact readPrincipal_ok (by simp) (p := .contract _) (by rw [hv.1]; exact hv.2)
      (by simp only [memBytes] at hlt; omega) hby
  | .trait _, _, _, _, h, _, _ => h.elim
  | .traitRef t, v, a, _, _, hs, h => by
    simp only [Rep, loadVals] at h
    obtain ⟨hv, o, l, hw, hl, hlt, hby⟩ := h
    replace hlt := hlt.1
    simp only [typeSize] at hs
    simp only [readFromWasmIndirect]
    rw [indirect_mem rfl (by omega) hw]
    cases v <;> try (exfalso; simp only [HasType] at hv; done)
    rename_i p
    cases p <;> simp only [HasType] at hv
    simp only [readFromWasm]
    exact readPrincipal_ok (by simp) (p := .contract _) hv (by simp only [memBytes] at hlt; omega) hby
  | .buff n, v, a, _, _, hs, h => by
    simp only [Rep, loadVals] at h
    obtain ⟨hv, o, l, hw, hl, hlt, hby⟩ := h
    replace hlt := hlt.1
    simp only [typeSize] at hs
    simp only [readFromWasmIndirect]
    rw [indirect_mem rfl (by omega) hw]
    cases v <;> try (exfalso; simp only [HasType] at hv; done)
    simp only [memBytes] at hl hlt hby
    simp only [readFromWasm]
    rw [hl, memRead_ok (by omega), hby]; rfl
  | .ascii n, v, a, _, _, hs, h => by
    simp only [Rep, loadVals] at h
    obtain ⟨hv, o, l, hw, hl, hlt, hby⟩ := h
    replace hlt := hlt.1
    simp only [typeSize] at hs
    simp only [readFromWasmIndirect]
    rw [indirect_mem rfl (by omega) hw]
    cases v <;> try (exfalso; simp only [HasType] at hv; done)
    simp only [memBytes] at hl hlt hby
    simp only [readFromWasm]
    rw [hl, memRead_ok (by omega), hby]
    exact asciiFromBytes_ok hv.2
  | .utf8 n, v, a, _, _, hs, h => by
    simp only [Rep, loadVals] at h
    obtain ⟨hv, o, l, hw, hl, hlt, hby⟩ := h
    replace hlt := hlt.1
    simp only [typeSize] at hs
    simp only [readFromWasmIndirect]
    rw [indirect_mem rfl (by omega) hw]
    cases v <;> try (exfalso; simp only [HasType] at hv; done)
    simp only [memBytes] at hl hlt hby
    simp only [readFromWasm]
    rw [hl, memRead_ok (by omega), hby]
    exact utf8FromScalars_ok _ hv.2
  | .list n e, v, a, hwf, hp, hs, h => by
    simp only [Rep, loadVals] at h
    obtain ⟨vs, o, l, rfl, hn, hw, hl, ⟨hlt, _⟩, he⟩ := h
    simp only [typeSize] at hs
    simp only [readFromWasmIndirect]
    rw [indirect_mem rfl (by omega) hw]
    simp only [readFromWasm]
    have hz := typeSize_pos e hwf
    rw [hl]
    have hle : vs.length ≤ vs.length * typeSize e := Nat.le_mul_of_pos_right _ hz
    rw [readElems_all hz (fun i x hi => ?_) hle]
    · rfl
    · have hi' := (List.getElem?_eq_some_iff.1 hi).1
      have hmul : (i + 1) * typeSize e ≤ vs.length * typeSize e := Nat.mul_le_mul_right _ hi'
      rw [Nat.succ_mul] at hmul
      exact (he i x hi).read hb hwf hp (by omega)
  | .opt t, v, a, hwf, hp, hs, h => by
    simp only [Rep, loadVals] at h
    simp only [typeSize] at hs
    rw [ind_flat rfl]
    simp only [readFromWasm]
    rw [memRead_ok (by omega)]
    simp only [Option.bind_eq_bind, Option.bind_some, leNat_bytesAt]
    rcases h with ⟨us, rfl, hw, _⟩ | ⟨x, us, rfl, hw, h⟩
    · simp only [List.cons.injEq] at hw
      rw [ld32_eq hw.1]; rfl
    · simp only [List.cons.injEq] at hw
      obtain ⟨h1, rfl⟩ := hw
      rw [ld32_eq h1]
      have := Rep.read (T := t) hb hwf hp (by omega) h
      simp only [readFromWasmIndirect] at this
      simp [this]
  | .resp o e, v, a, hwf, hp, hs, h => by
    simp only [Rep, loadVals] at h
    simp only [typeSize] at hs
    rw [ind_flat rfl]
    simp only [readFromWasm]
    rw [memRead_ok (by omega)]
    simp only [Option.bind_eq_bind, Option.bind_some, leNat_bytesAt]
    rcases h with ⟨x, us, js, rfl, hw, h, hj⟩ | ⟨x, us, js, rfl, hw, h, hj⟩
    · simp only [List.cons.injEq] at hw
      obtain ⟨h1, hw⟩ := hw
      have hlen : (loadVals m o (a + 4)).length = us.length := by
        rw [h.len, ← loadVals_ty m o (a + 4), List.length_map]
      obtain ⟨rfl, _⟩ := List.append_inj hw hlen
      rw [ld32_eq h1]
      have := h.read hb hwf.1 hp.1 (by omega)
      simp only [readFromWasmIndirect] at this
      simp [this]
    · simp only [List.cons.injEq] at hw
      obtain ⟨h1, hw⟩ := hw
      have hlen : (loadVals m o (a + 4)).length = js.length := by
        rw [← List.length_map (f := Val.ty) (as := js), hj, ← loadVals_ty m o (a + 4), List.length_map]
      obtain ⟨_, rfl⟩ := List.append_inj hw hlen
      rw [ld32_eq h1]
      have := h.read hb hwf.2 hp.2 (by omega)
      simp only [readFromWasmIndirect] at this
      rw [show a + 4 + typeSize o = a + (4 + typeSize o) by omega] at *
      simp [this]
  | .tuple fs, v, a, hwf, hp, hs, h => by
    simp only [Rep, loadVals] at h
    simp only [typeSize] at hs
    obtain ⟨kvs, rfl, h⟩ := h
    rw [ind_flat rfl]
    simp only [readFromWasm]
    rw [RepF.read hb hwf.2.2 hp hs h]
    rfl
theorem RepF.read {m : Mem} {b : Reg} (hb : b.hi ≤ m.size) : ∀ {fs : Fields}
    {kvs : List (Name × Value)} {a : Nat}, fs.WF → PlainF fs → a + fieldsSize fs ≤ m.size →
    RepF m b fs kvs (loadValsF m fs a) → readFields fs m a = some kvs
  | .nil, _, _, _, _, _, h => by
    simp only [RepF] at h
    simp [readFields, h.1]
  | .cons k t fs, kvs, a, hwf, hp, hs, h => by
    simp only [RepF, loadValsF] at h
    simp only [fieldsSize] at hs
    obtain ⟨x, r, us, vs, rfl, hw, h, h'⟩ := h
    have hlen : (loadVals m t a).length = us.length := by
      rw [h.len, ← loadVals_ty m t a, List.length_map]
    obtain ⟨rfl, rfl⟩ := List.append_inj hw hlen
    have h1 := h.read hb hwf.1 hp.1 (by omega)
    simp only [readFromWasmIndirect] at h1
    have h2 := RepF.read hb hwf.2 hp.2 (by omega) h'
    simp [readFields, h1, h2]
end

end Gen
