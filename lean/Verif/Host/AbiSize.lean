import Verif.Host.AbiProof

/-! Sizes of written values. -/

namespace Host
open Wasm Spec

theorem length_principalBytes {p : Principal} (h : p.Ok) :
    (principalBytes p).length ≤ PRINCIPAL_BYTES_MAX := by
  cases p with
  | standard s =>
    obtain ⟨_, h⟩ := h
    simp [principalBytes, PRINCIPAL_BYTES_MAX, STANDARD_PRINCIPAL_BYTES, PRINCIPAL_BYTES, h]
  | contract c =>
    obtain ⟨⟨_, h⟩, _, h'⟩ := h
    simp only [principalBytes, PRINCIPAL_BYTES_MAX, STANDARD_PRINCIPAL_BYTES, PRINCIPAL_BYTES,
      List.length_cons, List.length_append, h]
    omega

theorem sum_le {f : Value → Nat} {b : Nat} : ∀ {vs : List Value}, (∀ v ∈ vs, f v ≤ b) →
    (vs.map f).sum ≤ vs.length * b
  | [], _ => by simp
  | v :: vs, h => by
    have h1 := h v (List.mem_cons_self ..)
    have h2 := sum_le (fun v hv => h v (List.mem_cons_of_mem _ hv))
    simp only [List.map_cons, List.sum_cons, List.length_cons, Nat.succ_mul]
    omega

mutual
theorem typeSize_le : ∀ T : Ty, typeSize T ≤ typeInMemorySize true T
  | .noType | .int | .uint | .bool | .principal | .callable _ | .trait _ | .traitRef _ | .buff _
  | .ascii _ | .utf8 _ | .list _ _ => by
    simp only [typeSize, typeInMemorySize, if_true]; omega
  | .opt t => by
    have := typeSize_le t
    simp only [typeSize, typeInMemorySize]; omega
  | .resp o e => by
    have := typeSize_le o
    have := typeSize_le e
    simp only [typeSize, typeInMemorySize]; omega
  | .tuple fs => by
    have := fieldsSize_le fs
    simpa only [typeSize, typeInMemorySize] using this
theorem fieldsSize_le : ∀ fs : Fields, fieldsSize fs ≤ fieldsInMemorySize true fs
  | .nil => by simp [fieldsSize, fieldsInMemorySize]
  | .cons _ t fs => by
    have := typeSize_le t
    have := fieldsSize_le fs
    simp only [fieldsSize, fieldsInMemorySize]; omega
end

mutual
theorem size_le : ∀ (T : Ty) (v : Value), HasType T v →
    typeSize T + inLen T v ≤ typeInMemorySize true T
  | .noType, v, hv => by cases v <;> (simp only [HasType] at hv)
  | .int, v, hv => by
    cases v <;> try (exfalso; simp only [HasType] at hv; done)
    simp [typeSize, inLen, typeInMemorySize]
  | .uint, v, hv => by
    cases v <;> try (exfalso; simp only [HasType] at hv; done)
    simp [typeSize, inLen, typeInMemorySize]
  | .bool, v, hv => by
    cases v <;> try (exfalso; simp only [HasType] at hv; done)
    simp [typeSize, inLen, typeInMemorySize]
  | .principal, v, hv => by
    cases v <;> try (exfalso; simp only [HasType] at hv; done)
    have := length_principalBytes hv
    simp only [typeSize, inLen, typeInMemorySize, if_true]; omega
  | .callable c, v, hv => by
    cases v <;> try (exfalso; simp only [HasType] at hv; done)
    rename_i p
    cases p <;> simp only [HasType] at hv
    have := length_principalBytes (p := .contract _) (hv.1 ▸ hv.2)
    simp only [typeSize, inLen, typeInMemorySize, if_true]; omega
  | .trait _, v, hv => by
    cases v <;> try (exfalso; simp only [HasType] at hv; done)
    simp [typeSize, inLen, typeInMemorySize]
  | .traitRef _, v, hv => by
    cases v <;> try (exfalso; simp only [HasType] at hv; done)
    rename_i p
    cases p <;> simp only [HasType] at hv
    have := length_principalBytes (p := .contract _) hv
    simp only [typeSize, inLen, typeInMemorySize, if_true]; omega
  | .buff n, v, hv => by
    cases v <;> try (exfalso; simp only [HasType] at hv; done)
    have := hv; simp only [HasType] at this
    simp only [typeSize, inLen, typeInMemorySize, if_true]; omega
  | .ascii n, v, hv => by
    cases v <;> try (exfalso; simp only [HasType] at hv; done)
    have := hv.1
    simp only [typeSize, inLen, typeInMemorySize, if_true]; omega
  | .utf8 n, v, hv => by
    cases v <;> try (exfalso; simp only [HasType] at hv; done)
    have := hv.1
    simp only [typeSize, inLen, typeInMemorySize, if_true]; omega
  | .list n e, v, hv => by
    cases v <;> try (exfalso; simp only [HasType] at hv; done)
    rename_i vs
    obtain ⟨hl, hv⟩ := hv
    have h1 : ∀ v ∈ vs, inLen e v ≤ typeInMemorySize true e - typeSize e := fun v h => by
      have := size_le e v (hv v h)
      omega
    have h2 := sum_le h1
    have h3 : vs.length * typeSize e + vs.length * (typeInMemorySize true e - typeSize e) =
        vs.length * typeInMemorySize true e := by
      rw [← Nat.mul_add, Nat.add_sub_cancel' (typeSize_le e)]
    have h4 := Nat.mul_le_mul_right (typeInMemorySize true e) hl
    simp only [typeSize, inLen, typeInMemorySize, if_true]
    omega
  | .opt t, v, hv => by
    cases v <;> try (exfalso; simp only [HasType] at hv; done)
    · have := typeSize_le t
      simp only [typeSize, inLen, typeInMemorySize]; omega
    · have := size_le t _ hv
      simp only [typeSize, inLen, typeInMemorySize]; omega
  | .resp o e, v, hv => by
    cases v <;> try (exfalso; simp only [HasType] at hv; done)
    · have := size_le o _ hv
      have := typeSize_le e
      simp only [typeSize, inLen, typeInMemorySize]; omega
    · have := size_le e _ hv
      have := typeSize_le o
      simp only [typeSize, inLen, typeInMemorySize]; omega
  | .tuple fs, v, hv => by
    cases v <;> try (exfalso; simp only [HasType] at hv; done)
    have := size_leF fs _ hv
    simp only [typeSize, inLen, typeInMemorySize]; omega
theorem size_leF : ∀ (fs : Fields) (kvs : List (Name × Value)), HasFields fs kvs →
    fieldsSize fs + inLenF fs kvs ≤ fieldsInMemorySize true fs
  | .nil, kvs, _ => by cases kvs <;> simp [fieldsSize, inLenF, fieldsInMemorySize]
  | .cons _ t fs, [], h => absurd h (by simp [HasFields])
  | .cons k t fs, (k', v) :: kvs, h => by
    obtain ⟨_, h1, h2⟩ := h
    have := size_le t v h1
    have := size_leF fs kvs h2
    simp only [fieldsSize, inLenF, fieldsInMemorySize]; omega
end

end Host
