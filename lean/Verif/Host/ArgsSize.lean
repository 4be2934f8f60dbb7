import Verif.Host.ArgsProof

/-! Space taken by arguments, and sizes returned by successful writes. -/

namespace Host
open Wasm Spec

mutual
theorem argOff_le : ∀ (T : Ty) (v : Value), HasType T v → argOff T v ≤ typeInMemorySize false T
  | .list n e, v, hv => by
    cases v <;> try (exfalso; simp only [HasType] at hv; done)
    have := Nat.mul_le_mul_right (typeSize e) hv.1
    simpa [argOff, typeInMemorySize] using this
  | .opt t, v, hv => by
    cases v <;> try (exfalso; simp only [HasType] at hv; done)
    · simp [argOff]
    · have := argOff_le t _ hv
      simp only [argOff, typeInMemorySize]; omega
  | .resp o e, v, hv => by
    cases v <;> try (exfalso; simp only [HasType] at hv; done)
    · have := argOff_le o _ hv
      simp only [argOff, typeInMemorySize]; omega
    · have := argOff_le e _ hv
      simp only [argOff, typeInMemorySize]; omega
  | .tuple fs, v, hv => by
    cases v <;> try (exfalso; simp only [HasType] at hv; done)
    have := argOff_leF fs _ hv
    simpa only [argOff, typeInMemorySize] using this
  | .noType, v, _ | .int, v, _ | .uint, v, _ | .bool, v, _ | .principal, v, _ | .callable _, v, _
  | .trait _, v, _ | .traitRef _, v, _ | .buff _, v, _ | .ascii _, v, _ | .utf8 _, v, _ => by
    simp [argOff]
theorem argOff_leF : ∀ (fs : Fields) (kvs : List (Name × Value)), HasFields fs kvs →
    argOffF fs kvs ≤ fieldsInMemorySize false fs
  | .nil, kvs, _ => by simp [argOffF]
  | .cons _ t fs, [], h => absurd h (by simp [HasFields])
  | .cons k t fs, (k', v) :: kvs, h => by
    obtain ⟨_, h1, h2⟩ := h
    have := argOff_le t v h1
    have := argOff_leF fs kvs h2
    simp only [argOffF, fieldsInMemorySize]; omega
end

mutual
theorem argIn_le : ∀ (T : Ty) (v : Value), HasType T v → argIn T v ≤ typeInMemorySize true T
  | .list n e, v, hv => by
    cases v <;> try (exfalso; simp only [HasType] at hv; done)
    have := size_le _ _ hv
    simp only [argIn, inLen] at *; omega
  | .opt t, v, hv => by
    cases v <;> try (exfalso; simp only [HasType] at hv; done)
    · simp [argIn]
    · have := argIn_le t _ hv
      simp only [argIn, typeInMemorySize]; omega
  | .resp o e, v, hv => by
    cases v <;> try (exfalso; simp only [HasType] at hv; done)
    · have := argIn_le o _ hv
      simp only [argIn, typeInMemorySize]; omega
    · have := argIn_le e _ hv
      simp only [argIn, typeInMemorySize]; omega
  | .tuple fs, v, hv => by
    cases v <;> try (exfalso; simp only [HasType] at hv; done)
    have := argIn_leF fs _ hv
    simpa only [argIn, typeInMemorySize] using this
  | .trait t, v, hv => by
    cases v <;> try (exfalso; simp only [HasType] at hv; done)
    rename_i c t'
    cases t' <;> simp only [HasType] at hv
    have := length_principalBytes (p := .contract c) hv.1
    simp only [argIn, typeInMemorySize]; omega
  | .noType, v, hv => by cases v <;> (simp only [HasType] at hv)
  | .int, v, hv | .uint, v, hv | .bool, v, hv => by
    cases v <;> try (exfalso; simp only [HasType] at hv; done)
    simp [argIn]
  | .traitRef _, v, hv => by cases v <;> simp [argIn]
  | .principal, v, hv | .callable _, v, hv
  | .buff _, v, hv | .ascii _, v, hv | .utf8 _, v, hv => by
    have := size_le _ _ hv
    cases v <;> try (exfalso; simp only [HasType] at hv; done)
    simp only [argIn, inLen] at *; omega
theorem argIn_leF : ∀ (fs : Fields) (kvs : List (Name × Value)), HasFields fs kvs →
    argInF fs kvs ≤ fieldsInMemorySize true fs
  | .nil, kvs, _ => by simp [argInF]
  | .cons _ t fs, [], h => absurd h (by simp [HasFields])
  | .cons k t fs, (k', v) :: kvs, h => by
    obtain ⟨_, h1, h2⟩ := h
    have := argIn_le t v h1
    have := argIn_leF fs kvs h2
    simp only [argInF, fieldsInMemorySize]; omega
end

theorem good_args : ∀ (args : List (Ty × Value)), (∀ a ∈ args, a.1.WF ∧ ArgTy a.1 ∧ HasType a.1 a.2) →
    ∃ n, ∀ off im m,
      FitsA m off (args.map fun a => argOff a.1 a.2).sum im (args.map fun a => argIn a.1 a.2).sum →
      PT (fun m => passArgsFrom args off im m) (fun i buf m => backFrom (args.map (·.1)) i buf m)
        (args.map (·.2)) n off (args.map fun a => argOff a.1 a.2).sum im
        (args.map fun a => argIn a.1 a.2).sum m
  | [], _ => ⟨0, fun off im m _ => by
    simp only [passArgsFrom, List.map_nil, List.sum_nil]
    refine pt_pure (vals := []) ?_
    intro m'' pre post
    rfl⟩
  | (t, v) :: args, h => by
    obtain ⟨hw, hp, hv⟩ := h (t, v) (List.mem_cons_self ..)
    obtain ⟨ts, _, ht⟩ := goodA t hw hp
    obtain ⟨n, hn⟩ := good_args args (fun a ha => h a (List.mem_cons_of_mem _ ha))
    refine ⟨ts.length + n, fun off im m hf => ?_⟩
    simp only [List.map_cons, List.sum_cons] at hf ⊢
    refine pt_seq hf (fun hf => ht v off im m hv hf) (fun m hf => hn _ _ m hf) ?_ ?_
    · intro m vals m1 vals' r m2 h1 h2
      simp only [passArgsFrom, h1, Option.bind_eq_bind, Option.bind_some, h2]
    · intro m'' pre vals vals' post hl h1 h2
      simp only [List.length_append, List.append_assoc] at h1 h2 ⊢
      simp only [backFrom, h1, Option.bind_eq_bind, Option.bind_some]
      rw [← hl, h2]
      rfl

theorem sum_map_le {α : Type} {f g : α → Nat} : ∀ {l : List α}, (∀ a ∈ l, f a ≤ g a) →
    (l.map f).sum ≤ (l.map g).sum
  | [], _ => by simp
  | a :: l, h => by
    have h1 := h a (List.mem_cons_self ..)
    have h2 := sum_map_le (fun a ha => h a (List.mem_cons_of_mem _ ha))
    simp only [List.map_cons, List.sum_cons]; omega

theorem writeBytes_sizes {m m' : Mem} {off im a b : Nat} {bs : List Byte}
    (h : writeBytes m off im bs true = some (m', a, b)) : a = 8 ∧ b = bs.length := by
  simp only [writeBytes, writeRepr, Option.bind_eq_bind, if_true, Option.bind_eq_some_iff] at h
  obtain ⟨m1, _, ⟨m2, w⟩, ⟨m3, _, m4, _, h2⟩, h3⟩ := h
  simp only [Option.some.injEq, Prod.mk.injEq] at h2 h3
  exact ⟨by omega, by omega⟩

theorem writeElems_sizes {e : Ty} {w : Nat → Nat → Value → Mem → Option (Mem × Nat × Nat)}
    (hw : ∀ v o i m m' a b, HasType e v → w o i v m = some (m', a, b) →
      a = typeSize e ∧ b = inLen e v) : ∀ (vs : List Value) (off im : Nat) (m m' : Mem) (a b : Nat),
    (∀ v ∈ vs, HasType e v) → writeElems w off im vs m = some (m', a, b) →
    a = vs.length * typeSize e ∧ b = (vs.map (inLen e)).sum
  | [], off, im, m, m', a, b, _, h => by
    simp only [writeElems, Option.some.injEq, Prod.mk.injEq] at h
    simp [h.2.1.symm, h.2.2.symm]
  | v :: vs, off, im, m, m', a, b, hv, h => by
    simp only [writeElems, Option.bind_eq_bind, Option.bind_eq_some_iff] at h
    obtain ⟨⟨m1, a1, b1⟩, h1, ⟨m2, a2, b2⟩, h2, h3⟩ := h
    simp only [Option.some.injEq, Prod.mk.injEq] at h3
    obtain ⟨e1, e2⟩ := hw v _ _ _ _ _ _ (hv v (List.mem_cons_self ..)) h1
    obtain ⟨e3, e4⟩ := writeElems_sizes hw vs _ _ _ _ _ _
      (fun v h => hv v (List.mem_cons_of_mem _ h)) h2
    simp only [List.length_cons, List.map_cons, List.sum_cons, Nat.succ_mul]
    omega

mutual
theorem write_sizes : ∀ (T : Ty) (v : Value) (off im : Nat) (m m' : Mem) (a b : Nat), T.WF →
    HasType T v → writeToWasm T off im v true m = some (m', a, b) → a = typeSize T ∧ b = inLen T v
  | .noType, v, _, _, _, _, _, _, _, hv, _ => by cases v <;> (simp only [HasType] at hv)
  | .int, v, off, im, m, m', a, b, _, hv, h
  | .uint, v, off, im, m, m', a, b, _, hv, h
  | .bool, v, off, im, m, m', a, b, _, hv, h => by
    cases v <;> try (exfalso; simp only [HasType] at hv; done)
    simp only [writeToWasm, Option.bind_eq_bind, Option.bind_eq_some_iff] at h
    obtain ⟨m1, _, h⟩ := h
    simp only [Option.some.injEq, Prod.mk.injEq] at h
    simp [typeSize, inLen, h.2.1.symm, h.2.2.symm]
  | .principal, v, off, im, m, m', a, b, _, hv, h
  | .buff _, v, off, im, m, m', a, b, _, hv, h
  | .ascii _, v, off, im, m, m', a, b, _, hv, h => by
    cases v <;> try (exfalso; simp only [HasType] at hv; done)
    simp only [writeToWasm] at h
    simpa [typeSize, inLen] using writeBytes_sizes h
  | .utf8 _, v, off, im, m, m', a, b, _, hv, h => by
    cases v <;> try (exfalso; simp only [HasType] at hv; done)
    simp only [writeToWasm] at h
    have := writeBytes_sizes h
    rw [length_flatMap_be] at this
    simpa only [typeSize, inLen] using this
  | .callable _, v, off, im, m, m', a, b, _, hv, h
  | .traitRef _, v, off, im, m, m', a, b, _, hv, h => by
    cases v <;> try (exfalso; simp only [HasType] at hv; done)
    simp only [writeToWasm] at h
    simpa [typeSize, inLen] using writeBytes_sizes h
  | .trait _, v, off, im, m, m', a, b, _, hv, h => by
    cases v <;> try (exfalso; simp only [HasType] at hv; done)
    simp [writeToWasm] at h
  | .list _ e, v, off, im, m, m', a, b, hw, hv, h => by
    cases v <;> try (exfalso; simp only [HasType] at hv; done)
    rename_i vs
    simp only [writeToWasm, writeRepr, if_true, Option.bind_eq_bind, Option.bind_eq_some_iff] at h
    obtain ⟨⟨m1, a1, b1⟩, h1, ⟨m2, w⟩, ⟨m3, _, m4, _, h2⟩, h3⟩ := h
    obtain ⟨e1, e2⟩ := writeElems_sizes (e := e)
      (fun v o i m m' a b hv h => write_sizes e v o i m m' a b hw hv h) vs _ _ _ _ _ _ hv.2 h1
    simp only [Option.some.injEq, Prod.mk.injEq] at h2 h3
    simp only [typeSize, inLen]
    omega
  | .opt t, v, off, im, m, m', a, b, hw, hv, h => by
    cases v <;> try (exfalso; simp only [HasType] at hv; done)
    · simp only [writeToWasm, Option.bind_eq_bind, Option.bind_eq_some_iff] at h
      obtain ⟨m1, _, h⟩ := h
      simp only [Option.some.injEq, Prod.mk.injEq] at h
      simp [typeSize, inLen, h.2.1.symm, h.2.2.symm]
    · rename_i v
      simp only [writeToWasm, Option.bind_eq_bind, Option.bind_eq_some_iff] at h
      obtain ⟨m1, _, ⟨m2, a1, b1⟩, h1, h⟩ := h
      obtain ⟨e1, e2⟩ := write_sizes t v _ _ _ _ _ _ hw hv h1
      simp only [Option.some.injEq, Prod.mk.injEq] at h
      simp only [typeSize, inLen]; omega
  | .resp o e, v, off, im, m, m', a, b, hw, hv, h => by
    cases v <;> try (exfalso; simp only [HasType] at hv; done)
    · rename_i v
      simp only [writeToWasm, Option.bind_eq_bind, Option.bind_eq_some_iff] at h
      obtain ⟨m1, _, ⟨m2, a1, b1⟩, h1, h⟩ := h
      obtain ⟨e1, e2⟩ := write_sizes o v _ _ _ _ _ _ hw.1 hv h1
      simp only [Option.some.injEq, Prod.mk.injEq] at h
      simp only [typeSize, inLen]; omega
    · rename_i v
      simp only [writeToWasm, Option.bind_eq_bind, Option.bind_eq_some_iff] at h
      obtain ⟨m1, _, ⟨m2, a1, b1⟩, h1, h⟩ := h
      obtain ⟨e1, e2⟩ := write_sizes e v _ _ _ _ _ _ hw.2 hv h1
      simp only [Option.some.injEq, Prod.mk.injEq] at h
      simp only [typeSize, inLen]; omega
  | .tuple fs, v, off, im, m, m', a, b, hw, hv, h => by
    cases v <;> try (exfalso; simp only [HasType] at hv; done)
    rename_i kvs
    simp only [writeToWasm] at h
    have := write_sizesF fs [] kvs off im m m' a b hw.2.2 hv (by simpa using hw.2.1) h
    simpa [typeSize, inLen] using this
theorem write_sizesF : ∀ (fs : Fields) (pre kvs : List (Name × Value)) (off im : Nat) (m m' : Mem)
    (a b : Nat), fs.WF → HasFields fs kvs → (pre.map Prod.fst ++ fs.keys).Nodup →
    writeFields fs off im (pre ++ kvs) m = some (m', a, b) →
    a = fieldsSize fs ∧ b = inLenF fs kvs
  | .nil, pre, kvs, off, im, m, m', a, b, _, hv, _, h => by
    simp only [writeFields, Option.some.injEq, Prod.mk.injEq] at h
    simp [fieldsSize, inLenF, h.2.1.symm, h.2.2.symm]
  | .cons k t fs, pre, [], _, _, _, _, _, _, _, h, _, _ => absurd h (by simp [HasFields])
  | .cons k t fs, pre, (k', v) :: kvs, off, im, m, m', a, b, hw, hv, hn, h => by
    obtain ⟨rfl, hv, hvs⟩ := hv
    simp only [Fields.keys] at hn
    have hk : k' ∉ pre.map Prod.fst := by
      intro hmem
      have := (List.nodup_append.1 hn).2.2 _ hmem _ (List.mem_cons_self ..)
      exact this rfl
    simp only [writeFields] at h
    rw [lookup_split hk] at h
    simp only [Option.bind_eq_bind, Option.bind_some, Option.bind_eq_some_iff] at h
    obtain ⟨⟨m1, a1, b1⟩, h1, ⟨m2, a2, b2⟩, h2, h3⟩ := h
    obtain ⟨e1, e2⟩ := write_sizes t v _ _ _ _ _ _ hw.1 hv h1
    rw [show pre ++ (k', v) :: kvs = pre ++ [(k', v)] ++ kvs by simp] at h2
    obtain ⟨e3, e4⟩ := write_sizesF fs (pre ++ [(k', v)]) kvs _ _ _ _ _ _ hw.2 hvs
      (by simpa using hn) h2
    simp only [Option.some.injEq, Prod.mk.injEq] at h3
    simp only [fieldsSize, inLenF]; omega
end

end Host
