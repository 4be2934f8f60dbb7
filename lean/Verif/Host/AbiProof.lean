import Verif.Host.Bytes
import Mathlib.Tactic.NormNum

/-! Writing a value from the host and reading it back. -/

namespace Host
open Wasm Spec

mutual
/-- The type contains no trait type (`CallableType(Trait)`). -/
def Plain : Ty → Prop
  | .trait _ => False
  | .list _ e => Plain e
  | .opt t => Plain t
  | .resp o e => Plain o ∧ Plain e
  | .tuple fs => PlainF fs
  | _ => True
/-- No field type contains a trait type. -/
def PlainF : Fields → Prop
  | .nil => True
  | .cons _ t fs => Plain t ∧ PlainF fs
end

mutual
/-- Number of bytes that a value takes in the in-memory area. -/
def inLen : Ty → Value → Nat
  | .buff _, .buff bs => bs.length
  | .ascii _, .ascii bs => bs.length
  | .utf8 _, .utf8 cs => 4 * cs.length
  | .principal, .principal p | .callable _, .principal p | .traitRef _, .principal p
  | .trait _, .principal p => (principalBytes p).length
  | .list _ e, .list vs => vs.length * typeSize e + (vs.map (inLen e)).sum
  | .opt t, .some v => inLen t v
  | .resp o _, .ok v => inLen o v
  | .resp _ e, .err v => inLen e v
  | .tuple fs, .tuple kvs => inLenF fs kvs
  | _, _ => 0
/-- The same for the fields of a tuple. -/
def inLenF : Fields → List (Name × Value) → Nat
  | .cons _ t fs, (_, v) :: kvs => inLen t v + inLenF fs kvs
  | _, _ => 0
end

/-- Writing with `w` succeeds, uses `ts` and `il` bytes, changes nothing else, and `rd` reads `v`
back from any memory with the same two regions. -/
def RT (w : Mem → Option (Mem × Nat × Nat)) (rd : Mem → Option α) (v : α) (off ts im il : Nat)
    (m : Mem) : Prop :=
  ∃ m', w m = some (m', ts, il) ∧ m'.size = m.size ∧
    (∀ i, (i < off ∨ off + ts ≤ i) → (i < im ∨ im + il ≤ i) → m'.byte i = m.byte i) ∧
    ∀ m'', m''.size = m.size → Agree m' m'' off ts → Agree m' m'' im il → rd m'' = some v

/-- The two regions are inside the memory and do not overlap. -/
def Fits (m : Mem) (off ts im il : Nat) : Prop :=
  off + ts ≤ m.size ∧ im + il ≤ m.size ∧ (off + ts ≤ im ∨ im + il ≤ off) ∧ m.size < 2 ^ 32

theorem rt_bytes {m : Mem} {off im : Nat} {bs : List Byte} {ty : Ty} {v : Value}
    (hmem : isInMemoryType ty = true) (hf : Fits m off 8 im bs.length)
    (hrd : ∀ m'', m''.size = m.size → bytesAt m'' im bs.length = bs →
      readFromWasm ty m'' im bs.length = some v) :
    RT (fun m => writeBytes m off im bs true) (fun m => readFromWasmIndirect ty m off) v off 8 im
      bs.length m := by
  obtain ⟨h1, h2, h3, h4⟩ := hf
  have l4 := length_leBytes 4 im
  have l4' := length_leBytes 4 bs.length
  refine ⟨put (put (put m im bs) off (leBytes 4 im)) (off + 4) (leBytes 4 bs.length), ?_, rfl, ?_, ?_⟩
  · simp only [writeBytes, writeRepr]
    rw [memWrite_ok h2]
    simp only [Option.bind_eq_bind, Option.bind_some, if_true]
    rw [memWrite_ok (by rw [put_size]; omega)]
    simp only [Option.bind_some]
    rw [memWrite_ok (by rw [put_size, put_size]; omega)]
    rfl
  · intro i hi hi'
    rw [put_out (by omega), put_out (by omega), put_out (by omega)]
  · intro m'' hs ha hb
    have e1 : bytesAt m'' off 4 = leBytes 4 im := by
      rw [bytesAt_eq (ha.mono (Nat.le_refl _) (by omega : off + 4 ≤ off + 8))]
      rw [bytesAt_eq (m := put (put m im bs) off (leBytes 4 im)) (fun i hi hi' => put_out (by omega))]
      have := bytesAt_put (put m im bs) off (leBytes 4 im)
      rwa [l4] at this
    have e2 : bytesAt m'' (off + 4) 4 = leBytes 4 bs.length := by
      rw [bytesAt_eq (ha.mono (by omega) (by omega : off + 4 + 4 ≤ off + 8))]
      have := bytesAt_put (put (put m im bs) off (leBytes 4 im)) (off + 4) (leBytes 4 bs.length)
      rwa [l4'] at this
    have e3 : bytesAt m'' im bs.length = bs := by
      rw [bytesAt_eq hb]
      rw [bytesAt_eq (m := put (put m im bs) off (leBytes 4 im)) (fun i hi hi' => put_out (by omega))]
      rw [bytesAt_eq (m := put m im bs) (fun i hi hi' => put_out (by omega))]
      exact bytesAt_put m im bs
    simp only [readFromWasmIndirect, indirect]
    rw [if_pos hmem]
    unfold readIndirectOffsetAndLength
    rw [memRead_ok (by omega), memRead_ok (by omega), e1, e2]
    simp only [Option.bind_eq_bind, Option.bind_some]
    rw [leNat_leBytes4 (by omega), leNat_leBytes4 (by omega)]
    exact hrd m'' hs e3

theorem readPrincipal_ok {ty : Ty} (hty : ∀ t, ty ≠ .trait t) {p : Principal} (hp : p.Ok) {m : Mem}
    {im : Nat} (hs : im + (principalBytes p).length ≤ m.size)
    (hb : bytesAt m im (principalBytes p).length = principalBytes p) :
    readPrincipal ty m im = some (.principal p) := by
  cases p with
  | standard s =>
    obtain ⟨hv, hh⟩ := hp
    simp only [principalBytes] at hb hs
    have hb' : bytesAt m im ([s.version] ++ (s.hash ++ [0#8])).length =
      [s.version] ++ (s.hash ++ [0#8]) := hb
    obtain ⟨b1, b2⟩ := bytesAt_split hb'
    obtain ⟨b2, b3⟩ := bytesAt_split b2
    simp only [List.length_cons, List.length_append, List.length_nil, hh] at b1 b2 b3 hs
    unfold readPrincipal
    rw [memRead_ok (by omega), memRead_ok (by omega), memRead_ok (by omega)]
    rw [show 0 + 1 = 1 from rfl] at *
    rw [show im + 1 + 20 = im + 21 by omega] at b3
    rw [b1, b2, b3]
    simp [newStdPrincipal, hv]
  | contract c =>
    obtain ⟨⟨hv, hh⟩, hn, hl⟩ := hp
    have hpos : c.name.length ≠ 0 := by
      intro h0
      rw [List.length_eq_zero_iff] at h0
      rw [h0] at hn
      simp [contractName] at hn
    simp only [principalBytes] at hb hs
    have hb' : bytesAt m im ([c.issuer.version] ++ (c.issuer.hash ++
        ([BitVec.ofNat 8 c.name.length] ++ c.name))).length =
      [c.issuer.version] ++ (c.issuer.hash ++ ([BitVec.ofNat 8 c.name.length] ++ c.name)) := hb
    obtain ⟨b1, b2⟩ := bytesAt_split hb'
    obtain ⟨b2, b3⟩ := bytesAt_split b2
    obtain ⟨b3, b4⟩ := bytesAt_split b3
    simp only [List.length_cons, List.length_append, List.length_nil, hh] at b1 b2 b3 b4 hs
    unfold readPrincipal
    rw [memRead_ok (by omega), memRead_ok (by omega), memRead_ok (by omega)]
    rw [show 0 + 1 = 1 from rfl] at *
    rw [show im + 1 + 20 = im + 21 by omega] at b3 b4
    rw [show im + 21 + 1 = im + 22 by omega] at b4
    have hlt : c.name.length % 2 ^ 8 = c.name.length := Nat.mod_eq_of_lt (by omega)
    rw [b1, b2, b3]
    simp only [Option.bind_eq_bind, Option.bind_some, newStdPrincipal, List.getD_cons_zero, hv,
      if_true, BitVec.toNat_ofNat, hlt, if_neg hpos]
    rw [memRead_ok (by omega), b4]
    simp only [Option.bind_some, newContractName]
    rw [if_pos ⟨hn, hl⟩]
    cases ty <;> first | rfl | exact absurd rfl (hty _)

/-- The property proved by induction on types. -/
def Good (T : Ty) : Prop := ∀ v off im m, HasType T v → Fits m off (typeSize T) im (inLen T v) →
  RT (fun m => writeToWasm T off im v true m) (fun m => readFromWasmIndirect T m off) v off
    (typeSize T) im (inLen T v) m

theorem rt_elems {e : Ty} (he : Good e) (hz : 0 < typeSize e) : ∀ (vs : List Value) (off im : Nat) (m : Mem),
    (∀ v ∈ vs, HasType e v) →
    Fits m off (vs.length * typeSize e) im ((vs.map (inLen e)).sum) →
    RT (fun m => writeElems (fun o i v m => writeToWasm e o i v true m) off im vs m)
      (fun m => readElems (fun o => readFromWasmIndirect e m o) (typeSize e)
        (off + vs.length * typeSize e) vs.length off) vs off (vs.length * typeSize e) im
        ((vs.map (inLen e)).sum) m := by
  intro vs
  induction vs with
  | nil =>
    intro off im m _ _
    refine ⟨m, by simp [writeElems], rfl, fun _ _ _ => rfl, ?_⟩
    intro m'' _ _ _
    simp [readElems]
  | cons v vs ih =>
    intro off im m hv hf
    obtain ⟨f1, f2, f3, f4⟩ := hf
    have hlen : (v :: vs).length * typeSize e = typeSize e + vs.length * typeSize e := by
      rw [List.length_cons, Nat.succ_mul, Nat.add_comm]
    have hsum : ((v :: vs).map (inLen e)).sum = inLen e v + (vs.map (inLen e)).sum := by simp
    rw [hlen] at f1 f3 ⊢
    rw [hsum] at f2 f3 ⊢
    clear hlen hsum
    generalize hT : vs.length * typeSize e = A at *
    generalize hI : (vs.map (inLen e)).sum = B at *
    obtain ⟨m1, w1, s1, o1, r1⟩ := he v off im m (hv v (List.mem_cons_self ..))
      ⟨by omega, by omega, by omega, f4⟩
    obtain ⟨m2, w2, s2, o2, r2⟩ := ih (off + typeSize e) (im + inLen e v) m1
      (fun v h => hv v (List.mem_cons_of_mem _ h)) ⟨by omega, by omega, by omega, by omega⟩
    refine ⟨m2, ?_, by omega, ?_, ?_⟩
    · simp only [writeElems]
      simp only [] at w1 w2
      rw [w1]
      simp only [Option.bind_eq_bind, Option.bind_some]
      rw [w2]; rfl
    · intro i hi hi'
      rw [o2 i (by omega) (by omega), o1 i (by omega) (by omega)]
    · intro m'' hs ha hb
      have R2 := r2 m'' (by omega) (ha.mono (by omega) (by omega)) (hb.mono (by omega) (by omega))
      have R1 := r1 m'' hs
        (fun i hi hi' => by rw [ha i hi (by omega), o2 i (by omega) (by omega)])
        (fun i hi hi' => by rw [hb i hi (by omega), o2 i (by omega) (by omega)])
      simp only [List.length_cons, readElems]
      rw [if_pos (by omega)]
      simp only [] at R1 R2
      rw [R1]
      simp only [Option.bind_eq_bind, Option.bind_some]
      rw [show off + (typeSize e + A) = off + typeSize e + A by omega, R2]
      rfl

theorem readElems_mono {rd : Nat → Option Value} {size end_ : Nat} : ∀ {f cur : Nat}
    {vs : List Value}, readElems rd size end_ f cur = some vs → ∀ f', f ≤ f' →
    readElems rd size end_ f' cur = some vs := by
  intro f
  induction f with
  | zero =>
    intro cur vs h f' _
    simp only [readElems] at h
    split at h
    · exact absurd h (by simp)
    · rename_i hc
      cases f' <;> simp only [readElems, if_neg hc, h]
  | succ f ih =>
    intro cur vs h f' hf
    obtain ⟨f', rfl⟩ : ∃ k, f' = k + 1 := ⟨f' - 1, by omega⟩
    simp only [readElems] at h ⊢
    split at h
    · rename_i hc
      rw [if_pos hc]
      cases hr : rd cur with
      | none => rw [hr] at h; exact absurd h (by simp)
      | some v =>
        rw [hr] at h
        simp only [Option.bind_eq_bind, Option.bind_some] at h ⊢
        cases hrs : readElems rd size end_ f (cur + size) with
        | none => rw [hrs] at h; exact absurd h (by simp)
        | some ws =>
          rw [hrs] at h
          rw [ih hrs f' (by omega)]
          exact h
    · rename_i hc
      rw [if_neg hc]; exact h

mutual
theorem typeSize_pos : ∀ T : Ty, T.WF → 0 < typeSize T
  | .noType, _ | .int, _ | .uint, _ | .bool, _ | .principal, _ | .callable _, _ | .trait _, _
  | .traitRef _, _ | .buff _, _ | .ascii _, _ | .utf8 _, _ | .list _ _, _ | .opt _, _
  | .resp _ _, _ => by simp only [typeSize]; omega
  | .tuple .nil, h => absurd rfl h.1
  | .tuple (.cons _ t _), h => by
    have := typeSize_pos t h.2.2.1
    simp only [typeSize, fieldsSize]; omega
end

theorem rt_int {m : Mem} {off im : Nat} {z : Int} {v : Value} {f : Nat → Value}
    (rd : Mem → Option Value) (hf : Fits m off 16 im 0)
    (hrd : ∀ m'' , rd m'' = (do
      let lo ← memRead m'' off 8
      let hi ← memRead m'' (off + 8) 8
      some (f (leNat hi * 2 ^ 64 + leNat lo))))
    (hv : f ((z / 2 ^ 64 % 2 ^ 64).toNat * 2 ^ 64 + (z % 2 ^ 64).toNat) = v) :
    RT (fun m => do
      let m ← memWrite m off (intBytes z)
      some (m, 16, 0)) rd v off 16 im 0 m := by
  obtain ⟨h1, h2, h3, h4⟩ := hf
  have hl := length_intBytes z
  refine ⟨put m off (intBytes z), ?_, rfl, ?_, ?_⟩
  · simp only []
    rw [memWrite_ok (by omega)]; rfl
  · intro i hi _
    exact put_out (by omega)
  · intro m'' hs ha _
    rw [hrd, memRead_ok (by omega), memRead_ok (by omega)]
    have e : bytesAt m'' off (intBytes z).length = intBytes z := by
      rw [hl, bytesAt_eq ha, ← hl]; exact bytesAt_put _ _ _
    obtain ⟨e1, e2⟩ := bytesAt_split e
    rw [length_leBytes] at e1 e2
    rw [length_leBytes] at e2
    rw [e1, e2, ← hv]
    simp only [Option.bind_eq_bind, Option.bind_some]
    rw [leNat_leBytes, leNat_leBytes]
    generalize z / 2 ^ 64 = z'
    have P : (256 : Nat) ^ 8 = 18446744073709551616 := by norm_num
    have P' : (2 : Int) ^ 64 = 18446744073709551616 := by norm_num
    rw [P, P', Nat.mod_eq_of_lt (by omega), Nat.mod_eq_of_lt (by omega)]

theorem wrap_halves {z : Int} (h : IsInt z) :
    wrapI (((z / 2 ^ 64 % 2 ^ 64).toNat * 2 ^ 64 + (z % 2 ^ 64).toNat : Nat) : Int) = z := by
  obtain ⟨h1, h2⟩ := h
  unfold wrapI
  push_cast
  rw [Int.toNat_of_nonneg (by omega), Int.toNat_of_nonneg (by omega)]
  norm_num at *
  omega

theorem ind_flat {ty : Ty} (h : isInMemoryType ty = false) (m : Mem) (off : Nat) :
    readFromWasmIndirect ty m off = readFromWasm ty m off (typeSize ty) := by
  simp [readFromWasmIndirect, indirect, h]

theorem rt_word {m : Mem} {off im x : Nat} (hx : x < 2 ^ 32) (hf : Fits m off 4 im 0) :
    RT (fun m => do
      let m ← memWrite m off (leBytes 4 x)
      some (m, 4, 0)) (fun m => do
      let bs ← memRead m off 4
      some (leNat bs)) x off 4 im 0 m := by
  obtain ⟨h1, h2, h3, h4⟩ := hf
  have hl := length_leBytes 4 x
  refine ⟨put m off (leBytes 4 x), ?_, rfl, ?_, ?_⟩
  · simp only []
    rw [memWrite_ok (by omega)]; rfl
  · intro i hi _
    exact put_out (by omega)
  · intro m'' hs ha _
    simp only []
    rw [memRead_ok (by omega)]
    have e : bytesAt m'' off 4 = leBytes 4 x := by
      rw [bytesAt_eq ha]
      have := bytesAt_put m off (leBytes 4 x)
      rwa [hl] at this
    rw [e]
    simp only [Option.bind_eq_bind, Option.bind_some]
    rw [leNat_leBytes4 hx]

theorem rt_tag {α β : Type} {m : Mem} {x off off' S ts im il : Nat}
    {w w' : Mem → Option (Mem × Nat × Nat)} {rd : Mem → Option α} {rd' : Mem → Option β} {v : α}
    {v' : β} (hx : x < 2 ^ 32) (h1 : off + 4 ≤ off') (h2 : off' + ts ≤ off + S)
    (hf : Fits m off S im il)
    (hw : ∀ m, Fits m off' ts im il → RT w rd v off' ts im il m)
    (hw' : ∀ m m1 m2, memWrite m off (leBytes 4 x) = some m1 → w m1 = some (m2, ts, il) →
      w' m = some (m2, S, il))
    (hrd : ∀ m'', (memRead m'' off 4).map leNat = some x → rd m'' = some v → rd' m'' = some v') :
    RT w' rd' v' off S im il m := by
  obtain ⟨f1, f2, f3, f4⟩ := hf
  obtain ⟨m1, w1, s1, o1, r1⟩ := rt_word (m := m) (off := off) (im := m.size) hx
    ⟨by omega, by omega, by omega, by omega⟩
  obtain ⟨m2, w2, s2, o2, r2⟩ := hw m1 ⟨by omega, by omega, by omega, by omega⟩
  have e1 : memWrite m off (leBytes 4 x) = some m1 := by
    simp only [] at w1
    cases h : memWrite m off (leBytes 4 x) with
    | none => rw [h] at w1; exact absurd w1 (by simp)
    | some a => rw [h] at w1; simp at w1; rw [w1]
  refine ⟨m2, hw' m m1 m2 e1 w2, by omega, ?_, ?_⟩
  · intro i hi hi'
    rw [o2 i (by omega) (by omega), o1 i (by omega) (by omega)]
  · intro m'' hs ha hb
    apply hrd
    · have := r1 m'' hs (fun i hi hi' => by rw [ha i hi (by omega), o2 i (by omega) (by omega)])
        (fun i hi hi' => by omega)
      simp only [Option.bind_eq_bind] at this
      rw [← this]
      cases memRead m'' off 4 <;> rfl
    · exact r2 m'' (by omega) (ha.mono (by omega) (by omega)) hb

theorem asciiFromBytes_ok {bs : List Byte} (h : ∀ b ∈ bs, asciiOk b.toNat = true) :
    asciiFromBytes bs = some (.ascii bs) := by
  unfold asciiFromBytes
  rw [if_pos (by simpa using h)]

theorem bind_map {α β γ : Type} {o : Option α} {f : α → β} {x : β} {g : β → Option γ}
    (h : o.map f = some x) : (o.bind fun a => g (f a)) = g x := by
  cases o with
  | none => exact absurd h (by simp)
  | some a => simp only [Option.map_some, Option.some.injEq] at h; simp [h]

theorem lookup_split {k : Name} {v : Value} {pre kvs : List (Name × Value)}
    (h : k ∉ pre.map Prod.fst) : (pre ++ (k, v) :: kvs).lookup k = some v := by
  induction pre with
  | nil => simp [List.lookup]
  | cons a pre ih =>
    simp only [List.map_cons, List.mem_cons, not_or] at h
    simp only [List.cons_append, List.lookup]
    have : (k == a.1) = false := by simpa using h.1
    rw [this]
    exact ih h.2

theorem keys_of_hasFields : ∀ (fs : Fields) (kvs : List (Name × Value)), HasFields fs kvs →
    kvs.map Prod.fst = fs.keys
  | .nil, [], _ => rfl
  | .cons k t fs, (k', v) :: kvs, h => by
    obtain ⟨rfl, _, h⟩ := h
    simp [Fields.keys, keys_of_hasFields fs kvs h]
  | .nil, _ :: _, h => absurd h (by simp [HasFields])
  | .cons _ _ _, [], h => absurd h (by simp [HasFields])

/-- The statement for the fields of a tuple; `pre` are the bindings already written. -/
def GoodF (fs : Fields) : Prop := ∀ pre kvs off im m, HasFields fs kvs →
  (pre.map Prod.fst ++ fs.keys).Nodup → Fits m off (fieldsSize fs) im (inLenF fs kvs) →
  RT (fun m => writeFields fs off im (pre ++ kvs) m) (fun m => readFields fs m off) kvs off
    (fieldsSize fs) im (inLenF fs kvs) m

theorem rt_cons {k : Name} {t : Ty} {fs : Fields} (ht : Good t) (hfs : GoodF fs) :
    GoodF (.cons k t fs) := by
  intro pre kvs off im m hv hn hf
  match kvs with
  | [] => exact absurd hv (by simp [HasFields])
  | (k', v) :: kvs =>
    obtain ⟨rfl, hv, hvs⟩ := hv
    simp only [fieldsSize, inLenF] at hf ⊢
    obtain ⟨f1, f2, f3, f4⟩ := hf
    simp only [Fields.keys] at hn
    have hk : k' ∉ pre.map Prod.fst := by
      intro hmem
      have := (List.nodup_append.1 hn).2.2 _ hmem _ (List.mem_cons_self ..)
      exact this rfl
    obtain ⟨m1, w1, s1, o1, r1⟩ := ht v off im m hv ⟨by omega, by omega, by omega, f4⟩
    obtain ⟨m2, w2, s2, o2, r2⟩ := hfs (pre ++ [(k', v)]) kvs (off + typeSize t) (im + inLen t v)
      m1 hvs (by simpa using hn) ⟨by omega, by omega, by omega, by omega⟩
    refine ⟨m2, ?_, by omega, ?_, ?_⟩
    · simp only [writeFields]
      rw [lookup_split hk]
      simp only [] at w1 w2
      simp only [Option.bind_eq_bind, Option.bind_some, w1]
      rw [show pre ++ (k', v) :: kvs = pre ++ [(k', v)] ++ kvs by simp, w2]
      rfl
    · intro i hi hi'
      rw [o2 i (by omega) (by omega), o1 i (by omega) (by omega)]
    · intro m'' hs ha hb
      have R2 := r2 m'' (by omega) (ha.mono (by omega) (by omega)) (hb.mono (by omega) (by omega))
      have R1 := r1 m'' hs
        (fun i hi hi' => by rw [ha i hi (by omega), o2 i (by omega) (by omega)])
        (fun i hi hi' => by rw [hb i hi (by omega), o2 i (by omega) (by omega)])
      simp only [readFromWasmIndirect] at R1 R2
      simp only [readFields]
      rw [R1]
      simp only [Option.bind_eq_bind, Option.bind_some]
      rw [R2]; rfl

theorem good_list {n : Nat} {e : Ty} (he : Good e) (hz : 0 < typeSize e) : Good (.list n e) := by
  intro v off im m hv hf
  cases v <;> try (exfalso; simp only [HasType] at hv; done)
  rename_i vs
  obtain ⟨hl, hv⟩ := hv
  simp only [typeSize, inLen] at hf ⊢
  obtain ⟨f1, f2, f3, f4⟩ := hf
  generalize hA : vs.length * typeSize e = A at f1 f2 f3 ⊢
  generalize hB : (vs.map (inLen e)).sum = B at f1 f2 f3 ⊢
  obtain ⟨m1, w1, s1, o1, r1⟩ := rt_elems he hz vs im (im + A) m hv
    (by rw [hA, hB]; exact ⟨by omega, by omega, by omega, f4⟩)
  rw [hA] at w1 o1 r1
  rw [hB] at w1 o1 r1
  have l4 := length_leBytes 4 im
  have l4' := length_leBytes 4 A
  refine ⟨put (put m1 off (leBytes 4 im)) (off + 4) (leBytes 4 A), ?_, by simpa using s1, ?_, ?_⟩
  · simp only [writeToWasm, hA]
    simp only [] at w1
    rw [w1]
    simp only [Option.bind_eq_bind, Option.bind_some, writeRepr, if_true]
    rw [memWrite_ok (by omega)]
    simp only [Option.bind_some]
    rw [memWrite_ok (by rw [put_size]; omega)]
    rfl
  · intro i hi hi'
    rw [put_out (by omega), put_out (by omega), o1 i (by omega) (by omega)]
  · intro m'' hs ha hb
    have e1 : bytesAt m'' off 4 = leBytes 4 im := by
      rw [bytesAt_eq (ha.mono (Nat.le_refl _) (by omega : off + 4 ≤ off + 8))]
      rw [bytesAt_eq (m := put m1 off (leBytes 4 im)) (fun i hi hi' => put_out (by omega))]
      have := bytesAt_put m1 off (leBytes 4 im)
      rwa [l4] at this
    have e2 : bytesAt m'' (off + 4) 4 = leBytes 4 A := by
      rw [bytesAt_eq (ha.mono (by omega) (by omega : off + 4 + 4 ≤ off + 8))]
      have := bytesAt_put (put m1 off (leBytes 4 im)) (off + 4) (leBytes 4 A)
      rwa [l4'] at this
    simp only [readFromWasmIndirect, indirect, isInMemoryType, if_true]
    unfold readIndirectOffsetAndLength
    rw [memRead_ok (by omega), memRead_ok (by omega), e1, e2]
    simp only [Option.bind_eq_bind, Option.bind_some, readFromWasm]
    rw [leNat_leBytes4 (by omega), leNat_leBytes4 (by omega)]
    have R := r1 m'' hs
      (fun i hi hi' => by rw [hb i hi (by omega), put_out (by omega), put_out (by omega)])
      (fun i hi hi' => by rw [hb i (by omega) (by omega), put_out (by omega), put_out (by omega)])
    simp only [] at R
    have hle : vs.length ≤ A := by
      rw [← hA]; exact Nat.le_mul_of_pos_right _ hz
    have R' := readElems_mono R A hle
    simp only [readFromWasmIndirect] at R'
    rw [R']; rfl

theorem good_principal {ty : Ty} (hm : isInMemoryType ty = true) (hs8 : typeSize ty = 8)
    (hty : ∀ t, ty ≠ .trait t)
    (hval : ∀ v, HasType ty v → ∃ p, v = .principal p ∧ p.Ok)
    (hlen : ∀ p, inLen ty (.principal p) = (principalBytes p).length)
    (hw : ∀ off im p r m, writeToWasm ty off im (.principal p) r m =
      writeBytes m off im (principalBytes p) r)
    (hr : ∀ m off len, readFromWasm ty m off len = readPrincipal ty m off) : Good ty := by
  intro v off im m hv hf
  obtain ⟨p, rfl, hp⟩ := hval v hv
  rw [hlen, hs8] at *
  have hf' := hf
  obtain ⟨f1, f2, f3, f4⟩ := hf'
  simp only [hw]
  apply rt_bytes hm hf
  intro m'' hs hb
  rw [hr]
  exact readPrincipal_ok hty hp (by omega) hb

mutual
theorem good : ∀ T : Ty, T.WF → Plain T → Good T
  | .noType, _, _ => fun v _ _ _ hv _ => by cases v <;> exact absurd hv (by simp [HasType])
  | .int, _, _ => fun v off im m hv hf => by
    cases v <;> try (exfalso; simp only [HasType] at hv; done)
    rename_i z
    simp only [typeSize, inLen] at hf ⊢
    simp only [writeToWasm]
    refine rt_int (f := fun n => .int (wrapI n)) _ hf (fun m'' => ?_) ?_
    · simp [readFromWasmIndirect, indirect, isInMemoryType, readFromWasm]
    · have := hv; simp only [HasType] at this
      rw [wrap_halves this]
  | .uint, _, _ => fun v off im m hv hf => by
    cases v <;> try (exfalso; simp only [HasType] at hv; done)
    rename_i z
    simp only [typeSize, inLen] at hf ⊢
    simp only [writeToWasm]
    refine rt_int (f := fun n => .uint n) _ hf (fun m'' => ?_) ?_
    · simp [readFromWasmIndirect, indirect, isInMemoryType, readFromWasm]
    · have := hv; simp only [HasType, IsUInt] at this
      have P' : (2 : Int) ^ 64 = 18446744073709551616 := by norm_num
      have P3 : (2 : Nat) ^ 64 = 18446744073709551616 := by norm_num
      simp only [P', P3]; congr 1; omega
  | .bool, _, _ => fun v off im m hv hf => by
    cases v <;> try (exfalso; simp only [HasType] at hv; done)
    rename_i b
    simp only [typeSize, inLen] at hf ⊢
    simp only [writeToWasm]
    obtain ⟨m', w, s, o, r⟩ := rt_word (x := if b then 1 else 0) (by split <;> omega) hf
    refine ⟨m', w, s, o, fun m'' hs ha hb => ?_⟩
    have := r m'' hs ha hb
    simp only [] at this
    simp only []
    rw [ind_flat rfl]
    simp only [readFromWasm]
    cases hr : memRead m'' off 4 with
    | none => rw [hr] at this; exact absurd this (by simp)
    | some bs =>
      rw [hr] at this
      simp only [Option.bind_eq_bind, Option.bind_some, Option.some.injEq] at this ⊢
      rw [this]; cases b <;> simp
  | .principal, _, _ => good_principal rfl rfl (by simp)
      (fun v hv => by
        cases v <;> try (exfalso; simp only [HasType] at hv; done)
        exact ⟨_, rfl, hv⟩)
      (fun p => by simp [inLen]) (fun off im p r m => by simp [writeToWasm])
      (fun m off len => by simp [readFromWasm])
  | .callable c, _, _ => good_principal rfl rfl (by simp)
      (fun v hv => by
        cases v <;> try (exfalso; simp only [HasType] at hv; done)
        rename_i p
        cases p <;> simp only [HasType] at hv
        exact ⟨_, rfl, by rw [hv.1]; exact hv.2⟩)
      (fun p => by simp [inLen]) (fun off im p r m => by simp [writeToWasm])
      (fun m off len => by simp [readFromWasm])
  | .trait _, _, h => h.elim
  | .traitRef t, _, _ => good_principal rfl rfl (by simp)
      (fun v hv => by
        cases v <;> try (exfalso; simp only [HasType] at hv; done)
        rename_i p
        cases p <;> simp only [HasType] at hv
        exact ⟨_, rfl, hv⟩)
      (fun p => by simp [inLen]) (fun off im p r m => by simp [writeToWasm])
      (fun m off len => by simp [readFromWasm])
  | .buff n, _, _ => fun v off im m hv hf => by
    cases v <;> try (exfalso; simp only [HasType] at hv; done)
    simp only [typeSize, inLen] at hf ⊢
    simp only [writeToWasm]
    refine rt_bytes rfl hf fun m'' hs hb => ?_
    obtain ⟨f1, f2, f3, f4⟩ := hf
    simp only [readFromWasm]
    rw [memRead_ok (by omega), hb]; rfl
  | .ascii n, _, _ => fun v off im m hv hf => by
    cases v <;> try (exfalso; simp only [HasType] at hv; done)
    simp only [typeSize, inLen] at hf ⊢
    simp only [writeToWasm]
    refine rt_bytes rfl hf fun m'' hs hb => ?_
    obtain ⟨f1, f2, f3, f4⟩ := hf
    simp only [readFromWasm]
    rw [memRead_ok (by omega), hb]
    exact asciiFromBytes_ok hv.2
  | .utf8 n, _, _ => fun v off im m hv hf => by
    cases v <;> try (exfalso; simp only [HasType] at hv; done)
    rename_i cs
    simp only [typeSize, inLen] at hf ⊢
    simp only [writeToWasm]
    rw [← length_flatMap_be] at hf ⊢
    refine rt_bytes rfl hf fun m'' hs hb => ?_
    obtain ⟨f1, f2, f3, f4⟩ := hf
    simp only [readFromWasm]
    rw [memRead_ok (by omega), hb]
    exact utf8FromScalars_ok cs hv.2
  | .list n e, hw, hp => good_list (good e hw hp) (typeSize_pos e hw)
  | .opt t, hw, hp => fun v off im m hv hf => by
    cases v <;> try (exfalso; simp only [HasType] at hv; done)
    · simp only [typeSize, inLen] at hf ⊢
      refine rt_tag (x := 0) (off' := off + 4) (ts := 0) (w := fun m => some (m, 0, 0))
        (rd := fun _ => some ()) (v := ()) (by omega) (by omega) (by omega) hf ?_ ?_ ?_
      · intro m hf
        exact ⟨m, rfl, rfl, fun _ _ _ => rfl, fun _ _ _ _ => rfl⟩
      · intro m m1 m2 h1 h2
        simp only [Option.some.injEq, Prod.mk.injEq] at h2
        simp only [writeToWasm, h1, h2.1]
        rfl
      · intro m'' h1 _
        simp only [readFromWasmIndirect, indirect, isInMemoryType, readFromWasm, Option.bind_eq_bind,
          Bool.false_eq_true, if_false]
        cases hr : memRead m'' off 4 with
        | none => rw [hr] at h1; exact absurd h1 (by simp)
        | some bs =>
          rw [hr] at h1
          simp only [Option.map_some, Option.some.injEq] at h1
          simp [h1]
    · rename_i v
      simp only [typeSize, inLen] at hf ⊢
      refine rt_tag (x := 1) (off' := off + 4) (by omega) (by omega) (by omega) hf
        (fun m hf => good t hw hp v (off + 4) im m hv hf) ?_ ?_
      · intro m m1 m2 h1 h2
        try simp only [] at h2
        simp only [writeToWasm, h1, Option.bind_eq_bind, Option.bind_some, h2]
      · intro m'' h1 h2
        have h2 : indirect _ _ _ _ = _ := h2
        rw [ind_flat rfl]
        simp only [readFromWasm, Option.bind_eq_bind]
        cases hr : memRead m'' off 4 with
        | none => rw [hr] at h1; exact absurd h1 (by simp)
        | some bs =>
          rw [hr] at h1
          simp only [Option.map_some, Option.some.injEq] at h1
          simp [h1, h2]
  | .resp o e, hw, hp => fun v off im m hv hf => by
    cases v <;> try (exfalso; simp only [HasType] at hv; done)
    · rename_i v
      simp only [typeSize, inLen] at hf ⊢
      refine rt_tag (x := 1) (off' := off + 4) (by omega) (by omega) (by omega) hf
        (fun m hf => good o hw.1 hp.1 v (off + 4) im m hv hf) ?_ ?_
      · intro m m1 m2 h1 h2
        try simp only [] at h2
        simp only [writeToWasm, h1, Option.bind_eq_bind, Option.bind_some, h2]
      · intro m'' h1 h2
        have h2 : indirect _ _ _ _ = _ := h2
        rw [ind_flat rfl]
        simp only [readFromWasm, Option.bind_eq_bind]
        cases hr : memRead m'' off 4 with
        | none => rw [hr] at h1; exact absurd h1 (by simp)
        | some bs =>
          rw [hr] at h1
          simp only [Option.map_some, Option.some.injEq] at h1
          simp [h1, h2]
    · rename_i v
      simp only [typeSize, inLen] at hf ⊢
      refine rt_tag (x := 0) (off' := off + (4 + typeSize o)) (by omega) (by omega) (by omega) hf
        (fun m hf => good e hw.2 hp.2 v (off + (4 + typeSize o)) im m hv hf) ?_ ?_
      · intro m m1 m2 h1 h2
        try simp only [] at h2
        simp only [writeToWasm, h1, Option.bind_eq_bind, Option.bind_some, h2]
      · intro m'' h1 h2
        have h2 : indirect _ _ _ _ = _ := h2
        rw [ind_flat rfl]
        simp only [readFromWasm, Option.bind_eq_bind]
        cases hr : memRead m'' off 4 with
        | none => rw [hr] at h1; exact absurd h1 (by simp)
        | some bs =>
          rw [hr] at h1
          simp only [Option.map_some, Option.some.injEq] at h1
          simp only [← Nat.add_assoc] at h2
          simp [h1, h2]
  | .tuple fs, hw, hp => fun v off im m hv hf => by
    cases v <;> try (exfalso; simp only [HasType] at hv; done)
    rename_i kvs
    simp only [typeSize, inLen] at hf ⊢
    obtain ⟨m', w, s, o, r⟩ := goodF fs hw.2.2 hp [] kvs off im m hv (by simpa using hw.2.1) hf
    refine ⟨m', by simpa [writeToWasm] using w, s, o, fun m'' hs ha hb => ?_⟩
    have := r m'' hs ha hb
    simp only [] at this
    simp [readFromWasmIndirect, indirect, isInMemoryType, readFromWasm, this]
theorem goodF : ∀ fs : Fields, fs.WF → PlainF fs → GoodF fs
  | .nil, _, _ => fun pre kvs off im m hv _ _ => by
    cases kvs with
    | cons => exact absurd hv (by simp [HasFields])
    | nil =>
      refine ⟨m, by simp [writeFields, fieldsSize, inLenF], rfl, fun _ _ _ => rfl, fun _ _ _ _ => ?_⟩
      simp [readFields]
  | .cons k t fs, hw, hp => rt_cons (good t hw.1 hp.1) (goodF fs hw.2 hp.2)
end

end Host
