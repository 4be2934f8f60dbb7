import Verif.Gen.MemProof
import Verif.Host.AbiSize
import Verif.Host.AbiProof

/-!
How the Wasm values on the operand stack, in locals or in memory represent a Clarity value.
-/

namespace Gen
open Wasm Spec Host

/-- The bytes of a value that is kept in memory as a plain byte string. -/
def memBytes : Value → List Byte
  | .buff bs => bs
  | .ascii bs => bs
  | .utf8 cs => cs.flatMap beBytes4
  | .principal p => principalBytes p
  | .callable c _ => principalBytes (.contract c)
  | _ => []

/-- A part of the memory: the addresses below `hi` that are not in `hole`. -/
structure Reg where
  hi : Nat
  hole : Nat → Prop

/-- The `l` bytes from `o` on are in the region. -/
def Reg.Has (b : Reg) (o l : Nat) : Prop := o + l ≤ b.hi ∧ ∀ i, o ≤ i → i < o + l → ¬ b.hole i

/-- `b'` contains `b`. -/
def Reg.Le (b b' : Reg) : Prop := b.hi ≤ b'.hi ∧ ∀ i, i < b.hi → b'.hole i → b.hole i

theorem Reg.Has.mono {b b' : Reg} {o l : Nat} (h : b.Has o l) (hb : b.Le b') : b'.Has o l := by
  obtain ⟨h1, h2⟩ := h
  obtain ⟨h3, h4⟩ := hb
  exact ⟨by omega, fun i hi hi' hh => h2 i hi hi' (h4 i (by omega) hh)⟩

/-- The addresses from `lo` to `hi`. -/
def seg (lo hi : Nat) : Reg := ⟨hi, fun i => i < lo⟩

theorem seg_le {lo hi lo' hi' : Nat} (h : lo' ≤ lo) (h' : hi ≤ hi') : (seg lo hi).Le (seg lo' hi') :=
  ⟨h', fun _ _ (h1 : _ < lo') => (show _ < lo by omega)⟩

/-- The bytes `bs` are in the region `b`. -/
def BytesIn (m : Mem) (b : Reg) (bs : List Byte) (ws : List Val) : Prop :=
  ∃ o l : BitVec 32, ws = [.i32 o, .i32 l] ∧ l.toNat = bs.length ∧ b.Has o.toNat bs.length ∧
    bytesAt m o.toNat bs.length = bs

mutual
/-- The Wasm values `ws` represent `v` at type `T`; what is in memory is in the region `b`. Parts
that carry no information (the value of `none`, the error value of an `ok`) are any values of the
right Wasm types. -/
def Rep (m : Mem) (b : Reg) : Ty → Value → List Val → Prop
  | .noType, _, _ => False
  | .int, v, ws => ∃ z, v = .int z ∧ IsInt z ∧ ws = encI z
  | .uint, v, ws => ∃ n, v = .uint n ∧ IsUInt n ∧ ws = encU n
  | .bool, v, ws => ∃ x, v = .bool x ∧ ws = encB x
  | .principal, v, ws => HasType .principal v ∧ BytesIn m b (memBytes v) ws
  | .callable c, v, ws => HasType (.callable c) v ∧ BytesIn m b (memBytes v) ws
  | .trait t, v, ws => HasType (.trait t) v ∧ BytesIn m b (memBytes v) ws
  | .traitRef t, v, ws => HasType (.traitRef t) v ∧ BytesIn m b (memBytes v) ws
  | .buff n, v, ws => HasType (.buff n) v ∧ BytesIn m b (memBytes v) ws
  | .ascii n, v, ws => HasType (.ascii n) v ∧ BytesIn m b (memBytes v) ws
  | .utf8 n, v, ws => HasType (.utf8 n) v ∧ BytesIn m b (memBytes v) ws
  | .list n e, v, ws => ∃ vs, ∃ o l : BitVec 32, v = .list vs ∧ vs.length ≤ n ∧
      ws = [.i32 o, .i32 l] ∧ l.toNat = vs.length * typeSize e ∧ b.Has o.toNat l.toNat ∧
      ∀ (i : Nat) x, vs[i]? = some x → Rep m b e x (loadVals m e (o.toNat + i * typeSize e))
  | .opt t, v, ws =>
    (∃ us, v = .none ∧ ws = .i32 0#32 :: us ∧ us.map Val.ty = wty t) ∨
    (∃ x us, v = .some x ∧ ws = .i32 1#32 :: us ∧ Rep m b t x us)
  | .resp o e, v, ws =>
    (∃ x us js, v = .ok x ∧ ws = .i32 1#32 :: (us ++ js) ∧ Rep m b o x us ∧ js.map Val.ty = wty e) ∨
    (∃ x us js, v = .err x ∧ ws = .i32 0#32 :: (js ++ us) ∧ Rep m b e x us ∧ js.map Val.ty = wty o)
  | .tuple fs, v, ws => ∃ kvs, v = .tuple kvs ∧ RepF m b fs kvs ws
/-- The same for the fields of a tuple. -/
def RepF (m : Mem) (b : Reg) : Fields → List (Name × Value) → List Val → Prop
  | .nil, kvs, ws => kvs = [] ∧ ws = []
  | .cons k t fs, kvs, ws => ∃ x r us vs, kvs = (k, x) :: r ∧ ws = us ++ vs ∧ Rep m b t x us ∧
      RepF m b fs r vs
end

/-- Representation of several values. -/
def RepAll (m : Mem) (b : Reg) : List Ty → List Value → List Val → Prop
  | [], vs, ws => vs = [] ∧ ws = []
  | T :: Ts, vs, ws => ∃ x r us rs, vs = x :: r ∧ ws = us ++ rs ∧ Rep m b T x us ∧ RepAll m b Ts r rs

theorem BytesIn.ty {m : Mem} {b : Reg} {bs : List Byte} {ws : List Val} (h : BytesIn m b bs ws) :
    ws.map Val.ty = [.i32, .i32] := by
  obtain ⟨o, l, rfl, _⟩ := h; rfl

mutual
theorem Rep.ty {m : Mem} {b : Reg} : ∀ {T : Ty} {v : Value} {ws : List Val}, Rep m b T v ws →
    ws.map Val.ty = wty T
  | .noType, _, _, h => by simp [Rep] at h
  | .int, _, _, h => by
    simp only [Rep] at h
    obtain ⟨z, rfl, _, rfl⟩ := h; rfl
  | .uint, _, _, h => by
    simp only [Rep] at h
    obtain ⟨z, rfl, _, rfl⟩ := h; rfl
  | .bool, _, _, h => by
    simp only [Rep] at h
    obtain ⟨z, rfl, rfl⟩ := h; rfl
  | .principal, _, _, h | .callable _, _, _, h | .trait _, _, _, h | .traitRef _, _, _, h
  | .buff _, _, _, h | .ascii _, _, _, h | .utf8 _, _, _, h => by
    simp only [Rep] at h
    simp only [wty]; exact h.2.ty
  | .list _ _, _, _, h => by
    simp only [Rep] at h
    obtain ⟨vs, o, l, rfl, _, rfl, _⟩ := h; rfl
  | .opt t, _, _, h => by
    simp only [Rep] at h
    rcases h with ⟨us, rfl, rfl, h⟩ | ⟨x, us, rfl, rfl, h⟩
    · simp [wty, h, Val.ty]
    · simp [wty, h.ty, Val.ty]
  | .resp o e, _, _, h => by
    simp only [Rep] at h
    rcases h with ⟨x, us, js, rfl, rfl, h, h'⟩ | ⟨x, us, js, rfl, rfl, h, h'⟩
    · simp [wty, h.ty, h', Val.ty]
    · simp [wty, h.ty, h', Val.ty]
  | .tuple fs, _, _, h => by
    simp only [Rep] at h
    obtain ⟨kvs, rfl, h⟩ := h
    simp [wty, RepF.ty h]
theorem RepF.ty {m : Mem} {b : Reg} : ∀ {fs : Fields} {kvs : List (Name × Value)} {ws : List Val},
    RepF m b fs kvs ws → ws.map Val.ty = wtyF fs
  | .nil, _, _, h => by
    simp only [RepF] at h
    obtain ⟨rfl, rfl⟩ := h; rfl
  | .cons k t fs, _, _, h => by
    simp only [RepF] at h
    obtain ⟨x, r, us, vs, rfl, rfl, h, h'⟩ := h
    simp [wtyF, h.ty, RepF.ty h']
end

theorem Rep.len {m : Mem} {b : Reg} {T : Ty} {v : Value} {ws : List Val} (h : Rep m b T v ws) :
    ws.length = (wty T).length := by rw [← h.ty, List.length_map]

mutual
theorem Rep.hasType {m : Mem} {b : Reg} : ∀ {T : Ty} {v : Value} {ws : List Val}, Rep m b T v ws →
    HasType T v
  | .noType, _, _, h => by simp [Rep] at h
  | .int, _, _, h => by
    simp only [Rep] at h
    obtain ⟨z, rfl, h, rfl⟩ := h; exact h
  | .uint, _, _, h => by
    simp only [Rep] at h
    obtain ⟨z, rfl, h, rfl⟩ := h; exact h
  | .bool, _, _, h => by
    simp only [Rep] at h
    obtain ⟨z, rfl, rfl⟩ := h; simp [HasType]
  | .principal, _, _, h | .callable _, _, _, h | .trait _, _, _, h | .traitRef _, _, _, h
  | .buff _, _, _, h | .ascii _, _, _, h | .utf8 _, _, _, h => by
    simp only [Rep] at h
    exact h.1
  | .list _ _, _, _, h => by
    simp only [Rep] at h
    obtain ⟨vs, o, l, rfl, h1, rfl, _, _, h⟩ := h
    refine ⟨h1, fun v hv => ?_⟩
    obtain ⟨i, hi⟩ := List.getElem?_of_mem hv
    exact (h i v hi).hasType
  | .opt t, _, _, h => by
    simp only [Rep] at h
    rcases h with ⟨us, rfl, rfl, h⟩ | ⟨x, us, rfl, rfl, h⟩
    · simp [HasType]
    · exact h.hasType
  | .resp o e, _, _, h => by
    simp only [Rep] at h
    rcases h with ⟨x, us, js, rfl, rfl, h, h'⟩ | ⟨x, us, js, rfl, rfl, h, h'⟩
    · exact h.hasType
    · exact h.hasType
  | .tuple fs, _, _, h => by
    simp only [Rep] at h
    obtain ⟨kvs, rfl, h⟩ := h
    exact RepF.hasType h
theorem RepF.hasType {m : Mem} {b : Reg} : ∀ {fs : Fields} {kvs : List (Name × Value)}
    {ws : List Val}, RepF m b fs kvs ws → HasFields fs kvs
  | .nil, _, _, h => by
    simp only [RepF] at h
    obtain ⟨rfl, rfl⟩ := h; simp [HasFields]
  | .cons k t fs, _, _, h => by
    simp only [RepF] at h
    obtain ⟨x, r, us, vs, rfl, rfl, h, h'⟩ := h
    exact ⟨rfl, h.hasType, RepF.hasType h'⟩
end

/-- `m'` has the bytes of `m` below `b`. -/
def Below (b : Nat) (m m' : Mem) : Prop := ∀ i, i < b → m'.byte i = m.byte i

/-- `m'` has the bytes of `m` in the region. -/
def Same (b : Reg) (m m' : Mem) : Prop := ∀ i, i < b.hi → ¬ b.hole i → m'.byte i = m.byte i

theorem Below.same {b : Reg} {m m' : Mem} (h : Below b.hi m m') : Same b m m' := fun i hi _ => h i hi

theorem BytesIn.mono {m m' : Mem} {b b' : Reg} (hm : Same b m m') (hb : b.Le b') {bs : List Byte}
    {ws : List Val} (h : BytesIn m b bs ws) : BytesIn m' b' bs ws := by
  obtain ⟨o, l, h0, h1, h2, h3⟩ := h
  refine ⟨o, l, h0, h1, h2.mono hb, ?_⟩
  rw [bytesAt_eq (m := m) fun i hi hi' => hm i (by have := h2.1; omega) (h2.2 i hi hi')]; exact h3

mutual
theorem Rep.mono {m m' : Mem} {b b' : Reg} (hm : Same b m m') (hb : b.Le b') :
    ∀ {T : Ty} {v : Value} {ws : List Val}, Rep m b T v ws → Rep m' b' T v ws
  | .noType, _, _, h => by simp [Rep] at h
  | .int, _, _, h | .uint, _, _, h | .bool, _, _, h => by simpa only [Rep] using h
  | .principal, _, _, h | .callable _, _, _, h | .trait _, _, _, h | .traitRef _, _, _, h
  | .buff _, _, _, h | .ascii _, _, _, h | .utf8 _, _, _, h => by
    simp only [Rep] at h ⊢
    exact ⟨h.1, h.2.mono hm hb⟩
  | .list n e, _, _, h => by
    simp only [Rep] at h ⊢
    obtain ⟨vs, o, l, rfl, h1, h2, h3, h4, h⟩ := h
    refine ⟨vs, o, l, rfl, h1, h2, h3, h4.mono hb, fun i x hi => ?_⟩
    have hlt := (List.getElem?_eq_some_iff.1 hi).1
    have hmul : (i + 1) * typeSize e ≤ vs.length * typeSize e := Nat.mul_le_mul_right _ hlt
    rw [Nat.succ_mul] at hmul
    rw [loadVals_congr (m := m) e _ fun j hj hj' => hm j (by have := h4.1; omega) (h4.2 j (by omega) (by omega))]
    exact (h i x hi).mono hm hb
  | .opt t, _, _, h => by
    simp only [Rep] at h ⊢
    rcases h with h | ⟨x, us, h1, h2, h⟩
    · exact Or.inl h
    · exact Or.inr ⟨x, us, h1, h2, h.mono hm hb⟩
  | .resp o e, _, _, h => by
    simp only [Rep] at h ⊢
    rcases h with ⟨x, us, js, h1, h2, h, h'⟩ | ⟨x, us, js, h1, h2, h, h'⟩
    · exact Or.inl ⟨x, us, js, h1, h2, h.mono hm hb, h'⟩
    · exact Or.inr ⟨x, us, js, h1, h2, h.mono hm hb, h'⟩
  | .tuple fs, _, _, h => by
    simp only [Rep] at h ⊢
    obtain ⟨kvs, h1, h⟩ := h
    exact ⟨kvs, h1, RepF.mono hm hb h⟩
theorem RepF.mono {m m' : Mem} {b b' : Reg} (hm : Same b m m') (hb : b.Le b') :
    ∀ {fs : Fields} {kvs : List (Name × Value)} {ws : List Val}, RepF m b fs kvs ws →
    RepF m' b' fs kvs ws
  | .nil, _, _, h => by simpa only [RepF] using h
  | .cons k t fs, _, _, h => by
    simp only [RepF] at h ⊢
    obtain ⟨x, r, us, vs, h1, h2, h, h'⟩ := h
    exact ⟨x, r, us, vs, h1, h2, h.mono hm hb, RepF.mono hm hb h'⟩
end

theorem RepAll.mono {m m' : Mem} {b b' : Reg} (hm : Same b m m') (hb : b.Le b') :
    ∀ {Ts : List Ty} {vs : List Value} {ws : List Val}, RepAll m b Ts vs ws → RepAll m' b' Ts vs ws
  | [], _, _, h => h
  | _ :: _, _, _, h => by
    obtain ⟨x, r, us, rs, h1, h2, h3, h4⟩ := h
    exact ⟨x, r, us, rs, h1, h2, h3.mono hm hb, RepAll.mono hm hb h4⟩

/-! Placeholders replaced by zero. -/

theorem clean_append (l₁ l₂ : List Bool) (us vs : List Val) (h : l₁.length = us.length) :
    List.zipWith (fun l w => if l then w else Val.i32 0#32) (l₁ ++ l₂) (us ++ vs) =
    List.zipWith (fun l w => if l then w else Val.i32 0#32) l₁ us ++
    List.zipWith (fun l w => if l then w else Val.i32 0#32) l₂ vs := by
  rw [List.zipWith_append h]

mutual
theorem clean_ty : ∀ (T : Ty) (ws : List Val), ws.map Val.ty = wty T → (clean T ws).map Val.ty = wty T
  | .noType, ws, h => by
    obtain ⟨v, vs, rfl, _, hvs⟩ := typed_cons h
    simp at hvs; subst hvs
    simp [clean, live, wty, Val.ty]
  | .int, ws, h | .uint, ws, h | .principal, ws, h | .callable _, ws, h | .trait _, ws, h
  | .traitRef _, ws, h | .buff _, ws, h | .ascii _, ws, h | .utf8 _, ws, h | .list _ _, ws, h => by
    simp only [wty] at h
    obtain ⟨v, w, rfl, h1, h2⟩ := typed2 h
    simp [clean, live, wty, h1, h2]
  | .bool, ws, h => by
    obtain ⟨v, vs, rfl, h1, hvs⟩ := typed_cons h
    simp at hvs; subst hvs
    simp [clean, live, wty, h1]
  | .opt t, ws, h => by
    obtain ⟨v, vs, rfl, h1, hvs⟩ := typed_cons h
    have := clean_ty t vs hvs
    simp only [clean] at this
    simp [clean, live, wty, h1, this]
  | .resp o e, ws, h => by
    simp only [wty] at h
    obtain ⟨v, vs, rfl, h1, hvs⟩ := typed_cons h
    obtain ⟨us, rs, rfl, hu, hr⟩ := List.map_eq_append_iff.1 hvs
    have A := clean_ty o us hu
    have B := clean_ty e rs hr
    simp only [clean] at A B
    simp only [clean, live, List.cons_append, List.zipWith_cons_cons, if_true]
    rw [clean_append _ _ _ _ (by rw [length_live, ← hu, List.length_map])]
    simp [wty, h1, A, B]
  | .tuple fs, ws, h => by
    simp only [wty] at h
    have := cleanF_ty fs ws h
    simpa [clean, live, wty, cleanF] using this
theorem cleanF_ty : ∀ (fs : Fields) (ws : List Val), ws.map Val.ty = wtyF fs →
    (cleanF fs ws).map Val.ty = wtyF fs
  | .nil, ws, h => by simp [cleanF, liveF, wtyF]
  | .cons k t fs, ws, h => by
    simp only [wtyF] at h
    obtain ⟨us, rs, rfl, hu, hr⟩ := List.map_eq_append_iff.1 h
    have A := clean_ty t us hu
    have B := cleanF_ty fs rs hr
    simp only [clean, cleanF] at A B
    simp only [cleanF, liveF]
    rw [clean_append _ _ _ _ (by rw [length_live, ← hu, List.length_map])]
    simp [wtyF, A, B]
end

mutual
theorem Rep.clean {m : Mem} {b : Reg} : ∀ {T : Ty} {v : Value} {ws : List Val}, Rep m b T v ws →
    Rep m b T v (Gen.clean T ws)
  | .noType, _, _, h => by simp [Rep] at h
  | .int, _, _, h => by
    simp only [Rep] at h ⊢
    obtain ⟨z, h1, h2, rfl⟩ := h
    exact ⟨z, h1, h2, rfl⟩
  | .uint, _, _, h => by
    simp only [Rep] at h ⊢
    obtain ⟨z, h1, h2, rfl⟩ := h
    exact ⟨z, h1, h2, rfl⟩
  | .bool, _, _, h => by
    simp only [Rep] at h ⊢
    obtain ⟨z, h1, rfl⟩ := h
    exact ⟨z, h1, rfl⟩
  | .principal, _, _, h | .callable _, _, _, h | .trait _, _, _, h | .traitRef _, _, _, h
  | .buff _, _, _, h | .ascii _, _, _, h | .utf8 _, _, _, h => by
    simp only [Rep] at h ⊢
    obtain ⟨h1, o, l, rfl, h2⟩ := h
    exact ⟨h1, o, l, rfl, h2⟩
  | .list _ _, _, _, h => by
    simp only [Rep] at h ⊢
    obtain ⟨vs, o, l, h1, h2, rfl, h3⟩ := h
    exact ⟨vs, o, l, h1, h2, rfl, h3⟩
  | .opt t, _, _, h => by
    simp only [Rep] at h ⊢
    rcases h with ⟨us, h1, rfl, h⟩ | ⟨x, us, h1, rfl, h⟩
    · exact Or.inl ⟨Gen.clean t us, h1, by simp [Gen.clean, live], clean_ty t us h⟩
    · exact Or.inr ⟨x, Gen.clean t us, h1, by simp [Gen.clean, live], h.clean⟩
  | .resp o e, _, _, h => by
    simp only [Rep] at h ⊢
    rcases h with ⟨x, us, js, h1, rfl, h, h'⟩ | ⟨x, us, js, h1, rfl, h, h'⟩
    · refine Or.inl ⟨x, Gen.clean o us, Gen.clean e js, h1, ?_, h.clean, clean_ty e js h'⟩
      simp only [Gen.clean, live, List.zipWith_cons_cons, if_true]
      rw [clean_append _ _ _ _ (by rw [length_live, h.len])]
    · refine Or.inr ⟨x, Gen.clean e us, Gen.clean o js, h1, ?_, h.clean, clean_ty o js h'⟩
      simp only [Gen.clean, live, List.zipWith_cons_cons, if_true]
      rw [clean_append _ _ _ _ (by rw [length_live, ← h', List.length_map])]
  | .tuple fs, _, _, h => by
    simp only [Rep] at h ⊢
    obtain ⟨kvs, h1, h⟩ := h
    exact ⟨kvs, h1, RepF.clean h⟩
theorem RepF.clean {m : Mem} {b : Reg} : ∀ {fs : Fields} {kvs : List (Name × Value)}
    {ws : List Val}, RepF m b fs kvs ws → RepF m b fs kvs (cleanF fs ws)
  | .nil, _, _, h => by
    simp only [RepF] at h ⊢
    obtain ⟨h1, rfl⟩ := h
    exact ⟨h1, rfl⟩
  | .cons k t fs, _, _, h => by
    simp only [RepF] at h ⊢
    obtain ⟨x, r, us, vs, h1, rfl, h, h'⟩ := h
    refine ⟨x, r, Gen.clean t us, cleanF fs vs, h1, ?_, h.clean, RepF.clean h'⟩
    simp only [cleanF, Gen.clean, liveF]
    rw [clean_append _ _ _ _ (by rw [length_live, h.len])]
end

end Gen
