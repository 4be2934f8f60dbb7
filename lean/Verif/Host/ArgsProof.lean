import Verif.Host.AbiSize
import Verif.Host.Args

/-! Passing arguments and converting them back. -/

namespace Host
open Wasm Spec

mutual
/-- Types for which the round trip of arguments holds: no trait reference, no trait inside a list. -/
def ArgTy : Ty → Prop
  | .traitRef _ => False
  | .list _ e => Plain e
  | .opt t => ArgTy t
  | .resp o e => ArgTy o ∧ ArgTy e
  | .tuple fs => ArgTyF fs
  | _ => True
/-- The same for all fields. -/
def ArgTyF : Fields → Prop
  | .nil => True
  | .cons _ t fs => ArgTy t ∧ ArgTyF fs
end

mutual
/-- Bytes of list representations that an argument takes. -/
def argOff : Ty → Value → Nat
  | .list _ e, .list vs => vs.length * typeSize e
  | .opt t, .some v => argOff t v
  | .resp o _, .ok v => argOff o v
  | .resp _ e, .err v => argOff e v
  | .tuple fs, .tuple kvs => argOffF fs kvs
  | _, _ => 0
/-- The same for the fields of a tuple. -/
def argOffF : Fields → List (Name × Value) → Nat
  | .cons _ t fs, (_, v) :: kvs => argOff t v + argOffF fs kvs
  | _, _ => 0
end

mutual
/-- Bytes that an argument takes in the in-memory area. -/
def argIn : Ty → Value → Nat
  | .list _ e, .list vs => (vs.map (inLen e)).sum
  | .opt t, .some v => argIn t v
  | .resp o _, .ok v => argIn o v
  | .resp _ e, .err v => argIn e v
  | .tuple fs, .tuple kvs => argInF fs kvs
  | .trait _, .callable c _ => (principalBytes (.contract c)).length
  | .buff _, .buff bs => bs.length
  | .ascii _, .ascii bs => bs.length
  | .utf8 _, .utf8 cs => 4 * cs.length
  | .principal, .principal p | .callable _, .principal p => (principalBytes p).length
  | _, _ => 0
/-- The same for the fields of a tuple. -/
def argInF : Fields → List (Name × Value) → Nat
  | .cons _ t fs, (_, v) :: kvs => argIn t v + argInF fs kvs
  | _, _ => 0
end

/-- The regions fit in a memory below 2 GiB. -/
def FitsA (m : Mem) (off ts im il : Nat) : Prop :=
  off + ts ≤ im ∧ im + il ≤ m.size ∧ m.size < 2 ^ 31

/-- Passing with `p` succeeds with `n` Wasm values, changes only the two regions, and `back` recovers
`v` from the values, wherever they are in the value list, in any memory with the same regions. -/
def PT (p : Mem → Option (List Val × Nat × Nat × Mem))
    (back : Nat → List Val → Mem → Option β) (v : β) (n off ts im il : Nat) (m : Mem) : Prop :=
  ∃ vals m', p m = some (vals, off + ts, im + il, m') ∧ vals.length = n ∧ m'.size = m.size ∧
    (∀ i, (i < off ∨ off + ts ≤ i) → (i < im ∨ im + il ≤ i) → m'.byte i = m.byte i) ∧
    ∀ m'' pre post, m''.size = m.size → Agree m' m'' off ts → Agree m' m'' im il →
      back pre.length (pre ++ vals ++ post) m'' = some v

theorem getI32_at {pre post : List Val} {v : BitVec 32} :
    getI32 (pre ++ .i32 v :: post) pre.length = some v := by
  simp [getI32]

theorem getI64_at {pre post : List Val} {v : BitVec 64} :
    getI64 (pre ++ .i64 v :: post) pre.length = some v := by
  simp [getI64]

theorem getI32_at1 {pre post : List Val} {w : Val} {v : BitVec 32} :
    getI32 (pre ++ w :: .i32 v :: post) (pre.length + 1) = some v := by
  have := getI32_at (pre := pre ++ [w]) (post := post) (v := v)
  simpa using this

theorem getI64_at1 {pre post : List Val} {w : Val} {v : BitVec 64} :
    getI64 (pre ++ w :: .i64 v :: post) (pre.length + 1) = some v := by
  have := getI64_at (pre := pre ++ [w]) (post := post) (v := v)
  simpa using this

theorem asUsize_ofNat {n : Nat} (h : n < 2 ^ 31) : asUsize (BitVec.ofNat 32 n) = n := by
  have : n % 2 ^ 32 = n := Nat.mod_eq_of_lt (by omega)
  simp only [asUsize, BitVec.toNat_ofNat, this, h, if_true]

theorem getSlice_at {pre post : List Val} {a b : Nat} (ha : a < 2 ^ 31) (hb : b < 2 ^ 31) :
    getSlice (pre ++ .i32 (BitVec.ofNat 32 a) :: .i32 (BitVec.ofNat 32 b) :: post) pre.length =
      some (a, b) := by
  unfold getSlice
  rw [getI32_at, getI32_at1]
  simp [asUsize_ofNat ha, asUsize_ofNat hb]

/-- The property proved by induction on types; `n` is the number of Wasm values. -/
def GoodA (T : Ty) : Prop := ∃ ts, wasmTys T = some ts ∧ ∀ v off im m, HasType T v →
  FitsA m off (argOff T v) im (argIn T v) →
  PT (fun m => passArg T v off im m) (fun i buf m => wasmToClarity T i buf m) (some v, ts.length)
    ts.length off (argOff T v) im (argIn T v) m

theorem pt_bytes {β : Type} {m : Mem} {off im : Nat} {bs : List Byte} {v : β}
    {back : Nat → List Val → Mem → Option β} (hf : FitsA m off 0 im bs.length)
    (hb : ∀ m'' pre post, im + bs.length ≤ m''.size → im + bs.length < 2 ^ 31 →
      bytesAt m'' im bs.length = bs →
      back pre.length (pre ++ .i32 (BitVec.ofNat 32 im) :: .i32 (BitVec.ofNat 32 bs.length) :: post)
        m'' = some v) :
    PT (fun m => passBytes bs off im m) back v 2 off 0 im bs.length m := by
  obtain ⟨h1, h2, h3⟩ := hf
  refine ⟨[.i32 (BitVec.ofNat 32 im), .i32 (BitVec.ofNat 32 bs.length)], put m im bs, ?_, rfl, rfl,
    ?_, ?_⟩
  · simp only [passBytes]
    rw [memWrite_ok h2]; rfl
  · intro i _ hi
    exact put_out (by omega)
  · intro m'' pre post hs _ ha
    have := hb m'' pre post (by omega) (by omega) (by rw [bytesAt_eq ha]; exact bytesAt_put m im bs)
    simpa using this

theorem pt_pure {β : Type} {m : Mem} {off im : Nat} {vals : List Val} {v : β}
    {back : Nat → List Val → Mem → Option β}
    (hb : ∀ m'' pre post, back pre.length (pre ++ vals ++ post) m'' = some v) :
    PT (fun m => some (vals, off, im, m)) back v vals.length off 0 im 0 m :=
  ⟨vals, m, rfl, rfl, rfl, fun _ _ _ => rfl, fun m'' pre post _ _ _ => hb m'' pre post⟩

theorem int_back {z : Int} (h : IsInt z) :
    wrapI ((BitVec.ofInt 64 (z / 2 ^ 64)).toInt * 2 ^ 64 + (BitVec.ofInt 64 z).toNat) = z := by
  obtain ⟨h1, h2⟩ := h
  rw [BitVec.toInt_ofInt, BitVec.toNat_ofInt]
  rw [Int.bmod_eq_of_le (by omega) (by omega), Int.toNat_of_nonneg (by omega)]
  unfold wrapI
  push_cast
  norm_num at *
  omega

theorem uint_back {n : Nat} (h : IsUInt n) :
    (BitVec.ofInt 64 ((n : Int) / 2 ^ 64)).toNat * 2 ^ 64 + (BitVec.ofInt 64 n).toNat = n := by
  unfold IsUInt at h
  rw [BitVec.toNat_ofInt, BitVec.toNat_ofInt]
  norm_num at *
  omega

/-- Surrounding the Wasm values of an argument by constant ones. -/
theorem pt_wrap {α β : Type} {p p' : Mem → Option (List Val × Nat × Nat × Mem)}
    {back : Nat → List Val → Mem → Option α} {back' : Nat → List Val → Mem → Option β} {v : α} {v' : β}
    {n n' off ts im il : Nat} {m : Mem} (a b : List Val)
    (h : PT p back v n off ts im il m) (hn : n' = a.length + n + b.length)
    (hp : ∀ m vals x y m', p m = some (vals, x, y, m') → p' m = some (a ++ vals ++ b, x, y, m'))
    (hb : ∀ m'' pre post vals, back (pre ++ a).length ((pre ++ a) ++ vals ++ (b ++ post)) m'' = some v →
      back' pre.length (pre ++ (a ++ vals ++ b) ++ post) m'' = some v') :
    PT p' back' v' n' off ts im il m := by
  obtain ⟨vals, m', h1, h2, h3, h4, h5⟩ := h
  refine ⟨a ++ vals ++ b, m', hp _ _ _ _ _ h1, by simp [h2, hn]; omega, h3, h4, ?_⟩
  intro m'' pre post hs ha hb'
  exact hb m'' pre post vals (h5 m'' (pre ++ a) (b ++ post) hs ha hb')

theorem length_zero (ts : List VT) : (ts.map VT.zero).length = ts.length := by simp

theorem goodA_opt {t : Ty} (ht : GoodA t) : GoodA (.opt t) := by
  obtain ⟨ts, hts, ht⟩ := ht
  have hty : wasmTys (.opt t) = some (.i32 :: ts) := by simp [wasmTys, hts]
  refine ⟨.i32 :: ts, hty, fun v off im m hv hf => ?_⟩
  cases v <;> try (exfalso; simp only [HasType] at hv; done)
  · simp only [argOff, argIn] at hf ⊢
    simp only [passArg, hty, Option.bind_eq_bind, Option.bind_some]
    have := pt_pure (m := m) (off := off) (im := im) (vals := (VT.i32 :: ts).map VT.zero)
      (v := (some Value.none, (VT.i32 :: ts).length))
      (back := fun i buf m => wasmToClarity (.opt t) i buf m) ?_
    · simpa using this
    · intro m'' pre post
      simp only [wasmToClarity, hts, List.map_cons, VT.zero, List.append_assoc, List.cons_append,
        getI32_at, Option.bind_eq_bind, Option.bind_some]
      simp [Nat.add_comm]
  · rename_i v
    simp only [argOff, argIn] at hf ⊢
    refine pt_wrap [.i32 1#32] [] (ht v off im m hv hf) (by simp; omega) ?_ ?_
    · intro m vals x y m' h
      simp [passArg, h]
    · intro m'' pre post vals h
      simp only [List.length_append, List.length_cons, List.length_nil, List.append_assoc,
        List.cons_append, List.nil_append, Nat.zero_add] at h ⊢
      simp only [wasmToClarity, hts, getI32_at, Option.bind_eq_bind, Option.bind_some, if_true]
      rw [h]
      simp [Nat.add_comm]

theorem goodA_resp {o e : Ty} (ho : GoodA o) (he : GoodA e) : GoodA (.resp o e) := by
  obtain ⟨os, hos, ho⟩ := ho
  obtain ⟨es, hes, he⟩ := he
  have hty : wasmTys (.resp o e) = some (.i32 :: os ++ es) := by simp [wasmTys, hos, hes]
  refine ⟨.i32 :: os ++ es, hty, fun v off im m hv hf => ?_⟩
  cases v <;> try (exfalso; simp only [HasType] at hv; done)
  · rename_i v
    simp only [argOff, argIn] at hf ⊢
    refine pt_wrap [.i32 1#32] (es.map VT.zero) (ho v off im m hv hf) (by simp; omega) ?_ ?_
    · intro m vals x y m' h
      simp [passArg, h, hes]
    · intro m'' pre post vals h
      simp only [List.length_append, List.length_cons, List.length_nil, List.append_assoc,
        List.cons_append, List.nil_append, Nat.zero_add] at h ⊢
      simp only [wasmToClarity, hos, hes, getI32_at, Option.bind_eq_bind, Option.bind_some, if_true]
      rw [h]
      simp; omega
  · rename_i v
    simp only [argOff, argIn] at hf ⊢
    refine pt_wrap (.i32 0#32 :: os.map VT.zero) [] (he v off im m hv hf) (by simp; omega) ?_ ?_
    · intro m vals x y m' h
      simp [passArg, h, hos]
    · intro m'' pre post vals h
      simp only [List.length_append, List.length_cons, List.length_nil, List.append_assoc,
        List.cons_append, List.nil_append, Nat.zero_add, List.length_map] at h ⊢
      simp only [wasmToClarity, hos, hes, getI32_at, Option.bind_eq_bind, Option.bind_some]
      rw [show pre.length + 1 + os.length = pre.length + (os.length + 1) by omega, h]
      simp; omega

/-- The statement for the fields of a tuple. -/
def GoodAF (fs : Fields) : Prop := ∃ ts, wasmTysF fs = some ts ∧ ∀ pre kvs off im m,
  HasFields fs kvs → (pre.map Prod.fst ++ fs.keys).Nodup →
  FitsA m off (argOffF fs kvs) im (argInF fs kvs) →
  PT (fun m => passFields fs (pre ++ kvs) off im m) (fun i buf m => wasmToFields fs i buf m)
    (kvs, ts.length) ts.length off (argOffF fs kvs) im (argInF fs kvs) m

/-- Two arguments, one after the other. -/
theorem pt_seq {α β γ : Type} {m : Mem} {off ts im il ts' il' n n' : Nat} {v : α} {v' : β} {v2 : γ}
    {p : Mem → Option (List Val × Nat × Nat × Mem)}
    {p' : Mem → Option (List Val × Nat × Nat × Mem)}
    {q : Mem → Option (List Val × Nat × Nat × Mem)}
    {back : Nat → List Val → Mem → Option α} {back' : Nat → List Val → Mem → Option β}
    {bk : Nat → List Val → Mem → Option γ}
    (hf : FitsA m off (ts + ts') im (il + il'))
    (h : FitsA m off ts im il → PT p back v n off ts im il m)
    (h' : ∀ m, FitsA m (off + ts) ts' (im + il) il' →
      PT p' back' v' n' (off + ts) ts' (im + il) il' m)
    (hq : ∀ m vals m1 vals' r m2, p m = some (vals, off + ts, im + il, m1) →
      p' m1 = some (vals', r, m2) → q m = some (vals ++ vals', r, m2))
    (hb : ∀ m'' pre vals vals' post, vals.length = n → back pre.length (pre ++ vals ++ (vals' ++ post)) m'' = some v →
      back' (pre ++ vals).length ((pre ++ vals) ++ vals' ++ post) m'' = some v' →
      bk pre.length (pre ++ (vals ++ vals') ++ post) m'' = some v2) :
    PT q bk v2 (n + n') off (ts + ts') im (il + il') m := by
  obtain ⟨f1, f2, f3⟩ := hf
  obtain ⟨vals, m1, a1, a2, a3, a4, a5⟩ := h ⟨by omega, by omega, by omega⟩
  obtain ⟨vals', m2, b1, b2, b3, b4, b5⟩ := h' m1 ⟨by omega, by omega, by omega⟩
  refine ⟨vals ++ vals', m2, ?_, by simp [a2, b2], by omega, ?_, ?_⟩
  · have := hq m vals m1 vals' _ _ a1 b1
    rw [this]
    simp [Nat.add_assoc]
  · intro i hi hi'
    rw [b4 i (by omega) (by omega), a4 i (by omega) (by omega)]
  · intro m'' pre post hs ha hb'
    apply hb _ _ _ _ _ a2
    · exact a5 m'' pre (vals' ++ post) (by omega)
        (fun i hi hi' => by rw [ha i hi (by omega), b4 i (by omega) (by omega)])
        (fun i hi hi' => by rw [hb' i hi (by omega), b4 i (by omega) (by omega)])
    · exact b5 m'' (pre ++ vals) post (by omega) (ha.mono (by omega) (by omega))
        (hb'.mono (by omega) (by omega))

theorem goodAF_cons {k : Name} {t : Ty} {fs : Fields} (ht : GoodA t) (hfs : GoodAF fs) :
    GoodAF (.cons k t fs) := by
  obtain ⟨ts, hts, ht⟩ := ht
  obtain ⟨us, hus, hfs⟩ := hfs
  refine ⟨ts ++ us, by simp [wasmTysF, hts, hus], fun pre kvs off im m hv hn hf => ?_⟩
  match kvs with
  | [] => exact absurd hv (by simp [HasFields])
  | (k', v) :: kvs =>
    obtain ⟨rfl, hv, hvs⟩ := hv
    simp only [argOffF, argInF] at hf ⊢
    simp only [Fields.keys] at hn
    have hk : k' ∉ pre.map Prod.fst := by
      intro hmem
      have := (List.nodup_append.1 hn).2.2 _ hmem _ (List.mem_cons_self ..)
      exact this rfl
    rw [List.length_append]
    refine pt_seq hf (fun hf => ht v off im m hv hf)
      (fun m hf => hfs (pre ++ [(k', v)]) kvs _ _ m hvs (by simpa using hn) hf) ?_ ?_
    · intro m vals m1 vals' r m2 h1 h2
      simp only [passFields]
      rw [lookup_split hk]
      simp only [Option.bind_eq_bind, Option.bind_some, h1]
      rw [show pre ++ (k', v) :: kvs = pre ++ [(k', v)] ++ kvs by simp, h2]
      rfl
    · intro m'' pre vals vals' post hl h1 h2
      simp only [List.length_append, List.append_assoc] at h1 h2 ⊢
      simp only [wasmToFields, h1, Option.bind_eq_bind, Option.bind_some]
      rw [← hl, h2]
      rfl

theorem readPrincipal_trait {t : TraitId} {c : ContractId} (hp : c.Ok) {m : Mem}
    {im : Nat} (hs : im + (principalBytes (.contract c)).length ≤ m.size)
    (hb : bytesAt m im (principalBytes (.contract c)).length = principalBytes (.contract c)) :
    readPrincipal (.trait t) m im = some (.callable c (some t)) := by
  have := readPrincipal_ok (ty := .principal) (by simp) (p := .contract c) hp hs hb
  unfold readPrincipal at this ⊢
  revert this
  generalize memRead m im 1 = a
  generalize memRead m (im + 1) 20 = b
  generalize memRead m (im + 21) 1 = d
  cases a with
  | none => simp
  | some a =>
  cases b with
  | none => simp
  | some b =>
  simp only [Option.bind_eq_bind, Option.bind_some]
  cases newStdPrincipal (a.getD 0 0#8) b with
  | none => simp
  | some s =>
  cases d with
  | none => simp
  | some d =>
  simp only [Option.bind_some]
  split
  · simp
  · cases memRead m (im + 22) (BitVec.toNat (d.getD 0 0#8)) with
    | none => simp
    | some nm =>
      simp only [Option.bind_some]
      cases newContractName nm with
      | none => simp
      | some nm =>
        simp only [Option.bind_some, Option.some.injEq, Value.principal.injEq,
          Principal.contract.injEq, Value.callable.injEq, and_true]
        exact id

mutual
theorem goodA : ∀ T : Ty, T.WF → ArgTy T → GoodA T
  | .noType, _, _ =>
    ⟨_, rfl, fun v _ _ _ hv _ => by cases v <;> (simp only [HasType] at hv)⟩
  | .int, _, _ => ⟨_, rfl, fun v off im m hv hf => by
    cases v <;> try (exfalso; simp only [HasType] at hv; done)
    rename_i z
    simp only [argOff, argIn, passArg]
    refine pt_pure (vals := intVals z) ?_
    intro m'' pre post
    simp only [wasmToClarity, intVals, List.append_assoc, List.cons_append, getI64_at, getI64_at1,
      Option.bind_eq_bind, Option.bind_some]
    rw [int_back hv]; rfl⟩
  | .uint, _, _ => ⟨_, rfl, fun v off im m hv hf => by
    cases v <;> try (exfalso; simp only [HasType] at hv; done)
    rename_i z
    simp only [argOff, argIn, passArg]
    refine pt_pure (vals := intVals z) ?_
    intro m'' pre post
    simp only [wasmToClarity, intVals, List.append_assoc, List.cons_append, getI64_at, getI64_at1,
      Option.bind_eq_bind, Option.bind_some]
    rw [uint_back hv]; rfl⟩
  | .bool, _, _ => ⟨_, rfl, fun v off im m hv hf => by
    cases v <;> try (exfalso; simp only [HasType] at hv; done)
    rename_i b
    simp only [argOff, argIn, passArg]
    refine pt_pure (vals := [.i32 (if b then 1#32 else 0#32)]) ?_
    intro m'' pre post
    simp only [wasmToClarity, List.append_assoc, List.cons_append, getI32_at,
      Option.bind_eq_bind, Option.bind_some]
    cases b <;> rfl⟩
  | .principal, _, _ => ⟨_, rfl, fun v off im m hv hf => by
    cases v <;> try (exfalso; simp only [HasType] at hv; done)
    simp only [argOff, argIn, passArg] at hf ⊢
    refine pt_bytes hf ?_
    intro m'' pre post h1 h2 h3
    simp only [wasmToClarity, getI32_at, Option.bind_eq_bind, Option.bind_some]
    rw [asUsize_ofNat (by omega), readPrincipal_ok (by simp) hv h1 h3]
    rfl⟩
  | .callable c, _, _ => ⟨_, rfl, fun v off im m hv hf => by
    cases v <;> try (exfalso; simp only [HasType] at hv; done)
    rename_i p
    cases p <;> simp only [HasType] at hv
    simp only [argOff, argIn, passArg] at hf ⊢
    refine pt_bytes hf ?_
    intro m'' pre post h1 h2 h3
    simp only [wasmToClarity, getI32_at, Option.bind_eq_bind, Option.bind_some]
    rw [asUsize_ofNat (by omega), readPrincipal_ok (by simp) (p := .contract _) (hv.1 ▸ hv.2) h1 h3]
    rfl⟩
  | .trait t, _, _ => ⟨_, rfl, fun v off im m hv hf => by
    cases v <;> try (exfalso; simp only [HasType] at hv; done)
    rename_i c t'
    cases t' <;> simp only [HasType] at hv
    simp only [argOff, argIn, passArg] at hf ⊢
    refine pt_bytes hf ?_
    intro m'' pre post h1 h2 h3
    simp only [wasmToClarity, getI32_at, Option.bind_eq_bind, Option.bind_some]
    rw [asUsize_ofNat (by omega), readPrincipal_trait hv.1 h1 h3, hv.2]
    rfl⟩
  | .traitRef _, _, h => h.elim
  | .buff n, _, _ => ⟨_, rfl, fun v off im m hv hf => by
    cases v <;> try (exfalso; simp only [HasType] at hv; done)
    simp only [argOff, argIn, passArg] at hf ⊢
    refine pt_bytes hf ?_
    intro m'' pre post h1 h2 h3
    simp only [wasmToClarity]
    rw [getSlice_at (by omega) (by omega)]
    simp only [Option.bind_eq_bind, Option.bind_some]
    rw [memRead_ok h1, h3]
    rfl⟩
  | .ascii n, _, _ => ⟨_, rfl, fun v off im m hv hf => by
    cases v <;> try (exfalso; simp only [HasType] at hv; done)
    simp only [argOff, argIn, passArg] at hf ⊢
    refine pt_bytes hf ?_
    intro m'' pre post h1 h2 h3
    simp only [wasmToClarity]
    rw [getSlice_at (by omega) (by omega)]
    simp only [Option.bind_eq_bind, Option.bind_some]
    rw [memRead_ok h1, h3]
    simp only [Option.bind_some]
    rw [asciiFromBytes_ok hv.2]
    rfl⟩
  | .utf8 n, _, _ => ⟨_, rfl, fun v off im m hv hf => by
    cases v <;> try (exfalso; simp only [HasType] at hv; done)
    rename_i cs
    simp only [argOff, argIn, passArg] at hf ⊢
    rw [← length_flatMap_be] at hf ⊢
    refine pt_bytes hf ?_
    intro m'' pre post h1 h2 h3
    simp only [wasmToClarity]
    rw [getSlice_at (by omega) (by omega)]
    simp only [Option.bind_eq_bind, Option.bind_some]
    rw [memRead_ok h1, h3]
    simp only [Option.bind_some]
    rw [utf8FromScalars_ok cs hv.2]
    rfl⟩
  | .list n e, hw, hp => ⟨_, rfl, fun v off im m hv hf => by
    cases v <;> try (exfalso; simp only [HasType] at hv; done)
    rename_i vs
    obtain ⟨hl, hv⟩ := hv
    simp only [argOff, argIn] at hf ⊢
    obtain ⟨f1, f2, f3⟩ := hf
    have hz := typeSize_pos e hw
    obtain ⟨m', w1, s1, o1, r1⟩ := rt_elems (good e hw hp) hz vs off im m hv
      ⟨by omega, by omega, by omega, by omega⟩
    have hle : vs.length ≤ vs.length * typeSize e := Nat.le_mul_of_pos_right _ hz
    generalize vs.length * typeSize e = A at *
    generalize (vs.map (inLen e)).sum = B at *
    refine ⟨[.i32 (BitVec.ofNat 32 off), .i32 (BitVec.ofNat 32 A)], m', ?_, rfl, s1, o1, ?_⟩
    · simp only [] at w1
      simp only [passArg, w1, Option.bind_eq_bind, Option.bind_some]
    · intro m'' pre post hs ha hb
      have R := r1 m'' hs ha hb
      simp only [List.append_assoc, List.cons_append, List.nil_append]
      simp only [wasmToClarity]
      rw [getSlice_at (by omega) (by omega)]
      simp only [Option.bind_eq_bind, Option.bind_some, readFromWasm]
      have R' := readElems_mono R A hle
      simp only [readFromWasmIndirect] at R'
      rw [R']; rfl⟩
  | .opt t, hw, hp => goodA_opt (goodA t hw hp)
  | .resp o e, hw, hp => goodA_resp (goodA o hw.1 hp.1) (goodA e hw.2 hp.2)
  | .tuple fs, hw, hp => by
    obtain ⟨ts, hts, h⟩ := goodAF fs hw.2.2 hp
    refine ⟨ts, by simp [wasmTys, hts], fun v off im m hv hf => ?_⟩
    cases v <;> try (exfalso; simp only [HasType] at hv; done)
    rename_i kvs
    simp only [argOff, argIn] at hf ⊢
    refine pt_wrap [] [] (h [] kvs off im m hv (by simpa using hw.2.1) hf) (by simp) ?_ ?_
    · intro m vals x y m' h
      simpa [passArg] using h
    · intro m'' pre post vals h
      simp only [List.append_nil, List.nil_append] at h ⊢
      simp only [wasmToClarity, h]
      rfl
theorem goodAF : ∀ fs : Fields, fs.WF → ArgTyF fs → GoodAF fs
  | .nil, _, _ => ⟨[], rfl, fun pre kvs off im m hv _ _ => by
    cases kvs with
    | cons => exact absurd hv (by simp [HasFields])
    | nil =>
      simp only [passFields, argOffF, argInF]
      refine pt_pure (vals := []) ?_
      intro m'' pre post
      simp [wasmToFields]⟩
  | .cons k t fs, hw, hp => goodAF_cons (goodA t hw.1 hp.1) (goodAF fs hw.2 hp.2)
end

end Host
