import Verif.Gen.RepWrite
import Verif.Host.ArgsSize

/-!
What the host passes to a function represents the arguments, and what it makes of represented
results are the values.
-/

namespace Gen
open Wasm Spec Host

mutual
theorem wasmTys_wty : ∀ T : Ty, ArgTy T → wasmTys T = some (wty T)
  | .noType, _ | .int, _ | .uint, _ | .bool, _ | .principal, _ | .callable _, _ | .trait _, _
  | .buff _, _ | .ascii _, _ | .utf8 _, _ | .list _ _, _ => by simp [wasmTys, wty]
  | .traitRef _, h => h.elim
  | .opt t, h => by simp [wasmTys, wty, wasmTys_wty t h]
  | .resp o e, h => by simp [wasmTys, wty, wasmTys_wty o h.1, wasmTys_wty e h.2]
  | .tuple fs, h => by simp [wasmTys, wty, wasmTys_wtyF fs h]
theorem wasmTys_wtyF : ∀ fs : Fields, ArgTyF fs → wasmTysF fs = some (wtyF fs)
  | .nil, _ => by simp [wasmTysF, wtyF]
  | .cons _ t fs, h => by simp [wasmTysF, wtyF, wasmTys_wty t h.1, wasmTys_wtyF fs h.2]
end

theorem intVals_nat (n : Nat) : intVals n = encU n := by
  have h : ∀ k : Nat, BitVec.ofInt 64 (k : Int) = BitVec.ofNat 64 k := fun k => BitVec.ofInt_natCast 64 k
  simp only [intVals, encU, h]
  rw [show ((n : Int) / 2 ^ 64) = ((n / 2 ^ 64 : Nat) : Int) by norm_cast, h]

theorem zero_ty (ts : List VT) : (ts.map VT.zero).map Val.ty = ts := by
  rw [List.map_map]
  conv => rhs; rw [← List.map_id ts]
  apply List.map_congr_left
  intro t _
  cases t <;> rfl

/-- The two regions used by arguments. -/
def area (off ts im il : Nat) : Reg :=
  ⟨im + il, fun i => ¬ (off ≤ i ∧ i < off + ts) ∧ ¬ (im ≤ i ∧ i < im + il)⟩

theorem area_le {off ts im il off' ts' im' il' : Nat} (h1 : off' ≤ off) (h2 : off + ts ≤ off' + ts')
    (h3 : im' ≤ im) (h4 : im + il ≤ im' + il') : (area off ts im il).Le (area off' ts' im' il') :=
  ⟨h4, fun i _ ⟨ha, hb⟩ => ⟨fun hc => ha ⟨by omega, by omega⟩, fun hc => hb ⟨by omega, by omega⟩⟩⟩

/-- Passing with `p` succeeds, changes only the two regions, and `Q` holds of the passed values in any
memory with the same regions. -/
def PR (p : Mem → Option (List Val × Nat × Nat × Mem)) (Q : Mem → List Val → Prop)
    (off ts im il : Nat) (m : Mem) : Prop :=
  ∃ vals m', p m = some (vals, off + ts, im + il, m') ∧ m'.size = m.size ∧
    (∀ i, (i < off ∨ off + ts ≤ i) → (i < im ∨ im + il ≤ i) → m'.byte i = m.byte i) ∧
    ∀ m'', m''.size = m.size → Agree m' m'' off ts → Agree m' m'' im il → Q m'' vals

/-- The property of a type. -/
def GoodP (T : Ty) : Prop := ∀ v off im m, HasType T v → FitsA m off (argOff T v) im (argIn T v) →
  PR (fun m => passArg T v off im m) (fun m ws => Rep m (area off (argOff T v) im (argIn T v)) T v ws)
    off (argOff T v) im (argIn T v) m

/-- The same for fields. -/
def GoodPF (fs : Fields) : Prop := ∀ pre kvs off im m, HasFields fs kvs → (pre.map Prod.fst ++ fs.keys).Nodup →
  FitsA m off (argOffF fs kvs) im (argInF fs kvs) →
  PR (fun m => passFields fs (pre ++ kvs) off im m)
    (fun m ws => RepF m (area off (argOffF fs kvs) im (argInF fs kvs)) fs kvs ws)
    off (argOffF fs kvs) im (argInF fs kvs) m

theorem pr_pure {off im : Nat} {m : Mem} {vals : List Val} {Q : Mem → List Val → Prop} (h : ∀ m, Q m vals) :
    PR (fun m => some (vals, off, im, m)) Q off 0 im 0 m :=
  ⟨vals, m, rfl, rfl, fun _ _ _ => rfl, fun m'' _ _ _ => h m''⟩

theorem pr_bytes {off im : Nat} {m : Mem} {bs : List Byte} {Q : Mem → List Val → Prop}
    (hf : FitsA m off 0 im bs.length)
    (h : ∀ m ws, BytesIn m (area off 0 im bs.length) bs ws → Q m ws) :
    PR (fun m => passBytes bs off im m) Q off 0 im bs.length m := by
  obtain ⟨h1, h2, h3⟩ := hf
  refine ⟨[.i32 (BitVec.ofNat 32 im), .i32 (BitVec.ofNat 32 bs.length)], put m im bs, ?_, rfl, ?_, ?_⟩
  · simp only [passBytes]
    rw [memWrite_ok h2]; rfl
  · intro i _ hi
    exact put_out (by omega)
  · intro m'' hs _ ha
    refine h m'' _ ⟨_, _, rfl, toNat_ofNat32 (by omega), ?_, ?_⟩
    · rw [toNat_ofNat32 (by omega)]
      exact ⟨Nat.le_refl _, fun i h1 h2 h3 => h3.2 ⟨h1, h2⟩⟩
    · rw [toNat_ofNat32 (by omega), bytesAt_eq ha]
      exact bytesAt_put m im bs

theorem pr_wrap {p p' : Mem → Option (List Val × Nat × Nat × Mem)} {Q Q' : Mem → List Val → Prop}
    {off ts im il : Nat} {m : Mem} (a b : List Val) (h : PR p Q off ts im il m)
    (hp : ∀ m vals x y m', p m = some (vals, x, y, m') → p' m = some (a ++ vals ++ b, x, y, m'))
    (hq : ∀ m vals, Q m vals → Q' m (a ++ vals ++ b)) : PR p' Q' off ts im il m := by
  obtain ⟨vals, m', h1, h2, h3, h4⟩ := h
  exact ⟨a ++ vals ++ b, m', hp _ _ _ _ _ h1, h2, h3, fun m'' hs ha hb => hq _ _ (h4 m'' hs ha hb)⟩

theorem pr_seq {m : Mem} {off ts im il ts' il' : Nat}
    {p p' q : Mem → Option (List Val × Nat × Nat × Mem)} {Q Q' Q2 : Mem → List Val → Prop}
    (hf : FitsA m off (ts + ts') im (il + il'))
    (h : FitsA m off ts im il → PR p Q off ts im il m)
    (h' : ∀ m, FitsA m (off + ts) ts' (im + il) il' → PR p' Q' (off + ts) ts' (im + il) il' m)
    (hq : ∀ m vals m1 vals' r m2, p m = some (vals, off + ts, im + il, m1) →
      p' m1 = some (vals', r, m2) → q m = some (vals ++ vals', r, m2))
    (hb : ∀ m vals vals', Q m vals → Q' m vals' → Q2 m (vals ++ vals')) :
    PR q Q2 off (ts + ts') im (il + il') m := by
  obtain ⟨f1, f2, f3⟩ := hf
  obtain ⟨vals, m1, a1, a3, a4, a5⟩ := h ⟨by omega, by omega, by omega⟩
  obtain ⟨vals', m2, b1, b3, b4, b5⟩ := h' m1 ⟨by omega, by omega, by omega⟩
  refine ⟨vals ++ vals', m2, ?_, by omega, ?_, ?_⟩
  · have := hq m vals m1 vals' _ _ a1 b1
    rw [this]
    simp [Nat.add_assoc]
  · intro i hi hi'
    rw [b4 i (by omega) (by omega), a4 i (by omega) (by omega)]
  · intro m'' hs ha hb'
    refine hb _ _ _ ?_ ?_
    · exact a5 m'' (by omega)
        (fun i hi hi' => by rw [ha i hi (by omega), b4 i (by omega) (by omega)])
        (fun i hi hi' => by rw [hb' i hi (by omega), b4 i (by omega) (by omega)])
    · exact b5 m'' (by omega) (ha.mono (by omega) (by omega)) (hb'.mono (by omega) (by omega))

theorem goodP_bytes {T : Ty} (h : ∀ v, HasType T v → argOff T v = 0 ∧ argIn T v = (memBytes v).length ∧
      (∀ off im m, passArg T v off im m = passBytes (memBytes v) off im m) ∧
      ∀ m b ws, BytesIn m b (memBytes v) ws → Rep m b T v ws) : GoodP T := by
  intro v off im m hv hf
  obtain ⟨h1, h2, h3, h4⟩ := h v hv
  rw [h1, h2] at hf ⊢
  simp only [h3]
  exact pr_bytes hf fun m ws hb => h4 m _ ws hb

theorem goodP_opt {t : Ty} (ha : ArgTy t) (ht : GoodP t) : GoodP (.opt t) := by
  intro v off im m hv hf
  have hty : wasmTys (.opt t) = some (.i32 :: wty t) := by simp [wasmTys, wasmTys_wty t ha]
  cases v <;> try (exfalso; simp only [HasType] at hv; done)
  · simp only [argOff, argIn] at hf ⊢
    simp only [passArg, hty, Option.bind_eq_bind, Option.bind_some]
    refine pr_pure fun m => ?_
    simp only [Rep]
    exact Or.inl ⟨(wty t).map VT.zero, trivial, rfl, zero_ty _⟩
  · rename_i v
    simp only [argOff, argIn] at hf ⊢
    refine pr_wrap [.i32 1#32] [] (ht v off im m hv hf) ?_ ?_
    · intro m vals x y m' h
      simp [passArg, h]
    · intro m vals h
      simp only [Rep]
      exact Or.inr ⟨_, vals, rfl, by simp, h⟩

theorem goodP_resp {o e : Ty} (ha : ArgTy o) (hb : ArgTy e) (ho : GoodP o) (he : GoodP e) : GoodP (.resp o e) := by
  intro v off im m hv hf
  have hos := wasmTys_wty o ha
  have hes := wasmTys_wty e hb
  cases v <;> try (exfalso; simp only [HasType] at hv; done)
  · rename_i v
    simp only [argOff, argIn] at hf ⊢
    refine pr_wrap [.i32 1#32] ((wty e).map VT.zero) (ho v off im m hv hf) ?_ ?_
    · intro m vals x y m' h
      simp [passArg, h, hes]
    · intro m vals h
      simp only [Rep]
      exact Or.inl ⟨_, vals, _, rfl, by simp, h, zero_ty _⟩
  · rename_i v
    simp only [argOff, argIn] at hf ⊢
    refine pr_wrap (.i32 0#32 :: (wty o).map VT.zero) [] (he v off im m hv hf) ?_ ?_
    · intro m vals x y m' h
      simp [passArg, h, hos]
    · intro m vals h
      simp only [Rep]
      exact Or.inr ⟨_, vals, _, rfl, by simp, h, zero_ty _⟩

theorem goodPF_cons {k : Name} {t : Ty} {fs : Fields} (ht : GoodP t) (hfs : GoodPF fs) :
    GoodPF (.cons k t fs) := by
  intro pre kvs off im m hv hn hf
  match kvs with
  | [] => exact absurd hv (by simp [HasFields])
  | (k', v) :: kvs =>
    obtain ⟨rfl, hv, hvs⟩ := hv
    simp only [argOffF, argInF] at hf ⊢
    simp only [Fields.keys] at hn
    have hk : k' ∉ pre.map Prod.fst := by
      intro hmem
      have := (List.nodup_append.1 hn).2.2 _ hmem _ (List.mem_cons_self ..)
      exact this rfl
    have hfit := hf
    obtain ⟨f1, f2, f3⟩ := hfit
    refine pr_seq hf (fun hf => ht v off im m hv hf)
      (fun m hf => hfs (pre ++ [(k', v)]) kvs _ _ m hvs (by simpa using hn) hf) ?_ ?_
    · intro m vals m1 vals' r m2 h1 h2
      simp only [passFields]
      rw [lookup_split hk]
      simp only [Option.bind_eq_bind, Option.bind_some, h1]
      rw [show pre ++ (k', v) :: kvs = pre ++ [(k', v)] ++ kvs by simp, h2]
      rfl
    · intro m vals vals' h1 h2
      simp only [RepF]
      exact ⟨v, kvs, vals, vals', rfl, rfl, h1.mono (fun _ _ _ => rfl) (area_le (by omega) (by omega) (by omega) (by omega)),
        h2.mono (fun _ _ _ => rfl) (area_le (by omega) (by omega) (by omega) (by omega))⟩

mutual
theorem goodP : ∀ T : Ty, T.WF → ArgTy T → GoodP T
  | .noType, _, _ => fun v _ _ _ hv _ => by cases v <;> (simp only [HasType] at hv)
  | .int, _, _ => fun v off im m hv hf => by
    cases v <;> try (exfalso; simp only [HasType] at hv; done)
    rename_i z
    simp only [argOff, argIn, passArg]
    exact pr_pure fun m => by simp only [Rep]; exact ⟨z, rfl, hv, rfl⟩
  | .uint, _, _ => fun v off im m hv hf => by
    cases v <;> try (exfalso; simp only [HasType] at hv; done)
    rename_i z
    simp only [argOff, argIn, passArg]
    exact pr_pure fun m => by simp only [Rep]; exact ⟨z, rfl, hv, intVals_nat z⟩
  | .bool, _, _ => fun v off im m hv hf => by
    cases v <;> try (exfalso; simp only [HasType] at hv; done)
    rename_i b
    simp only [argOff, argIn, passArg]
    exact pr_pure fun m => by simp only [Rep]; exact ⟨b, rfl, by cases b <;> rfl⟩
  | .principal, _, _ => goodP_bytes fun v hv => by
    have hv' := hv
    cases v <;> try (exfalso; simp only [HasType] at hv; done)
    exact ⟨by simp [argOff], by simp [argIn, memBytes], fun _ _ _ => by simp [passArg, memBytes], fun m b ws h => by simp only [Rep]; exact ⟨hv', h⟩⟩
  | .callable c, _, _ => goodP_bytes fun v hv => by
    have hv' := hv
    cases v <;> try (exfalso; simp only [HasType] at hv; done)
    exact ⟨by simp [argOff], by simp [argIn, memBytes], fun _ _ _ => by simp [passArg, memBytes], fun m b ws h => by simp only [Rep]; exact ⟨hv', h⟩⟩
  | .trait t, _, _ => goodP_bytes fun v hv => by
    have hv' := hv
    cases v <;> try (exfalso; simp only [HasType] at hv; done)
    exact ⟨by simp [argOff], by simp [argIn, memBytes], fun _ _ _ => by simp [passArg, memBytes], fun m b ws h => by simp only [Rep]; exact ⟨hv', h⟩⟩
  | .traitRef _, _, h => h.elim
  | .buff n, _, _ => goodP_bytes fun v hv => by
    have hv' := hv
    cases v <;> try (exfalso; simp only [HasType] at hv; done)
    exact ⟨by simp [argOff], by simp [argIn, memBytes], fun _ _ _ => by simp [passArg, memBytes], fun m b ws h => by simp only [Rep]; exact ⟨hv', h⟩⟩
  | .ascii n, _, _ => goodP_bytes fun v hv => by
    have hv' := hv
    cases v <;> try (exfalso; simp only [HasType] at hv; done)
    exact ⟨by simp [argOff], by simp [argIn, memBytes], fun _ _ _ => by simp [passArg, memBytes], fun m b ws h => by simp only [Rep]; exact ⟨hv', h⟩⟩
  | .utf8 n, _, _ => goodP_bytes fun v hv => by
    have hv' := hv
    cases v <;> try (exfalso; simp only [HasType] at hv; done)
    exact ⟨by simp [argOff], by simp only [argIn, memBytes, length_flatMap_be], fun _ _ _ => by simp [passArg, memBytes], fun m b ws h => by simp only [Rep]; exact ⟨hv', h⟩⟩
  | .list n e, hw, hp => fun v off im m hv hf => by
    cases v <;> try (exfalso; simp only [HasType] at hv; done)
    rename_i vs
    obtain ⟨hl, hv⟩ := hv
    simp only [argOff, argIn] at hf ⊢
    obtain ⟨f1, f2, f3⟩ := hf
    obtain ⟨m', w1, s1, o1, r1⟩ := wr_elems (goodR e hw hp) vs off im m hv ⟨by omega, by omega, by omega, by omega⟩
    generalize hA : vs.length * typeSize e = A at *
    generalize (vs.map (inLen e)).sum = B at *
    refine ⟨[.i32 (BitVec.ofNat 32 off), .i32 (BitVec.ofNat 32 A)], m', ?_, s1, o1, ?_⟩
    · simp only [] at w1
      simp only [passArg, w1, Option.bind_eq_bind, Option.bind_some]
    · intro m'' hs ha hb
      have R := chk_iff.1 (r1 m'' hs ha hb)
      simp only [Rep]
      refine ⟨vs, _, _, rfl, hl, rfl, ?_, ?_, fun i x hi => ?_⟩
      · rw [toNat_ofNat32 (by omega), hA]
      · rw [toNat_ofNat32 (by omega), toNat_ofNat32 (by omega)]
        exact ⟨by show off + A ≤ im + B; omega, fun i h1 h2 h3 => h3.1 ⟨h1, h2⟩⟩
      · rw [toNat_ofNat32 (by omega)]
        have hle : (seg im (im + B)).Le (area off A im B) := ⟨Nat.le_refl _, fun i (hi : i < im + B) h3 => by
          show i < im
          have := h3.2
          omega⟩
        exact (R i x hi).mono (fun _ _ _ => rfl) hle
  | .opt t, hw, hp => goodP_opt hp (goodP t hw hp)
  | .resp o e, hw, hp => goodP_resp hp.1 hp.2 (goodP o hw.1 hp.1) (goodP e hw.2 hp.2)
  | .tuple fs, hw, hp => fun v off im m hv hf => by
    cases v <;> try (exfalso; simp only [HasType] at hv; done)
    rename_i kvs
    simp only [argOff, argIn] at hf ⊢
    refine pr_wrap [] [] (goodPF fs hw.2.2 hp [] kvs off im m hv (by simpa using hw.2.1) hf) ?_ ?_
    · intro m vals x y m' h
      simpa [passArg] using h
    · intro m vals h
      simp only [Rep]
      exact ⟨kvs, rfl, by simpa using h⟩
theorem goodPF : ∀ fs : Fields, fs.WF → ArgTyF fs → GoodPF fs
  | .nil, _, _ => fun pre kvs off im m hv _ _ => by
    cases kvs with
    | cons => exact absurd hv (by simp [HasFields])
    | nil =>
      simp only [passFields, argOffF, argInF]
      exact pr_pure fun m => by simp [RepF]
  | .cons k t fs, hw, hp => goodPF_cons (goodP t hw.1 hp.1) (goodPF fs hw.2 hp.2)
end

/-- Passing all the arguments. -/
theorem pass_all : ∀ (args : List (Ty × Value)), (∀ a ∈ args, a.1.WF ∧ ArgTy a.1 ∧ HasType a.1 a.2) → ∀ off im m,
    FitsA m off (args.map fun a => argOff a.1 a.2).sum im (args.map fun a => argIn a.1 a.2).sum →
    PR (fun m => passArgsFrom args off im m)
      (fun m ws => RepAll m (area off (args.map fun a => argOff a.1 a.2).sum im (args.map fun a => argIn a.1 a.2).sum)
        (args.map (·.1)) (args.map (·.2)) ws)
      off (args.map fun a => argOff a.1 a.2).sum im (args.map fun a => argIn a.1 a.2).sum m
  | [], _ => fun off im m _ => by
    simp only [passArgsFrom, List.map_nil, List.sum_nil]
    exact pr_pure fun m => by simp [RepAll]
  | (t, v) :: args, h => fun off im m hf => by
    obtain ⟨hw, hp, hv⟩ := h (t, v) (List.mem_cons_self ..)
    simp only [List.map_cons, List.sum_cons] at hf ⊢
    have hfit := hf
    obtain ⟨f1, f2, f3⟩ := hfit
    refine pr_seq hf (fun hf => goodP t hw hp v off im m hv hf)
      (fun m hf => pass_all args (fun a ha => h a (List.mem_cons_of_mem _ ha)) _ _ m hf) ?_ ?_
    · intro m vals m1 vals' r m2 h1 h2
      simp only [passArgsFrom, h1, Option.bind_eq_bind, Option.bind_some, h2]
    · intro m vals vals' h1 h2
      simp only [RepAll]
      exact ⟨v, _, vals, vals', rfl, rfl, h1.mono (fun _ _ _ => rfl) (area_le (by omega) (by omega) (by omega) (by omega)),
        h2.mono (fun _ _ _ => rfl) (area_le (by omega) (by omega) (by omega) (by omega))⟩

/-! ### Results -/

theorem getI32_app {pre post ws : List Val} {v : BitVec 32} : getI32 (pre ++ (.i32 v :: ws) ++ post) pre.length = some v := by
  simp [getI32]

theorem getSlice_app {pre post : List Val} {o l : BitVec 32} (ho : o.toNat < 2 ^ 31) (hl : l.toNat < 2 ^ 31) :
    getSlice (pre ++ [.i32 o, .i32 l] ++ post) pre.length = some (o.toNat, l.toNat) := by
  have := getSlice_at (pre := pre) (post := post) ho hl
  rw [BitVec.ofNat_toNat, BitVec.ofNat_toNat, BitVec.setWidth_eq, BitVec.setWidth_eq] at this
  simpa using this

theorem asUsize_lt {v : BitVec 32} (h : v.toNat < 2 ^ 31) : asUsize v = v.toNat := by
  unfold asUsize; rw [if_pos h]

mutual
theorem Rep.back {m : Mem} {b : Reg} (hb : b.hi ≤ m.size) (hm : m.size < 2 ^ 31) : ∀ {T : Ty} {v : Value}
    {ws pre post : List Val}, T.WF → ArgTy T → Rep m b T v ws →
    wasmToClarity T pre.length (pre ++ ws ++ post) m = some (some v, ws.length)
  | .noType, _, _, _, _, _, _, h => by simp [Rep] at h
  | .int, v, ws, pre, post, _, _, h => by
    simp only [Rep] at h
    obtain ⟨z, rfl, hz, rfl⟩ := h
    simp only [wasmToClarity, encI, List.append_assoc, List.cons_append, getI64_at, getI64_at1,
      Option.bind_eq_bind, Option.bind_some]
    rw [int_back hz]; rfl
  | .uint, v, ws, pre, post, _, _, h => by
    simp only [Rep] at h
    obtain ⟨n, rfl, hn, rfl⟩ := h
    simp only [wasmToClarity, encU, List.append_assoc, List.cons_append, getI64_at, getI64_at1,
      Option.bind_eq_bind, Option.bind_some]
    have h := uint_back hn
    have hi := intVals_nat n
    simp only [intVals, encU, List.cons.injEq, Val.i64.injEq, and_true] at hi
    rw [hi.1, hi.2] at h
    rw [h]; rfl
  | .bool, v, ws, pre, post, _, _, h => by
    simp only [Rep] at h
    obtain ⟨x, rfl, rfl⟩ := h
    simp only [wasmToClarity, encB, List.append_assoc, List.cons_append, getI32_at,
      Option.bind_eq_bind, Option.bind_some]
    cases x <;> rfl
  | .principal, v, ws, pre, post, _, _, h => by
    simp only [Rep] at h
    obtain ⟨hv, o, l, rfl, hl, hlt, hby⟩ := h
    replace hlt := hlt.1
    cases v <;> try (exfalso; simp only [HasType] at hv; done)
    simp only [memBytes] at hl hlt hby
    simp only [wasmToClarity, getI32_app, Option.bind_eq_bind, Option.bind_some]
    rw [asUsize_lt (by omega), readPrincipal_ok (by simp) hv (by omega) hby]
    rfl
  | .callable c, v, ws, pre, post, _, _, h => by
    simp only [Rep] at h
    obtain ⟨hv, o, l, rfl, hl, hlt, hby⟩ := h
    replace hlt := hlt.1
    cases v <;> try (exfalso; simp only [HasType] at hv; done)
    rename_i p
    cases p <;> simp only [HasType] at hv
    simp only [memBytes] at hl hlt hby
    simp only [wasmToClarity, getI32_app, Option.bind_eq_bind, Option.bind_some]
    rw [asUsize_lt (by omega), readPrincipal_ok (by simp) (p := .contract _) (hv.1 ▸ hv.2) (by omega) hby]
    rfl
  | .trait t, v, ws, pre, post, _, _, h => by
    simp only [Rep] at h
    obtain ⟨hv, o, l, rfl, hl, hlt, hby⟩ := h
    replace hlt := hlt.1
    cases v <;> try (exfalso; simp only [HasType] at hv; done)
    rename_i c t'
    cases t' <;> simp only [HasType] at hv
    simp only [memBytes] at hl hlt hby
    simp only [wasmToClarity, getI32_app, Option.bind_eq_bind, Option.bind_some]
    rw [asUsize_lt (by omega), readPrincipal_trait hv.1 (by omega) hby, hv.2]
    rfl
  | .traitRef _, _, _, _, _, _, h, _ => h.elim
  | .buff n, v, ws, pre, post, _, _, h => by
    simp only [Rep] at h
    obtain ⟨hv, o, l, rfl, hl, hlt, hby⟩ := h
    replace hlt := hlt.1
    cases v <;> try (exfalso; simp only [HasType] at hv; done)
    simp only [memBytes] at hl hlt hby
    simp only [wasmToClarity, getSlice_app (show o.toNat < 2 ^ 31 by omega) (show l.toNat < 2 ^ 31 by omega), Option.bind_eq_bind, Option.bind_some]
    rw [hl, memRead_ok (by omega), hby]
    rfl
  | .ascii n, v, ws, pre, post, _, _, h => by
    simp only [Rep] at h
    obtain ⟨hv, o, l, rfl, hl, hlt, hby⟩ := h
    replace hlt := hlt.1
    cases v <;> try (exfalso; simp only [HasType] at hv; done)
    simp only [memBytes] at hl hlt hby
    simp only [wasmToClarity, getSlice_app (show o.toNat < 2 ^ 31 by omega) (show l.toNat < 2 ^ 31 by omega), Option.bind_eq_bind, Option.bind_some]
    rw [hl, memRead_ok (by omega), hby]
    simp only [Option.bind_some]
    rw [asciiFromBytes_ok hv.2]
    rfl
  | .utf8 n, v, ws, pre, post, _, _, h => by
    simp only [Rep] at h
    obtain ⟨hv, o, l, rfl, hl, hlt, hby⟩ := h
    replace hlt := hlt.1
    cases v <;> try (exfalso; simp only [HasType] at hv; done)
    simp only [memBytes] at hl hlt hby
    simp only [wasmToClarity, getSlice_app (show o.toNat < 2 ^ 31 by omega) (show l.toNat < 2 ^ 31 by omega), Option.bind_eq_bind, Option.bind_some]
    rw [hl, memRead_ok (by omega), hby]
    simp only [Option.bind_some]
    rw [utf8FromScalars_ok _ hv.2]
    rfl
  | .list n e, v, ws, pre, post, hwf, hp, h => by
    simp only [Rep] at h
    obtain ⟨vs, o, l, rfl, hn, rfl, hl, ⟨hlt, _⟩, he⟩ := h
    simp only [wasmToClarity, getSlice_app (show o.toNat < 2 ^ 31 by omega) (show l.toNat < 2 ^ 31 by omega), Option.bind_eq_bind, Option.bind_some,
      readFromWasm]
    have hz := typeSize_pos e hwf
    rw [hl]
    have hle : vs.length ≤ vs.length * typeSize e := Nat.le_mul_of_pos_right _ hz
    rw [readElems_all hz (fun i x hi => ?_) hle]
    · rfl
    · have hi' := (List.getElem?_eq_some_iff.1 hi).1
      have hmul : (i + 1) * typeSize e ≤ vs.length * typeSize e := Nat.mul_le_mul_right _ hi'
      rw [Nat.succ_mul] at hmul
      exact (he i x hi).read hb hwf hp (by omega)
  | .opt t, v, ws, pre, post, hwf, hp, h => by
    have hts := wasmTys_wty t hp
    simp only [Rep] at h
    rcases h with ⟨us, rfl, rfl, hu⟩ | ⟨x, us, rfl, rfl, h⟩
    · simp only [wasmToClarity, hts, getI32_app, Option.bind_eq_bind, Option.bind_some]
      rw [if_neg (by decide), ← hu]
      simp [Nat.add_comm]
    · have ih := Rep.back hb hm (T := t) (pre := pre ++ [.i32 1#32]) (post := post) hwf hp h
      simp only [List.length_append, List.length_cons, List.length_nil, Nat.zero_add, List.append_assoc, List.cons_append, List.nil_append] at ih
      simp only [wasmToClarity, hts, getI32_app, Option.bind_eq_bind, Option.bind_some, if_true]
      simp only [List.append_assoc, List.cons_append, ih, Option.bind_some]
      rw [← h.len]
      simp [Nat.add_comm]
  | .resp o e, v, ws, pre, post, hwf, hp, h => by
    have hos := wasmTys_wty o hp.1
    have hes := wasmTys_wty e hp.2
    simp only [Rep] at h
    rcases h with ⟨x, us, js, rfl, rfl, h, hj⟩ | ⟨x, us, js, rfl, rfl, h, hj⟩
    · have ih := Rep.back hb hm (pre := pre ++ [.i32 1#32]) (post := js ++ post) hwf.1 hp.1 h
      simp only [List.length_append, List.length_cons, List.length_nil, Nat.zero_add, List.append_assoc, List.cons_append, List.nil_append] at ih
      simp only [wasmToClarity, hos, hes, getI32_app, Option.bind_eq_bind, Option.bind_some, if_true]
      simp only [List.append_assoc, List.cons_append, ih, Option.bind_some]
      rw [← h.len, ← hj]
      simp; omega
    · have ih := Rep.back hb hm (pre := pre ++ (.i32 0#32 :: js)) (post := post) hwf.2 hp.2 h
      simp only [List.length_append, List.length_cons, List.length_nil, Nat.zero_add, List.append_assoc, List.cons_append, List.nil_append] at ih
      simp only [wasmToClarity, hos, hes, getI32_app, Option.bind_eq_bind, Option.bind_some]
      rw [if_neg (by decide), ← hj, ← h.len, List.length_map, show pre.length + 1 + js.length = pre.length + (js.length + 1) by omega]
      simp only [List.append_assoc, List.cons_append, ih, Option.bind_some]
      simp; omega
  | .tuple fs, v, ws, pre, post, hwf, hp, h => by
    simp only [Rep] at h
    obtain ⟨kvs, rfl, h⟩ := h
    simp only [wasmToClarity, RepF.back hb hm hwf.2.2 hp h, Option.bind_eq_bind, Option.bind_some]
theorem RepF.back {m : Mem} {b : Reg} (hb : b.hi ≤ m.size) (hm : m.size < 2 ^ 31) : ∀ {fs : Fields}
    {kvs : List (Name × Value)} {ws pre post : List Val}, fs.WF → ArgTyF fs → RepF m b fs kvs ws →
    wasmToFields fs pre.length (pre ++ ws ++ post) m = some (kvs, ws.length)
  | .nil, _, _, _, _, _, _, h => by
    simp only [RepF] at h
    obtain ⟨rfl, rfl⟩ := h
    simp [wasmToFields]
  | .cons k t fs, kvs, ws, pre, post, hwf, hp, h => by
    simp only [RepF] at h
    obtain ⟨x, r, us, vs, rfl, rfl, h1, h2⟩ := h
    have i1 := Rep.back hb hm (pre := pre) (post := vs ++ post) hwf.1 hp.1 h1
    have i2 := RepF.back hb hm (pre := pre ++ us) (post := post) hwf.2 hp.2 h2
    simp only [List.length_append, List.append_assoc] at i1 i2 ⊢
    simp only [wasmToFields, i1, Option.bind_eq_bind, Option.bind_some, i2]
end

end Gen
