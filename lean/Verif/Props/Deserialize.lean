import Verif.Props.Consensus

/-!
C30: reading consensus serializations back. The specification is `consensus` (`Spec/Consensus.lean`, SIP-005): the
theorems say on which bytes the emitted code succeeds and with which value, in terms of `consensus` only. The
code is the one that `deserialize_from_memory` emits (`Gen/Deserialize.lean`) and, as part of a contract, the
code of `(from-consensus-buff? T e)`.
-/

namespace Props
open Wasm Spec Host Core Gen

/-- The code that deserializes a value of type `T` can be started: `o` is the address of the next byte, `e` the end
of the input, `r` the address from which on there is room for a value of type `T`; the locals `ol`, `el`, `rl`
hold them, and those from `n` on are those that the generator reserved for this code. -/
structure Reads (T : Ty) (ol el rl n : Nat) (o e r : BitVec 32) (loc : List Val) (m : Mem) : Prop where
  offset : loc[ol]? = some (.i32 o)
  stop : loc[el]? = some (.i32 e)
  result : loc[rl]? = some (.i32 r)
  distinct : ol ≠ el ∧ ol ≠ rl ∧ el ≠ rl ∧ ol < n ∧ el < n ∧ rl < n
  locals : n + (des T ol el rl n).ls.length ≤ loc.length
  order : o.toNat ≤ e.toNat ∧ e.toNat ≤ r.toNat
  room : r.toNat + typeInMemorySize true T ≤ m.size
  small : m.size + 65536 ≤ 2 ^ 32

/-- The state after the code: memory differs only where there was room for the value, locals below `n` other than
the offset and the result address are unchanged. -/
structure Kept (T : Ty) (ol rl n : Nat) (r : BitVec 32) (loc loc' : List Val) (m m' : Mem) : Prop where
  size : m'.size = m.size
  memory : ∀ i, i < r.toNat ∨ r.toNat + typeInMemorySize true T ≤ i → m'.byte i = m.byte i
  locals : ∀ i, i < n → i ≠ ol → i ≠ rl → loc'[i]? = loc[i]?

theorem reads_run {σ : Type} (M : Wasm.Mod σ) {T : Ty} (hT : T.WF) {ol el rl n : Nat} {o e r : BitVec 32} {stk loc : List Val}
    {g : Store σ} (h : Reads T ol el rl n o e r loc g.mem) (hd : decode T (input g.mem o e) ≠ .deviates) :
    ∃ ok ws loc' m' o' r', (∃ N, exec M N (des T ol el rl n).is stk loc g = .norm (ws.reverse ++ .i32 ok :: stk) loc' (g.setMem m')) ∧
      Kept T ol rl n r loc loc' g.mem m' ∧
      Dfin T (decode T (input g.mem o e)) ol rl n o.toNat e r (space T) loc g ok ws loc' m' o' r' := by
  obtain ⟨v1, v2, v3, ⟨d1, d2, d3, d4, d5, d6⟩, hl, ⟨o1, o2⟩, hroom, hs⟩ := h
  have hsp := space_le T
  have hpos := typeSize_pos T hT
  have H : Din ol el rl n o.toNat o e r (space T) loc g :=
    ⟨(nth_some v1).2, (nth_some v2).2, (nth_some v3).2, d4, d5, d6, d1, d2, d3, by omega, Nat.le_refl _, o1, o2, by omega, by omega⟩
  obtain ⟨ok, ws, loc', m', o', r', st, f⟩ := des_good (M := M) ol el rl T n hT _ _ _ _ stk _ _ H hl hd
  obtain ⟨N, res, e1, _, e2⟩ := (st.wp (Q := fun r => r = _)).2 rfl
  refine ⟨ok, ws, loc', m', o', r', ⟨N, by rw [e1, e2]⟩, ⟨f.size, fun i hi => f.mem i (by omega), fun i h1 h2 h3 => ?_⟩, f⟩
  exact f.keep.2 i h1 (by simp [h2, h3])

/-- **C30**, success: if the unread input starts with the encoding of a value `v` of type `T`, the code ends normally
with the flag 1 and the value `v`, whose parts in memory are in the encoding itself or in the room; the
offset is then the end of the encoding. It does not depend on any other byte of the memory. -/
theorem C30_reads_back {σ : Type} (M : Wasm.Mod σ) (T : Ty) (hT : T.WF) (hD : Decodable T) (ol el rl n : Nat) (o e r : BitVec 32)
    (stk loc : List Val) (g : Store σ) (h : Reads T ol el rl n o e r loc g.mem) (v : Value) (hv : HasType T v) (rest : List Byte)
    (hin : bytesAt g.mem o.toNat (e.toNat - o.toNat) = consensus v ++ rest) :
    ∃ N ws loc' m', exec M N (des T ol el rl n).is stk loc g = .norm (ws.reverse ++ .i32 1#32 :: stk) loc' (g.setMem m') ∧
      Kept T ol rl n r loc loc' g.mem m' ∧
      loc'[ol]? = some (.i32 (o + BitVec.ofNat 32 (consensus v).length)) ∧
      Rep m' ⟨r.toNat + typeInMemorySize true T, fun i => ¬ (o.toNat ≤ i ∧ i < e.toNat) ∧ i < r.toNat⟩ T v ws := by
  have hsp := space_le T
  have hlen : (consensus v ++ rest).length = e.toNat - o.toNat := by rw [← hin, Wasm.length_bytesAt]
  rw [List.length_append] at hlen
  have hlt := e.isLt
  have hoe := h.order.1
  have hdec : decode T (input g.mem o e) = .val v rest := by
    rw [input, hin]
    exact decode_complete hD hv (by omega)
  obtain ⟨ok, ws, loc', m', o', r', ⟨N, hN⟩, hk, f⟩ := reads_run M hT h (stk := stk) (by rw [hdec]; simp)
  have hout := f.out
  rw [hdec] at hout
  obtain ⟨rfl, ho', hr⟩ := hout
  refine ⟨N, ws, loc', m', hN, hk, ?_, ?_⟩
  · have hl : ol < loc'.length := by
      have := h.locals
      have := h.distinct
      have := f.keep.1
      omega
    have : o' = o + BitVec.ofNat 32 (consensus v).length := by
      apply BitVec.eq_of_toNat_eq
      rw [BitVec.toNat_add, BitVec.toNat_ofNat]
      omega
    rw [← this, ← f.vo]
    exact nth_of_lt hl
  · have hle : (dreg o.toNat e.toNat r.toNat r'.toNat).Le
        ⟨r.toNat + typeInMemorySize true T, fun i => ¬ (o.toNat ≤ i ∧ i < e.toNat) ∧ i < r.toNat⟩ := by
      refine ⟨?_, fun _ _ h => h⟩
      have := f.rhi
      show r'.toNat ≤ r.toNat + typeInMemorySize true T
      omega
    exact hr.mono (fun _ _ _ => rfl) hle

/-- **C30**, failure: if the unread input does not start with the encoding of any value of type `T`, the code ends
normally with the flag 0 and some stack values of type `T`, whatever the bytes are. -/
theorem C30_rejects_partial {σ : Type} (M : Wasm.Mod σ) (T : Ty) (hT : T.WF) (hD : Decodable T) (hP : NoPrincipal T) (ol el rl n : Nat)
    (o e r : BitVec 32) (stk loc : List Val) (g : Store σ) (h : Reads T ol el rl n o e r loc g.mem)
    (hno : ∀ v rest, HasType T v → bytesAt g.mem o.toNat (e.toNat - o.toNat) ≠ consensus v ++ rest) :
    ∃ (N : Nat) (ws loc' : List Val) (m' : Mem), exec M N (des T ol el rl n).is stk loc g = .norm (ws.reverse ++ .i32 0#32 :: stk) loc' (g.setMem m') ∧
      Kept T ol rl n r loc loc' g.mem m' ∧ ws.map Val.ty = wty T := by
  have hnd := decode_ne (bs := input g.mem o e) hD hP
  obtain ⟨ok, ws, loc', m', o', r', ⟨N, hN⟩, hk, f⟩ := reads_run M hT h (stk := stk) hnd
  have hout := f.out
  cases hdec : decode T (input g.mem o e) with
  | deviates => exact absurd hdec hnd
  | val v rest =>
    obtain ⟨h1, h2⟩ := decode_sound hdec
    exact absurd h2 (hno v rest h1)
  | bad =>
    rw [hdec] at hout
    obtain ⟨rfl, hw⟩ := hout
    exact ⟨N, ws, loc', m', hN, hk, hw⟩

/-- **C30**, in any contract: `(from-consensus-buff? T e)` is `(some v)` if the value of `e` is the encoding of a value
`v` of type `T`. -/
theorem C30_from_consensus_buff (K : Ctx) (M : Wasm.Mod World) (hC : ContractOk K) (hL : Linked K M) (k : Nat) (R : Ty) (wr er : Bool)
    (Δ : TEnv) (ρ : Env) (c : Cx) (s s1 : St) (T : Ty) (hT : T.WF) (hD : Decodable T) (mx : Nat) (e : Expr)
    (hte : wt K k wr R e er Δ (.buff mx)) (v : Value) (hv : HasType T v) (hl : (consensus v).length < 2 ^ 32)
    (he : eval (sem K.fns k) e ρ c s = .val (.buff (consensus v)) s1) :
    Leaves K M k R wr Δ (.fromBuff T mx e) (.opt T) ρ c s (.some v) s1 := by
  refine leaves hC hL (er := er) ?_ ?_
  · simp only [wt]; exact ⟨hT, trivial, hte⟩
  · have := decode_complete (r := []) hD hv hl
    rw [List.append_nil] at this
    simp only [eval, he, Out.bind, this]

/-- **C30**, in any contract: `(from-consensus-buff? T e)` is `none` if the value of `e` is not the encoding of a value
of type `T`. -/
theorem C30_from_consensus_buff_none_partial (K : Ctx) (M : Wasm.Mod World) (hC : ContractOk K) (hL : Linked K M) (k : Nat) (R : Ty)
    (wr er : Bool) (Δ : TEnv) (ρ : Env) (c : Cx) (s s1 : St) (T : Ty) (hT : T.WF) (hD : Decodable T) (hP : NoPrincipal T) (mx : Nat)
    (e : Expr) (hte : wt K k wr R e er Δ (.buff mx)) (bs : List Byte) (hno : ∀ v, HasType T v → bs ≠ consensus v)
    (he : eval (sem K.fns k) e ρ c s = .val (.buff bs) s1) :
    Leaves K M k R wr Δ (.fromBuff T mx e) (.opt T) ρ c s .none s1 := by
  refine leaves hC hL (er := er) ?_ ?_
  · simp only [wt]; exact ⟨hT, trivial, hte⟩
  · simp only [eval, he, Out.bind]
    cases hdec : decode T bs with
    | deviates => exact absurd hdec (decode_ne hD hP)
    | bad => rfl
    | val v rest =>
      cases rest with
      | cons _ _ => rfl
      | nil =>
        obtain ⟨h1, h2⟩ := decode_sound hdec
        rw [List.append_nil] at h2
        exact absurd h2 (hno v h1)

/-- **C30**, serialization and deserialization together: `(from-consensus-buff? T (unwrap-panic (to-consensus-buff? e)))`
is `(some v)` if the value of `e` is `v`. -/
theorem C30_round_trip (K : Ctx) (M : Wasm.Mod World) (hC : ContractOk K) (hL : Linked K M) (k : Nat) (R : Ty) (wr er : Bool)
    (Δ : TEnv) (ρ : Env) (c : Cx) (s s1 : St) (T : Ty) (hT : T.WF) (hD : Decodable T) (hmax : maxEncoding T ≤ 2 ^ 20)
    (hk : ∀ x ∈ keysOf T, x ∈ K.lits) (e : Expr) (hte : wt K k wr R e er Δ T) (v : Value)
    (he : eval (sem K.fns k) e ρ c s = .val v s1) (hv : HasType T v) :
    Leaves K M k R wr Δ (.fromBuff T (maxEncoding T)
      (.prim .unwrapPanic (.cons (.opt (.buff (maxEncoding T))) (.toBuff T e) .nil))) (.opt T) ρ c s (.some v) s1 := by
  have hle := consensus_le hv
  refine C30_from_consensus_buff K M hC hL k R wr er Δ ρ c s s1 T hT hD _ _ ?_ v hv (by omega) ?_
  · simp only [wt, wts, primTy, Gen.tys]
    exact ⟨⟨⟨hT, hmax, hk, trivial, hte⟩, trivial⟩, .inl trivial⟩
  · simp only [eval, evals, he, Out.bind]
    rw [if_pos (by omega)]
    rfl

/-! ### Examples -/

/-- Memory with the encoding of `(list (some u7) none)` at address 100, followed by the byte 0x2a. -/
def desMem : Mem := ⟨65536, fun i =>
  ([0x0b, 0, 0, 0, 2, 0x0a, 1, 0, 0, 0, 0, 0, 0, 0, 0, 0, 0, 0, 0, 0, 0, 0, 7, 0x09, 0x2a] : List Byte).getD (i - 100) 0, by decide⟩

/-- `(list 3 (optional uint))`. -/
def desTy : Ty := .list 3 (.opt .uint)

/-- `(list (some u7) none)`. -/
def desVal : Value := .list [.some (.uint 7), .none]

/-- The locals of the code. -/
def desLocs : List Val := [.i32 100#32, .i32 125#32, .i32 1000#32] ++ List.replicate 20 (.i32 0#32)

theorem des_reads : Reads desTy 0 1 2 3 100#32 125#32 1000#32 desLocs desMem :=
  ⟨rfl, rfl, rfl, by decide, by decide, by decide, by decide, by decide⟩

/-- Success: the value is read, and the offset is before the last byte. -/
example {σ : Type} (M : Wasm.Mod σ) (g : Store σ) (hg : g.mem = desMem) :
    ∃ N ws loc' m', exec M N (des desTy 0 1 2 3).is [] desLocs g = .norm (ws.reverse ++ [.i32 1#32]) loc' (g.setMem m') ∧
      loc'[0]? = some (.i32 124#32) ∧
      Rep m' ⟨1000 + typeInMemorySize true desTy, fun i => ¬ (100 ≤ i ∧ i < 125) ∧ i < 1000⟩ desTy desVal ws := by
  obtain ⟨N, ws, loc', m', h1, _, h2, h3⟩ := C30_reads_back M desTy (by simp [desTy, Ty.WF]) (by simp [desTy, Decodable]) 0 1 2 3
    100#32 125#32 1000#32 [] desLocs g (by rw [hg]; exact des_reads) desVal
    (by simp [desTy, desVal, HasType, IsUInt]) [0x2a#8] (by rw [hg]; decide)
  exact ⟨N, ws, loc', m', h1, h2, h3⟩

/-- Failure: the same bytes are not a `(list 1 (optional uint))`. -/
example {σ : Type} (M : Wasm.Mod σ) (g : Store σ) (hg : g.mem = desMem) :
    ∃ (N : Nat) (ws loc' : List Val) (m' : Mem), exec M N (des (.list 1 (.opt .uint)) 0 1 2 3).is [] desLocs g =
      .norm (ws.reverse ++ [.i32 0#32]) loc' (g.setMem m') := by
  obtain ⟨N, ws, loc', m', h1, _⟩ := C30_rejects_partial M (.list 1 (.opt .uint)) (by simp [Ty.WF]) (by simp [Decodable]) (by simp [NoPrincipal])
    0 1 2 3 100#32 125#32 1000#32 [] desLocs g
    (by rw [hg]; exact ⟨rfl, rfl, rfl, by decide, by decide, by decide, by decide, by decide⟩) (by
      intro v rest hv he
      rw [hg] at he
      cases v <;> simp only [HasType] at hv
      rename_i vs
      have h4 := congrArg (fun l => l.getD 4 0) he
      have : vs.length = 0 ∨ vs.length = 1 := by omega
      rcases this with h | h
      · simp only [consensus, h, List.cons_append] at h4
        exact absurd h4 (by simp only [lenBytes, bigEndian, List.cons_append, List.getD_cons_succ, List.getD_cons_zero]; decide)
      · simp only [consensus, h, List.cons_append] at h4
        exact absurd h4 (by simp only [lenBytes, bigEndian, List.cons_append, List.getD_cons_succ, List.getD_cons_zero]; decide))
  exact ⟨N, ws, loc', m', h1⟩

/-- `(from-consensus-buff? (list 1 (string-ascii 1)) (unwrap-panic (to-consensus-buff? (list "t"))))`. -/
example : Leaves cxK (moduleOf cxK) 0 cxR true []
    (.fromBuff (.list 1 (.ascii 1)) 11 (.prim .unwrapPanic (.cons (.opt (.buff 11)) (.toBuff (.list 1 (.ascii 1)) (.list (.cons (.ascii 1) seqT .nil))) .nil)))
    (.opt (.list 1 (.ascii 1))) [] cxCx (cxSt 9) (.some (.list [.ascii [116#8]])) (cxSt 9) :=
  C30_round_trip cxK (moduleOf cxK) cx_ok (linked_moduleOf _) 0 cxR true true [] [] cxCx (cxSt 9) (cxSt 9)
    (.list 1 (.ascii 1)) (by simp [Ty.WF]) (by simp [Decodable]) (by decide) (by simp [keysOf]) _
    (by simp only [wt, wts]; exact ⟨1, .ascii 1, rfl, by simp [Gen.tys], ⟨seqT_wt _ _ (by omega), trivial⟩, by simp [Gen.tys]⟩)
    (.list [.ascii [116#8]]) (by simp [eval, evals, seqT, Out.bind]) (by simp [HasType, asciiOk])

/-! ### Deviations -/

/-- Memory with a standard principal of version 255 at address 100 and a contract principal with an empty name at 200. -/
def desBad : Mem := ⟨65536, fun i => if i = 100 then 5 else if i = 101 then 255 else if i = 200 then 6 else 0, by decide⟩

/-- The locals of the code. -/
def desBadLocs (o e : BitVec 32) : List Val := [.i32 o, .i32 e, .i32 1000#32, .i32 0#32, .i32 0#32, .i32 0#32, .i32 0#32]

/-- **C30**, a deviation: a standard principal whose version byte is 255 and a contract principal whose contract name
is empty are accepted (flag 1), although these bytes encode no principal. -/
theorem C30_counterexample_principal {σ : Type} (M : Wasm.Mod σ) (g : Store σ) (hg : g.mem = desBad) :
    (∃ a l loc' g', Ends M (des .principal 0 1 2 3).is [] (desBadLocs 100#32 122#32) g (.norm [l, a, .i32 1#32] loc' g')) ∧
    (∃ a l loc' g', Ends M (des .principal 0 1 2 3).is [] (desBadLocs 200#32 223#32) g (.norm [l, a, .i32 1#32] loc' g')) ∧
    (∀ v rest, HasType .principal v → bytesAt desBad 100 22 ≠ consensus v ++ rest) ∧
    (∀ v rest, HasType .principal v → bytesAt desBad 200 23 ≠ consensus v ++ rest) := by
  have hs : ∀ o e, decode .principal (bytesAt desBad o e) = .deviates →
      ∀ v rest, HasType .principal v → bytesAt desBad o e ≠ consensus v ++ rest := by
    intro o e h v rest hv he
    have hl : (consensus v).length ≤ maxEncoding .principal := consensus_le hv
    have := decode_complete (T := .principal) (r := rest) trivial hv (Nat.lt_of_le_of_lt hl (by decide))
    rw [← he, h] at this
    cases this
  refine ⟨?_, ?_, hs _ _ (by rfl), hs _ _ (by rfl)⟩
  · obtain ⟨h, m, a, b⟩ := g
    subst hg
    exact ⟨_, _, _, _, (ends_iff (by simp)).2 ⟨100, _, by rfl, by simp, rfl⟩⟩
  · obtain ⟨h, m, a, b⟩ := g
    subst hg
    exact ⟨_, _, _, _, (ends_iff (by simp)).2 ⟨100, _, by rfl, by simp, rfl⟩⟩

end Props
