import Verif.Props.Sequences

/-!
C29: consensus serialization. The specification is `Spec/Consensus.lean` (SIP-005). The code is the one that
`serialize_to_memory` emits (`Gen/Serialize.lean`) and, as part of a contract, the code of
`(to-consensus-buff? e)`.
-/

namespace Props
open Wasm Spec Host Core Gen

/-- **C29**: the code that serializes a value of type `T` to the address `a` (the value of the local `ol` plus `off`),
started with any value `v` of that type on the stack (its parts in memory being below `a`), ends normally,
whatever else is on the stack and in memory. It writes exactly the encoding of `v` to `a`, changes no other byte
of the memory and no global, and leaves the number of bytes. `lit k` is where the generator put the bytes of
the tuple key `k`; the locals from `n` on are those that the generator reserved for this code. -/
theorem C29_serialize {σ : Type} (M : Wasm.Mod σ) (lit : Name → Nat) (T : Ty) (hT : T.WF) (v : Value) (ws stk loc : List Val)
    (g : Store σ) (b : Reg) (ol off n a : Nat) (w : BitVec 32)
    (hv : Rep g.mem b T v ws) (hb : b.hi ≤ a)
    (hk : ∀ k ∈ keysOf T, lit k + k.length ≤ a ∧ bytesAt g.mem (lit k) k.length = k)
    (hw : loc[ol]? = some (.i32 w)) (ha : w.toNat + off = a) (hol : ol < n)
    (hn : n + (ser lit T ol off n).ls.length ≤ loc.length)
    (hs : a + (consensus v).length ≤ g.mem.size) (hm : g.mem.size < 2 ^ 32) :
    ∃ N loc' m', exec M N (ser lit T ol off n).is (ws.reverse ++ stk) loc g =
        .norm (.i32 (BitVec.ofNat 32 (consensus v).length) :: stk) loc' (g.setMem m') ∧
      m'.size = g.mem.size ∧ bytesAt m' a (consensus v).length = consensus v ∧
      (∀ i, i < a ∨ a + (consensus v).length ≤ i → m'.byte i = g.mem.byte i) ∧
      (∀ i, i < n → loc'[i]? = loc[i]?) := by
  obtain ⟨loc', m', h1, h2, h3⟩ := ser_ok (M := M) T (stk := stk) hT hv ha hb hk hw hol hs hm hn
  obtain ⟨N, r, e1, _, e2⟩ := (h1.wp (Q := fun r => r = _)).2 rfl
  exact ⟨N, loc', m', by rw [e1, e2], h3.size, h3.here, h3.rest, fun i hi => h2.2 i hi (by simp)⟩

/-- **C29**: no encoding of a value of type `T` is longer than the buffer type that the type checker gives to
`(to-consensus-buff? e)`. -/
theorem C29_size (T : Ty) (v : Value) (h : HasType T v) : (consensus v).length ≤ maxEncoding T := consensus_le h

/-- **C29**: in any contract, `(to-consensus-buff? e)` gives the encoding of the value of `e`. Types with encodings
of more than 2^20 bytes are rejected by the type checker. -/
theorem C29_to_consensus_buff (K : Ctx) (M : Wasm.Mod World) (hC : ContractOk K) (hL : Linked K M) (k : Nat) (R : Ty) (wr er : Bool)
    (Δ : TEnv) (ρ : Env) (c : Cx) (s s1 : St) (T : Ty) (hT : T.WF) (hmax : maxEncoding T ≤ 2 ^ 20)
    (hk : ∀ x ∈ keysOf T, x ∈ K.lits) (e : Expr) (hte : wt K k wr R e er Δ T) (v : Value)
    (he : eval (sem K.fns k) e ρ c s = .val v s1) (hv : HasType T v) :
    Leaves K M k R wr Δ (.toBuff T e) (.opt (.buff (maxEncoding T))) ρ c s (.some (.buff (consensus v))) s1 := by
  refine leaves hC hL (er := er) ?_ ?_
  · simp only [wt]; exact ⟨hT, hmax, hk, trivial, hte⟩
  · have := consensus_le hv
    simp only [eval, he, Out.bind]
    rw [if_pos (by omega)]

/-! ### Examples -/

/-- Memory with the keys `a` at 100 and `b` at 101, and at 200 the list `(list (some true) (some false))`. -/
def serMem : Mem := ⟨65536, fun i => if i = 200 ∨ i = 204 ∨ i = 208 then 1 else if i = 100 then 0x61 else if i = 101 then 0x62 else 0, by decide⟩

/-- `{a: int, b: (list 2 (optional bool))}`. -/
def serTy : Ty := .tuple (.cons [0x61] .int (.cons [0x62] (.list 2 (.opt .bool)) .nil))

/-- `{a: -1, b: (list (some true) (some false))}`. -/
def serVal : Value := .tuple [([0x61], .int (-1)), ([0x62], .list [.some (.bool true), .some (.bool false)])]

/-- Its representation on the stack. -/
def serWs : List Val := encI (-1) ++ [.i32 200#32, .i32 16#32]

theorem serRep : Rep serMem ⟨1000, fun _ => False⟩ serTy serVal serWs := by
  simp only [serTy, serVal, serWs, Rep, RepF]
  refine ⟨_, rfl, _, _, _, _, rfl, rfl, ⟨_, rfl, by unfold IsInt; omega, rfl⟩, _, _, _, [], rfl, rfl, ⟨_, _, _, rfl, by simp, rfl, rfl, ?_, ?_⟩, rfl, rfl⟩
  · exact ⟨by decide, fun _ _ _ h => h⟩
  · intro i x hx
    rcases i with _ | _ | i
    · cases hx; exact .inr ⟨_, _, rfl, rfl, _, rfl, rfl⟩
    · cases hx; exact .inr ⟨_, _, rfl, rfl, _, rfl, rfl⟩
    · simp at hx

/-- The encoding of the example, byte by byte. -/
theorem serBytes_ex : consensus serVal = [0x0c, 0, 0, 0, 2, 1, 0x61, 0x00, 0xff, 0xff, 0xff, 0xff, 0xff, 0xff, 0xff, 0xff, 0xff, 0xff,
    0xff, 0xff, 0xff, 0xff, 0xff, 0xff, 1, 0x62, 0x0b, 0, 0, 0, 2, 0x0a, 3, 0x0a, 4] := by decide

/-- The theorem applies to this value; it is serialized to the address 1000. -/
example {σ : Type} (M : Wasm.Mod σ) (g : Store σ) (hg : g.mem = serMem) :
    ∃ N loc' m', exec M N (ser (fun k => if k = [0x61] then 100 else 101) serTy 0 0 1).is serWs.reverse
        (.i32 1000#32 :: List.replicate 20 (.i32 0#32)) g = .norm [.i32 35#32] loc' (g.setMem m') ∧
      bytesAt m' 1000 35 = consensus serVal := by
  obtain ⟨N, loc', m', h1, _, h2, _⟩ := C29_serialize M (fun k => if k = [0x61] then 100 else 101) serTy
    (by simp [serTy, Ty.WF, Fields.WF, Fields.keys]) serVal serWs [] (.i32 1000#32 :: List.replicate 20 (.i32 0#32)) g
    ⟨1000, fun _ => False⟩ 0 0 1 1000 1000#32 (by rw [hg]; exact serRep) (Nat.le_refl _)
    (by rw [hg]; decide) rfl rfl (by decide) (by decide) (by rw [hg]; decide) (by rw [hg]; decide)
  rw [List.append_nil, show (consensus serVal).length = 35 by rw [serBytes_ex]; rfl] at h1
  exact ⟨N, loc', m', h1, by rw [show (consensus serVal).length = 35 by rw [serBytes_ex]; rfl] at h2; exact h2⟩

/-- `(to-consensus-buff? (list "t"))`. -/
example : Leaves cxK (moduleOf cxK) 0 cxR true [] (.toBuff (.list 1 (.ascii 1)) (.list (.cons (.ascii 1) seqT .nil)))
    (.opt (.buff 11)) [] cxCx (cxSt 9)
    (.some (.buff [0x0b, 0, 0, 0, 1, 0x0d, 0, 0, 0, 1, 0x74])) (cxSt 9) :=
  C29_to_consensus_buff cxK (moduleOf cxK) cx_ok (linked_moduleOf _) 0 cxR true true [] [] cxCx (cxSt 9) (cxSt 9)
    (.list 1 (.ascii 1)) (by simp [Ty.WF]) (by decide) (by simp [keysOf]) _
    (by simp only [wt, wts]; exact ⟨1, .ascii 1, rfl, by simp [Gen.tys], ⟨seqT_wt _ _ (by omega), trivial⟩, by simp [Gen.tys]⟩)
    (.list [.ascii [116#8]]) (by simp [eval, evals, seqT, Out.bind]) (by simp [HasType, asciiOk])

end Props
