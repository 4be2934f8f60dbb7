import Verif.Gen.MemProof

/-!
C23: the instructions that the compiler emits to store a value of type `T` from the operand stack
to memory (`writeMem`), to load it back (`readMem`), and to move it through locals (`saveCode`,
`getLocals`). `wty T` is the list of Wasm types of a value of type `T`; `ws` are the operands, first
one deepest; `clean T ws` is `ws` with zero at the positions of placeholders of type `NoType`
(such a position carries no information); `typeSize T` is the declared size.
-/

namespace Props
open Wasm Spec Host Gen
variable {σ : Type} (M : Wasm.Mod σ) (g : Store σ)

/-- Storing and loading back, for every type, any operands, any address inside memory. -/
theorem C23_store_load (T : Ty) (ol off n : Nat) (a : BitVec 32) (ws stk stk' loc : List Val)
    (hty : ws.map Val.ty = wty T) (hol : loc[ol]? = some (.i32 a)) (hn : ol < n)
    (hloc : n + (writeMem ol T off n).ls.length ≤ loc.length)
    (hroom : a.toNat + off + typeSize T ≤ g.mem.size) :
    ∃ loc' g', Ends M (writeMem ol T off n).is (ws.reverse ++ stk) loc g (.norm stk loc' g') ∧
      Ends M (readMem ol T off).is stk' loc' g' (.norm ((clean T ws).reverse ++ stk') loc' g') ∧
      (∀ i, ¬ (a.toNat + off ≤ i ∧ i < a.toNat + off + typeSize T) → g'.mem.byte i = g.mem.byte i) ∧
      g'.mem.size = g.mem.size ∧ g'.g32 = g.g32 ∧ g'.g64 = g.g64 ∧ g'.host = g.host ∧
      loc'.length = loc.length ∧ (∀ i, i < n → loc'[i]? = loc[i]?) := by
  obtain ⟨loc', m', h1, h2⟩ := stored_writeMem (M := M) T off n stk loc g ws hol hn hloc hroom hty
  refine ⟨loc', g.setMem m', (ends_iff (by simp)).2 (h1.steps.wp.2 rfl), (ends_iff (by simp)).2 ?_,
    fun i hi => h1.out i (by omega), h1.msize, rfl, rfl, rfl, h1.len, fun i hi => h1.keep i (.inl hi)⟩
  have := steps_readMem (M := M) (g := g.setMem m') (loc := loc') (a := a) (ol := ol)
    (by rw [h1.keep ol (by omega)]; exact hol) T off stk' (by simp only [Store.setMem, h1.msize]; exact hroom)
  rw [show loadVals (g.setMem m').mem T (a.toNat + off) = clean T ws from h2] at this
  exact this.wp.2 rfl

/-- Both sequences report the declared number of bytes. -/
theorem C23_sizes (T : Ty) (ol off n : Nat) :
    (writeMem ol T off n).sz = typeSize T ∧ (readMem ol T off).sz = typeSize T :=
  ⟨writeMem_sz .., readMem_sz ..⟩

/-- Types without `NoType` inside: every operand is meaningful, so the round trip is exact. -/
theorem C23_exact (T : Ty) (ws : List Val) (hty : ws.map Val.ty = wty T) (hT : ∀ b ∈ live T, b = true) :
    clean T ws = ws := by
  have hl : ws.length = (live T).length := by rw [length_live]; exact typed_length hty
  unfold clean
  generalize live T = L at hl hT
  clear hty
  induction L generalizing ws with
  | nil => simp at hl; simp [hl]
  | cons b L ih =>
    cases ws with
    | nil => simp at hl
    | cons w ws =>
      rw [List.zipWith_cons_cons, ih ws (by simpa using hl) (fun b hb => hT b (List.mem_cons_of_mem _ hb)),
        hT b (List.mem_cons_self ..)]; rfl

/-- Saving to fresh locals and pushing them back gives the same operands, and changes no other
local. -/
theorem C23_locals (T : Ty) (n : Nat) (ws stk stk' loc : List Val) (hty : ws.map Val.ty = wty T)
    (hloc : n + (wty T).length ≤ loc.length) :
    ∃ loc', Ends M (saveCode T n) (ws.reverse ++ stk) loc g (.norm stk loc' g) ∧
      Ends M (getLocals (saveLocals T n)) stk' loc' g (.norm (ws.reverse ++ stk') loc' g) ∧
      (∀ i, ¬ (n ≤ i ∧ i < n + (wty T).length) → loc'[i]? = loc[i]?) := by
  obtain ⟨loc', h1, _, h3, h4⟩ := steps_save (M := M) (s := stk) (g := g) T n ws (typed_length hty) hloc
  exact ⟨loc', (ends_iff (by simp)).2 (h1.wp.2 rfl),
    (ends_iff (by simp)).2 ((steps_getLocals (M := M) (s := stk') (g := g) h4).wp.2 rfl),
    fun i hi => h3 i (by omega)⟩

/-- The hypotheses are met: an optional response of a tuple, stored at address 100. -/
example : ∃ loc' g', Ends M (writeMem 0 (.opt (.resp (.tuple (.cons [97#8] .int (.cons [98#8] (.buff 5) .nil))) .noType)) 4 1).is
      [.i32 7#32, .i32 5#32, .i32 40#32, .i64 2#64, .i64 1#64, .i32 1#32, .i32 1#32]
      (.i32 100#32 :: List.replicate 6 (.i32 0#32)) ⟨fun _ => 0, fun _ => 0, ⟨65536, fun _ => 0, by omega⟩, g.host⟩
      (.norm [] loc' g') ∧
    Ends M (readMem 0 (.opt (.resp (.tuple (.cons [97#8] .int (.cons [98#8] (.buff 5) .nil))) .noType)) 4).is
      [] loc' g' (.norm [.i32 0#32, .i32 5#32, .i32 40#32, .i64 2#64, .i64 1#64, .i32 1#32, .i32 1#32] loc' g') := by
  obtain ⟨l, g', h1, h2, _⟩ := C23_store_load M ⟨fun _ => 0, fun _ => 0, ⟨65536, fun _ => 0, by omega⟩, g.host⟩
    (.opt (.resp (.tuple (.cons [97#8] .int (.cons [98#8] (.buff 5) .nil))) .noType)) 0 4 1 100#32
    [.i32 1#32, .i32 1#32, .i64 1#64, .i64 2#64, .i32 40#32, .i32 5#32, .i32 7#32] [] []
    (.i32 100#32 :: List.replicate 6 (.i32 0#32)) rfl rfl (by omega) (by decide)
    (show 100 + 4 + (4 + (4 + (16 + (8 + 0)) + 4)) ≤ 65536 by omega)
  exact ⟨l, g', h1, h2⟩

end Props
