import Verif.Gen.CopyProof
import Verif.Props.CompileEx

/-! # C47: results of calls are copied out of the frame of the called function -/

namespace Props
open Wasm Spec Host Core Gen

/-- The code after a call that saves the result, of type `T`, copies its parts in memory to the address in
local `c` and puts the result back on the stack; `n` is the next fresh local. -/
def copyResult (T : Ty) (c n : Nat) : List Instr :=
  saveCode T n ++ (copyVal T (saveLocals T n) c (n + (wty T).length)).is ++ getLocals (saveLocals T n)

/-- **C47.** For every type and every value of it, of any length and any nesting, that is on the stack with
its parts in memory anywhere outside the `countSpace T` bytes from `d` on: the code that copies a result
ends normally; the values then on the stack represent the same value, all parts of which, at any depth,
lie between `d` and `e`, and `e` is at most `d + countSpace T`. No byte outside these bytes changes, no
local below `n` other than the one with the address. -/
theorem C47_copies_result {σ : Type} (M : Wasm.Mod σ) (T : Ty) (wf : T.WF) (v : Value) (b : Reg) (c n : Nat)
    (d : BitVec 32) (ws stk loc : List Val) (g : Store σ) (hc : loc[c]? = some (.i32 d)) (hcn : c < n)
    (hl : n + (wty T).length + (copyVal T (saveLocals T n) c (n + (wty T).length)).ls.length ≤ loc.length)
    (hv : Rep g.mem b T v ws) (hb : b.hi ≤ g.mem.size)
    (hfree : ∀ i, d.toNat ≤ i → i < d.toNat + countSpace T → ¬ (i < b.hi ∧ ¬ b.hole i))
    (hroom : d.toNat + countSpace T ≤ g.mem.size) (hsmall : g.mem.size < 2 ^ 32) :
    ∃ (ws' loc' : List Val) (m' : Mem) (e : Nat),
      Ends M (copyResult T c n) (ws.reverse ++ stk) loc g (.norm (ws'.reverse ++ stk) loc' (g.setMem m')) ∧
      Rep m' (seg d.toNat e) T v ws' ∧ e ≤ d.toNat + countSpace T ∧ m'.size = g.mem.size ∧
      (∀ i, i < d.toNat ∨ d.toNat + countSpace T ≤ i → m'.byte i = g.mem.byte i) ∧
      (∀ i, i < n → i ≠ c → loc'[i]? = loc[i]?) := by
  obtain ⟨loc1, st1, l1, k1, v1⟩ := steps_save (M := M) (s := stk) (loc := loc) (g := g) T n ws hv.len (by omega)
  have ha1 := k1 c (.inl hcn)
  rw [hc] at ha1
  obtain ⟨us', loc2, m2, cv2, st2, f2⟩ := copy_good (M := M) T (saveLocals T n) c (n + (wty T).length) wf
    (by simp [saveLocals]) v b ws d stk loc1 g
    ⟨(nth_some ha1).2, nodup_rev List.nodup_range', fun j hj => by have := mem_saveLocals.1 hj; omega, by omega,
      fun hj => by have := mem_saveLocals.1 hj; omega, by omega, fun j h1 h2 => by
        by_cases h : b.hole j
        · exact .inl h
        · exact .inr (Nat.le_of_not_lt fun h' => hfree j h1 h2 ⟨h', h⟩), hb, hroom, hsmall⟩
    v1 (by omega) hv
  have st := (st1.append st2).append (steps_getLocals f2.vals (s := stk))
  refine ⟨us', loc2, m2, cv2.toNat, ?_, f2.rep, f2.hi, f2.size, f2.mem, ?_⟩
  · obtain ⟨N, r, e1, e2, e3⟩ := (st.wp (Q := fun r => r = .norm (us'.reverse ++ stk) loc2 (g.setMem m2))).2 rfl
    exact (ends_iff (by simp)).2 ⟨N, r, e1, e2, e3⟩
  · intro i hi hic
    rw [f2.keep.2 i (by omega) (by simp; exact ⟨hic, fun h => by have := mem_saveLocals.1 h; omega⟩), k1 i (.inl hi)]

/-- The space is exactly what the type needs besides the values on the stack. -/
theorem countSpace_eq (T : Ty) : countSpace T + typeSize T = typeInMemorySize true T := space_eq T

/-- A case of `C47_copies_result`: the string `t`, at address 0, is copied to address 1000. -/
example (M : Wasm.Mod World) : ∃ ws' loc' m' e, Ends M (copyResult (.ascii 1) 0 1) [.i32 1#32, .i32 0#32]
      [.i32 1000#32, .i32 0#32, .i32 0#32] cxStore (.norm ws' loc' (cxStore.setMem m')) ∧
    Rep m' (seg 1000 e) (.ascii 1) (.ascii [116#8]) ws'.reverse := by
  obtain ⟨ws', loc', m', e, h1, h2, _⟩ := C47_copies_result M (.ascii 1) trivial (.ascii [116#8]) ⟨1, fun _ => False⟩ 0 1 1000#32
    [.i32 0#32, .i32 1#32] [] [.i32 1000#32, .i32 0#32, .i32 0#32] cxStore rfl (by omega) (by decide)
    (by
      simp only [Rep]
      exact ⟨⟨by simp, by simp [asciiOk]⟩, 0#32, 1#32, rfl, rfl, ⟨by decide, fun _ _ _ h => h⟩, by decide +kernel⟩)
    (by decide +kernel) (fun i h1 _ h => by have : i < 1 := h.1; have : 1000 ≤ i := h1; omega) (by decide +kernel) (by decide +kernel)
  exact ⟨ws'.reverse, loc', m', e, by simpa using h1, by rw [List.reverse_reverse]; exact h2⟩

end Props
