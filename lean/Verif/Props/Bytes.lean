import Verif.Stdlib.BuffToInt
import Verif.Spec.Int128

/-! C06, C11: byte sequences. -/

namespace Props
open Wasm Spec
variable {σ : Type} (M : Wasm.Mod σ) (g : Store σ)

/-- The specification's order is the standard lexicographic order on lists of numbers. -/
theorem lexLt_iff (a b : List Byte) :
    lexLt a b = true ↔ a.map BitVec.toNat < b.map BitVec.toNat := by
  induction a generalizing b with
  | nil => cases b <;> simp [lexLt]
  | cons x a ih =>
    cases b with
    | nil => simp [lexLt]
    | cons y b =>
      simp only [lexLt, List.map_cons, Bool.or_eq_true, decide_eq_true_eq, Bool.and_eq_true, ih,
        List.cons_lt_cons_iff, BitVec.toNat_inj]

/-- The four byte-sequence comparisons, on any two sequences lying in memory: they return,
change nothing, and the result is the lexicographic order. -/
theorem C06_compare_bytes (oa la ob lb : BitVec 32)
    (ha : oa.toNat + la.toNat ≤ g.mem.size) (hb : ob.toNat + lb.toNat ≤ g.mem.size) :
    let A := bytesAt g.mem oa.toNat la.toNat
    let B := bytesAt g.mem ob.toNat lb.toNat
    let args := [.i32 oa, .i32 la, .i32 ob, .i32 lb]
    Runs M (.std .lt_buff) args g (.ret [.i32 (b32 (lexLt A B = true))] g) ∧
    Runs M (.std .gt_buff) args g (.ret [.i32 (b32 (lexLt B A = true))] g) ∧
    Runs M (.std .le_buff) args g (.ret [.i32 (b32 (A = B ∨ lexLt A B = true))] g) ∧
    Runs M (.std .ge_buff) args g (.ret [.i32 (b32 (A = B ∨ lexLt B A = true))] g) := by
  have key : ∀ A B : List Byte, (¬ lexLt B A = true) ↔ (A = B ∨ lexLt A B = true) := by
    intro A B
    rw [lexLt_iff, lexLt_iff, List.not_lt_iff_ge]
    constructor
    · intro h
      rcases List.le_iff_lt_or_eq.1 h with h | h
      · exact .inr h
      · exact .inl (List.map_injective_iff.2 (fun _ _ => BitVec.eq_of_toNat_eq) h)
    · rintro (h | h)
      · rw [h]; exact List.le_refl _
      · exact List.le_of_lt h
  refine ⟨runs_lt_buff _ _ _ _ ha hb, runs_gt_buff _ _ _ _ ha hb, ?_, ?_⟩
  · have := runs_le_buff (M := M) oa la ob lb ha hb
    simp only [key] at this; exact this
  · have := runs_ge_buff (M := M) oa la ob lb ha hb
    simp only [key, eq_comm (a := bytesAt g.mem ob.toNat lb.toNat)] at this; exact this

/-- A memory of one page holding "ab" at 100 and "abc" at 200. -/
def exMem : Mem where
  size := 65536
  byte i := if i = 100 ∨ i = 200 then 97#8 else if i = 101 ∨ i = 201 then 98#8 else
    if i = 202 then 99#8 else 0#8
  le := by decide

example (h : g.mem = exMem) :
    Runs M (.std .lt_buff) [.i32 100#32, .i32 2#32, .i32 200#32, .i32 3#32] g (.ret [.i32 1#32] g) := by
  have := (C06_compare_bytes M g 100#32 2#32 200#32 3#32 (by rw [h]; decide) (by rw [h]; decide)).1
  rw [h] at this; exact this

/-- Little-endian conversion. The two hypotheses say that the buffer, and the 16 bytes from its
start, lie in memory: the code always loads 16 bytes, see `C11_buff_to_uint_le_counterexample`. -/
theorem C11_buff_to_uint_le_partial (o l : BitVec 32)
    (hm : o.toNat + l.toNat ≤ g.mem.size) (h16 : o.toNat + 16 ≤ g.mem.size) :
    (l.toNat ≤ 16 → Runs M (.std .buff_to_uint_le) [.i32 o, .i32 l] g
      (.ret (encU (leNat (bytesAt g.mem o.toNat l.toNat))) g)) ∧
    (16 < l.toNat → Runs M (.std .buff_to_uint_le) [.i32 o, .i32 l] g (abort g 5)) := by
  have h := runs_buff_to_uint_le (M := M) o l (fun _ => h16)
  refine ⟨fun h' => ?_, fun h' => ?_⟩
  · rwa [if_pos h'] at h
  · rwa [if_neg (by omega)] at h

/-- Big-endian conversion of a buffer that does not end in the first 16 bytes of memory. -/
theorem C11_buff_to_uint_be_partial (o l : BitVec 32)
    (hm : o.toNat + l.toNat ≤ g.mem.size) (h16 : 16 ≤ o.toNat + l.toNat) :
    (l.toNat ≤ 16 → Runs M (.std .buff_to_uint_be) [.i32 o, .i32 l] g
      (.ret (encU (beNat (bytesAt g.mem o.toNat l.toNat))) g)) ∧
    (16 < l.toNat → Runs M (.std .buff_to_uint_be) [.i32 o, .i32 l] g (abort g 5)) := by
  have h := runs_buff_to_uint_be (M := M) o l hm (fun _ => h16)
  refine ⟨fun h' => ?_, fun h' => ?_⟩
  · rwa [if_pos h'] at h
  · rwa [if_neg (by omega)] at h

example (h : g.mem = exMem) :
    Runs M (.std .buff_to_uint_be) [.i32 200#32, .i32 3#32] g (.ret (encU 0x616263) g) := by
  have := (C11_buff_to_uint_be_partial M g 200#32 3#32 (by rw [h]; decide) (by decide)).1 (by decide)
  rw [h] at this; exact this

example (h : g.mem = exMem) :
    Runs M (.std .buff_to_uint_le) [.i32 200#32, .i32 3#32] g (.ret (encU 0x636261) g) := by
  have := (C11_buff_to_uint_le_partial M g 200#32 3#32 (by rw [h]; decide) (by rw [h]; decide)).1
    (by decide)
  rw [h] at this; exact this

/-- The property as stated fails for the little-endian conversion: a one-byte buffer at the very
end of memory makes it trap, with no error code recorded. -/
theorem C11_buff_to_uint_le_counterexample (h : g.mem.size = 65536) :
    Runs M (.std .buff_to_uint_le) [.i32 65535#32, .i32 1#32] g (.trap g) := by
  apply runs_std (by simp)
  wpx [stdFunc, Std.buff_to_uint_le, Std.buff_to_uint_le_body]
  rw [wp_b]
  simp [stepB, h, stepK, Res.toCall]

end Props
