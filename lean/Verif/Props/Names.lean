import Verif.Stdlib.BSearch
import Verif.Props.Bytes

/-! C17, C32: ASCII and name validation, name lookup. -/

namespace Props
open Wasm Spec
variable {σ : Type} (M : Wasm.Mod σ) (g : Store σ)

/-- The ASCII check accepts exactly the sequences of allowed characters. -/
theorem C17_string_ascii (o l : BitVec 32) (h : o.toNat + l.toNat ≤ g.mem.size) :
    Runs M (.std .is_valid_string_ascii) [.i32 o, .i32 l] g
      (.ret [.i32 (b32 (∀ c ∈ asciiAt g.mem o.toNat l.toNat, asciiOk c = true))] g) := by
  have := runs_is_valid_string_ascii (M := M) o l h
  simpa only [List.all_eq_true] using this

/-- The clarity-name check accepts exactly the names of the grammar. -/
theorem C17_clarity_name (o l : BitVec 32) (h : o.toNat + l.toNat ≤ g.mem.size) :
    Runs M (.std .check_clarity_name) [.i32 o, .i32 l] g
      (.ret [.i32 (b32 (clarityName (asciiAt g.mem o.toNat l.toNat) = true))] g) :=
  runs_check_clarity_name o l h

/-- The contract-name check accepts exactly the names of the grammar, provided that 16 bytes are
readable when the length is 11; see `C17_contract_name_counterexample`. -/
theorem C17_contract_name_partial (o l : BitVec 32) (h : o.toNat + l.toNat ≤ g.mem.size)
    (h16 : l.toNat = 11 → o.toNat + 16 ≤ g.mem.size) :
    Runs M (.std .is_valid_contract_name) [.i32 o, .i32 l] g
      (.ret [.i32 (b32 (contractName (asciiAt g.mem o.toNat l.toNat) = true))] g) :=
  runs_is_valid_contract_name o l h h16

/-- The property as stated fails at the end of memory: an 11-byte string there that does not
start with a letter makes the check trap. -/
theorem C17_contract_name_counterexample (h : g.mem.size = 65536) (h0 : g.mem.byte 65525 = 0#8) :
    Runs M (.std .is_valid_contract_name) [.i32 65525#32, .i32 11#32] g (.trap g) := by
  have ht : Runs M (.std .is_transient) [.i32 65525#32, .i32 11#32] g (.trap g) := by
    apply runs_std (by simp)
    wpx [stdFunc, Std.is_transient, Std.is_transient_body]
    rw [if_pos (not_not.2 rfl), wp_b]
    simp [stepB, h, stepK, Res.toCall, blockK]
  apply runs_std (by simp)
  wpx [stdFunc, Std.is_valid_contract_name, Std.is_valid_contract_name_body]
  rw [wp_i32load (by rw [h]; decide)]
  wpx [wp_is_alpha, load1, Nat.add_zero, alpha_code]
  rw [h0]
  rw [if_neg (by decide)]
  refine (wp_call_runs (args := [.i32 65525#32, .i32 11#32]) (ps := [.i32, .i32]) (stk := [])
    (rs := [.i32]) rfl rfl ht (by simp)).2 ?_
  simp [callK, blockK, Res.toCall]

/-- A memory holding "__transient" at 100, "a-b" at 200, "<=" at 300 and "1a" at 400. -/
def nameMem : Mem where
  size := 65536
  byte i := BitVec.ofNat 8 (
    if 100 ≤ i ∧ i < 111 then transientName.getD (i - 100) 0 else
    if 200 ≤ i ∧ i < 203 then [97, 45, 98].getD (i - 200) 0 else
    if 300 ≤ i ∧ i < 302 then [60, 61].getD (i - 300) 0 else
    if 400 ≤ i ∧ i < 402 then [49, 97].getD (i - 400) 0 else 0)
  le := by decide

example (h : g.mem = nameMem) :
    Runs M (.std .is_valid_contract_name) [.i32 100#32, .i32 11#32] g (.ret [.i32 1#32] g) ∧
    Runs M (.std .is_valid_contract_name) [.i32 200#32, .i32 3#32] g (.ret [.i32 1#32] g) ∧
    Runs M (.std .is_valid_contract_name) [.i32 300#32, .i32 2#32] g (.ret [.i32 0#32] g) ∧
    Runs M (.std .check_clarity_name) [.i32 300#32, .i32 2#32] g (.ret [.i32 1#32] g) ∧
    Runs M (.std .check_clarity_name) [.i32 400#32, .i32 2#32] g (.ret [.i32 0#32] g) ∧
    Runs M (.std .is_valid_string_ascii) [.i32 100#32, .i32 11#32] g (.ret [.i32 1#32] g) ∧
    Runs M (.std .is_valid_string_ascii) [.i32 100#32, .i32 12#32] g (.ret [.i32 0#32] g) := by
  have h1 := C17_contract_name_partial M g 100#32 11#32 (by rw [h]; decide) (by rw [h]; decide)
  have h2 := C17_contract_name_partial M g 200#32 3#32 (by rw [h]; decide) (by rw [h]; decide)
  have h3 := C17_contract_name_partial M g 300#32 2#32 (by rw [h]; decide) (by rw [h]; decide)
  have h4 := C17_clarity_name M g 300#32 2#32 (by rw [h]; decide)
  have h5 := C17_clarity_name M g 400#32 2#32 (by rw [h]; decide)
  have h6 := C17_string_ascii M g 100#32 11#32 (by rw [h]; decide)
  have h7 := C17_string_ascii M g 100#32 12#32 (by rw [h]; decide)
  rw [h] at h1 h2 h3 h4 h5 h6 h7
  refine ⟨h1, h2, h3, h4, h5, ?_, ?_⟩
  · rw [b32, if_pos (by decide)] at h6; exact h6
  · rw [b32, if_neg (by decide)] at h7; exact h7

/-- Name comparison of two non-empty names: -1, 0 or 1, the lexicographic order of the bytes. -/
theorem C32_compare_names (oa la ob lb : BitVec 32) (ha0 : la ≠ 0#32) (hb0 : lb ≠ 0#32)
    (ha : oa.toNat + la.toNat ≤ g.mem.size) (hb : ob.toNat + lb.toNat ≤ g.mem.size) :
    let A := (bytesAt g.mem oa.toNat la.toNat).map BitVec.toNat
    let B := (bytesAt g.mem ob.toNat lb.toNat).map BitVec.toNat
    ∃ r : BitVec 32, Runs M (.std .compare_clarity_names) [.i32 oa, .i32 la, .i32 ob, .i32 lb] g
        (.ret [.i32 r] g) ∧
      (A < B → r = -1#32) ∧ (A = B → r = 0#32) ∧ (B < A → r = 1#32) := by
  refine ⟨_, runs_compare_clarity_names oa la ob lb ha0 hb0 ha hb, ?_, ?_, ?_⟩
  · intro h; rw [← lexLt_iff] at h; exact (nameCmp_neg _ _).2 h
  · intro h
    rw [nameCmp_zero]
    exact List.map_injective_iff.2 (fun _ _ => BitVec.eq_of_toNat_eq) h
  · intro h; rw [← lexLt_iff] at h; exact (nameCmp_pos _ _).2 h

/-- Binary search over any non-empty table of strictly increasing non-empty names finds the index
of the name exactly when it is there, and otherwise returns -1; nothing changes. -/
theorem C32_bsearch (T ll oe le : BitVec 32) (names : List (List Byte)) (hn : names ≠ [])
    (hT : NameTable g.mem T.toNat names)
    (hinc : names.Pairwise fun a b => a.map BitVec.toNat < b.map BitVec.toNat) (hl0 : le ≠ 0#32)
    (he : oe.toNat + le.toNat ≤ g.mem.size) :
    let name := bytesAt g.mem oe.toNat le.toNat
    (∀ i : BitVec 32, names[i.toNat]? = some name →
      Runs M (.std .bsearch_clarity_name) [.i32 T, .i32 ll, .i32 oe, .i32 le] g (.ret [.i32 i] g)) ∧
    (name ∉ names →
      Runs M (.std .bsearch_clarity_name) [.i32 T, .i32 ll, .i32 oe, .i32 le] g
        (.ret [.i32 (-1#32)] g)) := by
  have hinc' : Increasing names := by
    intro i j hj hij
    exact (lexLt_iff _ _).2 (List.pairwise_iff_getElem.1 hinc i j (by omega) hj hij)
  obtain ⟨r, hf, hr⟩ := runs_bsearch_clarity_name (M := M) T ll oe le names
    (List.length_pos_iff.2 hn) hT hinc' hl0 he
  refine ⟨fun i hi => ?_, fun hni => ?_⟩
  · obtain ⟨hil, hie⟩ := List.getElem?_eq_some_iff.1 hi
    rcases hf with ⟨hrl, hre⟩ | ⟨-, hni⟩
    · have : r = i := by
        apply BitVec.eq_of_toNat_eq
        rcases Nat.lt_trichotomy r.toNat i.toNat with h | h | h
        · have := hinc' _ _ hil h
          rw [hre, hie, lexLt_irrefl] at this; cases this
        · exact h
        · have := hinc' _ _ hrl h
          rw [hre, hie, lexLt_irrefl] at this; cases this
      rw [← this]; exact hr
    · exact absurd (hie ▸ List.getElem_mem hil) hni
  · rcases hf with ⟨hrl, hre⟩ | ⟨rfl, -⟩
    · exact absurd (hre ▸ List.getElem_mem hrl) hni
    · exact hr

/-- A memory with the table of "a", "bc" at 100, and the names at 200 and 300; "bc" again at 400. -/
def tableMem : Mem where
  size := 65536
  byte i := BitVec.ofNat 8 (
    if i = 100 then 2 else if i = 104 then 200 else if i = 108 then 44 else if i = 109 then 1 else
    if i = 112 then 1 else if i = 113 then 2 else if i = 200 then 97 else
    if i = 300 ∨ i = 400 then 98 else if i = 301 ∨ i = 401 then 99 else 0)
  le := by decide

example (h : g.mem = tableMem) :
    Runs M (.std .bsearch_clarity_name) [.i32 100#32, .i32 0#32, .i32 400#32, .i32 2#32] g
      (.ret [.i32 1#32] g) ∧
    Runs M (.std .bsearch_clarity_name) [.i32 100#32, .i32 0#32, .i32 400#32, .i32 1#32] g
      (.ret [.i32 (-1#32)] g) := by
  have hT : NameTable g.mem (100#32).toNat [[97#8], [98#8, 99#8]] := by
    rw [h]
    refine ⟨by decide, by decide, by decide, by decide, by decide, by decide⟩
  refine ⟨(C32_bsearch M g 100#32 0#32 400#32 2#32 _ (by decide) hT (by decide) (by decide)
      (by rw [h]; decide)).1 1#32 ?_,
    (C32_bsearch M g 100#32 0#32 400#32 1#32 _ (by decide) hT (by decide) (by decide)
      (by rw [h]; decide)).2 ?_⟩
  · rw [h]; rfl
  · rw [h]; decide

end Props
