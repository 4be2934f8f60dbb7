import Verif.Stdlib.Utf8Loop

/-! C15, C16: UTF-8. -/

namespace Props
open Wasm Spec
variable {σ : Type} (M : Wasm.Mod σ) (g : Store σ)

/-- `bs` is well-formed UTF-8 for the text `cs`. -/
def IsUtf8 (bs cs : List Nat) : Prop := (∀ c ∈ cs, isScalar c) ∧ bs = utf8Text cs

/-- A byte sequence is well formed for at most one text. -/
theorem isUtf8_unique {bs cs cs' : List Nat} (h : IsUtf8 bs cs) (h' : IsUtf8 bs cs') : cs = cs' := by
  obtain ⟨h1, rfl⟩ := h
  obtain ⟨h2, h3⟩ := h'
  obtain ⟨rest, rfl, h4⟩ := utf8Text_prefix h1 h2 (X := []) (by simpa using h3)
  cases rest with
  | nil => simp
  | cons c rest =>
    have := congrArg List.length h4
    have h5 := List.length_pos_iff.2 (utf8_ne_nil c)
    simp only [utf8Text, List.flatMap_cons, List.length_append, List.length_nil] at this
    omega

/-- Decoding succeeds exactly on well-formed UTF-8 of at most `max` characters, and yields its
scalar values in order; otherwise the result is none, or a trap when a truncated sequence at the
end of the buffer makes the code read past the end of memory. Only the output area changes.
Hypotheses: the input lies in memory, the output area of `4 * max` bytes too, they do not overlap,
and the memory is smaller than 4 GiB. -/
theorem C15_decode (o l out mx : BitVec 32) (ho : o.toNat + l.toNat ≤ g.mem.size)
    (hsz : g.mem.size < 2 ^ 32) (hmx : mx.toNat < 2 ^ 31)
    (hout : out.toNat + 4 * mx.toNat ≤ g.mem.size)
    (hd : o.toNat + l.toNat ≤ out.toNat ∨ out.toNat + 4 * mx.toNat ≤ o.toNat) :
    let bs := asciiAt g.mem o.toNat l.toNat
    let args := [.i32 o, .i32 l, .i32 out, .i32 mx]
    ∃ m', Same g.mem m' out.toNat (4 * mx.toNat) ∧
      (∀ cs, IsUtf8 bs cs → cs.length ≤ mx.toNat →
        scalarsAt m' out.toNat cs.length = cs ∧
        Runs M (.std .utf8_to_string_utf8) args g
          (.ret [.i32 1#32, .i32 out, .i32 (BitVec.ofNat 32 (4 * cs.length))] (g.setMem m'))) ∧
      ((¬ ∃ cs, IsUtf8 bs cs ∧ cs.length ≤ mx.toNat) →
        Runs M (.std .utf8_to_string_utf8) args g
          (.ret [.i32 0#32, .i32 0#32, .i32 0#32] (g.setMem m')) ∨
        Runs M (.std .utf8_to_string_utf8) args g (.trap (g.setMem m'))) := by
  intro bs args
  obtain ⟨n, res, h1, h2, m', hs, h⟩ := utf8_to_string_core (M := M) o l out mx ho hsz hmx hout hd
  have hrun : Runs M (.std .utf8_to_string_utf8) args g res :=
    (runs_iff_call h2).2 ⟨n, res, h1, h2, rfl⟩
  refine ⟨m', hs, ?_, ?_⟩
  · intro cs hcs hle
    rcases h with ⟨cs', hwf, hscal, hres⟩ | ⟨hno, -⟩
    · have : cs' = cs := isUtf8_unique ⟨hwf.1, hwf.2.1.symm⟩ hcs
      subst this
      rw [hres] at hrun
      exact ⟨hscal, hrun⟩
    · exact absurd ⟨hcs.1, hcs.2.symm, hle⟩ (hno cs)
  · intro hno
    rcases h with ⟨cs', hwf, -⟩ | ⟨-, hres⟩
    · exact absurd ⟨cs', ⟨hwf.1, hwf.2.1.symm⟩, hwf.2.2⟩ hno
    · rcases hres with rfl | rfl
      · exact .inl hrun
      · exact .inr hrun

/-- A truncated sequence at the very end of memory makes the code trap instead of returning none. -/
theorem C15_truncated_counterexample (h : g.mem.size = 65536) (h0 : g.mem.byte 65535 = 0xC3#8) :
    Runs M (.std .utf8_to_string_utf8) [.i32 65535#32, .i32 1#32, .i32 100#32, .i32 5#32] g
      (.trap g) := by
  apply runs_std (by simp)
  simp only [stdFunc, Std.utf8_to_string_utf8]
  rw [utf8_to_string_utf8_eq]
  simp only [decCheck, List.cons_append, List.nil_append]
  wpy
  rw [wp_loop0]
  simp only [decPart, List.cons_append, List.nil_append]
  wpy
  rw [if_neg (by decide), wp_i32load (by rw [h]; decide)]
  wpy [load1, Nat.add_zero, byte_2]
  simp only [BitVec.toNat_ofNat, Nat.reducePow, Nat.reduceMod, h0]
  rw [if_neg (by decide), if_pos (by decide), wp_load_trap (by rw [h]; decide)]
  wpy

/-- A memory with `é!` at 10, and 0xC0 0x80 (overlong) at 20. -/
def utf8Mem : Mem where
  size := 65536
  byte i := BitVec.ofNat 8 (if i = 10 then 0xC3 else if i = 11 then 0xA9 else if i = 12 then 0x21 else
    if i = 20 then 0xC0 else if i = 21 then 0x80 else 0)
  le := by decide

example (h : g.mem = utf8Mem) :
    ∃ m', scalarsAt m' 100 2 = [0xE9, 0x21] ∧
      Runs M (.std .utf8_to_string_utf8) [.i32 10#32, .i32 3#32, .i32 100#32, .i32 5#32] g
        (.ret [.i32 1#32, .i32 100#32, .i32 8#32] (g.setMem m')) := by
  obtain ⟨m', -, h1, -⟩ := C15_decode M g 10#32 3#32 100#32 5#32 (by rw [h]; decide)
    (by rw [h]; decide) (by decide) (by rw [h]; decide) (by decide)
  obtain ⟨h2, h3⟩ := h1 [0xE9, 0x21] ⟨by decide, by rw [h]; decide⟩ (by decide)
  exact ⟨m', h2, h3⟩

example (h : g.mem = utf8Mem) : ¬ ∃ cs, IsUtf8 (asciiAt g.mem 20 2) cs := by
  rintro ⟨cs, hcs, he⟩
  rw [h, show asciiAt utf8Mem 20 2 = [0xC0, 0x80] by decide] at he
  cases cs with
  | nil => cases he
  | cons c cs =>
    rw [utf8Text, List.flatMap_cons, utf8] at he
    have := (hcs c List.mem_cons_self).1
    split at he <;> [skip; split at he <;> [skip; split at he]] <;>
      simp only [List.cons_append, List.nil_append, List.cons.injEq] at he <;> omega

/-- Encoding any sequence of code points writes exactly the concatenation of their standard
encodings, returns its length, and changes nothing else. Hypotheses: input and output lie in
memory and do not overlap, the output ends below 4 GiB. -/
theorem C16_encode (o l out : BitVec 32) (cs : List Nat)
    (hcs : scalarsAt g.mem o.toNat cs.length = cs) (hl : l.toNat = 4 * cs.length)
    (hc : ∀ c ∈ cs, c < 0x110000)
    (ho : o.toNat + l.toNat ≤ g.mem.size)
    (hout : out.toNat + (utf8Text cs).length ≤ g.mem.size)
    (h32 : out.toNat + (utf8Text cs).length < 2 ^ 32)
    (hd : o.toNat + l.toNat ≤ out.toNat ∨ out.toNat + (utf8Text cs).length ≤ o.toNat) :
    ∃ m', Same g.mem m' out.toNat (utf8Text cs).length ∧
      asciiAt m' out.toNat (utf8Text cs).length = utf8Text cs ∧
      Runs M (.std .convert_scalars_to_utf8) [.i32 o, .i32 l, .i32 out] g
        (.ret [.i32 (BitVec.ofNat 32 (utf8Text cs).length)] (g.setMem m')) := by
  have := runs_convert_scalars_to_utf8 (M := M) o l out cs.length hl ho (by rw [hcs]; exact hc)
    (by rw [hcs]; exact hout) (by rw [hcs]; exact h32) (by rw [hcs]; exact hd)
  rw [hcs] at this
  obtain ⟨m', ⟨h1, h2⟩, h3⟩ := this
  exact ⟨m', h1, h2, h3⟩

/-- A memory with the scalars U+20AC, U+1F600 at 8. -/
def scalarMem : Mem where
  size := 65536
  byte i := BitVec.ofNat 8 (if i = 10 then 0x20 else if i = 11 then 0xAC else if i = 13 then 0x01 else
    if i = 14 then 0xF6 else 0)
  le := by decide

example (h : g.mem = scalarMem) :
    ∃ m', asciiAt m' 100 7 = [0xE2, 0x82, 0xAC, 0xF0, 0x9F, 0x98, 0x80] ∧
      Runs M (.std .convert_scalars_to_utf8) [.i32 8#32, .i32 8#32, .i32 100#32] g
        (.ret [.i32 7#32] (g.setMem m')) := by
  obtain ⟨m', -, h1, h2⟩ := C16_encode M g 8#32 8#32 100#32 [0x20AC, 0x1F600] (by rw [h]; decide)
    (by decide) (by decide) (by rw [h]; decide) (by rw [h]; decide) (by decide) (by decide)
  exact ⟨m', h1, h2⟩

end Props
