import Verif.Stdlib.SkipLoop

/-! C31 (and C19): skipping a serialized value of unknown type. -/

namespace Props
open Wasm Spec
variable {σ : Type} (M : Wasm.Mod σ) (g : Store σ)

/-- Skipping the encoding of any value that a contract can receive returns the offset of the end of
that encoding and changes nothing.

Missing: bytes that are not an encoding are not always rejected (counterexamples below); values that
name the transient contract are not covered, nor bounds of 2 GiB or more. Lists are skipped by the host:
`SkipListHost` says what is assumed of it. -/
theorem C31_skip_partial (hM : SkipListHost M) (v : Value) (hv : Proper v) (o e : BitVec 32)
    (hb : bytesAt g.mem o.toNat (consensus v).length = consensus v) (he : o.toNat + (consensus v).length ≤ e.toNat)
    (hm : e.toNat ≤ g.mem.size) (h31 : e.toNat < 2 ^ 31) :
    Runs M (.std .skip_unknown_value) [.i32 o, .i32 e] g (.ret [.i32 (BitVec.ofNat 32 (o.toNat + (consensus v).length))] g) := by
  have := skips_value (g := g) hM v hv o e ⟨hb, by omega⟩ he h31
  rwa [show o + BitVec.ofNat 32 (consensus v).length = BitVec.ofNat 32 (o.toNat + (consensus v).length) from
    BitVec.eq_of_toNat_eq (by simp)] at this

/-- Where an encoding ends does not depend on what it encodes: two values whose encodings start at the
same place end at the same place. So the end that skipping returns is the end of *every* encoding there. -/
theorem C31_one_end (v w : Value) (hv : Proper v) (hw : Proper w) (x y : List Byte)
    (lv : (consensus v).length < 2 ^ 32) (lw : (consensus w).length < 2 ^ 32)
    (h : consensus v ++ x = consensus w ++ y) : (consensus v).length = (consensus w).length ∧ x = y :=
  ends_value v hv w x y hw lv lw h

/-- A prefix that no value has is rejected. -/
theorem C31_unknown_prefix (o e : BitVec 32) (hne : o ≠ e) (ho : o.toNat < g.mem.size) (ht : 14 < (g.mem.byte o.toNat).toNat) :
    Runs M (.std .skip_unknown_value) [.i32 o, .i32 e] g (.ret [.i32 0#32] g) := by
  have hl := (g.mem.byte o.toNat).isLt
  apply runs_std (by simp)
  wpy [stdFunc, Std.skip_unknown_value, Std.skip_unknown_value_body]
  rw [if_neg hne, wp_i32load (by omega), Nat.add_zero, load1]
  wpy
  rw [if_pos (by simp; omega)]
  trivial

/-- Integers are skipped exactly if they fit between the bounds, otherwise they are rejected. -/
theorem C31_integer (o e : BitVec 32) (ho : o.toNat < e.toNat) (hm : e.toNat ≤ g.mem.size) (h31 : e.toNat + 16 < 2 ^ 32)
    (ht : g.mem.byte o.toNat = 0x00#8 ∨ g.mem.byte o.toNat = 0x01#8) :
    Runs M (.std .skip_unknown_value) [.i32 o, .i32 e] g
      (.ret [.i32 (if o.toNat + 17 ≤ e.toNat then o + 17#32 else 0#32)] g) := by
  have e1 : (o + 1#32).toNat = o.toNat + 1 := by rw [BitVec.toNat_add, BitVec.toNat_ofNat]; omega
  have e2 : (o + 1#32 + 16#32).toNat = o.toNat + 17 := by rw [BitVec.toNat_add, e1, BitVec.toNat_ofNat]; omega
  have key : Runs M (.std .skip_int128) [.i32 (o + 1#32), .i32 e] g
      (.ret [.i32 (if o.toNat + 17 ≤ e.toNat then o + 17#32 else 0#32)] g) := by
    apply runs_std (by simp)
    wpy [stdFunc, Std.skip_int128, Std.skip_int128_body]
    rw [e2]
    by_cases h : o.toNat + 17 ≤ e.toNat
    · simp [h, BitVec.add_assoc]
    · simp [h]
  rcases ht with ht | ht
  · exact runs_dispatch (t := 0) (by omega) rfl rfl (by rintro rfl; omega) ht (by omega) key ⟨_, rfl⟩
  · exact runs_dispatch (t := 1) (by omega) rfl rfl (by rintro rfl; omega) ht (by omega) key ⟨_, rfl⟩

/-- A memory of one page holding the given bytes at 1000, and zeros elsewhere. -/
def skipMem (bs : List Byte) : Mem where
  size := 65536
  byte i := if 1000 ≤ i then bs.getD (i - 1000) 0#8 else 0#8
  le := by decide

theorem skipMem_bytes (bs : List Byte) : bytesAt (skipMem bs) 1000 bs.length = bs := by
  have key : ∀ xs pre : List Byte, bytesAt (skipMem (pre ++ xs)) (1000 + pre.length) xs.length = xs := by
    intro xs
    induction xs with
    | nil => intro _; rfl
    | cons x xs ih =>
      intro pre
      have := ih (pre ++ [x])
      rw [List.append_assoc, List.length_append, ← Nat.add_assoc] at this
      rw [List.length_cons, bytesAt]
      congr 1
      simp [skipMem, List.getD]
  exact key bs []

/-- The value `{ a: (some u5), b: (list true false), c: u"a\u{e9}" }`. -/
def skipVal : Value :=
  .tuple [([0x61#8], .some (.uint 5)), ([0x62#8], .list [.bool true, .bool false]), ([0x63#8], .utf8 [0x61, 0xe9])]

theorem skipVal_proper : Proper skipVal := by
  have h : isScalar 0x61 ∧ isScalar 0xe9 := by decide
  refine ⟨by simp, by decide, trivial, by decide, ⟨⟨2, .bool, ?_⟩, trivial, trivial, trivial⟩, by decide, ?_, trivial⟩
  · simp [HasType]
  · intro c hc
    simp only [List.mem_cons, List.not_mem_nil, or_false] at hc
    rcases hc with rfl | rfl
    · exact h.1
    · exact h.2

/-- The hypotheses of `C31_skip_partial` are met: skipping it leads from 1000 to its end. -/
example (hM : SkipListHost M) (h : g.mem = skipMem (consensus skipVal)) :
    Runs M (.std .skip_unknown_value) [.i32 1000#32, .i32 2000#32] g (.ret [.i32 1044#32] g) := by
  have := C31_skip_partial M g hM skipVal skipVal_proper 1000#32 2000#32 (by rw [h]; exact skipMem_bytes _)
    (by decide) (by rw [h]; decide) (by decide)
  rwa [show BitVec.ofNat 32 ((1000#32).toNat + (consensus skipVal).length) = 1044#32 from by decide] at this

open Classical in
/-- A host whose `skip_list` meets `SkipListHost`. -/
noncomputable def skipHost : HostFn → List Val → Store σ → HRes σ := fun f args g =>
  if h : ∃ o e : BitVec 32, ∃ vs : List Value, f = .skip_list ∧ args = [.i32 o, .i32 e] ∧ ProperAll vs ∧
      Holds g.mem o.toNat (lenBytes vs.length ++ consensusAll vs) ∧ o.toNat + 4 + (consensusAll vs).length ≤ e.toNat
  then .ret [.i32 (h.choose + BitVec.ofNat 32 (4 + (consensusAll h.choose_spec.choose_spec.choose).length))] g
  else .err g

open Classical in
theorem skipHost_eq {f : HostFn} {args : List Val} {g : Store σ}
    (hex : ∃ o e : BitVec 32, ∃ vs : List Value, f = .skip_list ∧ args = [.i32 o, .i32 e] ∧ ProperAll vs ∧
      Holds g.mem o.toNat (lenBytes vs.length ++ consensusAll vs) ∧ o.toNat + 4 + (consensusAll vs).length ≤ e.toNat) :
    ∃ o e : BitVec 32, ∃ vs : List Value, args = [.i32 o, .i32 e] ∧ ProperAll vs ∧
      Holds g.mem o.toNat (lenBytes vs.length ++ consensusAll vs) ∧ o.toNat + 4 + (consensusAll vs).length ≤ e.toNat ∧
      skipHost f args g = .ret [.i32 (o + BitVec.ofNat 32 (4 + (consensusAll vs).length))] g := by
  refine ⟨_, _, _, (hex.choose_spec.choose_spec.choose_spec).2.1, (hex.choose_spec.choose_spec.choose_spec).2.2.1,
    (hex.choose_spec.choose_spec.choose_spec).2.2.2.1, (hex.choose_spec.choose_spec.choose_spec).2.2.2.2, ?_⟩
  unfold skipHost
  rw [dif_pos hex]

/-- The assumption on the host can be met: the end of a list is determined by the bytes. -/
theorem skipListHost_sat : SkipListHost ({ user := fun _ => none, host := skipHost } : Wasm.Mod σ) := by
  intro g o e n t vs _ hp hb he
  obtain ⟨o', e', vs', h1, h2, h3, h4, h5⟩ := skipHost_eq (f := .skip_list) (args := [.i32 o, .i32 e]) (g := g)
    ⟨o, e, vs, rfl, rfl, hp, hb, he⟩
  simp only
  rw [h5]
  cases h1
  have hle := e.isLt
  have k1 := hb.split.1
  have k2 := h3.split.1
  have b1 := length_all vs
  have b2 := length_all vs'
  have en : vs.length = vs'.length := by
    have a1 := k1.len (by omega)
    have a2 := k2.len (by omega)
    omega
  have c1 := hb.split.2
  have c2 := h3.split.2
  rw [length_lenBytes] at c1 c2
  have key : ∀ xs ys : List Byte, Holds g.mem (o.toNat + 4) xs → Holds g.mem (o.toNat + 4) ys → xs.length ≤ ys.length →
      ∃ r, ys = xs ++ r := by
    intro xs ys hx hy hl
    refine ⟨ys.drop xs.length, ?_⟩
    have : bytesAt g.mem (o.toNat + 4) ys.length = bytesAt g.mem (o.toNat + 4) xs.length ++ bytesAt g.mem (o.toNat + 4 + xs.length) (ys.length - xs.length) := by
      rw [← bytesAt_add, Nat.add_sub_cancel' hl]
    rw [hx.1, hy.1] at this
    rw [this, List.drop_left]
  have el : (consensusAll vs).length = (consensusAll vs').length := by
    rcases Nat.le_total (consensusAll vs).length (consensusAll vs').length with hl | hl
    · obtain ⟨r, hr⟩ := key _ _ c1 c2 hl
      exact (ends_all vs hp vs' r [] h2 en (by omega) (by omega) (by rw [List.append_nil, hr])).1
    · obtain ⟨r, hr⟩ := key _ _ c2 c1 hl
      exact ((ends_all vs' h2 vs r [] hp en.symm (by omega) (by omega) (by rw [List.append_nil, hr])).1).symm
  rw [el]

/-- Not every malformed byte string is rejected: the single byte `0a` (the prefix of `some`, with nothing
behind it) is skipped, although no value is encoded by it: the empty rest is accepted as a value. -/
theorem C31_counterexample_truncated (h : g.mem = skipMem [0x0a#8]) :
    Runs M (.std .skip_unknown_value) [.i32 1000#32, .i32 1001#32] g (.ret [.i32 1001#32] g) ∧
    ∀ v : Value, consensus v ≠ [0x0a#8] := by
  constructor
  · refine runs_dispatch (t := 10) (by omega) (f := .std .skip_some_ok_err) rfl rfl (by decide) (by rw [h]; simp [skipMem]) (by rw [h]; decide) ?_ ⟨_, rfl⟩
    refine runs_skip_some ?_ ⟨_, rfl⟩
    apply runs_std (by simp)
    wpy [stdFunc, Std.skip_unknown_value, Std.skip_unknown_value_body]
    simp
  · intro v hv
    cases v with
    | bool b => cases b <;> simp [consensus] at hv
    | principal p => cases p <;> simp [consensus, contractBytes] at hv
    | some v =>
      simp only [consensus, List.cons.injEq, true_and] at hv
      have := consensus_pos v
      rw [hv] at this
      simp at this
    | _ => simp [consensus, contractBytes] at hv

/-- A buffer whose length is 2^32 - 1 is skipped, with an offset *before* the end of its length: the
computation of the end wraps around. -/
theorem C31_counterexample_wrap (h : g.mem = skipMem [0x02#8, 0xff#8, 0xff#8, 0xff#8, 0xff#8]) :
    Runs M (.std .skip_unknown_value) [.i32 1000#32, .i32 1005#32] g (.ret [.i32 1004#32] g) := by
  refine runs_dispatch (t := 2) (by omega) (f := .std .skip_buffer) rfl rfl (by decide) (by rw [h]; simp [skipMem]) (by rw [h]; decide) ?_ ⟨_, rfl⟩
  have r1 : Runs M (.std .load_i32_be) [.i32 1001#32] g (.ret [.i32 4294967295#32] g) := by
    have := runs_load_i32_be (M := M) (g := g) 1001#32 (by rw [h]; decide)
    rw [h] at this
    simpa [beNat4, skipMem] using this
  apply runs_std (by simp)
  wpy [stdFunc, Std.skip_buffer, Std.skip_buffer_body]
  rw [if_neg (by decide)]
  refine (wp_call_runs (args := [.i32 1001#32]) (ps := [.i32]) (rs := [.i32]) rfl rfl r1 (by simp)).2 ?_
  wpy
  simp

/-- C19: the runtime library does not always terminate. Skipping the twelve bytes
`0c 00000002 01 61 02 fffffff2` (a tuple with two fields, the first being a buffer whose length makes the
offset wrap around) that are preceded by the bytes `01 61` does not end with any amount of fuel: the second
field of the tuple is the tuple itself. (A real engine runs out of call stack.) -/
theorem C19_counterexample_skip (a e : BitVec 32)
    (hb : bytesAt g.mem a.toNat 14 =
      [0x01#8, 0x61#8, 0x0c#8, 0x00#8, 0x00#8, 0x00#8, 0x02#8, 0x01#8, 0x61#8, 0x02#8, 0xff#8, 0xff#8, 0xff#8, 0xf2#8])
    (he : a.toNat + 14 ≤ e.toNat) (hm : e.toNat ≤ g.mem.size) (ha : a ≠ 0#32) :
    ∀ n, invoke M n (.std .skip_unknown_value) [.i32 (a + 2#32), .i32 e] g = .oof :=
  skip_loops a e ⟨hb, by show a.toNat + 14 ≤ _; omega⟩ he ha

/-- Its hypotheses are met. -/
example (h : g.mem = skipMem loopBytes) :
    ∀ n, invoke M n (.std .skip_unknown_value) [.i32 (1000#32 + 2#32), .i32 1014#32] g = .oof :=
  C19_counterexample_skip M g 1000#32 1014#32 (by rw [h]; exact skipMem_bytes loopBytes) (by decide) (by rw [h]; decide) (by decide)

end Props
