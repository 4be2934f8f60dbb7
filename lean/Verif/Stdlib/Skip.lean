import Verif.Gen.SerProof
import Verif.Stdlib.Utf8Loop
import Verif.Stdlib.Valid

/-!
Runtime library: `$stdlib.skip-unknown-value` and the functions it calls through the table
(standard.wat 3583-3847), on the encodings of values.
-/

namespace Wasm
open Spec
variable {σ : Type} {M : Mod σ} {g : Store σ}

/-- The bytes `bs` are at `o`. -/
def Holds (m : Mem) (o : Nat) (bs : List Byte) : Prop := bytesAt m o bs.length = bs ∧ o + bs.length ≤ m.size

theorem Holds.split {m : Mem} {o : Nat} {xs ys : List Byte} (h : Holds m o (xs ++ ys)) :
    Holds m o xs ∧ Holds m (o + xs.length) ys := by
  have h2 := h.2
  rw [List.length_append] at h2
  exact ⟨⟨(Gen.bytesAt_split h.1).1, by omega⟩, ⟨(Gen.bytesAt_split h.1).2, by omega⟩⟩

theorem Holds.cons {m : Mem} {o : Nat} {b : Byte} {ys : List Byte} (h : Holds m o (b :: ys)) :
    m.byte o = b ∧ o + 1 ≤ m.size ∧ Holds m (o + 1) ys := by
  have h1 := h.1
  have h2 := h.2
  rw [List.length_cons] at h1 h2
  simp only [bytesAt, List.cons.injEq] at h1
  exact ⟨h1.1, by omega, h1.2, by omega⟩

theorem beNat_bigEndian (k n : Nat) (h : n < 256 ^ k) : beNat (bigEndian k n) = n := by
  induction k generalizing n with
  | zero => simp at h; subst h; rfl
  | succ k ih =>
    rw [bigEndian, beNat_cons, length_bigEndian, ← bigEndian_mod, ih _ (Nat.mod_lt _ (by positivity)),
      BitVec.toNat_ofNat]
    have : n / 256 ^ k < 256 := by
      rw [Nat.div_lt_iff_lt_mul (by positivity)]; rw [Nat.pow_succ] at h; omega
    rw [Nat.mod_eq_of_lt (by omega : n / 256 ^ k < 2 ^ 8)]
    exact Nat.div_add_mod _ _

theorem Holds.len {m : Mem} {o n : Nat} (h : Holds m o (lenBytes n)) (hn : n < 2 ^ 32) :
    beNat (bytesAt m o 4) = n := by
  have := h.1
  rw [lenBytes, length_bigEndian] at this
  rw [this, beNat_bigEndian 4 n (by omega)]

theorem length_lenBytes (n : Nat) : (lenBytes n).length = 4 := length_bigEndian 4 n

theorem Holds.four {m : Mem} {o n : Nat} (h : Holds m o (lenBytes n)) : o + 4 ≤ m.size := by
  have := h.2; rwa [length_lenBytes] at this

/-- The dispatch on the type prefix. -/
theorem runs_dispatch {f : FId} {o e : BitVec 32} {t : Nat} {r : CRes σ} (ht : t ≤ 14)
    (hf : stdTable (t + 5) = some f) (hs : M.sig f = some ([.i32, .i32], [.i32])) (hoe : o ≠ e)
    (hb : g.mem.byte o.toNat = BitVec.ofNat 8 t) (hz : o.toNat + 1 ≤ g.mem.size)
    (h : Runs M f [.i32 (o + 1#32), .i32 e] g r) (hr : ∃ v, r = .ret [v] g) :
    Runs M (.std .skip_unknown_value) [.i32 o, .i32 e] g r := by
  obtain ⟨v, rfl⟩ := hr
  apply runs_std (by simp)
  wpy [stdFunc, Std.skip_unknown_value, Std.skip_unknown_value_body]
  wif hoe
  rw [wp_i32load (by omega), Nat.add_zero, load1]
  wpy
  rw [hb]
  have e1 : (BitVec.setWidth 32 (BitVec.ofNat 8 t)).toNat = t := by
    rw [BitVec.toNat_setWidth, BitVec.toNat_ofNat]; omega
  rw [e1]
  rw [if_neg (by omega)]
  rw [wp_callIndirect (f := f) (by rw [BitVec.toNat_add, e1]; rw [show (t + (5#32).toNat) % 2 ^ 32 = t + 5 by simp; omega]; exact hf) hs]
  refine (wp_call_runs (args := [.i32 (o + 1#32), .i32 e]) hs rfl h (by simp)).2 ?_
  wpy

theorem runs_skip_int128 (o e : BitVec 32) (h : o.toNat + 16 ≤ e.toNat) :
    Runs M (.std .skip_int128) [.i32 o, .i32 e] g (.ret [.i32 (o + 16#32)] g) := by
  apply runs_std (by simp)
  wpy [stdFunc, Std.skip_int128, Std.skip_int128_body]
  have := e.isLt
  have e1 : (o + 16#32).toNat = o.toNat + 16 := by rw [BitVec.toNat_add, BitVec.toNat_ofNat]; omega
  rw [e1, if_pos (by omega)]

theorem runs_skip_none (o e : BitVec 32) :
    Runs M (.std .skip_boolean_or_none) [.i32 o, .i32 e] g (.ret [.i32 o] g) := by
  apply runs_std (by simp)
  wpy [stdFunc, Std.skip_boolean_or_none, Std.skip_boolean_or_none_body]

theorem runs_skip_some {o e : BitVec 32} {r : CRes σ} (h : Runs M (.std .skip_unknown_value) [.i32 o, .i32 e] g r)
    (hr : ∃ v, r = .ret [v] g) : Runs M (.std .skip_some_ok_err) [.i32 o, .i32 e] g r := by
  obtain ⟨v, rfl⟩ := hr
  apply runs_std (by simp)
  wpy [stdFunc, Std.skip_some_ok_err, Std.skip_some_ok_err_body]
  refine (wp_call_runs (args := [.i32 o, .i32 e]) (ps := [.i32, .i32]) (rs := [.i32]) rfl rfl h (by simp)).2 ?_
  wpy

theorem runs_skip_buffer (o e : BitVec 32) (n : Nat) (hb : Holds g.mem o.toNat (lenBytes n))
    (he : o.toNat + 4 + n ≤ e.toNat) :
    Runs M (.std .skip_buffer) [.i32 o, .i32 e] g (.ret [.i32 (o + BitVec.ofNat 32 (4 + n))] g) := by
  have := e.isLt
  apply runs_std (by simp)
  wpy [stdFunc, Std.skip_buffer, Std.skip_buffer_body]
  have e1 : (o + 4#32).toNat = o.toNat + 4 := by rw [BitVec.toNat_add, BitVec.toNat_ofNat]; omega
  rw [e1, if_neg (by omega)]
  refine (wp_call_runs (args := [.i32 o]) (ps := [.i32]) (rs := [.i32]) rfl rfl (runs_load_i32_be o hb.four) (by simp)).2 ?_
  wpy
  rw [hb.len (by omega)]
  have e2 : (o + 4#32 + BitVec.ofNat 32 n).toNat = o.toNat + 4 + n := by
    rw [BitVec.toNat_add, e1, BitVec.toNat_ofNat]; omega
  rw [e2, if_pos (by omega)]
  congr 3
  rw [BitVec.ofNat_add, ← BitVec.add_assoc]

theorem runs_skip_principal (o e : BitVec 32) (s : StdPrincipal) (hs : s.Ok) (hb : Holds g.mem o.toNat (issuerBytes s))
    (he : o.toNat + 21 ≤ e.toNat) :
    Runs M (.std .skip_principal) [.i32 o, .i32 e] g (.ret [.i32 (o + 21#32)] g) := by
  have := e.isLt
  apply runs_std (by simp)
  wpy [stdFunc, Std.skip_principal, Std.skip_principal_body]
  have e1 : (o + 21#32).toNat = o.toNat + 21 := by rw [BitVec.toNat_add, BitVec.toNat_ofNat]; omega
  rw [e1, if_pos (by omega)]
  rw [issuerBytes] at hb
  obtain ⟨h1, h2, -⟩ := hb.cons
  rw [wp_i32load (by omega), Nat.add_zero, load1]
  wpy
  have e2 : (BitVec.setWidth 32 (g.mem.byte o.toNat)).toNat = s.version.toNat := by
    rw [BitVec.toNat_setWidth, h1]; have := s.version.isLt; omega
  rw [e2, if_pos (by have := hs.1; omega)]

theorem Holds.ascii {m : Mem} {o n : Nat} {bs : List Byte} (h : Holds m o bs) (hn : bs.length = n) :
    asciiAt m o n = bs.map BitVec.toNat := by
  subst hn; rw [asciiAt, h.1]

/-- A contract name other than `__transient` is a Clarity name. -/
theorem clarityName_contract {n : Name} (h : contractNameOk n) (ht : n.map BitVec.toNat ≠ transientName) :
    clarityName (n.map BitVec.toNat) = true := by
  obtain ⟨h1, h2⟩ := h
  have hl : (n.map BitVec.toNat).length ≤ 128 := by simpa using h2
  generalize n.map BitVec.toNat = cs at *
  match cs, h1, ht, hl with
  | c :: ds, h1, ht, hl =>
    simp only [contractName, Bool.or_eq_true, Bool.and_eq_true, beq_iff_eq] at h1
    rcases h1 with ⟨ha, hd⟩ | h1
    · simp only [clarityName, Bool.and_eq_true, decide_eq_true_eq, Bool.or_eq_true]
      refine ⟨hl, .inl (.inl ⟨ha, ?_⟩)⟩
      rw [List.all_eq_true] at hd ⊢
      intro d hd'
      have := hd d hd'
      simp only [Bool.or_eq_true, beq_iff_eq] at this ⊢
      rcases this with ((h | h) | h) | h
      · exact .inl (.inl h)
      · exact .inl (.inr h)
      · subst h; exact .inr (by decide)
      · subst h; exact .inr (by decide)
    · exact absurd h1 ht

theorem runs_skip_contract (o e : BitVec 32) (c : ContractId) (hc : c.Ok) (ht : c.name.map BitVec.toNat ≠ transientName)
    (hb : Holds g.mem o.toNat (issuerBytes c.issuer ++ nameBytes c.name))
    (he : o.toNat + 22 + c.name.length ≤ e.toNat) :
    Runs M (.std .skip_contract) [.i32 o, .i32 e] g (.ret [.i32 (o + BitVec.ofNat 32 (22 + c.name.length))] g) := by
  have := e.isLt
  have hn := hc.2.2
  obtain ⟨hi, hnm⟩ := hb.split
  rw [nameBytes, issuerBytes, List.length_cons, hc.1.2] at hnm
  obtain ⟨h1, h2, h3⟩ := hnm.cons
  have e1 : (o + 21#32).toNat = o.toNat + 21 := by rw [BitVec.toNat_add, BitVec.toNat_ofNat]; omega
  apply runs_std (by simp)
  wpy [stdFunc, Std.skip_contract, Std.skip_contract_body]
  refine (wp_call_runs (args := [.i32 o, .i32 e]) (ps := [.i32, .i32]) (rs := [.i32]) rfl rfl
    (runs_skip_principal o e c.issuer hc.1 hi (by omega)) (by simp)).2 ?_
  wpy
  have hne : ¬ o + 21#32 = 0#32 := fun h => by rw [h] at e1; simp at e1
  rw [e1]
  rw [if_pos ⟨hne, by omega⟩]
  rw [wp_i32load (by omega), Nat.add_zero, load1, e1]
  wpy
  have e2 : (BitVec.setWidth 32 (g.mem.byte (o.toNat + 21))) = BitVec.ofNat 32 c.name.length := by
    apply BitVec.eq_of_toNat_eq
    rw [BitVec.toNat_setWidth, h1, BitVec.toNat_ofNat, BitVec.toNat_ofNat]; omega
  have e3 : (BitVec.ofNat 32 c.name.length).toNat = c.name.length := by rw [BitVec.toNat_ofNat]; omega
  have e4 : (o + 21#32 + 1#32).toNat = o.toNat + 21 + 1 := by rw [BitVec.toNat_add, e1, BitVec.toNat_ofNat]; omega
  rw [e2, e3, if_pos (by omega)]
  refine (wp_call_runs (args := [.i32 (o + 21#32 + 1#32), .i32 (BitVec.ofNat 32 c.name.length)]) (ps := [.i32, .i32]) (rs := [.i32]) rfl rfl
    (runs_check_clarity_name _ _ (by rw [e3, e4]; have := h3.2; omega)) (by simp)).2 ?_
  wpy
  rw [e3, e4, h3.ascii rfl, clarityName_contract hc.2 ht]
  simp [BitVec.ofNat_add, BitVec.add_assoc]

theorem runs_skip_ascii (o e : BitVec 32) (bs : List Byte) (ha : ∀ b ∈ bs, asciiOk b.toNat = true)
    (hb : Holds g.mem o.toNat (lenBytes bs.length ++ bs)) (hm : e.toNat < 2 ^ 31)
    (he : o.toNat + 4 + bs.length ≤ e.toNat) :
    Runs M (.std .skip_string_ascii) [.i32 o, .i32 e] g (.ret [.i32 (o + BitVec.ofNat 32 (4 + bs.length))] g) := by
  obtain ⟨h1, h2⟩ := hb.split
  rw [length_lenBytes] at h2
  have e1 : (o + 4#32).toNat = o.toNat + 4 := by rw [BitVec.toNat_add, BitVec.toNat_ofNat]; omega
  have e2 : (e - o).toInt = e.toNat - o.toNat := by
    rw [BitVec.toInt_eq_toNat_of_lt (by rw [BitVec.toNat_sub]; omega), BitVec.toNat_sub]; omega
  have e3 : (e - (o + 4#32)).toInt = e.toNat - (o.toNat + 4) := by
    rw [BitVec.toInt_eq_toNat_of_lt (by rw [BitVec.toNat_sub, e1]; omega), BitVec.toNat_sub, e1]; omega
  have e4 : (BitVec.ofNat 32 bs.length).toNat = bs.length := by rw [BitVec.toNat_ofNat]; omega
  have e5 : (BitVec.ofNat 32 bs.length).toInt = bs.length := by
    rw [BitVec.toInt_eq_toNat_of_lt (by rw [e4]; omega), e4]
  apply runs_std (by simp)
  wpy [stdFunc, Std.skip_string_ascii, Std.skip_string_ascii_body]
  rw [e2, if_neg (by simp; omega)]
  refine (wp_call_runs (args := [.i32 o]) (ps := [.i32]) (rs := [.i32]) rfl rfl (runs_load_i32_be o h1.four) (by simp)).2 ?_
  wpy
  rw [h1.len (by omega), e3, e5, if_neg (by omega)]
  refine (wp_call_runs (args := [.i32 (o + 4#32), .i32 (BitVec.ofNat 32 bs.length)]) (ps := [.i32, .i32]) (rs := [.i32]) rfl rfl
    (runs_is_valid_string_ascii _ _ (by rw [e1, e4]; exact h2.2)) (by simp)).2 ?_
  wpy
  rw [e1, e4, h2.ascii rfl]
  have : (bs.map BitVec.toNat).all asciiOk = true := by
    rw [List.all_eq_true]; intro x hx
    obtain ⟨b, hb', rfl⟩ := List.mem_map.1 hx
    exact ha b hb'
  rw [this]
  simp [BitVec.ofNat_add, BitVec.add_assoc]

/-- The body of the loop of `$skip-string-utf8` (standard.wat 3749-3840). -/
def skipUtf8Loop : List Instr := [
    .b (.localGet 0), .b (.i32load 1 0), .b (.localSet 3), .b (.localGet 3),
    .b (.const (.i32 128#32)), .b (.i32rel .ltU),
    .ite 0 0 [
      .b (.localGet 0), .b (.const (.i32 1#32)), .b (.i32bin .add), .b (.localSet 0),
      .b (.localGet 2), .b (.const (.i32 1#32)), .b (.i32bin .sub), .b (.localTee 2), .brIf 1,
      .br 2] [],
    .b (.localGet 3), .b (.const (.i32 224#32)), .b (.i32bin .and), .b (.const (.i32 192#32)),
    .b (.i32rel .eq),
    .ite 0 0 [
      .b (.localGet 2), .b (.const (.i32 2#32)), .b (.i32rel .ltU), .brIf 2, .b (.localGet 0),
      .b (.i32load 1 1), .b (.localSet 4), .b (.localGet 4), .b (.const (.i32 192#32)),
      .b (.i32bin .and), .b (.const (.i32 128#32)), .b (.i32rel .ne), .brIf 2, .b (.localGet 3),
      .b (.const (.i32 31#32)), .b (.i32bin .and), .b (.const (.i32 6#32)), .b (.i32bin .shl),
      .b (.localGet 4), .b (.const (.i32 63#32)), .b (.i32bin .and), .b (.i32bin .or),
      .b (.localSet 3), .b (.localGet 3), .b (.const (.i32 128#32)), .b (.i32rel .ltU), .brIf 2,
      .b (.localGet 0), .b (.const (.i32 2#32)), .b (.i32bin .add), .b (.localSet 0),
      .b (.localGet 2), .b (.const (.i32 2#32)), .b (.i32bin .sub), .b (.localTee 2), .brIf 1,
      .br 2] [],
    .b (.localGet 3), .b (.const (.i32 240#32)), .b (.i32bin .and), .b (.const (.i32 224#32)),
    .b (.i32rel .eq),
    .ite 0 0 [
      .b (.localGet 2), .b (.const (.i32 3#32)), .b (.i32rel .ltU), .brIf 2, .b (.localGet 0),
      .b (.i32load 1 1), .b (.localSet 4), .b (.localGet 4), .b (.const (.i32 192#32)),
      .b (.i32bin .and), .b (.const (.i32 128#32)), .b (.i32rel .ne), .brIf 2, .b (.localGet 3),
      .b (.const (.i32 15#32)), .b (.i32bin .and), .b (.const (.i32 12#32)), .b (.i32bin .shl),
      .b (.localGet 4), .b (.const (.i32 63#32)), .b (.i32bin .and), .b (.const (.i32 6#32)),
      .b (.i32bin .shl), .b (.i32bin .or), .b (.localGet 0), .b (.i32load 1 2), .b (.localTee 4),
      .b (.const (.i32 63#32)), .b (.i32bin .and), .b (.i32bin .or), .b (.localSet 3),
      .b (.localGet 4), .b (.const (.i32 192#32)), .b (.i32bin .and), .b (.const (.i32 128#32)),
      .b (.i32rel .ne), .brIf 2, .b (.localGet 3), .b (.const (.i32 2048#32)), .b (.i32rel .ltU),
      .brIf 2, .b (.localGet 3), .b (.const (.i32 4294965248#32)), .b (.i32bin .and),
      .b (.const (.i32 55296#32)), .b (.i32rel .eq), .brIf 2, .b (.localGet 0),
      .b (.const (.i32 3#32)), .b (.i32bin .add), .b (.localSet 0), .b (.localGet 2),
      .b (.const (.i32 3#32)), .b (.i32bin .sub), .b (.localTee 2), .brIf 1, .br 2] [],
    .b (.localGet 3), .b (.const (.i32 248#32)), .b (.i32bin .and), .b (.const (.i32 240#32)),
    .b (.i32rel .eq),
    .ite 0 0 [
      .b (.localGet 2), .b (.const (.i32 4#32)), .b (.i32rel .ltU), .brIf 2, .b (.localGet 0),
      .b (.i32load 1 1), .b (.localSet 4), .b (.localGet 4), .b (.const (.i32 192#32)),
      .b (.i32bin .and), .b (.const (.i32 128#32)), .b (.i32rel .ne), .brIf 2, .b (.localGet 3),
      .b (.const (.i32 7#32)), .b (.i32bin .and), .b (.const (.i32 18#32)), .b (.i32bin .shl),
      .b (.localGet 4), .b (.const (.i32 63#32)), .b (.i32bin .and), .b (.const (.i32 12#32)),
      .b (.i32bin .shl), .b (.i32bin .or), .b (.localGet 0), .b (.i32load 1 2), .b (.localTee 4),
      .b (.const (.i32 63#32)), .b (.i32bin .and), .b (.const (.i32 6#32)), .b (.i32bin .shl),
      .b (.i32bin .or), .b (.localSet 3), .b (.localGet 4), .b (.const (.i32 192#32)),
      .b (.i32bin .and), .b (.const (.i32 128#32)), .b (.i32rel .ne), .brIf 2, .b (.localGet 0),
      .b (.i32load 1 3), .b (.localSet 4), .b (.localGet 4), .b (.const (.i32 192#32)),
      .b (.i32bin .and), .b (.const (.i32 128#32)), .b (.i32rel .ne), .brIf 2, .b (.localGet 3),
      .b (.localGet 4), .b (.const (.i32 63#32)), .b (.i32bin .and), .b (.i32bin .or),
      .b (.localSet 3), .b (.localGet 3), .b (.const (.i32 1114112#32)), .b (.i32bin .sub),
      .b (.const (.i32 4293918720#32)), .b (.i32rel .ltU), .brIf 2, .b (.localGet 0),
      .b (.const (.i32 4#32)), .b (.i32bin .add), .b (.localSet 0), .b (.localGet 2),
      .b (.const (.i32 4#32)), .b (.i32bin .sub), .b (.localTee 2), .brIf 1] []]

theorem skip_string_utf8_eq : Std.skip_string_utf8_body = [
    .b (.localGet 1), .b (.localGet 0), .b (.i32bin .sub), .b (.const (.i32 4#32)), .b (.i32rel .ltS),
    .ite 0 0 [
      .b (.const (.i32 0#32)), .ret] [],
    .b (.localGet 0), .call (.std .load_i32_be), .b (.localSet 2), .b (.localGet 1), .b (.localGet 0),
    .b (.const (.i32 4#32)), .b (.i32bin .add), .b (.localTee 0), .b (.i32bin .sub), .b (.localGet 2),
    .b (.i32rel .ltS),
    .ite 0 0 [
      .b (.const (.i32 0#32)), .ret] [],
    .block 0 0 [.b (.localGet 2), .b .i32eqz, .brIf 0, .loop 0 0 skipUtf8Loop],
    .b (.const (.i32 0#32)), .b (.localGet 0), .b (.localGet 2), .b .select] := rfl

/-- One round of the loop: a character. -/
theorem skip_char (a e l s b : BitVec 32) (c : Nat) {Q : Res σ → Prop} (hc : DecAt g.mem a.toNat c)
    (hl : (utf8 c).length ≤ l.toNat)
    (hnext : ∀ s' b', l.toNat ≠ (utf8 c).length → Q (.br 0 [] [.i32 (a + BitVec.ofNat 32 (utf8 c).length), .i32 e,
      .i32 (l - BitVec.ofNat 32 (utf8 c).length), .i32 s', .i32 b'] g))
    (hdone : ∀ s' b', l.toNat = (utf8 c).length → Q (.br 1 [] [.i32 (a + BitVec.ofNat 32 (utf8 c).length), .i32 e,
      .i32 (l - BitVec.ofNat 32 (utf8 c).length), .i32 s', .i32 b'] g) ∧
      Q (.norm [] [.i32 (a + BitVec.ofNat 32 (utf8 c).length), .i32 e,
      .i32 (l - BitVec.ofNat 32 (utf8 c).length), .i32 s', .i32 b'] g)) :
    WP M skipUtf8Loop [] [.i32 a, .i32 e, .i32 l, .i32 s, .i32 b] g Q := by
  obtain ⟨⟨hc1, hc2⟩, hcm⟩ := hc
  rw [utf8_cases] at hcm
  have hll := l.isLt
  have hz : ∀ k : Nat, k ≤ l.toNat → (l - BitVec.ofNat 32 k = 0#32 ↔ l.toNat = k) := by
    intro k hk
    rw [← BitVec.toNat_inj, BitVec.toNat_sub, BitVec.toNat_ofNat, BitVec.toNat_ofNat]
    omega
  generalize hk : (utf8 c).length = k at *
  have hb0 := (g.mem.byte a.toNat).isLt
  have e0 : (BitVec.setWidth 32 (g.mem.byte a.toNat)).toNat = (g.mem.byte a.toNat).toNat := by
    rw [BitVec.toNat_setWidth]; omega
  have hz' := hz k hl
  unfold skipUtf8Loop
  wpy
  rcases hcm with ⟨r1, hs, q0⟩ | ⟨r1, r2, hs, q0, q1⟩ | ⟨r1, r2, hs, q0, q1, q2⟩ | ⟨r1, hs, q0, q1, q2, q3⟩
  · obtain rfl : k = 1 := by rw [← hk, utf8_len, if_pos r1]
    rw [wp_i32load (by omega), Nat.add_zero, load1]
    wpy
    rw [e0, if_pos (by omega)]
    by_cases hlk : l.toNat = 1
    · rw [if_pos (by simpa using hz'.2 hlk)]
      exact (hdone _ _ hlk).1
    · rw [if_neg (by simpa using hz'.not.2 hlk)]
      exact hnext _ _ hlk
  · obtain rfl : k = 2 := by rw [← hk, utf8_len, if_neg (by omega), if_pos r2]
    rw [wp_i32load (by omega), Nat.add_zero, load1]
    wpy [byte_2, byte_3, byte_4, byte_cont]
    rw [e0, if_neg (by omega), if_pos (by omega), if_neg (by omega), wp_i32load (by omega), load1]
    wpy [byte_cont]
    generalize hB0 : g.mem.byte a.toNat = B0 at *
    generalize hB1 : g.mem.byte (a.toNat + 1) = B1 at *
    rw [if_pos (by omega)]
    have hv : ((BitVec.setWidth 32 B0 &&& 31#32) <<< 6 ||| BitVec.setWidth 32 B1 &&& 63#32).toNat = c := by
      rw [BitVec.toNat_or, low5, low6, or_add 6 (by omega) (by omega)]; omega
    rw [hv, if_neg (by omega)]
    by_cases hlk : l.toNat = 2
    · rw [if_pos (by simpa using hz'.2 hlk)]
      exact (hdone _ _ hlk).1
    · rw [if_neg (by simpa using hz'.not.2 hlk)]
      exact hnext _ _ hlk
  · obtain rfl : k = 3 := by rw [← hk, utf8_len, if_neg (by omega), if_neg (by omega), if_pos r2]
    rw [wp_i32load (by omega), Nat.add_zero, load1]
    wpy [byte_2, byte_3, byte_4, byte_cont]
    rw [e0, if_neg (by omega), if_neg (by omega), if_pos (by omega), if_neg (by omega), wp_i32load (by omega), load1]
    wpy [byte_cont]
    rw [if_pos (by omega), wp_i32load (by omega), load1]
    wpy [byte_cont]
    generalize hB0 : g.mem.byte a.toNat = B0 at *
    generalize hB1 : g.mem.byte (a.toNat + 1) = B1 at *
    generalize hB2 : g.mem.byte (a.toNat + 2) = B2 at *
    rw [if_pos (by omega)]
    have hv : ((BitVec.setWidth 32 B0 &&& 15#32) <<< 12 ||| (BitVec.setWidth 32 B1 &&& 63#32) <<< 6 |||
        BitVec.setWidth 32 B2 &&& 63#32).toNat = c := by
      rw [BitVec.toNat_or, BitVec.toNat_or, low4, low6, low6s6,
        or_add 12 (a := B0.toNat % 16 * 4096) (by omega) (by omega), or_add 6 (by omega) (by omega)]
      omega
    generalize (BitVec.setWidth 32 B0 &&& 15#32) <<< 12 ||| (BitVec.setWidth 32 B1 &&& 63#32) <<< 6 |||
        BitVec.setWidth 32 B2 &&& 63#32 = cv at *
    simp only [surrogate]
    rw [hv, if_neg (by omega), if_neg (by omega)]
    by_cases hlk : l.toNat = 3
    · rw [if_pos (by simpa using hz'.2 hlk)]
      exact (hdone _ _ hlk).1
    · rw [if_neg (by simpa using hz'.not.2 hlk)]
      exact hnext _ _ hlk
  · obtain rfl : k = 4 := by rw [← hk, utf8_len, if_neg (by omega), if_neg (by omega), if_neg (by omega)]
    rw [wp_i32load (by omega), Nat.add_zero, load1]
    wpy [byte_2, byte_3, byte_4, byte_cont]
    rw [e0, if_neg (by omega), if_neg (by omega), if_neg (by omega), if_pos (by omega), if_neg (by omega), wp_i32load (by omega), load1]
    wpy [byte_cont]
    rw [if_pos (by omega), wp_i32load (by omega), load1]
    wpy [byte_cont]
    rw [if_pos (by omega), wp_i32load (by omega), load1]
    wpy [byte_cont]
    generalize hB0 : g.mem.byte a.toNat = B0 at *
    generalize hB1 : g.mem.byte (a.toNat + 1) = B1 at *
    generalize hB2 : g.mem.byte (a.toNat + 2) = B2 at *
    generalize hB3 : g.mem.byte (a.toNat + 3) = B3 at *
    rw [if_pos (by omega)]
    have hv : ((BitVec.setWidth 32 B0 &&& 7#32) <<< 18 ||| (BitVec.setWidth 32 B1 &&& 63#32) <<< 12 |||
        (BitVec.setWidth 32 B2 &&& 63#32) <<< 6 ||| BitVec.setWidth 32 B3 &&& 63#32).toNat = c := by
      rw [BitVec.toNat_or, BitVec.toNat_or, BitVec.toNat_or, low3, low6, low6s6, low6s12,
        or_add 18 (a := B0.toNat % 8 * 262144) (by omega) (by omega),
        or_add 12 (a := B0.toNat % 8 * 262144 + B1.toNat % 64 * 4096) (by omega) (by omega),
        or_add 6 (by omega) (by omega)]
      omega
    generalize (BitVec.setWidth 32 B0 &&& 7#32) <<< 18 ||| (BitVec.setWidth 32 B1 &&& 63#32) <<< 12 |||
        (BitVec.setWidth 32 B2 &&& 63#32) <<< 6 ||| BitVec.setWidth 32 B3 &&& 63#32 = cv at *
    have hsub : (cv - 1114112#32).toNat < 4293918720 ↔ ¬ (0x10000 ≤ cv.toNat ∧ cv.toNat < 0x110000) := by
      rw [BitVec.toNat_sub, BitVec.toNat_ofNat]; omega
    simp only [hsub]
    rw [hv, if_neg (by omega)]
    by_cases hlk : l.toNat = 4
    · rw [if_pos (by simpa using hz'.2 hlk)]
      exact (hdone _ _ hlk).2
    · rw [if_neg (by simpa using hz'.not.2 hlk)]
      exact hnext _ _ hlk

theorem utf8_byte {c : Nat} (h : c < 0x110000) : ∀ x ∈ utf8 c, x < 256 := by
  unfold utf8
  intro x hx
  split at hx
  · simp at hx; omega
  split at hx
  · simp at hx; omega
  split at hx
  · simp at hx; omega
  · simp at hx; omega

theorem map_toNat_ofNat {xs : List Nat} (h : ∀ x ∈ xs, x < 256) :
    (xs.map (BitVec.ofNat 8)).map BitVec.toNat = xs := by
  rw [List.map_map]
  conv_rhs => rw [← List.map_id xs]
  apply List.map_congr_left
  intro x hx
  have := h x hx
  simp only [Function.comp, BitVec.toNat_ofNat, id]
  omega

theorem Holds.char {m : Mem} {o c : Nat} {cs : List Nat} (hc : isScalar c)
    (h : Holds m o ((utf8Text (c :: cs)).map (BitVec.ofNat 8))) :
    DecAt m o c ∧ Holds m (o + (utf8 c).length) ((utf8Text cs).map (BitVec.ofNat 8)) := by
  simp only [utf8Text, List.flatMap_cons, List.map_append] at h
  obtain ⟨h1, h2⟩ := h.split
  rw [List.length_map] at h2
  refine ⟨⟨hc, by have := h1.2; rwa [List.length_map] at this, ?_⟩, h2⟩
  rw [h1.ascii (List.length_map _), map_toNat_ofNat (utf8_byte hc.1)]

theorem length_utf8Text_cons (c : Nat) (cs : List Nat) :
    (utf8Text (c :: cs)).length = (utf8 c).length + (utf8Text cs).length := by
  simp [utf8Text, List.flatMap_cons]

theorem runs_skip_utf8 (o e : BitVec 32) (cs : List Nat) (ha : ∀ c ∈ cs, isScalar c)
    (hb : Holds g.mem o.toNat (lenBytes (utf8Text cs).length ++ (utf8Text cs).map (BitVec.ofNat 8)))
    (hm : e.toNat < 2 ^ 31) (he : o.toNat + 4 + (utf8Text cs).length ≤ e.toNat) :
    Runs M (.std .skip_string_utf8) [.i32 o, .i32 e] g
      (.ret [.i32 (o + BitVec.ofNat 32 (4 + (utf8Text cs).length))] g) := by
  obtain ⟨h1, h2⟩ := hb.split
  rw [length_lenBytes] at h2
  have e1 : (o + 4#32).toNat = o.toNat + 4 := by rw [BitVec.toNat_add, BitVec.toNat_ofNat]; omega
  have e2 : (e - o).toInt = e.toNat - o.toNat := by
    rw [BitVec.toInt_eq_toNat_of_lt (by rw [BitVec.toNat_sub]; omega), BitVec.toNat_sub]; omega
  have e3 : (e - (o + 4#32)).toInt = e.toNat - (o.toNat + 4) := by
    rw [BitVec.toInt_eq_toNat_of_lt (by rw [BitVec.toNat_sub, e1]; omega), BitVec.toNat_sub, e1]; omega
  generalize hL : (utf8Text cs).length = L at *
  have e4 : (BitVec.ofNat 32 L).toNat = L := by rw [BitVec.toNat_ofNat]; omega
  have e5 : (BitVec.ofNat 32 L).toInt = L := by
    rw [BitVec.toInt_eq_toNat_of_lt (by rw [e4]; omega), e4]
  have e6 : (o + BitVec.ofNat 32 (4 + L)).toNat = o.toNat + 4 + L := by
    rw [BitVec.toNat_add, BitVec.toNat_ofNat]; omega
  apply runs_std (by simp)
  simp only [stdFunc, Std.skip_string_utf8, skip_string_utf8_eq]
  wpy
  rw [e2, if_neg (by simp; omega)]
  refine (wp_call_runs (args := [.i32 o]) (ps := [.i32]) (rs := [.i32]) rfl rfl (runs_load_i32_be o h1.four) (by simp)).2 ?_
  wpy
  rw [h1.len (by omega), e3, e5, if_neg (by omega)]
  by_cases h0 : L = 0
  · subst h0
    wpy
  rw [if_neg (by intro h; rw [h] at e4; simp at e4; omega)]
  refine wp_loop_inv (fun (x : List Nat) loc g' => g' = g ∧ x ≠ [] ∧ (∀ c ∈ x, isScalar c) ∧ ∃ (a l s b : BitVec 32),
    loc = [.i32 a, .i32 e, .i32 l, .i32 s, .i32 b] ∧ l.toNat = (utf8Text x).length ∧
    Holds g.mem a.toNat ((utf8Text x).map (BitVec.ofNat 8)) ∧ a.toNat + l.toNat = o.toNat + 4 + L) List.length cs
    ⟨rfl, ?_, ha, o + 4#32, BitVec.ofNat 32 L, 0#32, 0#32, rfl, by rw [e4, hL], by rw [e1]; exact h2, by omega⟩ ?_
  · rintro rfl; simp [utf8Text] at hL; exact h0 hL.symm
  rintro x loc g' ⟨rfl, hx, hxs, a, l, s, b, rfl, hl, hh, hal⟩
  obtain ⟨c, x', rfl⟩ : ∃ c x', x = c :: x' := by cases x with
    | nil => exact absurd rfl hx
    | cons c x' => exact ⟨c, x', rfl⟩
  obtain ⟨d1, d2⟩ := hh.char (hxs c (by simp))
  rw [length_utf8Text_cons] at hl
  have hk : (utf8 c).length ≤ 4 := by rw [utf8_len]; split <;> [skip; split <;> [skip; split]] <;> omega
  have hal' : (a + BitVec.ofNat 32 (utf8 c).length).toNat = a.toNat + (utf8 c).length := by
    rw [BitVec.toNat_add, BitVec.toNat_ofNat]; omega
  have hll' : (l - BitVec.ofNat 32 (utf8 c).length).toNat = (utf8Text x').length := by
    have := l.isLt
    rw [BitVec.toNat_sub, BitVec.toNat_ofNat]; omega
  apply skip_char a e l s b c d1 (by omega)
  · intro s' b' hne
    refine ⟨x', by simp, rfl, ?_, fun c' h => hxs c' (by simp [h]), _, _, s', b', rfl, hll', ?_, ?_⟩
    · rintro rfl; simp [utf8Text] at hl; omega
    · rw [hal']; exact d2
    · omega
  · intro s' b' heq
    have ee : a + BitVec.ofNat 32 (utf8 c).length = o + BitVec.ofNat 32 (4 + L) := by
      apply BitVec.eq_of_toNat_eq; rw [hal', e6]; omega
    have ez : l - BitVec.ofNat 32 (utf8 c).length = 0#32 := by
      apply BitVec.eq_of_toNat_eq; rw [hll', BitVec.toNat_ofNat]; omega
    rw [ee, ez]
    constructor <;> wpy

theorem clarityName_len {k : Name} (h : clarityName (k.map BitVec.toNat) = true) : k.length ≤ 128 := by
  simp only [clarityName, Bool.and_eq_true, decide_eq_true_eq, List.length_map] at h
  exact h.1

/-- Skipping the encoding of `v` succeeds. -/
def SkipsAt (M : Mod σ) (g : Store σ) (v : Value) : Prop :=
  ∀ o e : BitVec 32, Holds g.mem o.toNat (consensus v) → o.toNat + (consensus v).length ≤ e.toNat → e.toNat < 2 ^ 31 →
    Runs M (.std .skip_unknown_value) [.i32 o, .i32 e] g (.ret [.i32 (o + BitVec.ofNat 32 (consensus v).length)] g)

theorem consensus_pos (v : Value) : 0 < (consensus v).length := by
  cases v with
  | bool b => cases b <;> simp [consensus]
  | principal p => cases p <;> simp [consensus, contractBytes]
  | _ => simp [consensus, contractBytes]

theorem properFields_mem : ∀ {kvs : List (Name × Value)}, ProperFields kvs → ∀ kv ∈ kvs,
    clarityName (kv.1.map BitVec.toNat) = true ∧ Proper kv.2
  | [], _, _, h => by simp at h
  | (k, v) :: kvs, h, kv, hm => by
    rcases List.mem_cons.1 hm with rfl | hm
    · exact ⟨h.1, h.2.1⟩
    · exact properFields_mem h.2.2 kv hm

theorem runs_skip_tuple (o e : BitVec 32) (kvs : List (Name × Value)) (hk : kvs ≠ [])
    (hp : ∀ kv ∈ kvs, clarityName (kv.1.map BitVec.toNat) = true) (ih : ∀ kv ∈ kvs, SkipsAt M g kv.2)
    (hb : Holds g.mem o.toNat (lenBytes kvs.length ++ consensusFields kvs)) (hm : e.toNat < 2 ^ 31)
    (he : o.toNat + 4 + (consensusFields kvs).length ≤ e.toNat) :
    Runs M (.std .skip_tuple) [.i32 o, .i32 e] g (.ret [.i32 (o + BitVec.ofNat 32 (4 + (consensusFields kvs).length))] g) := by
  obtain ⟨h1, h2⟩ := hb.split
  rw [length_lenBytes] at h2
  have e1 : (o + 4#32).toNat = o.toNat + 4 := by rw [BitVec.toNat_add, BitVec.toNat_ofNat]; omega
  have hle : ∀ x : List (Name × Value), x.length ≤ (consensusFields x).length := by
    intro x
    induction x with
    | nil => simp
    | cons kv x ih =>
      obtain ⟨k, v⟩ := kv
      simp only [consensusFields, nameBytes, List.length_append, List.length_cons]; omega
  have hlen := hle kvs
  generalize hL : (consensusFields kvs).length = L at *
  have e6 : (o + BitVec.ofNat 32 (4 + L)).toNat = o.toNat + 4 + L := by
    rw [BitVec.toNat_add, BitVec.toNat_ofNat]; omega
  have e7 : (BitVec.ofNat 32 kvs.length).toNat = kvs.length := by rw [BitVec.toNat_ofNat]; omega
  have hpos : 0 < kvs.length := List.length_pos_iff.2 hk
  apply runs_std (by simp)
  wpy [stdFunc, Std.skip_tuple, Std.skip_tuple_body]
  rw [e1, if_neg (by omega)]
  refine (wp_call_runs (args := [.i32 o]) (ps := [.i32]) (rs := [.i32]) rfl rfl (runs_load_i32_be o h1.four) (by simp)).2 ?_
  wpy
  rw [h1.len (by omega), if_neg (by intro h; rw [h] at e7; simp at e7; omega)]
  refine wp_loop_inv (fun (x : List (Name × Value)) loc g' => g' = g ∧ x ≠ [] ∧ (∀ kv ∈ x, kv ∈ kvs) ∧ ∃ (a l s : BitVec 32),
    loc = [.i32 a, .i32 e, .i32 l, .i32 s] ∧ l.toNat = x.length ∧
    Holds g.mem a.toNat (consensusFields x) ∧ a.toNat + (consensusFields x).length = o.toNat + 4 + L) List.length kvs
    ⟨rfl, hk, fun _ h => h, o + 4#32, BitVec.ofNat 32 kvs.length, 0#32, rfl, e7, by rw [e1]; exact h2, by omega⟩ ?_
  rintro x loc g' ⟨rfl, hx, hxs, a, l, s, rfl, hl, hh, hal⟩
  obtain ⟨k, v, x', rfl⟩ : ∃ k v x', x = (k, v) :: x' := by cases x with
    | nil => exact absurd rfl hx
    | cons c x' => exact ⟨c.1, c.2, x', rfl⟩
  have hkn : clarityName (k.map BitVec.toNat) = true := hp _ (hxs (k, v) (by simp))
  have hkl := clarityName_len hkn
  have ihv : SkipsAt M g' v := ih _ (hxs (k, v) (by simp))
  simp only [consensusFields, nameBytes, List.length_append, List.length_cons] at hh hal hl
  obtain ⟨hh1, hh2⟩ := hh.split
  obtain ⟨b1, b2, b3⟩ := hh1.cons
  obtain ⟨c1, c2⟩ := hh2.split
  rw [List.length_cons] at c1 c2
  have a1 : (a + 1#32).toNat = a.toNat + 1 := by rw [BitVec.toNat_add, BitVec.toNat_ofNat]; omega
  have k1 : (BitVec.ofNat 32 k.length).toNat = k.length := by rw [BitVec.toNat_ofNat]; omega
  have kb : BitVec.setWidth 32 (g'.mem.byte a.toNat) = BitVec.ofNat 32 k.length := by
    apply BitVec.eq_of_toNat_eq
    rw [BitVec.toNat_setWidth, b1, BitVec.toNat_ofNat, BitVec.toNat_ofNat]; omega
  wpy
  rw [if_neg (by omega), wp_i32load (by omega), Nat.add_zero, load1, kb]
  wpy
  refine (wp_call_runs (args := [.i32 (a + 1#32), .i32 (BitVec.ofNat 32 k.length)]) (ps := [.i32, .i32]) (rs := [.i32]) rfl rfl
    (runs_check_clarity_name _ _ (by rw [a1, k1]; have := b3.2; omega)) (by simp)).2 ?_
  wpy
  rw [a1, k1, b3.ascii rfl]
  rw [if_pos hkn]
  have a2 : (a + 1#32 + BitVec.ofNat 32 k.length).toNat = a.toNat + (k.length + 1) := by
    rw [BitVec.toNat_add, a1, k1]; omega
  refine (wp_call_runs (args := [.i32 (a + 1#32 + BitVec.ofNat 32 k.length), .i32 e]) (ps := [.i32, .i32]) (rs := [.i32]) rfl rfl
    (ihv _ e (by rw [a2]; exact c1) (by rw [a2]; omega) hm) (by simp)).2 ?_
  wpy
  have a3 : (a + 1#32 + BitVec.ofNat 32 k.length + BitVec.ofNat 32 (consensus v).length).toNat =
      a.toNat + (k.length + 1) + (consensus v).length := by
    rw [BitVec.toNat_add, a2, BitVec.toNat_ofNat]; omega
  generalize a + 1#32 + BitVec.ofNat 32 k.length + BitVec.ofNat 32 (consensus v).length = a' at *
  rw [if_neg (by rintro rfl; simp at a3; omega)]
  have l1 : (l - 1#32).toNat = x'.length := by
    have := l.isLt
    rw [BitVec.toNat_sub, BitVec.toNat_ofNat]; omega
  by_cases hl1 : l - 1#32 = 0#32
  · rw [if_pos hl1, hl1]
    rw [hl1] at l1
    obtain rfl : x' = [] := List.length_eq_zero_iff.1 (by simpa using l1.symm)
    have ee : a' = o + BitVec.ofNat 32 (4 + L) := by
      apply BitVec.eq_of_toNat_eq; rw [a3, e6]; simp [consensusFields] at hal; omega
    rw [ee]
    wpy
  · rw [if_neg hl1]
    refine ⟨x', by simp, trivial, ?_, fun kv h => hxs kv (by simp [h]), a', l - 1#32, _, rfl, l1, by rw [a3]; exact c2, by omega⟩
    rintro rfl
    exact hl1 (BitVec.eq_of_toNat_eq (by rw [l1]; rfl))

/-- What is assumed of the host function `skip_list` (linker.rs 5167-5203, which calls the deserializer of
the clarity crate): on the encoding, without its prefix, of a well-typed list that lies
within the bounds, it returns the offset of its end. -/
def SkipListHost (M : Mod σ) : Prop :=
  ∀ (g : Store σ) (o e : BitVec 32) (n : Nat) (t : Ty) (vs : List Value), HasType (.list n t) (.list vs) → ProperAll vs →
    Holds g.mem o.toNat (lenBytes vs.length ++ consensusAll vs) → o.toNat + 4 + (consensusAll vs).length ≤ e.toNat →
    M.host .skip_list [.i32 o, .i32 e] g = .ret [.i32 (o + BitVec.ofNat 32 (4 + (consensusAll vs).length))] g

theorem add_one_ofNat (o : BitVec 32) (n : Nat) : o + 1#32 + BitVec.ofNat 32 n = o + BitVec.ofNat 32 (n + 1) := by
  rw [BitVec.add_assoc, Nat.add_comm n, BitVec.ofNat_add]

/-- The prefix is dispatched, the rest is skipped by the function of the table. -/
theorem SkipsAt.of {v : Value} {t : Nat} {bs : List Byte} {f : FId} (hv : consensus v = BitVec.ofNat 8 t :: bs) (ht : t ≤ 14)
    (hf : stdTable (t + 5) = some f) (hs : M.sig f = some ([.i32, .i32], [.i32]))
    (h : ∀ o e : BitVec 32, Holds g.mem o.toNat bs → o.toNat + bs.length ≤ e.toNat → e.toNat < 2 ^ 31 →
      Runs M f [.i32 o, .i32 e] g (.ret [.i32 (o + BitVec.ofNat 32 bs.length)] g)) : SkipsAt M g v := by
  intro o e hh hle hm
  rw [hv] at hh hle ⊢
  rw [List.length_cons] at hle
  obtain ⟨h1, h2, h3⟩ := hh.cons
  have e1 : (o + 1#32).toNat = o.toNat + 1 := by rw [BitVec.toNat_add, BitVec.toNat_ofNat]; omega
  refine runs_dispatch ht hf hs (by rintro rfl; omega) h1 h2 ?_ ⟨_, rfl⟩
  rw [List.length_cons, ← add_one_ofNat o bs.length]
  exact h _ e (by rw [e1]; exact h3) (by rw [e1]; omega) hm

theorem skips_inner {v w : Value} {t : Nat} (hv : consensus v = BitVec.ofNat 8 t :: consensus w) (ht : t ≤ 14)
    (hf : stdTable (t + 5) = some (.std .skip_some_ok_err)) (ih : SkipsAt M g w) : SkipsAt M g v :=
  SkipsAt.of hv ht hf rfl fun o e h1 h2 h3 => runs_skip_some (ih o e h1 h2 h3) ⟨_, rfl⟩

theorem skips_contract {v : Value} {c : ContractId} (hv : consensus v = contractBytes c) (hc : c.Ok) (ht : notTransient c.name) :
    SkipsAt M g v :=
  SkipsAt.of (t := 6) hv (by omega) rfl rfl fun o e h1 h2 _ => by
    have hl : (issuerBytes c.issuer ++ nameBytes c.name).length = 22 + c.name.length := by
      simp only [issuerBytes, nameBytes, List.length_append, List.length_cons, hc.1.2]; omega
    rw [hl] at h2 ⊢
    exact runs_skip_contract o e c hc ht h1 (by omega)

mutual
/-- Skipping the encoding of a proper value leads to its end. -/
theorem skips_value (hM : SkipListHost M) : ∀ v : Value, Proper v → SkipsAt M g v
  | .int z, _ => SkipsAt.of (t := 0) rfl (by omega) rfl rfl fun o e h1 h2 _ => by
    rw [length_bigEndian] at h2 ⊢; exact runs_skip_int128 o e h2
  | .uint n, _ => SkipsAt.of (t := 1) rfl (by omega) rfl rfl fun o e h1 h2 _ => by
    rw [length_bigEndian] at h2 ⊢; exact runs_skip_int128 o e h2
  | .bool true, _ => SkipsAt.of (t := 3) rfl (by omega) rfl rfl fun o e h1 h2 _ => by
    simpa using runs_skip_none o e
  | .bool false, _ => SkipsAt.of (t := 4) rfl (by omega) rfl rfl fun o e h1 h2 _ => by
    simpa using runs_skip_none o e
  | .principal (.standard s), h => SkipsAt.of (t := 5) rfl (by omega) rfl rfl fun o e h1 h2 _ => by
    have hs : s.Ok := by simpa [Proper] using h
    have hl : (issuerBytes s).length = 21 := by simp only [issuerBytes, List.length_cons, hs.2]
    rw [hl] at h2 ⊢
    exact runs_skip_principal o e s hs h1 h2
  | .principal (.contract c), h => by
    have hs : c.Ok ∧ notTransient c.name := by simpa [Proper] using h
    exact skips_contract rfl hs.1 hs.2
  | .callable c _, h => by
    have hs : c.Ok ∧ notTransient c.name := by simpa [Proper] using h
    exact skips_contract rfl hs.1 hs.2
  | .buff bs, _ => SkipsAt.of (t := 2) rfl (by omega) rfl rfl fun o e h1 h2 _ => by
    rw [List.length_append, length_lenBytes] at h2 ⊢
    exact runs_skip_buffer o e _ h1.split.1 (by omega)
  | .ascii bs, h => SkipsAt.of (t := 13) rfl (by omega) rfl rfl fun o e h1 h2 h3 => by
    rw [List.length_append, length_lenBytes] at h2 ⊢
    exact runs_skip_ascii o e bs (by simpa [Proper] using h) h1 h3 (by omega)
  | .utf8 cs, h => SkipsAt.of (t := 14) rfl (by omega) rfl rfl fun o e h1 h2 h3 => by
    rw [List.length_append, length_lenBytes, List.length_map] at h2 ⊢
    exact runs_skip_utf8 o e cs (by simpa [Proper] using h) h1 h3 (by omega)
  | .list vs, h => SkipsAt.of (t := 11) rfl (by omega) rfl rfl fun o e h1 h2 h3 => by
    obtain ⟨⟨n, t, ht⟩, hp⟩ : (∃ n e, HasType (.list n e) (.list vs)) ∧ ProperAll vs := by simpa [Proper] using h
    rw [List.length_append, length_lenBytes] at h2 ⊢
    exact (runs_iff_call (by simp)).2 (call_host.2 (by rw [hM g o e n t vs ht hp h1 (by omega)]))
  | .none, _ => SkipsAt.of (t := 9) rfl (by omega) rfl rfl fun o e h1 h2 _ => by
    simpa using runs_skip_none o e
  | .some v, h => skips_inner (t := 10) rfl (by omega) rfl (skips_value hM v (by simpa [Proper] using h))
  | .ok v, h => skips_inner (t := 7) rfl (by omega) rfl (skips_value hM v (by simpa [Proper] using h))
  | .err v, h => skips_inner (t := 8) rfl (by omega) rfl (skips_value hM v (by simpa [Proper] using h))
  | .tuple kvs, h => by
    have hp : kvs ≠ [] ∧ ProperFields kvs := by simpa [Proper] using h
    refine SkipsAt.of (t := 12) rfl (by omega) rfl rfl fun o e h1 h2 h3 => ?_
    rw [List.length_append, length_lenBytes] at h2 ⊢
    exact runs_skip_tuple o e kvs hp.1 (fun kv hk => (properFields_mem hp.2 kv hk).1) (skips_fields hM kvs hp.2) h1 h3 (by omega)
theorem skips_fields (hM : SkipListHost M) : ∀ kvs : List (Name × Value), ProperFields kvs → ∀ kv ∈ kvs, SkipsAt M g kv.2
  | [], _, _, h => by simp at h
  | (k, v) :: kvs, h, kv, hm => by
    rcases List.mem_cons.1 hm with e | hm
    · rw [e]; exact skips_value hM v h.2.1
    · exact skips_fields hM kvs h.2.2 kv hm
end

/-! Encodings are prefix-free. -/

theorem lenBytes_inj {a b : Nat} {x y : List Byte} (ha : a < 2 ^ 32) (hb : b < 2 ^ 32)
    (h : lenBytes a ++ x = lenBytes b ++ y) : a = b ∧ x = y := by
  obtain ⟨h1, h2⟩ := List.append_inj h (by rw [length_lenBytes, length_lenBytes])
  refine ⟨?_, h2⟩
  rw [← beNat_bigEndian 4 a (by omega), ← beNat_bigEndian 4 b (by omega)]
  exact congrArg beNat h1

theorem nameBytes_inj {a b : Name} {x y : List Byte} (ha : a.length ≤ 128) (hb : b.length ≤ 128)
    (h : nameBytes a ++ x = nameBytes b ++ y) : a = b ∧ x = y := by
  simp only [nameBytes, List.cons_append, List.cons.injEq] at h
  have hl : a.length = b.length := by
    have := congrArg BitVec.toNat h.1
    simp only [BitVec.toNat_ofNat] at this
    omega
  exact List.append_inj h.2 hl

theorem contractBytes_inj {a b : ContractId} {x y : List Byte} (ha : a.Ok) (hb : b.Ok)
    (h : contractBytes a ++ x = contractBytes b ++ y) : (contractBytes a).length = (contractBytes b).length ∧ x = y := by
  simp only [contractBytes, List.cons_append, List.append_assoc, List.cons.injEq, true_and] at h
  have hla : (issuerBytes a.issuer).length = 21 := by simp only [issuerBytes, List.length_cons, ha.1.2]
  have hlb : (issuerBytes b.issuer).length = 21 := by simp only [issuerBytes, List.length_cons, hb.1.2]
  obtain ⟨_, h2⟩ := List.append_inj h (by rw [hla, hlb])
  obtain ⟨h3, h4⟩ := nameBytes_inj ha.2.2 hb.2.2 h2
  refine ⟨?_, h4⟩
  simp only [contractBytes, List.length_cons, List.length_append, hla, hlb, h3]

theorem length_all : ∀ vs : List Value, vs.length ≤ (consensusAll vs).length
  | [] => by simp
  | v :: vs => by
    have := length_all vs
    have := consensus_pos v
    simp only [consensusAll, List.length_append, List.length_cons]; omega

theorem length_fields : ∀ x : List (Name × Value), x.length ≤ (consensusFields x).length
  | [] => by simp
  | (k, v) :: x => by
    have := length_fields x
    simp only [consensusFields, nameBytes, List.length_append, List.length_cons]; omega

/-- The continuation after an encoding is determined. -/
def Ends1 (v : Value) : Prop :=
  ∀ (v' : Value) (x y : List Byte), Proper v' → (consensus v).length < 2 ^ 32 → (consensus v').length < 2 ^ 32 →
    consensus v ++ x = consensus v' ++ y → (consensus v).length = (consensus v').length ∧ x = y

theorem Ends1.inner {v w : Value} {t : Byte} (hv : consensus v = t :: consensus w) (ih : Ends1 w)
    (hs : ∀ v', Proper v' → (∃ r, consensus v' = t :: r) → ∃ w', Proper w' ∧ consensus v' = t :: consensus w') : Ends1 v := by
  intro v' x y hp hl hl' h
  rw [hv, List.cons_append] at h
  obtain ⟨w', hw1, hw2⟩ := hs v' hp (by
    cases hc : consensus v' with
    | nil => have := consensus_pos v'; rw [hc] at this; simp at this
    | cons a r => rw [hc, List.cons_append, List.cons.injEq] at h; exact ⟨r, by rw [h.1]⟩)
  rw [hw2, List.cons_append, List.cons.injEq] at h
  rw [hv, List.length_cons] at hl ⊢
  rw [hw2, List.length_cons] at hl' ⊢
  obtain ⟨h1, h2⟩ := ih w' x y hw1 (by omega) (by omega) h.2
  exact ⟨by omega, h2⟩

mutual
theorem ends_value : ∀ v : Value, Proper v → Ends1 v
  | .int z, _ => fun v' x y hp hl hl' h => by
    cases v' with
    | bool b => cases b <;> simp [consensus] at h
    | principal p => cases p <;> simp [consensus, contractBytes] at h
    | int z' =>
      simp only [consensus, List.cons_append, List.cons.injEq, true_and] at h
      have := List.append_inj h (by rw [length_bigEndian, length_bigEndian])
      exact ⟨by simp [consensus, length_bigEndian], this.2⟩
    | _ => simp [consensus, contractBytes] at h
  | .uint z, _ => fun v' x y hp hl hl' h => by
    cases v' with
    | bool b => cases b <;> simp [consensus] at h
    | principal p => cases p <;> simp [consensus, contractBytes] at h
    | uint z' =>
      simp only [consensus, List.cons_append, List.cons.injEq, true_and] at h
      have := List.append_inj h (by rw [length_bigEndian, length_bigEndian])
      exact ⟨by simp [consensus, length_bigEndian], this.2⟩
    | _ => simp [consensus, contractBytes] at h
  | .bool b, _ => fun v' x y hp hl hl' h => by
    cases v' with
    | bool b' => cases b <;> cases b' <;> simp [consensus] at h ⊢ <;> exact h
    | principal p => cases b <;> cases p <;> simp [consensus, contractBytes] at h
    | _ => cases b <;> simp [consensus, contractBytes] at h
  | .none, _ => fun v' x y hp hl hl' h => by
    cases v' with
    | bool b => cases b <;> simp [consensus] at h
    | principal p => cases p <;> simp [consensus, contractBytes] at h
    | none => simpa [consensus] using h
    | _ => simp [consensus, contractBytes] at h
  | .buff bs, _ => fun v' x y hp hl hl' h => by
    cases v' with
    | bool b => cases b <;> simp [consensus] at h
    | principal p => cases p <;> simp [consensus, contractBytes] at h
    | buff bs' =>
      simp only [consensus, List.cons_append, List.append_assoc, List.cons.injEq, true_and] at h
      simp only [consensus, List.length_cons, List.length_append, length_lenBytes] at hl hl' ⊢
      obtain ⟨h1, h2⟩ := lenBytes_inj (by omega) (by omega) h
      exact ⟨by omega, (List.append_inj h2 h1).2⟩
    | _ => simp [consensus, contractBytes] at h
  | .ascii bs, _ => fun v' x y hp hl hl' h => by
    cases v' with
    | bool b => cases b <;> simp [consensus] at h
    | principal p => cases p <;> simp [consensus, contractBytes] at h
    | ascii bs' =>
      simp only [consensus, List.cons_append, List.append_assoc, List.cons.injEq, true_and] at h
      simp only [consensus, List.length_cons, List.length_append, length_lenBytes] at hl hl' ⊢
      obtain ⟨h1, h2⟩ := lenBytes_inj (by omega) (by omega) h
      exact ⟨by omega, (List.append_inj h2 h1).2⟩
    | _ => simp [consensus, contractBytes] at h
  | .utf8 bs, _ => fun v' x y hp hl hl' h => by
    cases v' with
    | bool b => cases b <;> simp [consensus] at h
    | principal p => cases p <;> simp [consensus, contractBytes] at h
    | utf8 bs' =>
      simp only [consensus, List.cons_append, List.append_assoc, List.cons.injEq, true_and] at h
      simp only [consensus, List.length_cons, List.length_append, length_lenBytes, List.length_map] at hl hl' ⊢
      obtain ⟨h1, h2⟩ := lenBytes_inj (by omega) (by omega) h
      exact ⟨by omega, (List.append_inj h2 (by simpa using h1)).2⟩
    | _ => simp [consensus, contractBytes] at h
  | .principal (.standard s), hs => fun v' x y hp hl hl' h => by
    cases v' with
    | bool b => cases b <;> simp [consensus] at h
    | principal p =>
      cases p with
      | standard s' =>
        simp only [Proper] at hs hp
        simp only [consensus, List.cons_append, List.cons.injEq, true_and, List.length_cons] at h ⊢
        have e1 : (issuerBytes s).length = 21 := by simp only [issuerBytes, List.length_cons, hs.2]
        have e2 : (issuerBytes s').length = 21 := by simp only [issuerBytes, List.length_cons, hp.2]
        exact ⟨by omega, (List.append_inj h (by omega)).2⟩
      | contract c => simp [consensus, contractBytes] at h
    | _ => simp [consensus, contractBytes] at h
  | .principal (.contract c), hs => fun v' x y hp hl hl' h => by
    cases v' with
    | bool b => cases b <;> simp [consensus, contractBytes] at h
    | principal p =>
      cases p with
      | standard s' => simp [consensus, contractBytes] at h
      | contract c' =>
        simp only [Proper] at hs hp
        exact contractBytes_inj hs.1 hp.1 h
    | callable c' t =>
      simp only [Proper] at hs hp
      exact contractBytes_inj hs.1 hp.1 h
    | _ => simp [consensus, contractBytes] at h
  | .callable c t, hs => fun v' x y hp hl hl' h => by
    cases v' with
    | bool b => cases b <;> simp [consensus, contractBytes] at h
    | principal p =>
      cases p with
      | standard s' => simp [consensus, contractBytes] at h
      | contract c' =>
        simp only [Proper] at hs hp
        exact contractBytes_inj hs.1 hp.1 h
    | callable c' t =>
      simp only [Proper] at hs hp
      exact contractBytes_inj hs.1 hp.1 h
    | _ => simp [consensus, contractBytes] at h
  | .some v, hs => Ends1.inner rfl (ends_value v (by simpa [Proper] using hs)) fun v' hp hr => by
    cases v' with
    | bool b => cases b <;> simp [consensus] at hr
    | principal p => cases p <;> simp [consensus, contractBytes] at hr
    | some w => exact ⟨w, by simpa [Proper] using hp, rfl⟩
    | _ => simp [consensus, contractBytes] at hr
  | .ok v, hs => Ends1.inner rfl (ends_value v (by simpa [Proper] using hs)) fun v' hp hr => by
    cases v' with
    | bool b => cases b <;> simp [consensus] at hr
    | principal p => cases p <;> simp [consensus, contractBytes] at hr
    | ok w => exact ⟨w, by simpa [Proper] using hp, rfl⟩
    | _ => simp [consensus, contractBytes] at hr
  | .err v, hs => Ends1.inner rfl (ends_value v (by simpa [Proper] using hs)) fun v' hp hr => by
    cases v' with
    | bool b => cases b <;> simp [consensus] at hr
    | principal p => cases p <;> simp [consensus, contractBytes] at hr
    | err w => exact ⟨w, by simpa [Proper] using hp, rfl⟩
    | _ => simp [consensus, contractBytes] at hr
  | .list vs, hs => fun v' x y hp hl hl' h => by
    cases v' with
    | bool b => cases b <;> simp [consensus] at h
    | principal p => cases p <;> simp [consensus, contractBytes] at h
    | list vs' =>
      simp only [Proper] at hs hp
      simp only [consensus, List.cons_append, List.append_assoc, List.cons.injEq, true_and] at h
      simp only [consensus, List.length_cons, List.length_append, length_lenBytes] at hl hl' ⊢
      obtain ⟨h1, h2⟩ := lenBytes_inj (by have := length_all vs; omega) (by have := length_all vs'; omega) h
      obtain ⟨h3, h4⟩ := ends_all vs hs.2 vs' x y hp.2 h1 (by omega) (by omega) h2
      exact ⟨by omega, h4⟩
    | _ => simp [consensus, contractBytes] at h
  | .tuple kvs, hs => fun v' x y hp hl hl' h => by
    cases v' with
    | bool b => cases b <;> simp [consensus] at h
    | principal p => cases p <;> simp [consensus, contractBytes] at h
    | tuple kvs' =>
      simp only [Proper] at hs hp
      simp only [consensus, List.cons_append, List.append_assoc, List.cons.injEq, true_and] at h
      simp only [consensus, List.length_cons, List.length_append, length_lenBytes] at hl hl' ⊢
      obtain ⟨h1, h2⟩ := lenBytes_inj (by have := length_fields kvs; omega) (by have := length_fields kvs'; omega) h
      obtain ⟨h3, h4⟩ := ends_fields kvs hs.2 kvs' x y hp.2 h1 (by omega) (by omega) h2
      exact ⟨by omega, h4⟩
    | _ => simp [consensus, contractBytes] at h
theorem ends_all : ∀ vs : List Value, ProperAll vs → ∀ (vs' : List Value) (x y : List Byte), ProperAll vs' →
    vs.length = vs'.length → (consensusAll vs).length < 2 ^ 32 → (consensusAll vs').length < 2 ^ 32 →
    consensusAll vs ++ x = consensusAll vs' ++ y → (consensusAll vs).length = (consensusAll vs').length ∧ x = y
  | [], _, [], x, y, _, _, _, _, h => by simpa [consensusAll] using h
  | [], _, _ :: _, x, y, _, hl, _, _, h => by simp at hl
  | _ :: _, _, [], x, y, _, hl, _, _, h => by simp at hl
  | v :: vs, hs, v' :: vs', x, y, hp, hl, b1, b2, h => by
    simp only [consensusAll, List.append_assoc, List.length_append] at h b1 b2 ⊢
    obtain ⟨h1, h2⟩ := ends_value v hs.1 v' _ _ hp.1 (by omega) (by omega) h
    obtain ⟨h3, h4⟩ := ends_all vs hs.2 vs' x y hp.2 (by simpa using hl) (by omega) (by omega) h2
    exact ⟨by omega, h4⟩
theorem ends_fields : ∀ kvs : List (Name × Value), ProperFields kvs → ∀ (kvs' : List (Name × Value)) (x y : List Byte),
    ProperFields kvs' → kvs.length = kvs'.length → (consensusFields kvs).length < 2 ^ 32 →
    (consensusFields kvs').length < 2 ^ 32 → consensusFields kvs ++ x = consensusFields kvs' ++ y →
    (consensusFields kvs).length = (consensusFields kvs').length ∧ x = y
  | [], _, [], x, y, _, _, _, _, h => by simpa [consensusFields] using h
  | [], _, _ :: _, x, y, _, hl, _, _, h => by simp at hl
  | _ :: _, _, [], x, y, _, hl, _, _, h => by simp at hl
  | (k, v) :: kvs, hs, (k', v') :: kvs', x, y, hp, hl, b1, b2, h => by
    simp only [consensusFields, List.append_assoc, List.length_append] at h b1 b2 ⊢
    obtain ⟨hk, h0⟩ := nameBytes_inj (clarityName_len hs.1) (clarityName_len hp.1) h
    obtain ⟨h1, h2⟩ := ends_value v hs.2.1 v' _ _ hp.2.1 (by omega) (by omega) h0
    obtain ⟨h3, h4⟩ := ends_fields kvs hs.2.2 kvs' x y hp.2.2 (by simpa using hl) (by omega) (by omega) h2
    exact ⟨by rw [hk]; omega, h4⟩
end

end Wasm
