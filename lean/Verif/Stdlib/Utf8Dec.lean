import Verif.Stdlib.Utf8Enc
import Verif.Stdlib.Valid

/-! Runtime library: decoding UTF-8 (standard.wat 3370-3507). -/

namespace Wasm
open Spec
variable {σ : Type} {M : Mod σ} {is : List Instr} {stk loc : List Val} {g : Store σ}
  {Q : Res σ → Prop}

/-- The part of the loop body that decodes one character (standard.wat 3399-3482). -/
def decPart : List Instr := [
  .b (.localGet 0), .b (.i32load 1 0), .b (.localSet 4), .b (.localGet 4),
  .b (.const (.i32 128#32)), .b (.i32rel .ltU),
  .ite 0 0 [
    .b (.localGet 0), .b (.const (.i32 1#32)), .b (.i32bin .add), .b (.localSet 0),
    .b (.localGet 1), .b (.const (.i32 1#32)), .b (.i32bin .sub), .b (.localSet 1)] [
    .b (.localGet 4), .b (.const (.i32 224#32)), .b (.i32bin .and), .b (.const (.i32 192#32)),
    .b (.i32rel .eq),
    .ite 0 0 [
      .b (.localGet 4), .b (.const (.i32 31#32)), .b (.i32bin .and), .b (.const (.i32 6#32)),
      .b (.i32bin .shl), .b (.localSet 4), .b (.localGet 0), .b (.i32load 1 1), .b (.localSet 5),
      .b (.localGet 5), .b (.const (.i32 192#32)), .b (.i32bin .and), .b (.const (.i32 128#32)),
      .b (.i32rel .eq),
      .ite 0 0 [
        .b (.localGet 4), .b (.localGet 5), .b (.const (.i32 63#32)), .b (.i32bin .and),
        .b (.i32bin .or), .b (.localSet 4)] [
        .b (.const (.i32 0#32)), .b (.const (.i32 0#32)), .b (.const (.i32 0#32)), .ret],
      .b (.localGet 4), .b (.const (.i32 128#32)), .b (.i32rel .ltU),
      .ite 0 0 [
        .b (.const (.i32 0#32)), .b (.const (.i32 0#32)), .b (.const (.i32 0#32)), .ret] [],
      .b (.localGet 0), .b (.const (.i32 2#32)), .b (.i32bin .add), .b (.localSet 0),
      .b (.localGet 1), .b (.const (.i32 2#32)), .b (.i32bin .sub), .b (.localSet 1)] [
      .b (.localGet 4), .b (.const (.i32 240#32)), .b (.i32bin .and), .b (.const (.i32 224#32)),
      .b (.i32rel .eq),
      .ite 0 0 [
        .b (.localGet 4), .b (.const (.i32 15#32)), .b (.i32bin .and), .b (.const (.i32 12#32)),
        .b (.i32bin .shl), .b (.localSet 4), .b (.localGet 0), .b (.i32load 1 1), .b (.localSet 5),
        .b (.localGet 5), .b (.const (.i32 192#32)), .b (.i32bin .and), .b (.const (.i32 128#32)),
        .b (.i32rel .eq),
        .ite 0 0 [
          .b (.localGet 4), .b (.localGet 5), .b (.const (.i32 63#32)), .b (.i32bin .and),
          .b (.const (.i32 6#32)), .b (.i32bin .shl), .b (.i32bin .or), .b (.localSet 4)] [
          .b (.const (.i32 0#32)), .b (.const (.i32 0#32)), .b (.const (.i32 0#32)), .ret],
        .b (.localGet 0), .b (.i32load 1 2), .b (.localSet 5), .b (.localGet 5),
        .b (.const (.i32 192#32)), .b (.i32bin .and), .b (.const (.i32 128#32)), .b (.i32rel .eq),
        .ite 0 0 [
          .b (.localGet 4), .b (.localGet 5), .b (.const (.i32 63#32)), .b (.i32bin .and),
          .b (.i32bin .or), .b (.localSet 4)] [
          .b (.const (.i32 0#32)), .b (.const (.i32 0#32)), .b (.const (.i32 0#32)), .ret],
        .b (.localGet 4), .b (.const (.i32 4294965248#32)), .b (.i32bin .and),
        .b (.const (.i32 55296#32)), .b (.i32rel .eq), .b (.localGet 4),
        .b (.const (.i32 2048#32)), .b (.i32rel .ltU), .b (.i32bin .or),
        .ite 0 0 [
          .b (.const (.i32 0#32)), .b (.const (.i32 0#32)), .b (.const (.i32 0#32)), .ret] [],
        .b (.localGet 0), .b (.const (.i32 3#32)), .b (.i32bin .add), .b (.localSet 0),
        .b (.localGet 1), .b (.const (.i32 3#32)), .b (.i32bin .sub), .b (.localSet 1)] [
        .b (.localGet 4), .b (.const (.i32 248#32)), .b (.i32bin .and), .b (.const (.i32 240#32)),
        .b (.i32rel .eq),
        .ite 0 0 [
          .b (.localGet 4), .b (.const (.i32 7#32)), .b (.i32bin .and), .b (.const (.i32 18#32)),
          .b (.i32bin .shl), .b (.localSet 4), .b (.localGet 0), .b (.i32load 1 1),
          .b (.localSet 5), .b (.localGet 5), .b (.const (.i32 192#32)), .b (.i32bin .and),
          .b (.const (.i32 128#32)), .b (.i32rel .eq),
          .ite 0 0 [
            .b (.localGet 4), .b (.localGet 5), .b (.const (.i32 63#32)), .b (.i32bin .and),
            .b (.const (.i32 12#32)), .b (.i32bin .shl), .b (.i32bin .or), .b (.localSet 4)] [
            .b (.const (.i32 0#32)), .b (.const (.i32 0#32)), .b (.const (.i32 0#32)), .ret],
          .b (.localGet 0), .b (.i32load 1 2), .b (.localSet 5), .b (.localGet 5),
          .b (.const (.i32 192#32)), .b (.i32bin .and), .b (.const (.i32 128#32)),
          .b (.i32rel .eq),
          .ite 0 0 [
            .b (.localGet 4), .b (.localGet 5), .b (.const (.i32 63#32)), .b (.i32bin .and),
            .b (.const (.i32 6#32)), .b (.i32bin .shl), .b (.i32bin .or), .b (.localSet 4)] [
            .b (.const (.i32 0#32)), .b (.const (.i32 0#32)), .b (.const (.i32 0#32)), .ret],
          .b (.localGet 0), .b (.i32load 1 3), .b (.localSet 5), .b (.localGet 5),
          .b (.const (.i32 192#32)), .b (.i32bin .and), .b (.const (.i32 128#32)),
          .b (.i32rel .eq),
          .ite 0 0 [
            .b (.localGet 4), .b (.localGet 5), .b (.const (.i32 63#32)), .b (.i32bin .and),
            .b (.i32bin .or), .b (.localSet 4)] [
            .b (.const (.i32 0#32)), .b (.const (.i32 0#32)), .b (.const (.i32 0#32)), .ret],
          .b (.localGet 4), .b (.const (.i32 1114112#32)), .b (.i32bin .sub),
          .b (.const (.i32 4293918720#32)), .b (.i32rel .ltU),
          .ite 0 0 [
            .b (.const (.i32 0#32)), .b (.const (.i32 0#32)), .b (.const (.i32 0#32)), .ret] [],
          .b (.localGet 0), .b (.const (.i32 4#32)), .b (.i32bin .add), .b (.localSet 0),
          .b (.localGet 1), .b (.const (.i32 4#32)), .b (.i32bin .sub), .b (.localSet 1)] [
          .b (.const (.i32 0#32)), .b (.const (.i32 0#32)), .b (.const (.i32 0#32)), .ret]]]]]

/-- The rest of the loop body: the character is stored (standard.wat 3483-3502). -/
def decTail : List Instr := [
  .b (.localGet 6), .b (.localGet 4), .b (.const (.i32 24#32)), .b (.i32bin .shl),
  .b (.localGet 4), .b (.const (.i32 65280#32)), .b (.i32bin .and), .b (.const (.i32 8#32)),
  .b (.i32bin .shl), .b (.i32bin .or), .b (.localGet 4), .b (.const (.i32 8#32)),
  .b (.i32bin .shrU), .b (.const (.i32 65280#32)), .b (.i32bin .and), .b (.localGet 4),
  .b (.const (.i32 24#32)), .b (.i32bin .shrU), .b (.i32bin .or), .b (.i32bin .or),
  .b (.i32store 4 0), .b (.localGet 6), .b (.const (.i32 4#32)), .b (.i32bin .add),
  .b (.localSet 6), .b (.localGet 1), .brIf 0]

def decCheck : List Instr := [
  .b (.localGet 3), .b (.const (.i32 1#32)), .b (.i32bin .sub), .b (.localTee 3),
  .b (.const (.i32 0#32)), .b (.i32rel .ltS),
  .ite 0 0 [
    .b (.const (.i32 0#32)), .b (.const (.i32 0#32)), .b (.const (.i32 0#32)), .ret] []]

theorem utf8_to_string_utf8_eq : Std.utf8_to_string_utf8_body = [
    .b (.localGet 1), .b .i32eqz,
    .ite 0 0 [
      .b (.const (.i32 1#32)), .b (.localGet 2), .b (.const (.i32 0#32)), .ret] [],
    .b (.localGet 2), .b (.localSet 6),
    .loop 0 0 (decCheck ++ (decPart ++ decTail)),
    .b (.const (.i32 1#32)), .b (.localGet 2), .b (.localGet 6), .b (.localGet 2), .b (.i32bin .sub)] := rfl

/-- A scalar value is encoded at `a`. -/
def DecAt (m : Mem) (a c : Nat) : Prop :=
  isScalar c ∧ a + (utf8 c).length ≤ m.size ∧ asciiAt m a (utf8 c).length = utf8 c

theorem utf8_cases (m : Mem) (a c : Nat) : (a + (utf8 c).length ≤ m.size ∧
    asciiAt m a (utf8 c).length = utf8 c) ↔
    (c < 0x80 ∧ a + 1 ≤ m.size ∧ (m.byte a).toNat = c) ∨
    (0x80 ≤ c ∧ c < 0x800 ∧ a + 2 ≤ m.size ∧ (m.byte a).toNat = 0xC0 + c / 64 ∧
      (m.byte (a + 1)).toNat = 0x80 + c % 64) ∨
    (0x800 ≤ c ∧ c < 0x10000 ∧ a + 3 ≤ m.size ∧ (m.byte a).toNat = 0xE0 + c / 4096 ∧
      (m.byte (a + 1)).toNat = 0x80 + c / 64 % 64 ∧ (m.byte (a + 2)).toNat = 0x80 + c % 64) ∨
    (0x10000 ≤ c ∧ a + 4 ≤ m.size ∧ (m.byte a).toNat = 0xF0 + c / 262144 ∧
      (m.byte (a + 1)).toNat = 0x80 + c / 4096 % 64 ∧ (m.byte (a + 2)).toNat = 0x80 + c / 64 % 64 ∧
      (m.byte (a + 3)).toNat = 0x80 + c % 64) := by
  unfold utf8
  split
  · simp [asciiAt, bytesAt, *]; omega
  split
  · simp [asciiAt, bytesAt, *]; omega
  split
  · simp [asciiAt, bytesAt, Nat.add_assoc, *]; omega
  · simp [asciiAt, bytesAt, Nat.add_assoc, *]; omega

theorem utf8_len (c : Nat) : (utf8 c).length =
    if c < 0x80 then 1 else if c < 0x800 then 2 else if c < 0x10000 then 3 else 4 := by
  unfold utf8
  split
  · rfl
  split
  · rfl
  split <;> rfl

theorem surrogate (c : BitVec 32) : (c &&& 4294965248#32 = 55296#32) ↔ (0xD800 ≤ c.toNat ∧ c.toNat < 0xE000) := by
  have hc := c.isLt
  rw [← BitVec.toNat_inj, BitVec.toNat_and]
  simp only [BitVec.toNat_ofNat, Nat.reducePow, Nat.reduceMod]
  have := and_shl c.toNat (2 ^ 21 - 1) 11
  rw [Nat.and_two_pow_sub_one_eq_mod, Nat.shiftLeft_eq, Nat.shiftRight_eq_div_pow, Nat.shiftLeft_eq] at this
  simp only [Nat.reducePow, Nat.reduceSub, Nat.reduceMul] at this
  rw [this]; omega

theorem byte_cont : ∀ b : BitVec 8, (b.setWidth 32 &&& 192#32 = 128#32) ↔ (0x80 ≤ b.toNat ∧ b.toNat < 0xC0) := by
  decide +kernel
theorem byte_2 : ∀ b : BitVec 8, (b.setWidth 32 &&& 224#32 = 192#32) ↔ (0xC0 ≤ b.toNat ∧ b.toNat < 0xE0) := by
  decide +kernel
theorem byte_3 : ∀ b : BitVec 8, (b.setWidth 32 &&& 240#32 = 224#32) ↔ (0xE0 ≤ b.toNat ∧ b.toNat < 0xF0) := by
  decide +kernel
theorem byte_4 : ∀ b : BitVec 8, (b.setWidth 32 &&& 248#32 = 240#32) ↔ (0xF0 ≤ b.toNat ∧ b.toNat < 0xF8) := by
  decide +kernel
theorem low5 : ∀ b : BitVec 8, ((b.setWidth 32 &&& 31#32) <<< 6).toNat = b.toNat % 32 * 64 := by
  decide +kernel
theorem low4 : ∀ b : BitVec 8, ((b.setWidth 32 &&& 15#32) <<< 12).toNat = b.toNat % 16 * 4096 := by
  decide +kernel
theorem low3 : ∀ b : BitVec 8, ((b.setWidth 32 &&& 7#32) <<< 18).toNat = b.toNat % 8 * 262144 := by
  decide +kernel
theorem low6 : ∀ b : BitVec 8, (b.setWidth 32 &&& 63#32).toNat = b.toNat % 64 := by
  decide +kernel
theorem low6s6 : ∀ b : BitVec 8, ((b.setWidth 32 &&& 63#32) <<< 6).toNat = b.toNat % 64 * 64 := by
  decide +kernel
theorem low6s12 : ∀ b : BitVec 8, ((b.setWidth 32 &&& 63#32) <<< 12).toNat = b.toNat % 64 * 4096 := by
  decide +kernel

theorem wp_load_trap {n off} {a : BitVec 32} (h : g.mem.size < a.toNat + off + n) :
    WP M (.b (.i32load n off) :: is) (.i32 a :: stk) loc g Q ↔ Q (.trap g) := by
  rw [wp_b]; simp only [stepB]; rw [if_neg (by omega)]; rfl

set_option maxHeartbeats 2000000 in
theorem dec_step (a l out ml s b w : BitVec 32)
    (hok : ∀ (c b' : BitVec 32), DecAt g.mem a.toNat c.toNat →
      WP M is [] [.i32 (a + BitVec.ofNat 32 (utf8 c.toNat).length),
        .i32 (l - BitVec.ofNat 32 (utf8 c.toNat).length), .i32 out, .i32 ml, .i32 c, .i32 b', .i32 w] g Q)
    (hno : (∀ c, ¬ DecAt g.mem a.toNat c) →
      (g.mem.size < a.toNat + 4 → Q (.trap g)) ∧ ∀ stk, Q (.ret (.i32 0#32 :: .i32 0#32 :: .i32 0#32 :: stk) g)) :
    WP M (decPart ++ is) [] [.i32 a, .i32 l, .i32 out, .i32 ml, .i32 s, .i32 b, .i32 w] g Q := by
  simp only [DecAt, utf8_cases] at hno
  simp only [decPart, List.cons_append, List.nil_append]
  wpy
  by_cases h1 : a.toNat + 1 ≤ g.mem.size
  swap
  · rw [wp_load_trap (by omega)]
    refine (hno fun c hc => ?_).1 (by omega)
    omega
  rw [wp_i32load (by omega), Nat.add_zero, load1]
  wpy [byte_2, byte_3, byte_4, byte_cont]
  have hb0 := (g.mem.byte a.toNat).isLt
  have e0 : (BitVec.setWidth 32 (g.mem.byte a.toNat)).toNat = (g.mem.byte a.toNat).toNat := by
    rw [BitVec.toNat_setWidth]; omega
  rw [e0]
  have hok' : ∀ (c b' : BitVec 32) (j : BitVec 32), isScalar c.toNat → _ →
      BitVec.ofNat 32 (utf8 c.toNat).length = j → WP M is [] [.i32 (a + j),
        .i32 (l - j), .i32 out, .i32 ml, .i32 c, .i32 b', .i32 w] g Q :=
    fun c b' j h1 h2 h3 => h3 ▸ hok c b' ⟨h1, (utf8_cases g.mem a.toNat c.toNat).2 h2⟩
  simp only [isScalar] at hno hok'
  generalize hB0 : g.mem.byte a.toNat = B0 at *
  by_cases c1 : B0.toNat < 128
  · wif c1
    exact hok' _ _ 1#32 (by omega) (.inl (by omega)) (by rw [utf8_len, e0, if_pos c1])
  wif c1
  by_cases c2 : 192 ≤ B0.toNat ∧ B0.toNat < 224
  · wif c2
    by_cases h2 : a.toNat + 2 ≤ g.mem.size
    swap
    · rw [wp_load_trap (by omega)]
      exact (hno fun c hc => by omega).1 (by omega)
    rw [wp_i32load (by omega), load1]
    wpy [byte_cont]
    generalize hB1 : g.mem.byte (a.toNat + 1) = B1 at *
    by_cases d1 : 128 ≤ B1.toNat ∧ B1.toNat < 192
    swap
    · wif d1; exact (hno fun c hc => by omega).2 _
    wif d1
    have hv : ((BitVec.setWidth 32 B0 &&& 31#32) <<< 6 ||| BitVec.setWidth 32 B1 &&& 63#32).toNat =
        B0.toNat % 32 * 64 + B1.toNat % 64 := by
      rw [BitVec.toNat_or, low5, low6, or_add 6 (by omega) (by omega)]
    by_cases d2 : ((BitVec.setWidth 32 B0 &&& 31#32) <<< 6 ||| BitVec.setWidth 32 B1 &&& 63#32).toNat < 128
    · wif d2; rw [hv] at d2; exact (hno fun c hc => by omega).2 _
    wif d2
    rw [hv] at d2
    exact hok' _ _ 2#32 (by omega) (by rw [hv]; omega)
      (by rw [utf8_len, hv, if_neg d2, if_pos (by omega)])
  wif c2
  by_cases c3 : 224 ≤ B0.toNat ∧ B0.toNat < 240
  · wif c3
    by_cases h2 : a.toNat + 2 ≤ g.mem.size
    swap
    · rw [wp_load_trap (by omega)]
      exact (hno fun c hc => by omega).1 (by omega)
    rw [wp_i32load (by omega), load1]
    wpy [byte_cont]
    generalize hB1 : g.mem.byte (a.toNat + 1) = B1 at *
    by_cases d1 : 128 ≤ B1.toNat ∧ B1.toNat < 192
    swap
    · wif d1; exact (hno fun c hc => by omega).2 _
    wif d1
    by_cases h3 : a.toNat + 3 ≤ g.mem.size
    swap
    · rw [wp_load_trap (by omega)]
      exact (hno fun c hc => by omega).1 (by omega)
    rw [wp_i32load (by omega), load1]
    wpy [byte_cont]
    generalize hB2 : g.mem.byte (a.toNat + 2) = B2 at *
    by_cases d2 : 128 ≤ B2.toNat ∧ B2.toNat < 192
    swap
    · wif d2; exact (hno fun c hc => by omega).2 _
    wif d2
    have hv : ((BitVec.setWidth 32 B0 &&& 15#32) <<< 12 ||| (BitVec.setWidth 32 B1 &&& 63#32) <<< 6 |||
        BitVec.setWidth 32 B2 &&& 63#32).toNat =
        B0.toNat % 16 * 4096 + B1.toNat % 64 * 64 + B2.toNat % 64 := by
      rw [BitVec.toNat_or, BitVec.toNat_or, low4, low6, low6s6,
        or_add 12 (a := B0.toNat % 16 * 4096) (by omega) (by omega), or_add 6 (by omega) (by omega)]
    generalize (BitVec.setWidth 32 B0 &&& 15#32) <<< 12 ||| (BitVec.setWidth 32 B1 &&& 63#32) <<< 6 |||
        BitVec.setWidth 32 B2 &&& 63#32 = c at *
    simp only [surrogate]
    split
    · exact (hno fun c hc => by omega).2 _
    · exact hok' _ _ 3#32 (by omega) (by omega)
        (by rw [utf8_len, if_neg (by omega), if_neg (by omega), if_pos (by omega)])
  wif c3
  by_cases c4 : 240 ≤ B0.toNat ∧ B0.toNat < 248
  swap
  · wif c4; exact (hno fun c hc => by omega).2 _
  wif c4
  by_cases h2 : a.toNat + 2 ≤ g.mem.size
  swap
  · rw [wp_load_trap (by omega)]
    exact (hno fun c hc => by omega).1 (by omega)
  rw [wp_i32load (by omega), load1]
  wpy [byte_cont]
  generalize hB1 : g.mem.byte (a.toNat + 1) = B1 at *
  by_cases d1 : 128 ≤ B1.toNat ∧ B1.toNat < 192
  swap
  · wif d1; exact (hno fun c hc => by omega).2 _
  wif d1
  by_cases h3 : a.toNat + 3 ≤ g.mem.size
  swap
  · rw [wp_load_trap (by omega)]
    exact (hno fun c hc => by omega).1 (by omega)
  rw [wp_i32load (by omega), load1]
  wpy [byte_cont]
  generalize hB2 : g.mem.byte (a.toNat + 2) = B2 at *
  by_cases d2 : 128 ≤ B2.toNat ∧ B2.toNat < 192
  swap
  · wif d2; exact (hno fun c hc => by omega).2 _
  wif d2
  by_cases h4 : a.toNat + 4 ≤ g.mem.size
  swap
  · rw [wp_load_trap (by omega)]
    exact (hno fun c hc => by omega).1 (by omega)
  rw [wp_i32load (by omega), load1]
  wpy [byte_cont]
  generalize hB3 : g.mem.byte (a.toNat + 3) = B3 at *
  by_cases d3 : 128 ≤ B3.toNat ∧ B3.toNat < 192
  swap
  · wif d3; exact (hno fun c hc => by omega).2 _
  wif d3
  have hv : ((BitVec.setWidth 32 B0 &&& 7#32) <<< 18 ||| (BitVec.setWidth 32 B1 &&& 63#32) <<< 12 |||
      (BitVec.setWidth 32 B2 &&& 63#32) <<< 6 ||| BitVec.setWidth 32 B3 &&& 63#32).toNat =
      B0.toNat % 8 * 262144 + B1.toNat % 64 * 4096 + B2.toNat % 64 * 64 + B3.toNat % 64 := by
    rw [BitVec.toNat_or, BitVec.toNat_or, BitVec.toNat_or, low3, low6, low6s6, low6s12,
      or_add 18 (a := B0.toNat % 8 * 262144) (by omega) (by omega),
      or_add 12 (a := B0.toNat % 8 * 262144 + B1.toNat % 64 * 4096) (by omega) (by omega),
      or_add 6 (by omega) (by omega)]
  generalize (BitVec.setWidth 32 B0 &&& 7#32) <<< 18 ||| (BitVec.setWidth 32 B1 &&& 63#32) <<< 12 |||
      (BitVec.setWidth 32 B2 &&& 63#32) <<< 6 ||| BitVec.setWidth 32 B3 &&& 63#32 = c at *
  have hsub : (c - 1114112#32).toNat < 4293918720 ↔ ¬ (0x10000 ≤ c.toNat ∧ c.toNat < 0x110000) := by
    rw [BitVec.toNat_sub, BitVec.toNat_ofNat]; omega
  simp only [hsub]
  split
  · exact (hno fun c hc => by omega).2 _
  · exact hok' _ _ 4#32 (by omega) (by omega)
      (by rw [utf8_len, if_neg (by omega), if_neg (by omega), if_neg (by omega)])

end Wasm
