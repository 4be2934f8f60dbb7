import Verif.Stdlib.Endian
import Verif.Spec.Utf8

/-! Runtime library: encoding scalars in UTF-8 (standard.wat 3215-3343). -/

namespace Wasm
open Spec
variable {σ : Type} {M : Mod σ} {is : List Instr} {stk loc : List Val} {g : Store σ}
  {Q : Res σ → Prop}

theorem and_63 (x : Nat) : x &&& 63 = x % 64 := Nat.and_two_pow_sub_one_eq_mod x 6

theorem utf8_lt (c : Nat) (h : c < 0x110000) : ∀ b ∈ utf8 c, b < 256 := by
  unfold utf8
  intro b hb
  split at hb
  · simp at hb; omega
  split at hb
  · simp at hb; omega
  split at hb
  · simp at hb; omega
  · simp at hb; omega

theorem cont_byte (x : BitVec 32) : (128#32 ||| x &&& 63#32).toNat = 0x80 + x.toNat % 64 := by
  rw [BitVec.toNat_or, BitVec.toNat_and]
  simp only [BitVec.toNat_ofNat, Nat.reduceMod, Nat.reducePow, and_63]
  rw [or_add 7 (by omega) (by omega)]

/-- Output so far. -/
def EncSt (out : Nat) (bs : List Nat) (g g' : Store σ) : Prop :=
  ∃ m', g' = g.setMem m' ∧ Same g.mem m' out bs.length ∧ asciiAt m' out bs.length = bs

def EncInv (o l out : BitVec 32) (cs : List Nat) (g : Store σ) (n : Nat) (loc : List Val)
    (g' : Store σ) : Prop :=
  ∃ (k : Nat) (out' i s b1 b2 b3 b4 : BitVec 32), loc = [.i32 o, .i32 l, .i32 out', .i32 i, .i32 out, .i32 s,
    .i32 b1, .i32 b2, .i32 b3, .i32 b4] ∧ k + n = cs.length ∧ 0 < n ∧ i.toNat = 4 * k ∧
    out'.toNat = out.toNat + (utf8Text (cs.take k)).length ∧
    EncSt out.toNat (utf8Text (cs.take k)) g g'

theorem utf8Text_take (cs : List Nat) (k : Nat) (h : k < cs.length) :
    utf8Text (cs.take (k + 1)) = utf8Text (cs.take k) ++ utf8 (cs.getD k 0) := by
  rw [List.take_add_one, List.getElem?_eq_getElem h, utf8Text, List.flatMap_append]
  simp [utf8Text, List.getD_eq_getElem?_getD, h]

theorem utf8Text_take_le (cs : List Nat) (k : Nat) :
    (utf8Text (cs.take k)).length ≤ (utf8Text cs).length := by
  conv => rhs; rw [← List.take_append_drop k cs, utf8Text, List.flatMap_append, List.length_append]
  exact Nat.le_add_right _ _

theorem EncSt.push {out : Nat} {bs : List Nat} {g g' : Store σ} (h : EncSt out bs g g')
    (cs : List Nat) (hc : ∀ b ∈ cs, b < 256) :
    EncSt out (bs ++ cs) g (g'.setMem (putB g'.mem (out + bs.length) cs)) := by
  obtain ⟨m', rfl, hs, ha⟩ := h
  refine ⟨_, setMem_setMem .., ?_, ?_⟩
  · rw [mem_setMem, List.length_append]
    exact (hs.mono (Nat.le_refl _) (by omega)).trans
      ((same_putB _ _ _).mono (by omega) (by omega))
  · rw [mem_setMem, List.length_append, asciiAt_append, asciiAt_putB _ _ _ hc]
    congr 1
    refine Eq.trans ?_ ha
    exact asciiAt_congr fun i h1 h2 => (same_putB m' (out + bs.length) cs).2 i (by omega)

theorem wp_store8 {a v : BitVec 32} (h : a.toNat + 1 ≤ g.mem.size) :
    WP M (.b (.i32store 1 0) :: is) (.i32 v :: .i32 a :: stk) loc g Q ↔
      WP M is stk loc (g.setMem (putB g.mem a.toNat [v.toNat])) Q := by
  rw [wp_i32store (by omega)]; rfl

theorem enc_tail {o l out i out' s' b1 b2 b3 b4 : BitVec 32} {cs : List Nat} {g g' : Store σ}
    {k n n' : Nat} (hl : l.toNat = 4 * n) (hlen : cs.length = n)
    (hk : k + n' = cs.length) (hn' : 0 < n') (hi : i.toNat = 4 * k)
    (h32 : out.toNat + (utf8Text cs).length < 2 ^ 32)
    (hout : out'.toNat = out.toNat + (utf8Text (cs.take (k + 1))).length)
    (hst : EncSt out.toNat (utf8Text (cs.take (k + 1))) g g') :
    if (i + 4#32).toNat < l.toNat then
      ∃ y, id y < id n' ∧ EncInv o l out cs g y [.i32 o, .i32 l, .i32 out', .i32 (i + 4#32), .i32 out, .i32 s',
        .i32 b1, .i32 b2, .i32 b3, .i32 b4] g'
    else ∃ a, (Same g.mem a out.toNat (utf8Text cs).length ∧
        asciiAt a out.toNat (utf8Text cs).length = utf8Text cs) ∧
          CRes.ret [.i32 (out' - out)] g' =
            CRes.ret [.i32 (BitVec.ofNat 32 (utf8Text cs).length)] (g.setMem a) := by
  have hl32 := l.isLt
  split
  · rename_i h
    have hi4 : (i + 4#32).toNat = 4 * (k + 1) := by
      rw [BitVec.toNat_add, BitVec.toNat_ofNat]; omega
    exact ⟨n' - 1, by simp only [id]; omega, k + 1, _, _, _, _, _, _, _, rfl, by omega, by omega, hi4, hout, hst⟩
  · rename_i h
    have hend : k + 1 = cs.length := by
      rw [BitVec.toNat_add, BitVec.toNat_ofNat] at h; omega
    rw [hend, List.take_length] at hst hout
    obtain ⟨m', rfl, h1, h2⟩ := hst
    refine ⟨m', ⟨h1, h2⟩, ?_⟩
    congr 3
    apply BitVec.eq_of_toNat_eq
    rw [BitVec.toNat_sub, BitVec.toNat_ofNat]; omega

theorem runs_convert_scalars_to_utf8 (o l out : BitVec 32) (n : Nat) (hl : l.toNat = 4 * n)
    (ho : o.toNat + l.toNat ≤ g.mem.size)
    (hc : ∀ c ∈ scalarsAt g.mem o.toNat n, c < 0x110000)
    (hout : out.toNat + (utf8Text (scalarsAt g.mem o.toNat n)).length ≤ g.mem.size)
    (h32 : out.toNat + (utf8Text (scalarsAt g.mem o.toNat n)).length < 2 ^ 32)
    (hd : o.toNat + l.toNat ≤ out.toNat ∨
      out.toNat + (utf8Text (scalarsAt g.mem o.toNat n)).length ≤ o.toNat) :
    ∃ m', (Same g.mem m' out.toNat (utf8Text (scalarsAt g.mem o.toNat n)).length ∧
      asciiAt m' out.toNat (utf8Text (scalarsAt g.mem o.toNat n)).length =
        utf8Text (scalarsAt g.mem o.toNat n)) ∧
      Runs M (.std .convert_scalars_to_utf8) [.i32 o, .i32 l, .i32 out] g
        (.ret [.i32 (BitVec.ofNat 32 (utf8Text (scalarsAt g.mem o.toNat n)).length)] (g.setMem m')) := by
  have hlen : (scalarsAt g.mem o.toNat n).length = n := length_scalars ..
  have hget : ∀ k < n, (scalarsAt g.mem o.toNat n).getD k 0 = beNat (bytesAt g.mem (o.toNat + 4 * k) 4) :=
    fun k hk => getD_scalars _ _ _ _ hk
  generalize hcs : scalarsAt g.mem o.toNat n = cs at *
  have hle := g.mem.le
  apply runs_std_ex (by simp)
  wpy [stdFunc, Std.convert_scalars_to_utf8, Std.convert_scalars_to_utf8_body]
  by_cases h0 : l = 0#32
  · subst h0
    have : cs = [] := List.length_eq_zero_iff.1 (by simp at hl; omega)
    subst this
    wif rfl
    exact ⟨g.mem, ⟨Same.refl .., rfl⟩, rfl⟩
  wif h0
  have hl0 : l.toNat ≠ 0 := fun e => h0 (BitVec.eq_of_toNat_eq (by simpa using e))
  refine wp_loop_inv (EncInv o l out cs g) id n ⟨0, _, _, _, _, _, _, _, rfl, by omega, by omega, rfl, rfl,
    g.mem, rfl, Same.refl .., rfl⟩ ?_
  rintro n' loc g' ⟨k, out', i, s, b1, b2, b3, b4, rfl, hk, hn', hi, hout', hst⟩
  have hst' := hst
  obtain ⟨m', rfl, hsame, -⟩ := hst
  wpy
  have hai : (o + i).toNat = o.toNat + 4 * k := by rw [BitVec.toNat_add]; omega
  have hkn : k < n := by omega
  rw [wp_i32load (by rw [mem_setMem, hsame.1]; omega)]
  wpy
  generalize hs' : ((BitVec.ofNat 32 ((g.setMem m').mem.read ((o + i).toNat + 0) 4) &&& 255#32) <<< 24 |||
    ((BitVec.ofNat 32 ((g.setMem m').mem.read ((o + i).toNat + 0) 4) &&& 65280#32) <<< 8 |||
      ((BitVec.ofNat 32 ((g.setMem m').mem.read ((o + i).toNat + 0) 4) &&& 16711680#32) >>> 8 |||
        BitVec.ofNat 32 ((g.setMem m').mem.read ((o + i).toNat + 0) 4) >>> 24))) = s'
  have hrd : m'.read (o.toNat + 4 * k) 4 = g.mem.read (o.toNat + 4 * k) 4 := by
    have := utf8Text_take_le cs k
    rw [read4, read4, hsame.2 _ (by omega), hsame.2 _ (by omega), hsame.2 _ (by omega),
      hsame.2 _ (by omega)]
  rw [mem_setMem, Nat.add_zero, hai, hrd] at hs'
  have hs : s'.toNat = cs.getD k 0 := by
    have hr := read_lt g.mem (o.toNat + 4 * k) 4
    rw [← hs', bswap_mask, BitVec.toNat_ofNat, Nat.mod_eq_of_lt (by omega), hget k hkn, rev4_read]
  clear hs'
  have hcl : s'.toNat < 0x110000 := by
    rw [hs]; apply hc
    rw [List.getD_eq_getElem?_getD, List.getElem?_eq_getElem (by omega)]
    exact List.getElem_mem _
  have htk := utf8Text_take cs k (by omega)
  rw [← hs] at htk
  have hle1 := utf8Text_take_le cs (k + 1)
  have hpush := hst'.push _ (utf8_lt _ hcl)
  rw [← htk, mem_setMem, ← hout'] at hpush
  have hlen1 := congrArg List.length htk
  rw [List.length_append] at hlen1
  have hsz := hsame.1
  have fin : ∀ {j : Nat} {oo x1 x2 x3 x4 : BitVec 32}, oo = out' + BitVec.ofNat 32 j →
      (utf8 s'.toNat).length = j → _ := fun {j oo x1 x2 x3 x4} e1 e2 =>
    enc_tail (o := o) (s' := s') (b1 := x1) (b2 := x2) (b3 := x3) (b4 := x4) hl hlen hk hn' hi h32
      (out' := oo) (by rw [e1, BitVec.toNat_add, BitVec.toNat_ofNat]; omega) hpush
  by_cases c1 : s'.toNat < 128
  · wif c1
    have e : utf8 s'.toNat = [s'.toNat] := by rw [utf8, if_pos c1]
    rw [e] at hlen1 hpush fin
    simp only [List.length_cons, List.length_nil] at hlen1
    rw [wp_store8 (by rw [mem_setMem]; omega)]
    wpy
    exact fin (j := 1) rfl rfl
  wif c1
  by_cases c2 : s'.toNat < 2048
  · wif c2
    have e : utf8 s'.toNat = [0xC0 + s'.toNat / 64, 0x80 + s'.toNat % 64] := by
      rw [utf8, if_neg c1, if_pos c2]
    rw [e] at hlen1 hpush fin
    simp only [List.length_cons, List.length_nil] at hlen1
    have a1 : (out' + 1#32).toNat = out'.toNat + 1 := by
      rw [BitVec.toNat_add, BitVec.toNat_ofNat]; omega
    have v1 : (192#32 ||| s' >>> 6).toNat = 0xC0 + s'.toNat / 64 := by
      rw [BitVec.toNat_or, BitVec.toNat_ushiftRight, Nat.shiftRight_eq_div_pow,
        or_add 6 (by decide) (by omega)]; rfl
    rw [wp_store8 (by rw [mem_setMem]; omega), v1]
    wpy
    rw [wp_store8 (by rw [mem_setMem, (same_putB _ _ _).1, mem_setMem]; omega), cont_byte, a1]
    wpy
    exact fin (j := 2) (by rw [BitVec.add_assoc]; rfl) rfl
  wif c2
  by_cases c3 : s'.toNat < 65536
  · wif c3
    have e : utf8 s'.toNat = [0xE0 + s'.toNat / 4096, 0x80 + s'.toNat / 64 % 64, 0x80 + s'.toNat % 64] := by
      rw [utf8, if_neg c1, if_neg c2, if_pos c3]
    rw [e] at hlen1 hpush fin
    simp only [List.length_cons, List.length_nil] at hlen1
    have a1 : (out' + 1#32).toNat = out'.toNat + 1 := by
      rw [BitVec.toNat_add, BitVec.toNat_ofNat]; omega
    have a2 : (out' + 1#32 + 1#32).toNat = out'.toNat + 1 + 1 := by
      rw [BitVec.toNat_add, BitVec.toNat_ofNat]; omega
    have v1 : (224#32 ||| s' >>> 12).toNat = 0xE0 + s'.toNat / 4096 := by
      rw [BitVec.toNat_or, BitVec.toNat_ushiftRight, Nat.shiftRight_eq_div_pow,
        or_add 4 (by decide) (by omega)]; rfl
    have v2 : (s' >>> 6).toNat = s'.toNat / 64 := by
      rw [BitVec.toNat_ushiftRight, Nat.shiftRight_eq_div_pow]
    rw [wp_store8 (by rw [mem_setMem]; omega), v1]
    wpy
    rw [wp_store8 (by rw [mem_setMem, (same_putB _ _ _).1, mem_setMem]; omega), cont_byte, a1, v2]
    wpy
    rw [wp_store8 (by simp only [mem_setMem, (same_putB _ _ _).1]; omega), cont_byte, a2]
    wpy
    exact fin (j := 3) (by rw [BitVec.add_assoc, BitVec.add_assoc]; rfl) rfl
  wif c3
  wif hcl
  have e : utf8 s'.toNat = [0xF0 + s'.toNat / 262144, 0x80 + s'.toNat / 4096 % 64,
      0x80 + s'.toNat / 64 % 64, 0x80 + s'.toNat % 64] := by
    rw [utf8, if_neg c1, if_neg c2, if_neg c3]
  rw [e] at hlen1 hpush fin
  simp only [List.length_cons, List.length_nil] at hlen1
  have a1 : (out' + 1#32).toNat = out'.toNat + 1 := by
    rw [BitVec.toNat_add, BitVec.toNat_ofNat]; omega
  have a2 : (out' + 1#32 + 1#32).toNat = out'.toNat + 1 + 1 := by
    rw [BitVec.toNat_add, BitVec.toNat_ofNat]; omega
  have a3 : (out' + 1#32 + 1#32 + 1#32).toNat = out'.toNat + 1 + 1 + 1 := by
    rw [BitVec.toNat_add, BitVec.toNat_ofNat]; omega
  have v1 : (240#32 ||| s' >>> 18).toNat = 0xF0 + s'.toNat / 262144 := by
    rw [BitVec.toNat_or, BitVec.toNat_ushiftRight, Nat.shiftRight_eq_div_pow,
      or_add 3 (by decide) (by omega)]; rfl
  have v2 : (s' >>> 12).toNat = s'.toNat / 4096 := by
    rw [BitVec.toNat_ushiftRight, Nat.shiftRight_eq_div_pow]
  have v3 : (s' >>> 6).toNat = s'.toNat / 64 := by
    rw [BitVec.toNat_ushiftRight, Nat.shiftRight_eq_div_pow]
  rw [wp_store8 (by rw [mem_setMem]; omega), v1]
  wpy
  rw [wp_store8 (by rw [mem_setMem, (same_putB _ _ _).1, mem_setMem]; omega), cont_byte, a1, v2]
  wpy
  rw [wp_store8 (by simp only [mem_setMem, (same_putB _ _ _).1]; omega), cont_byte, a2, v3]
  wpy
  rw [wp_store8 (by simp only [mem_setMem, (same_putB _ _ _).1]; omega), cont_byte, a3]
  wpy
  exact fin (j := 4) (by rw [BitVec.add_assoc, BitVec.add_assoc, BitVec.add_assoc]; rfl) rfl

end Wasm
