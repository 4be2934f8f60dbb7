import Verif.Stdlib.Sha256

/-! Runtime library: SHA-512 (standard.wat 2896-3210). -/

namespace Wasm
open Spec Sha2
variable {σ : Type} {M : Mod σ} {is : List Instr} {stk loc : List Val} {g : Store σ}
  {Q : Res σ → Prop}

theorem call_process_sha512_block (i : BitVec 32)
    (hr : (g.g32 .stackPointer).toNat + 704 + i.toNat + 128 ≤ g.mem.size) :
    Call M (.std .process_sha512_block) [.i32 i] g fun r => ∃ m', r = .ret [] (g.setMem m') ∧
      Same g.mem m' ((g.g32 .stackPointer).toNat + 64) 640 ∧
      Words 8 64 m' ((g.g32 .stackPointer).toNat + 64) (sha512F.schedule
        (firstBlock 64 (bytesAt g.mem ((g.g32 .stackPointer).toNat + 704 + i.toNat) 128)) 64) := by
  rw [call_std]
  have hle := g.mem.le
  wpx [stdFunc, Std.process_sha512_block, Std.process_sha512_block_body]
  generalize hspe : g.g32 .stackPointer = sp at *
  have e1 : (sp + i).toNat = sp.toNat + i.toNat := toNat_add_of_lt (by omega)
  refine wp_loop_inv (fun n loc g' => ∃ k m', n + k = 8 ∧ g' = g.setMem m' ∧
    loc = [.i32 i, .i32 sp, .i32 (sp + i), .i64 0#64, .i32 (BitVec.ofNat 32 (16 * k))] ∧ 0 < n ∧
    Same g.mem m' (sp.toNat + 64) (16 * k) ∧ ∀ j, j < 16 * k → m'.byte (sp.toNat + 64 + j) =
      g.mem.byte (sp.toNat + 704 + i.toNat + (8 * (j / 8) + (8 - 1 - j % 8)))) id 8
    ⟨0, g.mem, rfl, rfl, rfl, by omega, Same.refl .., fun j hj => by omega⟩ ?_
  rintro n loc g' ⟨k, m', hk, rfl, rfl, hn, hs, hb⟩
  have hs1 := hs.1
  have e2 : (BitVec.ofNat 32 (16 * k)).toNat = 16 * k := by rw [BitVec.toNat_ofNat]; omega
  have e3 : (sp + i + BitVec.ofNat 32 (16 * k)).toNat = sp.toNat + i.toNat + 16 * k := by
    rw [toNat_add_of_lt (by omega), e1, e2]
  have e4 : (sp + BitVec.ofNat 32 (16 * k)).toNat = sp.toNat + 16 * k := by
    rw [toNat_add_of_lt (by omega), e2]
  have e5 : BitVec.ofNat 32 (16 * k) + 16#32 = BitVec.ofNat 32 (16 * (k + 1)) := by
    rw [Nat.mul_add, BitVec.ofNat_add]
  have e6 : (BitVec.ofNat 32 (16 * (k + 1))).toNat = 16 * (k + 1) := by
    rw [BitVec.toNat_ofNat]; omega
  wpm [e3, e4, e5, e6]
  have hb' := swizzle_step (.inr rfl) mask8 (k := k) (fun j hj => hs.2 _ (by omega)) hb
  have hs' := same_swizzle hs 16
    (swizzle (BitVec.ofNat 128 (m'.read (sp.toNat + 704 + i.toNat + 16 * k) 16))
      0x8090a0b0c0d0e0f0001020304050607#128).toNat
  rw [show sp.toNat + i.toNat + 16 * k + 704 = sp.toNat + 704 + i.toNat + 16 * k by omega,
    show sp.toNat + 16 * k + 64 = sp.toNat + 64 + 16 * k by omega]
  generalize m'.write _ _ _ = m1 at *
  rw [show 16 * k + 16 = 16 * (k + 1) by omega] at hs'
  by_cases hend : 16 * (k + 1) < 128
  · rw [if_neg (by omega)]
    exact ⟨n - 1, by simp only [id]; omega, k + 1, m1, by omega, rfl, rfl, by omega, hs', hb'⟩
  rw [if_pos hend]
  have hk8 : k + 1 = 8 := by omega
  rw [hk8] at hs' hb'
  clear hb hs hs1 e2 e3 e4 e5 e6 hend hk
  generalize hB : firstBlock 64 (bytesAt g.mem (sp.toNat + 704 + i.toNat) 128) = B
  have hBl : B.length = 16 := by rw [← hB, length_firstBlock]
  have hw0 : Words 8 64 m1 (sp.toNat + 64) B := by
    rw [← hB]
    exact words_firstBlock (by decide) (Nat.le_refl _) hb'
  clear hB hb'
  refine wp_loop_inv (fun n loc g' => ∃ k m' x t, n + k = 64 ∧ g' = g.setMem m' ∧
    loc = [.i32 i, .i32 sp, .i32 x, .i64 t, .i32 (BitVec.ofNat 32 (8 * k))] ∧ 0 < n ∧
    Same g.mem m' (sp.toNat + 64) 640 ∧ Words 8 64 m' (sp.toNat + 64) (sha512F.schedule B k)) id 64
    ⟨0, m1, _, _, rfl, rfl, rfl, by omega, hs'.mono (Nat.le_refl _) (by omega), hw0⟩ ?_
  clear hs' hw0
  rintro n loc g' ⟨k, m', x, t, hk, rfl, rfl, hn, hs, hw⟩
  have hs1 := hs.1
  have e2 : (BitVec.ofNat 32 (8 * k)).toNat = 8 * k := by rw [BitVec.toNat_ofNat]; omega
  have e4 : (sp + BitVec.ofNat 32 (8 * k)).toNat = sp.toNat + 8 * k := by
    rw [toNat_add_of_lt (by omega), e2]
  have e3 : (sp + BitVec.ofNat 32 (8 * k) + 128#32).toNat = sp.toNat + 8 * k + 128 := by
    rw [toNat_add_of_lt (by rw [e4]; simp; omega), e4]; rfl
  have e5 : BitVec.ofNat 32 (8 * k) + 8#32 = BitVec.ofNat 32 (8 * (k + 1)) := by
    rw [Nat.mul_add, BitVec.ofNat_add]
  have e6 : (BitVec.ofNat 32 (8 * (k + 1))).toNat = 8 * (k + 1) := by
    rw [BitVec.toNat_ofNat]; omega
  have hl := length_schedule sha512F B k
  wpm [e3, e4, e5, e6]
  rw [getD_words hw k (by omega) (by omega), getD_words hw (k + 1) (by omega) (by omega),
    getD_words hw (k + 9) (by omega) (by omega), getD_words hw (k + 14) (by omega) (by omega)]
  have hw' := hw.snoc (by decide) (sha512F.ss1 ((sha512F.schedule B k).getD (k + 14) 0) +
    (sha512F.schedule B k).getD (k + 9) 0 + sha512F.ss0 ((sha512F.schedule B k).getD (k + 1) 0) +
    (sha512F.schedule B k).getD k 0)
  have e : ∀ a b c d : BitVec 64, a + b + c + d = d + c + b + a := by
    intro a b c d
    rw [BitVec.add_assoc, BitVec.add_comm c d, BitVec.add_comm a b, BitVec.add_comm, BitVec.add_assoc (d + c)]
  rw [e, show sp.toNat + 8 * k + 128 + 64 = sp.toNat + 64 + 8 * (sha512F.schedule B k).length by omega]
  have hs' := same_write m' (sp.toNat + 64 + 8 * (sha512F.schedule B k).length) 8
    (sha512F.ss1 ((sha512F.schedule B k).getD (k + 14) 0) +
    (sha512F.schedule B k).getD (k + 9) 0 + sha512F.ss0 ((sha512F.schedule B k).getD (k + 1) 0) +
    (sha512F.schedule B k).getD k 0).toNat
  change Words 8 64 _ _ (sha512F.schedule B (k + 1)) at hw'
  simp only [sha512F] at hw' hs' hl ⊢
  generalize m'.write _ _ _ = m1 at *
  have hs2 := hs.trans (hs'.mono (by omega) (by omega))
  by_cases hend : 8 * (k + 1) < 512
  · rw [if_neg (by omega)]
    exact ⟨n - 1, by simp only [id]; omega, k + 1, m1, _, _, by omega, rfl, rfl, by omega, hs2, hw'⟩
  · rw [if_pos hend]
    rw [show k + 1 = 64 by omega] at hw'
    exact ⟨m1, rfl, hs2, hw'⟩


theorem calculate_sha512_tail (sp i : BitVec 32) (t1 t2 : BitVec 64) (v H : Vars 64)
    (hr : sp.toNat + 704 ≤ g.mem.size) (hH : Words 8 64 g.mem sp.toNat H.toList) :
    WP M (Std.calculate_sha512_body.drop 29) [] [.i32 sp, .i32 i, .i64 v.a, .i64 v.b, .i64 v.c, .i64 v.d,
      .i64 v.e, .i64 v.f, .i64 v.g, .i64 v.h, .i64 t1, .i64 t2] g
      (fun r => ∃ m', Res.toCall 0 r = .ret [] (g.setMem m') ∧ Same g.mem m' sp.toNat 64 ∧
        Words 8 64 m' sp.toNat (v.add H).toList) := by
  have hle := g.mem.le
  obtain ⟨h0, h1, h2, h3, h4, h5, h6, h7⟩ := words_vars.1 hH
  simp only [Nat.reduceMul] at h0 h1 h2 h3 h4 h5 h6 h7
  obtain ⟨a, b, c, d, e, f, gg, h⟩ := v
  obtain ⟨A, B, C, D, E, F, G, HH⟩ := H
  simp only at h0 h1 h2 h3 h4 h5 h6 h7 ⊢
  wpm [Std.calculate_sha512_body]
  simp (disch := omega) only [rd_write_ne, h0, h1, h2, h3, h4, h5, h6, h7]
  refine ⟨_, rfl, ?_, ?_⟩
  · repeat refine Same.wr ?_ (by omega) (by omega)
    exact Same.refl ..
  · rw [words_vars]
    simp (disch := omega) only [Nat.reduceMul, rd_write_ne, rd_write, Vars.add]
    have ec : ∀ x y : BitVec 64, BitVec.ofNat 64 ((x + y).toNat % 256 ^ 8) = y + x := by
      intro x y
      have := (x + y).isLt
      rw [Nat.mod_eq_of_lt (by omega), BitVec.ofNat_toNat, BitVec.setWidth_eq, BitVec.add_comm]
    simp only [ec, and_self]

theorem call_calculate_sha512 (H : Vars 64) (W : List (BitVec 64)) (hWl : W.length = 80)
    (hr : (g.g32 .stackPointer).toNat + 704 ≤ g.mem.size)
    (hsp : 1352 ≤ (g.g32 .stackPointer).toNat)
    (hK : Words 8 64 g.mem 712 sha512F.K)
    (hH : Words 8 64 g.mem (g.g32 .stackPointer).toNat H.toList)
    (hW : Words 8 64 g.mem ((g.g32 .stackPointer).toNat + 64) W) :
    Call M (.std .calculate_sha512) [] g fun r => ∃ m', r = .ret [] (g.setMem m') ∧
      Same g.mem m' (g.g32 .stackPointer).toNat 64 ∧
      Words 8 64 m' (g.g32 .stackPointer).toNat
        (((sha512F.K.zip W).foldl sha512F.round H).add H).toList := by
  rw [call_std]
  have hle := g.mem.le
  generalize hspe : g.g32 .stackPointer = sp at *
  rw [show (stdFunc .calculate_sha512).body =
    Std.calculate_sha512_body.take 29 ++ Std.calculate_sha512_body.drop 29 from rfl, wp_append]
  have htail := fun t1 t2 i v => calculate_sha512_tail (M := M) sp i t1 t2 v H hr hH
  generalize hT : Std.calculate_sha512_body.drop 29 = T at *
  wpm [stdFunc, Std.calculate_sha512, Std.calculate_sha512_body, hspe]
  obtain ⟨h0, h1, h2, h3, h4, h5, h6, h7⟩ := words_vars.1 hH
  simp only [Nat.reduceMul] at h0 h1 h2 h3 h4 h5 h6 h7
  rw [h0, h1, h2, h3, h4, h5, h6, h7]
  refine wp_loop_inv (fun n loc g' => ∃ k t1 t2, n + k = 80 ∧ g' = g ∧
    loc = [.i32 sp, .i32 (BitVec.ofNat 32 (8 * k)), .i64 (after sha512F H W k).a,
      .i64 (after sha512F H W k).b, .i64 (after sha512F H W k).c, .i64 (after sha512F H W k).d,
      .i64 (after sha512F H W k).e, .i64 (after sha512F H W k).f, .i64 (after sha512F H W k).g,
      .i64 (after sha512F H W k).h, .i64 t1, .i64 t2] ∧ 0 < n) id 80
    ⟨0, _, _, rfl, rfl, rfl, by omega⟩ ?_
  clear h0 h1 h2 h3 h4 h5 h6 h7
  rintro n loc g' ⟨k, t1, t2, hk, rfl, rfl, hn⟩
  have e2 : (BitVec.ofNat 32 (8 * k)).toNat = 8 * k := by rw [BitVec.toNat_ofNat]; omega
  have e4 : (sp + BitVec.ofNat 32 (8 * k)).toNat = sp.toNat + 8 * k := by
    rw [toNat_add_of_lt (by omega), e2]
  have e5 : BitVec.ofNat 32 (8 * k) + 8#32 = BitVec.ofNat 32 (8 * (k + 1)) := by
    rw [Nat.mul_add, BitVec.ofNat_add]
  have e6 : (BitVec.ofNat 32 (8 * (k + 1))).toNat = 8 * (k + 1) := by
    rw [BitVec.toNat_ofNat]; omega
  have hKl : sha512F.K.length = 80 := rfl
  have hv := after_succ sha512F H W k (by omega) (by omega)
  have rK := getD_words hK k (by omega) (b := 8 * k + 712) (by omega)
  have rW := getD_words hW k (by omega) (b := sp.toNat + 8 * k + 64) (by omega)
  have hend := after_all sha512F H W (k + 1)
  generalize after sha512F H W k = v at *
  generalize hv' : after sha512F H W (k + 1) = v' at *
  wpm [e2, e4, e5, e6, rK, rW]
  have hx : ∀ x : BitVec 64, x ^^^ 18446744073709551615#64 = ~~~x := fun x => by
    rw [show 18446744073709551615#64 = BitVec.allOnes 64 from rfl, BitVec.xor_allOnes]
  simp only [hx]
  split
  · rw [← hend (by omega)]
    exact hv ▸ htail _ _ _ (sha512F.round v (sha512F.K.getD k 0, W.getD k 0))
  · refine ⟨n - 1, by simp only [id]; omega, k + 1, ?t1, ?t2, by omega, trivial, ?eq, by omega⟩
    case eq => rw [hv', hv]; rfl

theorem beBytes_wide (k n j : Nat) (h : n < 256 ^ k) :
    beBytes (j + k) n = List.replicate j 0#8 ++ beBytes k n := by
  induction j with
  | zero => simp
  | succ j ih =>
    rw [show j + 1 + k = j + k + 1 by omega, beBytes, ih, List.replicate_succ, List.cons_append]
    congr 1
    rw [Nat.div_eq_of_lt (Nat.lt_of_lt_of_le h (Nat.pow_le_pow_right (by omega) (by omega)))]

theorem pad64_eq (msg : List Byte) (h : msg.length < 2 ^ 61) : pad 64 msg = msg ++ ([0x80#8] ++
    (List.replicate (padLen 64 msg.length - msg.length - 9) 0#8 ++ beBytes 8 (8 * msg.length))) := by
  rw [pad, List.append_assoc, List.append_assoc, show 64 / 4 = 8 + 8 from rfl, beBytes_wide _ _ _ (by omega),
    ← List.append_assoc (List.replicate _ _), List.replicate_append_replicate]
  congr 4
  simp only [padLen]; omega

theorem length_pad64 (msg : List Byte) : (pad 64 msg).length = padLen 64 msg.length := by
  rw [pad]
  simp only [List.length_append, List.length_replicate, length_beBytes, List.length_cons,
    List.length_nil, padLen]
  omega

theorem call_pad_sha512_data (o l : BitVec 32) (hl : l.toNat < 2 ^ 29)
    (ho : o.toNat + l.toNat ≤ g.mem.size)
    (hd : o.toNat + l.toNat ≤ (g.g32 .stackPointer).toNat ∨ (g.g32 .stackPointer).toNat + 64 ≤ o.toNat)
    (hr : (g.g32 .stackPointer).toNat + 704 + padLen 64 l.toNat ≤ g.mem.size)
    (hI : Words 8 64 g.mem 648 sha512F.init.toList) :
    Call M (.std .pad_sha512_data) [.i32 o, .i32 l] g fun r => ∃ m',
      r = .ret [.i32 (BitVec.ofNat 32 (padLen 64 l.toNat))] (g.setMem m') ∧
      Same g.mem m' (g.g32 .stackPointer).toNat (704 + padLen 64 l.toNat) ∧
      Words 8 64 m' (g.g32 .stackPointer).toNat sha512F.init.toList ∧
      bytesAt m' ((g.g32 .stackPointer).toNat + 704) (padLen 64 l.toNat) =
        pad 64 (bytesAt g.mem o.toNat l.toNat) := by
  rw [call_std]
  have hle := g.mem.le
  generalize hspe : g.g32 .stackPointer = sp at *
  have hp : padLen 64 l.toNat = 128 * ((l.toNat + 16) / 128) + 128 := rfl
  have e1 : (sp + 704#32).toNat = sp.toNat + 704 := toNat_add_of_lt (by simp; omega)
  have e2 : (l + 16#32) ||| 127#32 = BitVec.ofNat 32 (padLen 64 l.toNat - 1) := by
    apply BitVec.eq_of_toNat_eq
    rw [BitVec.toNat_or, toNat_add_of_lt (by simp; omega), BitVec.toNat_ofNat]
    have := or_ones (l.toNat + 16) 7
    simp only [Nat.reducePow, Nat.reduceSub, BitVec.toNat_ofNat, Nat.reduceMod] at this ⊢
    rw [this]
    omega
  have e3 : BitVec.ofNat 32 (padLen 64 l.toNat - 1) + 1#32 = BitVec.ofNat 32 (padLen 64 l.toNat) := by
    rw [← BitVec.ofNat_add]; congr 1
  have e4 : (sp + l).toNat = sp.toNat + l.toNat := toNat_add_of_lt (by omega)
  have e5 : (sp + l + 705#32).toNat = sp.toNat + l.toNat + 705 := by
    rw [toNat_add_of_lt (by rw [e4]; simp; omega), e4]; rfl
  have e6 : (BitVec.ofNat 32 (padLen 64 l.toNat) - l - 8#32).toNat = padLen 64 l.toNat - l.toNat - 8 := by
    rw [BitVec.toNat_sub, BitVec.toNat_sub, BitVec.toNat_ofNat, BitVec.toNat_ofNat]; omega
  have e7 : (sp + BitVec.ofNat 32 (padLen 64 l.toNat) - 8#32).toNat = sp.toNat + padLen 64 l.toNat - 8 := by
    rw [BitVec.toNat_sub, BitVec.toNat_add, BitVec.toNat_ofNat, BitVec.toNat_ofNat]; omega
  have e8 : (BitVec.setWidth 64 (l <<< 3)).toNat = 8 * l.toNat := by
    rw [BitVec.toNat_setWidth, BitVec.toNat_shiftLeft, Nat.shiftLeft_eq]; omega
  wpm [stdFunc, Std.pad_sha512_data, Std.pad_sha512_data_body, hspe, e1, e2, e3, e4, e5, e6, e7]
  rw [bswap64 _ (by omega), e8]
  obtain ⟨h1, h2, h3⟩ := padMem_spec g.mem (sp := sp.toNat) (src := 648) (hb := 64) (D := 704)
    (o := o.toNat) (l := l.toNat) (r := padLen 64 l.toNat) (by omega) (by omega) (by omega) hd
  refine ⟨_, rfl, h1, Words.copy h2 hI, ?_⟩
  rw [pad64_eq _ (by rw [length_bytesAt]; omega), length_bytesAt]
  exact h3

theorem call_store_sha512 (out : BitVec 32) (H : Vars 64)
    (hr : (g.g32 .stackPointer).toNat + 704 ≤ g.mem.size) (hout : out.toNat + 64 ≤ g.mem.size)
    (hdis : out.toNat + 64 ≤ (g.g32 .stackPointer).toNat ∨ (g.g32 .stackPointer).toNat + 64 ≤ out.toNat)
    (hH : Words 8 64 g.mem (g.g32 .stackPointer).toNat H.toList) :
    Call M (.std .store_calculated_sha512) [.i32 out] g
      (fun r => ∃ m', r = .ret [] (g.setMem m') ∧
        Same g.mem m' out.toNat 64 ∧
        bytesAt m' out.toNat 64 = H.toList.flatMap fun x => beBytes 8 x.toNat) := by
  rw [call_std]
  have hle := g.mem.le
  generalize hspe : g.g32 .stackPointer = sp at *
  wpm [stdFunc, Std.store_calculated_sha512, Std.store_calculated_sha512_body, hspe]
  refine ⟨_, rfl, ?_, ?_⟩
  · repeat refine Same.wr ?_ (by omega) (by omega)
    exact Same.refl ..
  · have s1 := swizzle_step (m0 := g.mem) (m' := g.mem) (D := out.toNat) (S := sp.toNat) (k := 0) (.inr rfl) mask8 (fun _ _ => rfl)
      (fun _ h => by omega)
    simp only [Nat.mul_zero, Nat.add_zero] at s1
    have f1 := same_write g.mem out.toNat 16 (swizzle (BitVec.ofNat 128 (g.mem.read sp.toNat 16))
      0x8090a0b0c0d0e0f0001020304050607#128).toNat
    generalize g.mem.write _ _ _ = m1 at *
    have s2 := swizzle_step (m0 := g.mem) (D := out.toNat) (S := sp.toNat) (k := 1) (.inr rfl) mask8
      (fun i hi => f1.2 _ (by omega)) s1
    simp only [Nat.reduceMul] at s2
    have f2 := same_swizzle f1 16 (swizzle (BitVec.ofNat 128 (m1.read (sp.toNat + 16) 16))
      0x8090a0b0c0d0e0f0001020304050607#128).toNat
    generalize m1.write _ _ _ = m2 at *
    have s3 := swizzle_step (m0 := g.mem) (D := out.toNat) (S := sp.toNat) (k := 2) (.inr rfl) mask8
      (fun i hi => f2.2 _ (by omega)) s2
    simp only [Nat.reduceMul] at s3
    have f3 := same_swizzle f2 16 (swizzle (BitVec.ofNat 128 (m2.read (sp.toNat + 32) 16))
      0x8090a0b0c0d0e0f0001020304050607#128).toNat
    simp only [Nat.reduceAdd] at f3
    generalize m2.write _ _ _ = m3 at *
    have s4 := swizzle_step (m0 := g.mem) (D := out.toNat) (S := sp.toNat) (k := 3) (.inr rfl) mask8
      (fun i hi => f3.2 _ (by omega)) s3
    exact digest_swizzle H.toList (by decide) rfl hH s4

theorem call_sha512_buf (o l out : BitVec 32) (hl : l.toNat < 2 ^ 29)
    (ho : o.toNat + l.toNat ≤ g.mem.size)
    (hd : o.toNat + l.toNat ≤ (g.g32 .stackPointer).toNat ∨ (g.g32 .stackPointer).toNat + 64 ≤ o.toNat)
    (hsp : 1352 ≤ (g.g32 .stackPointer).toNat)
    (hr : (g.g32 .stackPointer).toNat + 704 + padLen 64 l.toNat ≤ g.mem.size)
    (hout : out.toNat + 64 ≤ g.mem.size)
    (hdis : out.toNat + 64 ≤ (g.g32 .stackPointer).toNat ∨ (g.g32 .stackPointer).toNat + 64 ≤ out.toNat)
    (hI : Words 8 64 g.mem 648 sha512F.init.toList) (hK : Words 8 64 g.mem 712 sha512F.K) :
    Call M (.std .sha512_buf) [.i32 o, .i32 l, .i32 out] g fun r => ∃ m',
      r = .ret [.i32 out, .i32 64#32] (g.setMem m') ∧
      Same2 g.mem m' out.toNat 64 (g.g32 .stackPointer).toNat (704 + padLen 64 l.toNat) ∧
      bytesAt m' out.toNat 64 = sha512F.digest (bytesAt g.mem o.toNat l.toNat) := by
  rw [call_std]
  have hle := g.mem.le
  have hp : padLen 64 l.toNat = 128 * ((l.toNat + 16) / 128) + 128 := rfl
  rw [show (stdFunc .sha512_buf).body = Std.sha512_buf_body.take 7 ++ Std.sha512_buf_body.drop 7
    from rfl, wp_append]
  generalize hT : Std.sha512_buf_body.drop 7 = T at *
  wpm [stdFunc, Std.sha512_buf, Std.sha512_buf_body]
  refine wp_call_of (args := [.i32 o, .i32 l]) (ps := [.i32, .i32]) (rs := [.i32]) rfl rfl
    (call_pad_sha512_data o l hl ho hd hr hI) ?_
  rintro r ⟨m0, rfl, hs0, hH0, hpad⟩
  wpm
  generalize hspe : g.g32 .stackPointer = sp at *
  generalize hP : pad 64 (bytesAt g.mem o.toNat l.toNat) = P at *
  have hPl : P.length = padLen 64 l.toNat := by rw [← hP, length_pad64, length_bytesAt]
  generalize hRe : padLen 64 l.toNat = R at *
  generalize hB : R / 128 = B at *
  have hRB : R = 128 * B := by omega
  refine wp_loop_inv (fun n loc g' => ∃ k m', n + k = B ∧ g' = g.setMem m' ∧
    loc = [.i32 o, .i32 l, .i32 out, .i32 (BitVec.ofNat 32 R), .i32 (BitVec.ofNat 32 (128 * k))] ∧ 0 < n ∧
    Same g.mem m' sp.toNat (704 + R) ∧ Words 8 64 m' sp.toNat (sha512F.hashBlocks P k).toList ∧
    bytesAt m' (sp.toNat + 704) R = P) id B
    ⟨0, m0, rfl, rfl, rfl, by omega, hs0, hH0, hpad⟩ ?_
  clear hs0 hH0 hpad
  rintro n loc g' ⟨k, m', hk, rfl, rfl, hn, hs, hH, hb⟩
  have hs1 := hs.1
  have e2 : (BitVec.ofNat 32 (128 * k)).toNat = 128 * k := by rw [BitVec.toNat_ofNat]; omega
  have e5 : BitVec.ofNat 32 (128 * k) + 128#32 = BitVec.ofNat 32 (128 * (k + 1)) := by
    rw [Nat.mul_add, BitVec.ofNat_add]
  have e6 : (BitVec.ofNat 32 (128 * (k + 1))).toNat = 128 * (k + 1) := by
    rw [BitVec.toNat_ofNat]; omega
  have e7 : (BitVec.ofNat 32 R).toNat = R := by rw [BitVec.toNat_ofNat]; omega
  wpm
  refine wp_call_of (args := [.i32 (BitVec.ofNat 32 (128 * k))]) (ps := [.i32]) (rs := []) rfl rfl
    (call_process_sha512_block _ (by simp only [setMem_g32, mem_setMem]; rw [hspe, e2]; omega)) ?_
  rintro r ⟨m1, rfl, ha1, ha2⟩
  simp only [setMem_g32, mem_setMem, hspe, e2] at ha1 ha2
  have hW : firstBlock 64 (bytesAt m' (sp.toNat + 704 + 128 * k) 128) = firstBlock 64 (P.drop (128 * k)) := by
    apply firstBlock_congr
    rw [← hb, drop_bytesAt _ _ _ _ (by omega), take_bytesAt _ _ _ _ (by decide), take_bytesAt _ _ _ _ (by omega)]
  rw [hW] at ha2
  wpm
  refine wp_call_of (args := []) (ps := []) (rs := []) rfl rfl
    (call_calculate_sha512 (sha512F.hashBlocks P k)
      (sha512F.schedule (firstBlock 64 (P.drop (128 * k))) 64) (by rw [length_schedule, length_firstBlock])
      (by simp only [setMem_g32, mem_setMem]; rw [hspe, ha1.1]; omega) (by simp only [setMem_g32]; rw [hspe]; omega) ?_ ?_
      (by simp only [setMem_g32, mem_setMem]; rw [hspe]; exact ha2)) ?_
  · simp only [mem_setMem]
    exact (hK.same hs (.inl (by simp [sha512F]; omega))).same ha1 (.inl (by simp [sha512F]; omega))
  · simp only [setMem_g32, mem_setMem]; rw [hspe]
    exact hH.same ha1 (.inl (by simp [Vars.toList]))
  rintro r ⟨m2, rfl, hb1, hb2⟩
  simp only [setMem_g32, mem_setMem, hspe] at hb1 hb2
  have hH2 : Words 8 64 m2 sp.toNat (sha512F.hashBlocks P (k + 1)).toList := by
    rw [hashBlocks_succ]; exact hb2
  have hs2 : Same g.mem m2 sp.toNat (704 + R) :=
    (hs.trans (ha1.mono (by omega) (by omega))).trans (hb1.mono (by omega) (by omega))
  have hbb : bytesAt m2 (sp.toNat + 704) R = P := by
    rw [bytesAt_same hb1 (by omega), bytesAt_same ha1 (by omega), hb]
  wpm [e5, e6, e7]
  split
  · rw [show k + 1 = B by omega] at hH2 ⊢
    rw [← hT]
    wpm [List.drop, Std.sha512_buf_body]
    refine wp_call_of (args := [.i32 out]) (ps := [.i32]) (rs := []) rfl rfl
      (call_store_sha512 out (sha512F.hashBlocks P B) (by simp only [setMem_g32, mem_setMem, hspe]; rw [hs2.1]; omega)
        (by simp only [mem_setMem]; rw [hs2.1]; omega) (by simp only [setMem_g32, hspe]; exact hdis)
        (by simp only [setMem_g32, mem_setMem, hspe]; exact hH2)) ?_
    rintro r ⟨m3, rfl, h2, h3⟩
    wpm
    refine ⟨m3, rfl, ⟨h2.1.trans hs2.1, fun i hi hi' => (h2.2 i hi).trans (hs2.2 i hi')⟩, ?_⟩
    rw [h3, digest, hP, hPl, ← hB]
  · exact ⟨n - 1, by simp only [id]; omega, k + 1, m2, by omega, rfl, rfl, by omega, hs2, hH2, hbb⟩

theorem call_sha512_int (lo hi : BitVec 64) (out : BitVec 32)
    (hsp : 1352 ≤ (g.g32 .stackPointer).toNat)
    (hr : (g.g32 .stackPointer).toNat + 834 ≤ g.mem.size)
    (hout : out.toNat + 64 ≤ g.mem.size)
    (hdis : out.toNat + 64 ≤ (g.g32 .stackPointer).toNat ∨ (g.g32 .stackPointer).toNat + 64 ≤ out.toNat)
    (hI : Words 8 64 g.mem 648 sha512F.init.toList) (hK : Words 8 64 g.mem 712 sha512F.K) :
    Call M (.std .sha512_int) [.i64 lo, .i64 hi, .i32 out] g fun r => ∃ m',
      r = .ret [.i32 out, .i32 64#32] (g.setMem m') ∧
      Same2 g.mem m' out.toNat 64 (g.g32 .stackPointer).toNat 834 ∧
      bytesAt m' out.toNat 64 = sha512F.digest (leBytes 16 (u128 lo hi)) := by
  rw [call_std]
  have hle := g.mem.le
  generalize hspe : g.g32 .stackPointer = sp at *
  have e1 : (sp + 724#32).toNat = sp.toNat + 724 := toNat_add_of_lt (by simp; omega)
  wpm [stdFunc, Std.sha512_int, Std.sha512_int_body, hspe, e1]
  obtain ⟨h1, h2, h3⟩ := intMem_spec g.mem (sp := sp.toNat) (src := 648) (hb := 64) (D := 704) (r := 128)
    (n := 110) lo hi (by omega) (by omega) (by omega)
  change Same g.mem (((((((g.mem.copy sp.toNat 648 64).write (sp.toNat + 704) 8 lo.toNat).write
    (sp.toNat + 712) 8 hi.toNat).write (sp.toNat + 720) 4 128).fill (sp.toNat + 724) 0#8 110).write
    (sp.toNat + 831) 1 128)) sp.toNat 834 at h1
  simp only [intMem, Nat.reduceAdd, Nat.reduceSub] at h2 h3
  change WP M _ _ _ (g.setMem (((((((g.mem.copy sp.toNat 648 64).write (sp.toNat + 704) 8 lo.toNat).write
    (sp.toNat + 712) 8 hi.toNat).write (sp.toNat + 720) 4 128).fill (sp.toNat + 724) 0#8 110).write
    (sp.toNat + 831) 1 128))) _
  generalize Mem.write _ (sp.toNat + 831) 1 128 = m0 at *
  have hP : bytesAt m0 (sp.toNat + 704) 128 = pad 64 (leBytes 16 (u128 lo hi)) := by
    rw [pad64_eq _ (by rw [length_leBytes]; omega), length_leBytes, h3]; rfl
  clear h3
  generalize hPP : pad 64 (leBytes 16 (u128 lo hi)) = P at *
  have hPl : P.length = 128 := by rw [← hP, length_bytesAt]
  have hH : Words 8 64 m0 sp.toNat (sha512F.hashBlocks P 0).toList := Words.copy h2 hI
  refine wp_call_of (args := [.i32 0#32]) (ps := [.i32]) (rs := []) rfl rfl
    (call_process_sha512_block _ (by simp only [setMem_g32, mem_setMem]; rw [hspe, h1.1]; simp; omega)) ?_
  rintro r ⟨m1, rfl, ha1, ha2⟩
  simp only [setMem_g32, mem_setMem, hspe, BitVec.toNat_ofNat, Nat.zero_mod, Nat.add_zero, hP] at ha1 ha2
  wpm
  refine wp_call_of (args := []) (ps := []) (rs := []) rfl rfl
    (call_calculate_sha512 (sha512F.hashBlocks P 0)
      (sha512F.schedule (firstBlock 64 P) 64) (by rw [length_schedule, length_firstBlock])
      (by simp only [setMem_g32, mem_setMem]; rw [hspe, ha1.1, h1.1]; omega) (by simp only [setMem_g32]; rw [hspe]; omega) ?_ ?_
      (by simp only [setMem_g32, mem_setMem]; rw [hspe]; exact ha2)) ?_
  · simp only [mem_setMem]
    exact (hK.same h1 (.inl (by simp [sha512F]; omega))).same ha1 (.inl (by simp [sha512F]; omega))
  · simp only [setMem_g32, mem_setMem]; rw [hspe]
    exact hH.same ha1 (.inl (by simp [Vars.toList]))
  rintro r ⟨m2, rfl, hb1, hb2⟩
  simp only [setMem_g32, mem_setMem, hspe] at hb1 hb2
  have hs2 : Same g.mem m2 sp.toNat 834 :=
    (h1.trans (ha1.mono (by omega) (by omega))).trans (hb1.mono (by omega) (by omega))
  wpm
  refine wp_call_of (args := [.i32 out]) (ps := [.i32]) (rs := []) rfl rfl
    (call_store_sha512 out (sha512F.hashBlocks P 1) (by simp only [setMem_g32, mem_setMem, hspe]; rw [hs2.1]; omega)
      (by simp only [mem_setMem]; rw [hs2.1]; omega) (by simp only [setMem_g32, hspe]; exact hdis)
      (by simp only [setMem_g32, mem_setMem, hspe]; exact hb2)) ?_
  rintro r ⟨m3, rfl, c2, c3⟩
  wpm
  refine ⟨m3, rfl, ⟨c2.1.trans hs2.1, fun i hi hi' => (c2.2 i hi).trans (hs2.2 i hi')⟩, ?_⟩
  rw [c3, digest, hPP, hPl]

end Wasm
