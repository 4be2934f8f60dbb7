import Verif.Stdlib.Sha512
import Verif.Stdlib.Hash160
import Verif.Props.Bytes

/-! C40, C41: SHA-256, SHA-512 and hash160 of buffers and integers. The specification is FIPS 180-4
(`Spec/Sha2.lean`), whose constants are checked there against their definition as roots of primes
and whose functions are checked on the published example messages. -/

namespace Props
open Wasm Spec
variable {σ : Type} (M : Wasm.Mod σ) (g : Store σ)

/-- The memory holds the data segments of the runtime library (standard.wat 351-378), which every
compiled module loads at instantiation and which lie below `END_OF_STANDARD_DATA` = 1352
(wasm_generator.rs 33). -/
def HoldsStdData (m : Mem) : Prop := ∀ d ∈ stdData, bytesAt m d.1 d.2.length = d.2

/-- Reading a table of words out of its bytes. -/
theorem words_of_bytes {k w : Nat} {m : Mem} {a : Nat} {l : List (BitVec w)} {bs : List Byte}
    (hb : bytesAt m a bs.length = bs)
    (h : ∀ i < l.length, BitVec.ofNat w (leNat ((bs.drop (k * i)).take k)) = l.getD i 0)
    (hlen : k * l.length ≤ bs.length) : Words k w m a l := by
  intro i hi
  have hk : k * i + k ≤ k * l.length := by rw [← Nat.mul_succ]; exact Nat.mul_le_mul_left k hi
  rw [← h i hi, ← hb, drop_bytesAt _ _ _ _ (by omega), take_bytesAt _ _ _ _ (by omega), leNat_bytesAt]

theorem std_sha256_init {m : Mem} (h : HoldsStdData m) : Words 4 32 m 0 sha256F.init.toList :=
  words_of_bytes (h (stdData[0]) (List.getElem_mem _)) (by decide +kernel) (by decide +kernel)

theorem std_sha256_K {m : Mem} (h : HoldsStdData m) : Words 4 32 m 32 sha256F.K :=
  words_of_bytes (h (stdData[1]) (List.getElem_mem _)) (by decide +kernel) (by decide +kernel)

theorem std_sha512_init {m : Mem} (h : HoldsStdData m) : Words 8 64 m 648 sha512F.init.toList :=
  words_of_bytes (h (stdData[8]) (List.getElem_mem _)) (by decide +kernel) (by decide +kernel)

theorem std_sha512_K {m : Mem} (h : HoldsStdData m) : Words 8 64 m 712 sha512F.K :=
  words_of_bytes (h (stdData[9]) (List.getElem_mem _)) (by decide +kernel) (by decide +kernel)

/-- Where a hash function may be called: the stack pointer lies above the library's data, the
`space` bytes reserved by the compiler lie above the stack pointer (words/hashing.rs 14-66), and the
place for the digest is elsewhere. -/
structure HashReady (g : Store σ) (out : BitVec 32) (n space : Nat) : Prop where
  data : HoldsStdData g.mem
  sp : 1352 ≤ (g.g32 .stackPointer).toNat
  room : (g.g32 .stackPointer).toNat + space ≤ g.mem.size
  out_in : out.toNat + n ≤ g.mem.size
  out_free : out.toNat + n ≤ (g.g32 .stackPointer).toNat ∨ (g.g32 .stackPointer).toNat + n ≤ out.toNat

/-- A call that puts the `n` bytes `digest` at `out`, returns them as a buffer, and changes nothing
but those bytes and the reserved `space`. -/
def Hashes (M : Wasm.Mod σ) (f : FId) (args : List Val) (g : Store σ) (out : BitVec 32) (n space : Nat)
    (digest : List Byte) : Prop :=
  ∃ m', Runs M f args g (.ret [.i32 out, .i32 (BitVec.ofNat 32 n)] (g.setMem m')) ∧
    bytesAt m' out.toNat n = digest ∧ m'.size = g.mem.size ∧
    ∀ i, (i < out.toNat ∨ out.toNat + n ≤ i) →
      (i < (g.g32 .stackPointer).toNat ∨ (g.g32 .stackPointer).toNat + space ≤ i) →
      m'.byte i = g.mem.byte i

theorem hashes_of {M : Wasm.Mod σ} {f : FId} {args : List Val} {g : Store σ} {out : BitVec 32} {n k space : Nat}
    {d : List Byte} (hk : k ≤ space)
    (h : Call M f args g fun r => ∃ m', r = .ret [.i32 out, .i32 (BitVec.ofNat 32 n)] (g.setMem m') ∧
      Same2 g.mem m' out.toNat n (g.g32 .stackPointer).toNat k ∧ bytesAt m' out.toNat n = d) :
    Hashes M f args g out n space d := by
  obtain ⟨n0, r, h1, h2, m', h3, h4, h5⟩ := h
  refine ⟨m', ⟨n0, fun N hN => ?_⟩, h5, h4.1, fun i hi hj => h4.2 i hi (by omega)⟩
  rw [← h3, ← h1]
  exact (invoke_mono hN (by rw [h1]; exact h2)).symm ▸ rfl

/-- `sha256` of a buffer: for every message in memory, of any length, the digest is the one of
FIPS 180-4. The message may lie anywhere but in the 32 bytes at the stack pointer. -/
theorem C40_sha256_buf (o l out : BitVec 32) (hl : l.toNat < 2 ^ 29)
    (ho : o.toNat + l.toNat ≤ g.mem.size)
    (hd : o.toNat + l.toNat ≤ (g.g32 .stackPointer).toNat ∨ (g.g32 .stackPointer).toNat + 32 ≤ o.toNat)
    (h : HashReady g out 32 (l.toNat + 361)) :
    Hashes M (.std .sha256_buf) [.i32 o, .i32 l, .i32 out] g out 32 (l.toNat + 361)
      (sha256F.digest (bytesAt g.mem o.toNat l.toNat)) := by
  have := h.room
  have := h.sp
  have hp : padLen 32 l.toNat = 64 * ((l.toNat + 8) / 64) + 64 := rfl
  have h1 : 288 ≤ (g.g32 .stackPointer).toNat := Nat.le_trans (by decide) h.sp
  have h2 : (g.g32 .stackPointer).toNat + 288 + padLen 32 l.toNat ≤ g.mem.size := by omega
  exact hashes_of (k := 288 + padLen 32 l.toNat) (by omega)
    (call_sha256_buf o l out hl ho hd h1 h2 h.out_in h.out_free
      (std_sha256_init h.data) (std_sha256_K h.data))

/-- `sha512` of a buffer. -/
theorem C40_sha512_buf (o l out : BitVec 32) (hl : l.toNat < 2 ^ 29)
    (ho : o.toNat + l.toNat ≤ g.mem.size)
    (hd : o.toNat + l.toNat ≤ (g.g32 .stackPointer).toNat ∨ (g.g32 .stackPointer).toNat + 64 ≤ o.toNat)
    (h : HashReady g out 64 (l.toNat + 849)) :
    Hashes M (.std .sha512_buf) [.i32 o, .i32 l, .i32 out] g out 64 (l.toNat + 849)
      (sha512F.digest (bytesAt g.mem o.toNat l.toNat)) := by
  have := h.room
  have := h.sp
  have hp : padLen 64 l.toNat = 128 * ((l.toNat + 16) / 128) + 128 := rfl
  exact hashes_of (k := 704 + padLen 64 l.toNat) (by omega)
    (call_sha512_buf o l out hl ho hd (by omega) (by omega) h.out_in h.out_free
      (std_sha512_init h.data) (std_sha512_K h.data))

/-- The halves of a number. -/
theorem encU_halves (n : Nat) (h : IsUInt n) :
    ∃ lo hi, encU n = [.i64 lo, .i64 hi] ∧ u128 lo hi = n := by
  refine ⟨_, _, rfl, ?_⟩
  simp only [IsUInt] at h
  simp only [u128, BitVec.toNat_ofNat]; omega

theorem encI_halves (z : Int) (h : IsInt z) :
    ∃ lo hi, encI z = [.i64 lo, .i64 hi] ∧ u128 lo hi = (z % 2 ^ 128).toNat := by
  refine ⟨_, _, rfl, ?_⟩
  simp only [IsInt] at h
  simp only [u128, BitVec.toNat_ofInt]; omega

/-- `sha256` of an unsigned integer hashes its sixteen little-endian bytes. -/
theorem C40_sha256_uint (n : Nat) (hn : IsUInt n) (out : BitVec 32) (h : HashReady g out 32 361) :
    Hashes M (.std .sha256_int) (encU n ++ [.i32 out]) g out 32 361
      (sha256F.digest (Sha2.leBytes 16 n)) := by
  obtain ⟨lo, hi, e, rfl⟩ := encU_halves n hn
  have := h.room
  have := h.sp
  rw [e]
  exact hashes_of (k := 354) (by omega) (call_sha256_int lo hi out (by omega) (by omega) h.out_in h.out_free
    (std_sha256_init h.data) (std_sha256_K h.data))

/-- `sha256` of a signed integer hashes the sixteen little-endian bytes of its two's complement. -/
theorem C40_sha256_int (z : Int) (hz : IsInt z) (out : BitVec 32) (h : HashReady g out 32 361) :
    Hashes M (.std .sha256_int) (encI z ++ [.i32 out]) g out 32 361
      (sha256F.digest (Sha2.leBytes 16 (z % 2 ^ 128).toNat)) := by
  obtain ⟨lo, hi, e, e'⟩ := encI_halves z hz
  have := h.room
  have := h.sp
  rw [e, ← e']
  exact hashes_of (k := 354) (by omega) (call_sha256_int lo hi out (by omega) (by omega) h.out_in h.out_free
    (std_sha256_init h.data) (std_sha256_K h.data))

/-- `sha512` of an unsigned integer. -/
theorem C40_sha512_uint (n : Nat) (hn : IsUInt n) (out : BitVec 32) (h : HashReady g out 64 849) :
    Hashes M (.std .sha512_int) (encU n ++ [.i32 out]) g out 64 849
      (sha512F.digest (Sha2.leBytes 16 n)) := by
  obtain ⟨lo, hi, e, rfl⟩ := encU_halves n hn
  have := h.room
  have := h.sp
  rw [e]
  exact hashes_of (k := 834) (by omega) (call_sha512_int lo hi out (by omega) (by omega) h.out_in h.out_free
    (std_sha512_init h.data) (std_sha512_K h.data))

/-- `sha512` of a signed integer. -/
theorem C40_sha512_int (z : Int) (hz : IsInt z) (out : BitVec 32) (h : HashReady g out 64 849) :
    Hashes M (.std .sha512_int) (encI z ++ [.i32 out]) g out 64 849
      (sha512F.digest (Sha2.leBytes 16 (z % 2 ^ 128).toNat)) := by
  obtain ⟨lo, hi, e, e'⟩ := encI_halves z hz
  have := h.room
  have := h.sp
  rw [e, ← e']
  exact hashes_of (k := 834) (by omega) (call_sha512_int lo hi out (by omega) (by omega) h.out_in h.out_free
    (std_sha512_init h.data) (std_sha512_K h.data))

/-- The byte that the data segments put at an address. -/
def stdByte (i : Nat) : Byte :=
  ((stdData.find? fun d => d.1 ≤ i && i < d.1 + d.2.length).elim 0#8 fun d => d.2.getD (i - d.1) 0#8)

/-- A module's memory after instantiation, with "abc" as a literal at 1352. -/
def hashMem : Mem where
  size := 65536
  byte i := if i < 1352 then stdByte i else if i < 1355 then BitVec.ofNat 8 (97 + (i - 1352)) else 0#8
  le := by decide

theorem hashMem_holds : HoldsStdData hashMem := by
  have : (stdData.all fun d => bytesAt hashMem d.1 d.2.length == d.2) = true := by decide +kernel
  intro d hd
  exact eq_of_beq (List.all_eq_true.1 this d hd)

/-- `(sha256 0x616263)`, the example of FIPS 180-4: the hypotheses are met and the digest is the
published one. -/
example (hm : g.mem = hashMem) (hs : g.g32 .stackPointer = 1400#32) :
    ∃ m', Runs M (.std .sha256_buf) [.i32 1352#32, .i32 3#32, .i32 1360#32] g
      (.ret [.i32 1360#32, .i32 32#32] (g.setMem m')) ∧
    bytesAt m' 1360 32 = [
      0xba#8, 0x78#8, 0x16#8, 0xbf#8, 0x8f#8, 0x01#8, 0xcf#8, 0xea#8, 0x41#8, 0x41#8, 0x40#8,
      0xde#8, 0x5d#8, 0xae#8, 0x22#8, 0x23#8, 0xb0#8, 0x03#8, 0x61#8, 0xa3#8, 0x96#8, 0x17#8,
      0x7a#8, 0x9c#8, 0xb4#8, 0x10#8, 0xff#8, 0x61#8, 0xf2#8, 0x00#8, 0x15#8, 0xad#8] := by
  have h : HashReady g 1360#32 32 (3 + 361) :=
    ⟨by rw [hm]; exact hashMem_holds, by rw [hs]; decide, by rw [hs, hm]; decide, by rw [hm]; decide,
      by rw [hs]; decide⟩
  obtain ⟨m', h1, h2, _⟩ := C40_sha256_buf M g 1352#32 3#32 1360#32 (by decide) (by rw [hm]; decide)
    (by rw [hs]; decide) h
  refine ⟨m', h1, h2.trans ?_⟩
  rw [hm, ← sha256_abc]
  congr 1

example (hm : g.mem = hashMem) (hs : g.g32 .stackPointer = 1424#32) :
    Hashes M (.std .sha512_int) (encI (-1) ++ [.i32 1360#32]) g 1360#32 64 849
      (sha512F.digest (List.replicate 16 255#8)) := by
  have h : HashReady g 1360#32 64 849 :=
    ⟨by rw [hm]; exact hashMem_holds, by rw [hs]; decide, by rw [hs, hm]; decide, by rw [hm]; decide,
      by rw [hs]; decide⟩
  exact C40_sha512_int M g (-1) (by decide) 1360#32 h


/-! ### C41: hash160 -/

theorem getElem?_bytesAt (m : Mem) (a n k : Nat) (hk : k < n) : (bytesAt m a n)[k]? = some (m.byte (a + k)) := by
  induction n generalizing a k with
  | zero => omega
  | succ n ih =>
    cases k with
    | zero => simp [bytesAt]
    | succ k => rw [bytesAt, List.getElem?_cons_succ, ih _ _ (by omega)]; congr 2; omega

theorem table_of_bytes {m : Mem} {a : Nat} {bs : List Byte} {F : Nat → Nat} (hb : bytesAt m a bs.length = bs)
    (h : (List.range bs.length).map (fun k => BitVec.ofNat 8 (F k)) = bs) :
    ∀ k < bs.length, m.byte (a + k) = BitVec.ofNat 8 (F k) := by
  intro k hk
  have h1 : (bytesAt m a bs.length)[k]? = some (m.byte (a + k)) := by
    rw [getElem?_bytesAt _ _ _ _ hk]
  rw [hb, ← h, List.getElem?_map, List.getElem?_range hk] at h1
  simpa using h1.symm

theorem std_tables {m : Mem} (h : HoldsStdData m) : Tables m where
  r := table_of_bytes (h (stdData[2]) (List.getElem_mem _)) (by decide +kernel)
  r' := table_of_bytes (h (stdData[3]) (List.getElem_mem _)) (by decide +kernel)
  s := table_of_bytes (h (stdData[4]) (List.getElem_mem _)) (by decide +kernel)
  s' := table_of_bytes (h (stdData[5]) (List.getElem_mem _)) (by decide +kernel)
  K := words_of_bytes (h (stdData[6]) (List.getElem_mem _)) (by decide +kernel) (by decide +kernel)
  K' := words_of_bytes (h (stdData[7]) (List.getElem_mem _)) (by decide +kernel) (by decide +kernel)

/-- `hash160` of a buffer is RIPEMD-160 of its SHA-256, given `l + 392` bytes above the stack
pointer. Missing: the compiler reserves 31 bytes less, see `C41_no_room_counterexample`. -/
theorem C41_hash160_buf_partial (o l out : BitVec 32) (hl : l.toNat < 2 ^ 29)
    (ho : o.toNat + l.toNat ≤ (g.g32 .stackPointer).toNat)
    (h : HashReady g out 20 (l.toNat + 392)) :
    Hashes M (.std .hash160_buf) [.i32 o, .i32 l, .i32 out] g out 20 (l.toNat + 392)
      (hash160 (bytesAt g.mem o.toNat l.toNat)) := by
  have := h.room
  have hp : padLen 32 l.toNat = 64 * ((l.toNat + 8) / 64) + 64 := rfl
  have h1 : 648 ≤ (g.g32 .stackPointer).toNat := Nat.le_trans (by decide) h.sp
  have h2 : (g.g32 .stackPointer).toNat + 320 + padLen 32 l.toNat ≤ g.mem.size := by omega
  exact hashes_of (k := 320 + padLen 32 l.toNat) (by omega)
    (call_hash160_buf o l out hl ho h1 h2 h.out_in
      (std_sha256_init h.data) (std_sha256_K h.data) (std_tables h.data))

/-- `hash160` of an unsigned integer. -/
theorem C41_hash160_uint_partial (n : Nat) (hn : IsUInt n) (out : BitVec 32) (h : HashReady g out 20 386) :
    Hashes M (.std .hash160_int) (encU n ++ [.i32 out]) g out 20 386 (hash160 (Sha2.leBytes 16 n)) := by
  obtain ⟨lo, hi, e, rfl⟩ := encU_halves n hn
  have := h.room
  have := h.sp
  rw [e]
  exact hashes_of (Nat.le_refl _) (call_hash160_int lo hi out (by omega) (by omega) h.out_in
    (std_sha256_init h.data) (std_sha256_K h.data) (std_tables h.data))

/-- `hash160` of a signed integer. -/
theorem C41_hash160_int_partial (z : Int) (hz : IsInt z) (out : BitVec 32) (h : HashReady g out 20 386) :
    Hashes M (.std .hash160_int) (encI z ++ [.i32 out]) g out 20 386
      (hash160 (Sha2.leBytes 16 (z % 2 ^ 128).toNat)) := by
  obtain ⟨lo, hi, e, e'⟩ := encI_halves z hz
  have := h.room
  have := h.sp
  rw [e, ← e']
  exact hashes_of (Nat.le_refl _) (call_hash160_int lo hi out (by omega) (by omega) h.out_in
    (std_sha256_init h.data) (std_sha256_K h.data) (std_tables h.data))

/-- The property as stated fails when the memory ends where the reserved space ends: with the
`l + 361` bytes that the compiler reserves (words/hashing.rs 86) `hash160` of a buffer of 56 bytes
traps, because it moves the stack pointer up by 32 before calling `sha256`. -/
theorem C41_no_room_counterexample (o out : BitVec 32) (hs : g.mem.size = 65536)
    (hsp : g.g32 .stackPointer = 65119#32) (ho : o.toNat + 56 ≤ 65119) :
    65119 + (56 + 361) ≤ g.mem.size ∧
    ∃ g', Runs M (.std .hash160_buf) [.i32 o, .i32 56#32, .i32 out] g (.trap g') := by
  refine ⟨by omega, ?_⟩
  have key : Call M (.std .hash160_buf) [.i32 o, .i32 56#32, .i32 out] g (fun r => ∃ g', r = .trap g') := by
    have h2 : ∀ g2 : Store σ, g2.mem.size = 65536 → g2.g32 .stackPointer = 65151#32 →
        Call M (.std .extend_data) [.i32 o, .i32 56#32] g2 (fun r => ∃ g', r = .trap g') := by
      intro g2 hs2 hsp2
      rw [call_std]
      wpm [stdFunc, Std.extend_data, Std.extend_data_body, hsp2, BitVec.reduceAdd, BitVec.reduceOr, BitVec.reduceSub]
      rw [wp_b]
      simp [stepB, hs2, stepK, Res.toCall, mem_setMem, sz_write, sz_copy]
    have h1 : ∀ g2 : Store σ, g2.mem.size = 65536 → g2.g32 .stackPointer = 65151#32 → ∀ x : BitVec 32,
        Call M (.std .sha256_buf) [.i32 o, .i32 56#32, .i32 x] g2 (fun r => ∃ g', r = .trap g') := by
      intro g2 hs2 hsp2 x
      rw [call_std]
      wpm [stdFunc, Std.sha256_buf, Std.sha256_buf_body]
      refine wp_call_of (args := [.i32 o, .i32 56#32]) (ps := [.i32, .i32]) (rs := [.i32]) rfl rfl
        (h2 g2 hs2 hsp2) ?_
      rintro r ⟨g', rfl⟩
      simp [callK, Res.toCall]
    rw [call_std]
    wpm [stdFunc, Std.hash160_buf, Std.hash160_buf_body, hsp]
    refine wp_call_of (args := [.i32 o, .i32 56#32, .i32 65119#32]) (ps := [.i32, .i32, .i32]) (rs := [.i32, .i32])
      rfl rfl (h1 (g.set32 .stackPointer (65119#32 + 32#32)) hs rfl _) ?_
    rintro r ⟨g', rfl⟩
    simp [callK, Res.toCall]
  obtain ⟨n0, r, h1, h2, g', rfl⟩ := key
  exact ⟨g', n0, fun N hN => by rw [← h1]; exact invoke_mono hN (by rw [h1]; exact h2)⟩

/-- `(hash160 0x616263)`: the hypotheses are met and the digest is the known one. -/
example (hm : g.mem = hashMem) (hs : g.g32 .stackPointer = 1400#32) :
    ∃ m', Runs M (.std .hash160_buf) [.i32 1352#32, .i32 3#32, .i32 1360#32] g
      (.ret [.i32 1360#32, .i32 20#32] (g.setMem m')) ∧
    bytesAt m' 1360 20 = [0xbb#8, 0x1b#8, 0xe9#8, 0x8c#8, 0x14#8, 0x24#8, 0x44#8, 0xd7#8, 0xa5#8, 0x6a#8,
      0xa3#8, 0x98#8, 0x1c#8, 0x39#8, 0x42#8, 0xa9#8, 0x78#8, 0xe4#8, 0xdc#8, 0x33#8] := by
  have h : HashReady g 1360#32 20 (3 + 392) :=
    ⟨by rw [hm]; exact hashMem_holds, by rw [hs]; decide, by rw [hs, hm]; decide, by rw [hm]; decide,
      by rw [hs]; decide⟩
  obtain ⟨m', h1, h2, _⟩ := C41_hash160_buf_partial M g 1352#32 3#32 1360#32 (by decide)
    (by rw [hs]; decide) h
  refine ⟨m', h1, h2.trans ?_⟩
  rw [hm, show bytesAt hashMem _ _ = [97#8, 98#8, 99#8] by decide +kernel]
  decide +kernel

end Props
