import Verif.Stdlib.Endian
import Verif.Stdlib.BuffToInt
import Verif.Spec.Sha2
import Verif.Wasm.Seq

/-! Arrays of words in linear memory, and the byte-order shuffles of the hash functions. -/

namespace Wasm
open Spec
variable {σ : Type} {M : Mod σ} {is : List Instr} {stk loc : List Val} {g : Store σ}
  {Q : Res σ → Prop}

theorem rd_congr {m m' : Mem} {a b n : Nat} (h : ∀ i, i < n → m'.byte (a + i) = m.byte (b + i)) :
    m'.read a n = m.read b n := by
  induction n generalizing a b with
  | zero => rfl
  | succ n ih =>
    simp only [Mem.read]
    have := h 0 (by omega)
    simp only [Nat.add_zero] at this
    rw [this, ih (b := b + 1) fun i hi => by
      rw [show a + 1 + i = a + (i + 1) by omega, show b + 1 + i = b + (i + 1) by omega]
      exact h (i + 1) (by omega)]

theorem rd_of_bytes {m : Mem} {a n v : Nat}
    (h : ∀ i, i < n → m.byte (a + i) = BitVec.ofNat 8 (v / 256 ^ i)) : m.read a n = v % 256 ^ n := by
  induction n generalizing a v with
  | zero => simp [Mem.read, Nat.mod_one]
  | succ n ih =>
    simp only [Mem.read]
    rw [ih (a := a + 1) (v := v / 256) (fun i hi => ?_)]
    · have := h 0 (by omega)
      simp only [Nat.add_zero, Nat.pow_zero, Nat.div_one] at this
      rw [this, BitVec.toNat_ofNat, show (256:Nat) ^ (n + 1) = 256 * 256 ^ n by
        rw [Nat.pow_succ, Nat.mul_comm], Nat.mod_mul]
    · have := h (i + 1) (by omega)
      rw [show a + 1 + i = a + (i + 1) by omega, this, Nat.div_div_eq_div_mul,
        show (256:Nat) ^ (i + 1) = 256 * 256 ^ i by rw [Nat.pow_succ, Nat.mul_comm]]

theorem rd_write (m : Mem) (a n v : Nat) : (m.write a n v).read a n = v % 256 ^ n := by
  apply rd_of_bytes
  intro i hi
  simp only [Mem.write]
  rw [if_pos (by omega), show a + i - a = i by omega]

theorem rd_write_ne {m : Mem} {a n v b k : Nat} (h : b + k ≤ a ∨ a + n ≤ b) :
    (m.write a n v).read b k = m.read b k :=
  rd_congr fun i hi => (same_write m a n v).2 _ (by omega)

theorem rd_same {m m' : Mem} {o n b k : Nat} (hs : Same m m' o n) (h : b + k ≤ o ∨ o + n ≤ b) :
    m'.read b k = m.read b k :=
  rd_congr fun i hi => hs.2 _ (by omega)

theorem bytesAt_same {m m' : Mem} {o n b k : Nat} (hs : Same m m' o n) (h : b + k ≤ o ∨ o + n ≤ b) :
    bytesAt m' b k = bytesAt m b k :=
  bytesAt_congr fun i hi => hs.2 _ (by omega)

theorem same_copy (m : Mem) (d s n : Nat) : Same m (m.copy d s n) d n := by
  refine ⟨rfl, fun i hi => ?_⟩
  simp only [Mem.copy]; rw [if_neg (by omega)]

theorem same_fill (m : Mem) (d : Nat) (v : BitVec 8) (n : Nat) : Same m (m.fill d v n) d n := by
  refine ⟨rfl, fun i hi => ?_⟩
  simp only [Mem.fill]; rw [if_neg (by omega)]

theorem Same.wr {m m' : Mem} {o n : Nat} (h : Same m m' o n) {a k v : Nat} (h1 : o ≤ a)
    (h2 : a + k ≤ o + n) : Same m (m'.write a k v) o n :=
  h.trans ((same_write ..).mono h1 h2)

theorem bytesAt_copy (m : Mem) (d s n : Nat) : bytesAt (m.copy d s n) d n = bytesAt m s n :=
  bytesAt_congr fun i hi => by
    simp only [Mem.copy]; rw [if_pos (by omega), show d + i - d = i by omega]

theorem bytesAt_fill (m : Mem) (d : Nat) (v : BitVec 8) (n : Nat) :
    bytesAt (m.fill d v n) d n = List.replicate n v := by
  have key : ∀ k e, d ≤ e → e + k ≤ d + n → bytesAt (m.fill d v n) e k = List.replicate k v := by
    intro k
    induction k with
    | zero => intros; rfl
    | succ k ih =>
      intro e h1 h2
      rw [bytesAt, ih (e + 1) (by omega) (by omega), List.replicate_succ]
      congr 1
      simp only [Mem.fill]; rw [if_pos (by omega)]
  exact key n d (Nat.le_refl _) (Nat.le_refl _)

/-- The words of `k` bytes, of `w` bits, stored little-endian from `a`. -/
def Words (k w : Nat) (m : Mem) (a : Nat) (l : List (BitVec w)) : Prop :=
  ∀ i, i < l.length → BitVec.ofNat w (m.read (a + k * i) k) = l.getD i 0

theorem Words.same {k w : Nat} {m m' : Mem} {a o n : Nat} {l : List (BitVec w)} (hs : Same m m' o n)
    (h : a + k * l.length ≤ o ∨ o + n ≤ a) (hw : Words k w m a l) : Words k w m' a l := by
  intro i hi
  have h1 : k * i + k ≤ k * l.length := by
    rw [← Nat.mul_succ]; exact Nat.mul_le_mul_left k hi
  rw [rd_same hs (by omega)]
  exact hw i hi

theorem Words.snoc {k w : Nat} {m : Mem} {a : Nat} {l : List (BitVec w)} (hw : Words k w m a l)
    (hk : 256 ^ k = 2 ^ w) (v : BitVec w) :
    Words k w (m.write (a + k * l.length) k v.toNat) a (l ++ [v]) := by
  intro i hi
  rw [List.length_append, List.length_singleton] at hi
  rcases Nat.lt_or_ge i l.length with h | h
  · have h1 : k * i + k ≤ k * l.length := by
      rw [← Nat.mul_succ]; exact Nat.mul_le_mul_left k h
    rw [rd_write_ne (by omega), hw i h]
    simp [List.getD, List.getElem?_append_left h]
  · have : i = l.length := by omega
    subst this
    rw [rd_write, hk, Nat.mod_eq_of_lt v.isLt]
    simp [List.getD]

/-- The words are determined by the bytes. -/
theorem Words.copy {k w : Nat} {m m' : Mem} {a b : Nat} {l : List (BitVec w)}
    (h : ∀ i, i < k * l.length → m'.byte (a + i) = m.byte (b + i)) (hw : Words k w m b l) :
    Words k w m' a l := by
  intro i hi
  have h1 : k * i + k ≤ k * l.length := by
    rw [← Nat.mul_succ]; exact Nat.mul_le_mul_left k hi
  rw [← hw i hi, rd_congr (m := m) (b := b + k * i)]
  intro j hj
  rw [Nat.add_assoc, Nat.add_assoc]
  exact h _ (by omega)

/-- Reading reversed bytes. -/
theorem rd_rev {m m' : Mem} {d s k : Nat}
    (h : ∀ i, i < k → m'.byte (d + i) = m.byte (s + (k - 1 - i))) :
    m'.read d k = beNat (bytesAt m s k) := by
  induction k generalizing d with
  | zero => rfl
  | succ k ih =>
    rw [bytesAt_add m s k 1]
    simp only [bytesAt]
    rw [beNat_snoc, Mem.read, ih (d := d + 1) (fun i hi => ?_)]
    · have := h 0 (by omega)
      simp only [Nat.add_zero, Nat.add_sub_cancel, Nat.sub_zero] at this
      rw [this]; omega
    · have := h (i + 1) (by omega)
      rw [show d + 1 + i = d + (i + 1) by omega, this]
      congr 2; omega

theorem beBytes_mod (k n : Nat) : Sha2.beBytes k (n % 256 ^ k) = Sha2.beBytes k n := by
  have key : ∀ k j, Sha2.beBytes k (n % 256 ^ (k + j)) = Sha2.beBytes k n := by
    intro k
    induction k with
    | zero => intros; rfl
    | succ k ih =>
      intro j
      have := ih (j + 1)
      rw [show k + (j + 1) = k + 1 + j by omega] at this
      simp only [Sha2.beBytes]
      rw [this]
      congr 1
      apply BitVec.eq_of_toNat_eq
      simp only [BitVec.toNat_ofNat]
      rw [show k + 1 + j = k + (1 + j) by omega, Nat.pow_add, Nat.mod_mul_right_div_self, Nat.pow_add]
      simp [Nat.mod_mul_right_mod]
  exact key k 0

theorem length_beBytes (k n : Nat) : (Sha2.beBytes k n).length = k := by
  induction k with
  | zero => rfl
  | succ k ih => simp [Sha2.beBytes, ih]

/-- The bytes of a word, most significant first. -/
theorem bytesAt_rev {m m' : Mem} {d s k : Nat}
    (h : ∀ i, i < k → m'.byte (d + i) = m.byte (s + (k - 1 - i))) :
    bytesAt m' d k = Sha2.beBytes k (m.read s k) := by
  induction k generalizing d with
  | zero => rfl
  | succ k ih =>
    have h0 := h 0 (by omega)
    simp only [Nat.add_zero, Nat.add_sub_cancel, Nat.sub_zero] at h0
    rw [bytesAt, ih (d := d + 1) (fun i hi => ?_), Sha2.beBytes, h0]
    · have e := read_add m s k 1
      have hl := read_lt m s k
      congr 1
      · rw [e, Nat.add_mul_div_left _ _ (by positivity), Nat.div_eq_of_lt hl]
        simp [Mem.read]
      · rw [← beBytes_mod k (m.read s (k + 1)), read_mod m s k 1]
    · have := h (i + 1) (by omega)
      rw [show d + 1 + i = d + (i + 1) by omega, this]
      congr 2; omega

/-- Sixteen bytes given by their values. -/
theorem foldr_lanes (f : Nat → Nat) (hf : ∀ i, f i < 256) (n i : Nat) (hi : i < n) :
    ((List.range n).foldr (fun i acc => acc + f i * 256 ^ i) 0) / 256 ^ i % 256 = f i := by
  have key : ∀ n acc, (List.range n).foldr (fun i acc => acc + f i * 256 ^ i) acc =
      acc + (List.range n).foldr (fun i acc => acc + f i * 256 ^ i) 0 := by
    intro n
    induction n with
    | zero => intro acc; simp
    | succ n ih =>
      intro acc
      rw [List.range_succ, List.foldr_append, List.foldr_append]
      simp only [List.foldr]
      rw [ih, ih (0 + f n * 256 ^ n)]; omega
  have lt : ∀ n, (List.range n).foldr (fun i acc => acc + f i * 256 ^ i) 0 < 256 ^ n := by
    intro n
    induction n with
    | zero => simp
    | succ n ih =>
      rw [List.range_succ, List.foldr_append]
      simp only [List.foldr]
      rw [key]
      have := hf n
      have h2 : f n * 256 ^ n ≤ 255 * 256 ^ n := Nat.mul_le_mul_right _ (by omega)
      rw [Nat.pow_succ]; omega
  induction n with
  | zero => omega
  | succ n ih =>
    rw [List.range_succ, List.foldr_append]
    simp only [List.foldr]
    rw [key, Nat.zero_add]
    rcases Nat.lt_or_ge i n with h | h
    · obtain ⟨j, rfl⟩ : ∃ j, n = i + 1 + j := ⟨n - i - 1, by omega⟩
      rw [← ih h, Nat.pow_add, show f (i + 1 + j) * (256 ^ (i + 1) * 256 ^ j) =
        256 ^ i * (256 * (f (i + 1 + j) * 256 ^ j)) by rw [Nat.pow_succ]; ring,
        Nat.add_comm, Nat.add_mul_div_left _ _ (by positivity)]
      omega
    · have : i = n := by omega
      subst this
      rw [Nat.mul_comm, Nat.add_comm, Nat.add_mul_div_left _ _ (by positivity),
        Nat.div_eq_of_lt (lt i), Nat.zero_add, Nat.mod_eq_of_lt (hf i)]

/-- Storing shuffled bytes of another place. -/
theorem byte_swizzle (m m0 : Mem) (d s : Nat) (mask : BitVec 128) (i : Nat) (hi : i < 16)
    (hm : lane8 mask i < 16) :
    (m.write d 16 (swizzle (BitVec.ofNat 128 (m0.read s 16)) mask).toNat).byte (d + i) =
      m0.byte (s + lane8 mask i) := by
  simp only [Mem.write]
  rw [if_pos (by omega), show d + i - d = i by omega]
  apply BitVec.eq_of_toNat_eq
  rw [BitVec.toNat_ofNat, swizzle, BitVec.toNat_ofNat]
  rw [show (2:Nat) ^ 128 = 256 ^ (i + 1) * 256 ^ (15 - i) by
    rw [← Nat.pow_add, show i + 1 + (15 - i) = 16 by omega]; rfl, Nat.pow_succ, Nat.mul_assoc,
    Nat.mod_mul_right_div_self]
  rw [show (2:Nat) ^ 8 = 256 from rfl, Nat.mod_mul_right_mod, foldr_lanes _ _ 16 i hi]
  · rw [if_pos hm, lane8_read _ _ _ hm]
  · intro j
    split
    · exact Nat.mod_lt _ (by decide)
    · decide

/-- The mask reversing each group of four bytes. -/
theorem mask4 : ∀ i < 16, lane8 0xc0d0e0f08090a0b0405060700010203#128 i = 4 * (i / 4) + (3 - i % 4) := by
  decide +kernel
/-- The mask reversing each group of eight bytes. -/
theorem mask8 : ∀ i < 16, lane8 0x8090a0b0c0d0e0f0001020304050607#128 i = 8 * (i / 8) + (7 - i % 8) := by
  decide +kernel

theorem or_ones (n k : Nat) : n ||| (2 ^ k - 1) = 2 ^ k * (n / 2 ^ k) + (2 ^ k - 1) := by
  have hp := Nat.two_pow_pos k
  rw [Nat.two_pow_add_eq_or_of_lt (by omega)]
  apply Nat.eq_of_testBit_eq
  intro i
  rw [Nat.testBit_or, Nat.testBit_or, Nat.testBit_two_pow_sub_one, Nat.testBit_two_pow_mul,
    Nat.testBit_div_two_pow]
  by_cases h : i < k
  · simp [h]
  · simp only [h, decide_false, Bool.or_false]
    rw [decide_eq_true (show i ≥ k by omega), show i - k + k = i by omega]; simp

/-- Byte reversal of a 64-bit number below 2^32, as the padding functions write it. -/
theorem bswap64 (x : BitVec 64) (hx : x.toNat < 2 ^ 32) :
    (x <<< 56 ||| (x &&& 65280#64) <<< 40 ||| ((x &&& 16711680#64) <<< 24 |||
      (x &&& 4278190080#64) <<< 8) ||| (x >>> 8 &&& 4278190080#64 ||| x >>> 24 &&& 16711680#64 |||
      (x >>> 40 &&& 65280#64 ||| x >>> 56))).toNat = 2 ^ 32 * rev4 x.toNat := by
  simp only [BitVec.toNat_or, BitVec.toNat_and, BitVec.toNat_shiftLeft, BitVec.toNat_ushiftRight,
    BitVec.toNat_ofNat, Nat.shiftLeft_eq, Nat.shiftRight_eq_div_pow, Nat.reduceMod, Nat.reducePow,
    and_FF, and_FF00, and_FF0000, and_FF000000]
  generalize x.toNat = y at *
  obtain ⟨b0, b1, b2, b3, h0, h1, h2, h3, rfl⟩ := bytes4 y hx
  rw [rev4_bytes h0 h1 h2 h3]
  generalize hy : b0 + 256 * b1 + 65536 * b2 + 16777216 * b3 = y
  have e : ∀ z : Nat, z ||| 0 = z := fun z => Nat.or_zero z
  rw [show y * 72057594037927936 % 18446744073709551616 = 72057594037927936 * b0 by omega,
    show y / 256 % 256 = b1 by omega, show y / 65536 % 256 = b2 by omega,
    show y / 16777216 % 256 = b3 by omega,
    show y / 256 / 16777216 % 256 * 16777216 = 0 by omega,
    show y / 16777216 / 65536 % 256 * 65536 = 0 by omega,
    show y / 1099511627776 / 256 % 256 * 256 = 0 by omega,
    show y / 72057594037927936 = 0 by omega, e, e, e,
    show b1 * 256 * 1099511627776 % 18446744073709551616 = 281474976710656 * b1 by omega,
    show b2 * 65536 * 16777216 % 18446744073709551616 = 1099511627776 * b2 by omega,
    show b3 * 16777216 * 256 % 18446744073709551616 = 4294967296 * b3 by omega,
    or_add 56 (a := 72057594037927936 * b0) (by omega) (by omega),
    or_add 40 (a := 1099511627776 * b2) (by omega) (by omega),
    or_add 48 (by omega) (by omega)]
  omega

/-- The length field. -/
theorem bytesAt_length (m : Mem) (a x : Nat) (hx : x < 2 ^ 32) :
    bytesAt (m.write a 8 (2 ^ 32 * rev4 x)) a 8 = Sha2.beBytes 8 x := by
  have hr := rev4_lt x
  have z7 : x / 72057594037927936 = 0 := by omega
  have z6 : x / 281474976710656 = 0 := by omega
  have z5 : x / 1099511627776 = 0 := by omega
  have z4 : x / 4294967296 = 0 := by omega
  have q1 : 4294967296 * rev4 x / 256 = 16777216 * rev4 x := by omega
  have q2 : 4294967296 * rev4 x / 65536 = 65536 * rev4 x := by omega
  have q3 : 4294967296 * rev4 x / 16777216 = 256 * rev4 x := by omega
  have q4 : 4294967296 * rev4 x / 4294967296 = rev4 x := by omega
  have q5 : 4294967296 * rev4 x / 1099511627776 = rev4 x / 256 := by omega
  have q6 : 4294967296 * rev4 x / 281474976710656 = rev4 x / 65536 := by omega
  have q7 : 4294967296 * rev4 x / 72057594037927936 = rev4 x / 16777216 := by omega
  simp only [bytesAt, Mem.write, Sha2.beBytes]
  repeat rw [if_pos (by omega)]
  simp only [Nat.add_assoc, Nat.reduceAdd, Nat.add_sub_cancel_left, Nat.sub_self, Nat.reducePow,
    z4, z5, z6, z7, q1, q2, q3, q4, q5, q6, q7, Nat.div_one]
  clear z4 z5 z6 z7 q1 q2 q3 q4 q5 q6 q7
  simp only [List.cons.injEq, and_true]
  refine ⟨?_, ?_, ?_, ?_, ?_, ?_, ?_, ?_⟩ <;> apply BitVec.eq_of_toNat_eq <;>
    simp only [BitVec.toNat_ofNat, Nat.reducePow, Nat.zero_mod]
  · omega
  · omega
  · omega
  · omega
  all_goals
    rw [rev4]
    have c0 := Nat.mod_lt x (show 0 < 256 by decide)
    have c1 := Nat.mod_lt (x / 256) (show 0 < 256 by decide)
    have c2 := Nat.mod_lt (x / 65536) (show 0 < 256 by decide)
    have c3 := Nat.mod_lt (x / 16777216) (show 0 < 256 by decide)
    generalize x % 256 = b0 at *
    generalize x / 256 % 256 = b1 at *
    generalize x / 65536 % 256 = b2 at *
    generalize x / 16777216 % 256 = b3 at *
    omega

end Wasm
