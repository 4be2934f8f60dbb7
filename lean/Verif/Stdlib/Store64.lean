import Verif.Stdlib.Endian
import Verif.Spec.Consensus
import Mathlib.Tactic.IntervalCases

/-! `$stdlib.store-i64-be`, `$stdlib.store-i32-be` and the big-endian representation. -/

namespace Wasm
open Spec
variable {σ : Type} {M : Mod σ} {g : Store σ}

/-- The eight bytes in reverse order, as computed by the library. -/
def beSwap64 (x : BitVec 64) : BitVec 64 :=
  x <<< 56 ||| (x &&& 65280#64) <<< 40 ||| ((x &&& 16711680#64) <<< 24 ||| (x &&& 4278190080#64) <<< 8) |||
    (x >>> 8 &&& 4278190080#64 ||| x >>> 24 &&& 16711680#64 ||| (x >>> 40 &&& 65280#64 ||| x >>> 56))

theorem runs_store_i64_be' (a : BitVec 32) (v : BitVec 64) (h : a.toNat + 8 ≤ g.mem.size) :
    Runs M (.std .store_i64_be) [.i32 a, .i64 v] g
      (.ret [] (g.setMem (g.mem.write a.toNat 8 (beSwap64 v).toNat))) := by
  apply runs_std (by simp)
  wpx [stdFunc, Std.store_i64_be, Std.store_i64_be_body]
  rw [wp_i64store (by omega)]
  wpx
  rw [Nat.add_zero]
  rfl

theorem ext8 {a b : BitVec 8} (h : ∀ i : Fin 8, a.getLsbD i = b.getLsbD i) : a = b :=
  BitVec.eq_of_getLsbD_eq fun i hi => h ⟨i, hi⟩

theorem beSwap64_byte (x : BitVec 64) (k : Fin 8) :
    (beSwap64 x).extractLsb' (8 * k) 8 = x.extractLsb' (56 - 8 * k) 8 := by
  apply ext8
  intro i
  revert i
  revert k
  simp only [Fin.forall_fin_succ]
  simp [beSwap64]

/-- `m'` is `m` with the bytes `bs` at `a`. -/
structure Wrote (m m' : Mem) (a : Nat) (bs : List Byte) : Prop where
  size : m'.size = m.size
  here : bytesAt m' a bs.length = bs
  rest : ∀ i, i < a ∨ a + bs.length ≤ i → m'.byte i = m.byte i

theorem Wrote.nil {m : Mem} {a : Nat} : Wrote m m a [] := ⟨rfl, rfl, fun _ _ => rfl⟩

theorem Wrote.append {m m1 m2 : Mem} {a b : Nat} {xs ys : List Byte} (h : Wrote m m1 a xs)
    (h' : Wrote m1 m2 b ys) (hb : b = a + xs.length) : Wrote m m2 a (xs ++ ys) where
  size := by rw [h'.size, h.size]
  here := by
    subst hb
    rw [List.length_append, bytesAt_add, h'.here]
    congr 1
    rw [← h.here, length_bytesAt]
    exact bytesAt_congr fun i hi => h'.rest _ (by omega)
  rest i hi := by
    rw [List.length_append] at hi
    rw [h'.rest i (by omega), h.rest i (by omega)]

/-- The later bytes are written first. -/
theorem Wrote.prepend {m m1 m2 : Mem} {a b : Nat} {xs ys : List Byte} (h : Wrote m m1 b ys)
    (h' : Wrote m1 m2 a xs) (hb : b = a + xs.length) : Wrote m m2 a (xs ++ ys) where
  size := by rw [h'.size, h.size]
  here := by
    subst hb
    rw [List.length_append, bytesAt_add, h'.here]
    congr 1
    rw [← h.here, length_bytesAt]
    exact bytesAt_congr fun i hi => h'.rest _ (by omega)
  rest i hi := by
    rw [List.length_append] at hi
    rw [h'.rest i (by omega), h.rest i (by omega)]

theorem Wrote.cast {m m' : Mem} {a b : Nat} {xs ys : List Byte} (h : Wrote m m' a xs) (hb : b = a)
    (hx : ys = xs) : Wrote m m' b ys := by subst hb hx; exact h

theorem getElem?_bytesAt {m : Mem} {a n k : Nat} (h : k < n) : (bytesAt m a n)[k]? = some (m.byte (a + k)) := by
  induction n generalizing a k with
  | zero => omega
  | succ n ih =>
    cases k with
    | zero => rfl
    | succ k => rw [bytesAt, List.getElem?_cons_succ, ih (by omega), Nat.add_right_comm]; rfl

theorem wrote_write {m : Mem} {a n v : Nat} {bs : List Byte} (hl : bs.length = n)
    (h : ∀ k, k < n → bs[k]? = some (BitVec.ofNat 8 (v / 256 ^ k))) : Wrote m (m.write a n v) a bs where
  size := rfl
  here := by
    apply List.ext_getElem?
    intro k
    by_cases hk : k < n
    · rw [h k hk, getElem?_bytesAt (by omega)]
      simp only [Mem.write]
      rw [if_pos (by omega), Nat.add_sub_cancel_left]
    · rw [List.getElem?_eq_none (by rw [length_bytesAt]; omega), List.getElem?_eq_none (by omega)]
  rest i hi := by simp only [Mem.write]; rw [if_neg (by omega)]

theorem wrote_byte (m : Mem) (a v : Nat) : Wrote m (m.write a 1 v) a [BitVec.ofNat 8 v] :=
  wrote_write rfl fun k hk => by
    obtain rfl : k = 0 := by omega
    simp

theorem wrote_copy (m : Mem) (d s : Nat) (bs : List Byte) (h : bytesAt m s bs.length = bs) :
    Wrote m (m.copy d s bs.length) d bs where
  size := rfl
  here := by
    rw [← h, length_bytesAt]
    exact bytesAt_congr fun i hi => by
      simp only [Mem.copy]; rw [if_pos (by omega), Nat.add_sub_cancel_left]
  rest i hi := by simp only [Mem.copy]; rw [if_neg (by omega)]

theorem length_bigEndian (k n : Nat) : (bigEndian k n).length = k := by
  induction k with
  | zero => rfl
  | succ k ih => rw [bigEndian, List.length_cons, ih]

theorem bigEndian_add (j k n : Nat) : bigEndian (j + k) n = bigEndian j (n / 256 ^ k) ++ bigEndian k n := by
  induction j with
  | zero => simp [bigEndian]
  | succ j ih =>
    rw [Nat.succ_add, bigEndian, ih, bigEndian, List.cons_append, Nat.div_div_eq_div_mul, Nat.pow_add,
      Nat.mul_comm (256 ^ j)]

theorem ofNat8 {a b : Nat} (h : a % 256 = b % 256) : BitVec.ofNat 8 a = BitVec.ofNat 8 b :=
  BitVec.eq_of_toNat_eq (by simpa using h)

theorem bigEndian_mod (k n : Nat) : bigEndian k (n % 256 ^ k) = bigEndian k n := by
  induction k generalizing n with
  | zero => rfl
  | succ k ih =>
    rw [bigEndian, bigEndian, ← ih (n % 256 ^ (k + 1)), ← ih n]
    congr 1
    · apply ofNat8
      rw [Nat.pow_succ, Nat.mod_mul_right_div_self, Nat.mod_mod]
    · rw [Nat.mod_mod_of_dvd _ (Nat.pow_dvd_pow 256 (Nat.le_succ k))]

theorem wrote_i64_be (m : Mem) (a : Nat) (v : BitVec 64) :
    Wrote m (m.write a 8 (beSwap64 v).toNat) a (bigEndian 8 v.toNat) := by
  refine wrote_write (length_bigEndian _ _) fun k hk => ?_
  have h := beSwap64_byte v ⟨k, hk⟩
  have e : ∀ (x : BitVec 64) j, BitVec.ofNat 8 (x.toNat / 256 ^ j) = x.extractLsb' (8 * j) 8 := by
    intro x j
    apply BitVec.eq_of_toNat_eq
    rw [BitVec.toNat_ofNat, BitVec.extractLsb'_toNat, Nat.shiftRight_eq_div_pow, Nat.pow_mul]
  rw [e, h]
  have : k = 0 ∨ k = 1 ∨ k = 2 ∨ k = 3 ∨ k = 4 ∨ k = 5 ∨ k = 6 ∨ k = 7 := by omega
  rcases this with rfl | rfl | rfl | rfl | rfl | rfl | rfl | rfl <;>
    simp only [bigEndian, List.getElem?_cons_succ, List.getElem?_cons_zero, e]

theorem digits4 {b0 b1 b2 b3 : Nat} (h0 : b0 < 256) (h1 : b1 < 256) (h2 : b2 < 256) (h3 : b3 < 256) :
    (b0 + 256 * b1 + 65536 * b2 + 16777216 * b3) / 256 ^ 0 % 256 = b0 ∧
    (b0 + 256 * b1 + 65536 * b2 + 16777216 * b3) / 256 ^ 1 % 256 = b1 ∧
    (b0 + 256 * b1 + 65536 * b2 + 16777216 * b3) / 256 ^ 2 % 256 = b2 ∧
    (b0 + 256 * b1 + 65536 * b2 + 16777216 * b3) / 256 ^ 3 % 256 = b3 := by
  have e1 : (b0 + 256 * b1 + 65536 * b2 + 16777216 * b3) / 256 = b1 + 256 * b2 + 65536 * b3 := by omega
  have e2 : (b0 + 256 * b1 + 65536 * b2 + 16777216 * b3) / 65536 = b2 + 256 * b3 := by omega
  have e3 : (b0 + 256 * b1 + 65536 * b2 + 16777216 * b3) / 16777216 = b3 := by omega
  simp only [Nat.reducePow, Nat.div_one, e1, e2, e3]
  refine ⟨by omega, by omega, by omega, by omega⟩

theorem wrote_i32_be (m : Mem) (a v : Nat) (h : v < 2 ^ 32) :
    Wrote m (m.write a 4 (rev4 v)) a (bigEndian 4 v) := by
  refine wrote_write (length_bigEndian _ _) fun k hk => ?_
  obtain ⟨b0, b1, b2, b3, h0, h1, h2, h3, rfl⟩ := bytes4 v h
  rw [rev4_bytes h0 h1 h2 h3]
  obtain ⟨d0, d1, d2, d3⟩ := digits4 h0 h1 h2 h3
  obtain ⟨r0, r1, r2, r3⟩ := digits4 h3 h2 h1 h0
  have : k = 0 ∨ k = 1 ∨ k = 2 ∨ k = 3 := by omega
  rcases this with rfl | rfl | rfl | rfl <;>
    simp only [bigEndian, List.getElem?_cons_succ, List.getElem?_cons_zero, Option.some.injEq] <;>
    apply ofNat8 <;> simp only [d0, d1, d2, d3, r0, r1, r2, r3]

end Wasm
