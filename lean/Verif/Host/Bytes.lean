import Verif.Host.Abi

/-! Lemmas about host reads and writes of byte strings. -/

namespace Host
open Wasm Spec

/-- The two memories agree on `n` bytes from `a`. -/
def Agree (m m' : Mem) (a n : Nat) : Prop := ∀ i, a ≤ i → i < a + n → m'.byte i = m.byte i

theorem Agree.mono {m m' : Mem} {a n a' n' : Nat} (h : Agree m m' a n) (h1 : a ≤ a')
    (h2 : a' + n' ≤ a + n) : Agree m m' a' n' := fun i hi hi' => h i (by omega) (by omega)

theorem Agree.refl (m : Mem) (a n : Nat) : Agree m m a n := fun _ _ _ => rfl

theorem bytesAt_eq {m m' : Mem} {a n : Nat} (h : Agree m m' a n) :
    bytesAt m' a n = bytesAt m a n := by
  induction n generalizing a with
  | zero => rfl
  | succ n ih =>
    simp only [bytesAt]
    rw [h a (by omega) (by omega), ih (h.mono (by omega) (by omega))]

theorem length_bytesAt (m : Mem) (a n : Nat) : (bytesAt m a n).length = n := by
  induction n generalizing a with
  | zero => rfl
  | succ n ih => simp [bytesAt, ih]

@[simp] theorem put_size (m : Mem) (o : Nat) (bs : List Byte) : (put m o bs).size = m.size := rfl

theorem put_out {m : Mem} {o : Nat} {bs : List Byte} {i : Nat}
    (h : i < o ∨ o + bs.length ≤ i) : (put m o bs).byte i = m.byte i := by
  simp only [put]; rw [if_neg (by omega)]

theorem bytesAt_getD {m : Mem} {o : Nat} {bs : List Byte}
    (h : ∀ i, i < bs.length → m.byte (o + i) = bs.getD i 0#8) : bytesAt m o bs.length = bs := by
  induction bs generalizing o with
  | nil => rfl
  | cons b bs ih =>
    simp only [List.length_cons, bytesAt]
    congr 1
    · have := h 0 (by simp)
      simpa using this
    · apply ih
      intro i hi
      have := h (i + 1) (by simpa using hi)
      rw [show o + 1 + i = o + (i + 1) by omega, this]; simp

theorem bytesAt_put (m : Mem) (o : Nat) (bs : List Byte) :
    bytesAt (put m o bs) o bs.length = bs := by
  apply bytesAt_getD
  intro i hi
  simp only [put]
  rw [if_pos (by omega)]
  congr 1; omega

theorem bytesAt_app (m : Mem) (a n k : Nat) :
    bytesAt m a (n + k) = bytesAt m a n ++ bytesAt m (a + n) k := by
  induction n generalizing a with
  | zero => simp [bytesAt]
  | succ n ih =>
    rw [show n + 1 + k = (n + k) + 1 by omega]
    simp only [bytesAt, ih, List.cons_append]
    rw [show a + 1 + n = a + (n + 1) by omega]

theorem bytesAt_split {m : Mem} {a : Nat} {xs ys : List Byte}
    (h : bytesAt m a (xs ++ ys).length = xs ++ ys) :
    bytesAt m a xs.length = xs ∧ bytesAt m (a + xs.length) ys.length = ys := by
  rw [List.length_append, bytesAt_app] at h
  exact List.append_inj h (by rw [length_bytesAt])

theorem memWrite_ok {m : Mem} {o : Nat} {bs : List Byte} (h : o + bs.length ≤ m.size) :
    memWrite m o bs = some (put m o bs) := by simp [memWrite, h]

theorem memRead_ok {m : Mem} {o n : Nat} (h : o + n ≤ m.size) :
    memRead m o n = some (bytesAt m o n) := by simp [memRead, h]

@[simp] theorem length_leBytes (n v : Nat) : (leBytes n v).length = n := by
  induction n generalizing v with
  | zero => rfl
  | succ n ih => simp [leBytes, ih]

theorem leNat_leBytes (n v : Nat) : leNat (leBytes n v) = v % 256 ^ n := by
  induction n generalizing v with
  | zero => simp [leBytes, leNat, Nat.mod_one]
  | succ n ih =>
    simp only [leBytes, leNat, ih, BitVec.toNat_ofNat]
    rw [show (256:Nat) ^ (n + 1) = 256 * 256 ^ n by rw [Nat.pow_succ, Nat.mul_comm], Nat.mod_mul]

theorem leNat_leBytes4 {v : Nat} (h : v < 2 ^ 32) : leNat (leBytes 4 v) = v := by
  rw [leNat_leBytes]; exact Nat.mod_eq_of_lt (by simpa using h)

@[simp] theorem length_intBytes (z : Int) : (intBytes z).length = 16 := by simp [intBytes]

@[simp] theorem length_beBytes4 (v : Nat) : (beBytes4 v).length = 4 := rfl

theorem length_flatMap_be (cs : List Nat) : (cs.flatMap beBytes4).length = 4 * cs.length := by
  induction cs with
  | nil => rfl
  | cons c cs ih => simp only [List.flatMap_cons, List.length_append, ih, length_beBytes4,
      List.length_cons]; omega

theorem beNat_beBytes4 {v : Nat} (h : v < 2 ^ 32) : beNat (beBytes4 v) = v := by
  simp only [beNat, beBytes4, List.foldl, BitVec.toNat_ofNat]; omega

theorem beWords_flatMap (cs : List Nat) (h : ∀ c ∈ cs, c < 2 ^ 32) :
    beWords (cs.flatMap beBytes4) = some cs := by
  induction cs with
  | nil => rfl
  | cons c cs ih =>
    simp only [List.flatMap_cons, beBytes4, List.cons_append, List.nil_append, beWords]
    have := ih (fun c hc => h c (List.mem_cons_of_mem _ hc))
    rw [this]
    have h4 := beNat_beBytes4 (h c (List.mem_cons_self ..))
    simp only [beBytes4] at h4
    simp [h4]

theorem utf8FromScalars_ok (cs : List Nat) (h : ∀ c ∈ cs, isScalar c) :
    utf8FromScalars (cs.flatMap beBytes4) = some (.utf8 cs) := by
  unfold utf8FromScalars
  rw [beWords_flatMap cs (fun c hc => by have := (h c hc).1; omega)]
  simp only [Option.bind_eq_bind, Option.bind_some]
  rw [if_pos (by simpa using h)]

end Host
