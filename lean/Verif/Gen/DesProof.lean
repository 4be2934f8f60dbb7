import Verif.Gen.Deserialize
import Verif.Gen.DecodeProof
import Verif.Stdlib.Valid

/-! The generated deserialization code reads what `decode` reads. -/

namespace Gen
open Wasm Spec Host

variable {σ : Type} {M : Wasm.Mod σ}

/-- The memory that the deserialized value of a type may need. -/
def space : Ty → Nat
  | .principal | .callable _ | .trait _ | .traitRef _ => 22
  | .buff n | .ascii n => n
  | .utf8 n => n * 4
  | .list n e => n * (typeSize e + space e)
  | .opt t => space t
  | .resp o e => max (space o) (space e)
  | _ => 0

/-- The addresses from `lo` to `e` and from `r` to `r'`. -/
def dreg (lo e r r' : Nat) : Reg := ⟨r', fun i => ¬ (lo ≤ i ∧ i < e) ∧ i < r⟩

/-- The state in which a value is deserialized: the local `ol` holds the address `o` of the next byte, `el`
the end `e` of the input, which starts at `lo`, `rl` the address `r` from which on `S` bytes can be used. -/
structure Din (ol el rl n lo : Nat) (o e r : BitVec 32) (S : Nat) (loc : List Val) (g : Store σ) : Prop where
  vo : nth loc ol = .i32 o
  ve : nth loc el = .i32 e
  vr : nth loc rl = .i32 r
  ho : ol < n
  he : el < n
  hr : rl < n
  oe : ol ≠ el
  or : ol ≠ rl
  er : el ≠ rl
  len : n ≤ loc.length
  lo : lo ≤ o.toNat
  le : o.toNat ≤ e.toNat
  le' : e.toNat ≤ r.toNat
  room : r.toNat + S < g.mem.size
  small : g.mem.size + 65536 ≤ 2 ^ 32

/-- The unread input. -/
def input (m : Mem) (o e : BitVec 32) : List Byte := bytesAt m o.toNat (e.toNat - o.toNat)

/-- What the values on the stack mean. -/
def DOut (T : Ty) (d : Dec Value) (b : Reg) (m' : Mem) (e o' ok : BitVec 32) (ws : List Val) : Prop :=
  match d with
  | .val v rest => ok = 1#32 ∧ o'.toNat + rest.length = e.toNat ∧ Rep m' b T v ws
  | .bad => ok = 0#32 ∧ ws.map Val.ty = wty T
  | .deviates => True

/-- The state after a value was deserialized. -/
structure Dfin (T : Ty) (d : Dec Value) (ol rl n lo : Nat) (e r : BitVec 32) (S : Nat) (loc : List Val) (g : Store σ)
    (ok : BitVec 32) (ws loc' : List Val) (m' : Mem) (o' r' : BitVec 32) : Prop where
  keep : Keep n [ol, rl] loc loc'
  vo : nth loc' ol = .i32 o'
  vr : nth loc' rl = .i32 r'
  rlo : r.toNat ≤ r'.toNat
  rhi : r'.toNat ≤ r.toNat + S
  size : m'.size = g.mem.size
  mem : ∀ i, i < r.toNat ∨ r.toNat + S ≤ i → m'.byte i = g.mem.byte i
  out : DOut T d (dreg lo e.toNat r.toNat r'.toNat) m' e o' ok ws

/-- A result of executing deserialization code. -/
def DTo (T : Ty) (d : Dec Value) (ol rl n lo : Nat) (e r : BitVec 32) (S : Nat) (stk loc : List Val) (g : Store σ)
    (res : Res σ) : Prop :=
  ∃ ok ws loc' m' o' r', res = .norm (ws.reverse ++ .i32 ok :: stk) loc' (g.setMem m') ∧
    Dfin T d ol rl n lo e r S loc g ok ws loc' m' o' r'

/-- The same as an execution. -/
def DSteps (M : Wasm.Mod σ) (is : List Instr) (T : Ty) (d : Dec Value) (ol rl n lo : Nat) (e r : BitVec 32) (S : Nat)
    (stk loc : List Val) (g : Store σ) : Prop :=
  ∃ ok ws loc' m' o' r', Steps M is stk loc g (ws.reverse ++ .i32 ok :: stk) loc' (g.setMem m') ∧
    Dfin T d ol rl n lo e r S loc g ok ws loc' m' o' r'

theorem DSteps.of_wp {is : List Instr} {T : Ty} {d : Dec Value} {ol rl n lo : Nat} {e r : BitVec 32} {S : Nat}
    {stk loc : List Val} {g : Store σ} (h : WP M is stk loc g (DTo T d ol rl n lo e r S stk loc g)) :
    DSteps M is T d ol rl n lo e r S stk loc g := by
  obtain ⟨k, res, h1, h2, ok, ws, loc', m', o', r', rfl, h3⟩ := h
  refine ⟨ok, ws, loc', m', o', r', Steps.of_wp fun Q => ?_, h3⟩
  exact wp_of_ends ((ends_iff (by simp)).2 ⟨k, _, h1, h2, rfl⟩) (by simp)

theorem setMem_mem (g : Store σ) : g.setMem g.mem = g := rfl

/-- Failure that leaves memory alone. -/
theorem DTo.fail {T : Ty} {ol el rl n lo : Nat} {o e r : BitVec 32} {S : Nat} {stk stk' loc loc' : List Val}
    {g : Store σ} {o' : BitVec 32} (_ : Din ol el rl n lo o e r S loc g) (ws : List Val) (hw : ws.map Val.ty = wty T)
    (hs : stk' = ws.reverse ++ .i32 0#32 :: stk) (hk : Keep n [ol, rl] loc loc') (ho : nth loc' ol = .i32 o')
    (hr : nth loc' rl = .i32 r) : DTo T .bad ol rl n lo e r S stk loc g (.norm stk' loc' g) :=
  ⟨0#32, ws, loc', g.mem, o', r, by rw [hs, setMem_mem], hk, ho, hr, Nat.le_refl _, by omega, rfl,
    fun _ _ => rfl, rfl, hw⟩

/-- Success that leaves memory alone. -/
theorem DTo.done {T : Ty} {ol el rl n lo : Nat} {o e r : BitVec 32} {S : Nat} {stk stk' loc loc' : List Val}
    {g : Store σ} {o' : BitVec 32} {v : Value} {rest : List Byte} (_ : Din ol el rl n lo o e r S loc g) (ws : List Val)
    (hs : stk' = ws.reverse ++ .i32 1#32 :: stk) (hk : Keep n [ol, rl] loc loc') (ho : nth loc' ol = .i32 o')
    (hr : nth loc' rl = .i32 r) (hl : o'.toNat + rest.length = e.toNat)
    (hv : Rep g.mem (dreg lo e.toNat r.toNat r.toNat) T v ws) :
    DTo T (.val v rest) ol rl n lo e r S stk loc g (.norm stk' loc' g) :=
  ⟨1#32, ws, loc', g.mem, o', r, by rw [hs, setMem_mem], hk, ho, hr, Nat.le_refl _, by omega, rfl,
    fun _ _ => rfl, rfl, hl, hv⟩

theorem takeN_bytes {m : Mem} {a n k : Nat} :
    takeN k (bytesAt m a n) = if k ≤ n then .val (bytesAt m a k) (bytesAt m (a + k) (n - k)) else .bad := by
  split
  · next h =>
    rw [takeN_val, Wasm.length_bytesAt]
    refine ⟨?_, rfl⟩
    rw [← bytesAt_add]
    congr 1
    omega
  · next h =>
    unfold takeN
    rw [Wasm.length_bytesAt, if_neg h]

theorem takeLen_bytes {m : Mem} {a n : Nat} :
    takeLen (bytesAt m a n) = if 4 ≤ n then .val (beNat (bytesAt m a 4)) (bytesAt m (a + 4) (n - 4)) else .bad := by
  unfold takeLen
  rw [takeN_bytes]
  split <;> rfl

theorem tagged_bytes {α : Type} {t : Byte} {f : List Byte → Dec α} {m : Mem} {a n : Nat} :
    tagged t f (bytesAt m a n) = if 1 ≤ n ∧ m.byte a = t then f (bytesAt m (a + 1) (n - 1)) else .bad := by
  cases n with
  | zero => simp [bytesAt, tagged]
  | succ n => simp [bytesAt, tagged]

theorem bind_bad {α β : Type} (f : α → List Byte → Dec β) : (Dec.bad : Dec α).bind f = .bad := rfl
theorem bind_ok {α β : Type} (a : α) (r : List Byte) (f : α → List Byte → Dec β) : (Dec.val a r).bind f = f a r := rfl

/-- A byte compared as an i32. -/
theorem byte_eq {m : Mem} {a : Nat} {t : BitVec 8} {w : BitVec 32} (h : w.toNat = t.toNat) :
    BitVec.ofNat 32 (m.read a 1) = w ↔ m.byte a = t := by
  have h1 : m.read a 1 = (m.byte a).toNat := by simp [Mem.read]
  rw [h1]
  have h2 := (m.byte a).isLt
  constructor
  · intro e
    apply BitVec.eq_of_toNat_eq
    have := congrArg BitVec.toNat e
    rw [BitVec.toNat_ofNat] at this
    omega
  · rintro rfl
    apply BitVec.eq_of_toNat_eq
    rw [BitVec.toNat_ofNat]
    omega

theorem swizzle_rev (m : Mem) (a : Nat) :
    (swizzle (BitVec.ofNat 128 (m.read a 16)) 0x000102030405060708090a0b0c0d0e0f#128).toNat = beNat (bytesAt m a 16) := by
  have hl : ∀ i < 16, lane8 0x000102030405060708090a0b0c0d0e0f#128 i = 15 - i := by decide +kernel
  have hb := fun i => (m.byte (a + i)).isLt
  simp only [swizzle, show List.range 16 = [0, 1, 2, 3, 4, 5, 6, 7, 8, 9, 10, 11, 12, 13, 14, 15]
    from rfl, List.foldr]
  simp only [hl _ (show 0 < 16 by decide), hl _ (show 1 < 16 by decide),
    hl _ (show 2 < 16 by decide), hl _ (show 3 < 16 by decide), hl _ (show 4 < 16 by decide),
    hl _ (show 5 < 16 by decide), hl _ (show 6 < 16 by decide), hl _ (show 7 < 16 by decide),
    hl _ (show 8 < 16 by decide), hl _ (show 9 < 16 by decide), hl _ (show 10 < 16 by decide),
    hl _ (show 11 < 16 by decide), hl _ (show 12 < 16 by decide), hl _ (show 13 < 16 by decide),
    hl _ (show 14 < 16 by decide), hl _ (show 15 < 16 by decide), Nat.reduceLT, Nat.reduceSub,
    if_true]
  rw [lane8_read _ _ _ (by decide), lane8_read _ _ _ (by decide), lane8_read _ _ _ (by decide),
    lane8_read _ _ _ (by decide), lane8_read _ _ _ (by decide), lane8_read _ _ _ (by decide),
    lane8_read _ _ _ (by decide), lane8_read _ _ _ (by decide), lane8_read _ _ _ (by decide),
    lane8_read _ _ _ (by decide), lane8_read _ _ _ (by decide), lane8_read _ _ _ (by decide),
    lane8_read _ _ _ (by decide), lane8_read _ _ _ (by decide), lane8_read _ _ _ (by decide),
    lane8_read _ _ _ (by decide)]
  simp only [bytesAt, beNat, List.foldl, Nat.add_assoc, Nat.reduceAdd, Nat.add_zero]
  have := hb 0; have := hb 1; have := hb 2; have := hb 3; have := hb 4; have := hb 5
  have := hb 6; have := hb 7; have := hb 8; have := hb 9; have := hb 10; have := hb 11
  have := hb 12; have := hb 13; have := hb 14; have := hb 15
  rw [BitVec.toNat_ofNat]
  simp only [Nat.add_zero] at *
  omega

theorem add_k {o : BitVec 32} {k : Nat} (h : o.toNat + k < 2 ^ 32) : (o + BitVec.ofNat 32 k).toNat = o.toNat + k := by
  rw [BitVec.toNat_add, BitVec.toNat_ofNat]; omega

theorem des_int {signed : Bool} {ol el rl n lo : Nat} {o e r : BitVec 32} {S : Nat} {stk loc : List Val} {g : Store σ}
    (H : Din ol el rl n lo o e r S loc g) (hn : n + 1 ≤ loc.length) :
    DSteps M (desInt signed ol el n).is (if signed then .int else .uint)
      (decode (if signed then .int else .uint) (input g.mem o e)) ol rl n lo e r S stk loc g := by
  obtain ⟨vo, ve, vr, h1, h2, h3, h4, h5, h6, h7, h8, h9, h10, h11, h12⟩ := H
  have H := Din.mk vo ve vr h1 h2 h3 h4 h5 h6 h7 h8 h9 h10 h11 h12
  have e17 : (o + 17#32).toNat = o.toNat + 17 := add_k (k := 17) (by omega)
  have hd : decode (if signed then .int else .uint) (input g.mem o e) =
      if 17 ≤ e.toNat - o.toNat ∧ g.mem.byte o.toNat = BitVec.ofNat 8 (if signed then 0 else 1) then
        .val (if signed then .int (signed128 (beNat (bytesAt g.mem (o.toNat + 1) 16)))
          else .uint (beNat (bytesAt g.mem (o.toNat + 1) 16)))
          (bytesAt g.mem (o.toNat + 17) (e.toNat - o.toNat - 17)) else .bad := by
    cases signed <;> simp only [if_true, if_false, Bool.false_eq_true, decode, input] <;> rw [tagged_bytes]
    all_goals
      by_cases hc : 17 ≤ e.toNat - o.toNat
      · split
        · next ht =>
          obtain ⟨_, ht⟩ := ht
          rw [if_pos ⟨by omega, ht⟩, takeN_bytes, if_pos (by omega), bind_ok, Nat.add_assoc, Nat.sub_sub]
        · next ht =>
          rw [if_neg (fun h => ht ⟨by omega, h.2⟩)]
      · rw [if_neg (c := 17 ≤ _ ∧ _) (fun h => hc h.1)]
        split
        · rw [takeN_bytes, if_neg (by omega)]; rfl
        · rfl
  generalize hD : decode (if signed then .int else .uint) (input g.mem o e) = D at *
  apply DSteps.of_wp
  unfold desInt plus incr plus lget lset c32 load8
  simp only [List.cons_append, List.nil_append]
  wpl [vo, ve, e17]
  by_cases hc : 17 ≤ e.toNat - o.toNat
  swap
  · rw [if_neg (fun h => hc h.1)] at hd
    subst hd
    wif (show e.toNat < o.toNat + 17 by omega)
    refine DTo.fail H [.i64 0#64, .i64 0#64] ?_ ?_ Keep.refl vo vr
    · cases signed <;> rfl
    · rfl
  wif (show ¬ e.toNat < o.toNat + 17 by omega)
  by_cases ht : g.mem.byte o.toNat = BitVec.ofNat 8 (if signed then 0 else 1)
  swap
  · rw [if_neg (fun h => ht h.2)] at hd
    subst hd
    have ht' := mt (byte_eq (m := g.mem) (a := o.toNat) (t := BitVec.ofNat 8 (if signed then 0 else 1))
      (w := BitVec.ofNat 32 (if signed then 0 else 1)) (by cases signed <;> rfl)).1 ht
    rw [if_pos ht']
    refine DTo.fail H [.i64 0#64, .i64 0#64] ?_ ?_ Keep.refl vo vr
    · cases signed <;> rfl
    · rfl
  rw [if_pos ⟨hc, ht⟩] at hd
  subst hd
  have ht' := (byte_eq (m := g.mem) (a := o.toNat) (t := BitVec.ofNat 8 (if signed then 0 else 1))
      (w := BitVec.ofNat 32 (if signed then 0 else 1)) (by cases signed <;> rfl)).2 ht
  rw [if_neg (fun h => h ht')]
  rw [wp_v128load (by omega)]
  wpl [vo, swizzle_rev]
  refine DTo.done (o' := o + 17#32) H [.i64 (BitVec.ofNat 64 (beNat (bytesAt g.mem (o.toNat + 1) 16) / 2 ^ (64 * 0))),
    .i64 (BitVec.ofNat 64 (beNat (bytesAt g.mem (o.toNat + 1) 16) / 2 ^ (64 * 1)))] rfl
    ((Keep.refl.set (.inl (by omega))).set (.inr (by simp))) ?_ ?_ ?_ ?_
  · wpl
  · wpl [vr]
  · rw [e17, Wasm.length_bytesAt]; omega
  · have hlt := beNat_lt (bytesAt g.mem (o.toNat + 1) 16)
    rw [Wasm.length_bytesAt] at hlt
    generalize beNat (bytesAt g.mem (o.toNat + 1) 16) = x at *
    cases signed
    · simp only [if_false, Bool.false_eq_true, Rep]
      refine ⟨x, rfl, by simp only [IsUInt]; omega, ?_⟩
      simp [encU]
    · simp only [if_true, Rep]
      obtain ⟨q1, q2⟩ := signed128_int (n := x) (by omega)
      refine ⟨_, rfl, q1, ?_⟩
      have a1 : BitVec.ofInt 64 (signed128 x) = BitVec.ofNat 64 x := by
        apply BitVec.eq_of_toNat_eq
        rw [BitVec.toNat_ofInt, BitVec.toNat_ofNat]
        omega
      have a2 : BitVec.ofInt 64 (signed128 x / 2 ^ 64) = BitVec.ofNat 64 (x / 2 ^ 64) := by
        apply BitVec.eq_of_toNat_eq
        rw [BitVec.toNat_ofInt, BitVec.toNat_ofNat]
        omega
      simp only [encI, a1, a2, Nat.mul_zero, Nat.pow_zero, Nat.div_one, Nat.mul_one]

theorem des_bool {ol el rl n lo : Nat} {o e r : BitVec 32} {S : Nat} {stk loc : List Val} {g : Store σ}
    (H : Din ol el rl n lo o e r S loc g) (hn : n + 1 ≤ loc.length) :
    DSteps M (desBool ol el n).is .bool (decode .bool (input g.mem o e)) ol rl n lo e r S stk loc g := by
  obtain ⟨vo, ve, vr, h1, h2, h3, h4, h5, h6, h7, h8, h9, h10, h11, h12⟩ := H
  have H := Din.mk vo ve vr h1 h2 h3 h4 h5 h6 h7 h8 h9 h10 h11 h12
  have e1 : (o + 1#32).toNat = o.toNat + 1 := add_k (k := 1) (by omega)
  generalize hD : decode .bool (input g.mem o e) = D
  apply DSteps.of_wp
  unfold desBool incr plus lget lset c32 load8
  simp only [List.cons_append, List.nil_append]
  wpl [vo, ve]
  by_cases hc : e.toNat ≤ o.toNat
  · rw [show input g.mem o e = [] by rw [input, show e.toNat - o.toNat = 0 by omega]; rfl] at hD
    subst hD
    wif hc
    exact DTo.fail H [.i32 0#32] rfl rfl Keep.refl vo vr
  wif hc
  obtain ⟨k, hk⟩ : ∃ k, e.toNat - o.toNat = k + 1 := ⟨e.toNat - o.toNat - 1, by omega⟩
  rw [show input g.mem o e = g.mem.byte o.toNat :: bytesAt g.mem (o.toNat + 1) k by rw [input, hk]; rfl] at hD
  simp only [decode] at hD
  have b3 := byte_eq (m := g.mem) (a := o.toNat) (t := 0x03#8) (w := 3#32) rfl
  have b4 := byte_eq (m := g.mem) (a := o.toNat) (t := 0x04#8) (w := 4#32) rfl
  by_cases t3 : g.mem.byte o.toNat = 0x03#8
  · rw [if_pos t3] at hD
    subst hD
    wif (b3.2 t3)
    refine DTo.done (o' := o + 1#32) H [.i32 1#32] rfl ((Keep.refl.set (.inl (by omega))).set (.inr (by simp))) ?_ ?_ ?_ ?_
    · wpl
    · wpl [vr]
    · rw [e1, Wasm.length_bytesAt]; omega
    · simp only [Rep]; exact ⟨true, rfl, rfl⟩
  rw [if_neg t3] at hD
  wif (mt b3.1 t3)
  by_cases t4 : g.mem.byte o.toNat = 0x04#8
  · rw [if_pos t4] at hD
    subst hD
    wif (b4.2 t4)
    refine DTo.done (o' := o + 1#32) H [.i32 0#32] rfl ((Keep.refl.set (.inl (by omega))).set (.inr (by simp))) ?_ ?_ ?_ ?_
    · wpl
    · wpl [vr]
    · rw [e1, Wasm.length_bytesAt]; omega
    · simp only [Rep]; exact ⟨false, rfl, rfl⟩
  rw [if_neg t4] at hD
  subst hD
  wif (mt b4.1 t4)
  refine DTo.fail (o' := o) H [.i32 0#32] rfl rfl (Keep.refl.set (.inl (by omega))) ?_ ?_
  · wpl [vo]
  · wpl [vr]

theorem byteList_ascii (bs : List Byte) : bs.all (fun b => asciiOk b.toNat) = (bs.map BitVec.toNat).all asciiOk := by
  rw [List.all_map]; rfl

theorem asciiAt_eq (m : Mem) (a n : Nat) : asciiAt m a n = (bytesAt m a n).map BitVec.toNat := rfl

theorem dreg_has {lo e r r' o l : Nat} (h1 : lo ≤ o) (h2 : o + l ≤ e) (h3 : e ≤ r) (h4 : r ≤ r') :
    (dreg lo e r r').Has o l := by
  refine ⟨?_, fun i hi hi' hh => hh.1 ⟨by omega, by omega⟩⟩
  show o + l ≤ r'
  omega

/-- `decode` of a buffer or of an ASCII string. -/
theorem decode_bytes {check : Bool} {max : Nat} {m : Mem} {a k : Nat} :
    decode (if check then .ascii max else .buff max) (bytesAt m a k) =
      if 5 ≤ k ∧ m.byte a = (if check then 0x0d#8 else 0x02#8) ∧ beNat (bytesAt m (a + 1) 4) ≤ max ∧
        beNat (bytesAt m (a + 1) 4) + 5 ≤ k ∧
        (check = true → (asciiAt m (a + 5) (beNat (bytesAt m (a + 1) 4))).all asciiOk = true) then
        .val (if check then .ascii (bytesAt m (a + 5) (beNat (bytesAt m (a + 1) 4)))
          else .buff (bytesAt m (a + 5) (beNat (bytesAt m (a + 1) 4))))
          (bytesAt m (a + 5 + beNat (bytesAt m (a + 1) 4)) (k - 5 - beNat (bytesAt m (a + 1) 4)))
      else .bad := by
  cases check
  all_goals
    simp only [if_true, if_false, Bool.false_eq_true, decode]
    rw [tagged_bytes, takeLen_bytes]
    generalize beNat (bytesAt m (a + 1) 4) = l
    by_cases h1 : 5 ≤ k
    swap
    · rw [if_neg (c := 5 ≤ k ∧ _) (fun h => h1 h.1)]
      split
      · rw [if_neg (by omega)]; rfl
      · rfl
    split
    swap
    · next h => rw [if_neg (fun h' => h ⟨by omega, h'.2.1⟩)]
    next h =>
    rw [if_pos (by omega), bind_ok]
    by_cases h2 : l ≤ max
    swap
    · rw [if_neg h2, if_neg (fun h' => h2 h'.2.2.1)]
    rw [if_pos h2, takeN_bytes]
    by_cases h3 : l + 5 ≤ k
    swap
    · rw [if_neg (by omega), if_neg (fun h' => h3 h'.2.2.2.1)]; rfl
    rw [if_pos (by omega), bind_ok, Nat.add_assoc a 1 4, Nat.sub_sub k 1 4]
    first
    | exact (if_pos (c := 5 ≤ k ∧ m.byte a = 0x02#8 ∧ _) ⟨h1, h.2, h2, h3, nofun⟩).symm
    | rw [byteList_ascii, ← asciiAt_eq]
      split
      · next h4 => rw [if_pos ⟨h1, h.2, h2, h3, fun _ => h4⟩]
      · next h4 => rw [if_neg (fun h' => h4 (h'.2.2.2.2 trivial))]

theorem wp_loadLen {is : List Instr} {stk loc : List Val} {g : Store σ} {Q : Res σ → Prop} {a : BitVec 32}
    (h : a.toNat + 4 ≤ g.mem.size) :
    WP M (.call (.std .load_i32_be) :: is) (.i32 a :: stk) loc g Q ↔
      WP M is (.i32 (BitVec.ofNat 32 (beNat (bytesAt g.mem a.toNat 4))) :: stk) loc g Q := by
  refine (wp_call_runs (args := [.i32 a]) (ps := [.i32]) (rs := [.i32]) rfl rfl
    (runs_load_i32_be a h) (by simp)).trans ?_
  rw [callK_ret]; rfl

theorem wp_ascii {is : List Instr} {stk loc : List Val} {g : Store σ} {Q : Res σ → Prop} {o l : BitVec 32}
    (h : o.toNat + l.toNat ≤ g.mem.size) :
    WP M (.call (.std .is_valid_string_ascii) :: is) (.i32 l :: .i32 o :: stk) loc g Q ↔
      WP M is (.i32 (b32 ((asciiAt g.mem o.toNat l.toNat).all asciiOk = true)) :: stk) loc g Q := by
  refine (wp_call_runs (args := [.i32 o, .i32 l]) (ps := [.i32, .i32]) (rs := [.i32]) rfl rfl
    (runs_is_valid_string_ascii o l h) (by simp)).trans ?_
  rw [callK_ret]; rfl

theorem des_bytes {check : Bool} {max ol el rl n lo : Nat} {o e r : BitVec 32} {stk loc : List Val} {g : Store σ}
    (H : Din ol el rl n lo o e r max loc g) (hn : n + 2 ≤ loc.length) :
    DSteps M (desBytes (if check then 13 else 2) check max ol el n).is (if check then .ascii max else .buff max)
      (decode (if check then .ascii max else .buff max) (input g.mem o e)) ol rl n lo e r max stk loc g := by
  obtain ⟨vo, ve, vr, h1, h2, h3, h4, h5, h6, h7, h8, h9, h10, h11, h12⟩ := H
  have H := Din.mk vo ve vr h1 h2 h3 h4 h5 h6 h7 h8 h9 h10 h11 h12
  have e5 : (o + 5#32).toNat = o.toNat + 5 := add_k (k := 5) (by omega)
  have e1 : (o + 1#32).toNat = o.toNat + 1 := add_k (k := 1) (by omega)
  have hD := decode_bytes (check := check) (max := max) (m := g.mem) (a := o.toNat) (k := e.toNat - o.toNat)
  rw [← input] at hD
  have hty : wty (if check then .ascii max else .buff max) = [.i32, .i32] := by cases check <;> rfl
  generalize decode (if check then .ascii max else .buff max) (input g.mem o e) = D at *
  apply DSteps.of_wp
  unfold desBytes plus lget lset c32 load8
  simp only [List.cons_append, List.nil_append]
  wpl [vo, ve, e5]
  by_cases hc : 5 ≤ e.toNat - o.toNat
  swap
  · rw [if_neg (fun h => hc h.1)] at hD
    subst hD
    wif (show e.toNat < o.toNat + 5 by omega)
    exact DTo.fail H [.i32 0#32, .i32 0#32] hty.symm rfl Keep.refl vo vr
  wif (show ¬ e.toNat < o.toNat + 5 by omega)
  have bt := byte_eq (m := g.mem) (a := o.toNat) (t := if check then 0x0d#8 else 0x02#8)
    (w := BitVec.ofNat 32 (if check then 13 else 2)) (by cases check <;> rfl)
  by_cases ht : g.mem.byte o.toNat = (if check then 0x0d#8 else 0x02#8)
  swap
  · rw [if_neg (fun h => ht h.2.1)] at hD
    subst hD
    rw [if_pos (mt bt.1 ht)]
    exact DTo.fail H [.i32 0#32, .i32 0#32] hty.symm rfl Keep.refl vo vr
  rw [if_neg (fun h => h (bt.2 ht))]
  rw [wp_loadLen (by omega), e1]
  obtain ⟨l, hl⟩ : ∃ l : BitVec 32, l = BitVec.ofNat 32 (beNat (bytesAt g.mem (o.toNat + 1) 4)) := ⟨_, rfl⟩
  have el' : l.toNat = beNat (bytesAt g.mem (o.toNat + 1) 4) := by
    have := beNat_lt (bytesAt g.mem (o.toNat + 1) 4)
    rw [Wasm.length_bytesAt] at this
    rw [hl, BitVec.toNat_ofNat]; omega
  rw [← el'] at hD
  rw [← hl]
  have hmx : (BitVec.ofNat 32 max).toNat = max := by rw [BitVec.toNat_ofNat]; omega
  wpl [vo, ve, hmx]
  by_cases hm : l.toNat ≤ max
  swap
  · rw [if_neg (fun h => hm h.2.2.1)] at hD
    subst hD
    wif (show max < l.toNat by omega)
    refine DTo.fail (o' := o) H [.i32 0#32, .i32 0#32] hty.symm rfl (Keep.refl.set (.inl (by omega))) ?_ ?_
    · wpl [vo]
    · wpl [vr]
  wif (show ¬ max < l.toNat by omega)
  have elo : (l + o + 5#32).toNat = o.toNat + l.toNat + 5 := by
    rw [BitVec.toNat_add, BitVec.toNat_add, BitVec.toNat_ofNat]; omega
  rw [elo]
  by_cases hq : l.toNat + 5 ≤ e.toNat - o.toNat
  swap
  · rw [if_neg (fun h => hq h.2.2.2.1)] at hD
    subst hD
    wif (show e.toNat < o.toNat + l.toNat + 5 by omega)
    refine DTo.fail (o' := o) H [.i32 0#32, .i32 0#32] hty.symm rfl
      ((Keep.refl.set (.inl (by omega))).set (.inl (by omega))) ?_ ?_
    · wpl [vo]
    · wpl [vr]
  wif (show ¬ e.toNat < o.toNat + l.toNat + 5 by omega)
  have fin : ∀ X, (check = true → (asciiAt g.mem (o.toNat + 5) l.toNat).all asciiOk = true) →
      X = ((loc.set n (.i32 l)).set (n + 1) (.i32 (l + o + 5#32))).set ol (.i32 (l + o + 5#32)) →
      DTo (if check then .ascii max else .buff max) D ol rl n lo e r max stk loc g
        (.norm (.i32 l :: .i32 (o + 5#32) :: .i32 1#32 :: stk) X g) := by
    rintro X ha rfl
    rw [if_pos ⟨hc, ht, hm, hq, ha⟩] at hD
    subst hD
    refine DTo.done (o' := l + o + 5#32) H [.i32 (o + 5#32), .i32 l] rfl
      (((Keep.refl.set (.inl (by omega))).set (.inl (by omega))).set (.inr (by simp))) ?_ ?_ ?_ ?_
    · wpl
    · wpl [vr]
    · rw [elo, Wasm.length_bytesAt]; omega
    · have hb : BytesIn g.mem (dreg lo e.toNat r.toNat r.toNat) (bytesAt g.mem (o.toNat + 5) l.toNat)
          [.i32 (o + 5#32), .i32 l] := by
        refine ⟨_, _, rfl, by rw [Wasm.length_bytesAt], ?_, ?_⟩
        · rw [Wasm.length_bytesAt, e5]
          exact dreg_has (by omega) (by omega) (by omega) (Nat.le_refl _)
        · rw [Wasm.length_bytesAt, e5]
      cases check
      · simp only [if_false, Bool.false_eq_true, Rep, HasType, memBytes]
        exact ⟨by rw [Wasm.length_bytesAt]; omega, hb⟩
      · simp only [if_true, Rep, HasType, memBytes]
        refine ⟨⟨by rw [Wasm.length_bytesAt]; omega, ?_⟩, hb⟩
        have := ha rfl
        rw [asciiAt_eq, ← byteList_ascii, List.all_eq_true] at this
        exact this
  cases check
  · simp only [if_false, Bool.false_eq_true, List.nil_append] at fin ⊢
    wpl [vo]
    exact fin _ nofun rfl
  · simp only [if_true, List.cons_append, List.nil_append] at fin ⊢ hD
    wpl [vo]
    rw [wp_ascii (by omega), e5]
    wpl [vo]
    by_cases ha : (asciiAt g.mem (o.toNat + 5) l.toNat).all asciiOk = true
    · rw [if_pos (fun h => h ha)]
      exact fin _ (fun _ => ha) rfl
    · rw [if_neg (fun h => h ha)]
      rw [if_neg (fun h => ha (h.2.2.2.2 trivial))] at hD
      subst hD
      refine DTo.fail (o' := o) H [.i32 0#32, .i32 0#32] hty.symm rfl
        ((Keep.refl.set (.inl (by omega))).set (.inl (by omega))) ?_ ?_
      · wpl [vo]
      · wpl [vr]

theorem decode_princ {m : Mem} {a k : Nat} :
    decodePrincipal (bytesAt m a k) =
      if 22 ≤ k then
        if m.byte a = 0x05#8 then
          if (m.byte (a + 1)).toNat < 32 then
            .val (.standard ⟨m.byte (a + 1), bytesAt m (a + 2) 20⟩) (bytesAt m (a + 22) (k - 22)) else .deviates
        else if m.byte a = 0x06#8 then
          if (m.byte (a + 22)).toNat + 23 ≤ k then
            if (m.byte (a + 1)).toNat < 32 ∧ contractNameOkB (bytesAt m (a + 23) (m.byte (a + 22)).toNat) then
              .val (.contract ⟨⟨m.byte (a + 1), bytesAt m (a + 2) 20⟩, bytesAt m (a + 23) (m.byte (a + 22)).toNat⟩)
                (bytesAt m (a + 23 + (m.byte (a + 22)).toNat) (k - 23 - (m.byte (a + 22)).toNat))
            else .deviates
          else .bad
        else .bad
      else .bad := by
  cases k with
  | zero => rfl
  | succ k =>
    rw [show bytesAt m a (k + 1) = m.byte a :: bytesAt m (a + 1) k from rfl, decodePrincipal, takeN_bytes]
    by_cases h : 22 ≤ k + 1
    swap
    · rw [if_neg h, if_neg (c := 21 ≤ k) (by omega), bind_bad, bind_bad]
      split
      · rfl
      · split <;> rfl
    rw [if_pos h, if_pos (c := 21 ≤ k) (by omega), bind_ok, bind_ok]
    rw [show bytesAt m (a + 1) 21 = m.byte (a + 1) :: bytesAt m (a + 2) 20 from rfl]
    split
    · rw [Nat.add_assoc a 1 21, show k - 21 = k + 1 - 22 by omega]
    split
    swap
    · rfl
    rw [Nat.add_assoc a 1 21]
    show (match bytesAt m (a + 22) (k - 21) with | l :: r => _ | [] => _) = _
    by_cases h2 : k = 21
    · subst h2
      rw [if_neg (by omega)]
      rfl
    · obtain ⟨j, hj⟩ : ∃ j, k - 21 = j + 1 := ⟨k - 22, by omega⟩
      rw [hj, show bytesAt m (a + 22) (j + 1) = m.byte (a + 22) :: bytesAt m (a + 23) j from rfl]
      simp only
      rw [takeN_bytes]
      by_cases h3 : (m.byte (a + 22)).toNat + 23 ≤ k + 1
      · rw [if_pos h3, if_pos (by omega), bind_ok]
        rw [show j = k + 1 - 23 by omega]
      · rw [if_neg h3, if_neg (by omega)]; rfl

theorem des_principal {ol el rl n lo : Nat} {o e r : BitVec 32} {stk loc : List Val} {g : Store σ}
    (H : Din ol el rl n lo o e r 22 loc g) (hn : n + 4 ≤ loc.length)
    (hdev : decode .principal (input g.mem o e) ≠ .deviates) :
    DSteps M (desPrincipal ol el rl n).is .principal (decode .principal (input g.mem o e)) ol rl n lo e r 22 stk loc g := by
  obtain ⟨vo, ve, vr, h1, h2, h3, h4, h5, h6, h7, h8, h9, h10, h11, h12⟩ := H
  have H := Din.mk vo ve vr h1 h2 h3 h4 h5 h6 h7 h8 h9 h10 h11 h12
  have e1 : (o + 1#32).toNat = o.toNat + 1 := add_k (k := 1) (by omega)
  have e22 : (o + 22#32).toNat = o.toNat + 22 := add_k (k := 22) (by omega)
  have r22 : (r + 22#32).toNat = r.toNat + 22 := add_k (k := 22) (by omega)
  have hD : decode .principal (input g.mem o e) = (decodePrincipal (input g.mem o e)).bind
    fun p r => .val (.principal p) r := by simp only [decode]
  rw [input, decode_princ, ← input] at hD
  generalize decode .principal (input g.mem o e) = D at *
  apply DSteps.of_wp
  unfold desPrincipal incr plus lget lset c32 load8 PRINCIPAL_BYTES STANDARD_PRINCIPAL_BYTES PRINCIPAL_BYTES
  simp only [List.cons_append, List.nil_append]
  wpl [vo, ve, vr, e22]
  by_cases hc : 22 ≤ e.toNat - o.toNat
  swap
  · rw [if_neg hc] at hD
    subst hD
    wif (show e.toNat < o.toNat + 22 by omega)
    exact DTo.fail H [.i32 0#32, .i32 0#32] rfl rfl Keep.refl vo vr
  rw [if_pos hc] at hD
  wif (show ¬ e.toNat < o.toNat + 22 by omega)
  have b5 := byte_eq (m := g.mem) (a := o.toNat) (t := 0x05#8) (w := 5#32) rfl
  have b6 := byte_eq (m := g.mem) (a := o.toNat) (t := 0x06#8) (w := 6#32) rfl
  by_cases t5 : g.mem.byte o.toNat = 0x05#8
  · rw [if_pos t5] at hD
    wif (b5.2 t5)
    rw [wp_memCopy (by rw [e1]; simp; omega) (by simp; omega)]
    wpl [vo, vr]
    rw [wp_i32store (by rw [mem_setMem, size_copy]; omega)]
    wpl [vo, vr]
    by_cases hv : (g.mem.byte (o.toNat + 1)).toNat < 32
    swap
    · rw [if_neg hv] at hD
      exact absurd hD hdev
    rw [if_pos hv, bind_ok] at hD
    subst hD
    have A := wrote_copy g.mem r.toNat (o.toNat + 1) (bytesAt g.mem (o.toNat + 1) 21) (by rw [Wasm.length_bytesAt])
    rw [Wasm.length_bytesAt] at A
    have B := A.append (wrote_byte _ (r.toNat + 21) 0) (by rw [Wasm.length_bytesAt])
    rw [mem_setMem, setMem2, e1]
    refine ⟨1#32, [.i32 r, .i32 22#32], _, _, o + 22#32, r + 22#32, rfl, ?_, ?_, ?_, ?_, ?_, B.size, ?_, rfl, ?_, ?_⟩
    · exact ((((Keep.refl.set (.inl (by omega))).set (.inl (by omega))).set (.inr (by simp))).set (.inr (by simp)))
    · wpl
    · wpl
    · omega
    · omega
    · intro i hi
      refine B.rest i ?_
      simp [Wasm.length_bytesAt]; omega
    · rw [e22, Wasm.length_bytesAt]; omega
    · simp only [Rep, HasType, memBytes]
      refine ⟨⟨hv, by rw [Wasm.length_bytesAt]⟩, r, 22#32, rfl, ?_, ?_, ?_⟩
      · simp [principalBytes, Wasm.length_bytesAt]
      · refine ⟨?_, ?_⟩
        · show _ ≤ (r + 22#32).toNat
          simp [principalBytes, Wasm.length_bytesAt, r22]
        · intro i hi _ hh
          have := hh.2
          omega
      · exact B.here
  rw [if_neg t5] at hD
  wif (mt b5.1 t5)
  by_cases t6 : g.mem.byte o.toNat = 0x06#8
  swap
  · rw [if_neg t6] at hD
    subst hD
    wif (mt b6.1 t6)
    refine DTo.fail (o' := o) H [.i32 0#32, .i32 0#32] rfl rfl (Keep.refl.set (.inl (by omega))) ?_ ?_
    · wpl [vo]
    · wpl [vr]
  rw [if_pos t6] at hD
  wif (b6.2 t6)
  have hr22 : g.mem.read (o.toNat + 22) 1 = (g.mem.byte (o.toNat + 22)).toNat := by simp [Mem.read]
  rw [hr22]
  have hlt := (g.mem.byte (o.toNat + 22)).isLt
  obtain ⟨l, hl⟩ : ∃ l : BitVec 32, l = BitVec.ofNat 32 (g.mem.byte (o.toNat + 22)).toNat := ⟨_, rfl⟩
  have el' : l.toNat = (g.mem.byte (o.toNat + 22)).toNat := by rw [hl, BitVec.toNat_ofNat]; omega
  rw [← el'] at hD hlt
  rw [← hl]
  have elo : (l + o + 23#32).toNat = o.toNat + l.toNat + 23 := by
    rw [BitVec.toNat_add, BitVec.toNat_add, BitVec.toNat_ofNat]; omega
  have el2 : (l + 22#32).toNat = l.toNat + 22 := add_k (k := 22) (by omega)
  rw [elo]
  by_cases hq : l.toNat + 23 ≤ e.toNat - o.toNat
  swap
  · rw [if_neg hq] at hD
    subst hD
    wif (show e.toNat < o.toNat + l.toNat + 23 by omega)
    refine DTo.fail (o' := o) H [.i32 0#32, .i32 0#32] rfl rfl
      (((Keep.refl.set (.inl (by omega))).set (.inl (by omega))).set (.inl (by omega))) ?_ ?_
    · wpl [vo]
    · wpl [vr]
  rw [if_pos hq] at hD
  wif (show ¬ e.toNat < o.toNat + l.toNat + 23 by omega)
  by_cases hv : (g.mem.byte (o.toNat + 1)).toNat < 32 ∧ contractNameOkB (bytesAt g.mem (o.toNat + 23) l.toNat)
  swap
  · rw [if_neg hv] at hD
    exact absurd hD hdev
  rw [if_pos hv, bind_ok] at hD
  subst hD
  refine DTo.done (o' := l + o + 23#32) H [.i32 (o + 1#32), .i32 (l + 22#32)] rfl
    ((((Keep.refl.set (.inl (by omega))).set (.inl (by omega))).set (.inl (by omega))).set (.inr (by simp))) ?_ ?_ ?_ ?_
  · wpl
  · wpl [vr]
  · rw [elo, Wasm.length_bytesAt]; omega
  · simp only [Rep, HasType, memBytes]
    have hlen : (principalBytes (.contract ⟨⟨g.mem.byte (o.toNat + 1), bytesAt g.mem (o.toNat + 2) 20⟩,
        bytesAt g.mem (o.toNat + 23) l.toNat⟩)).length = l.toNat + 22 := by
      simp [principalBytes, Wasm.length_bytesAt]; omega
    refine ⟨⟨⟨hv.1, by rw [Wasm.length_bytesAt]⟩, contractNameOkB_iff.1 hv.2⟩, _, _, rfl, ?_, ?_, ?_⟩
    · rw [el2, hlen]
    · rw [hlen, e1]
      exact dreg_has (by omega) (by omega) (by omega) (Nat.le_refl _)
    · rw [hlen, e1, show l.toNat + 22 = 1 + (20 + (1 + l.toNat)) by omega, bytesAt_add, bytesAt_add, bytesAt_add]
      simp only [principalBytes, Nat.add_assoc, Nat.reduceAdd, Wasm.length_bytesAt, List.cons_append]
      have : BitVec.ofNat 8 l.toNat = g.mem.byte (o.toNat + 22) := by
        rw [el', BitVec.ofNat_toNat, BitVec.setWidth_eq]
      rw [this]
      rfl

theorem beBytes4_be (m : Mem) (a : Nat) : beBytes4 (beNat (bytesAt m a 4)) = bytesAt m a 4 := by
  have h0 := (m.byte a).isLt
  have h1 := (m.byte (a + 1)).isLt
  have h2 := (m.byte (a + 2)).isLt
  have h3 := (m.byte (a + 3)).isLt
  simp only [bytesAt, beNat, List.foldl, beBytes4, Nat.add_assoc, Nat.reduceAdd]
  congr 1 <;> [skip; congr 1 <;> [skip; congr 1 <;> [skip; congr 1]]]
  all_goals
    apply BitVec.eq_of_toNat_eq
    rw [BitVec.toNat_ofNat]
    omega

theorem bytes_scalarsAt {m : Mem} {o : Nat} : ∀ {cs : List Nat}, scalarsAt m o cs.length = cs →
    bytesAt m o (cs.flatMap beBytes4).length = cs.flatMap beBytes4
  | [], _ => rfl
  | c :: cs, h => by
    rw [List.length_cons, scalarsAt] at h
    injection h with h1 h2
    rw [List.flatMap_cons, List.length_append, bytesAt_add, show (beBytes4 c).length = 4 from rfl]
    rw [bytes_scalarsAt h2, ← beBytes4_be, h1]

theorem utf8_runs (o l out ml : BitVec 32) {g : Store σ} (ho : o.toNat + 4 * ml.toNat ≤ g.mem.size)
    (hsz : g.mem.size < 2 ^ 32) (hml : ml.toNat < 2 ^ 31) (hout : out.toNat + 4 * ml.toNat ≤ g.mem.size) :
    ∃ m' ok a k, Wasm.Same g.mem m' out.toNat (4 * ml.toNat) ∧ (4 * ml.toNat < l.toNat → ok = 0#32) ∧
      Runs M (.std .utf8_to_string_utf8) [.i32 o, .i32 l, .i32 out, .i32 ml] g
        (.ret [.i32 ok, .i32 a, .i32 k] (g.setMem m')) ∧
      (o.toNat + l.toNat ≤ out.toNat → DecRes o l out ml.toNat g (.ret [.i32 ok, .i32 a, .i32 k] (g.setMem m'))) := by
  obtain ⟨n, r, h1, h2, m', ok, a, k, h3, rfl, h4⟩ := utf8_to_string_total (M := M) o l out ml ho hsz hml hout
  have hr := (runs_iff_call h2).2 ⟨n, _, h1, h2, rfl⟩
  refine ⟨m', ok, a, k, h3, h4, hr, fun hd => ?_⟩
  exact (call_of_runs hr h2).1 (utf8_to_string_core o l out ml (by omega) hsz hml hout (.inl hd))

theorem decode_utf8 {max : Nat} {m : Mem} {a k : Nat} :
    decode (.utf8 max) (bytesAt m a k) =
      if 5 ≤ k ∧ m.byte a = 0x0e#8 ∧ beNat (bytesAt m (a + 1) 4) + 5 ≤ k then
        match utf8Decode max (asciiAt m (a + 5) (beNat (bytesAt m (a + 1) 4))) with
        | .some cs => .val (.utf8 cs)
            (bytesAt m (a + 5 + beNat (bytesAt m (a + 1) 4)) (k - 5 - beNat (bytesAt m (a + 1) 4)))
        | .none => .bad
      else .bad := by
  simp only [decode]
  rw [tagged_bytes, takeLen_bytes]
  generalize beNat (bytesAt m (a + 1) 4) = l
  by_cases h1 : 5 ≤ k
  swap
  · rw [if_neg (c := 5 ≤ k ∧ _) (fun h => h1 h.1)]
    split
    · rw [if_neg (by omega)]; rfl
    · rfl
  split
  swap
  · next h => rw [if_neg (fun h' => h ⟨by omega, h'.2.1⟩)]
  next h =>
  rw [if_pos (by omega), bind_ok, takeN_bytes]
  by_cases h3 : l + 5 ≤ k
  swap
  · rw [if_neg (by omega), if_neg (fun h' => h3 h'.2.2)]; rfl
  rw [if_pos (by omega), bind_ok, Nat.add_assoc a 1 4, Nat.sub_sub k 1 4, if_pos ⟨h1, h.2, h3⟩]
  rfl

theorem des_utf8 {max ol el rl n lo : Nat} {o e r : BitVec 32} {stk loc : List Val} {g : Store σ}
    (H : Din ol el rl n lo o e r (max * 4) loc g) (hn : n + 1 ≤ loc.length) :
    DSteps M (desUtf8 max ol el rl n).is (.utf8 max) (decode (.utf8 max) (input g.mem o e)) ol rl n lo e r (max * 4)
      stk loc g := by
  obtain ⟨vo, ve, vr, h1, h2, h3, h4, h5, h6, h7, h8, h9, h10, h11, h12⟩ := H
  have H := Din.mk vo ve vr h1 h2 h3 h4 h5 h6 h7 h8 h9 h10 h11 h12
  have e5 : (o + 5#32).toNat = o.toNat + 5 := add_k (k := 5) (by omega)
  have e1 : (o + 1#32).toNat = o.toNat + 1 := add_k (k := 1) (by omega)
  have hD := decode_utf8 (max := max) (m := g.mem) (a := o.toNat) (k := e.toNat - o.toNat)
  rw [← input] at hD
  generalize decode (.utf8 max) (input g.mem o e) = D at *
  apply DSteps.of_wp
  unfold desUtf8 incr plus lget lset c32 load8
  simp only [List.cons_append, List.nil_append]
  wpl [vo, ve, vr, e5]
  have bt := byte_eq (m := g.mem) (a := o.toNat) (t := 0x0e#8) (w := 14#32) rfl
  by_cases hc : o.toNat + 5 ≤ e.toNat ∧ g.mem.byte o.toNat = 0x0e#8
  swap
  · rw [if_neg (fun h => hc ⟨by omega, h.2.1⟩)] at hD
    subst hD
    rw [if_pos (fun h => hc ⟨h.1, bt.1 h.2⟩)]
    exact DTo.fail H [.i32 0#32, .i32 0#32] rfl rfl Keep.refl vo vr
  rw [if_neg (fun h => h ⟨hc.1, bt.2 hc.2⟩)]
  obtain ⟨hc, ht⟩ := hc
  rw [wp_loadLen (by omega), e1]
  obtain ⟨l, hl⟩ : ∃ l : BitVec 32, l = BitVec.ofNat 32 (beNat (bytesAt g.mem (o.toNat + 1) 4)) := ⟨_, rfl⟩
  have el' : l.toNat = beNat (bytesAt g.mem (o.toNat + 1) 4) := by
    have := beNat_lt (bytesAt g.mem (o.toNat + 1) 4)
    rw [Wasm.length_bytesAt] at this
    rw [hl, BitVec.toNat_ofNat]; omega
  rw [← el'] at hD
  rw [← hl]
  have hmx : (BitVec.ofNat 32 max).toNat = max := by rw [BitVec.toNat_ofNat]; omega
  have hm4 : (BitVec.ofNat 32 (max * 4)).toNat = max * 4 := by rw [BitVec.toNat_ofNat]; omega
  wpl [vo, ve, vr]
  by_cases hq : (l + (o + 5#32)).toNat ≤ e.toNat
  swap
  · have : ¬ l.toNat + 5 ≤ e.toNat - o.toNat := by
      intro hh
      rw [BitVec.toNat_add] at hq
      omega
    rw [if_neg (fun h => this h.2.2)] at hD
    subst hD
    wif hq
    refine DTo.fail (o' := o + 5#32) H [.i32 0#32, .i32 0#32] rfl rfl
      ((Keep.refl.set (.inl (by omega))).set (.inr (by simp))) ?_ ?_
    · wpl
    · wpl [vr]
  wif hq
  obtain ⟨m', ok, a, k, hs, hbig, hrun, hdec⟩ := utf8_runs (M := M) (o + 5#32) l r (BitVec.ofNat 32 max) (g := g)
    (by omega) (by omega) (by omega) (by omega)
  refine (wp_call_runs (args := [.i32 (o + 5#32), .i32 l, .i32 r, .i32 (BitVec.ofNat 32 max)])
    (ps := [.i32, .i32, .i32, .i32]) (rs := [.i32, .i32, .i32]) rfl rfl hrun (by simp)).2 ?_
  rw [callK_ret]
  wpl [vo, ve, vr]
  rw [hmx] at hs hbig hdec
  have er' : (r + BitVec.ofNat 32 (max * 4)).toNat = r.toNat + max * 4 := add_k (by omega)
  refine ⟨ok, [.i32 a, .i32 k], _, m', o + 5#32 + l, r + BitVec.ofNat 32 (max * 4), rfl,
    (((Keep.refl.set (.inl (by omega))).set (.inr (by simp))).set (.inr (by simp))).set (.inr (by simp)), ?_, ?_,
    by omega, by omega, hs.1, fun i hi => hs.2 i (by omega), ?_⟩
  · wpl
  · wpl
  · by_cases hl5 : l.toNat + 5 ≤ e.toNat - o.toNat
    swap
    · rw [if_neg (fun h => hl5 h.2.2)] at hD
      subst hD
      refine ⟨hbig ?_, rfl⟩
      rw [BitVec.toNat_add] at hq
      omega
    · rw [if_pos ⟨by omega, ht, hl5⟩, ← e5] at hD
      obtain ⟨m2, hs2, hh | hh⟩ := hdec (by omega)
      · obtain ⟨cs, hwf, hsc, hret⟩ := hh
        rw [utf8Decode_some.2 hwf] at hD
        simp only at hD
        subst hD
        simp only [CRes.ret.injEq, List.cons.injEq, Val.i32.injEq, and_true] at hret
        obtain ⟨⟨rfl, rfl, rfl⟩, hm⟩ := hret
        have hm := congrArg Store.mem hm
        rw [mem_setMem, mem_setMem] at hm
        subst hm
        have hcl := hwf.2.2
        have hfl : (cs.flatMap beBytes4).length = 4 * cs.length := by rw [flatMap4_length]; omega
        refine ⟨rfl, ?_, ?_⟩
        · rw [BitVec.toNat_add, Wasm.length_bytesAt]
          omega
        · simp only [Rep, HasType, memBytes]
          refine ⟨⟨hcl, hwf.1⟩, _, _, rfl, ?_, ?_, ?_⟩
          · rw [hfl, BitVec.toNat_ofNat]; omega
          · rw [hfl]
            refine ⟨?_, ?_⟩
            · show _ ≤ (a + BitVec.ofNat 32 (max * 4)).toNat
              omega
            · intro i hi _ hh
              have := hh.2
              omega
          · exact bytes_scalarsAt hsc
      · obtain ⟨hno, hret⟩ := hh
        have hnone : utf8Decode max (asciiAt g.mem (o + 5#32).toNat l.toNat) = none := by
          cases hu : utf8Decode max (asciiAt g.mem (o + 5#32).toNat l.toNat) with
          | none => rfl
          | some cs => exact absurd (utf8Decode_some.1 hu) (hno cs)
        rw [hnone] at hD
        simp only at hD
        subst hD
        rcases hret with hret | hret
        · simp only [CRes.ret.injEq, List.cons.injEq, Val.i32.injEq, and_true] at hret
          exact ⟨hret.1.1, rfl⟩
        · simp at hret

end Gen
