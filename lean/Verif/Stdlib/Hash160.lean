import Verif.Stdlib.Sha256
import Verif.Spec.Ripemd160

/-! Runtime library: hash160 (standard.wat 1824-2010). -/

namespace Wasm
open Spec
variable {σ : Type} {M : Mod σ} {is : List Instr} {stk loc : List Val} {g : Store σ}
  {Q : Res σ → Prop}

/-- The five Boolean functions, called through the table. -/
theorem wp_hash160_f (j : BitVec 32) (hj : j.toNat < 5) (x y z k : BitVec 32) :
    WP M (.callIndirect [.i32, .i32, .i32, .i32] [.i32] :: is)
      (.i32 j :: .i32 k :: .i32 z :: .i32 y :: .i32 x :: stk) loc g Q ↔
      WP M is (.i32 (Ripemd.f j.toNat x y z + k) :: stk) loc g Q := by
  have key : ∀ (s : StdFn) (hs : M.sig (.std s) = some ([.i32, .i32, .i32, .i32], [.i32]))
      (ht : stdTable j.toNat = some (.std s))
      (hr : Runs M (.std s) [.i32 x, .i32 y, .i32 z, .i32 k] g (.ret [.i32 (Ripemd.f j.toNat x y z + k)] g)),
      (WP M (.callIndirect [.i32, .i32, .i32, .i32] [.i32] :: is)
        (.i32 j :: .i32 k :: .i32 z :: .i32 y :: .i32 x :: stk) loc g Q ↔
        WP M is (.i32 (Ripemd.f j.toNat x y z + k) :: stk) loc g Q) := by
    intro s hs ht hr
    rw [wp_callIndirect ht hs]
    exact wp_call_runs (args := [.i32 x, .i32 y, .i32 z, .i32 k]) (stk := stk) hs rfl hr (by simp)
  have hx : ∀ x : BitVec 32, x ^^^ 4294967295#32 = ~~~x := fun x => by
    rw [show 4294967295#32 = BitVec.allOnes 32 from rfl, BitVec.xor_allOnes]
  generalize j.toNat = n at *
  match n, hj with
  | 0, _ =>
    refine key .hash160_f1 rfl rfl (runs_std (by simp) ?_)
    wpx [stdFunc, Std.hash160_f1, Std.hash160_f1_body, hx]
    rfl
  | 1, _ =>
    refine key .hash160_f2 rfl rfl (runs_std (by simp) ?_)
    wpx [stdFunc, Std.hash160_f2, Std.hash160_f2_body, hx]
    rfl
  | 2, _ =>
    refine key .hash160_f3 rfl rfl (runs_std (by simp) ?_)
    wpx [stdFunc, Std.hash160_f3, Std.hash160_f3_body, hx]
    rfl
  | 3, _ =>
    refine key .hash160_f4 rfl rfl (runs_std (by simp) ?_)
    wpx [stdFunc, Std.hash160_f4, Std.hash160_f4_body, hx]
    rfl
  | 4, _ =>
    refine key .hash160_f5 rfl rfl (runs_std (by simp) ?_)
    wpx [stdFunc, Std.hash160_f5, Std.hash160_f5_body, hx]
    rfl

/-- The tables of the two lines in memory. -/
structure Tables (m : Mem) : Prop where
  r : ∀ k < 80, m.byte (288 + k) = BitVec.ofNat 8 (Ripemd.r (k / 16) (k % 16))
  r' : ∀ k < 80, m.byte (368 + k) = BitVec.ofNat 8 (Ripemd.r' (k / 16) (k % 16))
  s : ∀ k < 80, m.byte (448 + k) = BitVec.ofNat 8 (Ripemd.s (k / 16) (Ripemd.r (k / 16) (k % 16)))
  s' : ∀ k < 80, m.byte (528 + k) = BitVec.ofNat 8 (Ripemd.s (k / 16) (Ripemd.r' (k / 16) (k % 16)))
  K : Words 4 32 m 608 Ripemd.K
  K' : Words 4 32 m 628 Ripemd.K'

theorem rip_bounds : ∀ k < 80, Ripemd.r (k / 16) (k % 16) < 16 ∧ Ripemd.r' (k / 16) (k % 16) < 16 ∧
    Ripemd.s (k / 16) (Ripemd.r (k / 16) (k % 16)) < 32 ∧
    Ripemd.s (k / 16) (Ripemd.r' (k / 16) (k % 16)) < 32 := by decide +kernel

theorem rd1 {m : Mem} {a v : Nat} (h : m.byte a = BitVec.ofNat 8 v) (hv : v < 256) : m.read a 1 = v := by
  simp only [Mem.read, h, BitVec.toNat_ofNat]; omega

/-- The state of a line after `k` steps. -/
def lineAfter (F : Ripemd.Line → Nat → Ripemd.Line) (k : Nat) : Ripemd.Line :=
  (List.range k).foldl F Ripemd.init

theorem lineAfter_succ (F : Ripemd.Line → Nat → Ripemd.Line) (k : Nat) :
    lineAfter F (k + 1) = F (lineAfter F k) k := by
  simp only [lineAfter, List.range_succ, List.foldl_append, List.foldl]

theorem bytesAt_write_le (m : Mem) (a k v : Nat) : bytesAt (m.write a k v) a k = Sha2.leBytes k v := by
  apply bytesAt_le
  intro i hi
  simp only [Mem.write]
  rw [if_pos (by omega)]
  congr 3; omega

theorem call_hash160_compress (out : BitVec 32)
    (hsp : (g.g32 .stackPointer).toNat + 64 ≤ g.mem.size) (h0 : 648 ≤ g.mem.size)
    (hout : out.toNat + 20 ≤ g.mem.size) (hT : Tables g.mem) :
    Call M (.std .hash160_compress) [.i32 out] g fun r => ∃ m', r = .ret [] (g.setMem m') ∧
      Same g.mem m' out.toNat 20 ∧
      bytesAt m' out.toNat 20 = (Ripemd.compress Ripemd.init fun i =>
        BitVec.ofNat 32 (g.mem.read ((g.g32 .stackPointer).toNat + 4 * i) 4)).toList.flatMap
          fun x => Sha2.leBytes 4 x.toNat := by
  rw [call_std]
  have hle := g.mem.le
  generalize hspe : g.g32 .stackPointer = sp at *
  generalize hX : (fun i => BitVec.ofNat 32 (g.mem.read (sp.toNat + 4 * i) 4)) = X
  have hXi : ∀ i, BitVec.ofNat 32 (g.mem.read (sp.toNat + 4 * i) 4) = X i := fun i => by rw [← hX]
  rw [show (stdFunc .hash160_compress).body = Std.hash160_compress_body.take 23 ++
    Std.hash160_compress_body.drop 23 from rfl, wp_append]
  generalize hTl : Std.hash160_compress_body.drop 23 = T
  wpm [stdFunc, Std.hash160_compress, Std.hash160_compress_body]
  refine wp_loop_inv (fun n loc g' => ∃ k rd, n + k = 80 ∧ g' = g ∧
    loc = [.i32 out, .i32 0x67452301#32, .i32 0xEFCDAB89#32, .i32 0x98BADCFE#32, .i32 0x10325476#32,
      .i32 0xC3D2E1F0#32,
      .i32 (lineAfter (Ripemd.left X) k).a, .i32 (lineAfter (Ripemd.left X) k).b,
      .i32 (lineAfter (Ripemd.left X) k).c, .i32 (lineAfter (Ripemd.left X) k).d,
      .i32 (lineAfter (Ripemd.left X) k).e,
      .i32 (lineAfter (Ripemd.right X) k).a, .i32 (lineAfter (Ripemd.right X) k).b,
      .i32 (lineAfter (Ripemd.right X) k).c, .i32 (lineAfter (Ripemd.right X) k).d,
      .i32 (lineAfter (Ripemd.right X) k).e,
      .i32 (BitVec.ofNat 32 k), .i32 rd] ∧ 0 < n) id 80
    ⟨0, _, rfl, rfl, rfl, by omega⟩ ?_
  rintro n loc g' ⟨k, rd, hk, rfl, rfl, hn⟩
  have hk80 : k < 80 := by omega
  obtain ⟨b1, b2, b3, b4⟩ := rip_bounds k hk80
  have e1 : (BitVec.ofNat 32 k >>> 4) = BitVec.ofNat 32 (k / 16) := by
    apply BitVec.eq_of_toNat_eq
    rw [BitVec.toNat_ushiftRight, BitVec.toNat_ofNat, BitVec.toNat_ofNat, Nat.shiftRight_eq_div_pow]; omega
  have e2 : (BitVec.ofNat 32 (k / 16) <<< 2).toNat = 4 * (k / 16) := by
    rw [BitVec.toNat_shiftLeft, BitVec.toNat_ofNat, Nat.shiftLeft_eq]; omega
  have e3 : (BitVec.ofNat 32 k).toNat = k := by rw [BitVec.toNat_ofNat]; omega
  have e4 : BitVec.ofNat 32 k + 1#32 = BitVec.ofNat 32 (k + 1) := by rw [BitVec.ofNat_add]
  have e5 : (BitVec.ofNat 32 (k + 1)).toNat = k + 1 := by rw [BitVec.toNat_ofNat]; omega
  have e6 : (BitVec.ofNat 32 (k / 16)).toNat = k / 16 := by rw [BitVec.toNat_ofNat]; omega
  have e7 : (4#32 - BitVec.ofNat 32 (k / 16)).toNat = 4 - k / 16 := by
    rw [BitVec.toNat_sub, e6]; simp; omega
  have t1 := rd1 ((congrArg _ (Nat.add_comm k _)).trans (hT.r k hk80)) (by omega)
  have t2 := rd1 ((congrArg _ (Nat.add_comm k _)).trans (hT.r' k hk80)) (by omega)
  have t3 := rd1 ((congrArg _ (Nat.add_comm k _)).trans (hT.s k hk80)) (by omega)
  have t4 := rd1 ((congrArg _ (Nat.add_comm k _)).trans (hT.s' k hk80)) (by omega)
  have k1 := getD_words hT.K (k / 16) (by simp [Ripemd.K]; omega) (b := 4 * (k / 16) + 608) (by omega)
  have k2 := getD_words hT.K' (k / 16) (by simp [Ripemd.K']; omega) (b := 4 * (k / 16) + 628) (by omega)
  have hl := lineAfter_succ (Ripemd.left X) k
  have hr := lineAfter_succ (Ripemd.right X) k
  have x1 := hXi (Ripemd.r (k / 16) (k % 16))
  have x2 := hXi (Ripemd.r' (k / 16) (k % 16))
  simp only [Ripemd.left, Ripemd.right, Ripemd.step] at hl hr
  generalize Ripemd.r (k / 16) (k % 16) = r1 at *
  generalize Ripemd.r' (k / 16) (k % 16) = r2 at *
  generalize Ripemd.s (k / 16) r1 = s1 at *
  generalize Ripemd.s (k / 16) r2 = s2 at *
  have e8 : ∀ r, r < 16 → (sp + BitVec.ofNat 32 r <<< 2).toNat = sp.toNat + 4 * r := by
    intro r hr
    have : (BitVec.ofNat 32 r <<< 2).toNat = 4 * r := by
      rw [BitVec.toNat_shiftLeft, BitVec.toNat_ofNat, Nat.shiftLeft_eq]; omega
    rw [toNat_add_of_lt (by omega), this]
  have a1 := e8 r1 b1
  have a2 := e8 r2 b2
  have s1' : (BitVec.ofNat 32 s1).toNat = s1 := by rw [BitVec.toNat_ofNat]; omega
  have s2' : (BitVec.ofNat 32 s2).toNat = s2 := by rw [BitVec.toNat_ofNat]; omega
  have tail : ∀ (l q : Ripemd.Line) (i rd : BitVec 32), WP M T [] [.i32 out, .i32 0x67452301#32, .i32 0xEFCDAB89#32,
      .i32 0x98BADCFE#32, .i32 0x10325476#32, .i32 0xC3D2E1F0#32, .i32 l.a, .i32 l.b, .i32 l.c, .i32 l.d,
      .i32 l.e, .i32 q.a, .i32 q.b, .i32 q.c, .i32 q.d, .i32 q.e, .i32 i, .i32 rd] g'
      (fun r => ∃ m', Res.toCall 0 r = .ret [] (g'.setMem m') ∧ Same g'.mem m' out.toNat 20 ∧
        bytesAt m' out.toNat 20 = (⟨Ripemd.init.b + l.c + q.d, Ripemd.init.c + l.d + q.e,
          Ripemd.init.d + l.e + q.a, Ripemd.init.e + l.a + q.b, Ripemd.init.a + l.b + q.c⟩ :
            Ripemd.Line).toList.flatMap fun x => Sha2.leBytes 4 x.toNat) := by
    intro l q i rd
    rw [← hTl]
    wpm [Std.hash160_compress_body, List.drop]
    refine ⟨_, rfl, ?_, ?_⟩
    · repeat refine Same.wr ?_ (by omega) (by omega)
      exact Same.refl ..
    · simp only [Ripemd.Line.toList, List.flatMap_cons, List.flatMap_nil, List.append_nil]
      rw [show (20 : Nat) = 4 + (4 + (4 + (4 + 4))) from rfl, bytesAt_add, bytesAt_add, bytesAt_add, bytesAt_add]
      simp only [Nat.add_assoc, Nat.reduceAdd]
      rw [bytesAt_write_le]
      rw [bytesAt_same (same_write ..) (by omega), bytesAt_same (same_write ..) (by omega),
        bytesAt_same (same_write ..) (by omega), bytesAt_same (same_write ..) (by omega), bytesAt_write_le]
      rw [bytesAt_same (same_write ..) (by omega), bytesAt_same (same_write ..) (by omega),
        bytesAt_same (same_write ..) (by omega), bytesAt_write_le]
      rw [bytesAt_same (same_write ..) (by omega), bytesAt_same (same_write ..) (by omega), bytesAt_write_le]
      rw [bytesAt_same (same_write ..) (by omega), bytesAt_write_le]
      rfl
  wpm [e1, e2, e3, e4, e5, e6, e7, t1, t2, t3, t4, k1, k2, hspe, a1, a2, x1, x2, s1', s2', wp_hash160_f]
  have er : ∀ a b c d : BitVec 32, a + (b + c) + d = a + b + d + c := by
    intro a b c d
    rw [← BitVec.add_assoc, BitVec.add_assoc (a + b) c d, BitVec.add_comm c d, ← BitVec.add_assoc]
  rw [Nat.mod_eq_of_lt b3, Nat.mod_eq_of_lt b4, er, er]
  split
  · have hk1 : k + 1 = 80 := by omega
    have := tail (lineAfter (Ripemd.left X) (k + 1)) (lineAfter (Ripemd.right X) (k + 1))
      (BitVec.ofNat 32 (k + 1)) (BitVec.ofNat 32 (k / 16))
    have hl80 : (List.range 80).foldl (Ripemd.left X) Ripemd.init = lineAfter (Ripemd.left X) (k + 1) := by
      rw [hk1]; rfl
    have hr80 : (List.range 80).foldl (Ripemd.right X) Ripemd.init = lineAfter (Ripemd.right X) (k + 1) := by
      rw [hk1]; rfl
    simp only [Ripemd.compress]
    rw [hl80, hr80]
    rw [hl, hr] at this ⊢
    exact this
  · refine ⟨n - 1, by simp only [id]; omega, k + 1, BitVec.ofNat 32 (k / 16), by omega, trivial, ?_, by omega⟩
    rw [hl, hr]

/-- The memory after padding a digest of 32 bytes. -/
def rpad (m : Mem) (sp : Nat) : Mem :=
  ((m.write (sp + 32) 8 128).fill (sp + 40) 0#8 16).write (sp + 56) 8 256

theorem same_rpad (m : Mem) (sp : Nat) : Same m (rpad m sp) (sp + 32) 32 := by
  refine ⟨rfl, fun i hi => ?_⟩
  simp only [rpad, Mem.write, Mem.fill]
  rw [if_neg (by omega), if_neg (by omega), if_neg (by omega)]

theorem bytesAt_rpad (m : Mem) (sp : Nat) (d : List Byte) (hd : bytesAt m sp 32 = d) :
    bytesAt (rpad m sp) sp 64 = Ripemd.pad d := by
  have hl : d.length = 32 := by rw [← hd, length_bytesAt]
  rw [Ripemd.pad, hl, show (64 : Nat) = 32 + (8 + (16 + 8)) from rfl, bytesAt_add, bytesAt_add, bytesAt_add,
    bytesAt_same (same_rpad m sp) (by omega), hd]
  simp only [rpad, Nat.add_assoc, Nat.reduceAdd]
  rw [bytesAt_write_le, bytesAt_same (same_write ..) (by omega), bytesAt_same (same_write ..) (by omega),
    bytesAt_fill, bytesAt_same (same_fill ..) (by omega), bytesAt_write_le]
  rw [List.append_assoc, List.append_assoc]
  congr 1

theorem runs_hash160_pad (hsp : (g.g32 .stackPointer).toNat + 64 ≤ g.mem.size) :
    Runs M (.std .hash160_pad) [] g (.ret [] (g.setMem (rpad g.mem (g.g32 .stackPointer).toNat))) := by
  apply runs_std (by simp)
  have hle := g.mem.le
  generalize hspe : g.g32 .stackPointer = sp at *
  have e1 : (sp + 40#32).toNat = sp.toNat + 40 := toNat_add_of_lt (by simp; omega)
  wpm [stdFunc, Std.hash160_pad, Std.hash160_pad_body, hspe, e1]
  rfl

theorem Tables.same {m m' : Mem} {o n : Nat} (h : Tables m) (hs : Same m m' o n) (ho : 648 ≤ o) :
    Tables m' :=
  ⟨fun k hk => (hs.2 _ (by omega)).trans (h.r k hk), fun k hk => (hs.2 _ (by omega)).trans (h.r' k hk),
    fun k hk => (hs.2 _ (by omega)).trans (h.s k hk), fun k hk => (hs.2 _ (by omega)).trans (h.s' k hk),
    h.K.same hs (.inl (by simp [Ripemd.K]; omega)), h.K'.same hs (.inl (by simp [Ripemd.K']; omega))⟩

theorem digest_one (d : List Byte) (hl : d.length = 32) :
    Ripemd.digest d = (Ripemd.compress Ripemd.init (Ripemd.word (Ripemd.pad d))).toList.flatMap
      fun x => Sha2.leBytes 4 x.toNat := by
  have : (Ripemd.pad d).length / 64 = 1 := by
    simp [Ripemd.pad, hl, length_leBytes]
  rw [Ripemd.digest, this]
  simp [Ripemd.hashBlocks]

theorem foldl_congr_range {α : Type} (F G : α → Nat → α) (n : Nat) (h : ∀ a i, i < n → F a i = G a i) (x : α) :
    (List.range n).foldl F x = (List.range n).foldl G x := by
  induction n with
  | zero => rfl
  | succ n ih =>
    rw [List.range_succ, List.foldl_append, List.foldl_append, ih fun a i hi => h a i (by omega)]
    exact h _ _ (by omega)

/-- Only sixteen words matter. -/
theorem compress_congr (X Y : Nat → BitVec 32) (h : ∀ i < 16, X i = Y i) (v : Ripemd.Line) :
    Ripemd.compress v X = Ripemd.compress v Y := by
  have hl : (List.range 80).foldl (Ripemd.left X) v = (List.range 80).foldl (Ripemd.left Y) v :=
    foldl_congr_range _ _ _ (fun a i hi => by
      simp only [Ripemd.left]; rw [h _ (rip_bounds i hi).1]) v
  have hr : (List.range 80).foldl (Ripemd.right X) v = (List.range 80).foldl (Ripemd.right Y) v :=
    foldl_congr_range _ _ _ (fun a i hi => by
      simp only [Ripemd.right]; rw [h _ (rip_bounds i hi).2.1]) v
  rw [Ripemd.compress, Ripemd.compress, hl, hr]

/-- What both functions do after SHA-256. -/
theorem hash160_tail (out : BitVec 32) (d : List Byte) {m : Mem} (hm : bytesAt m (g.g32 .stackPointer).toNat 32 = d)
    (hsz : m.size = g.mem.size)
    (hsp : (g.g32 .stackPointer).toNat + 64 ≤ g.mem.size) (h0 : 648 ≤ (g.g32 .stackPointer).toNat)
    (hout : out.toNat + 20 ≤ g.mem.size) (hT : Tables m) (a b c : Val) :
    WP M [.call (.std .hash160_pad), .b (.localGet 2), .call (.std .hash160_compress), .b (.localGet 2),
      .b (.const (.i32 20#32))] [] [a, b, .i32 out, c] (g.setMem m)
      (fun r => ∃ m', Res.toCall 2 r = .ret [.i32 out, .i32 20#32] (g.setMem m') ∧
        Same2 m m' out.toNat 20 ((g.g32 .stackPointer).toNat + 32) 32 ∧
        bytesAt m' out.toNat 20 = Ripemd.digest d) := by
  refine (wp_call_runs (args := []) (ps := []) (rs := []) (stk := []) rfl rfl
    (runs_hash160_pad (by simp only [setMem_g32, mem_setMem]; omega)) (by simp)).2 ?_
  simp only [setMem_g32, mem_setMem, setMem_setMem]
  generalize hspe : g.g32 .stackPointer = sp at *
  have hs := same_rpad m sp.toNat
  have hb := bytesAt_rpad m sp.toNat d hm
  generalize rpad m sp.toNat = m1 at *
  wpm
  refine wp_call_of (args := [.i32 out]) (ps := [.i32]) (rs := []) rfl rfl
    (call_hash160_compress out (by simp only [setMem_g32, mem_setMem]; rw [hspe, hs.1]; omega)
      (by simp only [mem_setMem]; rw [hs.1]; omega) (by simp only [mem_setMem]; rw [hs.1]; omega)
      (hT.same hs (by omega))) ?_
  rintro r ⟨m2, rfl, h1, h2⟩
  simp only [mem_setMem, setMem_g32, hspe, setMem_setMem] at h1 h2 ⊢
  wpm
  refine ⟨m2, rfl, ⟨h1.1.trans hs.1, fun i hi hj => (h1.2 i hi).trans (hs.2 i hj)⟩, ?_⟩
  rw [h2, digest_one d (by rw [← hm, length_bytesAt])]
  rw [compress_congr _ (Ripemd.word (Ripemd.pad d))]
  intro i hi
  rw [Ripemd.word, ← hb, drop_bytesAt _ _ _ _ (by omega), take_bytesAt _ _ _ _ (by omega), leNat_bytesAt]


theorem set32_back (g : Store σ) (m : Mem) (x : BitVec 32) :
    ((g.set32 .stackPointer x).setMem m).set32 .stackPointer (g.g32 .stackPointer) = g.setMem m := by
  cases g
  simp only [Store.set32, Store.setMem, Store.mk.injEq, true_and, and_true]
  funext y
  split <;> simp_all

theorem call_hash160_buf (o l out : BitVec 32) (hl : l.toNat < 2 ^ 29)
    (ho : o.toNat + l.toNat ≤ (g.g32 .stackPointer).toNat)
    (hsp : 648 ≤ (g.g32 .stackPointer).toNat)
    (hr : (g.g32 .stackPointer).toNat + 320 + padLen 32 l.toNat ≤ g.mem.size)
    (hout : out.toNat + 20 ≤ g.mem.size)
    (hI : Words 4 32 g.mem 0 sha256F.init.toList) (hK : Words 4 32 g.mem 32 sha256F.K) (hT : Tables g.mem) :
    Call M (.std .hash160_buf) [.i32 o, .i32 l, .i32 out] g fun r => ∃ m',
      r = .ret [.i32 out, .i32 20#32] (g.setMem m') ∧
      Same2 g.mem m' out.toNat 20 (g.g32 .stackPointer).toNat (320 + padLen 32 l.toNat) ∧
      bytesAt m' out.toNat 20 = hash160 (bytesAt g.mem o.toNat l.toNat) := by
  rw [call_std]
  have hle := g.mem.le
  have hp : padLen 32 l.toNat = 64 * ((l.toNat + 8) / 64) + 64 := rfl
  rw [show (stdFunc .hash160_buf).body = Std.hash160_buf_body.take 11 ++ [.call (.std .hash160_pad),
    .b (.localGet 2), .call (.std .hash160_compress), .b (.localGet 2), .b (.const (.i32 20#32))]
    from rfl, wp_append]
  have htail := fun (d : List Byte) (m : Mem) h1 h2 h3 h4 => hash160_tail (M := M) (g := g) out d (m := m) h1 h2 h3 hsp hout h4
  generalize [Instr.call (.std .hash160_pad), .b (.localGet 2), .call (.std .hash160_compress),
    .b (.localGet 2), .b (.const (.i32 20#32))] = T at *
  wpm [stdFunc, Std.hash160_buf, Std.hash160_buf_body]
  have hsb := set32_back g
  generalize hspe : g.g32 .stackPointer = sp at *
  have e1 : (sp + 32#32).toNat = sp.toNat + 32 := toNat_add_of_lt (by simp; omega)
  have e2 : (g.set32 .stackPointer (sp + 32#32)).g32 .stackPointer = sp + 32#32 := by simp [Store.set32]
  have e3 : (g.set32 .stackPointer (sp + 32#32)).mem = g.mem := rfl
  refine wp_call_of (args := [.i32 o, .i32 l, .i32 sp]) (ps := [.i32, .i32, .i32]) (rs := [.i32, .i32]) rfl rfl
    (call_sha256_buf o l sp hl (by rw [e3]; omega) (by rw [e2, e1]; omega) (by rw [e2, e1]; omega)
      (by rw [e2, e3, e1]; omega) (by rw [e3]; omega) (by rw [e2, e1]; omega) (by rw [e3]; exact hI)
      (by rw [e3]; exact hK)) ?_
  rintro r ⟨m1, rfl, h1, h2⟩
  rw [e2, e3, e1] at h1
  rw [e3] at h2
  wpm
  rw [hsb]
  refine (htail _ m1 h2 h1.1 (by omega) ?_ _ _ _).mono ?_
  · have hs : Same g.mem m1 sp.toNat (320 + padLen 32 l.toNat) :=
      ⟨h1.1, fun i hi => h1.2 i (by omega) (by omega)⟩
    exact hT.same hs hsp
  · rintro r ⟨m2, c1, c2, c3⟩
    refine ⟨m2, c1, ⟨c2.1.trans h1.1, fun i hi hj => ?_⟩, c3⟩
    rw [c2.2 i hi (by omega), h1.2 i (by omega) (by omega)]

theorem call_hash160_int (lo hi : BitVec 64) (out : BitVec 32)
    (hsp : 648 ≤ (g.g32 .stackPointer).toNat)
    (hr : (g.g32 .stackPointer).toNat + 386 ≤ g.mem.size)
    (hout : out.toNat + 20 ≤ g.mem.size)
    (hI : Words 4 32 g.mem 0 sha256F.init.toList) (hK : Words 4 32 g.mem 32 sha256F.K) (hT : Tables g.mem) :
    Call M (.std .hash160_int) [.i64 lo, .i64 hi, .i32 out] g fun r => ∃ m',
      r = .ret [.i32 out, .i32 20#32] (g.setMem m') ∧
      Same2 g.mem m' out.toNat 20 (g.g32 .stackPointer).toNat 386 ∧
      bytesAt m' out.toNat 20 = hash160 (Sha2.leBytes 16 (u128 lo hi)) := by
  rw [call_std]
  have hle := g.mem.le
  rw [show (stdFunc .hash160_int).body = Std.hash160_int_body.take 11 ++ [.call (.std .hash160_pad),
    .b (.localGet 2), .call (.std .hash160_compress), .b (.localGet 2), .b (.const (.i32 20#32))]
    from rfl, wp_append]
  have htail := fun (d : List Byte) (m : Mem) h1 h2 h3 h4 => hash160_tail (M := M) (g := g) out d (m := m) h1 h2 h3 hsp hout h4
  generalize [Instr.call (.std .hash160_pad), .b (.localGet 2), .call (.std .hash160_compress),
    .b (.localGet 2), .b (.const (.i32 20#32))] = T at *
  wpm [stdFunc, Std.hash160_int, Std.hash160_int_body]
  have hsb := set32_back g
  generalize hspe : g.g32 .stackPointer = sp at *
  have e1 : (sp + 32#32).toNat = sp.toNat + 32 := toNat_add_of_lt (by simp; omega)
  have e2 : (g.set32 .stackPointer (sp + 32#32)).g32 .stackPointer = sp + 32#32 := by simp [Store.set32]
  have e3 : (g.set32 .stackPointer (sp + 32#32)).mem = g.mem := rfl
  refine wp_call_of (args := [.i64 lo, .i64 hi, .i32 sp]) (ps := [.i64, .i64, .i32]) (rs := [.i32, .i32]) rfl rfl
    (call_sha256_int lo hi sp (by rw [e2, e1]; omega)
      (by rw [e2, e3, e1]; omega) (by rw [e3]; omega) (by rw [e2, e1]; omega) (by rw [e3]; exact hI)
      (by rw [e3]; exact hK)) ?_
  rintro r ⟨m1, rfl, h1, h2⟩
  rw [e2, e3, e1] at h1
  wpm
  rw [hsb]
  refine (htail _ m1 h2 h1.1 (by omega) ?_ _ _ _).mono ?_
  · have hs : Same g.mem m1 sp.toNat 386 :=
      ⟨h1.1, fun i hi => h1.2 i (by omega) (by omega)⟩
    exact hT.same hs hsp
  · rintro r ⟨m2, c1, c2, c3⟩
    refine ⟨m2, c1, ⟨c2.1.trans h1.1, fun i hi hj => ?_⟩, c3⟩
    rw [c2.2 i hi (by omega), h1.2 i (by omega) (by omega)]

end Wasm
