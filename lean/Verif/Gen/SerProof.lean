import Verif.Gen.Serialize
import Verif.Gen.EqualProof
import Verif.Stdlib.Store64
import Verif.Stdlib.Utf8Enc

/-! The generated serialization code writes the consensus encoding. -/

namespace Gen
open Wasm Spec Host

variable {σ : Type} {M : Wasm.Mod σ}

/-- From a weakest precondition to an execution. -/
theorem steps_of_wp {is : List Instr} {stk loc stk' : List Val} {g : Store σ} {P : List Val → Store σ → Prop}
    (h : WP M is stk loc g fun r => ∃ loc' g', r = .norm stk' loc' g' ∧ P loc' g') :
    ∃ loc' g', Steps M is stk loc g stk' loc' g' ∧ P loc' g' := by
  obtain ⟨n, r, h1, h2, loc', g', rfl, h3⟩ := h
  refine ⟨loc', g', Steps.of_wp fun Q => ?_, h3⟩
  exact wp_of_ends ((ends_iff (by simp)).2 ⟨n, _, h1, h2, rfl⟩) (by simp)

theorem wp_store32 {is : List Instr} {stk loc : List Val} {g : Store σ} {Q : Res σ → Prop} {a v : BitVec 32}
    (h : a.toNat + 4 ≤ g.mem.size) :
    WP M (.call (.std .store_i32_be) :: is) (.i32 v :: .i32 a :: stk) loc g Q ↔
      WP M is stk loc (g.setMem (g.mem.write a.toNat 4 (rev4 v.toNat))) Q := by
  refine (wp_call_runs (args := [.i32 a, .i32 v]) (ps := [.i32, .i32]) (rs := []) rfl rfl
    (runs_store_i32_be a v h) (by simp)).trans ?_
  rw [callK_ret]; rfl

theorem wp_store64 {is : List Instr} {stk loc : List Val} {g : Store σ} {Q : Res σ → Prop} {a : BitVec 32}
    {v : BitVec 64} (h : a.toNat + 8 ≤ g.mem.size) :
    WP M (.call (.std .store_i64_be) :: is) (.i64 v :: .i32 a :: stk) loc g Q ↔
      WP M is stk loc (g.setMem (g.mem.write a.toNat 8 (beSwap64 v).toNat)) Q := by
  refine (wp_call_runs (args := [.i32 a, .i64 v]) (ps := [.i32, .i64]) (rs := []) rfl rfl
    (runs_store_i64_be' a v h) (by simp)).trans ?_
  rw [callK_ret]; rfl

theorem size_write (m : Mem) (a n v : Nat) : (m.write a n v).size = m.size := rfl
theorem size_copy (m : Mem) (d s n : Nat) : (m.copy d s n).size = m.size := rfl
theorem setMem2 {g : Store σ} {m m' : Mem} : (g.setMem m).setMem m' = g.setMem m' := rfl

/-- The address of the write pointer. -/
theorem steps_start {ol off l : Nat} {w : BitVec 32} {stk loc : List Val} {g : Store σ}
    (h : loc[ol]? = some (.i32 w)) (hl : l < loc.length) :
    Steps M (startPtr ol off l) stk loc g (.i32 (w + BitVec.ofNat 32 off) :: stk)
      (loc.set l (.i32 (w + BitVec.ofNat 32 off))) g := by
  obtain ⟨_, h⟩ := nth_some h
  apply Steps.of_wp
  intro Q
  unfold startPtr
  split
  · unfold lget c32
    wpl [h]
  · obtain rfl : off = 0 := by omega
    unfold lget
    wpl [h]
    simp

theorem steps_putTag {ol off t : Nat} {w : BitVec 32} {stk loc : List Val} {g : Store σ}
    (h : loc[ol]? = some (.i32 w)) (hs : w.toNat + off < g.mem.size) (ht : t < 256) :
    Steps M (putTag ol off t) stk loc g stk loc (g.setMem (g.mem.write (w.toNat + off) 1 t)) := by
  obtain ⟨_, h⟩ := nth_some h
  apply Steps.of_wp
  intro Q
  unfold putTag lget c32
  wpl [h]
  rw [wp_i32store (by omega)]
  wpl
  rw [BitVec.toNat_ofNat, Nat.mod_eq_of_lt (by omega)]

/-- The bytes `bs` have been written at `a` and their number is on the stack; only fresh locals, from `n`
on, have changed. -/
def SerTo (bs : List Byte) (a n : Nat) (stk loc : List Val) (g : Store σ) (r : Res σ) : Prop :=
  ∃ loc' m', r = .norm (.i32 (BitVec.ofNat 32 bs.length) :: stk) loc' (g.setMem m') ∧ Keep n [] loc loc' ∧
    Wrote g.mem m' a bs

theorem SerTo.intro {bs : List Byte} {a n : Nat} {stk loc loc' : List Val} {g : Store σ} {m' : Mem} {l : BitVec 32}
    (hl : l.toNat = bs.length) (hk : Keep n [] loc loc') (hw : Wrote g.mem m' a bs) :
    SerTo bs a n stk loc g (.norm (.i32 l :: stk) loc' (g.setMem m')) := by
  refine ⟨loc', m', ?_, hk, hw⟩
  rw [← hl, BitVec.ofNat_toNat, BitVec.setWidth_eq]

/-- The same as an execution. -/
def SerSteps (M : Wasm.Mod σ) (is : List Instr) (bs : List Byte) (a n : Nat) (stk stk' loc : List Val) (g : Store σ) :
    Prop :=
  ∃ loc' m', Steps M is stk loc g (.i32 (BitVec.ofNat 32 bs.length) :: stk') loc' (g.setMem m') ∧
    Keep n [] loc loc' ∧ Wrote g.mem m' a bs

theorem SerSteps.of_wp {is : List Instr} {bs : List Byte} {a n : Nat} {stk stk' loc : List Val} {g : Store σ}
    (h : WP M is stk loc g (SerTo bs a n stk' loc g)) : SerSteps M is bs a n stk stk' loc g := by
  obtain ⟨k, r, h1, h2, loc', m', rfl, h3, h4⟩ := h
  refine ⟨loc', m', Steps.of_wp fun Q => ?_, h3, h4⟩
  exact wp_of_ends ((ends_iff (by simp)).2 ⟨k, _, h1, h2, rfl⟩) (by simp)

theorem ser_int {signed : Bool} {ol off n : Nat} {w : BitVec 32} {lo hi : BitVec 64} {stk loc : List Val}
    {g : Store σ} (h : loc[ol]? = some (.i32 w)) (hol : ol < n) (hs : w.toNat + off + 17 ≤ g.mem.size)
    (hm : g.mem.size < 2 ^ 32) (hn : n + 3 ≤ loc.length) :
    SerSteps M (serInt signed ol off n).is (BitVec.ofNat 8 (if signed then 0 else 1) ::
        (bigEndian 8 hi.toNat ++ bigEndian 8 lo.toNat)) (w.toNat + off) n (.i64 hi :: .i64 lo :: stk) stk loc g := by
  obtain ⟨p, hp⟩ : ∃ p, p = w + BitVec.ofNat 32 off := ⟨_, rfl⟩
  have ep : p.toNat = w.toNat + off := by rw [hp, BitVec.toNat_add, BitVec.toNat_ofNat]; omega
  have e1 : (p + 1#32).toNat = w.toNat + off + 1 := by rw [BitVec.toNat_add]; simp; omega
  have e2 : (p + 1#32 + 8#32).toNat = w.toNat + off + 9 := by rw [BitVec.toNat_add, e1]; simp; omega
  apply SerSteps.of_wp
  unfold serInt lset
  simp only [List.cons_append, List.nil_append]
  wpl
  refine (steps_start (w := w) (by rw [List.getElem?_set_ne (by omega), List.getElem?_set_ne (by omega)]; exact h)
    (by simp; omega) _ _).2 ?_
  rw [← hp]
  unfold lget c32
  wpl
  rw [wp_i32store (by omega)]
  wpl
  rw [wp_store64 (by rw [mem_setMem, size_write, e1]; omega)]
  wpl
  rw [wp_store64 (by rw [mem_setMem, mem_setMem, size_write, size_write, e2]; omega)]
  wpl [mem_setMem, setMem2]
  refine ⟨_, _, by rw [List.length_cons, List.length_append, length_bigEndian, length_bigEndian], ?_, ?_⟩
  · exact (((((Keep.refl.set (.inl (by omega))).set (.inl (by omega))).set (.inl (by omega))).set
      (.inl (by omega))).set (.inl (by omega)))
  · rw [e1, e2, ep]
    have A := wrote_byte g.mem (w.toNat + off) (BitVec.ofNat 32 (if signed then 0 else 1)).toNat
    have B := A.append (wrote_i64_be _ (w.toNat + off + 1) hi) (by simp)
    have C := B.append (wrote_i64_be _ (w.toNat + off + 9) lo) (by simp [length_bigEndian])
    refine C.cast rfl ?_
    cases signed <;> simp

theorem ser_bool {ol off n : Nat} {w : BitVec 32} {x : Bool} {stk loc : List Val}
    {g : Store σ} (h : loc[ol]? = some (.i32 w)) (hol : ol < n) (hs : w.toNat + off + 1 ≤ g.mem.size)
    (hn : n + 1 ≤ loc.length) :
    SerSteps M (serBool ol off n).is (consensus (.bool x)) (w.toNat + off) n ((encB x).reverse ++ stk) stk loc g := by
  obtain ⟨_, h⟩ := nth_some h
  apply SerSteps.of_wp
  unfold serBool lset lget c32 encB
  simp only [List.cons_append, List.nil_append, List.reverse_cons, List.reverse_nil]
  wpl [h]
  rw [wp_i32store (by omega)]
  wpl
  have A := wrote_byte g.mem (w.toNat + off)
  cases x
  · exact ⟨_, _, rfl, Keep.refl.set (.inl (by omega)), A 4⟩
  · exact ⟨_, _, rfl, Keep.refl.set (.inl (by omega)), A 3⟩

/-- Copied bytes that are below what has been written. -/
theorem _root_.Wasm.Wrote.below {m m' : Mem} {a o k : Nat} {bs : List Byte} (h : Wrote m m' a bs) (ho : o + k ≤ a) :
    bytesAt m' o k = bytesAt m o k := bytesAt_congr fun i hi => h.rest _ (by omega)

theorem ser_bytes {t ol off n : Nat} {w o l : BitVec 32} {bs : List Byte} {stk loc : List Val}
    {g : Store σ} (ht : t < 256) (h : loc[ol]? = some (.i32 w)) (hol : ol < n)
    (hs : w.toNat + off + 5 + bs.length ≤ g.mem.size) (hm : g.mem.size < 2 ^ 32) (hn : n + 3 ≤ loc.length)
    (hl : l.toNat = bs.length) (ho : o.toNat + bs.length ≤ w.toNat + off)
    (hb : bytesAt g.mem o.toNat bs.length = bs) :
    SerSteps M (serBytes t ol off n).is (BitVec.ofNat 8 t :: (lenBytes bs.length ++ bs)) (w.toNat + off) n
      (.i32 l :: .i32 o :: stk) stk loc g := by
  have h0 := h
  obtain ⟨_, h⟩ := nth_some h
  obtain ⟨p, hp⟩ : ∃ p, p = w + BitVec.ofNat 32 (off + 1) := ⟨_, rfl⟩
  have ep : p.toNat = w.toNat + off + 1 := by rw [hp, BitVec.toNat_add, BitVec.toNat_ofNat]; omega
  have e1 : (p + 4#32).toNat = w.toNat + off + 5 := by rw [BitVec.toNat_add, ep]; simp; omega
  apply SerSteps.of_wp
  unfold serBytes lset
  simp only [List.cons_append, List.nil_append]
  wpl
  refine (steps_putTag (w := w) (by rw [List.getElem?_set_ne (by omega), List.getElem?_set_ne (by omega)]; exact h0)
    (by omega) ht _ _).2 ?_
  unfold lget c32
  wpl [h]
  rw [← hp, wp_store32 (by rw [mem_setMem, size_write, ep]; omega)]
  wpl
  rw [wp_memCopy (by simp only [mem_setMem, size_write, hl]; omega) (by simp only [mem_setMem, size_write, e1, hl]; omega)]
  wpl [mem_setMem, setMem2]
  refine SerTo.intro ?_ ?_ ?_
  · rw [BitVec.toNat_add]
    simp [lenBytes, length_bigEndian, hl]
    omega
  · exact ((((Keep.refl.set (.inl (by omega))).set (.inl (by omega))).set (.inl (by omega))).set (.inl (by omega)))
  · rw [e1, ep, hl]
    have A := wrote_byte g.mem (w.toNat + off) t
    have B := A.append (wrote_i32_be _ (w.toNat + off + 1) bs.length (by omega)) (by simp)
    have C := B.append (wrote_copy _ (w.toNat + off + 5) o.toNat bs (by rw [B.below ho, hb]))
      (by simp [length_bigEndian])
    exact C.cast rfl (by simp [lenBytes])

theorem beNat_beBytes4 {c : Nat} (h : c < 2 ^ 32) : beNat (beBytes4 c) = c := by
  simp only [beNat, beBytes4, List.foldl, BitVec.toNat_ofNat]
  omega

theorem scalarsAt_bytes {m : Mem} {o : Nat} : ∀ {cs : List Nat}, (∀ c ∈ cs, c < 2 ^ 32) →
    bytesAt m o (cs.flatMap beBytes4).length = cs.flatMap beBytes4 → scalarsAt m o cs.length = cs
  | [], _, _ => rfl
  | c :: cs, hc, h => by
    rw [List.flatMap_cons, List.length_append, bytesAt_add] at h
    obtain ⟨h1, h2⟩ := List.append_inj h (by rw [Wasm.length_bytesAt])
    rw [List.length_cons, scalarsAt]
    congr 1
    · rw [show (beBytes4 c).length = 4 from rfl] at h1
      rw [h1, beNat_beBytes4 (hc c (by simp))]
    · exact scalarsAt_bytes (fun c hc' => hc c (by simp [hc'])) h2

theorem ofNat8_toNat : ∀ {xs : List Byte} {ns : List Nat}, xs.map BitVec.toNat = ns → ns.map (BitVec.ofNat 8) = xs
  | [], _, h => by subst h; rfl
  | x :: xs, _, h => by
    subst h
    simp only [List.map_cons, BitVec.ofNat_toNat, BitVec.setWidth_eq]
    rw [ofNat8_toNat rfl]

theorem ser_utf8 {ol off n : Nat} {w o l : BitVec 32} {cs : List Nat} {stk loc : List Val}
    {g : Store σ} (h : loc[ol]? = some (.i32 w)) (hol : ol < n)
    (hs : w.toNat + off + 5 + (utf8Text cs).length ≤ g.mem.size) (hm : g.mem.size < 2 ^ 32) (hn : n + 4 ≤ loc.length)
    (hc : ∀ c ∈ cs, isScalar c)
    (hl : l.toNat = 4 * cs.length) (ho : o.toNat + 4 * cs.length ≤ w.toNat + off)
    (hb : bytesAt g.mem o.toNat (cs.flatMap beBytes4).length = cs.flatMap beBytes4) :
    SerSteps M (serUtf8 ol off n).is (consensus (.utf8 cs)) (w.toNat + off) n
      (.i32 l :: .i32 o :: stk) stk loc g := by
  have h0 := h
  have hsc : scalarsAt g.mem o.toNat cs.length = cs :=
    scalarsAt_bytes (fun c hc' => by have := (hc c hc').1; omega) hb
  obtain ⟨_, h⟩ := nth_some h
  obtain ⟨p, hp⟩ : ∃ p, p = w + BitVec.ofNat 32 (off + 1) := ⟨_, rfl⟩
  have ep : p.toNat = w.toNat + off + 1 := by rw [hp, BitVec.toNat_add, BitVec.toNat_ofNat]; omega
  obtain ⟨q, hq⟩ : ∃ q, q = w + BitVec.ofNat 32 (off + 5) := ⟨_, rfl⟩
  have eq' : q.toNat = w.toNat + off + 5 := by rw [hq, BitVec.toNat_add, BitVec.toNat_ofNat]; omega
  have A := wrote_byte g.mem (w.toNat + off) 14
  obtain ⟨g1, hg1⟩ : ∃ g1, g1 = g.setMem (g.mem.write (w.toNat + off) 1 14) := ⟨_, rfl⟩
  have hs1 : g1.mem.size = g.mem.size := by rw [hg1]; rfl
  have hsc1 : scalarsAt g1.mem o.toNat cs.length = cs := by
    refine scalarsAt_bytes (fun c hc' => by have := (hc c hc').1; omega) ?_
    rw [hg1, mem_setMem, A.below, hb]
    have : (cs.flatMap beBytes4).length = 4 * cs.length := by
      clear * -
      induction cs with
      | nil => rfl
      | cons c cs ih => rw [List.flatMap_cons, List.length_append, ih, List.length_cons]; simp [beBytes4]; omega
    omega
  obtain ⟨m', ⟨hsame, hasc⟩, hrun⟩ := runs_convert_scalars_to_utf8 (M := M) (g := g1) o l q cs.length hl
    (by rw [hs1]; omega) (by rw [hsc1]; exact fun c hc' => (hc c hc').1)
    (by rw [hsc1, hs1, eq']; omega) (by rw [hsc1, eq']; omega) (by rw [hsc1]; left; rw [eq']; omega)
  rw [hsc1] at hsame hasc hrun
  have hW : Wrote g1.mem m' (w.toNat + off + 5) ((utf8Text cs).map (BitVec.ofNat 8)) := by
    refine ⟨hsame.1, ?_, fun i hi => hsame.2 i ?_⟩
    · rw [List.length_map, ← eq']
      exact (ofNat8_toNat hasc).symm
    · rw [List.length_map] at hi; omega
  have hlen : (BitVec.ofNat 32 (utf8Text cs).length).toNat = (utf8Text cs).length := by
    rw [BitVec.toNat_ofNat]; omega
  apply SerSteps.of_wp
  unfold serUtf8 lset
  simp only [List.cons_append, List.nil_append]
  wpl
  refine (steps_putTag (w := w) (by rw [List.getElem?_set_ne (by omega), List.getElem?_set_ne (by omega)]; exact h0)
    (by omega) (by omega) _ _).2 ?_
  rw [← hg1]
  unfold lget c32
  wpl [h]
  rw [← hq]
  refine (wp_call_runs (args := [.i32 o, .i32 l, .i32 q]) (ps := [.i32, .i32, .i32]) (rs := [.i32]) rfl rfl
    hrun (by simp)).2 ?_
  rw [callK_ret]
  simp only [List.reverse_cons, List.reverse_nil, List.nil_append, List.cons_append]
  wpl [h]
  rw [← hp, wp_store32 (by rw [mem_setMem, hsame.1, hs1, ep]; omega)]
  wpl [mem_setMem]
  rw [setMem2, hg1, setMem2]
  refine SerTo.intro ?_ ?_ ?_
  · rw [BitVec.toNat_add, hlen]
    simp [consensus, lenBytes, length_bigEndian]
    omega
  · exact ((((Keep.refl.set (.inl (by omega))).set (.inl (by omega))).set (.inl (by omega))).set (.inl (by omega)))
  · rw [hlen, ep]
    have C := hW.prepend (wrote_i32_be _ (w.toNat + off + 1) (utf8Text cs).length (by omega)) (by simp [length_bigEndian])
    rw [hg1] at C
    exact (A.append C (by simp)).cast rfl (by simp [consensus, lenBytes])

theorem bytesAt_split {m : Mem} {o : Nat} {xs ys : List Byte} (h : bytesAt m o (xs ++ ys).length = xs ++ ys) :
    bytesAt m o xs.length = xs ∧ bytesAt m (o + xs.length) ys.length = ys := by
  rw [List.length_append, bytesAt_add] at h
  exact List.append_inj h (by rw [Wasm.length_bytesAt])

/-- The bytes of a principal in memory are its encoding without the prefix; a standard principal is
followed by a zero length. -/
theorem ser_principal {ol off n : Nat} {w o l : BitVec 32} {p : Principal} {stk loc : List Val}
    {g : Store σ} (hp : p.Ok) (h : loc[ol]? = some (.i32 w)) (hol : ol < n)
    (hs : w.toNat + off + (consensus (.principal p)).length ≤ g.mem.size) (hm : g.mem.size < 2 ^ 32)
    (hn : n + 3 ≤ loc.length)
    (hl : l.toNat = (principalBytes p).length) (ho : o.toNat + (principalBytes p).length ≤ w.toNat + off)
    (hb : bytesAt g.mem o.toNat (principalBytes p).length = principalBytes p) :
    SerSteps M (serPrincipal ol off n).is (consensus (.principal p)) (w.toNat + off) n
      (.i32 l :: .i32 o :: stk) stk loc g := by
  obtain ⟨q, hq⟩ : ∃ q, q = w + BitVec.ofNat 32 off := ⟨_, rfl⟩
  have key : ∃ (s : StdPrincipal) (nm : Name) (c : Byte), s.hash.length = 20 ∧ principalBytes p = issuerBytes s ++ c :: nm ∧
      (p = .standard s ∧ nm = [] ∨ p = .contract ⟨s, nm⟩ ∧ c = BitVec.ofNat 8 nm.length ∧ 0 < nm.length ∧ nm.length ≤ 128) := by
    cases p with
    | standard s => exact ⟨s, [], 0#8, hp.2, by simp [principalBytes, issuerBytes], .inl ⟨rfl, rfl⟩⟩
    | contract c =>
      exact ⟨c.issuer, c.name, _, hp.1.2, by simp [principalBytes, issuerBytes], .inr ⟨rfl, rfl, name_pos hp.2, hp.2.2⟩⟩
  obtain ⟨s, nm, c, hh, hpb, hcase⟩ := key
  have hi : (issuerBytes s).length = 21 := by rw [issuerBytes, List.length_cons, hh]
  rw [hpb] at hb hl ho
  have hlen : (issuerBytes s ++ c :: nm).length = 22 + nm.length := by
    rw [List.length_append, hi, List.length_cons]; omega
  obtain ⟨b1, b2⟩ := bytesAt_split hb
  have b3 := (bytesAt_split (xs := [c]) (ys := nm) b2).2
  rw [hi] at b1 b3
  rw [hlen] at hl ho
  have hnm : nm.length ≤ 128 := by
    rcases hcase with ⟨_, rfl⟩ | ⟨_, _, _, h2⟩
    · simp
    · exact h2
  have hsz : w.toNat + off + 22 + (if nm = [] then 0 else 1 + nm.length) ≤ g.mem.size := by
    rcases hcase with ⟨rfl, rfl⟩ | ⟨rfl, _, h1, _⟩
    · simp only [consensus, List.length_cons, hi] at hs; simp; omega
    · rw [if_neg (by intro e; rw [e] at h1; simp at h1)]
      simp only [consensus, contractBytes, nameBytes, List.length_cons, List.length_append, hi] at hs; omega
  have hq0 : w.toNat + off < 2 ^ 32 := by omega
  have ep : q.toNat = w.toNat + off := by rw [hq, BitVec.toNat_add, BitVec.toNat_ofNat]; omega
  have e1 : (q + 1#32).toNat = w.toNat + off + 1 := by rw [BitVec.toNat_add]; simp; omega
  apply SerSteps.of_wp
  unfold serPrincipal lset
  simp only [List.cons_append, List.nil_append]
  wpl
  refine (steps_start (w := w) (by rw [List.getElem?_set_ne (by omega), List.getElem?_set_ne (by omega)]; exact h)
    (by simp; omega) _ _).2 ?_
  rw [← hq]
  unfold lget c32 PRINCIPAL_BYTES STANDARD_PRINCIPAL_BYTES PRINCIPAL_BYTES
  wpl
  rw [wp_memCopy (by simp; omega) (by rw [e1]; simp; omega)]
  wpl
  have A := wrote_copy g.mem (w.toNat + off + 1) o.toNat (issuerBytes s) (by rw [hi]; exact b1)
  rw [hi] at A
  have hli : l.toInt = (l.toNat : Int) := by rw [BitVec.toInt_eq_toNat_cond]; rw [if_pos (by omega)]
  rw [e1]
  rcases hcase with ⟨rfl, rfl⟩ | ⟨rfl, rfl, h1, h2⟩
  · rw [if_pos (by rw [hli, hl]; decide)]
    rw [wp_i32store (by rw [mem_setMem, size_copy, ep]; omega)]
    wpl [mem_setMem, setMem2]
    refine SerTo.intro ?_ ?_ ?_
    · simp [consensus, hi]
    · exact (((Keep.refl.set (.inl (by omega))).set (.inl (by omega))).set (.inl (by omega)))
    · rw [ep]
      exact (A.prepend (wrote_byte _ (w.toNat + off) 5) (by simp)).cast rfl (by simp [consensus])
  · rw [if_neg (by rw [hli]; omega)]
    have hnn : nm ≠ [] := by intro e; rw [e] at h1; simp at h1
    rw [if_neg hnn] at hsz
    have e2 : (q + 22#32).toNat = w.toNat + off + 22 := by rw [BitVec.toNat_add, ep]; simp; omega
    have e3 : (q + 23#32).toNat = w.toNat + off + 23 := by rw [BitVec.toNat_add, ep]; simp; omega
    have e4 : (l - 22#32).toNat = nm.length := by rw [BitVec.toNat_sub]; simp; omega
    have e5 : (o + 22#32).toNat = o.toNat + 22 := by rw [BitVec.toNat_add]; simp; omega
    rw [wp_i32store (by rw [mem_setMem, size_copy, e2]; omega)]
    wpl
    rw [wp_memCopy (by rw [mem_setMem, mem_setMem, size_write, size_copy, e4, e5]; omega)
      (by rw [mem_setMem, mem_setMem, size_write, size_copy, e4, e3]; omega)]
    wpl
    rw [wp_i32store (by simp only [mem_setMem, size_write, size_copy, ep]; omega)]
    wpl [mem_setMem, setMem2]
    refine SerTo.intro ?_ ?_ ?_
    · rw [BitVec.toNat_add, hl]
      simp [consensus, contractBytes, nameBytes, hi]; omega
    · exact (((Keep.refl.set (.inl (by omega))).set (.inl (by omega))).set (.inl (by omega)))
    · rw [ep, e2, e3, e4, e5]
      have B := A.append (wrote_byte _ (w.toNat + off + 22) nm.length) (by rw [hi])
      have C := B.append (wrote_copy _ (w.toNat + off + 23) (o.toNat + 22) nm (by
        rw [B.below (by omega)]; exact b3)) (by rw [List.length_append, hi]; rfl)
      exact (C.prepend (wrote_byte _ (w.toNat + off) 6) (by simp)).cast rfl
        (by simp [consensus, contractBytes, nameBytes])

end Gen
