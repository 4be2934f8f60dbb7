import Verif.Stdlib.Utf8Dec

/-! Runtime library: the UTF-8 decoding loop (standard.wat 3370-3507). -/

namespace Wasm
open Spec
variable {σ : Type} {M : Mod σ} {is : List Instr} {stk loc : List Val} {g : Store σ}
  {Q : Res σ → Prop}

theorem utf8_inj {c c' : Nat} {X Y : List Nat} (hc : c < 0x110000) (hc' : c' < 0x110000)
    (h : utf8 c ++ X = utf8 c' ++ Y) : c = c' ∧ X = Y := by
  unfold utf8 at h
  split at h <;> split at h
  all_goals (try split at h)
  all_goals (try split at h)
  all_goals (try split at h)
  all_goals (try split at h)
  all_goals
    simp only [List.cons_append, List.nil_append, List.cons.injEq] at h
  all_goals (first | exact ⟨by omega, h.2⟩ | exact ⟨by omega, h.2.2⟩ | exact ⟨by omega, h.2.2.2⟩ |
    exact ⟨by omega, h.2.2.2.2⟩ | omega)

theorem utf8_ne_nil (c : Nat) : utf8 c ≠ [] := by
  intro h
  have := utf8_len c
  rw [h] at this
  simp only [List.length_nil] at this
  split at this <;> [skip; split at this <;> [skip; split at this]] <;> omega

theorem utf8Text_prefix {cs cs' X : List Nat} (hc : ∀ c ∈ cs, isScalar c) (hc' : ∀ c ∈ cs', isScalar c)
    (h : utf8Text cs ++ X = utf8Text cs') : ∃ rest, cs' = cs ++ rest ∧ X = utf8Text rest := by
  induction cs generalizing cs' with
  | nil => exact ⟨cs', rfl, h⟩
  | cons c cs ih =>
    cases cs' with
    | nil =>
      have := congrArg List.length h
      have h2 := List.length_pos_iff.2 (utf8_ne_nil c)
      simp only [utf8Text, List.flatMap_cons, List.flatMap_nil, List.length_append, List.length_nil] at this
      omega
    | cons c' cs' =>
      rw [utf8Text, List.flatMap_cons, utf8Text, List.flatMap_cons, List.append_assoc] at h
      obtain ⟨rfl, h2⟩ := utf8_inj (hc c List.mem_cons_self).1 (hc' c' List.mem_cons_self).1 h
      obtain ⟨rest, rfl, h3⟩ := ih (fun d hd => hc d (List.mem_cons_of_mem _ hd))
        (fun d hd => hc' d (List.mem_cons_of_mem _ hd)) h2
      exact ⟨rest, rfl, h3⟩

theorem DecAt.unique {m : Mem} {a c c' : Nat} (h : DecAt m a c) (h' : DecAt m a c') : c = c' := by
  obtain ⟨h1, h2⟩ := h
  obtain ⟨h1', h2'⟩ := h'
  rw [utf8_cases] at h2 h2'
  have := h1.1
  have := h1'.1
  omega

/-- A text of at most `n` scalars whose encoding is `bs`. -/
def WF (bs : List Nat) (n : Nat) (cs : List Nat) : Prop :=
  (∀ c ∈ cs, isScalar c) ∧ utf8Text cs = bs ∧ cs.length ≤ n

/-- What was decoded after `cs.length` iterations. -/
def DecInv (o l out : BitVec 32) (mx : Nat) (g : Store σ) (n : Nat) (loc : List Val) (g' : Store σ) : Prop :=
  ∃ (cs : List Nat) (p : Nat) (a l' ml s b w : BitVec 32) (m' : Mem),
    loc = [.i32 a, .i32 l', .i32 out, .i32 ml, .i32 s, .i32 b, .i32 w] ∧
    g' = g.setMem m' ∧ Same g.mem m' out.toNat (4 * cs.length) ∧
    scalarsAt m' out.toNat cs.length = cs ∧ cs.length + n = mx ∧ ml.toNat = n ∧
    a.toNat = o.toNat + p ∧ o.toNat + p ≤ g.mem.size ∧ l' = l - BitVec.ofNat 32 p ∧
    w = out + BitVec.ofNat 32 (4 * cs.length) ∧
    ((p < l.toNat ∧ asciiAt g.mem o.toNat p = utf8Text cs ∧ ∀ c ∈ cs, isScalar c) ∨
      (l.toNat < p ∧ ∀ n cs', ¬ WF (asciiAt g.mem o.toNat l.toNat) n cs'))

/-- The next character of a well-formed text. -/
theorem next_char {m : Mem} {o l p mx : Nat} {cs cs' : List Nat} (hsz : o + l ≤ m.size)
    (hp : p < l) (hpre : asciiAt m o p = utf8Text cs) (hcs : ∀ c ∈ cs, isScalar c)
    (hwf : WF (asciiAt m o l) mx cs') :
    ∃ c rest, cs' = cs ++ c :: rest ∧ DecAt m (o + p) c ∧ p + (utf8 c).length ≤ l := by
  obtain ⟨h1, h2, h3⟩ := hwf
  have e : asciiAt m o l = asciiAt m o p ++ asciiAt m (o + p) (l - p) := by
    rw [← asciiAt_append]; congr 1; omega
  rw [e, hpre] at h2
  obtain ⟨rest, rfl, h4⟩ := utf8Text_prefix hcs h1 h2.symm
  have hl := congrArg List.length h4
  rw [length_ascii] at hl
  cases rest with
  | nil => simp [utf8Text] at hl; omega
  | cons c rest =>
    rw [utf8Text, List.flatMap_cons] at hl h4
    rw [List.length_append] at hl
    refine ⟨c, rest, rfl, ⟨h1 c (by simp), by omega, ?_⟩, by omega⟩
    have e2 : asciiAt m (o + p) (l - p) = asciiAt m (o + p) (utf8 c).length ++
        asciiAt m (o + p + (utf8 c).length) (l - p - (utf8 c).length) := by
      rw [← asciiAt_append]; congr 1; omega
    rw [e2] at h4
    exact List.append_inj_left h4 (by rw [length_ascii])

theorem DecAt.congr {m m' : Mem} {a c : Nat} (hs : m'.size = m.size)
    (hb : ∀ i, a ≤ i → i < a + (utf8 c).length → m'.byte i = m.byte i) (h : DecAt m a c) :
    DecAt m' a c := by
  obtain ⟨h1, h2, h3⟩ := h
  exact ⟨h1, by rw [hs]; exact h2, (asciiAt_congr hb).trans h3⟩

theorem scalarsAt_snoc (m : Mem) (a n : Nat) :
    scalarsAt m a (n + 1) = scalarsAt m a n ++ [beNat (bytesAt m (a + 4 * n) 4)] := by
  induction n generalizing a with
  | zero => simp [scalarsAt]
  | succ n ih =>
    rw [scalarsAt, ih, scalarsAt, show a + 4 + 4 * n = a + 4 * (n + 1) by omega]; rfl

theorem scalarsAt_congr {m m' : Mem} {a n : Nat} (h : ∀ i, a ≤ i → i < a + 4 * n → m.byte i = m'.byte i) :
    scalarsAt m a n = scalarsAt m' a n := by
  induction n generalizing a with
  | zero => rfl
  | succ n ih =>
    rw [scalarsAt, scalarsAt, ih, bytesAt_congr]
    · intro b hb; exact h _ (by omega) (by omega)
    · intro i h1 h2; exact h i (by omega) (by omega)

/-- The outcomes: the decoded text, or none or a trap when the bytes are not well formed. -/
def DecRes (o l out : BitVec 32) (mx : Nat) (g : Store σ) (c : CRes σ) : Prop :=
  ∃ m', Same g.mem m' out.toNat (4 * mx) ∧
    ((∃ cs, WF (asciiAt g.mem o.toNat l.toNat) mx cs ∧ scalarsAt m' out.toNat cs.length = cs ∧
      c = .ret [.i32 1#32, .i32 out, .i32 (BitVec.ofNat 32 (4 * cs.length))] (g.setMem m')) ∨
     ((∀ cs, ¬ WF (asciiAt g.mem o.toNat l.toNat) mx cs) ∧
      (c = .ret [.i32 0#32, .i32 0#32, .i32 0#32] (g.setMem m') ∨ c = .trap (g.setMem m'))))

theorem utf8_to_string_core (o l out ml : BitVec 32) (ho : o.toNat + l.toNat ≤ g.mem.size)
    (hsz : g.mem.size < 2 ^ 32) (hml : ml.toNat < 2 ^ 31)
    (hout : out.toNat + 4 * ml.toNat ≤ g.mem.size)
    (hd : o.toNat + l.toNat ≤ out.toNat ∨ out.toNat + 4 * ml.toNat ≤ o.toNat) :
    Call M (.std .utf8_to_string_utf8) [.i32 o, .i32 l, .i32 out, .i32 ml] g
      (DecRes o l out ml.toNat g) := by
  rw [call_std]
  simp only [stdFunc, Std.utf8_to_string_utf8]
  rw [utf8_to_string_utf8_eq]
  wpy
  by_cases h0 : l = 0#32
  · subst h0
    wif rfl
    exact ⟨g.mem, Same.refl .., .inl ⟨[], ⟨by simp, rfl, by simp⟩, rfl, rfl⟩⟩
  wif h0
  have hl0 : l.toNat ≠ 0 := fun e => h0 (BitVec.eq_of_toNat_eq (by simpa using e))
  generalize hmx : ml.toNat = mx at *
  refine wp_loop_inv (DecInv o l out mx g) id mx ⟨[], 0, o, l, ml, 0#32, 0#32, out, g.mem, rfl, rfl,
    Same.refl .., rfl, by simp, hmx, rfl, by omega, by simp, by simp, .inl ⟨by omega, rfl, by simp⟩⟩ ?_
  clear hmx
  rintro n loc g' ⟨cs, p, a, l', ml', s, b, w, m', rfl, rfl, hsame, hscal, hn, hml', ha, hap, rfl, rfl, hAB⟩
  simp only [decCheck, List.cons_append, List.nil_append]
  wpy
  have hneg : (ml' - 1#32).toInt < 0 ↔ n = 0 := by
    rw [BitVec.toInt_eq_toNat_cond, BitVec.toNat_sub, BitVec.toNat_ofNat]
    split <;> omega
  have hmono : Same g.mem m' out.toNat (4 * mx) := hsame.mono (Nat.le_refl _) (by omega)
  have hm's := hsame.1
  -- when the text is well formed, its next character can be decoded here
  have hnext : ∀ cs', WF (asciiAt g.mem o.toNat l.toNat) mx cs' → p < l.toNat ∧
      ∃ c, DecAt m' a.toNat c ∧ p + (utf8 c).length ≤ l.toNat ∧ cs.length < cs'.length := by
    intro cs' hwf
    rcases hAB with ⟨hp, hpre, hcs⟩ | ⟨-, hno⟩
    · obtain ⟨c, rest, h1, h2, h3⟩ := next_char ho hp hpre hcs hwf
      refine ⟨hp, c, ?_, h3, by rw [h1]; simp⟩
      rw [ha]
      exact h2.congr hm's fun i h4 h5 => hsame.2 i (by omega)
    · exact absurd hwf (hno _ _)
  by_cases hz : (ml' - 1#32).toInt < 0
  · wif hz
    have hn0 := hneg.1 hz
    refine ⟨m', hmono, .inr ⟨fun cs' hwf => ?_, .inl rfl⟩⟩
    obtain ⟨-, c, -, -, h⟩ := hnext cs' hwf
    have := hwf.2.2
    omega
  wif hz
  have hn0 : n ≠ 0 := fun h => hz (hneg.2 h)
  apply dec_step
  swap
  · intro hno
    have hnw : ∀ cs', ¬ WF (asciiAt g.mem o.toNat l.toNat) mx cs' := by
      intro cs' hwf
      obtain ⟨-, c, h, -⟩ := hnext cs' hwf
      exact hno c h
    exact ⟨fun _ => ⟨m', hmono, .inr ⟨hnw, .inr rfl⟩⟩, fun _ => ⟨m', hmono, .inr ⟨hnw, .inl rfl⟩⟩⟩
  intro c b' hdec
  rw [mem_setMem] at hdec
  have hcs := hdec.1
  have hlen := hdec.2.1
  have hlpos := List.length_pos_iff.2 (utf8_ne_nil c.toNat)
  have hlle : (utf8 c.toNat).length ≤ 4 := by
    rw [utf8_len]; split <;> [skip; split <;> [skip; split]] <;> omega
  simp only [decTail]
  have hw : (out + BitVec.ofNat 32 (4 * cs.length)).toNat = out.toNat + 4 * cs.length := by
    rw [BitVec.toNat_add, BitVec.toNat_ofNat]; omega
  wpy
  rw [wp_i32store (by rw [mem_setMem]; omega), bswap_shift, hw, mem_setMem, Nat.add_zero]
  wpy
  rw [setMem_setMem]
  -- the new state
  have hsame2 : Same g.mem (m'.write (out.toNat + 4 * cs.length) 4 (rev4 c.toNat)) out.toNat
      (4 * (cs ++ [c.toNat]).length) := by
    rw [List.length_append, List.length_singleton]
    exact (hsame.mono (Nat.le_refl _) (by omega)).trans ((same_write ..).mono (by omega) (by omega))
  have hscal2 : scalarsAt (m'.write (out.toNat + 4 * cs.length) 4 (rev4 c.toNat)) out.toNat
      (cs ++ [c.toNat]).length = cs ++ [c.toNat] := by
    rw [List.length_append, List.length_singleton, scalarsAt_snoc, be_write4, rev4_rev4 _ c.isLt]
    congr 1
    refine Eq.trans (scalarsAt_congr fun i h1 h2 => ?_) hscal
    exact (same_write m' (out.toNat + 4 * cs.length) 4 (rev4 c.toNat)).2 i (by omega)
  have hlen2 : (cs ++ [c.toNat]).length = cs.length + 1 := by simp
  generalize hcs2 : cs ++ [c.toNat] = cs2 at *
  generalize hp2 : p + (utf8 c.toNat).length = p2 at *
  have hAB2 : (p2 ≤ l.toNat ∧ asciiAt g.mem o.toNat p2 = utf8Text cs2 ∧ ∀ c ∈ cs2, isScalar c) ∨
      (l.toNat < p2 ∧ ∀ n cs', ¬ WF (asciiAt g.mem o.toNat l.toNat) n cs') := by
    rcases hAB with ⟨hp, hpre, hall⟩ | ⟨hp, hno⟩
    · rcases Nat.lt_or_ge l.toNat p2 with h | h
      · refine .inr ⟨h, fun n cs' hwf => ?_⟩
        obtain ⟨d, rest, h1, h2, h3⟩ := next_char ho hp hpre hall hwf
        have h4 : DecAt m' a.toNat d := by
          rw [ha]; exact h2.congr hm's fun i h4 h5 => hsame.2 i (by omega)
        rw [hdec.unique h4] at hp2
        omega
      · refine .inl ⟨h, ?_, ?_⟩
        · rw [← hp2, ← hcs2, asciiAt_append, hpre, utf8Text, utf8Text, List.flatMap_append]
          congr 1
          have h5 := hdec.2.2
          rw [ha] at h5
          have e : asciiAt g.mem (o.toNat + p) (utf8 c.toNat).length =
              asciiAt m' (o.toNat + p) (utf8 c.toNat).length :=
            asciiAt_congr fun i h1 h2 => (hsame.2 i (by omega)).symm
          rw [e, h5]; simp
        · intro d hd
          rw [← hcs2] at hd
          rcases List.mem_append.1 hd with h1 | h1
          · exact hall d h1
          · rw [List.mem_singleton.1 h1]; exact hcs
    · exact .inr ⟨by omega, hno⟩
  have hl2 : l - BitVec.ofNat 32 p - BitVec.ofNat 32 (utf8 c.toNat).length = l - BitVec.ofNat 32 p2 := by
    rw [← hp2, BitVec.ofNat_add]
    simp only [BitVec.sub_eq_add_neg, BitVec.neg_add, BitVec.add_assoc]
  have hzero : l - BitVec.ofNat 32 p2 = 0#32 ↔ p2 = l.toNat := by
    rw [← BitVec.toNat_inj, BitVec.toNat_sub, BitVec.toNat_ofNat, BitVec.toNat_ofNat]
    have := l.isLt
    omega
  rw [hl2]
  have hw2 : out + BitVec.ofNat 32 (4 * cs.length) + 4#32 = out + BitVec.ofNat 32 (4 * cs2.length) := by
    rw [hlen2, Nat.mul_add, BitVec.ofNat_add, BitVec.add_assoc]
  rw [hw2]
  by_cases hend : l - BitVec.ofNat 32 p2 = 0#32
  · wif hend
    have hpl := hzero.1 hend
    rcases hAB2 with ⟨-, h1, h2⟩ | ⟨h, -⟩
    swap
    · omega
    refine ⟨_, hsame2.mono (Nat.le_refl _) (by omega), .inl ⟨cs2, ⟨h2, ?_, by omega⟩, hscal2, ?_⟩⟩
    · rw [← h1, hpl]
    · congr 5
      rw [BitVec.add_comm, BitVec.add_sub_cancel]
  · wif hend
    have hpl : p2 ≠ l.toNat := fun h => hend (hzero.2 h)
    refine ⟨n - 1, by simp only [id]; omega, cs2, p2, _, _, _, _, _, _, _, rfl, rfl, hsame2, hscal2,
      by omega, ?_, ?_, by omega, rfl, rfl, ?_⟩
    · rw [BitVec.toNat_sub, BitVec.toNat_ofNat]; omega
    · rw [BitVec.toNat_add, BitVec.toNat_ofNat]; omega
    · rcases hAB2 with ⟨h1, h2⟩ | h
      · exact .inl ⟨by omega, h2⟩
      · exact .inr h

/-- What is known after some iterations, whatever the length says: nothing outside the output was written
and the next address is at most four bytes per iteration after the first. -/
def LongInv (o l out : BitVec 32) (mx : Nat) (g : Store σ) (n : Nat) (loc : List Val) (g' : Store σ) : Prop :=
  ∃ (p i : Nat) (a l' ml s b w : BitVec 32) (m' : Mem),
    loc = [.i32 a, .i32 l', .i32 out, .i32 ml, .i32 s, .i32 b, .i32 w] ∧
    g' = g.setMem m' ∧ Same g.mem m' out.toNat (4 * i) ∧ i + n = mx ∧ ml.toNat = n ∧
    a.toNat = o.toNat + p ∧ p ≤ 4 * i ∧ l' = l - BitVec.ofNat 32 p ∧ w = out + BitVec.ofNat 32 (4 * i)

/-- The outcomes when there is memory for the longest text: none of them is a trap. -/
theorem utf8_to_string_total (o l out ml : BitVec 32) (ho : o.toNat + 4 * ml.toNat ≤ g.mem.size)
    (hsz : g.mem.size < 2 ^ 32) (hml : ml.toNat < 2 ^ 31) (hout : out.toNat + 4 * ml.toNat ≤ g.mem.size) :
    Call M (.std .utf8_to_string_utf8) [.i32 o, .i32 l, .i32 out, .i32 ml] g fun c =>
      ∃ m' ok a k, Same g.mem m' out.toNat (4 * ml.toNat) ∧ c = .ret [.i32 ok, .i32 a, .i32 k] (g.setMem m') ∧
        (4 * ml.toNat < l.toNat → ok = 0#32) := by
  rw [call_std]
  simp only [stdFunc, Std.utf8_to_string_utf8]
  rw [utf8_to_string_utf8_eq]
  wpy
  by_cases h0 : l = 0#32
  · subst h0
    wif rfl
    exact ⟨g.mem, _, _, _, Same.refl .., rfl, fun h => absurd h (by simp)⟩
  wif h0
  have hl0 : l.toNat ≠ 0 := fun e => h0 (BitVec.eq_of_toNat_eq (by simpa using e))
  generalize hmx : ml.toNat = mx at *
  refine wp_loop_inv (LongInv o l out mx g) id mx ⟨0, 0, o, l, ml, 0#32, 0#32, out, g.mem, rfl, rfl,
    Same.refl .., by simp, hmx, rfl, by simp, by simp, by simp⟩ ?_
  clear hmx
  rintro n loc g' ⟨p, i, a, l', ml', s, b, w, m', rfl, rfl, hsame, hn, hml', ha, hap, rfl, rfl⟩
  simp only [decCheck, List.cons_append, List.nil_append]
  wpy
  have hneg : (ml' - 1#32).toInt < 0 ↔ n = 0 := by
    rw [BitVec.toInt_eq_toNat_cond, BitVec.toNat_sub, BitVec.toNat_ofNat]
    split <;> omega
  have hmono : Same g.mem m' out.toNat (4 * mx) := hsame.mono (Nat.le_refl _) (by omega)
  have hm's := hsame.1
  by_cases hz : (ml' - 1#32).toInt < 0
  · wif hz
    exact ⟨m', _, _, _, hmono, rfl, fun _ => rfl⟩
  wif hz
  have hn0 : n ≠ 0 := fun h => hz (hneg.2 h)
  apply dec_step
  swap
  · intro hno
    exact ⟨fun h => by rw [mem_setMem] at h; omega, fun _ => ⟨m', _, _, _, hmono, rfl, fun _ => rfl⟩⟩
  intro c b' hdec
  have hlpos := List.length_pos_iff.2 (utf8_ne_nil c.toNat)
  have hlle : (utf8 c.toNat).length ≤ 4 := by
    rw [utf8_len]; split <;> [skip; split <;> [skip; split]] <;> omega
  simp only [decTail]
  have hw : (out + BitVec.ofNat 32 (4 * i)).toNat = out.toNat + 4 * i := by
    rw [BitVec.toNat_add, BitVec.toNat_ofNat]; omega
  wpy
  rw [wp_i32store (by rw [mem_setMem]; omega), bswap_shift, hw, mem_setMem, Nat.add_zero]
  wpy
  rw [setMem_setMem]
  have hsame2 : Same g.mem (m'.write (out.toNat + 4 * i) 4 (rev4 c.toNat)) out.toNat (4 * (i + 1)) :=
    (hsame.mono (Nat.le_refl _) (by omega)).trans ((same_write ..).mono (by omega) (by omega))
  generalize hp2 : p + (utf8 c.toNat).length = p2 at *
  have hl2 : l - BitVec.ofNat 32 p - BitVec.ofNat 32 (utf8 c.toNat).length = l - BitVec.ofNat 32 p2 := by
    rw [← hp2, BitVec.ofNat_add]
    simp only [BitVec.sub_eq_add_neg, BitVec.neg_add, BitVec.add_assoc]
  have hzero : l - BitVec.ofNat 32 p2 = 0#32 ↔ p2 = l.toNat := by
    rw [← BitVec.toNat_inj, BitVec.toNat_sub, BitVec.toNat_ofNat, BitVec.toNat_ofNat]
    have := l.isLt
    omega
  rw [hl2]
  have hw2 : out + BitVec.ofNat 32 (4 * i) + 4#32 = out + BitVec.ofNat 32 (4 * (i + 1)) := by
    rw [Nat.mul_add, BitVec.ofNat_add, BitVec.add_assoc]
  rw [hw2]
  by_cases hend : l - BitVec.ofNat 32 p2 = 0#32
  · wif hend
    have hpl := hzero.1 hend
    exact ⟨_, _, _, _, hsame2.mono (Nat.le_refl _) (by omega), rfl, fun h => by omega⟩
  · wif hend
    refine ⟨n - 1, by simp only [id]; omega, p2, i + 1, _, _, _, _, _, _, _, rfl, rfl, hsame2,
      by omega, ?_, ?_, by omega, rfl, rfl⟩
    · rw [BitVec.toNat_sub, BitVec.toNat_ofNat]; omega
    · rw [BitVec.toNat_add, BitVec.toNat_ofNat]; omega

end Wasm
