import Verif.Host.Literals

/-! Proofs about the literal memory. -/

namespace Host
open Wasm Spec

/-- The bytes a literal stands for; space reserved for later has none. -/
def litBytes : Lit → Option (List Byte)
  | .ascii d => some d
  | .utf8 cs => some (cs.flatMap beBytes4)
  | .name s => some s
  | .bytes bs => some bs
  | .int z => some (intBytes z)
  | .uint n => some (intBytes n)
  | .principal p => some (principalBytes p)
  | .buff bs => some bs
  | .ref o l => some (leBytes 4 o ++ leBytes 4 l)
  | .reserve _ => none

/-- Identifiers never contain a double quote in front. -/
def litOk : Lit → Prop
  | .name s => s.head? ≠ some 34#8
  | _ => True

def KeyFor : LitKey → List Byte → Prop
  | .ascii s, bs => (s = bs ∧ s.head? ≠ some 34#8) ∨ s = asciiKey bs
  | .utf8 cs, bs => bs = cs.flatMap beBytes4
  | .bytes b, bs => b = bs

/-- Inverse of `escapeByte` on the front of a list. -/
def unescape : List Byte → Byte
  | [] => 0#8
  | a :: l => if a = 92#8 then
      match l with
      | [] => 0#8
      | c :: l => if c = 116#8 then 9#8 else if c = 114#8 then 13#8 else if c = 110#8 then 10#8
        else if c = 120#8 then
          match l with
          | h :: k :: _ => BitVec.ofNat 8 ((if h.toNat < 87 then h.toNat - 48 else h.toNat - 87) * 16
            + (if k.toNat < 87 then k.toNat - 48 else k.toNat - 87))
          | _ => 0#8
        else c
    else a

theorem unescape_escape (b : Byte) (x : List Byte) : unescape (escapeByte b ++ x) = b := by
  have hx : ∀ b : Byte, BitVec.ofNat 8 ((if (hexDigit (b.toNat / 16)).toNat < 87 then
      (hexDigit (b.toNat / 16)).toNat - 48 else (hexDigit (b.toNat / 16)).toNat - 87) * 16
      + (if (hexDigit (b.toNat % 16)).toNat < 87 then (hexDigit (b.toNat % 16)).toNat - 48
        else (hexDigit (b.toNat % 16)).toNat - 87)) = b := by decide +kernel
  unfold escapeByte
  split
  · subst b; rfl
  split
  · subst b; rfl
  split
  · subst b; rfl
  split
  · subst b; rfl
  split
  · subst b; rfl
  split
  · subst b; rfl
  split
  · rename_i h _; simp only [List.cons_append, unescape, if_neg h]
  · exact hx b

theorem escape_inj_head (a b : Byte) (x y : List Byte) (h : escapeByte a ++ x = escapeByte b ++ y) :
    a = b ∧ x = y := by
  have := congrArg unescape h
  rw [unescape_escape, unescape_escape] at this
  subst this
  exact ⟨rfl, List.append_cancel_left h⟩

theorem escape_ne (a : Byte) (x : List Byte) : escapeByte a ++ x ≠ [34#8] := by
  have h1 : ∀ a : Byte, escapeByte a ≠ [] ∧ (escapeByte a).head? ≠ some 34#8 := by decide +kernel
  have h := h1 a
  intro e
  cases he : escapeByte a with
  | nil => exact h.1 he
  | cons b bs => rw [he] at e h; simp at e h; exact h e.1

theorem asciiKey_inj : ∀ {x y : List Byte}, asciiKey x = asciiKey y → x = y := by
  intro x y h
  unfold asciiKey at h
  have h := (List.cons.injEq _ _ _ _ ▸ h).2
  induction x generalizing y with
  | nil =>
    cases y with
    | nil => rfl
    | cons b bs => simp only [List.flatMap_nil, List.flatMap_cons, List.nil_append, List.append_assoc] at h; exact absurd h.symm (escape_ne _ _)
  | cons a as ih =>
    cases y with
    | nil => simp only [List.flatMap_nil, List.flatMap_cons, List.nil_append, List.append_assoc] at h; exact absurd h (escape_ne _ _)
    | cons b bs =>
      simp only [List.flatMap_cons, List.append_assoc] at h
      obtain ⟨rfl, h2⟩ := escape_inj_head _ _ _ _ h
      rw [ih (by simp [asciiKey, h2]) h2]

theorem KeyFor.unique {k : LitKey} {b b' : List Byte} (h : KeyFor k b) (h' : KeyFor k b') : b = b' := by
  cases k with
  | ascii s =>
    rcases h with ⟨h, q⟩ | h <;> rcases h' with ⟨h', q'⟩ | h'
    · rw [← h, ← h']
    · exact absurd (by rw [h']; rfl) q
    · exact absurd (by rw [h]; rfl) q'
    · exact asciiKey_inj (h.symm.trans h')
  | utf8 cs => rw [KeyFor] at h h'; rw [h, h']
  | bytes b => rw [KeyFor] at h h'; rw [← h, ← h']

/-- Segments lie one after another between `lo` and `hi`. -/
def Chain : Nat → Nat → List (Nat × List Byte) → Prop
  | lo, hi, [] => lo ≤ hi
  | lo, hi, s :: ss => lo ≤ s.1 ∧ Chain (s.1 + s.2.length) hi ss

theorem Chain.mono {lo hi hi' : Nat} {ss} (h : Chain lo hi ss) (hh : hi ≤ hi') : Chain lo hi' ss := by
  induction ss generalizing lo with
  | nil => exact Nat.le_trans h hh
  | cons s ss ih => exact ⟨h.1, ih h.2⟩

theorem Chain.le {lo hi : Nat} {ss} (h : Chain lo hi ss) : lo ≤ hi := by
  induction ss generalizing lo with
  | nil => exact h
  | cons s ss ih => have := ih h.2; have := h.1; omega

theorem Chain.mem {lo hi : Nat} {ss} (h : Chain lo hi ss) {s} (hs : s ∈ ss) :
    lo ≤ s.1 ∧ s.1 + s.2.length ≤ hi := by
  induction ss generalizing lo with
  | nil => simp at hs
  | cons t ss ih =>
    rcases List.mem_cons.1 hs with rfl | hs
    · exact ⟨h.1, h.2.le⟩
    · have := ih h.2 hs; have := h.1; omega

theorem Chain.snoc {lo hi : Nat} {ss} (h : Chain lo hi ss) (d : List Byte) :
    Chain lo (hi + d.length) (ss ++ [(hi, d)]) := by
  induction ss generalizing lo with
  | nil => exact ⟨h, Nat.le_refl _⟩
  | cons t ss ih => exact ⟨h.1, ih h.2⟩

theorem image_below {ss : List (Nat × List Byte)} : ∀ {lo hi : Nat} {m : Mem}, Chain lo hi ss →
    ∀ i, i < lo → (Lits.image m ss).byte i = m.byte i := by
  induction ss with
  | nil => intros; rfl
  | cons s ss ih =>
    intro lo hi m h i hi'
    show (Lits.image (put m s.1 s.2) ss).byte i = _
    rw [ih h.2 i (by have := h.1; omega)]
    exact put_out (by have := h.1; omega)

theorem image_mem {ss : List (Nat × List Byte)} : ∀ {lo hi : Nat} {m : Mem}, Chain lo hi ss →
    ∀ s ∈ ss, bytesAt (Lits.image m ss) s.1 s.2.length = s.2 := by
  induction ss with
  | nil => intro _ _ _ _ s hs; simp at hs
  | cons t ss ih =>
    intro lo hi m h s hs
    rcases List.mem_cons.1 hs with rfl | hs
    · show bytesAt (Lits.image (put m s.1 s.2) ss) s.1 s.2.length = s.2
      rw [bytesAt_eq (m := put m s.1 s.2) (m' := Lits.image (put m s.1 s.2) ss) ?_, bytesAt_put]
      intro i h1 h2
      exact image_below h.2 i (by omega)
    · exact ih h.2 s hs

structure Inv (L : Lits) : Prop where
  chain : Chain END_OF_STANDARD_DATA L.fin L.segs
  keys : ∀ k o, (k, o) ∈ L.map → ∃ bs, KeyFor k bs ∧ (o, bs) ∈ L.segs

theorem inv_init : Inv Lits.init := ⟨Nat.le_refl _, by simp [Lits.init]⟩

theorem lookup_mem {k : LitKey} {o : Nat} : ∀ {l : List (LitKey × Nat)}, l.lookup k = some o → (k, o) ∈ l
  | (k', o') :: l, h => by
    simp only [List.lookup] at h
    split at h
    · rename_i e; simp at h; simp at e; subst e; subst h; exact List.mem_cons_self
    · exact List.mem_cons_of_mem _ (lookup_mem h)

/-- What adding one literal does. -/
theorem add_cases {L : Lits} (hI : Inv L) {l : Lit} (hl : litOk l) {L' : Lits} {o n : Nat}
    (h : L.add l = (L', o, n)) :
    Inv L' ∧
    ((L' = L ∧ (∃ bs, litBytes l = some bs ∧ n = bs.length ∧ (o, bs) ∈ L.segs)) ∨
     (o = L.fin ∧ L'.fin = o + n ∧
      ((litBytes l = none ∧ L'.segs = L.segs) ∨
       ∃ bs, litBytes l = some bs ∧ n = bs.length ∧ L'.segs = L.segs ++ [(o, bs)]))) := by
  have push : ∀ d : List Byte, litBytes l = some d → (L', o, n) = (L.push d, L.fin, d.length) → 
    Inv L' ∧
    ((L' = L ∧ (∃ bs, litBytes l = some bs ∧ n = bs.length ∧ (o, bs) ∈ L.segs)) ∨
     (o = L.fin ∧ L'.fin = o + n ∧
      ((litBytes l = none ∧ L'.segs = L.segs) ∨
       ∃ bs, litBytes l = some bs ∧ n = bs.length ∧ L'.segs = L.segs ++ [(o, bs)]))) := by
    intro d hd e
    simp only [Prod.mk.injEq] at e
    obtain ⟨rfl, rfl, rfl⟩ := e
    refine ⟨⟨hI.chain.snoc d, ?_⟩, .inr ⟨rfl, rfl, .inr ⟨d, hd, rfl, rfl⟩⟩⟩
    intro k o ho
    obtain ⟨bs, h1, h2⟩ := hI.keys k o ho
    exact ⟨bs, h1, List.mem_append_left _ h2⟩
  have intern : ∀ (k : LitKey) (d : List Byte), litBytes l = some d → KeyFor k d →
    (L', o, n) = L.intern k d → 
    Inv L' ∧
    ((L' = L ∧ (∃ bs, litBytes l = some bs ∧ n = bs.length ∧ (o, bs) ∈ L.segs)) ∨
     (o = L.fin ∧ L'.fin = o + n ∧
      ((litBytes l = none ∧ L'.segs = L.segs) ∨
       ∃ bs, litBytes l = some bs ∧ n = bs.length ∧ L'.segs = L.segs ++ [(o, bs)]))) := by
    intro k d hd hk e
    unfold Lits.intern at e
    split at e
    · rename_i off hoff
      simp only [Prod.mk.injEq] at e
      obtain ⟨rfl, rfl, rfl⟩ := e
      obtain ⟨bs, h1, h2⟩ := hI.keys _ _ (lookup_mem hoff)
      obtain rfl := hk.unique h1
      exact ⟨hI, .inl ⟨rfl, d, hd, rfl, h2⟩⟩
    · simp only [Prod.mk.injEq] at e
      obtain ⟨rfl, rfl, rfl⟩ := e
      refine ⟨⟨hI.chain.snoc d, ?_⟩, .inr ⟨rfl, rfl, .inr ⟨d, hd, rfl, rfl⟩⟩⟩
      intro k' o' ho
      rcases List.mem_cons.1 ho with ho | ho
      · simp only [Prod.mk.injEq] at ho
        obtain ⟨rfl, rfl⟩ := ho
        exact ⟨d, hk, List.mem_append_right _ (by simp)⟩
      · obtain ⟨bs, h1, h2⟩ := hI.keys k' o' ho
        exact ⟨bs, h1, List.mem_append_left _ h2⟩
  cases l with
  | ascii d => exact intern (.ascii (asciiKey d)) d rfl (Or.inr rfl) h.symm
  | utf8 cs => exact intern (.utf8 cs) _ rfl (by rfl) h.symm
  | name s => exact intern (.ascii s) s rfl (Or.inl ⟨rfl, hl⟩) h.symm
  | bytes bs => exact intern (.bytes bs) bs rfl (by rfl) h.symm
  | int z => exact push _ rfl (by rw [← h]; simp [Lits.add])
  | uint z => exact push _ rfl (by rw [← h]; simp [Lits.add])
  | principal p => exact push _ rfl h.symm
  | buff bs => exact push _ rfl h.symm
  | ref a b => exact push _ rfl (by rw [← h]; simp [Lits.add])
  | reserve k =>
    simp only [Lits.add, Prod.mk.injEq] at h
    obtain ⟨rfl, rfl, rfl⟩ := h
    exact ⟨⟨hI.chain.mono (by simp), hI.keys⟩, .inr ⟨rfl, rfl, .inl ⟨rfl, rfl⟩⟩⟩

/-- A result stays good: literal `l` was answered with `(o, n)`. -/
def Answer (L : Lits) (l : Lit) (r : Nat × Nat) : Prop :=
  END_OF_STANDARD_DATA ≤ r.1 ∧ r.1 + r.2 ≤ L.fin ∧
  ∀ bs, litBytes l = some bs → r.2 = bs.length ∧ (r.1, bs) ∈ L.segs

/-- Later states extend earlier ones above their end. -/
def Ext (L L' : Lits) : Prop :=
  L.fin ≤ L'.fin ∧ ∃ ss, L'.segs = L.segs ++ ss ∧ ∀ s ∈ ss, L.fin ≤ s.1

theorem Ext.refl (L : Lits) : Ext L L := ⟨Nat.le_refl _, [], by simp, by simp⟩

theorem Ext.trans {A B C : Lits} (h : Ext A B) (h' : Ext B C) : Ext A C := by
  obtain ⟨h1, s1, e1, p1⟩ := h
  obtain ⟨h2, s2, e2, p2⟩ := h'
  refine ⟨by omega, s1 ++ s2, by rw [e2, e1, List.append_assoc], ?_⟩
  intro s hs
  rcases List.mem_append.1 hs with hs | hs
  · exact p1 s hs
  · have := p2 s hs; omega

theorem Answer.ext {L L' : Lits} {l r} (h : Answer L l r) (he : Ext L L') : Answer L' l r := by
  obtain ⟨h1, h2, h3⟩ := h
  obtain ⟨e1, ss, e2, _⟩ := he
  refine ⟨h1, by omega, fun bs hb => ?_⟩
  obtain ⟨a, b⟩ := h3 bs hb
  exact ⟨a, by rw [e2]; exact List.mem_append_left _ b⟩

theorem add_answer {L : Lits} (hI : Inv L) {l : Lit} (hl : litOk l) {L' : Lits} {r : Nat × Nat}
    (h : L.add l = (L', r)) : Inv L' ∧ Ext L L' ∧ Answer L' l r := by
  obtain ⟨o, n⟩ := r
  obtain ⟨hI', hc⟩ := add_cases hI hl h
  refine ⟨hI', ?_⟩
  have hle := hI.chain.le
  rcases hc with ⟨rfl, bs, hb, rfl, hs⟩ | ⟨rfl, hf, ⟨hn, hs⟩ | ⟨bs, hb, hlen, hs⟩⟩
  · have := hI.chain.mem hs
    refine ⟨Ext.refl _, this.1, this.2, fun bs' hb' => ?_⟩
    rw [hb] at hb'; cases hb'; exact ⟨rfl, hs⟩
  · exact ⟨⟨by omega, [], by simp [hs], by simp⟩, hle, by simp [hf], fun bs hb => by rw [hn] at hb; cases hb⟩
  · refine ⟨⟨by omega, _, hs, by simp⟩, hle, by simp [hf], fun bs' hb' => ?_⟩
    rw [hb] at hb'; cases hb'; exact ⟨hlen, by rw [hs]; simp⟩

theorem addAll_answer : ∀ {ls : List Lit} {L L' : Lits} {rs : List (Nat × Nat)}, Inv L →
    (∀ l ∈ ls, litOk l) → L.addAll ls = (L', rs) →
    Inv L' ∧ Ext L L' ∧ rs.length = ls.length ∧
      ∀ (i : Nat) l r, ls[i]? = some l → rs[i]? = some r → Answer L' l r := by
  intro ls
  induction ls with
  | nil =>
    intro L L' rs hI _ h
    simp only [Lits.addAll, Prod.mk.injEq] at h
    obtain ⟨rfl, rfl⟩ := h
    exact ⟨hI, Ext.refl _, rfl, by simp⟩
  | cons l ls ih =>
    intro L L' rs hI hok h
    simp only [Lits.addAll] at h
    cases h1 : L.add l with
    | mk L1 r =>
      cases h2 : L1.addAll ls with
      | mk L2 rs' =>
        simp only [h1, h2, Prod.mk.injEq] at h
        obtain ⟨rfl, rfl⟩ := h
        obtain ⟨i1, e1, a1⟩ := add_answer hI (hok l (by simp)) h1
        obtain ⟨i2, e2, len2, a2⟩ := ih i1 (fun x hx => hok x (List.mem_cons_of_mem _ hx)) h2
        refine ⟨i2, e1.trans e2, by simp [len2], ?_⟩
        intro i l' r' hl hr
        cases i with
        | zero =>
          simp only [List.getElem?_cons_zero, Option.some.injEq] at hl hr
          subst hl; subst hr
          exact a1.ext e2
        | succ i => exact a2 i l' r' (by simpa using hl) (by simpa using hr)

/-- In a state reached from `A`, every answer is inside a segment of `A` or above `A.fin`. -/
theorem addAll_above : ∀ {ls : List Lit} {A L L' : Lits} {rs : List (Nat × Nat)}, Inv L → Ext A L →
    (∀ l ∈ ls, litOk l) → L.addAll ls = (L', rs) →
    ∀ r ∈ rs, (∃ bs, (r.1, bs) ∈ A.segs ∧ r.2 = bs.length) ∨ A.fin ≤ r.1 := by
  intro ls
  induction ls with
  | nil =>
    intro A L L' rs _ _ _ h r hr
    simp only [Lits.addAll, Prod.mk.injEq] at h
    obtain ⟨rfl, rfl⟩ := h
    simp at hr
  | cons l ls ih =>
    intro A L L' rs hI hE hok h r hr
    simp only [Lits.addAll] at h
    cases h1 : L.add l with
    | mk L1 r1 =>
      cases h2 : L1.addAll ls with
      | mk L2 rs' =>
        simp only [h1, h2, Prod.mk.injEq] at h
        obtain ⟨rfl, rfl⟩ := h
        obtain ⟨i1, e1, a1⟩ := add_answer hI (hok l (by simp)) h1
        rcases List.mem_cons.1 hr with rfl | hr
        · obtain ⟨o, n⟩ := r
          rcases (add_cases hI (hok l (by simp)) h1).2 with ⟨_, bs, hb, rfl, hs⟩ | ⟨rfl, _⟩
          · obtain ⟨_, ss, e, p⟩ := hE
            rw [e] at hs
            rcases List.mem_append.1 hs with hs | hs
            · exact .inl ⟨bs, hs, rfl⟩
            · exact .inr (p _ hs)
          · exact .inr hE.1
        · exact ih i1 (hE.trans e1) (fun x hx => hok x (List.mem_cons_of_mem _ hx)) h2 r hr

end Host
