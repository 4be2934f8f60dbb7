import Verif.Host.LiteralsProof
import Verif.Host.Errors
import Verif.Host.Trait
import Verif.Wasm.Seq
import Verif.Wasm.Tac
import Verif.Props.Arith

/-! Properties C25, C26, C27, C44: error codes, literal memory, argument counts, trait identifiers. -/

namespace Props
open Wasm Spec Host

/-! ## C44 -/

theorem lenByte_toNat {n : Name} (h : n.length ≤ 128) : (lenByte n).toNat = n.length := by
  simp [lenByte]; omega

theorem splitAt_append (xs ys : List Byte) {n : Nat} (h : xs.length = n) :
    splitAtChecked n (xs ++ ys) = some (xs, ys) := by
  subst h; simp [splitAtChecked]

theorem clarityName_len {n : Name} (h : clarityName (n.map BitVec.toNat) = true) : n.length ≤ 128 := by
  unfold clarityName at h
  simp only [Bool.and_eq_true, decide_eq_true_eq, List.length_map] at h
  exact h.1

/-- **C44.** Every trait identifier with valid parts survives encoding and decoding. -/
theorem C44_encode_decode (t : TraitId) (ht : t.Ok) : traitFromBytes (traitAsBytes t) = some t := by
  obtain ⟨⟨⟨hv, hh⟩, hc⟩, hn⟩ := ht
  have hl := clarityName_len hn
  unfold traitFromBytes traitAsBytes
  simp only [List.cons_append, List.nil_append, List.append_assoc, splitFirst,
    Option.bind_eq_bind, Option.bind_some]
  rw [splitAt_append _ _ hh]
  simp only [Option.bind_some, newStdPrincipal, if_pos hv]
  rw [splitAt_append _ _ (lenByte_toNat hc.2).symm]
  simp only [Option.bind_some, newContractName, lenByte_toNat hl]
  rw [if_pos (by exact hc)]
  simp only [Option.bind_some, newClarityName, hn, if_true, ne_eq, not_true, if_false]

/-- **C44**, the other direction: bytes that decode are the encoding of what they decode to (so no
two byte strings decode to the same identifier), and only valid identifiers come out. -/
theorem C44_decode_encode (bs : List Byte) (t : TraitId) (h : traitFromBytes bs = some t) :
    traitAsBytes t = bs ∧ t.Ok := by
  unfold traitFromBytes at h
  cases bs with
  | nil => simp [splitFirst] at h
  | cons v bs =>
  simp only [splitFirst, Option.bind_eq_bind, Option.bind_some, splitAtChecked] at h
  by_cases h20 : 20 ≤ bs.length
  swap
  · simp [h20] at h
  simp only [h20, if_true, Option.bind_some, newStdPrincipal] at h
  by_cases hv : v.toNat < 32
  swap
  · simp [hv] at h
  simp only [hv, if_true, Option.bind_some] at h
  cases hd : bs.drop 20 with
  | nil => simp [hd] at h
  | cons cl cs =>
  simp only [hd, Option.bind_some] at h
  by_cases hcl : cl.toNat ≤ cs.length
  swap
  · simp [hcl] at h
  simp only [hcl, if_true, Option.bind_some, newContractName] at h
  split at h
  swap
  · simp at h
  rename_i hcn
  simp only [Option.bind_some] at h
  cases hd2 : cs.drop cl.toNat with
  | nil => simp [hd2] at h
  | cons tl ts =>
  simp only [hd2, Option.bind_some, newClarityName] at h
  by_cases htl : ts.length = tl.toNat
  swap
  · simp [htl] at h
  simp only [htl, ne_eq, not_true, if_false] at h
  split at h
  swap
  · simp at h
  rename_i htn
  simp only [Option.bind_some, Option.some.injEq] at h
  subst h
  have htk : (cs.take cl.toNat).length = cl.toNat := by simp [hcl]
  refine ⟨?_, ⟨⟨⟨hv, by simp [h20]⟩, ?_⟩, htn⟩⟩
  · simp only [traitAsBytes, lenByte, htk, htl, BitVec.ofNat_toNat, BitVec.setWidth_eq,
      List.cons_append, List.nil_append, List.append_assoc]
    rw [← hd2, List.take_append_drop, ← hd, List.take_append_drop]
  · refine ⟨hcn.1, ?_⟩
    simpa using hcn.2

/-- `SP….foo.t`: an identifier meeting the hypothesis of `C44_encode_decode`. -/
def hostTrait : TraitId := ⟨⟨⟨22#8, List.replicate 20 7#8⟩, [102#8, 111#8, 111#8]⟩, [116#8]⟩
example : hostTrait.Ok := ⟨⟨⟨by decide, by decide⟩, by decide, by decide⟩, by decide⟩
example : traitFromBytes (traitAsBytes hostTrait) = some hostTrait :=
  C44_encode_decode _ ⟨⟨⟨by decide, by decide⟩, by decide, by decide⟩, by decide⟩

/-! ## C26 -/

/-- **C26.** Whatever literals a contract contains, in whatever order: the `i`-th one is answered
with an address and length such that, after instantiation, exactly its bytes are found there; the
area starts after the runtime's own data and ends before the final end of the literal memory. -/
theorem C26_found (ls : List Lit) (hok : ∀ l ∈ ls, litOk l) (L : Lits) (rs : List (Nat × Nat))
    (h : Lits.init.addAll ls = (L, rs)) (m : Mem) (i : Nat) (l : Lit) (hl : ls[i]? = some l) :
    ∃ o n, rs[i]? = some (o, n) ∧ 1352 ≤ o ∧ o + n ≤ L.fin ∧
      ∀ bs, litBytes l = some bs → n = bs.length ∧ bytesAt (Lits.image m L.segs) o n = bs := by
  obtain ⟨hI, _, hlen, ha⟩ := addAll_answer inv_init hok h
  have hi : i < rs.length := by rw [hlen]; exact (List.getElem?_eq_some_iff.1 hl).1
  obtain ⟨⟨o, n⟩, hr⟩ : ∃ r, rs[i]? = some r := ⟨rs[i], List.getElem?_eq_getElem hi⟩
  obtain ⟨a1, a2, a3⟩ := ha i l (o, n) hl hr
  refine ⟨o, n, hr, a1, a2, fun bs hb => ?_⟩
  obtain ⟨b1, b2⟩ := a3 bs hb
  refine ⟨b1, ?_⟩
  have := image_mem (m := m) hI.chain _ b2
  simp only at b1 b2 this
  rw [b1]; exact this

/-- **C26**, nothing below the end of the runtime's data is touched by literals. -/
theorem C26_std_data (ls : List Lit) (hok : ∀ l ∈ ls, litOk l) (L : Lits) (rs : List (Nat × Nat))
    (h : Lits.init.addAll ls = (L, rs)) (m : Mem) (i : Nat) (hi : i < 1352) :
    (Lits.image m L.segs).byte i = m.byte i := by
  obtain ⟨hI, _⟩ := addAll_answer inv_init hok h
  exact image_below hI.chain i hi

theorem addAll_append (L : Lits) (xs ys : List Lit) :
    L.addAll (xs ++ ys) =
      let (L1, r1) := L.addAll xs
      let (L2, r2) := L1.addAll ys
      (L2, r1 ++ r2) := by
  induction xs generalizing L with
  | nil => rfl
  | cons x xs ih =>
    simp only [List.cons_append, Lits.addAll]
    rw [ih]

/-- **C26**, areas reserved for values computed at run time (or for any other literal that is not
shared) overlap no literal, whether it comes before or after. -/
theorem C26_reserved_disjoint (xs ys : List Lit) (k : Nat) (hx : ∀ l ∈ xs, litOk l)
    (hy : ∀ l ∈ ys, litOk l) (L : Lits) (rs : List (Nat × Nat))
    (h : Lits.init.addAll (xs ++ .reserve k :: ys) = (L, rs)) :
    ∃ o r1 r2, rs = r1 ++ (o, k) :: r2 ∧ r1.length = xs.length ∧
      ∀ r ∈ r1 ++ r2, r.1 + r.2 ≤ o ∨ o + k ≤ r.1 := by
  rw [addAll_append] at h
  cases h1 : Lits.init.addAll xs with
  | mk L1 r1 =>
  obtain ⟨hI1, _, hlen1, ha1⟩ := addAll_answer inv_init hx h1
  have h2 : L1.add (.reserve k) = ({ L1 with fin := L1.fin + k }, L1.fin, k) := rfl
  simp only [h1, Lits.addAll, h2] at h
  generalize hL2 : ({ L1 with fin := L1.fin + k } : Lits) = L2 at h h2
  cases h3 : L2.addAll ys with
  | mk L3 r2 =>
  simp only [h3, Prod.mk.injEq] at h
  obtain ⟨rfl, rfl⟩ := h
  obtain ⟨hI2, _, _⟩ := add_answer hI1 (l := .reserve k) trivial h2
  refine ⟨L1.fin, r1, r2, rfl, hlen1, ?_⟩
  intro r hr
  rcases List.mem_append.1 hr with hr | hr
  · left
    obtain ⟨i, hi, he⟩ := List.mem_iff_getElem.1 hr
    have hi' : i < xs.length := by omega
    exact (ha1 i xs[i] r (List.getElem?_eq_getElem hi') (by rw [List.getElem?_eq_getElem hi, he])).2.1
  · rcases addAll_above hI2 (Ext.refl L2) hy h3 r hr with ⟨bs, hb, hn⟩ | hb
    · left
      have : (r.1, bs) ∈ L1.segs := by rw [← hL2] at hb; exact hb
      have := hI1.chain.mem this
      simp only at this; omega
    · right; rw [← hL2] at hb; simpa using hb

/-- The key of a shared literal. -/
def sharedKey : Lit → Option LitKey
  | .ascii d => some (.ascii (asciiKey d))
  | .utf8 cs => some (.utf8 cs)
  | .name s => some (.ascii s)
  | .bytes bs => some (.bytes bs)
  | _ => none

theorem add_map_mono {L L' : Lits} {l : Lit} {r : Nat × Nat} (h : L.add l = (L', r)) {k : LitKey}
    {o : Nat} (hk : L.map.lookup k = some o) : L'.map.lookup k = some o := by
  have intern : ∀ k' d, L.intern k' d = (L', r) → L'.map.lookup k = some o := by
    intro k' d h
    unfold Lits.intern at h
    split at h
    · simp only [Prod.mk.injEq] at h; rw [← h.1]; exact hk
    · rename_i hn
      simp only [Prod.mk.injEq] at h
      rw [← h.1]
      simp only [List.lookup]
      split
      · rename_i e; simp at e; subst e; rw [hn] at hk; cases hk
      · exact hk
  cases l <;> first
    | exact intern _ _ h
    | (simp only [Lits.add, Lits.push, Prod.mk.injEq] at h; rw [← h.1]; exact hk)

theorem addAll_map_mono {ls : List Lit} : ∀ {L L' : Lits} {rs : List (Nat × Nat)},
    L.addAll ls = (L', rs) → ∀ {k : LitKey} {o : Nat}, L.map.lookup k = some o →
    L'.map.lookup k = some o := by
  induction ls with
  | nil => intro L L' rs h k o hk; simp only [Lits.addAll, Prod.mk.injEq] at h; rw [← h.1]; exact hk
  | cons l ls ih =>
    intro L L' rs h k o hk
    simp only [Lits.addAll] at h
    cases h1 : L.add l with
    | mk L1 r =>
      cases h2 : L1.addAll ls with
      | mk L2 rs' =>
        simp only [h1, h2, Prod.mk.injEq] at h
        rw [← h.1]; exact ih h2 (add_map_mono h1 hk)

theorem add_shared {L L' : Lits} {l : Lit} {r : Nat × Nat} (h : L.add l = (L', r)) {k : LitKey}
    (hk : sharedKey l = some k) : L'.map.lookup k = some r.1 := by
  have intern : ∀ d, L.intern k d = (L', r) → L'.map.lookup k = some r.1 := by
    intro d h
    unfold Lits.intern at h
    split at h
    · rename_i hn; simp only [Prod.mk.injEq] at h; rw [← h.1, ← h.2]; exact hn
    · simp only [Prod.mk.injEq] at h
      rw [← h.1, ← h.2]; simp [List.lookup]
  cases l <;> simp only [sharedKey, Option.some.injEq, reduceCtorEq] at hk <;> subst hk <;>
    exact intern _ h

theorem addAll_shared {ls : List Lit} : ∀ {L L' : Lits} {rs : List (Nat × Nat)},
    L.addAll ls = (L', rs) → ∀ (i : Nat) l r k, ls[i]? = some l → rs[i]? = some r →
    sharedKey l = some k → L'.map.lookup k = some r.1 := by
  induction ls with
  | nil => intro L L' rs h i l r k hl; simp at hl
  | cons l ls ih =>
    intro L L' rs h i l' r' k hl hr hk
    simp only [Lits.addAll] at h
    cases h1 : L.add l with
    | mk L1 r =>
      cases h2 : L1.addAll ls with
      | mk L2 rs' =>
        simp only [h1, h2, Prod.mk.injEq] at h
        obtain ⟨rfl, rfl⟩ := h
        cases i with
        | zero =>
          simp only [List.getElem?_cons_zero, Option.some.injEq] at hl hr
          subst hl; subst hr
          exact addAll_map_mono h2 (add_shared h1 hk)
        | succ i => exact ih h2 i l' r' k (by simpa using hl) (by simpa using hr) hk

/-- **C26**, sharing: two equal string literals, names or byte literals get the same address. -/
theorem C26_shared (ls : List Lit) (L : Lits) (rs : List (Nat × Nat))
    (h : Lits.init.addAll ls = (L, rs)) (i j : Nat) (l : Lit) (hi : ls[i]? = some l)
    (hj : ls[j]? = some l)
    (hl : (∃ d, l = .ascii d) ∨ (∃ cs, l = .utf8 cs) ∨ (∃ s, l = .name s) ∨ ∃ bs, l = .bytes bs)
    (r r' : Nat × Nat) (hr : rs[i]? = some r) (hr' : rs[j]? = some r') : r.1 = r'.1 := by
  obtain ⟨k, hk⟩ : ∃ k, sharedKey l = some k := by
    rcases hl with ⟨_, rfl⟩ | ⟨_, rfl⟩ | ⟨_, rfl⟩ | ⟨_, rfl⟩ <;> exact ⟨_, rfl⟩
  have h1 := addAll_shared h i l r k hi hr hk
  have h2 := addAll_shared h j l r' k hj hr' hk
  rw [h1] at h2; exact Option.some.inj h2

/-- **C26**, the memory requested is large enough for the literals, the call-stack frames and the
work space, and is whole pages. -/
theorem C26_memory (e f w : Nat) : e + f + w ≤ memoryBytes e f w ∧ 65536 ∣ memoryBytes e f w := by
  unfold memoryBytes
  simp only [Nat.reduceMul]
  refine ⟨?_, Nat.dvd_mul_left _ _⟩
  split <;> omega

/-- Buffer literals are not shared. -/
theorem C26_buff_not_shared : (Lits.init.addAll [.buff [1#8], .buff [1#8]]).2 = [(1352, 1), (1353, 1)] := by
  rfl

/-- A mixed list of literals satisfying the hypotheses. -/
def hostLits : List Lit :=
  [.ascii [97#8, 10#8], .name [102#8], .reserve 16, .utf8 [97, 128512], .ascii [97#8, 10#8], .int (-5)]
example : ∀ l ∈ hostLits, litOk l := by
  intro l hl
  simp only [hostLits, List.mem_cons, List.not_mem_nil, or_false] at hl
  rcases hl with rfl | rfl | rfl | rfl | rfl | rfl <;> simp [litOk]
example : (Lits.init.addAll hostLits).2 =
    [(1352, 2), (1354, 1), (1355, 16), (1371, 8), (1352, 2), (1379, 16)] := by rfl

/-! ## C27 -/

theorem addAll_keys {ls : List Lit} : ∀ {L L' : Lits} {rs : List (Nat × Nat)},
    L.addAll ls = (L', rs) → ∀ {k : LitKey}, L.map.lookup k = none →
    (∀ l ∈ ls, sharedKey l ≠ some k) → L'.map.lookup k = none := by
  induction ls with
  | nil => intro L L' rs h k hk _; simp only [Lits.addAll, Prod.mk.injEq] at h; rw [← h.1]; exact hk
  | cons l ls ih =>
    intro L L' rs h k hk hno
    simp only [Lits.addAll] at h
    cases h1 : L.add l with
    | mk L1 r =>
      cases h2 : L1.addAll ls with
      | mk L2 rs' =>
        simp only [h1, h2, Prod.mk.injEq] at h
        rw [← h.1]
        refine ih h2 ?_ (fun l' hl' => hno l' (List.mem_cons_of_mem _ hl'))
        have hn := hno l List.mem_cons_self
        have intern : ∀ k' d, k' ≠ k → L.intern k' d = (L1, r) → L1.map.lookup k = none := by
          intro k' d hne h
          unfold Lits.intern at h
          split at h
          · simp only [Prod.mk.injEq] at h; rw [← h.1]; exact hk
          · simp only [Prod.mk.injEq] at h
            rw [← h.1]
            simp only [List.lookup]
            split
            · rename_i e; simp at e; exact absurd e.symm hne
            · exact hk
        cases l <;> first
          | exact intern _ _ (fun e => hn (by rw [← e]; rfl)) h1
          | (simp only [Lits.add, Lits.push, Prod.mk.injEq] at h1; rw [← h1.1]; exact hk)

/-- The store in which a program with literal memory `L` runs: the memory below the end of the
literals is that of the instantiated module. -/
def Instance {σ} (L : Lits) (g : Store σ) : Prop :=
  L.fin ≤ g.mem.size ∧ ∃ m : Mem, ∀ i, i < L.fin → g.mem.byte i = (Lits.image m L.segs).byte i

/-- The error for a failed argument-count check. -/
def countError : ArgCheck → Nat → Nat → VmError
  | .exact => .incorrectArgumentCount
  | .atLeast => .requiresAtLeast
  | .atMost => .requiresAtMost

theorem leBytes4_inj {a b : Nat} (ha : a < 2 ^ 32) (hb : b < 2 ^ 32) (h : leBytes 4 a = leBytes 4 b) :
    a = b := by
  have := congrArg leNat h
  rwa [leNat_leBytes4 ha, leNat_leBytes4 hb] at this

/-- **C27.** When the two counts have not been used as byte literals before, the user is told the
numbers of this very call, whatever was compiled before (`ls`) and is compiled later (`ls'`).
Missing: counts that were used before, see `C27_counterexample`. -/
theorem C27_counts_partial {σ} (M : Wasm.Mod σ) (sig : List Byte → Option Ty) (c : ArgCheck)
    (expected actual : Nat) (he : expected < 2 ^ 32) (ha : actual < 2 ^ 32)
    (hfail : c.fails expected actual = true) (ls ls' : List Lit)
    (hok : ∀ l ∈ ls, litOk l) (hok' : ∀ l ∈ ls', litOk l)
    (hfresh : ∀ bs, .bytes bs ∈ ls → bs ≠ leBytes 4 expected ∧ bs ≠ leBytes 4 actual)
    (L L1 L2 : Lits) (rs rs' : List (Nat × Nat)) (code : List Instr)
    (h : Lits.init.addAll ls = (L, rs)) (h1 : checkArgumentCount L c expected actual = (L1, code))
    (h2 : L1.addAll ls' = (L2, rs')) (hsz : L2.fin < 2 ^ 32)
    (stk loc : List Val) (g : Store σ) (hg : Instance L2 g) :
    ∃ g', Ends M code stk loc g (.trap g') ∧
      fromRuntimeErrorCode sig g' = some (countError c expected actual) := by
  obtain ⟨hI, hE, _, _⟩ := addAll_answer inv_init hok h
  have hne : expected ≠ actual := by
    rintro rfl; cases c <;> simp [ArgCheck.fails] at hfail
  have hk : ∀ x, (x = expected ∨ x = actual) → L.map.lookup (.bytes (leBytes 4 x)) = none := by
    intro x hx
    refine addAll_keys h (by rfl) fun l hl hs => ?_
    cases l <;> simp only [sharedKey, Option.some.injEq, reduceCtorEq, LitKey.bytes.injEq] at hs
    subst hs
    have := hfresh _ hl
    rcases hx with rfl | rfl
    · exact this.1 rfl
    · exact this.2 rfl
  have a1 : L.add (.bytes (leBytes 4 expected)) =
      (⟨L.fin + 4, (.bytes (leBytes 4 expected), L.fin) :: L.map, L.segs ++ [(L.fin, leBytes 4 expected)]⟩,
        L.fin, 4) := by
    simp only [Lits.add, Lits.intern, hk _ (.inl rfl), Lits.push, length_leBytes]
  obtain ⟨hI1, _, _⟩ := add_answer hI (l := .bytes (leBytes 4 expected)) trivial a1
  generalize hLa : (⟨L.fin + 4, (.bytes (leBytes 4 expected), L.fin) :: L.map,
    L.segs ++ [(L.fin, leBytes 4 expected)]⟩ : Lits) = La at a1 hI1
  have a2 : La.add (.bytes (leBytes 4 actual)) =
      (⟨L.fin + 8, (.bytes (leBytes 4 actual), L.fin + 4) :: La.map,
        L.segs ++ [(L.fin, leBytes 4 expected), (L.fin + 4, leBytes 4 actual)]⟩, L.fin + 4, 4) := by
    have hl : La.map.lookup (.bytes (leBytes 4 actual)) = none := by
      rw [← hLa]
      simp only [List.lookup]
      split
      · rename_i e
        simp only [beq_iff_eq, LitKey.bytes.injEq] at e
        exact absurd (leBytes4_inj ha he e).symm hne
      · exact hk _ (.inr rfl)
    simp only [Lits.add, Lits.intern, hl, Lits.push, length_leBytes]
    rw [← hLa]
    simp
  obtain ⟨hI2, _, _⟩ := add_answer hI1 (l := .bytes (leBytes 4 actual)) trivial a2
  unfold checkArgumentCount at h1
  rw [if_pos hfail, a1] at h1
  simp only [a2, Prod.mk.injEq] at h1
  obtain ⟨rfl, rfl⟩ := h1
  obtain ⟨hI3, ⟨hfin, ss, hss, _⟩, _, _⟩ := addAll_answer hI2 hok' h2
  simp only at hfin
  obtain ⟨hg1, m, hg2⟩ := hg
  have hby : ∀ o x, (o, leBytes 4 x) ∈ L2.segs → bytesAt g.mem o 4 = leBytes 4 x := by
    intro o x hm
    have h1 := image_mem (m := m) hI3.chain _ hm
    have h2 := hI3.chain.mem hm
    simp only [length_leBytes] at h1 h2
    rw [← h1]
    exact bytesAt_eq (fun i h3 h4 => hg2 i (by omega))
  have b1 := hby L.fin expected (by rw [hss]; simp)
  have b2 := hby (L.fin + 4) actual (by rw [hss]; simp)
  refine ⟨((g.set32 .errArgOff (BitVec.ofNat 32 L.fin)).set32 .errArgLen (BitVec.ofNat 32 8)).failed
    c.code, (ends_iff (by simp)).2 ?_, ?_⟩
  · wpx []
    rfl
  · have hlen : argLengths (((g.set32 .errArgOff (BitVec.ofNat 32 L.fin)).set32 .errArgLen
        (BitVec.ofNat 32 8)).failed c.code) = some (expected, actual) := by
      unfold argLengths
      have e1 : ((((g.set32 .errArgOff (BitVec.ofNat 32 L.fin)).set32 .errArgLen
        (BitVec.ofNat 32 8)).failed c.code).g32 .errArgOff).toNat = L.fin := by
        simp [Store.failed, Store.set32]; omega
      have e2 : ((((g.set32 .errArgOff (BitVec.ofNat 32 L.fin)).set32 .errArgLen
        (BitVec.ofNat 32 8)).failed c.code).g32 .errArgLen).toNat = 8 := by
        simp [Store.failed, Store.set32]
      have e3 : (((g.set32 .errArgOff (BitVec.ofNat 32 L.fin)).set32 .errArgLen
        (BitVec.ofNat 32 8)).failed c.code).mem = g.mem := rfl
      rw [e1, e2, e3]
      unfold memRead
      rw [if_pos (by omega), show (8 : Nat) = 4 + 4 from rfl, bytesAt_app, b1, b2]
      simp only [Option.bind_eq_bind, Option.bind_some, extractExpectedAndGot]
      rw [if_pos (by simp)]
      have t1 : (leBytes 4 expected ++ leBytes 4 actual).take 4 = leBytes 4 expected :=
        List.take_left' (by simp)
      have t2 : (leBytes 4 expected ++ leBytes 4 actual).drop 4 = leBytes 4 actual :=
        List.drop_left' (by simp)
      have t3 : (leBytes 4 actual).take 4 = leBytes 4 actual := List.take_of_length_le (by simp)
      rw [t1, t2, t3, leNat_leBytes4 he, leNat_leBytes4 ha]
    unfold fromRuntimeErrorCode
    cases c <;> simp only [ArgCheck.code, Store.failed, Store.set32] at hlen ⊢
    · show (do let (e, a) ← argLengths _; some (VmError.incorrectArgumentCount e a)) = _
      rw [hlen]; rfl
    · show (do let (e, a) ← argLengths _; some (VmError.requiresAtLeast e a)) = _
      rw [hlen]; rfl
    · show (do let (e, a) ← argLengths _; some (VmError.requiresAtMost e a)) = _
      rw [hlen]; rfl

/-- The literal memory after a first failed check (2 expected, 1 given) and the code of a second one
(2 expected, 3 given). -/
def hostL1 : Lits := (checkArgumentCount Lits.init .exact 2 1).1
/-- See `hostL1`. -/
def hostL2 : Lits := (checkArgumentCount hostL1 .exact 2 3).1
/-- See `hostL1`. -/
def hostCode2 : List Instr := (checkArgumentCount hostL1 .exact 2 3).2

/-- **C27 is false in general**: a contract with a call of 1 argument and a call of 3 arguments where
2 are expected reports `expected 2, got 1` for the second one as well. -/
theorem C27_counterexample {σ} (M : Wasm.Mod σ) (sig : List Byte → Option Ty) (g : Store σ)
    (hg : Instance hostL2 g) :
    ∃ g', Ends M hostCode2 [] [] g (.trap g') ∧
      fromRuntimeErrorCode sig g' = some (.incorrectArgumentCount 2 1) := by
  have hL : hostL2.segs = [(1352, [2#8, 0#8, 0#8, 0#8]), (1356, [1#8, 0#8, 0#8, 0#8]),
      (1360, [3#8, 0#8, 0#8, 0#8])] := by decide +kernel
  have hf : hostL2.fin = 1364 := by decide +kernel
  have hc : hostCode2 = [.b (.const (.i32 1352#32)), .b (.global32Set .errArgOff),
         .b (.const (.i32 8#32)), .b (.global32Set .errArgLen),
         .b (.const (.i32 13#32)), .call (.std .runtime_error)] := by rfl
  obtain ⟨hg1, m, hg2⟩ := hg
  have hb : bytesAt g.mem 1352 8 = [2#8, 0#8, 0#8, 0#8, 1#8, 0#8, 0#8, 0#8] := by
    have h1 : bytesAt g.mem 1352 8 = bytesAt (Lits.image m hostL2.segs) 1352 8 :=
      bytesAt_eq (fun i h3 h4 => hg2 i (by omega))
    rw [h1, hL]
    simp [bytesAt, Lits.image, put]
  refine ⟨((g.set32 .errArgOff 1352#32).set32 .errArgLen 8#32).failed 13,
    (ends_iff (by simp)).2 ?_, ?_⟩
  · rw [hc]; wpx []; rfl
  · show (do let (e, a) ← argLengths _; some (VmError.incorrectArgumentCount e a)) = _
    have hlen : argLengths (((g.set32 .errArgOff 1352#32).set32 .errArgLen 8#32).failed 13) = some (2, 1) := by
      unfold argLengths
      show (do let bs ← memRead g.mem 1352 8; extractExpectedAndGot bs) = _
      unfold memRead
      rw [if_pos (by omega), hb]
      rfl
    rw [hlen]; rfl

/-- The hypothesis of `C27_counterexample` is met: any large enough memory holds the literals once
they have been copied there. -/
example {σ} (g : Store σ) (h : 1364 ≤ g.mem.size) :
    Instance hostL2 (g.setMem (Lits.image g.mem hostL2.segs)) := by
  have hL : hostL2.segs = [(1352, [2#8, 0#8, 0#8, 0#8]), (1356, [1#8, 0#8, 0#8, 0#8]),
      (1360, [3#8, 0#8, 0#8, 0#8])] := by decide +kernel
  have hf : hostL2.fin = 1364 := by decide +kernel
  refine ⟨?_, g.mem, fun i _ => rfl⟩
  rw [hf, hL]; exact h

end Props
