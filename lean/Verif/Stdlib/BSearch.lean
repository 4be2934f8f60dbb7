import Verif.Stdlib.Valid

/-! Runtime library: comparing and looking up Clarity names (standard.wat 3511-3581). -/

namespace Wasm
open Spec
variable {σ : Type} {M : Mod σ} {is : List Instr} {stk loc : List Val} {g : Store σ}
  {Q : Res σ → Prop}

/-- Three-way lexicographic comparison. -/
def nameCmp (A B : List Byte) : BitVec 32 :=
  if A = B then 0#32 else if lexLt A B = true then 4294967295#32 else 1#32

theorem nameCmp_same (x : Byte) (A B : List Byte) : nameCmp (x :: A) (x :: B) = nameCmp A B := by
  simp [nameCmp, lexLt]

theorem nameCmp_diff {x y : Byte} (h : x ≠ y) (A B : List Byte) :
    nameCmp (x :: A) (y :: B) = if x.toNat < y.toNat then 4294967295#32 else 1#32 := by
  simp [nameCmp, lexLt, h]

theorem nameCmp_nil_left (m : Mem) (a n : Nat) :
    nameCmp [] (bytesAt m a n) = if 0 < n then 4294967295#32 else 0#32 := by
  cases n <;> simp [nameCmp, bytesAt, lexLt]

theorem nameCmp_nil_right (m : Mem) (a n : Nat) :
    nameCmp (bytesAt m a n) [] = if 0 < n then 1#32 else 0#32 := by
  cases n <;> simp [nameCmp, bytesAt, lexLt]

def NCmpInv (oa la ob lb : BitVec 32) (g : Store σ) (n : Nat) (loc : List Val) (g' : Store σ) :
    Prop :=
  g = g' ∧ 0 < n ∧ ∃ (a b i s t : BitVec 32) (k : Nat),
    loc = [.i32 a, .i32 la, .i32 b, .i32 lb, .i32 i, .i32 s, .i32 t] ∧ i.toNat = n ∧
    k + n = min la.toNat lb.toNat ∧ a.toNat = oa.toNat + k ∧ b.toNat = ob.toNat + k ∧
    nameCmp (bytesAt g.mem oa.toNat la.toNat) (bytesAt g.mem ob.toNat lb.toNat) =
      nameCmp (bytesAt g.mem (oa.toNat + k) (la.toNat - k))
        (bytesAt g.mem (ob.toNat + k) (lb.toNat - k))

theorem runs_compare_clarity_names (oa la ob lb : BitVec 32) (ha0 : la ≠ 0#32) (hb0 : lb ≠ 0#32)
    (ha : oa.toNat + la.toNat ≤ g.mem.size) (hb : ob.toNat + lb.toNat ≤ g.mem.size) :
    Runs M (.std .compare_clarity_names) [.i32 oa, .i32 la, .i32 ob, .i32 lb] g
      (.ret [.i32 (nameCmp (bytesAt g.mem oa.toNat la.toNat) (bytesAt g.mem ob.toNat lb.toNat))] g) := by
  have hle := g.mem.le
  have hlb := lb.isLt
  have hla := la.isLt
  have ha1 : la.toNat ≠ 0 := fun e => ha0 (BitVec.eq_of_toNat_eq (by simpa using e))
  have hb1 : lb.toNat ≠ 0 := fun e => hb0 (BitVec.eq_of_toNat_eq (by simpa using e))
  apply runs_std (by simp)
  wpy [stdFunc, Std.compare_clarity_names, Std.compare_clarity_names_body]
  have hmin : (if la.toNat < lb.toNat then la else lb).toNat = min la.toNat lb.toNat := by
    split <;> omega
  generalize hi : (if la.toNat < lb.toNat then la else lb) = i at hmin ⊢
  refine wp_loop_inv (NCmpInv oa la ob lb g) id i.toNat
      ⟨rfl, by omega, oa, ob, i, _, _, 0, rfl, rfl, by omega, rfl, rfl, by simp⟩ ?_
  rintro n loc g' ⟨rfl, hn, a, b, i, s, t, k, rfl, hi, hk, hka, hkb, e1⟩
  wpy [wp_i32load (n := 1) (off := 0) (a := a) (g := g) (by omega), 
      wp_i32load (n := 1) (off := 0) (a := b) (g := g) (by omega), Nat.add_zero, load1]
  obtain ⟨p, hp⟩ : ∃ p, la.toNat - k = p + 1 := ⟨la.toNat - k - 1, by omega⟩
  obtain ⟨q, hq⟩ : ∃ q, lb.toNat - k = q + 1 := ⟨lb.toNat - k - 1, by omega⟩
  have hp' : la.toNat - (k + 1) = p := by omega
  have hq' : lb.toNat - (k + 1) = q := by omega
  rw [hp, hq] at e1
  simp only [bytesAt] at e1
  rw [hka, hkb]
  generalize hx : g.mem.byte (oa.toNat + k) = x at *
  generalize hy : g.mem.byte (ob.toNat + k) = y at *
  have hxy : x.setWidth 32 = y.setWidth 32 ↔ x = y := by
    constructor
    · intro e
      have := congrArg BitVec.toNat e
      rw [BitVec.toNat_setWidth, BitVec.toNat_setWidth] at this
      apply BitVec.eq_of_toNat_eq
      have := x.isLt
      have := y.isLt
      omega
    · rintro rfl; rfl
  have hlt : (x.setWidth 32).toNat < (y.setWidth 32).toNat ↔ x.toNat < y.toNat := by
    rw [BitVec.toNat_setWidth, BitVec.toNat_setWidth]
    have := x.isLt
    have := y.isLt
    omega
  simp only [hxy, hlt]
  by_cases h : x = y
  · subst h
    rw [if_pos rfl]
    rw [nameCmp_same] at e1
    have hi1 : (i - 1#32).toNat = n - 1 := by
      have := i.isLt
      rw [BitVec.toNat_sub]; simp; omega
    have hz : (i - 1#32 = 0#32) ↔ n = 1 := by
      rw [← BitVec.toNat_inj, hi1]; simp; omega
    by_cases hn1 : n = 1
    · rw [if_pos (hz.2 hn1), e1, if_pos rfl]
      have hne : la = lb ↔ la.toNat = lb.toNat := by rw [BitVec.toNat_inj]
      by_cases hh : la.toNat < lb.toNat
      · obtain rfl : p = 0 := by omega
        rw [if_pos hh, bytesAt, nameCmp_nil_left, if_pos (by omega)]
      · obtain rfl : q = 0 := by omega
        rw [if_neg hh, bytesAt, nameCmp_nil_right]
        by_cases hpz : 0 < p
        · rw [if_pos hpz, b32, if_pos (by rw [hne]; omega)]
        · rw [if_neg hpz, b32, if_neg (by rw [hne]; omega)]
    · rw [if_neg (fun e => hn1 (hz.1 e))]
      refine ⟨n - 1, by simp only [id]; omega, rfl, by omega, _, _, _, _, _, k + 1, rfl, hi1,
          by omega, ?_, ?_, ?_⟩
      · rw [BitVec.toNat_add]; simp; omega
      · rw [BitVec.toNat_add]; simp; omega
      · rw [e1, hp', hq']; rfl
  · rw [if_neg h, if_neg h, e1, nameCmp_diff h]
    by_cases hh : x.toNat < y.toNat
    · rw [if_pos hh, if_pos hh]
    · rw [if_neg hh, if_neg hh, b32, if_pos h]

theorem wp_compare_clarity_names {oa la ob lb : BitVec 32} (ha0 : la ≠ 0#32) (hb0 : lb ≠ 0#32)
    (ha : oa.toNat + la.toNat ≤ g.mem.size) (hb : ob.toNat + lb.toNat ≤ g.mem.size) :
    WP M (.call (.std .compare_clarity_names) :: is)
      (.i32 lb :: .i32 ob :: .i32 la :: .i32 oa :: stk) loc g Q ↔
    WP M is (.i32 (nameCmp (bytesAt g.mem oa.toNat la.toNat) (bytesAt g.mem ob.toNat lb.toNat)) :: stk)
      loc g Q :=
  wp_call_runs (args := [.i32 oa, .i32 la, .i32 ob, .i32 lb]) (ps := [.i32, .i32, .i32, .i32])
    (rs := [.i32]) rfl rfl (runs_compare_clarity_names oa la ob lb ha0 hb0 ha hb) (by simp)

/-- A table of names in memory, in the format documented at standard.wat 3539: number of names,
offsets, lengths. -/
structure NameTable (m : Mem) (T : Nat) (names : List (List Byte)) : Prop where
  bound : T + 4 + 5 * names.length ≤ m.size
  count : m.read T 4 = names.length
  nonempty : ∀ i (h : i < names.length), names[i] ≠ []
  len : ∀ i (h : i < names.length), (m.byte (T + 4 + 4 * names.length + i)).toNat = names[i].length
  inside : ∀ i (h : i < names.length), m.read (T + 4 + 4 * i) 4 + names[i].length ≤ m.size
  at_ : ∀ i (h : i < names.length), bytesAt m (m.read (T + 4 + 4 * i) 4) names[i].length = names[i]

/-- The names are strictly increasing. -/
def Increasing (names : List (List Byte)) : Prop :=
  ∀ i j (hj : j < names.length) (hij : i < j), lexLt names[i] names[j] = true

def BInv (oe le T : BitVec 32) (names : List (List Byte)) (E : List Byte) (g : Store σ)
    (n : Nat) (loc : List Val) (g' : Store σ) : Prop :=
  g = g' ∧ ∃ (ll sz i j mid cmp ol : BitVec 32),
    loc = [.i32 (T + 4#32), .i32 ll, .i32 oe, .i32 le, .i32 sz, .i32 i, .i32 j, .i32 mid, .i32 cmp, .i32 ol] ∧
    ol.toNat = T.toNat + 4 + 4 * names.length ∧ sz.toNat = n ∧ 0 < n ∧ j.toNat = i.toNat + n ∧
    j.toNat ≤ names.length ∧
    (∀ x (h : x < names.length), x < i.toNat → lexLt names[x] E = true) ∧
    (∀ x (h : x < names.length), j.toNat ≤ x → lexLt E names[x] = true)

theorem lexLt_irrefl (a : List Byte) : lexLt a a = false := by
  induction a <;> simp [lexLt, *]

theorem lexLt_trans {a b c : List Byte} (h1 : lexLt a b = true) (h2 : lexLt b c = true) :
    lexLt a c = true := by
  induction a generalizing b c with
  | nil =>
    cases b with
    | nil => simp [lexLt] at h1
    | cons =>
      cases c with
      | nil => simp [lexLt] at h2
      | cons => rfl
  | cons x a ih =>
    cases b with
    | nil => simp [lexLt] at h1
    | cons y b =>
      cases c with
      | nil => simp [lexLt] at h2
      | cons z c =>
        simp only [lexLt, Bool.or_eq_true, decide_eq_true_eq, Bool.and_eq_true] at *
        rcases h1 with h1 | ⟨rfl, h1⟩
        · rcases h2 with h2 | ⟨rfl, h2⟩
          · exact .inl (by omega)
          · exact .inl h1
        · rcases h2 with h2 | ⟨rfl, h2⟩
          · exact .inl h2
          · exact .inr ⟨rfl, ih h1 h2⟩

theorem lexLt_total {a b : List Byte} (h : a ≠ b) (h1 : lexLt a b = false) : lexLt b a = true := by
  induction a generalizing b with
  | nil => cases b with
    | nil => exact absurd rfl h
    | cons => simp [lexLt] at h1
  | cons x a ih => cases b with
    | nil => rfl
    | cons y b =>
      simp only [lexLt, Bool.or_eq_true, Bool.or_eq_false_iff, decide_eq_true_eq, decide_eq_false_iff_not,
        Bool.and_eq_true, Bool.and_eq_false_iff] at *
      by_cases hxy : x = y
      · subst hxy
        refine .inr ⟨rfl, ih (fun e => h (by rw [e])) ?_⟩
        rcases h1.2 with h2 | h2
        · exact absurd rfl h2
        · exact h2
      · left
        have : x.toNat ≠ y.toNat := fun e => hxy (BitVec.eq_of_toNat_eq e)
        omega

theorem nameCmp_zero (A B : List Byte) : nameCmp A B = 0#32 ↔ A = B := by
  unfold nameCmp; split
  · simp [*]
  · split <;> simp [*]

theorem nameCmp_neg (A B : List Byte) : nameCmp A B = 4294967295#32 ↔ lexLt A B = true := by
  unfold nameCmp; split
  · rename_i h; subst h; simp [lexLt_irrefl]
  · split <;> simp [*]

theorem nameCmp_pos (A B : List Byte) : nameCmp A B = 1#32 ↔ lexLt B A = true := by
  unfold nameCmp; split
  · rename_i h; subst h; simp [lexLt_irrefl]
  · rename_i h
    split
    · rename_i h2
      simp only [BitVec.reduceEq, false_iff]
      intro h3; have := lexLt_trans h2 h3; rw [lexLt_irrefl] at this; cases this
    · rename_i h2
      simp only [true_iff]
      exact lexLt_total h (by simpa using h2)

/-- What the search may answer: the index of the name, or -1 when it is absent. -/
def Found (names : List (List Byte)) (E : List Byte) (r : BitVec 32) : Prop :=
  (∃ h : r.toNat < names.length, names[r.toNat] = E) ∨ (r = 4294967295#32 ∧ E ∉ names)

theorem bsearch_core (T ll oe le : BitVec 32) (names : List (List Byte)) (hn : 0 < names.length)
    (hT : NameTable g.mem T.toNat names) (hinc : Increasing names) (hl0 : le ≠ 0#32)
    (he : oe.toNat + le.toNat ≤ g.mem.size) :
    Call M (.std .bsearch_clarity_name) [.i32 T, .i32 ll, .i32 oe, .i32 le] g
      (fun c => ∃ r, Found names (bytesAt g.mem oe.toNat le.toNat) r ∧ c = .ret [.i32 r] g) := by
  have hle := g.mem.le
  have hbd := hT.bound
  generalize hE : bytesAt g.mem oe.toNat le.toNat = E
  rw [call_std]
  wpy [stdFunc, Std.bsearch_clarity_name, Std.bsearch_clarity_name_body]
  rw [wp_i32load (by omega), Nat.add_zero, hT.count]
  wpy
  have hN : (BitVec.ofNat 32 names.length).toNat = names.length := by
    rw [BitVec.toNat_ofNat]; omega
  have hT4 : (T + 4#32).toNat = T.toNat + 4 := by
    rw [BitVec.toNat_add, BitVec.toNat_ofNat]; omega
  have hshl : ∀ x : BitVec 32, x.toNat < names.length → (x <<< 2).toNat = 4 * x.toNat := by
    intro x hx
    rw [BitVec.toNat_shiftLeft, Nat.shiftLeft_eq]; omega
  refine wp_loop_inv (BInv oe le T names E g) id names.length
    ⟨rfl, _, _, _, _, _, _, _, rfl, ?_, hN, hn, ?_, ?_, ?_, ?_⟩ ?_
  · rw [BitVec.toNat_add, hT4, BitVec.toNat_shiftLeft, hN, Nat.shiftLeft_eq]; omega
  · rw [hN]; simp
  · rw [hN]
  · intro x _ h; simp at h
  · intro x h h'; rw [hN] at h'; omega
  rintro n loc g' ⟨rfl, ll, sz, i, j, mid, cmp, ol, rfl, hol, hsz, hn0, hij, hj, hlo, hhi⟩
  wpy
  have hhalf : (sz >>> 1).toNat = n / 2 := by
    rw [BitVec.toNat_ushiftRight, hsz, Nat.shiftRight_eq_div_pow]
  have hmid : (i + sz >>> 1).toNat = i.toNat + n / 2 := by
    rw [BitVec.toNat_add, hhalf]; omega
  generalize hm : i + sz >>> 1 = m at *
  have hmn : m.toNat < names.length := by omega
  have ha1 : (T + 4#32 + m <<< 2).toNat = T.toNat + 4 + 4 * m.toNat := by
    rw [BitVec.toNat_add, hT4, hshl m hmn]; omega
  have ha2 : (ol + m).toNat = T.toNat + 4 + 4 * names.length + m.toNat := by
    rw [BitVec.toNat_add, hol]; omega
  rw [wp_i32load (by omega)]
  wpy
  rw [wp_i32load (by omega)]
  have hrd := read_lt g.mem (T.toNat + 4 + 4 * m.toNat) 4
  have hb := (g.mem.byte (T.toNat + 4 + 4 * names.length + m.toNat)).isLt
  have hlen := hT.len m.toNat hmn
  have hne := hT.nonempty m.toNat hmn
  have hin := hT.inside m.toNat hmn
  have hat := hT.at_ m.toNat hmn
  rw [ha1, ha2, Nat.add_zero, Nat.add_zero (T.toNat + 4 + 4 * m.toNat), load1]
  have e1 : (BitVec.ofNat 32 (g.mem.read (T.toNat + 4 + 4 * m.toNat) 4)).toNat =
      g.mem.read (T.toNat + 4 + 4 * m.toNat) 4 := by rw [BitVec.toNat_ofNat]; omega
  have e2 : (BitVec.setWidth 32 (g.mem.byte (T.toNat + 4 + 4 * names.length + m.toNat))).toNat =
      names[m.toNat].length := by rw [BitVec.toNat_setWidth, hlen]; omega
  have hpos : 0 < names[m.toNat].length := List.length_pos_iff.2 hne
  rw [wp_compare_clarity_names hl0 (by intro e; rw [e] at e2; simp at e2; omega) he
    (by rw [e1, e2]; exact hin), e1, e2, hat, hE]
  wpy [nameCmp_zero, nameCmp_neg, nameCmp_pos]
  by_cases heq : E = names[m.toNat]
  · rw [if_pos heq]
    exact ⟨m, .inl ⟨hmn, heq.symm⟩, rfl⟩
  · rw [if_neg heq]
    by_cases hlt : lexLt E names[m.toNat] = true
    · have hng : ¬ lexLt names[m.toNat] E = true := by
        intro h2; have := lexLt_trans hlt h2; rw [lexLt_irrefl] at this; cases this
      rw [if_pos hlt, if_neg hng]
      have hhi' : ∀ x (h : x < names.length), m.toNat ≤ x → lexLt E names[x] = true := by
        intro x h hx
        by_cases hxm : m.toNat = x
        · subst hxm; exact hlt
        · exact lexLt_trans hlt (hinc _ _ h (by omega))
      by_cases hc : i.toNat < m.toNat
      · rw [if_pos hc]
        exact ⟨n / 2, by simp only [id]; omega, rfl, _, _, _, _, _, _, _, rfl, hol,
          by rw [BitVec.toNat_sub]; omega, by omega, by omega, by omega, hlo, hhi'⟩
      · rw [if_neg hc]
        refine ⟨_, .inr ⟨rfl, ?_⟩, rfl⟩
        intro hmem
        obtain ⟨x, hx, hxe⟩ := List.getElem_of_mem hmem
        rcases Nat.lt_or_ge x i.toNat with h | h
        · have := hlo x hx h; rw [hxe, lexLt_irrefl] at this; cases this
        · have := hhi' x hx (by omega); rw [hxe, lexLt_irrefl] at this; cases this
    · have hgt : lexLt names[m.toNat] E = true := lexLt_total heq (by simpa using hlt)
      rw [if_neg hlt, if_pos hgt]
      have hm1 : (m + 1#32).toNat = m.toNat + 1 := by
        rw [BitVec.toNat_add, BitVec.toNat_ofNat]; omega
      rw [hm1]
      have hlo' : ∀ x (h : x < names.length), x < m.toNat + 1 → lexLt names[x] E = true := by
        intro x h hx
        by_cases hxm : x = m.toNat
        · subst hxm; exact hgt
        · exact lexLt_trans (hinc _ _ hmn (by omega)) hgt
      by_cases hc : m.toNat + 1 < j.toNat
      · rw [if_pos hc]
        exact ⟨j.toNat - (m.toNat + 1), by simp only [id]; omega, rfl, _, _, _, _, _, _, _, rfl, hol,
          by rw [BitVec.toNat_sub, hm1]; omega, by omega, by rw [hm1]; omega, by omega,
          by rw [hm1]; exact hlo', hhi⟩
      · rw [if_neg hc]
        refine ⟨_, .inr ⟨rfl, ?_⟩, rfl⟩
        intro hmem
        obtain ⟨x, hx, hxe⟩ := List.getElem_of_mem hmem
        rcases Nat.lt_or_ge x (m.toNat + 1) with h | h
        · have := hlo' x hx h; rw [hxe, lexLt_irrefl] at this; cases this
        · have := hhi x hx (by omega); rw [hxe, lexLt_irrefl] at this; cases this

theorem runs_bsearch_clarity_name (T ll oe le : BitVec 32) (names : List (List Byte))
    (hn : 0 < names.length)
    (hT : NameTable g.mem T.toNat names) (hinc : Increasing names) (hl0 : le ≠ 0#32)
    (he : oe.toNat + le.toNat ≤ g.mem.size) :
    ∃ r, Found names (bytesAt g.mem oe.toNat le.toNat) r ∧
      Runs M (.std .bsearch_clarity_name) [.i32 T, .i32 ll, .i32 oe, .i32 le] g (.ret [.i32 r] g) := by
  obtain ⟨n, res, h1, h2, r, hr, h3⟩ := bsearch_core (M := M) (ll := ll) T oe le names hn hT hinc hl0 he
  exact ⟨r, hr, (runs_iff_call (by simp)).2 ⟨n, res, h1, h2, h3⟩⟩

end Wasm
