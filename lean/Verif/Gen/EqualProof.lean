import Verif.Gen.Equal
import Verif.Gen.Rep
import Verif.Stdlib.Principal

/-! The comparison of two values. -/

namespace Gen
open Wasm Spec Host

variable {σ : Type} {M : Wasm.Mod σ}

macro "wld" : tactic => `(tactic| first
  | omega
  | (simp only [List.length_set]; omega)
  | (simp only [List.length_set, BitVec.reduceToNat]; omega))

/-- Symbolic execution with symbolic locals. -/
syntax "wpl" ("[" Lean.Parser.Tactic.simpLemma,* "]")? (Lean.Parser.Tactic.location)? : tactic
macro_rules
  | `(tactic| wpl $[$l]?) => `(tactic| wpl [Nat.add_zero] $[$l]?)
  | `(tactic| wpl [$ls,*] $[$l]?) =>
    `(tactic| simp (disch := wld) only [wps, Nat.reduceAdd, Nat.reduceLT, Nat.reduceMod,
        BitVec.reduceToNat, BitVec.reduceToInt, BitVec.reduceOfNat, BitVec.reduceEq, Nat.reduceEqDiff,
        wp_i32load, wp_i64load, nth_set_self, nth_set_ne, Nat.add_zero, $ls,*] $[$l]?)

/-- The locals below `n` other than `bs` are unchanged. -/
def Keep (n : Nat) (bs : List Nat) (loc loc' : List Val) : Prop :=
  loc'.length = loc.length ∧ ∀ i, i < n → i ∉ bs → loc'[i]? = loc[i]?

theorem Keep.refl {n : Nat} {bs : List Nat} {loc : List Val} : Keep n bs loc loc := ⟨rfl, fun _ _ _ => rfl⟩

theorem Keep.trans {n n' : Nat} {bs bs' : List Nat} {l l1 l2 : List Val} (h : Keep n bs l l1)
    (h' : Keep n' bs' l1 l2) (hn : n ≤ n') (hb : ∀ i, i < n → i ∈ bs' → i ∈ bs) : Keep n bs l l2 :=
  ⟨by rw [h'.1, h.1], fun i hi hb' => by rw [h'.2 i (by omega) (fun hc => hb' (hb i hi hc)), h.2 i hi hb']⟩

theorem Keep.mono {n n' : Nat} {bs bs' : List Nat} {l l1 : List Val} (h : Keep n bs l l1)
    (hn : n' ≤ n) (hb : ∀ i, i < n' → i ∈ bs → i ∈ bs') : Keep n' bs' l l1 :=
  ⟨h.1, fun i hi hb' => h.2 i (by omega) fun hc => hb' (hb i hi hc)⟩

theorem Keep.set {n i : Nat} {bs : List Nat} {l l1 : List Val} {v : Val} (h : Keep n bs l l1)
    (hi : n ≤ i ∨ i ∈ bs) : Keep n bs l (l1.set i v) :=
  ⟨by rw [List.length_set, h.1], fun j hj hb => by
    rw [List.getElem?_set_ne (by rintro rfl; rcases hi with hi | hi; omega; exact hb hi), h.2 j hj hb]⟩

theorem nth_some {l : List Val} {i : Nat} {v : Val} (h : l[i]? = some v) : i < l.length ∧ nth l i = v := by
  obtain ⟨h1, h2⟩ := List.getElem?_eq_some_iff.1 h
  have := nth_of_lt h1
  rw [h] at this
  exact ⟨h1, (Option.some.inj this).symm⟩

theorem Keep.nth {n i : Nat} {bs : List Nat} {l l1 : List Val} (h : Keep n bs l l1) (hi : i < n)
    (hb : i ∉ bs) (hl : i < l.length) : nth l1 i = nth l i := by
  have h1 := h.2 i hi hb
  rw [nth_of_lt hl, nth_of_lt (by rw [h.1]; exact hl)] at h1
  exact Option.some.inj h1

theorem bytesAt_eq_iff (m : Mem) (a b : Nat) : ∀ n, bytesAt m a n = bytesAt m b n ↔
    ∀ j, j < n → m.byte (a + j) = m.byte (b + j)
  | 0 => by simp [bytesAt]
  | n + 1 => by
    rw [bytesAt, bytesAt, List.cons.injEq, bytesAt_eq_iff m (a + 1) (b + 1) n]
    constructor
    · rintro ⟨h1, h2⟩ j hj
      cases j with
      | zero => exact h1
      | succ j => have := h2 j (by omega); rwa [Nat.add_right_comm a, Nat.add_right_comm b] at this
    · intro h
      refine ⟨h 0 (by omega), fun j hj => ?_⟩
      rw [Nat.add_right_comm a, Nat.add_right_comm b]; exact h (j + 1) (by omega)

/-- The comparison code has pushed whether `p` holds; it has changed only fresh locals, from `n` on, and
the locals `bs`. -/
def EqPost (p : Prop) (n : Nat) (bs : List Nat) (stk loc : List Val) (g : Store σ) (r : Res σ) : Prop :=
  ∃ c loc', r = .norm (.i32 c :: stk) loc' g ∧ (c = 1#32 ∧ p ∨ c = 0#32 ∧ ¬ p) ∧ Keep n bs loc loc'

theorem b32_eq {p : Prop} [Decidable p] (h : p) : b32 p = 1#32 := by simp [b32, h]

theorem b32_cases {p q : Prop} [Decidable p] (h : p ↔ q) : b32 p = 1#32 ∧ q ∨ b32 p = 0#32 ∧ ¬ q := by
  by_cases hp : p
  · exact .inl ⟨b32_eq hp, h.1 hp⟩
  · exact .inr ⟨by simp [b32, hp], fun hq => hp (h.2 hq)⟩

/-- equal.rs 400-490. -/
theorem wp_equalBytes {oa la ob lb n : Nat} {a x b y : BitVec 32} {stk loc : List Val} {g : Store σ}
    (hoa : loc[oa]? = some (.i32 a)) (hla : loc[la]? = some (.i32 x))
    (hob : loc[ob]? = some (.i32 b)) (hlb : loc[lb]? = some (.i32 y))
    (h1 : oa < n) (h2 : la < n) (h3 : ob < n) (h4 : lb < n) (hn : n + 3 ≤ loc.length)
    (hsa : a.toNat + x.toNat ≤ g.mem.size) (hsb : b.toNat + y.toNat ≤ g.mem.size) :
    WP M (equalBytes oa la ob lb n) stk loc g 
      (EqPost (bytesAt g.mem a.toNat x.toNat = bytesAt g.mem b.toNat y.toNat) n [] stk loc g) := by
  obtain ⟨_, hoa⟩ := nth_some hoa
  obtain ⟨_, hla⟩ := nth_some hla
  obtain ⟨_, hob⟩ := nth_some hob
  obtain ⟨_, hlb⟩ := nth_some hlb
  unfold equalBytes
  wpl [hoa, hla, hob, hlb]
  by_cases hxy : x = y
  · subst hxy
    have hxx : x ^^^ x = 0#32 := by simp
    wif hxx
    by_cases hx : x = 0#32
    · subst hx
      wif rfl
      exact ⟨_, _, rfl, b32_cases (by simp [bytesAt]), (Keep.refl.set (Or.inl (Nat.le_refl _))).set (Or.inl (Nat.le_refl _))⟩
    · wif hx
      have hx0 : 0 < x.toNat := by
        rcases Nat.eq_zero_or_pos x.toNat with h | h
        · exact absurd (BitVec.eq_of_toNat_eq (by simpa using h)) hx
        · exact h
      refine wp_loop_inv (α := Nat) (fun k l g' => g' = g ∧ k < x.toNat ∧ Keep n [] loc l ∧
          Wasm.nth l n = .i32 (x - BitVec.ofNat 32 k) ∧ Wasm.nth l (n + 1) = .i32 (a + BitVec.ofNat 32 k) ∧
          Wasm.nth l (n + 2) = .i32 (b + BitVec.ofNat 32 k) ∧
          ∀ j, j < k → g.mem.byte (a.toNat + j) = g.mem.byte (b.toNat + j)) (fun k => x.toNat - k) 0 ?_ ?_
      · refine ⟨rfl, hx0, ?_, ?_, ?_, ?_, fun j hj => by omega⟩
        · exact (((Keep.refl.set (.inl (by omega))).set (.inl (by omega))).set (.inl (by omega))).set
            (.inl (by omega))
        · wpl; simp
        · wpl; simp
        · wpl; simp
      · rintro k l g' ⟨rfl, hk, hK, e0, e1, e2, hj⟩
        have hlen := hK.1
        have hxl := x.isLt
        have hsz := g'.mem.le
        have ea : (a + BitVec.ofNat 32 k).toNat = a.toNat + k := by
          rw [BitVec.toNat_add, BitVec.toNat_ofNat]; omega
        have eb : (b + BitVec.ofNat 32 k).toNat = b.toNat + k := by
          rw [BitVec.toNat_add, BitVec.toNat_ofNat]; omega
        have ex : (x - BitVec.ofNat 32 k - 1#32) = x - BitVec.ofNat 32 (k + 1) := by
          rw [BitVec.ofNat_add]; bv_omega
        wpl [e0, e1, e2, ea, eb, load1, ex]
        by_cases hb : g'.mem.byte (a.toNat + k) = g'.mem.byte (b.toNat + k)
        · rw [if_pos (by rw [hb]; simp)]
          by_cases hk1 : k + 1 = x.toNat
          · have : x - BitVec.ofNat 32 (k + 1) = 0#32 := by rw [hk1]; simp
            rw [if_pos this]
            refine ⟨_, _, rfl, .inl ⟨b32_eq this, ?_⟩,
              ((hK.set (.inl (by omega))).set (.inl (by omega))).set (.inl (by omega))⟩
            rw [bytesAt_eq_iff]
            intro j hj'
            by_cases e : j = k
            · rw [e, hb]
            · exact hj j (by omega)
          · have : x - BitVec.ofNat 32 (k + 1) ≠ 0#32 := by
              intro h
              have := congrArg BitVec.toNat h
              rw [BitVec.toNat_sub, BitVec.toNat_ofNat] at this
              simp at this
              omega
            rw [if_neg this]
            refine ⟨k + 1, by omega, trivial, by omega,
              ((hK.set (.inl (by omega))).set (.inl (by omega))).set (.inl (by omega)), ?_, ?_, ?_, ?_⟩
            · wpl
            · rw [BitVec.ofNat_add, BitVec.add_assoc]
            · rw [BitVec.ofNat_add, BitVec.add_assoc]
            · intro j hj'
              by_cases e : j = k
              · rw [e, hb]
              · exact hj j (by omega)
        · rw [if_neg (fun h => h fun h => hb ((setWidth_inj _ _).1 h))]
          show blockK M 0 [.b (.localGet n), .b .i32eqz] stk (EqPost _ n [] stk loc g') (.br 0 [] l g')
          wpl [e0]
          refine ⟨_, _, rfl, .inr ⟨?_, fun h => ?_⟩, hK⟩
          · have : x - BitVec.ofNat 32 k ≠ 0#32 := by
              intro h
              have := congrArg BitVec.toNat h
              rw [BitVec.toNat_sub, BitVec.toNat_ofNat] at this
              simp at this
              omega
            simp [b32, this]
          · rw [bytesAt_eq_iff] at h
            exact hb (h k hk)
  · have : x ^^^ y ≠ 0#32 := fun h => hxy (by simpa using h)
    rw [if_neg this]
    refine ⟨_, _, rfl, b32_cases ?_, Keep.refl.set (.inl (Nat.le_refl _))⟩
    refine ⟨fun h => absurd h this, fun h => ?_⟩
    have h := congrArg List.length h
    rw [Wasm.length_bytesAt, Wasm.length_bytesAt] at h
    exact absurd (BitVec.eq_of_toNat_eq h) hxy

theorem sub_ne_zero {x : BitVec 32} {k : Nat} (h : k < x.toNat) : x - BitVec.ofNat 32 k ≠ 0#32 := by
  intro h'
  have := congrArg BitVec.toNat h'
  have := x.isLt
  rw [BitVec.toNat_sub, BitVec.toNat_ofNat] at *
  simp at *
  omega

/-- equal.rs 686-824. -/
theorem wp_equalList {oa la ob lb size n N K : Nat} {rd cmp : List Instr} {a x b y : BitVec 32}
    {stk loc : List Val} {g : Store σ} {E : Nat → Prop}
    (hoa : loc[oa]? = some (.i32 a)) (hla : loc[la]? = some (.i32 x))
    (hob : loc[ob]? = some (.i32 b)) (hlb : loc[lb]? = some (.i32 y))
    (h1 : oa < n) (h2 : la < n) (h3 : ob < n) (h4 : lb < n)
    (d1 : oa ≠ ob) (d2 : oa ≠ lb) (d3 : ob ≠ lb) (hsize : 0 < size)
    (hx : x.toNat = N * size) (hy : y.toNat = K * size)
    (step : ∀ k l, k < N → k < K → l.length = loc.length →
      l[oa]? = some (.i32 (a + BitVec.ofNat 32 (k * size))) →
      l[ob]? = some (.i32 (b + BitVec.ofNat 32 (k * size))) →
      WP M (rd ++ cmp) [] l g (EqPost (E k) n [] [] l g)) :
    WP M (equalList oa la ob lb size rd cmp) stk loc g
      (EqPost (N = K ∧ ∀ k, k < N → E k) n [ob, lb] stk loc g) := by
  obtain ⟨l1, hoa⟩ := nth_some hoa
  obtain ⟨l2, hla⟩ := nth_some hla
  obtain ⟨l3, hob⟩ := nth_some hob
  obtain ⟨l4, hlb⟩ := nth_some hlb
  unfold equalList
  wpl [hoa, hla, hob, hlb]
  by_cases hxy : x = y
  · subst hxy
    have hNK : N = K := Nat.eq_of_mul_eq_mul_right hsize (hx.symm.trans hy)
    subst hNK
    wif rfl
    by_cases hx0 : x = 0#32
    · subst hx0
      wif rfl
      have hN : N = 0 := by
        rcases Nat.mul_eq_zero.1 hx.symm with h | h
        · exact h
        · omega
      exact ⟨_, _, rfl, .inl ⟨rfl, rfl, fun k hk => by omega⟩, Keep.refl⟩
    · wif hx0
      have hN : 0 < N := by
        rcases Nat.eq_zero_or_pos N with h | h
        · rw [h, Nat.zero_mul] at hx
          exact absurd (BitVec.eq_of_toNat_eq (by simpa using hx)) hx0
        · exact h
      refine wp_loop_inv (α := Nat) (fun k l g' => g' = g ∧ k < N ∧ Keep n [oa, ob, lb] loc l ∧
          Wasm.nth l oa = .i32 (a + BitVec.ofNat 32 (k * size)) ∧ Wasm.nth l ob = .i32 (b + BitVec.ofNat 32 (k * size)) ∧
          Wasm.nth l lb = .i32 (x - BitVec.ofNat 32 (k * size)) ∧ ∀ j, j < k → E j) (fun k => N - k) 0 ?_ ?_
      · refine ⟨rfl, hN, Keep.refl, ?_, ?_, ?_, fun j hj => by omega⟩
        · rw [hoa]; simp
        · rw [hob]; simp
        · rw [hlb]; simp
      · rintro k l g' ⟨rfl, hk, hK, e0, e1, e2, hj⟩
        have hlen := hK.1
        rw [← List.append_assoc, wp_append]
        refine (step k l hk hk hlen (by rw [nth_of_lt (by omega), e0]) (by rw [nth_of_lt (by omega), e1])).mono ?_
        rintro r ⟨c, l', rfl, hc, hK'⟩
        have hlen' := hK'.1
        have e0' := hK'.nth h1 (by simp) (by omega)
        have e1' := hK'.nth h3 (by simp) (by omega)
        have e2' := hK'.nth h4 (by simp) (by omega)
        rw [e0] at e0'
        rw [e1] at e1'
        rw [e2] at e2'
        have hK2 : Keep n [oa, ob, lb] loc l' := hK.trans hK' (Nat.le_refl _) (by simp)
        have hfin : ∀ l2 : List Val, Keep n [oa, ob, lb] loc l2 → Keep n [ob, lb] loc (l2.set oa (.i32 a)) := by
          intro l2 h
          refine ⟨by rw [List.length_set, h.1], fun i hi hb => ?_⟩
          by_cases e : i = oa
          · subst e
            rw [List.getElem?_set_self (by rw [h.1]; omega), nth_of_lt l1, hoa]
          · rw [List.getElem?_set_ne (Ne.symm e), h.2 i hi (by simp at hb ⊢; exact ⟨e, hb⟩)]
        have hmul : (k + 1) * size = k * size + size := Nat.succ_mul k size
        have hle : (k + 1) * size ≤ N * size := Nat.mul_le_mul_right _ hk
        rcases hc with ⟨rfl, hE⟩ | ⟨rfl, hE⟩
        · have ex : x - BitVec.ofNat 32 (k * size) - BitVec.ofNat 32 size = x - BitVec.ofNat 32 ((k + 1) * size) := by
            rw [hmul, BitVec.ofNat_add]; bv_omega
          wpl [e0', e1', e2', ex]
          have hE' : ∀ j, j < k + 1 → E j := by
            intro j hj'
            by_cases e : j = k
            · rw [e]; exact hE
            · exact hj j (by omega)
          by_cases hk1 : k + 1 = N
          · have : x - BitVec.ofNat 32 ((k + 1) * size) = 0#32 := by rw [hk1, ← hx]; simp
            rw [if_pos this]
            exact ⟨_, _, rfl, .inl ⟨b32_eq this, trivial, fun j hj => hE' j (by omega)⟩,
              hfin _ (((hK2.set (.inr (by simp))).set (.inr (by simp))).set (.inr (by simp)))⟩
          · have : x - BitVec.ofNat 32 ((k + 1) * size) ≠ 0#32 := by
              apply sub_ne_zero
              rw [hx]
              exact Nat.mul_lt_mul_of_pos_right (by omega) hsize
            rw [if_neg this]
            refine ⟨k + 1, by omega, trivial, by omega,
              ((hK2.set (.inr (by simp))).set (.inr (by simp))).set (.inr (by simp)), ?_, ?_, ?_, hE'⟩
            · rw [hmul, BitVec.ofNat_add, BitVec.add_assoc]
            · rw [hmul, BitVec.ofNat_add, BitVec.add_assoc]
            · rfl
        · wpl [e2']
          refine ⟨_, _, rfl, .inr ⟨?_, fun h => hE (h.2 k hk)⟩, hfin _ hK2⟩
          have := sub_ne_zero (x := x) (k := k * size) (by rw [hx]; omega)
          simp [b32, this]
  · wif hxy
    refine ⟨_, _, rfl, .inr ⟨rfl, fun h => hxy (BitVec.eq_of_toNat_eq ?_)⟩, Keep.refl⟩
    rw [hx, hy, h.1]

/-! Equal representations. -/

theorem u128_inj {a b c d : BitVec 64} : u128 a b = u128 c d ↔ a = c ∧ b = d := by
  constructor
  · intro h
    have := encU_u128 a b
    rw [h, encU_u128] at this
    simp at this
    exact ⟨this.1.symm, this.2.symm⟩
  · rintro ⟨rfl, rfl⟩; rfl

theorem i128_inj {a b c d : BitVec 64} : i128 a b = i128 c d ↔ a = c ∧ b = d := by
  constructor
  · intro h
    have := encI_i128 a b
    rw [h, encI_i128] at this
    simp at this
    exact ⟨this.1.symm, this.2.symm⟩
  · rintro ⟨rfl, rfl⟩; rfl

theorem name_pos {n : Name} (h : contractNameOk n) : 0 < n.length := by
  cases n with
  | nil => exact absurd h.1 (by decide)
  | cons _ _ => simp

theorem principalBytes_inj {p q : Principal} (hp : p.Ok) (hq : q.Ok)
    (h : principalBytes p = principalBytes q) : p = q := by
  have byte0 : ∀ n : Name, contractNameOk n → BitVec.ofNat 8 n.length ≠ 0#8 := by
    intro n hn e
    have h1 := name_pos hn
    have h2 := hn.2
    have := congrArg BitVec.toNat e
    rw [BitVec.toNat_ofNat] at this
    simp at this
    omega
  cases p with
  | standard s =>
    cases q with
    | standard t =>
      simp only [principalBytes, List.cons_append, List.cons.injEq] at h
      obtain ⟨h1, h2⟩ := h
      obtain ⟨h2, _⟩ := List.append_inj h2 (by rw [hp.2, hq.2])
      cases s; cases t; simp_all
    | contract t =>
      simp only [principalBytes, List.cons_append, List.cons.injEq] at h
      obtain ⟨_, h3⟩ := List.append_inj h.2 (by rw [hp.2, hq.1.2])
      exact absurd (List.cons.inj h3).1.symm (byte0 _ hq.2)
  | contract s =>
    cases q with
    | standard t =>
      simp only [principalBytes, List.cons_append, List.cons.injEq] at h
      obtain ⟨_, h3⟩ := List.append_inj h.2 (by rw [hp.1.2, hq.2])
      exact absurd (List.cons.inj h3).1 (byte0 _ hp.2)
    | contract t =>
      simp only [principalBytes, List.cons_append, List.cons.injEq] at h
      obtain ⟨h2, h3⟩ := List.append_inj h.2 (by rw [hp.1.2, hq.1.2])
      obtain ⟨⟨v, hh⟩, n⟩ := s
      obtain ⟨⟨v', hh'⟩, n'⟩ := t
      simp_all

/-- Types whose values are kept as byte strings. -/
def isBytes : Ty → Bool
  | .buff _ | .ascii _ | .utf8 _ | .principal | .callable _ => true
  | _ => false

/-- Values kept as byte strings are equal if the bytes are. -/
theorem memBytes_inj {T : Ty} {v u : Value} (hT : isBytes T = true)
    (hv : HasType T v) (hu : HasType T u) :
    memBytes v = memBytes u ↔ v = u := by
  refine ⟨fun h => ?_, fun h => by rw [h]⟩
  cases T <;> simp only [isBytes, Bool.false_eq_true] at hT <;>
    cases v <;> (try simp only [HasType] at hv) <;> cases u <;> (try simp only [HasType] at hu) <;>
    simp only [memBytes] at h
  case principal.principal.principal p q => rw [principalBytes_inj hv hu h]
  case callable.principal.principal c p q =>
    cases p with
    | standard s => simp [HasType] at hv
    | contract s =>
      cases q with
      | standard t => simp [HasType] at hu
      | contract t => simp only [HasType] at hv hu; rw [hv.1, hu.1]
  case buff.buff.buff => rw [h]
  case ascii.ascii.ascii => rw [h]
  case utf8.utf8.utf8 n cs ds =>
    have h1 := beWords_flatMap cs fun c hc => by have := hv.2 c hc; unfold isScalar at this; omega
    have h2 := beWords_flatMap ds fun c hc => by have := hu.2 c hc; unfold isScalar at this; omega
    rw [h, h2] at h1
    rw [Option.some.inj h1]

theorem held2 {as : List Nat} {loc : List Val} {x y : Val} (h : as.map (loc[·]?) = [x, y].map some) :
    ∃ p q, as = [p, q] ∧ loc[p]? = some x ∧ loc[q]? = some y := by
  match as, h with
  | [p, q], h => simp at h; exact ⟨p, q, rfl, h.1, h.2⟩
  | [], h => simp at h
  | [_], h => simp at h
  | _ :: _ :: _ :: _, h => simp at h

theorem held1 {as : List Nat} {loc : List Val} {x : Val} (h : as.map (loc[·]?) = [x].map some) :
    ∃ p, as = [p] ∧ loc[p]? = some x := by
  match as, h with
  | [p], h => simp at h; exact ⟨p, rfl, h⟩
  | [], h => simp at h
  | _ :: _ :: _, h => simp at h

theorem held_cons {as : List Nat} {loc : List Val} {x : Val} {ws : List Val}
    (h : as.map (loc[·]?) = (x :: ws).map some) :
    ∃ p ps, as = p :: ps ∧ loc[p]? = some x ∧ ps.map (loc[·]?) = ws.map some := by
  match as, h with
  | p :: ps, h => simp at h; exact ⟨p, ps, rfl, h.1, by simpa using h.2⟩
  | [], h => simp at h

theorem held_append {as : List Nat} {loc : List Val} {us ws : List Val}
    (h : as.map (loc[·]?) = (us ++ ws).map some) :
    (as.take us.length).map (loc[·]?) = us.map some ∧ (as.drop us.length).map (loc[·]?) = ws.map some := by
  rw [List.map_append] at h
  obtain ⟨l1, l2, rfl, h1, h2⟩ := List.map_eq_append_iff.1 h
  have : us.length = l1.length := by
    have := congrArg List.length h1
    simpa using this.symm
  rw [this, List.take_left, List.drop_left]
  exact ⟨h1, h2⟩

theorem Keep.held {n : Nat} {bs as : List Nat} {l l' : List Val} {ws : List Val} (h : Keep n bs l l')
    (hn : ∀ x ∈ as, x < n) (hd : ∀ x ∈ as, x ∉ bs) (hw : as.map (l[·]?) = ws.map some) :
    as.map (l'[·]?) = ws.map some := by
  rw [← hw]
  exact List.map_congr_left fun x hx => h.2 x (hn x hx) (hd x hx)

theorem EqPost.mono {p q : Prop} {n : Nat} {bs bs' : List Nat} {stk loc : List Val} {g : Store σ} {r : Res σ}
    (h : EqPost p n bs stk loc g r) (hpq : p ↔ q) (hb : ∀ i, i < n → i ∈ bs → i ∈ bs') :
    EqPost q n bs' stk loc g r := by
  obtain ⟨c, l, h1, h2, h3⟩ := h
  rw [hpq] at h2
  exact ⟨c, l, h1, h2, h3.mono (Nat.le_refl _) hb⟩

theorem wp_equalBytes_rep {T : Ty} (hT : isBytes T = true) {as bs : List Nat} {n : Nat} {stk loc : List Val}
    {g : Store σ} {b : Reg} {v u : Value} {ws us : List Val} (hv : HasType T v) (hu : HasType T u)
    (hw : BytesIn g.mem b (memBytes v) ws) (hu' : BytesIn g.mem b (memBytes u) us)
    (ha : as.map (loc[·]?) = ws.map some) (hb : bs.map (loc[·]?) = us.map some)
    (hna : ∀ x ∈ as, x < n) (hnb : ∀ x ∈ bs, x < n) (hn : n + 3 ≤ loc.length) (hm : b.hi ≤ g.mem.size) :
    WP M (equalBytes (as.getD 0 0) (as.getD 1 0) (bs.getD 0 0) (bs.getD 1 0) n) stk loc g
      (EqPost (v = u) n bs stk loc g) := by
  obtain ⟨o, l, rfl, h1, h2, h3⟩ := hw
  obtain ⟨o', l', rfl, h1', h2', h3'⟩ := hu'
  obtain ⟨p, q, rfl, e1, e2⟩ := held2 ha
  obtain ⟨p', q', rfl, e1', e2'⟩ := held2 hb
  simp only [List.mem_cons, List.not_mem_nil, or_false, forall_eq_or_imp, forall_eq] at hna hnb
  refine (wp_equalBytes (M := M) (stk := stk) e1 e2 e1' e2' hna.1 hna.2 hnb.1 hnb.2 hn
    (by have := h2.1; omega) (by have := h2'.1; omega)).mono ?_
  intro r hr
  refine hr.mono ?_ (by simp)
  rw [h1, h1', h3, h3', memBytes_inj hT hv hu]

mutual
/-- The code of `wasm_equal` says whether the two values are equal. It leaves the locals of the first one
as they were. -/
theorem wp_equal {b : Reg} : ∀ (T : Ty) (as bs : List Nat) (n : Nat) (stk loc : List Val) (g : Store σ)
    (v u : Value) (ws us : List Val), comparable T = true → T.WF →
    Rep g.mem b T v ws → Rep g.mem b T u us →
    as.map (loc[·]?) = ws.map some → bs.map (loc[·]?) = us.map some →
    (∀ x ∈ as, x < n) → (∀ x ∈ bs, x < n) → (∀ x ∈ as, x ∉ bs) → bs.Nodup →
    n + (equalCode T as bs n).2.length ≤ loc.length → b.hi ≤ g.mem.size →
    WP M (equalCode T as bs n).1 stk loc g (EqPost (v = u) n bs stk loc g)
  | .noType, _, _, _, _, _, _, _, _, _, _, _, _, h, _, _, _, _, _, _, _, _, _ => by simp [Rep] at h
  | .trait _, _, _, _, _, _, _, _, _, _, _, h, _, _, _, _, _, _, _, _, _, _, _
  | .traitRef _, _, _, _, _, _, _, _, _, _, _, h, _, _, _, _, _, _, _, _, _, _, _ => by
    simp [comparable] at h
  | .bool, as, bs, n, stk, loc, g, v, u, ws, us, _, _, hv, hu, ha, hb, hna, hnb, _, _, _, _ => by
    simp only [Rep] at hv hu
    obtain ⟨x, rfl, rfl⟩ := hv
    obtain ⟨y, rfl, rfl⟩ := hu
    obtain ⟨p, rfl, e⟩ := held1 ha
    obtain ⟨q, rfl, e'⟩ := held1 hb
    obtain ⟨l1, e⟩ := nth_some e
    obtain ⟨l2, e'⟩ := nth_some e'
    simp only [equalCode, List.getD_cons_zero]
    wpl [e, e']
    refine ⟨_, _, rfl, b32_cases ?_, Keep.refl⟩
    cases x <;> cases y <;> simp
  | .int, as, bs, n, stk, loc, g, v, u, ws, us, _, _, hv, hu, ha, hb, hna, hnb, _, _, _, _ => by
    simp only [Rep] at hv hu
    obtain ⟨x, rfl, hx, rfl⟩ := hv
    obtain ⟨y, rfl, hy, rfl⟩ := hu
    obtain ⟨lo, hi, rfl⟩ := exists_i128 hx
    obtain ⟨lo', hi', rfl⟩ := exists_i128 hy
    rw [encI_i128] at ha hb
    obtain ⟨p, q, rfl, e1, e2⟩ := held2 ha
    obtain ⟨p', q', rfl, e1', e2'⟩ := held2 hb
    obtain ⟨l1, e1⟩ := nth_some e1
    obtain ⟨l2, e2⟩ := nth_some e2
    obtain ⟨l3, e1'⟩ := nth_some e1'
    obtain ⟨l4, e2'⟩ := nth_some e2'
    simp only [equalCode, equalInt, List.getD_cons_zero, List.getD_cons_succ]
    wpl [e1, e2, e1', e2']
    refine ⟨_, _, rfl, b32_cases ?_, Keep.refl⟩
    rw [Value.int.injEq, i128_inj]
  | .uint, as, bs, n, stk, loc, g, v, u, ws, us, _, _, hv, hu, ha, hb, hna, hnb, _, _, _, _ => by
    simp only [Rep] at hv hu
    obtain ⟨x, rfl, hx, rfl⟩ := hv
    obtain ⟨y, rfl, hy, rfl⟩ := hu
    obtain ⟨lo, hi, rfl⟩ := exists_u128 hx
    obtain ⟨lo', hi', rfl⟩ := exists_u128 hy
    rw [encU_u128] at ha hb
    obtain ⟨p, q, rfl, e1, e2⟩ := held2 ha
    obtain ⟨p', q', rfl, e1', e2'⟩ := held2 hb
    obtain ⟨l1, e1⟩ := nth_some e1
    obtain ⟨l2, e2⟩ := nth_some e2
    obtain ⟨l3, e1'⟩ := nth_some e1'
    obtain ⟨l4, e2'⟩ := nth_some e2'
    simp only [equalCode, equalInt, List.getD_cons_zero, List.getD_cons_succ]
    wpl [e1, e2, e1', e2']
    refine ⟨_, _, rfl, b32_cases ?_, Keep.refl⟩
    rw [Value.uint.injEq, u128_inj]
  | .principal, as, bs, n, stk, loc, g, v, u, ws, us, _, _, hv, hu, ha, hb, hna, hnb, _, _, hn, hm
  | .callable _, as, bs, n, stk, loc, g, v, u, ws, us, _, _, hv, hu, ha, hb, hna, hnb, _, _, hn, hm
  | .buff _, as, bs, n, stk, loc, g, v, u, ws, us, _, _, hv, hu, ha, hb, hna, hnb, _, _, hn, hm
  | .ascii _, as, bs, n, stk, loc, g, v, u, ws, us, _, _, hv, hu, ha, hb, hna, hnb, _, _, hn, hm
  | .utf8 _, as, bs, n, stk, loc, g, v, u, ws, us, _, _, hv, hu, ha, hb, hna, hnb, _, _, hn, hm => by
    simp only [Rep] at hv hu
    simp only [equalCode] at hn ⊢
    exact wp_equalBytes_rep rfl hv.1 hu.1 hv.2 hu.2 ha hb hna hnb hn hm
  | .opt t, as, bs, n, stk, loc, g, v, u, ws, us, hc, hwf, hv, hu, ha, hb, hna, hnb, hd, hnd, hn, hm => by
    simp only [Rep] at hv hu
    simp only [equalCode] at hn ⊢
    simp only [comparable] at hc
    rcases hv with ⟨ws, rfl, rfl, hv⟩ | ⟨x, ws, rfl, rfl, hv⟩ <;>
      rcases hu with ⟨us, rfl, rfl, hu⟩ | ⟨y, us, rfl, rfl, hu⟩ <;>
      obtain ⟨p, ps, rfl, e, ha⟩ := held_cons ha <;> obtain ⟨q, qs, rfl, e', hb⟩ := held_cons hb <;>
      obtain ⟨l1, e⟩ := nth_some e <;> obtain ⟨l2, e'⟩ := nth_some e' <;>
      simp only [List.getD_cons_zero, List.tail_cons] at hn ⊢ <;> wpl [e, e']
    · exact ⟨_, _, rfl, .inl ⟨rfl, trivial⟩, Keep.refl⟩
    · exact ⟨_, _, rfl, .inr ⟨rfl, by simp⟩, Keep.refl⟩
    · exact ⟨_, _, rfl, .inr ⟨rfl, by simp⟩, Keep.refl⟩
    · refine (wp_equal t ps qs n [] loc g x y ws us hc hwf hv hu ha hb
        (fun i hi => hna i (by simp [hi])) (fun i hi => hnb i (by simp [hi]))
        (fun i hi hi' => hd i (by simp [hi]) (by simp [hi'])) (List.nodup_cons.1 hnd).2 hn hm).mono ?_
      rintro r ⟨c, l', rfl, hcc, hK⟩
      wpl
      exact ⟨_, _, rfl, by simpa using hcc, hK.mono (Nat.le_refl _) (by simp +contextual)⟩
  | .resp o e, as, bs, n, stk, loc, g, v, u, ws, us, hc, hwf, hv, hu, ha, hb, hna, hnb, hd, hnd, hn, hm => by
    simp only [Rep] at hv hu
    simp only [equalCode] at hn ⊢
    simp only [comparable, Bool.and_eq_true] at hc
    obtain ⟨hc1, hc2⟩ := hc
    obtain ⟨hw1, hw2⟩ := hwf
    obtain ⟨p, ps, rfl, e1, ha⟩ : ∃ p ps, as = p :: ps ∧ loc[p]? = some (ws.getD 0 (.i32 0)) ∧
        ps.map (loc[·]?) = ws.tail.map some := by
      rcases hv with ⟨x, ws, js, rfl, rfl, _⟩ | ⟨x, ws, js, rfl, rfl, _⟩ <;> exact held_cons ha
    obtain ⟨q, qs, rfl, e2, hb⟩ : ∃ p ps, bs = p :: ps ∧ loc[p]? = some (us.getD 0 (.i32 0)) ∧
        ps.map (loc[·]?) = us.tail.map some := by
      rcases hu with ⟨x, ws, js, rfl, rfl, _⟩ | ⟨x, ws, js, rfl, rfl, _⟩ <;> exact held_cons hb
    obtain ⟨l1, e1⟩ := nth_some e1
    obtain ⟨l2, e2⟩ := nth_some e2
    simp only [List.getD_cons_zero, List.tail_cons, List.length_append] at hn ⊢
    have na := fun i hi => hna i (List.mem_cons_of_mem p hi)
    have nb := fun i hi => hnb i (List.mem_cons_of_mem q hi)
    have dd := fun i hi hi' => hd i (List.mem_cons_of_mem p hi) (List.mem_cons_of_mem q hi')
    have nd := (List.nodup_cons.1 hnd).2
    have len : ∀ {T : Ty} {l : List Val}, l.map Val.ty = wty T → l.length = (wty T).length := by
      intro T l h; rw [← h, List.length_map]
    rcases hv with ⟨x, ws, js, rfl, rfl, hv, hj⟩ | ⟨x, ws, js, rfl, rfl, hv, hj⟩ <;>
      rcases hu with ⟨y, us, ks, rfl, rfl, hu, hk⟩ | ⟨y, us, ks, rfl, rfl, hu, hk⟩ <;>
      simp only [List.getD_cons_zero, List.tail_cons] at e1 e2 ha hb <;>
      obtain ⟨ha1, ha2⟩ := held_append ha <;> obtain ⟨hb1, hb2⟩ := held_append hb <;>
      wpl [e1, e2]
    · rw [hv.len] at ha1
      rw [hu.len] at hb1
      refine (wp_equal o _ _ n [] loc g x y ws us hc1 hw1 hv hu ha1 hb1
        (fun i hi => na i (List.mem_of_mem_take hi)) (fun i hi => nb i (List.mem_of_mem_take hi))
        (fun i hi hi' => dd i (List.mem_of_mem_take hi) (List.mem_of_mem_take hi'))
        (nd.sublist (List.take_sublist _ _)) (by omega) hm).mono ?_
      rintro r ⟨c, l', rfl, hcc, hK⟩
      wpl
      exact ⟨_, _, rfl, by simpa using hcc, hK.mono (Nat.le_refl _) fun i _ hi =>
        List.mem_cons_of_mem _ (List.mem_of_mem_take hi)⟩
    · exact ⟨_, _, rfl, .inr ⟨rfl, by simp⟩, Keep.refl⟩
    · exact ⟨_, _, rfl, .inr ⟨rfl, by simp⟩, Keep.refl⟩
    · rw [len hj] at ha2
      rw [len hk] at hb2
      refine (wp_equal e _ _ _ [] loc g x y ws us hc2 hw2 hv hu ha2 hb2
        (fun i hi => by have := na i (List.mem_of_mem_drop hi); omega)
        (fun i hi => by have := nb i (List.mem_of_mem_drop hi); omega)
        (fun i hi hi' => dd i (List.mem_of_mem_drop hi) (List.mem_of_mem_drop hi'))
        (nd.sublist (List.drop_sublist _ _)) (by omega) hm).mono ?_
      rintro r ⟨c, l', rfl, hcc, hK⟩
      wpl
      exact ⟨_, _, rfl, by simpa using hcc, hK.mono (by omega) fun i _ hi =>
        List.mem_cons_of_mem _ (List.mem_of_mem_drop hi)⟩
  | .list _ e, as, bs, n, stk, loc, g, v, u, ws, us, hc, hwf, hv, hu, ha, hb, hna, hnb, hd, hnd, hn, hm => by
    simp only [Rep] at hv hu
    obtain ⟨vs, oa, la, rfl, _, rfl, hl, hh, hv⟩ := hv
    obtain ⟨xs, ob, lb, rfl, _, rfl, hl', hh', hu⟩ := hu
    obtain ⟨p, q, rfl, e1, e2⟩ := held2 ha
    obtain ⟨p', q', rfl, e1', e2'⟩ := held2 hb
    simp only [List.mem_cons, List.not_mem_nil, or_false, forall_eq_or_imp, forall_eq, not_or,
      List.nodup_cons, not_false_eq_true, true_and, List.nodup_nil, and_true] at hna hnb hd hnd
    simp only [comparable] at hc
    simp only [equalCode, List.getD_cons_zero, List.getD_cons_succ, List.length_append] at hn ⊢
    have hpos := typeSize_pos e hwf
    have hsz := g.mem.le
    refine (wp_equalList (E := fun k => vs[k]? = xs[k]?) (n := n) e1 e2 e1' e2' hna.1 hna.2 hnb.1 hnb.2
      hd.1.1 hd.1.2 hnd hpos hl hl' ?_).mono ?_
    · intro k l hk hk' hlen h1 h2
      have hmul : (k + 1) * typeSize e = k * typeSize e + typeSize e := Nat.succ_mul _ _
      have b1 : (k + 1) * typeSize e ≤ la.toNat := by rw [hl]; exact Nat.mul_le_mul_right _ hk
      have b2 : (k + 1) * typeSize e ≤ lb.toNat := by rw [hl']; exact Nat.mul_le_mul_right _ hk'
      have c1 := hh.1
      have c2 := hh'.1
      have a1 : (oa + BitVec.ofNat 32 (k * typeSize e)).toNat = oa.toNat + k * typeSize e := by
        rw [BitVec.toNat_add, BitVec.toNat_ofNat]; omega
      have a2 : (ob + BitVec.ofNat 32 (k * typeSize e)).toNat = ob.toNat + k * typeSize e := by
        rw [BitVec.toNat_add, BitVec.toNat_ofNat]; omega
      obtain ⟨x, hx⟩ : ∃ x, vs[k]? = some x := ⟨_, List.getElem?_eq_getElem hk⟩
      obtain ⟨y, hy⟩ : ∃ x, xs[k]? = some x := ⟨_, List.getElem?_eq_getElem hk'⟩
      have r1 := hv k x hx
      have r2 := hu k y hy
      rw [hx, hy, Option.some.injEq]
      have s1 := steps_readMem (M := M) h1 e 0 [] (g := g) (by omega)
      rw [a1, Nat.add_zero] at s1
      obtain ⟨l1, s2, hl1, k1, held1⟩ := steps_save (M := M) (s := []) (loc := l) (g := g) e n _ r1.len (by omega)
      have s3 := steps_readMem (M := M) (loc := l1) (by rw [k1 p' (by omega), h2]) e 0 [] (g := g) (by omega)
      rw [a2, Nat.add_zero] at s3
      obtain ⟨l2, s4, hl2, k2, held2⟩ := steps_save (M := M) (s := []) (loc := l1) (g := g) e
        (n + (wty e).length) _ r2.len (by omega)
      rw [((s1.append s2).append (s3.append s4))]
      have held1' : (saveLocals e n).map (l2[·]?) = (loadVals g.mem e (oa.toNat + k * typeSize e)).map some := by
        rw [← held1]
        refine List.map_congr_left fun i hi => k2 i ?_
        have := mem_saveLocals.1 hi
        omega
      have hmem := fun i (hi : i ∈ saveLocals e n) => mem_saveLocals.1 hi
      have hmem' := fun i (hi : i ∈ saveLocals e (n + (wty e).length)) => mem_saveLocals.1 hi
      refine (wp_equal e (saveLocals e n) (saveLocals e (n + (wty e).length))
        (n + (wty e).length + (wty e).length) [] l2 g x y _ _ hc hwf r1 r2 held1' held2
        (fun i hi => by have := hmem i hi; omega) (fun i hi => by have := hmem' i hi; omega)
        (fun i hi hi' => by have := hmem i hi; have := hmem' i hi'; omega)
        (by simp [saveLocals, List.nodup_range']) (by omega) hm).mono ?_
      rintro r ⟨c, l', rfl, hcc, hK⟩
      refine ⟨_, _, rfl, hcc, by rw [hK.1, hl2, hl1], fun i hi _ => ?_⟩
      rw [hK.2 i (by omega) (fun hi' => by have := hmem' i hi'; omega), k2 i (by omega), k1 i (by omega)]
    · intro r hr
      refine hr.mono ?_ (by simp)
      rw [Value.list.injEq]
      constructor
      · rintro ⟨h1, h2⟩
        refine List.ext_getElem? fun i => ?_
        by_cases hi : i < vs.length
        · exact h2 i hi
        · rw [List.getElem?_eq_none (by omega), List.getElem?_eq_none (by omega)]
      · rintro rfl
        exact ⟨rfl, fun _ _ => rfl⟩
  | .tuple fs, as, bs, n, stk, loc, g, v, u, ws, us, hc, hwf, hv, hu, ha, hb, hna, hnb, hd, hnd, hn, hm => by
    simp only [Rep] at hv hu
    obtain ⟨kvs, rfl, hv⟩ := hv
    obtain ⟨kus, rfl, hu⟩ := hu
    simp only [comparable] at hc
    obtain ⟨hne, _, hwf⟩ := hwf
    have two : n + (.i32 :: (equalFields n fs as bs (n + 1)).2 : List VT).length ≤ loc.length →
        WP M [.block 0 0 (equalFields n fs as bs (n + 1)).1, .b (.localGet n)] stk loc g
          (EqPost (Value.tuple kvs = Value.tuple kus) n bs stk loc g) := by
      intro hn
      simp only [List.length_cons] at hn
      wpl
      refine (wp_equalF (R := n) fs as bs (n + 1) loc g kvs kus ws us hc hwf hv hu ha hb
        (fun i hi => by have := hna i hi; omega) (fun i hi => by have := hnb i hi; omega) hd hnd (by omega)
        (fun hi => by have := hna n hi; omega) (fun hi => by have := hnb n hi; omega) (by omega) hm).mono ?_
      rintro r ⟨l', hK, ⟨hvu, h1, rfl⟩ | ⟨hvu, h1, rfl⟩⟩
      · obtain ⟨h2, h1⟩ := nth_some (h1.resolve_left fun h => hne h.1)
        wpl [h1]
        exact ⟨_, _, rfl, .inl ⟨rfl, by rw [hvu]⟩, hK.mono (by omega) (by
          intro i hi hi'; rcases List.mem_cons.1 hi' with rfl | h; omega; exact h)⟩
      · obtain ⟨h2, h1⟩ := nth_some h1
        wpl [h1]
        exact ⟨_, _, rfl, .inr ⟨rfl, by simpa using hvu⟩, hK.mono (by omega) (by
          intro i hi hi'; rcases List.mem_cons.1 hi' with rfl | h; omega; exact h)⟩
    match fs with
    | .nil => exact absurd rfl hne
    | .cons k t (.cons k' t' fs') => exact two hn
    | .cons k t .nil =>
      simp only [RepF] at hv hu
      obtain ⟨x, _, wx, _, rfl, rfl, hv, rfl, rfl⟩ := hv
      obtain ⟨y, _, wy, _, rfl, rfl, hu, rfl, rfl⟩ := hu
      simp only [comparableF, Bool.and_true] at hc
      rw [List.append_nil] at ha hb
      simp only [equalCode] at hn ⊢
      refine (wp_equal t as bs n stk loc g x y wx wy hc hwf.1 hv hu ha hb hna hnb hd hnd hn hm).mono ?_
      intro r hr
      exact hr.mono (by simp) fun _ _ h => h
/-- The fields of two tuples: the code leaves the block at the first difference. -/
theorem wp_equalF {b : Reg} {R : Nat} : ∀ (fs : Fields) (as bs : List Nat) (n : Nat) (loc : List Val) (g : Store σ)
    (v u : List (Name × Value)) (ws us : List Val), comparableF fs = true → fs.WF →
    RepF g.mem b fs v ws → RepF g.mem b fs u us →
    as.map (loc[·]?) = ws.map some → bs.map (loc[·]?) = us.map some →
    (∀ x ∈ as, x < n) → (∀ x ∈ bs, x < n) → (∀ x ∈ as, x ∉ bs) → bs.Nodup → R < n → R ∉ as → R ∉ bs →
    n + (equalFields R fs as bs n).2.length ≤ loc.length → b.hi ≤ g.mem.size →
    WP M (equalFields R fs as bs n).1 [] loc g fun r => ∃ loc', Keep n (R :: bs) loc loc' ∧
      (v = u ∧ (fs = .nil ∧ loc'[R]? = loc[R]? ∨ loc'[R]? = some (.i32 1#32)) ∧ r = .norm [] loc' g ∨
        v ≠ u ∧ loc'[R]? = some (.i32 0#32) ∧ r = .br 0 [] loc' g)
  | .nil, as, bs, n, loc, g, v, u, ws, us, _, _, hv, hu, _, _, _, _, _, _, _, _, _, _, _ => by
    simp only [RepF] at hv hu
    obtain ⟨rfl, rfl⟩ := hv
    obtain ⟨rfl, rfl⟩ := hu
    simp only [equalFields, wp_nil]
    exact ⟨_, Keep.refl, .inl ⟨trivial, .inl ⟨trivial, rfl⟩, rfl⟩⟩
  | .cons k t fs, as, bs, n, loc, g, v, u, ws, us, hc, hwf, hv, hu, ha, hb, hna, hnb, hd, hnd, hR, hRa, hRb, hn, hm => by
    simp only [RepF] at hv hu
    obtain ⟨x, v, wx, wr, rfl, rfl, hv, hvr⟩ := hv
    obtain ⟨y, u, wy, ur, rfl, rfl, hu, hur⟩ := hu
    simp only [comparableF, Bool.and_eq_true] at hc
    obtain ⟨ha1, ha2⟩ := held_append ha
    obtain ⟨hb1, hb2⟩ := held_append hb
    rw [hv.len] at ha1 ha2
    rw [hu.len] at hb1 hb2
    simp only [equalFields, List.length_append] at hn ⊢
    rw [wp_append]
    refine (wp_equal t _ _ n [] loc g x y wx wy hc.1 hwf.1 hv hu ha1 hb1
        (fun i hi => hna i (List.mem_of_mem_take hi)) (fun i hi => hnb i (List.mem_of_mem_take hi))
        (fun i hi hi' => hd i (List.mem_of_mem_take hi) (List.mem_of_mem_take hi'))
        (hnd.sublist (List.take_sublist _ _)) (by omega) hm).mono ?_
    rintro r ⟨c, l1, rfl, hcc, hK⟩
    have hlen := hK.1
    have hK1 : ∀ w, Keep n (R :: bs) loc (l1.set R w) := fun w =>
      (hK.mono (Nat.le_refl _) fun i _ hi => List.mem_cons_of_mem _ (List.mem_of_mem_take hi)).set (.inr (by simp))
    show WP M ([.b (.localTee R), .b .i32eqz, .brIf 0] ++ _) _ _ _ _
    rw [wp_append]
    have hRl : R < l1.length := by omega
    rcases hcc with ⟨rfl, rfl⟩ | ⟨rfl, hne⟩
    · wpl
      have dj : ∀ i, i ∈ bs.drop (wty t).length → i ∉ bs.take (wty t).length := by
        intro i hi hi'
        have := hnd
        rw [← List.take_append_drop (wty t).length bs, List.nodup_append] at this
        exact this.2.2 i hi' i hi rfl
      have ha2' : (as.drop (wty t).length).map ((l1.set R (.i32 1#32))[·]?) = wr.map some := by
        rw [← ha2]
        refine List.map_congr_left fun i hi => ?_
        have hi' := List.mem_of_mem_drop hi
        rw [List.getElem?_set_ne (by rintro rfl; exact hRa hi'),
          hK.2 i (hna i hi') (fun h => hd i hi' (List.mem_of_mem_take h))]
      have hb2' : (bs.drop (wty t).length).map ((l1.set R (.i32 1#32))[·]?) = ur.map some := by
        rw [← hb2]
        refine List.map_congr_left fun i hi => ?_
        have hi' := List.mem_of_mem_drop hi
        rw [List.getElem?_set_ne (by rintro rfl; exact hRb hi'), hK.2 i (hnb i hi') (dj i hi)]
      refine (wp_equalF (R := R) fs _ _ _ _ g v u wr ur hc.2 hwf.2 hvr hur ha2' hb2'
        (fun i hi => by have := hna i (List.mem_of_mem_drop hi); omega)
        (fun i hi => by have := hnb i (List.mem_of_mem_drop hi); omega)
        (fun i hi hi' => hd i (List.mem_of_mem_drop hi) (List.mem_of_mem_drop hi'))
        (hnd.sublist (List.drop_sublist _ _)) (by omega) (fun h => hRa (List.mem_of_mem_drop h))
        (fun h => hRb (List.mem_of_mem_drop h)) (by rw [List.length_set]; omega) hm).mono ?_
      rintro r ⟨l2, hK2, hor⟩
      have hK3 : Keep n (R :: bs) loc l2 := (hK1 _).trans hK2 (by omega) (by
        intro i _ hi
        rcases List.mem_cons.1 hi with rfl | h
        · simp
        · exact List.mem_cons_of_mem _ (List.mem_of_mem_drop h))
      refine ⟨l2, hK3, ?_⟩
      rcases hor with ⟨rfl, h1, rfl⟩ | ⟨h1, h2, rfl⟩
      · refine .inl ⟨by simp, .inr ?_, rfl⟩
        rcases h1 with ⟨_, h1⟩ | h1
        · rw [h1, List.getElem?_set_self hRl]
        · exact h1
      · exact .inr ⟨by simpa using h1, h2, rfl⟩
    · wpl
      exact ⟨_, hK1 _, .inr ⟨by simp [hne], by rw [List.getElem?_set_self hRl], rfl⟩⟩
end

end Gen
