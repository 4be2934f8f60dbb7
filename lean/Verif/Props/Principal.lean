import Verif.Stdlib.Principal
import Verif.Gen.Principal
import Verif.Gen.Rep
import Verif.Gen.ExprProof
import Verif.Props.Memory

/-!
C39: building principals from their parts, and taking them apart. `Rep m b T v ws`: the Wasm values
`ws` represent the Clarity value `v` of type `T`, with what is in memory inside the region `b`.
-/

namespace Props
open Wasm Spec Host Gen
variable {σ : Type} (M : Wasm.Mod σ) (g : Store σ)

/-- The Wasm values of the optional third operand: a flag, then the name. -/
def NameArg (m : Mem) (b : Reg) : Option Name → List Val → Prop
  | none, ws => ws = [.i32 0#32, .i32 0#32, .i32 0#32]
  | some n, ws => ∃ us, ws = .i32 1#32 :: us ∧ Rep m b (.ascii 40) (.ascii n) us

theorem bytesIn_inv {m : Mem} {b : Reg} {bs : List Byte} {ws : List Val} (h : BytesIn m b bs ws) :
    ∃ o l : BitVec 32, ws = [.i32 o, .i32 l] ∧ l.toNat = bs.length ∧ o.toNat + l.toNat ≤ b.hi ∧
      bytesAt m o.toNat l.toNat = bs ∧ (∀ i, o.toNat ≤ i → i < o.toNat + l.toNat → b.Has i 1) := by
  obtain ⟨o, l, rfl, h1, ⟨h2, h3⟩, h4⟩ := h
  refine ⟨o, l, rfl, h1, by omega, by rw [h1]; exact h4, fun i hi hi' => ⟨by omega, fun j hj hj' => ?_⟩⟩
  exact h3 j (by omega) (by omega)

theorem rep_constructErr (m : Mem) (b : Reg) {c : Nat} (code : BitVec 64) (h : code.toNat = c) (hc : c < 2 ^ 64) :
    Rep m b constructTy (constructErr c .none) (constructErrW code) := by
  simp only [constructTy, constructErr, Rep, RepF]
  refine .inr ⟨_, [.i64 code, .i64 0#64, .i32 0#32, .i32 0#32, .i32 0#32], [.i32 0#32, .i32 0#32], rfl, rfl, ?_, rfl⟩
  refine ⟨_, rfl, _, _, [.i64 code, .i64 0#64], _, rfl, rfl, ⟨c, rfl, ?_, ?_⟩, _, _, [.i32 0#32, .i32 0#32, .i32 0#32], [],
    rfl, rfl, .inl ⟨_, rfl, rfl, rfl⟩, rfl, rfl⟩
  · simp only [IsUInt]; omega
  · subst h
    simp only [encU]
    rw [BitVec.ofNat_toNat, BitVec.setWidth_eq, Nat.div_eq_of_lt hc]

theorem rep_onNetwork {m : Mem} {res l : BitVec 32} {k : Nat} {p : Principal} (net : Bool) (v : Byte) (hp : p.Ok)
    (hl : l.toNat = (principalBytes p).length) (hb : bytesAt m res.toNat (principalBytes p).length = principalBytes p)
    (hk : (principalBytes p).length ≤ k) :
    Rep m (seg res.toNat (res.toNat + k)) constructTy (onNetwork net v p)
      (constructW (v ∈ networkVersions net) res l) := by
  have hP : Rep m (seg res.toNat (res.toNat + k)) .principal (.principal p) [.i32 res, .i32 l] := by
    simp only [Rep]
    refine ⟨hp, res, l, rfl, hl, ⟨?_, fun i hi _ => ?_⟩, hb⟩
    · show res.toNat + (principalBytes p).length ≤ res.toNat + k
      omega
    · show ¬ i < res.toNat
      omega
  by_cases h : v ∈ networkVersions net
  · rw [onNetwork, constructW, if_pos h, if_pos h]
    simp only [constructTy, Rep, RepF] at hP ⊢
    exact .inl ⟨_, _, [.i64 0#64, .i64 0#64, .i32 0#32, .i32 0#32, .i32 0#32], rfl, rfl, hP, rfl⟩
  · rw [onNetwork, constructW, if_neg h, if_neg h]
    simp only [constructTy, constructErr, Rep, RepF] at hP ⊢
    refine .inr ⟨_, [.i64 0#64, .i64 0#64, .i32 1#32, .i32 res, .i32 l], [.i32 0#32, .i32 0#32], rfl, rfl, ?_, rfl⟩
    exact ⟨_, rfl, _, _, [.i64 0#64, .i64 0#64], _, rfl, rfl, ⟨0, rfl, by simp [IsUInt], rfl⟩, _, _,
      [.i32 1#32, .i32 res, .i32 l], [], rfl, rfl, .inr ⟨_, _, rfl, rfl, hP⟩, rfl, rfl⟩

/-- `principal-construct?` returns what the specification says, for every version, hash and name;
only the `22 + 40` bytes at `res` change. The operands are in memory outside these bytes and end 5
bytes before the end of the memory (needed for names of 11 characters, see
`C17_contract_name_counterexample`; this is what is missing from the property). -/
theorem C39_construct_partial (net : Bool) (hM : Network M net) (b : Reg) (V H : List Byte) (N : Option Name)
    (vs hs ns : List Val) (res : BitVec 32)
    (hV : Rep g.mem b (.buff 1) (.buff V) vs) (hH : Rep g.mem b (.buff 20) (.buff H) hs)
    (hN : NameArg g.mem b N ns) (hb : b.hi + 5 ≤ g.mem.size) (hr : res.toNat + 62 ≤ g.mem.size)
    (hd : ∀ i, b.Has i 1 → i < res.toNat ∨ res.toNat + 62 ≤ i) :
    ∃ m' ws, Runs M (.std .principal_construct) (vs ++ hs ++ ns ++ [.i32 res]) g (.ret ws (g.setMem m')) ∧
      Rep m' (seg res.toNat (res.toNat + 62)) constructTy (construct net V H N) ws ∧
      m'.size = g.mem.size ∧ ∀ i, i < res.toNat ∨ res.toNat + 62 ≤ i → m'.byte i = g.mem.byte i := by
  simp only [Rep, HasType, memBytes] at hV hH
  obtain ⟨hV1, hVb⟩ := hV
  obtain ⟨hH1, hHb⟩ := hH
  obtain ⟨vo, vl, rfl, hvl, hvs, hvb, -⟩ := bytesIn_inv hVb
  obtain ⟨ho, hl, rfl, hhl, hhs, hhb, hhd⟩ := bytesIn_inv hHb
  obtain ⟨cp, co, cl, rfl, hcp, hcl, hcs, hcb, hcd⟩ : ∃ cp co cl : BitVec 32, ns = [.i32 cp, .i32 co, .i32 cl] ∧
      ((N = none ∧ cp = 0#32 ∧ cl = 0#32 ∧ co = 0#32) ∨ (cp = 1#32 ∧ N = some (bytesAt g.mem co.toNat cl.toNat))) ∧
      cl.toNat ≤ 40 ∧ co.toNat + cl.toNat + 5 ≤ g.mem.size ∧
      (∀ n ∈ N, cl.toNat = n.length) ∧ (∀ i, co.toNat ≤ i → i < co.toNat + cl.toNat → b.Has i 1) := by
    cases N with
    | none =>
      simp only [NameArg] at hN
      refine ⟨_, _, _, hN, .inl ⟨rfl, rfl, rfl, rfl⟩, by decide, ?_, by simp, fun i hi hi' => ?_⟩
      · simp; omega
      · simp at hi'
    | some n =>
      obtain ⟨us, rfl, hN⟩ := hN
      simp only [Rep, HasType, memBytes] at hN
      obtain ⟨⟨hN1, -⟩, hNb⟩ := hN
      obtain ⟨co, cl, rfl, hcl, hcs, hcb, hcd⟩ := bytesIn_inv hNb
      exact ⟨_, _, _, rfl, .inr ⟨rfl, by rw [hcb]⟩, by omega, by omega, by simp [hcl], hcd⟩
  by_cases hshort : vl = 0#32 ∨ 32 ≤ (g.mem.byte vo.toNat).toNat ∨ hl.toNat < 20
  · refine ⟨g.mem, _, call_principal_construct_short (g := g) hM vo vl ho hl cp co cl res (fun h => ?_) hshort, ?_, rfl,
      fun _ _ => rfl⟩
    · have : vl.toNat ≠ 0 := fun e => h (BitVec.eq_of_toNat_eq (by simpa using e))
      omega
    · have : construct net V H N = constructErr 1 .none := by
        cases V with
        | nil => rfl
        | cons v V =>
          have hv1 : vl.toNat = 1 := by simp only [List.length_cons] at hvl hV1; omega
          rw [hv1] at hvb
          simp only [bytesAt, List.cons.injEq] at hvb
          have : 32 ≤ v.toNat ∨ H.length < 20 := by
            rw [← hvb.1, ← hhl]
            rcases hshort with h | h
            · rw [h] at hv1; simp at hv1
            · exact h
          simp only [construct]
          rw [if_pos this]
      rw [this]
      exact rep_constructErr _ _ _ rfl (by decide)
  · have hv0 : vl ≠ 0#32 := fun h => hshort (.inl h)
    have hvl0 : vl.toNat ≠ 0 := fun e => hv0 (BitVec.eq_of_toNat_eq (by simpa using e))
    have hv32 : (g.mem.byte vo.toNat).toNat < 32 := Nat.lt_of_not_le fun h => hshort (.inr (.inl h))
    have hh20 : ¬ hl.toNat < 20 := fun h => hshort (.inr (.inr h))
    have hl20 : hl.toNat = 20 := by omega
    have hdh : ho.toNat + 20 ≤ res.toNat ∨ res.toNat + 62 ≤ ho.toNat := by
      have h1 := hd _ (hhd ho.toNat (by omega) (by omega))
      have h2 := fun j (hj : j < 20) => hd _ (hhd (ho.toNat + j) (by omega) (by omega))
      rcases h1 with h1 | h1
      · left
        by_contra hc
        have := h2 (res.toNat - ho.toNat) (by omega)
        omega
      · exact .inr h1
    have hdc : co.toNat + cl.toNat ≤ res.toNat ∨ res.toNat + 62 ≤ co.toNat ∨ cl.toNat = 0 := by
      by_cases hc0 : cl.toNat = 0
      · exact .inr (.inr hc0)
      have h1 := hd _ (hcd co.toNat (by omega) (by omega))
      rcases h1 with h1 | h1
      · left
        by_contra hc
        have := hd _ (hcd (co.toNat + (res.toNat - co.toNat)) (by omega) (by omega))
        omega
      · exact .inr (.inl h1)
    have key := call_principal_construct (g := g) hM vo vl ho hl cp co cl res hl20 hv0 (by omega) hv32
      (by rcases hcp with h | h; exact .inr h.2.2.1; exact .inl h.1) (by omega) (by omega) (by omega)
      (by omega) (by omega) (by omega) (by omega)
    obtain ⟨n0, r, h1, h2, m', hsame, hr'⟩ := key
    have hV' : V = [g.mem.byte vo.toNat] := by
      rw [← hvb, show vl.toNat = 1 by omega]; rfl
    have hH' : H = bytesAt g.mem ho.toNat 20 := by rw [← hhb, hl20]
    have hHl : H.length = 20 := by omega
    have hso : (⟨g.mem.byte vo.toNat, H⟩ : StdPrincipal).Ok := ⟨hv32, hHl⟩
    have hc : ∀ N, construct net V H N = match N with
        | none => onNetwork net (g.mem.byte vo.toNat) (.standard ⟨g.mem.byte vo.toNat, H⟩)
        | some n => if contractName (n.map BitVec.toNat) = true then
            onNetwork net (g.mem.byte vo.toNat) (.contract ⟨⟨g.mem.byte vo.toNat, H⟩, n⟩) else constructErr 2 .none := by
      intro N
      rw [hV']
      simp only [construct]
      rw [if_neg (by omega)]
      cases N <;> rfl
    have fin : ∀ ws, r = .ret ws (g.setMem m') →
        Rep m' (seg res.toNat (res.toNat + 62)) constructTy (construct net V H N) ws →
        ∃ m' ws, Runs M (.std .principal_construct) ([Val.i32 vo, .i32 vl] ++ [Val.i32 ho, .i32 hl] ++
            [Val.i32 cp, .i32 co, .i32 cl] ++ [.i32 res]) g (.ret ws (g.setMem m')) ∧
          Rep m' (seg res.toNat (res.toNat + 62)) constructTy (construct net V H N) ws ∧
          m'.size = g.mem.size ∧ ∀ i, i < res.toNat ∨ res.toNat + 62 ≤ i → m'.byte i = g.mem.byte i := by
      intro ws e hrep
      refine ⟨m', ws, ⟨n0, fun k hk => ?_⟩, hrep, hsame.1, fun i hi => hsame.2 i (by omega)⟩
      rw [← e, ← h1]
      exact invoke_mono hk (fun h => h2 (h1.symm.trans h))
    rcases hcp with ⟨rfl, rfl, rfl, rfl⟩ | ⟨rfl, rfl⟩
    · rw [if_neg (by simp)] at hr'
      refine fin _ hr'.1 ?_
      rw [hc]
      have hpl : (principalBytes (.standard ⟨g.mem.byte vo.toNat, H⟩)).length = 22 := by simp [principalBytes, hHl]
      refine rep_onNetwork net _ hso (by rw [hpl]; rfl) ?_ (by omega)
      rw [hpl]
      refine hr'.2.trans ?_
      rw [hH']
      rfl
    · set n := bytesAt g.mem co.toNat cl.toNat with hn
      have hnl : cl.toNat = n.length := hcb n rfl
      have hasc : asciiAt g.mem co.toNat cl.toNat = n.map BitVec.toNat := rfl
      rw [hasc] at hr'
      by_cases hcn : contractName (n.map BitVec.toNat) = true
      · rw [if_neg (by simp [hcn])] at hr'
        refine fin _ hr'.1 ?_
        rw [hc]
        simp only [hcn, if_true]
        have hpl : (principalBytes (.contract ⟨⟨g.mem.byte vo.toNat, H⟩, n⟩)).length = 22 + cl.toNat := by
          simp [principalBytes, hHl, hnl]; omega
        refine rep_onNetwork net _ ⟨hso, hcn, show n.length ≤ 128 by omega⟩ ?_ ?_ (by omega)
        · rw [hpl, BitVec.toNat_add]
          simp; omega
        · rw [hpl, hr'.2, hH']
          simp [principalBytes, hnl]
      · rw [if_pos (by simpa using hcn)] at hr'
        refine fin _ hr' ?_
        rw [hc]
        simp only [hcn]
        exact rep_constructErr _ _ _ rfl (by decide)

theorem bytesAt_single (m : Mem) (a : Nat) : bytesAt m a 1 = [m.byte a] := rfl

/-- The bytes of a principal in memory. -/
theorem rep_principal_inv {m : Mem} {b : Reg} {p : Principal} {ws : List Val}
    (h : Rep m b .principal (.principal p) ws) : ∃ o l : BitVec 32, ws = [.i32 o, .i32 l] ∧
      l.toNat = 22 + ((parts p).2.2.getD []).length ∧ b.Has o.toNat l.toNat ∧ p.Ok ∧
      m.byte o.toNat = (parts p).1 ∧ bytesAt m (o.toNat + 1) 20 = (parts p).2.1 ∧
      bytesAt m (o.toNat + 22) (l.toNat - 22) = (parts p).2.2.getD [] := by
  simp only [Rep, HasType, memBytes] at h
  obtain ⟨hp, o, l, rfl, hl, hb, he⟩ := h
  cases p with
  | standard s =>
    have hp' : s.version.toNat < 32 ∧ s.hash.length = 20 := hp
    have h22 : (principalBytes (.standard s)).length = 22 := by simp [principalBytes, hp'.2]
    rw [h22] at he hl hb
    have e : bytesAt m o.toNat (1 + 20 + 1) = s.version :: s.hash ++ [0#8] := he
    rw [bytesAt_add, bytesAt_add, List.append_assoc] at e
    have hlen := Wasm.length_bytesAt m (o.toNat + 1) 20
    simp only [bytesAt_single, List.cons_append, List.nil_append, List.cons.injEq] at e
    refine ⟨o, l, rfl, by simp [parts, hl], by rw [hl]; exact hb, hp, e.1, ?_, ?_⟩
    · exact (List.append_inj e.2 (by rw [hp'.2]; exact hlen)).1
    · rw [hl]; rfl
  | contract c =>
    have hp' : (c.issuer.version.toNat < 32 ∧ c.issuer.hash.length = 20) ∧ contractNameOk c.name := hp
    have h22 : (principalBytes (.contract c)).length = 22 + c.name.length := by
      simp [principalBytes, hp'.1.2]; omega
    rw [h22] at he hl hb
    have e : bytesAt m o.toNat (1 + (20 + (1 + c.name.length))) = c.issuer.version :: c.issuer.hash ++
        BitVec.ofNat 8 c.name.length :: c.name := by
      rw [show 1 + (20 + (1 + c.name.length)) = 22 + c.name.length by omega]; exact he
    rw [bytesAt_add, bytesAt_add, bytesAt_add] at e
    have hlen := Wasm.length_bytesAt m (o.toNat + 1) 20
    simp only [bytesAt_single, List.cons_append, List.nil_append, List.cons.injEq] at e
    obtain ⟨e1, e2⟩ := List.append_inj e.2 (by rw [hp'.1.2]; exact hlen)
    simp only [List.cons.injEq] at e2
    refine ⟨o, l, rfl, by simp [parts, hl], by rw [hl]; exact hb, hp, e.1, e1, ?_⟩
    rw [hl, Nat.add_sub_cancel_left]
    exact e2.2

/-- `is-standard` says whether the version of the principal is one of the network's. -/
theorem C39_is_standard (net : Bool) (hM : Network M net) (b : Reg) (p : Principal) (ws stk loc : List Val) (vl : Nat)
    (hp : Rep g.mem b .principal (.principal p) ws) (hb : b.hi ≤ g.mem.size) (hvl : vl < loc.length) :
    ∃ loc' us, Ends M (isStandardCode vl) (ws.reverse ++ stk) loc g (.norm (us.reverse ++ stk) loc' g) ∧
      Rep g.mem b .bool (.bool (decide ((parts p).1 ∈ networkVersions net))) us ∧
      ∀ i, i ≠ vl → loc'[i]? = loc[i]? := by
  obtain ⟨o, l, rfl, hl, hbo, -, hv, -, -⟩ := rep_principal_inv hp
  have h1 : o.toNat + 1 ≤ g.mem.size := by have := hbo.1; omega
  refine ⟨loc.set vl (.i32 ((g.mem.byte o.toNat).setWidth 32)),
    [.i32 (b32 ((parts p).1 ∈ networkVersions net))], (ends_iff (by simp)).2 ?_, ?_, ?_⟩
  · simp only [isStandardCode, List.reverse_cons, List.reverse_nil, List.nil_append, List.cons_append]
    wpm [load1, hvl]
    refine (wp_call_runs (args := []) (ps := []) (rs := [.i32]) rfl rfl (runs_is_in_mainnet hM) (by simp)).2 ?_
    have hl' : vl < (loc.set vl (.i32 ((g.mem.byte o.toNat).setWidth 32))).length := by simpa using hvl
    have hg : nth (loc.set vl (.i32 ((g.mem.byte o.toNat).setWidth 32))) vl =
      .i32 ((g.mem.byte o.toNat).setWidth 32) := nth_set_self hvl
    have h : ∀ k : Byte, (((g.mem.byte o.toNat).setWidth 32 = k.setWidth 32) ↔ (parts p).1 = k) := by
      intro k
      rw [hv]
      exact setWidth_inj _ _
    have e1 := h 20#8
    have e2 := h 22#8
    have e3 := h 21#8
    have e4 := h 26#8
    simp only [BitVec.reduceSetWidth] at e1 e2 e3 e4
    simp only [callK, List.reverse_cons, List.reverse_nil, List.nil_append, List.cons_append]
    rw [wp_ite, wp_block (by simp)]
    cases net <;> simp only [b32_eq_zero, not_true, if_true, if_false, Bool.false_eq_true, not_false_iff, List.take, List.drop] <;>
      wpm [hg, e1, e2, e3, e4] <;>
      simp only [networkVersions, Bool.false_eq_true, if_true, if_false, List.mem_cons, List.not_mem_nil, or_false]
    · congr 4; exact propext or_comm
    · congr 4; exact propext or_comm
  · simp only [Rep, encB]
    refine ⟨_, rfl, ?_⟩
    simp only [b32]
    congr 2
    simp
  · intro i hi
    exact List.getElem?_set_ne (Ne.symm hi)

theorem rep_buff {m : Mem} {b : Reg} {n : Nat} {bs : List Byte} {o l : BitVec 32} (hn : bs.length ≤ n)
    (hl : l.toNat = bs.length) (hb : b.Has o.toNat bs.length) (h : bytesAt m o.toNat bs.length = bs) :
    Rep m b (.buff n) (.buff bs) [.i32 o, .i32 l] := by
  simp only [Rep]
  exact ⟨hn, o, l, rfl, hl, hb, h⟩

theorem rep_ascii {m : Mem} {b : Reg} {n : Nat} {bs : List Byte} {o l : BitVec 32} (hn : bs.length ≤ n)
    (ha : ∀ c ∈ bs, asciiOk c.toNat = true)
    (hl : l.toNat = bs.length) (hb : b.Has o.toNat bs.length) (h : bytesAt m o.toNat bs.length = bs) :
    Rep m b (.ascii n) (.ascii bs) [.i32 o, .i32 l] := by
  simp only [Rep]
  exact ⟨⟨hn, ha⟩, o, l, rfl, hl, hb, h⟩

theorem contractName_ne {n : Name} (h : contractName (n.map BitVec.toNat) = true) : 0 < n.length := by
  cases n with
  | nil => exact absurd h (by decide)
  | cons _ _ => simp

theorem contractName_ascii {n : Name} (h : contractName (n.map BitVec.toNat) = true) :
    ∀ c ∈ n, asciiOk c.toNat = true := by
  cases n with
  | nil => simp
  | cons c cs =>
    have ha : ∀ d, isAlpha d = true → asciiOk d = true := by
      intro d hd
      simp only [isAlpha, asciiOk, Bool.or_eq_true, Bool.and_eq_true, decide_eq_true_eq, beq_iff_eq] at hd ⊢
      omega
    simp only [List.map_cons, contractName, Bool.or_eq_true, Bool.and_eq_true, beq_iff_eq] at h
    intro x hx
    rcases h with ⟨h1, h2⟩ | h
    · rcases List.mem_cons.1 hx with rfl | hx
      · exact ha _ h1
      · have := List.all_eq_true.1 h2 x.toNat (List.mem_map_of_mem hx)
        simp only [Bool.or_eq_true, beq_iff_eq] at this
        rcases this with ((h | h) | h) | h
        · exact ha _ h
        · simp only [isNum, asciiOk, Bool.or_eq_true, Bool.and_eq_true, decide_eq_true_eq, beq_iff_eq] at h ⊢
          omega
        · rw [h]; rfl
        · rw [h]; rfl
    · have hall : ∀ y ∈ transientName, asciiOk y = true := by decide
      refine hall _ ?_
      rw [← h, ← List.map_cons]
      exact List.mem_map_of_mem hx

/-- `principal-destruct?` gives the parts of the principal, as the specification says (for names of at
most 40 characters, the maximum of Clarity); nothing but the two fresh locals changes. -/
theorem C39_destruct (net : Bool) (hM : Network M net) (b : Reg) (p : Principal) (ws stk loc : List Val) (n : Nat)
    (hp : Rep g.mem b .principal (.principal p) ws) (hb : b.hi ≤ g.mem.size) (hn : n + 1 < loc.length)
    (h40 : ((parts p).2.2.getD []).length ≤ 40) :
    ∃ loc' us, Ends M (destructCode n) (ws.reverse ++ stk) loc g (.norm (us.reverse ++ stk) loc' g) ∧
      Rep g.mem b (.resp partsTy partsTy) (destruct net p) us ∧
      ∀ i, i ≠ n → i ≠ n + 1 → loc'[i]? = loc[i]? := by
  obtain ⟨o, l, rfl, hl, hbo, hok, hv, hh, hnm⟩ := rep_principal_inv hp
  have hle := g.mem.le
  have h1 : o.toNat + l.toNat ≤ g.mem.size := by have := hbo.1; omega
  let us : List Val := [.i32 (o + 1#32), .i32 20#32, .i32 (b32 (0 < (l - 22#32).toNat)), .i32 (o + 22#32),
    .i32 (l - 22#32), .i32 o, .i32 1#32]
  let zs : List Val := [.i32 0#32, .i32 0#32, .i32 0#32, .i32 0#32, .i32 0#32, .i32 0#32, .i32 0#32]
  refine ⟨(loc.set n (.i32 (l - 22#32))).set (n + 1) (.i32 o),
    if (parts p).1 ∈ networkVersions net then .i32 1#32 :: (us ++ zs) else .i32 0#32 :: (zs ++ us),
    (ends_iff (by simp)).2 ?_, ?_, ?_⟩
  · simp only [destructCode, List.reverse_cons, List.reverse_nil, List.nil_append, List.cons_append]
    have hn0 : n < loc.length := by omega
    have hl1 : n + 1 < (loc.set n (.i32 (l - 22#32))).length := by simpa using hn
    wpm [load1, hn0, hl1]
    obtain ⟨loc', hloc⟩ : ∃ l', l' = (loc.set n (.i32 (l - 22#32))).set (n + 1) (.i32 o) := ⟨_, rfl⟩
    have g0 : nth loc' n = .i32 (l - 22#32) := by
      rw [hloc, nth_set_ne (by simpa using hn0) (by omega), nth_set_self hn0]
    have g1 : nth loc' (n + 1) = .i32 o := by rw [hloc, nth_set_self hl1]
    have l0 : n < loc'.length := by rw [hloc]; simpa using hn0
    have l1 : n + 1 < loc'.length := by rw [hloc]; simpa using hn
    rw [← hloc]
    refine (wp_call_runs (args := [.i32 ((g.mem.byte o.toNat).setWidth 32)]) (ps := [.i32]) (rs := [.i32]) rfl rfl
      (runs_is_version_valid hM _) (by simp)).2 ?_
    have hpl : placeholder partsTy = List.replicate 7 (.b (.const (.i32 0#32))) := rfl
    rw [hpl, hv]
    wpm [callK, partsCode, List.replicate, List.cons_append, List.nil_append, g0, g1]
    by_cases h : (parts p).1 ∈ networkVersions net
    · rw [if_neg (not_not.2 h), if_pos h]
      rfl
    · rw [if_pos h, if_neg h]
      rfl
  · have hP : Rep g.mem b partsTy (partsTuple p) us := by
      have e1 : (o + 1#32).toNat = o.toNat + 1 := by rw [BitVec.toNat_add]; simp; omega
      have el : (l - 22#32).toNat = l.toNat - 22 := by
        rw [BitVec.toNat_sub]; simp; omega
      have hbo1 := hbo.1
      have h20 : (parts p).2.1.length = 20 := by rw [← hh, Wasm.length_bytesAt]
      have r1 : Rep g.mem b (.buff 20) (.buff (parts p).2.1) [.i32 (o + 1#32), .i32 20#32] := by
        refine rep_buff (by omega) (by rw [h20]; rfl) ?_ (by rw [h20, e1]; exact hh)
        rw [h20, e1]
        exact ⟨by omega, fun i hi hi' => hbo.2 i (by omega) (by omega)⟩
      have r3 : Rep g.mem b (.buff 1) (.buff [(parts p).1]) [.i32 o, .i32 1#32] := by
        refine rep_buff (Nat.le_refl _) rfl ?_ ?_
        · exact ⟨by simp only [List.length_cons, List.length_nil]; omega,
            fun i hi hi' => hbo.2 i (by omega) (by simp only [List.length_cons, List.length_nil] at hi'; omega)⟩
        · simp only [List.length_cons, List.length_nil, Nat.zero_add, bytesAt_single, hv]
      have r2 : Rep g.mem b (.opt (.ascii 40)) (match (parts p).2.2 with | none => .none | some n => .some (.ascii n))
          [.i32 (b32 (0 < (l - 22#32).toNat)), .i32 (o + 22#32), .i32 (l - 22#32)] := by
        cases p with
        | standard s =>
          simp only [parts, Option.getD_none, List.length_nil] at hl
          have h0 : b32 (0 < (l - 22#32).toNat) = 0#32 := by rw [el, hl]; rfl
          rw [h0, Rep]
          exact .inl ⟨_, rfl, rfl, rfl⟩
        | contract c =>
          have hcn : contractNameOk c.name := hok.2
          simp only [parts, Option.getD_some] at hl hnm h40
          have hpos := contractName_ne hcn.1
          have e22 : (o + 22#32).toNat = o.toNat + 22 := by rw [BitVec.toNat_add]; simp; omega
          rw [hl, Nat.add_sub_cancel_left] at hnm
          have h0 : b32 (0 < (l - 22#32).toNat) = 1#32 := by rw [el, hl, b32, if_pos (by omega)]
          rw [h0, Rep]
          refine .inr ⟨_, _, rfl, rfl, rep_ascii h40 (contractName_ascii hcn.1) (by omega) ?_ (by rw [e22]; exact hnm)⟩
          rw [e22]
          exact ⟨by omega, fun i hi hi' => hbo.2 i (by omega) (by omega)⟩
      simp only [partsTy, partsTuple]
      rw [Rep]
      simp only [RepF]
      exact ⟨_, rfl, _, _, _, _, rfl, rfl, r1, _, _, _, _, rfl, rfl, r2, _, _, _, _, rfl, rfl, r3, rfl, rfl⟩
    rw [destruct]
    by_cases h : (parts p).1 ∈ networkVersions net
    · rw [if_pos h, if_pos h]
      simp only [Rep]
      exact .inl ⟨_, _, _, rfl, rfl, hP, rfl⟩
    · rw [if_neg h, if_neg h]
      simp only [Rep]
      exact .inr ⟨_, _, _, rfl, rfl, hP, rfl⟩
  · intro i h1 h2
    rw [List.getElem?_set_ne (Ne.symm h2), List.getElem?_set_ne (Ne.symm h1)]

/-- Taking a principal apart and building it again: the parts of every valid principal of the network
make it again, with answer `ok`. -/
theorem C39_round_trip (net : Bool) (p : Principal) (hp : p.Ok) (hv : (parts p).1 ∈ networkVersions net) :
    construct net [(parts p).1] (parts p).2.1 (parts p).2.2 = .ok (.principal p) := by
  cases p with
  | standard s =>
    have h : s.version.toNat < 32 ∧ s.hash.length = 20 := hp
    have hv' : s.version ∈ networkVersions net := hv
    show construct net [s.version] s.hash none = _
    simp only [construct, onNetwork]
    rw [if_neg (by omega), if_pos hv']
  | contract c =>
    have h : c.issuer.version.toNat < 32 ∧ c.issuer.hash.length = 20 := hp.1
    have hn : contractName (c.name.map BitVec.toNat) = true := hp.2.1
    have hv' : c.issuer.version ∈ networkVersions net := hv
    show construct net [c.issuer.version] c.issuer.hash (some c.name) = _
    simp only [construct, onNetwork]
    rw [if_neg (by omega), if_pos hn, if_pos hv']

/-- `ok` is answered exactly for a one-byte version of the network, a hash of 20 bytes and a valid name. -/
theorem C39_ok_iff (net : Bool) (V H : List Byte) (N : Option Name) (hV : V.length ≤ 1) (hH : H.length ≤ 20) :
    (∃ p, construct net V H N = .ok (.principal p)) ↔
      (∃ v ∈ networkVersions net, V = [v]) ∧ H.length = 20 ∧ ∀ n ∈ N, contractName (n.map BitVec.toNat) = true := by
  have h32 : ∀ v ∈ networkVersions net, v.toNat < 32 := by cases net <;> decide
  cases V with
  | nil => simp [construct, constructErr]
  | cons v V =>
    have hV0 : V = [] := by
      cases V with
      | nil => rfl
      | cons _ _ => simp at hV
    subst hV0
    simp only [construct]
    by_cases h : 32 ≤ v.toNat ∨ H.length < 20
    · rw [if_pos h]
      simp only [constructErr, reduceCtorEq, exists_false, false_iff]
      rintro ⟨⟨v', hv', e⟩, hl, -⟩
      rw [List.cons.injEq] at e
      have := h32 v' hv'
      rw [← e.1] at this
      omega
    · rw [if_neg h]
      have hl : H.length = 20 := by omega
      cases N with
      | none =>
        by_cases hv : v ∈ networkVersions net
        · simp [onNetwork, hv, hl]
        · simp [onNetwork, hv, hl, constructErr]
      | some n =>
        by_cases hn : contractName (n.map BitVec.toNat) = true
        · by_cases hv : v ∈ networkVersions net
          · simp [onNetwork, hv, hl, hn]
          · simp [onNetwork, hv, hl, hn, constructErr]
        · simp [hn, hl, constructErr]

/-- A memory with version 22 at 100, a hash of 20 bytes 7 at 110, the name "a-b" at 140. -/
def partsMem : Mem where
  size := 65536
  byte i := if i = 100 then 22#8 else if 110 ≤ i ∧ i < 130 then 7#8 else if i = 140 then 97#8 else
    if i = 141 then 45#8 else if i = 142 then 98#8 else 0#8
  le := by decide

/-- The hypotheses are met: `(principal-construct? 0x16 0x0707.. "a-b")` on mainnet, and on testnet. -/
example (hm : g.mem = partsMem) (net : Bool) (hM : Network M net) :
    ∃ m' ws, Runs M (.std .principal_construct) [.i32 100#32, .i32 1#32, .i32 110#32, .i32 20#32, .i32 1#32,
        .i32 140#32, .i32 3#32, .i32 200#32] g (.ret ws (g.setMem m')) ∧
      Rep m' (seg 200 262) constructTy (if net then .ok (.principal (.contract ⟨⟨22#8, List.replicate 20 7#8⟩, [97#8, 45#8, 98#8]⟩))
        else .err (.tuple [(ident "error_code", .uint 0), (ident "value",
          .some (.principal (.contract ⟨⟨22#8, List.replicate 20 7#8⟩, [97#8, 45#8, 98#8]⟩)))])) ws := by
  have hs : ∀ o l : BitVec 32, o.toNat + l.toNat ≤ 200 → (seg 0 200).Has o.toNat l.toNat :=
    fun o l h => ⟨h, fun i _ _ (hi : i < 0) => by omega⟩
  have h := C39_construct_partial M g net hM (seg 0 200) [22#8] (List.replicate 20 7#8) (some [97#8, 45#8, 98#8])
    [.i32 100#32, .i32 1#32] [.i32 110#32, .i32 20#32] [.i32 1#32, .i32 140#32, .i32 3#32] 200#32
    (rep_buff (by decide) rfl (hs 100#32 1#32 (by decide)) (by rw [hm]; decide))
    (rep_buff (by decide) rfl (hs 110#32 20#32 (by decide)) (by rw [hm]; decide))
    ⟨_, rfl, rep_ascii (by decide) (by decide) rfl (hs 140#32 3#32 (by decide)) (by rw [hm]; decide)⟩
    (by rw [hm]; decide) (by rw [hm]; decide)
    (fun i hi => .inl (by have : i + 1 ≤ 200 := hi.1; show i < 200; omega))
  obtain ⟨m', ws, h1, h2, _⟩ := h
  refine ⟨m', ws, h1, ?_⟩
  cases net <;> exact h2

end Props
