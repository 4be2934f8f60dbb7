import Verif.Gen.ExprFold

/-! Code of expressions: `filter`. -/

namespace Gen
open Wasm Spec Host Core

section keep
variable {α β : Type}

theorem keep_le : ∀ (ms : List Bool) (xs : List α), (keep ms xs).length ≤ ms.length
  | [], _ => by simp [keep]
  | true :: ms, [] => by simp [keep]
  | true :: ms, x :: xs => by have := keep_le ms xs; simp [keep]; omega
  | false :: ms, [] => by simp [keep]
  | false :: ms, x :: xs => by have := keep_le ms xs; simp [keep]; omega

theorem keep_map (f : α → β) : ∀ (ms : List Bool) (xs : List α), keep ms (xs.map f) = (keep ms xs).map f
  | [], _ => by simp [keep]
  | true :: ms, [] => by simp [keep]
  | true :: ms, x :: xs => by simp [keep, keep_map f ms xs]
  | false :: ms, [] => by simp [keep]
  | false :: ms, x :: xs => by simp [keep, keep_map f ms xs]

theorem keep_false : ∀ (ms : List Bool) (xs : List α), keep (ms ++ [false]) xs = keep ms xs
  | [], [] => rfl
  | [], _ :: _ => by simp [keep]
  | true :: ms, [] => by simp [keep]
  | true :: ms, x :: xs => by simp [keep, keep_false ms xs]
  | false :: ms, [] => by simp [keep]
  | false :: ms, x :: xs => by simp [keep, keep_false ms xs]

theorem keep_true : ∀ (ms : List Bool) (xs : List α), keep (ms ++ [true]) xs = keep ms xs ++ (xs.drop ms.length).take 1
  | [], [] => rfl
  | [], _ :: _ => by simp [keep]
  | true :: ms, [] => by simp [keep]
  | true :: ms, x :: xs => by simp [keep, keep_true ms xs]
  | false :: ms, [] => by simp [keep]
  | false :: ms, x :: xs => by simp [keep, keep_true ms xs]
end keep

theorem seqKeep_elems {v : Value} {vs : List Value} (h : seqElems v = some vs) (ms : List Bool) :
    seqElems (seqKeep ms v) = some (keep ms vs) := by
  cases v <;> simp only [seqElems, Option.some.injEq, reduceCtorEq] at h <;> subst h <;>
    simp only [seqKeep, seqElems, keep_map]

theorem seqKeep_false (ms : List Bool) (v : Value) : seqKeep (ms ++ [false]) v = seqKeep ms v := by
  cases v <;> simp only [seqKeep, keep_false]

theorem seqKeep_true {v : Value} {vs : List Value} (h : seqElems v = some vs) (ms : List Bool) :
    seqCat (seqKeep ms v) (seqPart ms.length 1 v) = some (seqKeep (ms ++ [true]) v) := by
  cases v <;> simp only [seqElems, Option.some.injEq, reduceCtorEq] at h <;>
    simp only [seqKeep, seqPart, seqCat, keep_true]

theorem seqPart_one {v x : Value} {vs : List Value} (h : seqElems v = some vs) {i : Nat} (hi : vs[i]? = some x) :
    seqElems (seqPart i 1 v) = some [x] := by
  have hlt := (List.getElem?_eq_some_iff.1 hi).1
  cases v <;> simp only [seqElems, Option.some.injEq, reduceCtorEq] at h <;> subst h <;>
    simp only [seqPart, seqElems] <;> (try simp only [List.length_map] at hlt) <;>
    rw [List.drop_eq_getElem_cons hlt, List.take_succ_cons, List.take_zero] <;> (try simp only [List.map_cons, List.map_nil]) <;> simp_all

theorem seqAt_max {m : Mem} {b : Reg} {S : Ty} {q a : Nat} {v : Value} (h : SeqAt m b (withMax q S) a v) : SeqAt m b S a v := by
  cases S <;> cases v <;> simp_all [SeqAt, withMax]

theorem seqAt_empty {m : Mem} {b b' : Reg} {m' : Mem} {S : Ty} {a a' : Nat} {v : Value} (h : SeqAt m b S a v) :
    SeqAt m' b' S a' (seqKeep [] v) := by
  unfold SeqAt at h
  split at h <;> simp_all [SeqAt, seqKeep, keep, ElemsAt, bytesAt]

section
variable {p : P} {k : Nat} {wr : Bool} {w : World} {d n al : Nat} {er : Bool} {stk loc0 : List Val} {g0 : Store World}

/-- What holds at the start of a round of the loop of `filter`, with the results `ms` so far. -/
structure FiltAt (p : P) (w : World) (S : Ty) (v : Value) (vs : List Value) (a l : BitVec 32) (o z : Nat) (loc0 : List Val)
    (g0 : Store World) (ms : List Bool) (s : St) (loc : List Val) (g : Store World) : Prop where
  fr : Fr o z loc0 loc g0 g
  hold : sp g0 + z ≤ sp g
  inv : Inv (p.res (sp g0) z) w s 0 g
  val : Rep g.mem ((p.res (sp g0) z).reg g) S v [.i32 a, .i32 l]
  out : SeqAt g.mem ((p.res (sp g0) z).reg g) S (sp g0) (seqKeep ms v)
  l0 : loc[o]? = some (.i32 (BitVec.ofNat 32 ((vs.length - ms.length) * unit S)))
  l1 : loc[o + 1]? = some (.i32 (a + BitVec.ofNat 32 (ms.length * unit S)))
  l2 : loc[o + 2]? = some (.i32 (BitVec.ofNat 32 ((keep ms vs).length * unit S)))
  l3 : loc[o + 3]? = some (.i32 (g0.g32 .stackPointer))

/-- The result of the loop of `filter`. -/
def Filt (p : P) (S : Ty) (o : Nat) (g0 : Store World) (z : Nat) : Value → List Val → List Val → Store World → Prop :=
  fun v ws loc g => ws = [] ∧ ∃ vs, seqElems v = some vs ∧ vs.length * unit S ≤ z ∧ vs.length ≤ maxLen S ∧
    sp g0 + z ≤ sp g ∧ SeqAt g.mem ((p.res (sp g0) z).reg g) S (sp g0) v ∧
    loc[o + 2]? = some (.i32 (BitVec.ofNat 32 (vs.length * unit S))) ∧ loc[o + 3]? = some (.i32 (g0.g32 .stackPointer))

theorem from_filterLoop {j : Nat} {f : FunDef} {c : Cx} {S : Ty} {v : Value} {vs : List Value} {a l : BitVec 32} {o z : Nat}
    (hC : ContractOk p.K) (hL : Linked p.K p.M) (hF : ∀ j, j < k → FnGood p.K p.M j) (hb : need p.K k ≤ p.base) (hj : j < k)
    (hf : p.K.fns[j]? = some f) (hk : f.kind = .priv) (hp : f.params.map Prod.snd = [elemTy S]) (hr : f.ret = .bool)
    (cx : CxOk c w f.writes) (hS : SeqOk S) (hvs : seqElems v = some vs) (hl : l.toNat = vs.length * unit S)
    (hz : z = maxLen S * unit S) (hlo : o + 3 < loc0.length) :
    ∀ (xs : List Value) (ms : List Bool) (s : St) (loc : List Val) (g : Store World), xs ≠ [] → vs.drop ms.length = xs →
      FiltAt p w S v vs a l o z loc0 g0 ms s loc g →
      From p w d er o z (filterLoop S [.call (.user j)] o) stk stk loc0 g0 loc g
        ((maskElems (sem p.K.fns k) j c xs s).bind fun ms' s => .val (seqKeep (ms ++ ms') v) s) (Filt p S o g0 z) := by
  intro xs
  induction xs with
  | nil => exact fun _ _ _ _ h => absurd rfl h
  | cons x xs ih =>
    intro ms s loc g _ hd h
    obtain ⟨vs', a', l', hvs', hmax, hw, hl', hhas⟩ := rep_seq hS.1 h.val
    cases hvs.symm.trans hvs'
    cases hw
    have hi : vs[ms.length]? = some x := by
      have := congrArg (·[0]?) hd
      simpa using this
    have hdn : vs.drop (ms.length + 1) = xs := by rw [← List.drop_drop, hd]; rfl
    have hilt := (List.getElem?_eq_some_iff.1 hi).1
    have hsmall := h.inv.sp_lt
    have hhi : a.toNat + l.toNat ≤ sp g := hhas.1
    have room : sp g + 0 + p.base ≤ g.mem.size := h.inv.room
    have lenl := h.fr.len
    generalize hii : ms.length = i at *
    have hmul : (i + 1) * unit S = i * unit S + unit S := Nat.succ_mul _ _
    have hle : (i + 1) * unit S ≤ vs.length * unit S := Nat.mul_le_mul_right _ (by omega)
    have ea : (a + BitVec.ofNat 32 (i * unit S)).toNat = a.toNat + i * unit S := add_toNat (by omega)
    have hrx := rep_elem hS.1 h.val hsmall hvs hi
    have s1 := steps_readElem (M := p.M) (S := S) (o := o + 1) (a := a + BitVec.ofNat 32 (i * unit S)) (stk := []) (loc := loc) (g := g)
      hS.1 (by rw [h.l1, hii]) (by rw [ea]; omega)
    have hrep : RepAll g.mem ((p.res (sp g0) z).reg g) (f.params.map Prod.snd) [x] (elemVals g.mem S (a + BitVec.ofNat 32 (i * unit S))) := by
      rw [hp]
      exact ⟨x, [], _, [], rfl, by simp, hrx, rfl, rfl⟩
    have hcc : callCode j f.kind f.ret o = ⟨[.call (.user j)], [], 0⟩ := by rw [hk]; rfl
    have dc := Does.callFn (p := p.res (sp g0) z) (d := d + 1) (er := false) (n := loc.length) (stk := []) (loc := loc) hL (hF j hj) hf (hC.fns j f hf)
      (Nat.le_trans (need_le hj) hb) cx h.inv (by rw [hk]; exact Nat.le_refl _) hrep
    rw [show (callCode j f.kind f.ret loc.length).is = [.call (.user j)] by rw [hk]; rfl] at dc
    simp only [maskElems]
    rw [sem_lt p.K.fns hj f hf, bind_assoc]
    obtain ⟨body, hbody⟩ : ∃ body, body = readElem S (o + 1) ++ ([Instr.call (.user j)] ++
        [.ite 0 0 [lget (o + 3), lget (o + 2), .b (.i32bin .add), lget (o + 1), c32 (unit S), .b .memCopy,
          lget (o + 2), c32 (unit S), .b (.i32bin .add), lset (o + 2)] [],
         lget (o + 1), c32 (unit S), .b (.i32bin .add), lset (o + 1),
         lget o, c32 (unit S), .b (.i32bin .sub), .b (.localTee o), .brIf 0]) := ⟨_, rfl⟩
    have hcode : filterLoop S [.call (.user j)] o = [.loop 0 0 body] := by
      simp only [hbody, filterLoop, List.append_assoc]
    rw [hcode] at ih ⊢
    refine From.loop (n' := loc.length) (al := 0) (bs1 := []) hbody s1 dc ?_
    rintro y s' us loc2 g2 - f2 hh hs ⟨hi', -, hy⟩ hdev
    rw [hr] at hy
    obtain ⟨t, rfl, rfl⟩ := hy
    dsimp only at hdev ⊢
    rw [bind_assoc] at hdev ⊢
    have l2eq : loc2 = loc := by
      apply List.ext_getElem?
      intro q
      by_cases hq : q < loc.length
      · exact f2.keep q hq
      · have := f2.len
        rw [List.getElem?_eq_none (by omega), List.getElem?_eq_none (by omega)]
    subst l2eq
    have inv2 : Inv (p.res (sp g0) z) w s' 0 g2 := h.inv.step f2 hh hs
    have val2 : Rep g2.mem ((p.res (sp g0) z).reg g2) S v [.i32 a, .i32 l] := h.val.step f2
    have fr2 : Fr o z loc0 loc2 g0 g2 := (h.fr.trans (f2.weaken (n := o) (by omega) (Nat.le_refl 0)) (Nat.le_refl _))
    have hold2 : sp g0 + z ≤ sp g2 := Nat.le_trans h.hold f2.lo
    have hkl : (keep ms vs).length ≤ i := hii ▸ keep_le ms vs
    have hkl2 : (keep ms vs).length * unit S ≤ i * unit S := Nat.mul_le_mul_right _ hkl
    have hmz : vs.length * unit S ≤ z := hz ▸ Nat.mul_le_mul_right _ hmax
    have out2 : SeqAt g2.mem ((p.res (sp g0) z).reg g2) S (sp g0) (seqKeep ms v) :=
      h.out.stay (seqKeep_elems hvs ms) f2 (by have := h.hold; omega)
    have hl0 := h.l0
    have hl1 := h.l1
    have hl2 := h.l2
    have hl3 := h.l3
    rw [hii] at hl0 hl1
    have key : ∀ loc3 g3, Fr o z loc0 loc3 g0 g3 → sp g0 + z ≤ sp g3 → Inv (p.res (sp g0) z) w s' 0 g3 →
        Rep g3.mem ((p.res (sp g0) z).reg g3) S v [.i32 a, .i32 l] →
        SeqAt g3.mem ((p.res (sp g0) z).reg g3) S (sp g0) (seqKeep (ms ++ [t]) v) →
        loc3[o]? = loc2[o]? → loc3[o + 1]? = loc2[o + 1]? →
        loc3[o + 2]? = some (.i32 (BitVec.ofNat 32 ((keep (ms ++ [t]) vs).length * unit S))) →
        loc3[o + 3]? = loc2[o + 3]? →
        WP p.M [lget (o + 1), c32 (unit S), .b (.i32bin .add), lset (o + 1),
          lget o, c32 (unit S), .b (.i32bin .sub), .b (.localTee o), .brIf 0] [] loc3 g3
          (loopK p.M 0 0 body [] stk (Post p w d er o z stk loc0 g0 ((maskElems (sem p.K.fns k) j c xs s').bind fun a s =>
            (Out.val (t :: a) s).bind fun ms' s => Out.val (seqKeep (ms ++ ms') v) s) (Filt p S o g0 z))) := by
      intro loc3 g3 fr3 hold3 inv3 val3 out3 a0 a1 a2 a3
      rw [hl0] at a0
      rw [hl1] at a1
      rw [hl3] at a3
      obtain ⟨b0, e0⟩ := nth_some a0
      obtain ⟨b1, e1⟩ := nth_some a1
      have ea' : a + BitVec.ofNat 32 (i * unit S) + BitVec.ofNat 32 (unit S) = a + BitVec.ofNat 32 ((i + 1) * unit S) := by
        rw [hmul, BitVec.ofNat_add, BitVec.add_assoc]
      have el : BitVec.ofNat 32 ((vs.length - i) * unit S) - BitVec.ofNat 32 (unit S) = BitVec.ofNat 32 ((vs.length - (i + 1)) * unit S) := by
        rw [show vs.length - i = vs.length - (i + 1) + 1 by omega, Nat.succ_mul, BitVec.ofNat_add, BitVec.add_sub_cancel]
      obtain ⟨loc4, e4⟩ : ∃ x, x = (loc3.set (o + 1) (.i32 (a + BitVec.ofNat 32 ((i + 1) * unit S)))).set o
        (.i32 (BitVec.ofNat 32 ((vs.length - (i + 1)) * unit S))) := ⟨_, rfl⟩
      have fr4 : Fr o z loc0 loc4 g0 g3 := by
        refine fr3.trans (n' := o) (al' := 0) (Fr.locals (by rw [e4]; simp) fun q hq => ?_) (Nat.le_refl _)
        rw [e4, List.getElem?_set_ne (by omega), List.getElem?_set_ne (by omega)]
      have c2 : loc4[o + 2]? = some (.i32 (BitVec.ofNat 32 ((keep (ms ++ [t]) vs).length * unit S))) := by
        rw [e4, List.getElem?_set_ne (by omega), List.getElem?_set_ne (by omega), a2]
      have c3 : loc4[o + 3]? = some (.i32 (g0.g32 .stackPointer)) := by
        rw [e4, List.getElem?_set_ne (by omega), List.getElem?_set_ne (by omega), a3]
      have hkl' : (keep (ms ++ [t]) vs).length ≤ i + 1 := by have := keep_le (ms ++ [t]) vs; simp at this; omega
      have hkm : (keep (ms ++ [t]) vs).length * unit S ≤ vs.length * unit S := Nat.mul_le_mul_right _ (by omega)
      simp only [lget, lset, c32]
      wpl [e0, e1, ea', el]
      rw [← e4]
      by_cases hend : i + 1 = vs.length
      · have hx0 : xs = [] := by rw [← hdn, hend]; exact List.drop_length ..
        subst hx0
        rw [if_pos (by rw [hend]; simp)]
        exact ⟨[], loc4, g3, rfl, fr4, inv3.host, hs, rfl, _, seqKeep_elems hvs _, by omega, by omega, hold3, out3, c2, c3⟩
      · have h1 : 1 * unit S ≤ (vs.length - (i + 1)) * unit S := Nat.mul_le_mul_right _ (by omega)
        have h2 : (vs.length - (i + 1)) * unit S ≤ vs.length * unit S := Nat.mul_le_mul_right _ (by omega)
        have hp := hS.pos
        have hx0 : xs ≠ [] := by
          rintro rfl
          have := congrArg List.length hdn
          simp at this; omega
        rw [if_neg (fun hh => by
          have := congrArg BitVec.toNat hh
          rw [toNat_ofNat32 (by omega)] at this
          simp at this
          omega)]
        show WP p.M [.loop 0 0 body] stk loc4 g3 _
        have := ih (ms ++ [t]) s' loc4 g3 hx0 (by simp [hii, hdn]) ⟨fr4, hold3, inv3, val3, out3, ?_, ?_, c2, c3⟩
        · simp only [Out.bind, List.append_assoc, List.singleton_append] at this hdev ⊢
          exact this hdev
        · rw [e4, List.getElem?_set_self (by simp; omega)]; simp [hii]
        · rw [e4, List.getElem?_set_ne (by omega), List.getElem?_set_self (by omega)]; simp [hii]
    cases t with
    | false =>
      rw [show ((encB false).reverse ++ [] : List Val) = [.i32 0#32] from rfl]
      have st : Steps p.M [.ite 0 0 [lget (o + 3), lget (o + 2), .b (.i32bin .add), lget (o + 1), c32 (unit S), .b .memCopy,
          lget (o + 2), c32 (unit S), .b (.i32bin .add), lset (o + 2)] []] [.i32 0#32] loc2 g2 [] loc2 g2 := by
        have := steps_ite (M := p.M) (np := 0) (nr := 0) (c := 0#32) (xs := []) (rs := []) (stk := []) (loc := loc2) (g := g2) (loc' := loc2) (g' := g2)
          (A := [lget (o + 3), lget (o + 2), .b (.i32bin .add), lget (o + 1), c32 (unit S), .b .memCopy,
          lget (o + 2), c32 (unit S), .b (.i32bin .add), lset (o + 2)]) (B := []) rfl (by rw [if_pos rfl]; exact Steps.refl)
        exact this
      refine (st _ _).2 ?_
      exact key loc2 g2 fr2 hold2 inv2 val2 (by rw [seqKeep_false]; exact out2) rfl rfl (by rw [keep_false]; exact hl2) rfl
    | true =>
      rw [show ((encB true).reverse ++ [] : List Val) = [.i32 1#32] from rfl]
      have hsp : (g0.g32 .stackPointer).toNat = sp g0 := rfl
      have room2 : sp g2 + 0 + p.base ≤ g2.mem.size := inv2.room
      have small2 := inv2.sp_lt
      have hp1 := rep_part hS.1 val2 small2 hvs (i := i) (k := 1) (q := 1) (by omega) (Nat.le_refl _)
      rw [Nat.one_mul] at hp1
      have hpe := seqPart_one hvs hi
      have et : (g0.g32 .stackPointer + BitVec.ofNat 32 ((keep ms vs).length * unit S)).toNat = sp g0 + (keep ms vs).length * unit S := by
        rw [add_toNat (by omega), hsp]
      obtain ⟨m3, st3, sz3, out3, at3⟩ := hold_copy (p := p) (loc := loc2) (stk := []) (a0 := sp g0) (Z := z) (S := withMax 1 S)
        (t := g0.g32 .stackPointer + BitVec.ofNat 32 ((keep ms vs).length * unit S)) (by cases S <;> simp_all [withMax, isSeq, SeqOk])
        hp1 hpe (by omega) (by rw [et, unit_withMax]; simp; omega) hold2 (by omega)
      rw [et, unit_withMax] at out3
      rw [et] at at3
      have at3 := seqAt_max at3
      simp only [List.length_singleton, Nat.one_mul] at out3
      obtain ⟨b1, e1⟩ := nth_some hl1
      obtain ⟨b2, e2⟩ := nth_some hl2
      obtain ⟨b3, e3⟩ := nth_some hl3
      obtain ⟨loc3, eloc⟩ : ∃ x, x = loc2.set (o + 2) (.i32 (BitVec.ofNat 32 ((keep ms vs).length * unit S) + BitVec.ofNat 32 (unit S))) := ⟨_, rfl⟩
      have st : Steps p.M [.ite 0 0 [lget (o + 3), lget (o + 2), .b (.i32bin .add), lget (o + 1), c32 (unit S), .b .memCopy,
          lget (o + 2), c32 (unit S), .b (.i32bin .add), lset (o + 2)] []] [.i32 1#32] loc2 g2 [] loc3 (g2.setMem m3) := by
        have sa : Steps p.M [lget (o + 3), lget (o + 2), .b (.i32bin .add), lget (o + 1), c32 (unit S)] [] loc2 g2
            [.i32 (BitVec.ofNat 32 (unit S)), .i32 (a + BitVec.ofNat 32 (i * unit S)),
              .i32 (g0.g32 .stackPointer + BitVec.ofNat 32 ((keep ms vs).length * unit S))] loc2 g2 := by
          refine Steps.of_wp fun Q => ?_
          simp only [lget, c32]
          wpl [e1, e2, e3]
        have sb : Steps p.M [lget (o + 2), c32 (unit S), .b (.i32bin .add), lset (o + 2)] [] loc2 (g2.setMem m3) [] loc3 (g2.setMem m3) := by
          refine Steps.of_wp fun Q => ?_
          simp only [lget, lset, c32]
          wpl [e2]
          rw [← eloc]
        have := steps_ite (M := p.M) (np := 0) (nr := 0) (c := 1#32) (xs := []) (rs := []) (stk := []) (loc := loc2) (g := g2) (loc' := loc3) (g' := g2.setMem m3)
          (A := [lget (o + 3), lget (o + 2), .b (.i32bin .add), lget (o + 1), c32 (unit S), .b .memCopy,
          lget (o + 2), c32 (unit S), .b (.i32bin .add), lset (o + 2)]) (B := []) rfl (by
            rw [if_neg (by decide)]
            exact (sa.append st3).append sb)
        exact this
      refine (st _ _).2 ?_
      have hin : ∀ q, q < sp g0 ∨ sp g0 + z ≤ q → m3.byte q = g2.mem.byte q := fun q hq => out3 q (by omega)
      have same3 : Same ((p.res (sp g0) z).reg g2) g2.mem m3 := by
        intro q _ h2
        refine hin q ?_
        by_cases hq : q < sp g0 ∨ sp g0 + z ≤ q
        · exact hq
        · exact absurd (Or.inr ⟨by omega, by omega⟩) h2
      have fr3 : Fr o z loc0 loc3 g0 (g2.setMem m3) := by
        have := fr2.write (m := m3) (fun q hq => hin q (.inl hq)) sz3
        refine this.trans (n' := o) (al' := 0) (Fr.locals (by rw [eloc]; simp) fun q hq => ?_) (Nat.le_refl _)
        rw [eloc, List.getElem?_set_ne (by omega)]
      have inv3 : Inv (p.res (sp g0) z) w s' 0 (g2.setMem m3) := by
        refine ⟨inv2.host, inv2.st, fun bs hb => ?_, inv2.holes, ?_, ?_⟩
        · have := inv2.lits bs hb
          refine ⟨this.1, ?_⟩
          show bytesAt m3 _ _ = _
          rw [bytesAt_eq (m := g2.mem) fun q h1 h2 => same3 q (Nat.lt_of_lt_of_le h2 this.1.1) (this.1.2 q h1 h2), this.2]
        · show sp g2 + 0 + p.base ≤ m3.size
          rw [sz3]; exact room2
        · show m3.size + 65536 ≤ _
          rw [sz3]; exact inv2.small
      have hout : SeqAt m3 ((p.res (sp g0) z).reg g2) S (sp g0) (seqKeep (ms ++ [true]) v) := by
        have o1 := out2.move (a' := sp g0) (b' := (p.res (sp g0) z).reg g2) (seqKeep_elems hvs ms) same3 ⟨Nat.le_refl _, fun _ _ h => h⟩
          (fun q hq => out3 _ (by omega))
        obtain ⟨y, hy1, _, hy2⟩ := o1.cat (seqKeep_elems hvs ms) at3 hpe
        rw [← hii, seqKeep_true hvs ms] at hy1
        cases hy1
        exact hy2
      refine key loc3 (g2.setMem m3) fr3 hold2 inv3 (val2.held hin) hout ?_ ?_ ?_ ?_
      · rw [eloc, List.getElem?_set_ne (by omega)]
      · rw [eloc, List.getElem?_set_ne (by omega)]
      · rw [eloc, List.getElem?_set_self (by omega), keep_true, List.length_append, hii, Nat.add_mul, BitVec.ofNat_add]
        rw [List.length_take, List.length_drop, Nat.min_eq_left (by omega), Nat.one_mul]
      · rw [eloc, List.getElem?_set_ne (by omega)]

theorem good_filter (hC : ContractOk p.K) (hL : Linked p.K p.M) (hF : ∀ j, j < k → FnGood p.K p.M j)
    (hb : need p.K k ≤ p.base) {j : Nat} {e : Expr} (he : EGood p k (sem p.K.fns k) wr e) :
    EGood p k (sem p.K.fns k) wr (.filter j e) := by
  intro T er Δ Γ ρ n w c s d stk loc g ht ok
  simp only [wt] at ht
  obtain ⟨hS, hte, hj, f, hf, hk, hp, hr, hw⟩ := ht
  have hZ := localSize_seq hS.1
  simp only [compile] at ok
  simp only [compile, eval]
  generalize stackLocalSize T false true = z at *
  generalize hA : compile p.K p.R e T d Γ n = A at *
  generalize hn1 : n + A.ls.length = n1 at *
  simp only [List.length_append, List.length_cons, List.length_nil] at ok
  simp only [List.append_assoc]
  refine he.then hte hA ok ?_
  intro v s1 ws loc1 g1 _ hf1 ok1 hv
  obtain ⟨vs, o, l, hvs, hlen, rfl, hl, hhas⟩ := rep_seq hS.1 hv
  rw [hn1] at ok1 ⊢
  have hL1 := ok1.locs
  have room1 := ok1.inv.room
  have small1 := ok1.inv.small
  rw [hvs]
  by_cases hemp : vs = []
  · subst hemp
    exact fun h => absurd rfl h
  obtain ⟨loc2, e2⟩ : ∃ l2, l2 = ((loc1.set n1 (.i32 l)).set (n1 + 1) (.i32 o)).set (n1 + 2) (.i32 0#32) := ⟨_, rfl⟩
  have st2 : Steps p.M [lset n1, lset (n1 + 1), c32 0, lset (n1 + 2)] ([Val.i32 o, .i32 l].reverse ++ stk) loc1 g1 stk loc2 g1 := by
    refine Steps.of_wp fun Q => ?_
    simp only [lset, c32, List.reverse_cons, List.reverse_nil, List.nil_append, List.cons_append]
    wpl
    rw [← e2]
  have hf2 : Fr n1 0 loc1 loc2 g1 g1 := Fr.locals (by rw [e2]; simp) fun j hj => by
    rw [e2, List.getElem?_set_ne (by omega), List.getElem?_set_ne (by omega), List.getElem?_set_ne (by omega)]
  have hl2 := hf2.len
  refine Does.steps0 (is := [_, _, _, _]) st2 hf2 (Nat.le_refl _) ?_
  have ok2 : Ok p wr c w s1 Δ Γ ρ n1 z 4 loc2 g1 :=
    (show Ok p wr c w s1 Δ Γ ρ n1 (0 + z) 4 loc1 g1 by rw [Nat.zero_add]; exact ok1).step hf2 ok1.inv.host ok1.inv.st (Nat.le_refl _) (Nat.le_refl _)
  obtain ⟨loc3, g3, h1, hf3, h3, h4, h5, h6, h7⟩ := steps_alloc (M := p.M) (stk := stk) (n := n1 + 3) (loc := loc2) (g := g1)
    (size := z) (by omega) (by omega)
  have hf3' : Fr n1 z loc2 loc3 g1 g3 := hf3.weaken (by omega) (Nat.le_refl _)
  have ok3 : Ok (p.res (sp g1) z) wr c w s1 Δ Γ ρ n1 0 4 loc3 g3 :=
    Ok.hold (al := 0) ok2 hf3' (by omega) (by rw [h6, ok1.inv.host]) ok1.inv.st (Nat.le_refl _) (Nat.le_refl _)
  have hv3 : Rep g3.mem ((p.res (sp g1) z).reg g3) T v [.i32 o, .i32 l] := by
    rw [h5]
    have hle : (p.reg g1).Le ((p.res (sp g1) z).reg g3) := by
      refine ⟨hf3.lo, fun i hi h => ?_⟩
      have hi : i < sp g1 := hi
      rcases h with h | h
      · exact h
      · omega
    exact hv.mono (fun _ _ _ => rfl) hle
  have hfl := from_filterLoop (p := p) (k := k) (w := w) (d := d) (er := er) (stk := stk) (loc0 := loc2) (g0 := g1) (o := n1) (z := z)
    hC hL hF hb hj hf hk hp hr (ok1.cx.sub hw) hS hvs hl hZ (by omega) vs [] s1 loc3 g3 hemp rfl
    ⟨hf3', by omega, ok3.inv, hv3, seqAt_empty (SeqAt.of_rep hS.1 hv3), by
      rw [h4 _ (by omega), e2, List.getElem?_set_ne (by omega), List.getElem?_set_ne (by omega), List.getElem?_set_self (by omega)]
      simp [← hl], by
      rw [h4 _ (by omega), e2, List.getElem?_set_ne (by omega), List.getElem?_set_self (by simp; omega)]
      simp, by
      rw [h4 _ (by omega), e2, List.getElem?_set_self (by simp; omega)]
      simp [keep], h3⟩
  have hdo := (From.steps h1 hfl).does
  rw [← List.append_assoc (allocCode _ _)]
  obtain ⟨x, xs, rfl⟩ := List.exists_cons_of_ne_nil hemp
  show Does _ _ _ _ _ _ _ _ _ _ _ ((maskElems (sem p.K.fns k) j c (x :: xs) s1).bind fun ms s => .val (seqKeep ([] ++ ms) v) s) _
  rw [← bind_val (Out.bind _ _)]
  refine hdo.bind (al' := 0) (Nat.le_refl _) ?_
  rintro v' s6 _ loc6 g6 - hf6 hh hs ⟨rfl, us, hus, hz6, hm6, hsp6, at6, c2, c3⟩
  refine Does.ends (ws := [.i32 (g1.g32 .stackPointer), .i32 (BitVec.ofNat 32 (us.length * unit T))])
    ((steps_get c3).cons (steps_get c2)) Fr.refl hh hs ?_
  have el : (BitVec.ofNat 32 (us.length * unit T)).toNat = us.length * unit T := toNat_ofNat32 (by omega)
  exact hold_rep ok2 hsp6 at6 hus hm6 el (by omega)
end
end Gen
