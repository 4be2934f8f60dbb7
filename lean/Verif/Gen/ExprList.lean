import Verif.Gen.Hold

/-! Code of expressions: `list`, `append`, `concat`, `replace-at?`. -/

namespace Gen
open Wasm Spec Host Core

section
variable {p : P} {k : Nat} {call : FSem} {wr : Bool} {w : World} {d n al : Nat} {er : Bool}
  {stk bs loc0 loc loc' : List Val} {g0 g : Store World}

/-- The elements `vs` are stored from address `a` on. -/
def ElemsAt (m : Mem) (b : Reg) (E : Ty) (a : Nat) (vs : List Value) : Prop :=
  ∀ (i : Nat) x, vs[i]? = some x → Rep m b E x (loadVals m E (a + i * typeSize E))

theorem ElemsAt.mono {m m' : Mem} {b b' : Reg} {E : Ty} {a : Nat} {vs : List Value} (h : ElemsAt m b E a vs)
    (hm : Same b m m') (hb : b.Le b') (hs : ∀ i, a ≤ i → i < a + vs.length * typeSize E → m'.byte i = m.byte i) :
    ElemsAt m' b' E a vs := by
  intro i x hx
  have hi : i < vs.length := (List.getElem?_eq_some_iff.1 hx).1
  have h1 : (i + 1) * typeSize E ≤ vs.length * typeSize E := Nat.mul_le_mul_right _ hi
  rw [Nat.add_mul, Nat.one_mul] at h1
  rw [loadVals_congr (m := m) E _ fun j h2 h3 => hs j (by omega) (by omega)]
  exact (h i x hx).mono hm hb

theorem ElemsAt.snoc {m : Mem} {b : Reg} {E : Ty} {a : Nat} {vs : List Value} {v : Value} (h : ElemsAt m b E a vs)
    (hv : Rep m b E v (loadVals m E (a + vs.length * typeSize E))) : ElemsAt m b E a (vs ++ [v]) := by
  intro i x hx
  rcases Nat.lt_or_ge i vs.length with hi | hi
  · rw [List.getElem?_append_left hi] at hx
    exact h i x hx
  · rw [List.getElem?_append_right hi] at hx
    have : i - vs.length = 0 := by
      rcases Nat.eq_zero_or_pos (i - vs.length) with h | h
      · exact h
      · rw [List.getElem?_eq_none (by simp; omega)] at hx; cases hx
    rw [this] at hx
    cases hx
    rw [show i = vs.length by omega]
    exact hv

theorem ElemsAt.rep {m : Mem} {b : Reg} {E : Ty} {q : Nat} {vs : List Value} {o l : BitVec 32} (h : ElemsAt m b E o.toNat vs)
    (hq : vs.length ≤ q) (hl : l.toNat = vs.length * typeSize E) (hb : b.Has o.toNat l.toNat) :
    Rep m b (.list q E) (.list vs) [.i32 o, .i32 l] := by
  simp only [Rep]
  exact ⟨vs, o, l, rfl, hq, rfl, hl, hb, h⟩

/-- The code that stores the elements of a list. -/
def LsGood (p : P) (k : Nat) (call : FSem) (wr : Bool) (es : Exprs) : Prop :=
  ∀ E er Δ Γ ρ n0 al0 al ll0 Z q n w c s0 s d ol stk loc0 g0 loc g vs0,
    wts p.K k wr p.R es er Δ → (∀ U ∈ tys es, U = E) → Ok p wr c w s0 Δ Γ ρ n0 al ll0 loc0 g0 →
    Fr n0 al0 loc0 loc g0 g → sp g0 + Z ≤ sp g → g.host = Gen.put w s → StOk p.K w.contract s → n0 ≤ n →
    n + (compileList p.K p.R E ol es (vs0.length * typeSize E) d Γ n).ls.length ≤ n0 + ll0 →
    al0 + (compileList p.K p.R E ol es (vs0.length * typeSize E) d Γ n).al ≤ al → ol < n →
    loc[ol]? = some (.i32 (g0.g32 .stackPointer)) → (vs0.length + (tys es).length) * typeSize E ≤ Z →
    vs0.length + (tys es).length ≤ q →
    ElemsAt g.mem ((p.res (sp g0) Z).reg g) E (sp g0) vs0 →
    From p w d er n0 al (compileList p.K p.R E ol es (vs0.length * typeSize E) d Γ n).is stk stk loc0 g0 loc g
      ((evals call es ρ c s).bind fun vs s => .val (.list (vs0 ++ vs)) s) (IsRep p (.list q E))

theorem good_ls_nil : LsGood p k call wr .nil := by
  intro E er Δ Γ ρ n0 al0 al ll0 Z q n w c s0 s d ol stk loc0 g0 loc g vs0 _ _ ok hf hz hh hs hn hl ha hol hol' hZ hq hst
  simp only [compileList, tys, List.length_nil, Nat.add_zero] at ha hZ hq ⊢
  simp only [evals, Out.bind, List.append_nil]
  have hroom := ok.inv.room
  have hsmall := ok.inv.small
  have h1 := hf.hi
  have e : (BitVec.ofNat 32 (vs0.length * typeSize E)).toNat = vs0.length * typeSize E := toNat_ofNat32 (by omega)
  refine From.ends (ws := [.i32 (g0.g32 .stackPointer), .i32 (BitVec.ofNat 32 (vs0.length * typeSize E))])
    ((steps_get hol').append steps_c32) (hf.weaken (Nat.le_refl _) ha) hh hs ?_
  have h2 : ElemsAt g.mem (p.reg g) E (sp g0) vs0 := hst.mono (fun _ _ _ => rfl) (P.res_le g) (fun _ _ _ => rfl)
  refine ElemsAt.rep h2 hq e ?_
  rw [e]
  refine ⟨show sp g0 + _ ≤ sp g by omega, fun i h3 h4 h5 => ?_⟩
  have := ok.inv.holes i h5
  have h3 : sp g0 ≤ i := h3
  omega

theorem bind_assoc {α β γ : Type} (o : Out α) (f : α → St → Out β) (f' : β → St → Out γ) :
    (o.bind f).bind f' = o.bind fun a s => (f a s).bind f' := by cases o <;> rfl

theorem good_ls_cons {U : Ty} {e : Expr} {es : Exprs} (he : ∀ H, EGood { p with H := H } k call wr e)
    (hes : LsGood p k call wr es) : LsGood p k call wr (.cons U e es) := by
  intro E er Δ Γ ρ n0 al0 al ll0 Z q n w c s0 s d ol stk loc0 g0 loc g vs0 ht hE ok hf hz hh hs hn hl ha hol hol' hZ hq hst
  simp only [wts] at ht
  obtain rfl : U = E := hE U (by simp [tys])
  have hE' : ∀ V ∈ tys es, V = U := fun V hV => hE V (by simp [tys, hV])
  simp only [compileList, tys, List.length_append, List.length_cons] at hl ha hZ hq ⊢
  simp only [evals, bind_assoc, List.append_assoc]
  rw [writeMem_sz] at hl ha ⊢
  have hoff : vs0.length * typeSize U + typeSize U = (vs0.length + 1) * typeSize U := by rw [Nat.add_mul, Nat.one_mul]
  generalize hA : compile p.K p.R e U d Γ n = A at *
  generalize hS : writeMem ol U (vs0.length * typeSize U) (n + A.ls.length) = S at *
  generalize hB : compileList p.K p.R U ol es (vs0.length * typeSize U + typeSize U) d Γ (n + A.ls.length + S.ls.length) = B at *
  refine EGood.from (Z := Z) he ht.1 hA ok hf hz hh hs hn (by omega) (by omega) (Nat.le_refl _) ?_
  intro v s1 ws loc1 g1 _ hf1 hf1' hh1 hs1 hr
  have hlocs := ok.locs
  have hroom := ok.inv.room
  have hlo := hf1'.lo
  have hhi := hf1.hi
  have hZ1 : (vs0.length + 1) * typeSize U ≤ Z := Nat.le_trans (Nat.mul_le_mul_right _ (by omega)) hZ
  have hol1 : loc1[ol]? = some (.i32 (g0.g32 .stackPointer)) := by rw [hf1'.keep ol hol]; exact hol'
  have hsp : (g0.g32 .stackPointer).toNat = sp g0 := rfl
  obtain ⟨loc2, m2, k1, k2, k3, k4, k5, k6⟩ := hold_store (p := p) (T := U) (stk := stk) (off := vs0.length * typeSize U)
    (m := n + A.ls.length) hol1 (by omega)
    (by rw [hS, hf1.len]; omega) (by rw [hf1.size, hsp]; omega) hr (by rw [hsp]; omega) (by rw [hsp]; omega)
  rw [hS] at k1 k3
  rw [hsp] at k5 k6
  refine From.steps k1 ?_
  have hf2 : Fr n0 (al0 + A.al) loc0 loc2 g0 (g1.setMem m2) := by
    have := hf1.write (m := m2) (fun i hi => k5 i (.inl (by omega))) k4
    exact ⟨by rw [k2, this.len], fun i hi => by rw [k3 i (.inl (by omega)), this.keep i hi], this.mem, this.size, this.lo, this.hi⟩
  have hel : ElemsAt g1.mem ((p.res (sp g0) Z).reg g1) U (sp g0) vs0 :=
    hst.mono hf1'.same hf1'.le (fun i _ h2 => hf1'.mem i (by omega))
  have hel2 : ElemsAt m2 ((p.res (sp g0) Z).reg g1) U (sp g0) vs0 := by
    refine hel.mono (fun i h1 h2 => ?_) ⟨Nat.le_refl _, fun _ _ h => h⟩ (fun i _ h2 => k5 i (.inl h2))
    refine k5 i ?_
    by_cases h : i < sp g0 + vs0.length * typeSize U ∨ sp g0 + vs0.length * typeSize U + typeSize U ≤ i
    · exact h
    · exact absurd (Or.inr ⟨by omega, by omega⟩) h2
  have hB' : compileList p.K p.R U ol es ((vs0 ++ [v]).length * typeSize U) d Γ (n + A.ls.length + S.ls.length) = B := by
    rw [← hB, hoff]; simp
  have := hes U er Δ Γ ρ n0 (al0 + A.al) al ll0 Z q (n + A.ls.length + S.ls.length) w c s0 s1 d ol stk loc0 g0 loc2
    (g1.setMem m2) (vs0 ++ [v]) ht.2 hE' ok hf2 (by show _ ≤ sp g1; omega) hh1 hs1 (by omega)
    (by rw [hB']; omega) (by rw [hB']; omega) (by omega) (by rw [k3 ol (.inl (by omega))]; exact hol1)
    (by rw [List.length_append, List.length_singleton]; refine Nat.le_trans (Nat.mul_le_mul_right _ ?_) hZ; omega)
    (by rw [List.length_append, List.length_singleton]; omega) (hel2.snoc k6)
  rw [hB'] at this
  simp only [Out.bind]
  simp only [List.append_assoc, List.cons_append, List.nil_append] at this
  exact this

theorem good_list {es : Exprs} (hes : LsGood p k call wr es) : EGood p k call wr (.list es) := by
  intro T er Δ Γ ρ n w c s d stk loc g ht ok
  simp only [wt] at ht
  obtain ⟨q, E, rfl, hq, hts, hE⟩ := ht
  have hZ : stackLocalSize (.list q E) false true = q * typeSize E := rfl
  simp only [compile, elemTy, List.length_cons] at ok ⊢
  simp only [eval]
  generalize stackLocalSize (.list q E) false true = Z at *
  have hroom := ok.inv.room
  have hsmall := ok.inv.small
  have hlocs := ok.locs
  obtain ⟨loc1, g1, h1, h2, h3, -, h5, h6, h7⟩ := steps_alloc (M := p.M) (stk := stk) (n := n) (loc := loc) (g := g)
    (size := Z) (by omega) (by omega)
  have := hes E er Δ Γ ρ n Z _ _ Z q (n + 1) w c s s d n stk loc g loc1 g1 [] hts hE ok h2 (by omega)
    (by rw [h6]; exact ok.inv.host) ok.inv.st (by omega)
    (by simp only [List.length_nil, Nat.zero_mul]; omega) (by simp only [List.length_nil, Nat.zero_mul]; omega)
    (by omega) h3 (by rw [hZ, List.length_nil, Nat.zero_add]; exact Nat.mul_le_mul_right _ hq) (by simpa using hq)
    (fun i x h => by simp at h)
  simp only [List.length_nil, Nat.zero_mul, List.nil_append] at this
  exact (From.steps h1 this).does

end
end Gen
