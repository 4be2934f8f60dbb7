import Verif.Gen.ExprProof6
import Verif.Gen.ExprSeq
import Verif.Gen.DesProof2

/-! `from-consensus-buff?`. -/

namespace Gen
open Wasm Spec Host Core

mutual
theorem space_le : ∀ (T : Ty), typeSize T + space T ≤ typeInMemorySize true T
  | .int | .uint | .bool | .noType => by simp [typeSize, space, typeInMemorySize]
  | .principal | .callable _ | .trait _ | .traitRef _ => by
    simp [typeSize, space, typeInMemorySize, PRINCIPAL_BYTES_MAX]
  | .buff _ | .ascii _ | .utf8 _ => by simp [typeSize, space, typeInMemorySize]; omega
  | .list n e => by
    have := Nat.mul_le_mul_left n (space_le e)
    simp [typeSize, space, typeInMemorySize]; omega
  | .opt t => by
    have := space_le t
    simp [typeSize, space, typeInMemorySize]; omega
  | .resp o e => by
    have := space_le o
    have := space_le e
    simp [typeSize, space, typeInMemorySize]; omega
  | .tuple fs => by
    have := space_leF fs
    simp [typeSize, space, typeInMemorySize]; omega
theorem space_leF : ∀ (fs : Fields), fieldsSize fs ≤ fieldsInMemorySize true fs
  | .nil => by simp [fieldsSize, fieldsInMemorySize]
  | .cons _ t fs => by
    have := space_le t
    have := space_leF fs
    simp [fieldsSize, fieldsInMemorySize]; omega
end

variable {p : P} {k : Nat} {call : FSem} {wr : Bool}

theorem good_fromBuff {V : Ty} {mx : Nat} {e : Expr} (he : EGood p k call wr e) :
    EGood p k call wr (.fromBuff V mx e) := by
  intro T er Δ Γ ρ n w c s d stk loc g ht ok
  simp only [wt] at ht
  obtain ⟨wf, rfl, hte⟩ := ht
  have hz : space V + 8 ≤ stackLocalSize (.opt V) true true := by
    have := space_le V
    simp [stackLocalSize, typeInMemorySize, typeSize]; omega
  simp only [compile, List.length_cons, List.length_append] at ok
  simp only [compile, eval, List.append_assoc]
  generalize stackLocalSize (.opt V) true true = Z at *
  generalize hA : compile p.K p.R e (.buff mx) d Γ n = A at *
  refine EGood.then he hte hA ok ?_
  intro v s' ws loc' g' _ hf ok' hv
  simp only [Rep] at hv
  obtain ⟨hvt, hv⟩ := hv
  cases v <;> simp only [HasType] at hvt
  rename_i bs _
  obtain ⟨o, l, rfl, hl, hhas, hbytes⟩ := hv
  simp only [memBytes] at hl hhas hbytes
  have hroom := ok'.inv.room
  have hsmall := ok'.inv.small
  have hlocs := ok'.locs
  generalize hn1 : n + A.ls.length = n1 at *
  have hhi : o.toNat + bs.length ≤ sp g' := hhas.1
  by_cases hdev : decode V bs = .deviates
  · intro hne
    simp only [hdev] at hne
    exact absurd rfl hne
  obtain ⟨loc0, e0⟩ : ∃ l0, l0 = loc'.set n1 (.i32 l) := ⟨_, rfl⟩
  have L0 : loc0.length = loc'.length := by rw [e0, List.length_set]
  obtain ⟨loc1, g1, h1, hf1, h3, h4, h5, h6, h7⟩ := steps_alloc (M := p.M) (stk := [.i32 l, .i32 o] ++ stk) (n := n1 + 1)
    (loc := loc0) (g := g') (size := Z) (by omega) (by omega)
  have hsp : (g'.g32 .stackPointer).toNat = sp g' := rfl
  have hL1 := hf1.len
  obtain ⟨loc2, e2⟩ : ∃ l2, l2 = ((loc1.set (n1 + 3) (.i32 l)).set (n1 + 2) (.i32 o)).set (n1 + 3) (.i32 (o + l)) := ⟨_, rfl⟩
  have L2 : loc2.length = loc'.length := by rw [e2, List.length_set, List.length_set, List.length_set]; omega
  have st2 : Steps p.M (fromBuffStart n1) ([.i32 l, .i32 o] ++ stk) loc1 g1 stk loc2 g1 := by
    refine Steps.of_wp fun Q => ?_
    simp only [fromBuffStart, lset, lget, List.cons_append, List.nil_append]
    wpl
    rw [e2]
  have eo : (o + l).toNat = o.toNat + bs.length := by rw [BitVec.toNat_add, hl]; omega
  have hv1 := (nth_some h3).2
  have H : Din (n1 + 2) (n1 + 3) (n1 + 1) (n1 + 4) o.toNat o (o + l) (g'.g32 .stackPointer) (space V) loc2 g1 := by
    refine ⟨?_, ?_, ?_, by omega, by omega, by omega, by omega, by omega, by omega, by omega, Nat.le_refl _, by omega,
      by omega, by rw [h5]; omega, by rw [h5]; exact hsmall⟩
    all_goals rw [e2]
    · wpl
    · wpl
    · wpl [hv1]
  have hin : input g1.mem o (o + l) = bs := by
    rw [input, eo, h5, show o.toNat + bs.length - o.toNat = bs.length by omega]
    exact hbytes
  obtain ⟨ok3, us, loc3, m3, o3, r3, st3, f3⟩ := des_good (M := p.M) (n1 + 2) (n1 + 3) (n1 + 1) V (n1 + 4) wf _ _ _ _ stk _ _ H
    (by omega) (by rw [hin]; exact hdev)
  rw [hin] at f3
  have hty := f3.ty hdev
  obtain ⟨K3, v3o, v3r, r3lo, r3hi, s3, b3, out3⟩ := f3
  have L3 := K3.1
  have v3e : nth loc3 (n1 + 3) = .i32 (o + l) := by
    rw [K3.nth (by omega) (by simp) (by omega), e2]
    wpl
  obtain ⟨g3, eg3⟩ : ∃ g3, g3 = g1.setMem m3 := ⟨_, rfl⟩
  have m3e : g3.mem = m3 := by rw [eg3]; rfl
  have sp3 : sp g3 = sp g' + Z := by rw [eg3]; exact h7
  rw [← eg3] at st3
  have st0 : Steps p.M [.b (.localTee n1)] ([.i32 l, .i32 o] ++ stk) loc' g' ([.i32 l, .i32 o] ++ stk) loc0 g' := by
    refine Steps.of_wp fun Q => ?_
    simp only [List.cons_append, List.nil_append]
    wpl
    rw [e0]
  have hlen : us.length = (wty V).length := by rw [← hty, List.length_map]
  have stE : Steps p.M (fromBuffEnd (.opt V) n1) (us.reverse ++ .i32 ok3 :: stk) loc3 g3
      ((if o3 = o + l then us.reverse ++ [.i32 ok3] else ((wty (.opt V)).map VT.zero).reverse) ++ stk) loc3 g3 := by
    have s1 : Steps p.M [lget (n1 + 3), lget (n1 + 2), .b (.i32rel .eq)] (us.reverse ++ .i32 ok3 :: stk) loc3 g3
        (.i32 (b32 (decide (o + l = o3))) :: ((us.reverse ++ [.i32 ok3]) ++ stk)) loc3 g3 := by
      refine Steps.of_wp fun Q => ?_
      simp only [lget]
      wpl [v3e, v3o]
      simp
    refine Steps.append (xs := [lget (n1 + 3), lget (n1 + 2), .b (.i32rel .eq)]) s1 (steps_ite (by simp [wty, hlen]) ?_)
    by_cases hoe : o3 = o + l
    · rw [if_pos hoe, hoe, if_neg (by simp [b32])]
      exact Steps.refl
    · rw [if_neg hoe, show decide (o + l = o3) = false from decide_eq_false (fun h => hoe h.symm)]
      have s2 : Steps p.M (dropValue (.opt V)) ((.i32 ok3 :: us).reverse ++ []) loc3 g3 [] loc3 g3 :=
        steps_dropValue (by simp [wty, hlen])
      have s3 := steps_placeholder (M := p.M) (s := []) (l := loc3) (g := g3) (.opt V)
      simp only [List.append_nil, List.reverse_cons] at s2 s3
      exact s2.append s3
  have key : ∀ (v : Value), Rep g3.mem (p.reg g3) (.opt V) v
        (if o3 = o + l then .i32 ok3 :: us else (wty (.opt V)).map VT.zero) →
      Does p w d er n1 Z ([.b (.localTee n1)] ++ (allocCode (n1 + 1) Z ++ (fromBuffStart n1 ++
        ((des V (n1 + 2) (n1 + 3) (n1 + 1) (n1 + 4)).is ++ fromBuffEnd (.opt V) n1))))
        ([.i32 o, .i32 l].reverse ++ stk) stk loc' g' (.val v s') (IsRep p (.opt V)) := by
    intro v hv
    refine Does.ends (ws := if o3 = o + l then .i32 ok3 :: us else (wty (.opt V)).map VT.zero) (loc1 := loc3) (g1 := g3)
      (st0.append (h1.append (st2.append (st3.append ?_)))) ?_ ?_ ok'.inv.st hv
    · have : (if o3 = o + l then .i32 ok3 :: us else (wty (.opt V)).map VT.zero).reverse =
          if o3 = o + l then us.reverse ++ [.i32 ok3] else ((wty (.opt V)).map VT.zero).reverse := by
        split <;> simp
      rw [this]
      exact stE
    · refine ⟨by omega, ?_, ?_, ?_, by omega, by omega⟩
      · intro i hi
        rw [K3.2 i (by omega) (by simp; omega), e2, List.getElem?_set_ne (by omega), List.getElem?_set_ne (by omega),
          List.getElem?_set_ne (by omega), h4 i (by omega), e0, List.getElem?_set_ne (by omega)]
      · intro i hi
        rw [m3e, b3 i (.inl hi), h5]
      · rw [m3e, s3, h5]
    · rw [eg3]
      show g1.host = _
      rw [h6, ok'.inv.host]
  have hph : Rep g3.mem (p.reg g3) (.opt V) .none ((wty (.opt V)).map VT.zero) := rep_none (zeros_ty _)
  dsimp only
  generalize hD : decode V bs = D at *
  cases D with
  | deviates => exact absurd rfl hdev
  | bad =>
    obtain ⟨rfl, _⟩ := out3
    refine key _ ?_
    split
    · exact rep_none hty
    · exact hph
  | val x rest =>
    obtain ⟨rfl, hrest, hx⟩ := out3
    cases rest with
    | nil =>
      have : o3 = o + l := BitVec.eq_of_toNat_eq (by simpa using hrest)
      refine key _ ?_
      rw [if_pos this]
      refine rep_some ?_
      have hle : (dreg o.toNat (o + l).toNat (g'.g32 .stackPointer).toNat r3.toNat).Le (p.reg g3) := by
        refine ⟨?_, ?_⟩
        · show r3.toNat ≤ sp g3
          omega
        · intro i _ hi
          have := ok'.inv.holes i hi
          refine ⟨fun hh => hhas.2 i hh.1 (by omega) hi, by omega⟩
      rw [m3e]
      exact hx.mono (fun _ _ _ => rfl) hle
    | cons b rest =>
      have : o3 ≠ o + l := by
        rintro rfl
        simp at hrest
      refine key _ ?_
      rw [if_neg this]
      exact hph

end Gen
