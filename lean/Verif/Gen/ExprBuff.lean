import Verif.Gen.ExprProof6
import Verif.Gen.SerProof2

/-! Code of expressions: `to-consensus-buff?`. -/

namespace Gen
open Wasm Spec Host Core

theorem length_utf8Text : ∀ cs : List Nat, (utf8Text cs).length ≤ 4 * cs.length
  | [] => by simp [utf8Text]
  | c :: cs => by
    have := length_utf8Text cs
    have h : (utf8 c).length ≤ 4 := by
      unfold utf8
      repeat' split
      all_goals simp
    simp only [utf8Text, List.flatMap_cons, List.length_append, List.length_cons] at this ⊢
    omega

mutual
/-- No encoding is longer than the type says. -/
theorem consensus_le : ∀ {T : Ty} {v : Value}, HasType T v → (consensus v).length ≤ maxEncoding T
  | .noType, v, h => by cases v <;> simp [HasType] at h
  | .int, v, h => by cases v <;> simp [HasType] at h; simp [consensus, maxEncoding, length_bigEndian]
  | .uint, v, h => by cases v <;> simp [HasType] at h; simp [consensus, maxEncoding, length_bigEndian]
  | .bool, v, h => by
    cases v <;> simp [HasType] at h
    rename_i b
    cases b <;> simp [consensus, maxEncoding]
  | .principal, v, h | .callable _, v, h | .trait _, v, h | .traitRef _, v, h => by
    obtain ⟨p, hp, -, e⟩ := princ_key rfl h
    rw [e]
    cases p with
    | standard s => simp [consensus, issuerBytes, maxEncoding, hp.2]
    | contract c =>
      have := hp.2.2
      simp [consensus, contractBytes, nameBytes, issuerBytes, maxEncoding, hp.1.2]
      omega
  | .buff _, v, h => by
    cases v <;> simp [HasType] at h
    simp [consensus, lenBytes, maxEncoding, length_bigEndian]; omega
  | .ascii _, v, h => by
    cases v <;> simp [HasType] at h
    simp [consensus, lenBytes, maxEncoding, length_bigEndian]; omega
  | .utf8 _, v, h => by
    cases v <;> simp [HasType] at h
    rename_i cs
    have := length_utf8Text cs
    simp [consensus, lenBytes, maxEncoding, length_bigEndian]; omega
  | .list n e, v, h => by
    cases v <;> simp [HasType] at h
    rename_i vs
    have key : ∀ us : List Value, (∀ x ∈ us, HasType e x) → (consensusAll us).length ≤ us.length * maxEncoding e := by
      intro us hu
      induction us with
      | nil => simp [consensusAll]
      | cons x us ih =>
        have h1 := consensus_le (hu x (by simp))
        have h2 := ih fun y hy => hu y (by simp [hy])
        rw [consensusAll, List.length_append, List.length_cons, Nat.add_mul]
        omega
    have h1 := key vs h.2
    have h2 := Nat.mul_le_mul_right (maxEncoding e) h.1
    simp [consensus, lenBytes, maxEncoding, length_bigEndian]; omega
  | .opt t, v, h => by
    cases v <;> simp only [HasType] at h
    · simp [consensus, maxEncoding]
    · have := consensus_le h
      simp [consensus, maxEncoding]; omega
  | .resp o e, v, h => by
    cases v <;> simp only [HasType] at h
    all_goals
      have := consensus_le h
      simp [consensus, maxEncoding]; omega
  | .tuple fs, v, h => by
    cases v <;> simp only [HasType] at h
    have := consensus_leF h
    simp [consensus, maxEncoding, lenBytes, length_bigEndian]; omega
theorem consensus_leF : ∀ {fs : Fields} {kvs : List (Name × Value)}, HasFields fs kvs →
    (consensusFields kvs).length ≤ maxEncodingF fs
  | .nil, [], _ => by simp [consensusFields]
  | .nil, _ :: _, h => by simp [HasFields] at h
  | .cons _ _ _, [], h => by simp [HasFields] at h
  | .cons k t fs, (k', v) :: kvs, h => by
    simp only [HasFields] at h
    obtain ⟨rfl, h1, h2⟩ := h
    have := consensus_le h1
    have := consensus_leF h2
    simp [consensusFields, nameBytes, maxEncodingF]; omega
end

variable {p : P} {k : Nat} {call : FSem} {wr : Bool}

theorem good_toBuff {V : Ty} {e : Expr} (he : EGood p k call wr e) : EGood p k call wr (.toBuff V e) := by
  intro T er Δ Γ ρ n w c s d stk loc g ht ok
  simp only [wt] at ht
  obtain ⟨wf, hmax, hkeys, rfl, hte⟩ := ht
  have hz : stackLocalSize (.opt (.buff (maxEncoding V))) false true = 4 + maxEncoding V := by
    simp [stackLocalSize, typeInMemorySize]
  simp only [compile, List.length_cons, List.length_append] at ok
  simp only [compile, eval, List.append_assoc]
  generalize stackLocalSize (.opt (.buff (maxEncoding V))) false true = Z at *
  generalize hA : compile p.K p.R e V d Γ n = A at *
  refine EGood.then he hte hA ok ?_
  intro v s' ws loc' g' _ hf ok' hv
  have hroom := ok'.inv.room
  have hsmall := ok'.inv.small
  have hlocs := ok'.locs
  have hlen := consensus_le hv.hasType
  generalize hn1 : n + A.ls.length = n1 at *
  obtain ⟨loc1, g1, h1, hf1, h3, h4, h5, h6, h7⟩ := steps_alloc (M := p.M) (stk := ws.reverse ++ stk) (n := n1) (loc := loc') (g := g')
    (size := Z) (by omega) (by omega)
  have hsp : (g'.g32 .stackPointer).toNat = sp g' := rfl
  have hL1 := hf1.len
  obtain ⟨loc2, m2, st2, hk2, hw2⟩ := ser_ok (M := p.M) (lit := p.K.off) V (stk := stk) (ol := n1) (off := 0) (n := n1 + 2) (a := sp g')
    (w := g'.g32 .stackPointer) (loc := loc1) (g := g1) (b := p.reg g') wf (by rw [h5]; exact hv) (by omega)
    (Nat.le_refl _)
    (fun x hx => by
      obtain ⟨q1, q2⟩ := ok'.inv.lits x (hkeys x hx)
      rw [h5]
      exact ⟨q1.1, q2⟩) h3 (by omega) (by rw [h5]; omega) (by rw [h5]; omega) (by omega)
  have hL2 := hk2.1
  obtain ⟨l, hl⟩ : ∃ l : BitVec 32, l = BitVec.ofNat 32 (consensus v).length := ⟨_, rfl⟩
  have el : l.toNat = (consensus v).length := by rw [hl, BitVec.toNat_ofNat]; omega
  rw [← hl] at st2
  have h0 := (nth_some ((hk2.2 n1 (by omega) (by simp)).trans h3)).2
  have hle : l.toNat ≤ 1048576 := by omega
  rw [if_pos (by omega)]
  obtain ⟨g3, e3⟩ : ∃ g3, g3 = (g1.setMem m2).set32 .stackPointer (g'.g32 .stackPointer + l) := ⟨_, rfl⟩
  have hsp3 : sp g3 = sp g' + (consensus v).length := by
    rw [e3, ← hsp]
    simp only [sp, Store.set32, if_true]
    rw [BitVec.toNat_add, el, Nat.mod_eq_of_lt (by omega)]
  have hm3 : g3.mem = m2 := by rw [e3]; rfl
  refine Does.ends (ws := [.i32 1#32, .i32 (g'.g32 .stackPointer), .i32 l]) (loc1 := loc2.set (n1 + 1) (.i32 l)) (g1 := g3)
    (h1.append (st2.append ?_)) ?_ ?_ ok'.inv.st ?_
  · refine Steps.of_wp fun Q => ?_
    simp only [toBuffCode, lset, lget, c32]
    wpl [h0]
    rw [if_neg (fun h => h hle), ← e3]
  · refine ⟨?_, ?_, ?_, ?_, ?_, ?_⟩
    · rw [List.length_set, hL2, hL1]
    · intro i hi
      rw [List.getElem?_set_ne (by omega), hk2.2 i (by omega) (by simp), h4 i (by omega)]
    · intro i hi
      rw [hm3, hw2.rest i (.inl hi), h5]
    · rw [hm3, hw2.size, h5]
    · omega
    · omega
  · rw [e3]
    show g1.host = _
    rw [h6, ok'.inv.host]
  · show Rep _ _ _ _ _
    rw [hm3]
    refine rep_some ?_
    simp only [Rep, HasType, memBytes]
    refine ⟨hlen, _, _, rfl, el, ⟨?_, ?_⟩, hw2.here⟩
    · show _ ≤ sp g3
      omega
    · intro i h1 h2 h3
      have := ok'.inv.holes i h3
      omega

end Gen
