import Verif.Gen.Rep

/-! Types whose values can be used as values of another type without any change of representation. -/

namespace Gen
open Wasm Spec Host

mutual
/-- Every value of the first type is one of the second, represented in the same way: longer maximum
lengths, a contract constant as a principal, and the same inside other types. -/
def Fit : Ty → Ty → Prop
  | .noType, .noType => True
  | .int, .int => True
  | .uint, .uint => True
  | .bool, .bool => True
  | .principal, .principal => True
  | .callable _, .principal => True
  | .callable c, .callable c' => c = c'
  | .trait t, .trait t' => t = t'
  | .traitRef t, .traitRef t' => t = t'
  | .buff n, .buff n' => n ≤ n'
  | .ascii n, .ascii n' => n ≤ n'
  | .utf8 n, .utf8 n' => n ≤ n'
  | .list n e, .list n' e' => n ≤ n' ∧ Fit e e'
  | .opt t, .opt t' => Fit t t'
  | .resp o e, .resp o' e' => Fit o o' ∧ Fit e e'
  | .tuple fs, .tuple fs' => FitF fs fs'
  | _, _ => False
/-- The same for fields. -/
def FitF : Fields → Fields → Prop
  | .nil, .nil => True
  | .cons k t fs, .cons k' t' fs' => k = k' ∧ Fit t t' ∧ FitF fs fs'
  | _, _ => False
end

mutual
theorem Fit.refl : ∀ T : Ty, Fit T T
  | .noType | .int | .uint | .bool | .principal | .callable _ | .trait _ | .traitRef _ | .buff _
  | .ascii _ | .utf8 _ => by simp [Fit]
  | .list n e => by simp [Fit, Fit.refl e]
  | .opt t => by simp [Fit, Fit.refl t]
  | .resp o e => by simp [Fit, Fit.refl o, Fit.refl e]
  | .tuple fs => by simp [Fit, FitF.refl fs]
theorem FitF.refl : ∀ fs : Fields, FitF fs fs
  | .nil => by simp [FitF]
  | .cons k t fs => by simp [FitF, Fit.refl t, FitF.refl fs]
end

mutual
/-- Same Wasm types, same layout. -/
theorem Fit.layout : ∀ {D T : Ty}, Fit D T → wty D = wty T ∧ typeSize D = typeSize T ∧
    ∀ m a, loadVals m D a = loadVals m T a
  | .noType, T, h | .int, T, h | .uint, T, h | .bool, T, h | .principal, T, h | .callable _, T, h
  | .trait _, T, h | .traitRef _, T, h | .buff _, T, h | .ascii _, T, h | .utf8 _, T, h
  | .list _ _, T, h => by
    cases T <;> simp only [Fit] at h <;> simp [wty, typeSize, loadVals]
  | .opt t, T, h => by
    cases T <;> simp only [Fit] at h
    obtain ⟨h1, h2, h3⟩ := h.layout
    simp [wty, typeSize, loadVals, h1, h2, h3]
  | .resp o e, T, h => by
    cases T <;> simp only [Fit] at h
    obtain ⟨h1, h2, h3⟩ := h.1.layout
    obtain ⟨k1, k2, k3⟩ := h.2.layout
    simp [wty, typeSize, loadVals, h1, h2, h3, k1, k2, k3]
  | .tuple fs, T, h => by
    cases T <;> simp only [Fit] at h
    obtain ⟨h1, h2, h3⟩ := FitF.layout h
    simp [wty, typeSize, loadVals, h1, h2, h3]
theorem FitF.layout : ∀ {fs fs' : Fields}, FitF fs fs' → wtyF fs = wtyF fs' ∧
    fieldsSize fs = fieldsSize fs' ∧ ∀ m a, loadValsF m fs a = loadValsF m fs' a
  | .nil, fs', h => by
    cases fs' <;> simp only [FitF] at h
    simp
  | .cons k t fs, fs', h => by
    cases fs' <;> simp only [FitF] at h
    obtain ⟨h1, h2, h3⟩ := h.2.1.layout
    obtain ⟨k1, k2, k3⟩ := FitF.layout h.2.2
    simp [wtyF, fieldsSize, loadValsF, h1, h2, h3, k1, k2, k3]
end

mutual
theorem Rep.fit {m : Mem} {b : Reg} : ∀ {D T : Ty} {v : Value} {ws : List Val}, Fit D T →
    Rep m b D v ws → Rep m b T v ws
  | .noType, T, _, _, _, h => by simp [Rep] at h
  | .int, T, v, ws, hf, h | .uint, T, v, ws, hf, h | .bool, T, v, ws, hf, h
  | .principal, T, v, ws, hf, h => by
    cases T <;> simp only [Fit] at hf
    exact h
  | .callable c, T, v, ws, hf, h => by
    cases T <;> simp only [Fit] at hf
    · simp only [Rep] at h ⊢
      refine ⟨?_, h.2⟩
      cases v <;> try (exfalso; simp only [HasType, false_and] at h; done)
      rename_i p
      cases p <;> simp only [HasType, false_and] at h
      have := h.1
      show ContractId.Ok _
      rw [this.1]; exact this.2
    · subst hf; exact h
  | .trait _, T, v, ws, hf, h | .traitRef _, T, v, ws, hf, h => by
    cases T <;> simp only [Fit] at hf
    subst hf; exact h
  | .buff _, T, v, ws, hf, h => by
    cases T <;> simp only [Fit] at hf
    simp only [Rep] at h ⊢
    refine ⟨?_, h.2⟩
    cases v <;> try (exfalso; simp only [HasType, false_and] at h; done)
    simp only [HasType] at h ⊢; omega
  | .ascii _, T, v, ws, hf, h => by
    cases T <;> simp only [Fit] at hf
    simp only [Rep] at h ⊢
    refine ⟨?_, h.2⟩
    cases v <;> try (exfalso; simp only [HasType, false_and] at h; done)
    simp only [HasType] at h ⊢
    exact ⟨by omega, h.1.2⟩
  | .utf8 _, T, v, ws, hf, h => by
    cases T <;> simp only [Fit] at hf
    simp only [Rep] at h ⊢
    refine ⟨?_, h.2⟩
    cases v <;> try (exfalso; simp only [HasType, false_and] at h; done)
    simp only [HasType] at h ⊢
    exact ⟨by omega, h.1.2⟩
  | .list n e, T, v, ws, hf, h => by
    cases T <;> simp only [Fit] at hf
    rename_i n' e'
    simp only [Rep] at h ⊢
    obtain ⟨vs, o, l, h1, h2, h3, h4, h5, h6⟩ := h
    obtain ⟨_, k2, k3⟩ := hf.2.layout
    refine ⟨vs, o, l, h1, by omega, h3, by rw [h4, k2], h5, fun i x hi => ?_⟩
    rw [← k3, ← k2]
    exact (h6 i x hi).fit hf.2
  | .opt t, T, v, ws, hf, h => by
    cases T <;> simp only [Fit] at hf
    simp only [Rep] at h ⊢
    rcases h with ⟨us, h1, h2, h⟩ | ⟨x, us, h1, h2, h⟩
    · exact Or.inl ⟨us, h1, h2, by rw [← hf.layout.1]; exact h⟩
    · exact Or.inr ⟨x, us, h1, h2, h.fit hf⟩
  | .resp o e, T, v, ws, hf, h => by
    cases T <;> simp only [Fit] at hf
    simp only [Rep] at h ⊢
    rcases h with ⟨x, us, js, h1, h2, h, h'⟩ | ⟨x, us, js, h1, h2, h, h'⟩
    · exact Or.inl ⟨x, us, js, h1, h2, h.fit hf.1, by rw [← hf.2.layout.1]; exact h'⟩
    · exact Or.inr ⟨x, us, js, h1, h2, h.fit hf.2, by rw [← hf.1.layout.1]; exact h'⟩
  | .tuple fs, T, v, ws, hf, h => by
    cases T <;> simp only [Fit] at hf
    simp only [Rep] at h ⊢
    obtain ⟨kvs, h1, h⟩ := h
    exact ⟨kvs, h1, RepF.fit hf h⟩
theorem RepF.fit {m : Mem} {b : Reg} : ∀ {fs fs' : Fields} {kvs : List (Name × Value)}
    {ws : List Val}, FitF fs fs' → RepF m b fs kvs ws → RepF m b fs' kvs ws
  | .nil, fs', _, _, hf, h => by
    cases fs' <;> simp only [FitF] at hf
    exact h
  | .cons k t fs, fs', _, _, hf, h => by
    cases fs' <;> simp only [FitF] at hf
    obtain ⟨rfl, hf1, hf2⟩ := hf
    simp only [RepF] at h ⊢
    obtain ⟨x, r, us, vs, h1, h2, h, h'⟩ := h
    exact ⟨x, r, us, vs, h1, h2, h.fit hf1, RepF.fit hf2 h'⟩
end

end Gen
