import Verif.Wasm.Valid

/-! The runtime library is valid Wasm, in every module. -/

namespace Wasm

variable {σ : Type} {M : Mod σ}

/-- Signatures of the runtime library and of the host functions only. -/
def stdSig : FId → Option (List VT × List VT)
  | .host f => some (hostSig f)
  | .std f => some ((stdFunc f).params, (stdFunc f).results)
  | .user _ => none

theorem sig_of_stdSig {f x} (h : stdSig f = some x) : M.sig f = some x := by
  cases f with
  | host f => exact h
  | std f => exact h
  | user f => cases h

section mono
variable {sg sg' : FId → Option (List VT × List VT)} (hs : ∀ f x, sg f = some x → sg' f = some x)
  (loc res : List VT)
include hs

mutual
theorem tyI_mono : ∀ (i : Instr) (st : List VT) (o : Out), tyI sg loc res i st = some o →
    tyI sg' loc res i st = some o
  | .b op, st, o, h => by simp only [tyI] at h ⊢; exact h
  | .block np nr body, st, o, h => by
    simp only [tyI] at h ⊢
    by_cases hl : st.length < np
    · rw [if_pos hl] at h; cases h
    rw [if_neg hl] at h ⊢
    rw [Option.bind_eq_some_iff] at h ⊢
    obtain ⟨a, ha, h⟩ := h
    exact ⟨a, tyL_mono body _ _ ha, h⟩
  | .loop np nr body, st, o, h => by
    simp only [tyI] at h ⊢
    by_cases hl : st.length < np
    · rw [if_pos hl] at h; cases h
    rw [if_neg hl] at h ⊢
    rw [Option.bind_eq_some_iff] at h ⊢
    obtain ⟨a, ha, h⟩ := h
    exact ⟨a, tyL_mono body _ _ ha, h⟩
  | .ite np nr t e, st, o, h => by
    simp only [tyI] at h ⊢
    split at h
    case h_2 => cases h
    rename_i st
    by_cases hl : st.length < np
    · rw [if_pos hl] at h; cases h
    rw [if_neg hl] at h ⊢
    rw [Option.bind_eq_some_iff] at h ⊢
    obtain ⟨a, ha, h⟩ := h
    rw [Option.bind_eq_some_iff] at ha
    obtain ⟨a1, ha1, ha⟩ := ha
    rw [Option.bind_eq_some_iff] at h
    obtain ⟨b, hb, h⟩ := h
    rw [Option.bind_eq_some_iff] at hb
    obtain ⟨b1, hb1, hb⟩ := hb
    refine ⟨a, Option.bind_eq_some_iff.2 ⟨a1, tyL_mono t _ _ ha1, ha⟩, ?_⟩
    rw [Option.bind_eq_some_iff]
    exact ⟨b, Option.bind_eq_some_iff.2 ⟨b1, tyL_mono e _ _ hb1, hb⟩, h⟩
  | .br l, st, o, h => by simp only [tyI] at h ⊢; exact h
  | .brIf l, st, o, h => by simp only [tyI] at h ⊢; exact h
  | .ret, st, o, h => by simp only [tyI] at h ⊢; exact h
  | .unreachable, st, o, h => by simp only [tyI] at h ⊢; exact h
  | .call f, st, o, h => by
    simp only [tyI] at h ⊢
    rw [Option.bind_eq_some_iff] at h ⊢
    obtain ⟨a, ha, h⟩ := h
    exact ⟨a, hs f a ha, h⟩
  | .callIndirect ps rs, st, o, h => by simp only [tyI] at h ⊢; exact h
theorem tyL_mono : ∀ (is : List Instr) (st : List VT) (o : Out), tyL sg loc res is st = some o →
    tyL sg' loc res is st = some o
  | [], st, o, h => by simp only [tyL] at h ⊢; exact h
  | i :: is, st, o, h => by
    simp only [tyL] at h ⊢
    rw [Option.bind_eq_some_iff] at h ⊢
    obtain ⟨a, ha, h⟩ := h
    refine ⟨a, tyI_mono i st a ha, ?_⟩
    split at h
    · exact h
    · rw [Option.map_eq_some_iff] at h ⊢
      obtain ⟨b, hb, h⟩ := h
      exact ⟨b, tyL_mono is _ _ hb, h⟩
end
end mono

theorem valid_mono {sg sg' : FId → Option (List VT × List VT)}
    (hs : ∀ f x, sg f = some x → sg' f = some x) {d : Func} (h : d.valid sg = true) :
    d.valid sg' = true := by
  unfold Func.valid at h ⊢
  split at h
  · cases h
  · rename_i o ho
    rw [tyL_mono hs _ _ _ _ _ ho]
    exact h

/-- Every function of the runtime library validates. -/
theorem std_valid (f : StdFn) : (stdFunc f).valid stdSig = true := by
  cases f <;> decide +kernel

theorem std_valid' (f : StdFn) : (stdFunc f).valid M.sig = true :=
  valid_mono (fun _ _ => sig_of_stdSig) (std_valid f)

end Wasm
