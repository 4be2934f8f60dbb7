import Verif.Wasm.Sem

/-! What every imported function preserves, every execution of any code preserves. -/

namespace Wasm
variable {σ : Type}

/-- The state of the host at the end, if there is one, has the property `P`. -/
def Res.hostHas (P : σ → Prop) : Res σ → Prop
  | .norm _ _ g | .br _ _ _ g | .ret _ g | .trap g => P g.host
  | .stuck | .oof => True

/-- The same for calls. -/
def CRes.hostHas (P : σ → Prop) : CRes σ → Prop
  | .ret _ g | .trap g => P g.host
  | .stuck | .oof => True

/-- The imported functions preserve `P`, whether they return or fail. -/
def Mod.Keeps (M : Mod σ) (P : σ → Prop) : Prop :=
  ∀ f args g, P g.host → match M.host f args g with
    | .ret _ g' => P g'.host
    | .err g' => P g'.host

theorem stepB_host {op : Basic} {stk loc stk' loc' : List Val} {g g' : Store σ}
    (h : stepB op stk loc g = .ok stk' loc' g') : g'.host = g.host := by
  unfold stepB at h
  split at h
  all_goals
    repeat' split at h
    all_goals first
      | (cases h; rfl)
      | (cases h; done)

theorem toCall_host {P : σ → Prop} {nr : Nat} {r : Res σ} (h : r.hostHas P) : (r.toCall nr).hostHas P := by
  unfold Res.toCall
  split <;> first | exact h | trivial

mutual
/-- The imported functions the code names satisfy `ok`. -/
def onlyI (ok : HostFn → Bool) : Instr → Bool
  | .call (.host h) => ok h
  | .block _ _ is => onlyL ok is
  | .loop _ _ is => onlyL ok is
  | .ite _ _ t e => onlyL ok t && onlyL ok e
  | _ => true
/-- The same for sequences. -/
def onlyL (ok : HostFn → Bool) : List Instr → Bool
  | [] => true
  | i :: is => onlyI ok i && onlyL ok is
end

/-- The functions of the module name only imported functions that satisfy `ok`, and these preserve `P`. -/
structure Mod.KeepsOn (M : Mod σ) (ok : HostFn → Bool) (P : σ → Prop) : Prop where
  host : ∀ f, ok f = true → ∀ args g, P g.host → match M.host f args g with
    | .ret _ g' => P g'.host
    | .err g' => P g'.host
  func : ∀ f d, M.func f = some d → onlyL ok d.body = true
  table : ∀ k h, stdTable k = some (.host h) → ok h = true

theorem exec_host_on {M : Mod σ} {ok : HostFn → Bool} {P : σ → Prop} (hM : M.KeepsOn ok P) (n : Nat) :
    ∀ (is : List Instr) (stk loc : List Val) (g : Store σ), onlyL ok is = true → P g.host → (exec M n is stk loc g).hostHas P := by
  induction n with
  | zero => intro _ _ _ _ _ _; trivial
  | succ n ih =>
    intro is stk loc g hk hg
    cases is with
    | nil => exact hg
    | cons i is =>
      have hi : onlyI ok i = true ∧ onlyL ok is = true := by simpa only [onlyL, Bool.and_eq_true] using hk
      cases i with
      | b op =>
        simp only [exec]
        split
        · rename_i h
          exact ih _ _ _ _ hi.2 (by rw [stepB_host h]; exact hg)
        · exact hg
        · trivial
      | block np nr body =>
        simp only [exec]
        split
        · trivial
        · have h := ih body (stk.take np) loc g (by simpa only [onlyI] using hi.1) hg
          split <;> rename_i e <;> rw [e] at h <;> first | exact ih _ _ _ _ hi.2 h | exact h
      | loop np nr body =>
        simp only [exec]
        split
        · trivial
        · have h := ih body (stk.take np) loc g (by simpa only [onlyI] using hi.1) hg
          split <;> rename_i e <;> rw [e] at h <;> first | exact ih _ _ _ _ hi.2 h | exact ih _ _ _ _ hk h | exact h
      | ite np nr a b =>
        simp only [exec]
        split
        · refine ih _ _ _ _ ?_ hg
          have := hi.1
          simp only [onlyI, Bool.and_eq_true] at this
          simp only [onlyL, onlyI, Bool.and_eq_true]
          refine ⟨?_, hi.2⟩
          split
          · exact this.2
          · exact this.1
        · trivial
      | br l => exact hg
      | brIf l =>
        simp only [exec]
        repeat' split
        · exact ih _ _ _ _ hi.2 hg
        · exact hg
        · trivial
      | ret => exact hg
      | unreachable => exact hg
      | call f =>
        simp only [exec]
        split
        · rename_i h
          split
          · trivial
          · have h := hM.host h (by simpa only [onlyI] using hi.1) (stk.take (hostSig h).1.length).reverse g hg
            split <;> rename_i e <;> rw [e] at h
            · exact ih _ _ _ _ hi.2 h
            · exact h
        · split
          · trivial
          · rename_i d hd
            split
            · trivial
            · have h := toCall_host (nr := d.results.length)
                (ih d.body [] ((stk.take d.params.length).reverse ++ d.locals.map VT.zero) g (hM.func _ _ hd) hg)
              split <;> rename_i e <;> rw [e] at h <;> first | exact ih _ _ _ _ hi.2 h | exact h
      | callIndirect ps rs =>
        simp only [exec]
        repeat' split
        all_goals first
          | (rename_i f hf _
             refine ih _ _ _ _ ?_ hg
             simp only [onlyL, Bool.and_eq_true]
             refine ⟨?_, hi.2⟩
             cases f with
             | host h => exact hM.table _ _ hf
             | _ => rfl)
          | exact hg
          | trivial

theorem runs_host_on {M : Mod σ} {ok : HostFn → Bool} {P : σ → Prop} (hM : M.KeepsOn ok P) {f : FId} {args : List Val} {g : Store σ}
    {r : CRes σ} (hf : ∀ h, f = .host h → ok h = true) (hg : P g.host) (h : Runs M f args g r) : r.hostHas P := by
  obtain ⟨n, hn⟩ := h
  have h := hn n (Nat.le_refl _)
  subst h
  unfold invoke
  split
  · rename_i h
    have h := hM.host h (hf h rfl) args g hg
    split <;> rename_i e <;> rw [e] at h <;> exact h
  · split
    · trivial
    · rename_i d hd
      exact toCall_host (exec_host_on hM _ _ _ _ _ (hM.func _ _ hd) hg)

mutual
theorem onlyI_true : ∀ i : Instr, onlyI (fun _ => true) i = true
  | .call (.host _) | .call (.std _) | .call (.user _) => rfl
  | .block _ _ is => by simp only [onlyI]; exact onlyL_true is
  | .loop _ _ is => by simp only [onlyI]; exact onlyL_true is
  | .ite _ _ t e => by simp only [onlyI]; rw [onlyL_true t, onlyL_true e]; rfl
  | .b _ | .br _ | .brIf _ | .ret | .unreachable | .callIndirect _ _ => rfl
theorem onlyL_true : ∀ is : List Instr, onlyL (fun _ => true) is = true
  | [] => rfl
  | i :: is => by simp only [onlyL]; rw [onlyI_true i, onlyL_true is]; rfl
end

theorem Mod.Keeps.on {M : Mod σ} {P : σ → Prop} (hM : M.Keeps P) : M.KeepsOn (fun _ => true) P where
  host f _ args g hg := hM f args g hg
  func _ d _ := onlyL_true d.body
  table _ _ _ := rfl

theorem runs_host {M : Mod σ} {P : σ → Prop} (hM : M.Keeps P) {f : FId} {args : List Val} {g : Store σ} {r : CRes σ}
    (hg : P g.host) (h : Runs M f args g r) : r.hostHas P :=
  runs_host_on hM.on (fun _ _ => rfl) hg h

end Wasm
