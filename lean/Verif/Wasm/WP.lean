import Verif.Wasm.Sem

/-!
A weakest-precondition calculus for the interpreter, with every rule an equivalence, so that
`simp only` with the rules executes code symbolically.
-/

namespace Wasm

variable {σ : Type} {M : Mod σ}

def Res.isOof : Res σ → Prop
  | .oof => True
  | _ => False

theorem toCall_oof {nr} {r : Res σ} (h : r.toCall nr ≠ .oof) : r ≠ .oof := by
  rintro rfl; exact h rfl

/-- More fuel does not change a result. -/
theorem exec_mono (n : Nat) : ∀ (m : Nat) (is stk loc) (g : Store σ), n ≤ m →
    exec M n is stk loc g ≠ .oof → exec M m is stk loc g = exec M n is stk loc g := by
  induction n with
  | zero => intro m is stk loc g _ h; exact absurd rfl h
  | succ n ih =>
    intro m is stk loc g hm h
    obtain ⟨m, rfl⟩ : ∃ k, m = k + 1 := ⟨m - 1, by omega⟩
    have hnm : n ≤ m := by omega
    cases is with
    | nil => rfl
    | cons i is =>
      cases i with
      | b op =>
        simp only [exec] at h ⊢
        split <;> rename_i heq <;> simp only [heq] at h
        · exact ih _ _ _ _ _ hnm h
        all_goals rfl
      | block np nr body =>
        simp only [exec] at h ⊢
        split
        · rfl
        · rename_i hl
          simp only [hl, if_false] at h
          have hb : exec M n body (stk.take np) loc g ≠ .oof := by
            intro e; simp [e] at h
          rw [ih _ _ _ _ _ hnm hb]
          revert h
          split <;> intro h
          · exact ih _ _ _ _ _ hnm h
          · exact ih _ _ _ _ _ hnm h
          all_goals rfl
      | loop np nr body =>
        simp only [exec] at h ⊢
        split
        · rfl
        · rename_i hl
          simp only [hl, if_false] at h
          have hb : exec M n body (stk.take np) loc g ≠ .oof := by
            intro e; simp [e] at h
          rw [ih _ _ _ _ _ hnm hb]
          revert h
          split <;> intro h
          · exact ih _ _ _ _ _ hnm h
          · exact ih _ _ _ _ _ hnm h
          all_goals rfl
      | ite np nr t e =>
        simp only [exec] at h ⊢
        split <;> simp only at h
        · exact ih _ _ _ _ _ hnm h
        · rfl
      | br l => rfl
      | brIf l =>
        simp only [exec] at h ⊢
        split <;> simp only at h
        · split <;> rename_i hc <;> simp only [hc, if_true, if_false] at h
          · exact ih _ _ _ _ _ hnm h
          · rfl
        · rfl
      | ret => rfl
      | unreachable => rfl
      | call f =>
        cases f with
        | host hf =>
          simp only [exec] at h ⊢
          split
          · rfl
          · rename_i hl
            simp only [hl, if_false] at h
            revert h
            split <;> intro h
            · exact ih _ _ _ _ _ hnm h
            · rfl
        | std sf =>
          simp only [exec] at h ⊢
          split
          · rfl
          · rename_i d hd
            simp only [hd] at h
            split
            · rfl
            · rename_i hl
              simp only [hl, if_false] at h
              have hb : exec M n d.body [] ((stk.take d.params.length).reverse ++
                  d.locals.map VT.zero) g ≠ .oof := by
                intro e; simp [e, Res.toCall] at h
              rw [ih _ _ _ _ _ hnm hb]
              revert h
              split <;> intro h
              · exact ih _ _ _ _ _ hnm h
              all_goals rfl
        | user uf =>
          simp only [exec] at h ⊢
          split
          · rfl
          · rename_i d hd
            simp only [hd] at h
            split
            · rfl
            · rename_i hl
              simp only [hl, if_false] at h
              have hb : exec M n d.body [] ((stk.take d.params.length).reverse ++
                  d.locals.map VT.zero) g ≠ .oof := by
                intro e; simp [e, Res.toCall] at h
              rw [ih _ _ _ _ _ hnm hb]
              revert h
              split <;> intro h
              · exact ih _ _ _ _ _ hnm h
              all_goals rfl
      | callIndirect ps rs =>
        simp only [exec] at h ⊢
        split <;> simp only at h
        · split
          · rfl
          · rename_i f hf
            simp only [hf] at h
            split <;> rename_i hs <;> simp only [hs, if_true, if_false] at h
            · exact ih _ _ _ _ _ hnm h
            · rfl
        · rfl

/-- Executing `is` terminates with a result satisfying `Q`. -/
def WP (M : Mod σ) (is : List Instr) (stk loc : List Val) (g : Store σ) (Q : Res σ → Prop) : Prop :=
  ∃ n r, exec M n is stk loc g = r ∧ r ≠ .oof ∧ Q r

/-- Calling `f` terminates with an outcome satisfying `Q`. -/
def Call (M : Mod σ) (f : FId) (args : List Val) (g : Store σ) (Q : CRes σ → Prop) : Prop :=
  ∃ n r, invoke M n f args g = r ∧ r ≠ .oof ∧ Q r

theorem WP.mono {is stk loc} {g : Store σ} {Q Q' : Res σ → Prop} (h : WP M is stk loc g Q)
    (hQ : ∀ r, Q r → Q' r) : WP M is stk loc g Q' := by
  obtain ⟨n, r, h1, h2, h3⟩ := h
  exact ⟨n, r, h1, h2, hQ _ h3⟩

theorem Call.mono {f args} {g : Store σ} {Q Q' : CRes σ → Prop} (h : Call M f args g Q)
    (hQ : ∀ r, Q r → Q' r) : Call M f args g Q' := by
  obtain ⟨n, r, h1, h2, h3⟩ := h
  exact ⟨n, r, h1, h2, hQ _ h3⟩

theorem exec_det {n m is stk loc} {g : Store σ} (h1 : exec M n is stk loc g ≠ .oof)
    (h2 : exec M m is stk loc g ≠ .oof) : exec M n is stk loc g = exec M m is stk loc g := by
  rcases Nat.le_total n m with h | h
  · exact (exec_mono n m _ _ _ _ h h1).symm
  · exact exec_mono m n _ _ _ _ h h2

theorem invoke_mono {n m f args} {g : Store σ} (hnm : n ≤ m) (h : invoke M n f args g ≠ .oof) :
    invoke M m f args g = invoke M n f args g := by
  unfold invoke at h ⊢
  cases f with
  | host hf => rfl
  | std sf =>
    simp only at h ⊢
    split
    · rfl
    · rename_i d hd
      simp only [hd] at h
      rw [exec_mono n m _ _ _ _ hnm (toCall_oof h)]
  | user uf =>
    simp only at h ⊢
    split
    · rfl
    · rename_i d hd
      simp only [hd] at h
      rw [exec_mono n m _ _ _ _ hnm (toCall_oof h)]

theorem runs_iff_call {f args} {g : Store σ} {r : CRes σ} (hr : r ≠ .oof) :
    Runs M f args g r ↔ Call M f args g (· = r) := by
  constructor
  · rintro ⟨n, h⟩
    exact ⟨n, r, h n (Nat.le_refl _), hr, rfl⟩
  · rintro ⟨n, r', h1, h2, rfl⟩
    refine ⟨n, fun m hm => ?_⟩
    rw [invoke_mono hm (by rw [h1]; exact h2), h1]

/-- A call of a terminating function can be replaced by its outcome. -/
theorem call_of_runs {f args} {g : Store σ} {r : CRes σ} (h : Runs M f args g r) (hr : r ≠ .oof)
    {Q : CRes σ → Prop} : Call M f args g Q ↔ Q r := by
  constructor
  · rintro ⟨n, r', h1, h2, h3⟩
    obtain ⟨m, hm⟩ := h
    have := hm (max n m) (by omega)
    rw [invoke_mono (Nat.le_max_left n m) (by rw [h1]; exact h2), h1] at this
    exact this ▸ h3
  · intro hQ
    obtain ⟨m, hm⟩ := h
    exact ⟨m, r, hm m (Nat.le_refl _), hr, hQ⟩

/-- The outcome of a call is unique. -/
theorem Runs.det {f args} {g : Store σ} {r r' : CRes σ} (h : Runs M f args g r)
    (h' : Runs M f args g r') : r = r' := by
  obtain ⟨n, hn⟩ := h
  obtain ⟨m, hm⟩ := h'
  rw [← hn (max n m) (by omega), hm (max n m) (by omega)]

/-- What the rest of a sequence must satisfy after a block with `nr` results. -/
def blockK (M : Mod σ) (nr : Nat) (is : List Instr) (rest : List Val) (Q : Res σ → Prop) :
    Res σ → Prop
  | .norm s l g => WP M is (s ++ rest) l g Q
  | .br 0 s l g => WP M is (s.take nr ++ rest) l g Q
  | .br (k + 1) s l g => Q (.br k s l g)
  | .ret s g => Q (.ret s g)
  | .trap g => Q (.trap g)
  | .stuck => Q .stuck
  | .oof => False

/-- The same for the body of a loop. -/
def loopK (M : Mod σ) (np nr : Nat) (body is : List Instr) (rest : List Val) (Q : Res σ → Prop) :
    Res σ → Prop
  | .norm s l g => WP M is (s ++ rest) l g Q
  | .br 0 s l g => WP M (.loop np nr body :: is) (s.take np ++ rest) l g Q
  | .br (k + 1) s l g => Q (.br k s l g)
  | .ret s g => Q (.ret s g)
  | .trap g => Q (.trap g)
  | .stuck => Q .stuck
  | .oof => False

/-- What the caller must satisfy after a call. -/
def callK (M : Mod σ) (is : List Instr) (rest loc : List Val) (Q : Res σ → Prop) : CRes σ → Prop
  | .ret vs g => WP M is (vs.reverse ++ rest) loc g Q
  | .trap g => Q (.trap g)
  | .stuck => Q .stuck
  | .oof => False

section rules
variable {is : List Instr} {stk loc : List Val} {g : Store σ} {Q : Res σ → Prop}

theorem wp_nil : WP M [] stk loc g Q ↔ Q (.norm stk loc g) := by
  constructor
  · rintro ⟨n, r, h1, h2, h3⟩
    cases n with
    | zero => exact absurd h1.symm h2
    | succ n => simp only [exec] at h1; exact h1 ▸ h3
  · intro h; exact ⟨1, _, rfl, by simp [exec], h⟩

/-- what a basic step must satisfy -/
def stepK (M : Mod σ) (is : List Instr) (g : Store σ) (Q : Res σ → Prop) : SRes σ → Prop
  | .ok s l g' => WP M is s l g' Q
  | .trap => Q (.trap g)
  | .stuck => Q .stuck

theorem wp_b {op} : WP M (.b op :: is) stk loc g Q ↔ stepK M is g Q (stepB op stk loc g) := by
  constructor
  · rintro ⟨n, r, h1, h2, h3⟩
    cases n with
    | zero => exact absurd h1.symm h2
    | succ n =>
      simp only [exec] at h1
      revert h1
      split <;> rename_i heq <;> intro h1 <;> simp only [heq, stepK]
      · exact ⟨n, r, h1, h2, h3⟩
      · exact h1 ▸ h3
      · exact h1 ▸ h3
  · intro h
    revert h
    generalize heq : stepB op stk loc g = s
    cases s with
    | ok s l g' =>
      rintro ⟨n, r, h1, h2, h3⟩
      exact ⟨n + 1, r, by simp only [exec, heq]; exact h1, h2, h3⟩
    | trap => intro h; exact ⟨1, _, rfl, by simp [exec, heq], by simpa [exec, heq, stepK] using h⟩
    | stuck => intro h; exact ⟨1, _, rfl, by simp [exec, heq], by simpa [exec, heq, stepK] using h⟩

theorem wp_block {np nr body} (hl : np ≤ stk.length) :
    WP M (.block np nr body :: is) stk loc g Q ↔
      WP M body (stk.take np) loc g (blockK M nr is (stk.drop np) Q) := by
  have hl' : ¬ stk.length < np := by omega
  constructor
  · rintro ⟨n, r, h1, h2, h3⟩
    cases n with
    | zero => exact absurd h1.symm h2
    | succ n =>
      simp only [exec, hl', if_false] at h1
      refine ⟨n, _, rfl, ?_, ?_⟩
      · intro e; simp only [e] at h1; exact h2 h1.symm
      · revert h1
        generalize exec M n body (stk.take np) loc g = rb
        intro h1
        cases rb with
        | br k s l g' => cases k with
          | zero => exact ⟨n, r, h1, h2, h3⟩
          | succ k => subst h1; exact h3
        | norm s l g' => exact ⟨n, r, h1, h2, h3⟩
        | oof => exact h2 h1.symm
        | ret => subst h1; exact h3
        | trap => subst h1; exact h3
        | stuck => subst h1; exact h3
  · rintro ⟨n, r, h1, h2, h3⟩
    cases r with
    | norm s l g' =>
      obtain ⟨m, r', k1, k2, k3⟩ := h3
      refine ⟨max n m + 1, r', ?_, k2, k3⟩
      simp only [exec, hl', if_false]
      rw [exec_mono n (max n m) _ _ _ _ (by omega) (by rw [h1]; exact h2), h1]
      simp only
      rw [exec_mono m (max n m) _ _ _ _ (by omega) (by rw [k1]; exact k2), k1]
    | br k s l g' =>
      cases k with
      | zero =>
        obtain ⟨m, r', k1, k2, k3⟩ := h3
        refine ⟨max n m + 1, r', ?_, k2, k3⟩
        simp only [exec, hl', if_false]
        rw [exec_mono n (max n m) _ _ _ _ (by omega) (by rw [h1]; exact h2), h1]
        simp only
        rw [exec_mono m (max n m) _ _ _ _ (by omega) (by rw [k1]; exact k2), k1]
      | succ k =>
        exact ⟨n + 1, _, by simp only [exec, hl', if_false, h1], by simp, h3⟩
    | ret s g' => exact ⟨n + 1, _, by simp only [exec, hl', if_false, h1], by simp, h3⟩
    | trap g' => exact ⟨n + 1, _, by simp only [exec, hl', if_false, h1], by simp, h3⟩
    | stuck => exact ⟨n + 1, _, by simp only [exec, hl', if_false, h1], by simp, h3⟩
    | oof => exact absurd rfl h2

theorem wp_loop {np nr body} (hl : np ≤ stk.length) :
    WP M (.loop np nr body :: is) stk loc g Q ↔
      WP M body (stk.take np) loc g (loopK M np nr body is (stk.drop np) Q) := by
  have hl' : ¬ stk.length < np := by omega
  constructor
  · rintro ⟨n, r, h1, h2, h3⟩
    cases n with
    | zero => exact absurd h1.symm h2
    | succ n =>
      simp only [exec, hl', if_false] at h1
      refine ⟨n, _, rfl, ?_, ?_⟩
      · intro e; simp only [e] at h1; exact h2 h1.symm
      · revert h1
        generalize exec M n body (stk.take np) loc g = rb
        intro h1
        cases rb with
        | br k s l g' => cases k with
          | zero => exact ⟨n, r, h1, h2, h3⟩
          | succ k => subst h1; exact h3
        | norm s l g' => exact ⟨n, r, h1, h2, h3⟩
        | oof => exact h2 h1.symm
        | ret => subst h1; exact h3
        | trap => subst h1; exact h3
        | stuck => subst h1; exact h3
  · rintro ⟨n, r, h1, h2, h3⟩
    cases r with
    | norm s l g' =>
      obtain ⟨m, r', k1, k2, k3⟩ := h3
      refine ⟨max n m + 1, r', ?_, k2, k3⟩
      simp only [exec, hl', if_false]
      rw [exec_mono n (max n m) _ _ _ _ (by omega) (by rw [h1]; exact h2), h1]
      simp only
      rw [exec_mono m (max n m) _ _ _ _ (by omega) (by rw [k1]; exact k2), k1]
    | br k s l g' =>
      cases k with
      | zero =>
        obtain ⟨m, r', k1, k2, k3⟩ := h3
        refine ⟨max n m + 1, r', ?_, k2, k3⟩
        simp only [exec, hl', if_false]
        rw [exec_mono n (max n m) _ _ _ _ (by omega) (by rw [h1]; exact h2), h1]
        simp only
        rw [exec_mono m (max n m) _ _ _ _ (by omega) (by rw [k1]; exact k2), k1]
      | succ k =>
        exact ⟨n + 1, _, by simp only [exec, hl', if_false, h1], by simp, h3⟩
    | ret s g' => exact ⟨n + 1, _, by simp only [exec, hl', if_false, h1], by simp, h3⟩
    | trap g' => exact ⟨n + 1, _, by simp only [exec, hl', if_false, h1], by simp, h3⟩
    | stuck => exact ⟨n + 1, _, by simp only [exec, hl', if_false, h1], by simp, h3⟩
    | oof => exact absurd rfl h2

/-- blocks without parameters -/
theorem wp_block0 {nr body} :
    WP M (.block 0 nr body :: is) stk loc g Q ↔ WP M body [] loc g (blockK M nr is stk Q) := by
  rw [wp_block (Nat.zero_le _)]; simp

/-- loops without parameters -/
theorem wp_loop0 {nr body} :
    WP M (.loop 0 nr body :: is) stk loc g Q ↔
      WP M body [] loc g (loopK M 0 nr body is stk Q) := by
  rw [wp_loop (Nat.zero_le _)]; simp

/-- one step that only changes the remaining program -/
theorem wp_step {is' : List Instr} {stk' : List Val} {i : Instr}
    (h : ∀ n, exec M (n + 1) (i :: is) stk loc g = exec M n is' stk' loc g) :
    WP M (i :: is) stk loc g Q ↔ WP M is' stk' loc g Q := by
  constructor
  · rintro ⟨n, r, h1, h2, h3⟩
    cases n with
    | zero => exact absurd h1.symm h2
    | succ n => exact ⟨n, r, (h n) ▸ h1, h2, h3⟩
  · rintro ⟨n, r, h1, h2, h3⟩
    exact ⟨n + 1, r, (h n).trans h1, h2, h3⟩

/-- one step with an immediate result -/
theorem wp_end {r : Res σ} {i : Instr} (hr : r ≠ .oof)
    (h : ∀ n, exec M (n + 1) (i :: is) stk loc g = r) :
    WP M (i :: is) stk loc g Q ↔ Q r := by
  constructor
  · rintro ⟨n, r', h1, h2, h3⟩
    cases n with
    | zero => exact absurd h1.symm h2
    | succ n => rw [h n] at h1; exact h1 ▸ h3
  · intro hq; exact ⟨1, r, h 0, hr, hq⟩

theorem wp_ite {np nr thn els} {c : BitVec 32} :
    WP M (.ite np nr thn els :: is) (.i32 c :: stk) loc g Q ↔
      WP M (.block np nr (if c = 0#32 then els else thn) :: is) stk loc g Q :=
  wp_step fun n => by simp only [exec]

theorem wp_brIf {l} {c : BitVec 32} :
    WP M (.brIf l :: is) (.i32 c :: stk) loc g Q ↔
      if c = 0#32 then WP M is stk loc g Q else Q (.br l stk loc g) := by
  split <;> rename_i h
  · exact wp_step fun n => by simp only [exec, h, if_true]
  · exact wp_end (by simp) fun n => by simp only [exec, h, if_false]

theorem wp_br {l} : WP M (.br l :: is) stk loc g Q ↔ Q (.br l stk loc g) :=
  wp_end (by simp) fun n => by simp only [exec]

theorem wp_ret : WP M (.ret :: is) stk loc g Q ↔ Q (.ret stk g) :=
  wp_end (by simp) fun n => by simp only [exec]

theorem wp_unreachable : WP M (.unreachable :: is) stk loc g Q ↔ Q (.trap g) :=
  wp_end (by simp) fun n => by simp only [exec]

theorem wp_callIndirect {ps rs} {k : BitVec 32} {f : FId} (hk : stdTable k.toNat = some f)
    (hf : M.sig f = some (ps, rs)) :
    WP M (.callIndirect ps rs :: is) (.i32 k :: stk) loc g Q ↔
      WP M (.call f :: is) stk loc g Q :=
  wp_step fun n => by simp only [exec, hk, hf, if_true]

theorem wp_call {f ps rs} (hs : M.sig f = some (ps, rs)) (hl : ps.length ≤ stk.length) :
    WP M (.call f :: is) stk loc g Q ↔
      Call M f (stk.take ps.length).reverse g (callK M is (stk.drop ps.length) loc Q) := by
  have key : ∀ n, exec M (n + 1) (.call f :: is) stk loc g =
      match invoke M n f (stk.take ps.length).reverse g with
      | .ret vs g' => exec M n is (vs.reverse ++ stk.drop ps.length) loc g'
      | .trap g' => .trap g'
      | .stuck => .stuck
      | .oof => .oof := by
    intro n
    cases f with
    | host hf =>
      simp only [Mod.sig, Option.some.injEq] at hs
      have hl' : ¬ stk.length < ps.length := by omega
      simp only [exec, invoke, hs, hl', if_false]
      cases M.host hf (List.take ps.length stk).reverse g <;> rfl
    | std sf =>
      simp only [Mod.sig, Mod.func, Option.map, Option.some.injEq, Prod.mk.injEq] at hs
      have hl' : ¬ stk.length < ps.length := by omega
      simp only [exec, invoke, Mod.func, hs.1, hl', if_false]
      rfl
    | user uf =>
      simp only [Mod.sig, Mod.func] at hs
      cases hd : M.user uf with
      | none => simp [hd] at hs
      | some d =>
        simp only [hd, Option.map, Option.some.injEq, Prod.mk.injEq] at hs
        have hl' : ¬ stk.length < ps.length := by omega
        simp only [exec, invoke, Mod.func, hd, hs.1, hl', if_false]
        rfl
  constructor
  · rintro ⟨n, r, h1, h2, h3⟩
    cases n with
    | zero => exact absurd h1.symm h2
    | succ n =>
      rw [key n] at h1
      refine ⟨n, _, rfl, ?_, ?_⟩
      · intro e; simp only [e] at h1; exact h2 h1.symm
      · revert h1
        generalize invoke M n f (stk.take ps.length).reverse g = rb
        intro h1
        cases rb with
        | ret vs g' => exact ⟨n, r, h1, h2, h3⟩
        | oof => exact h2 h1.symm
        | trap => subst h1; exact h3
        | stuck => subst h1; exact h3
  · rintro ⟨n, r, h1, h2, h3⟩
    cases r with
    | ret vs g' =>
      obtain ⟨m, r', k1, k2, k3⟩ := h3
      refine ⟨max n m + 1, r', ?_, k2, k3⟩
      rw [key, invoke_mono (show n ≤ max n m by omega) (by rw [h1]; exact h2), h1]
      simp only
      rw [exec_mono m (max n m) _ _ _ _ (by omega) (by rw [k1]; exact k2), k1]
    | trap g' => exact ⟨n + 1, .trap g', by rw [key, h1], by simp, h3⟩
    | stuck => exact ⟨n + 1, .stuck, by rw [key, h1], by simp, h3⟩
    | oof => exact absurd rfl h2

/-- Entering a runtime-library function. -/
theorem call_std {f : StdFn} {args : List Val} {R : CRes σ → Prop} :
    Call M (.std f) args g R ↔
      WP M (stdFunc f).body [] (args ++ (stdFunc f).locals.map VT.zero) g
        (fun r => R (r.toCall (stdFunc f).results.length)) := by
  constructor
  · rintro ⟨n, r, h1, h2, h3⟩
    refine ⟨n, _, rfl, ?_, ?_⟩
    · intro e; simp only [invoke, Mod.func, e, Res.toCall] at h1; exact h2 h1.symm
    · simp only [invoke, Mod.func] at h1; show R _; rw [h1]; exact h3
  · rintro ⟨n, r, h1, h2, h3⟩
    refine ⟨n, _, rfl, ?_, ?_⟩
    · simp only [invoke, Mod.func, h1]
      cases r with
      | br k _ _ _ => cases k <;> simp [Res.toCall]
      | oof => exact absurd rfl h2
      | _ => simp [Res.toCall]
    · simp only [invoke, Mod.func, h1]; exact h3

/-- Entering a contract function. -/
theorem call_user {f : Nat} {d : Func} (hd : M.user f = some d) {args : List Val}
    {R : CRes σ → Prop} :
    Call M (.user f) args g R ↔
      WP M d.body [] (args ++ d.locals.map VT.zero) g (fun r => R (r.toCall d.results.length)) := by
  constructor
  · rintro ⟨n, r, h1, h2, h3⟩
    refine ⟨n, _, rfl, ?_, ?_⟩
    · intro e; simp only [invoke, Mod.func, hd, e, Res.toCall] at h1; exact h2 h1.symm
    · simp only [invoke, Mod.func, hd] at h1; show R _; rw [h1]; exact h3
  · rintro ⟨n, r, h1, h2, h3⟩
    refine ⟨n, _, rfl, ?_, ?_⟩
    · simp only [invoke, Mod.func, hd, h1]
      cases r with
      | br k _ _ _ => cases k <;> simp [Res.toCall]
      | oof => exact absurd rfl h2
      | _ => simp [Res.toCall]
    · simp only [invoke, Mod.func, hd, h1]; exact h3

/-- A call to a host function. -/
theorem call_host {f : HostFn} {args : List Val} {R : CRes σ → Prop} :
    Call M (.host f) args g R ↔
      (match M.host f args g with
       | .ret vs g' => R (.ret vs g')
       | .err g' => R (.trap g')) := by
  constructor
  · rintro ⟨n, r, h1, h2, h3⟩
    simp only [invoke] at h1
    cases hh : M.host f args g <;> rw [hh] at h1 <;> simp only at h1 ⊢ <;> exact h1 ▸ h3
  · intro h
    refine ⟨0, _, rfl, ?_, ?_⟩ <;> simp only [invoke]
    · cases hh : M.host f args g <;> simp
    · cases hh : M.host f args g <;> simp only [hh] at h <;> exact h

/-- Loop rule with a decreasing measure: `I` is the invariant on locals and store, indexed by
any type with a natural measure. -/
theorem wp_loop_inv {nr : Nat} {body : List Instr} {α : Type} (I : α → List Val → Store σ → Prop)
    (μ : α → Nat) (x : α) (hI : I x loc g)
    (hstep : ∀ x loc g, I x loc g → WP M body [] loc g (fun r => match r with
      | .br 0 _ l g' => ∃ y, μ y < μ x ∧ I y l g'
      | r => loopK M 0 nr body is stk Q r)) :
    WP M (.loop 0 nr body :: is) stk loc g Q := by
  induction hm : μ x using Nat.strongRecOn generalizing x loc g with
  | _ k ih =>
    rw [wp_loop0]
    refine (hstep x loc g hI).mono ?_
    intro r hr
    cases r with
    | br k' s l g' =>
      cases k' with
      | zero =>
        obtain ⟨y, hy, hIy⟩ := hr
        simp only [loopK, List.take_zero, List.nil_append]
        exact ih (μ y) (by omega) y hIy rfl
      | succ k' => exact hr
    | _ => exact hr

end rules

end Wasm
