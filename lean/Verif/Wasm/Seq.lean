import Verif.Wasm.Tac

/-! Sequencing: running a concatenation of two instruction sequences. -/

namespace Wasm

variable {σ : Type} {M : Mod σ}

/-- Executing `is` from operand stack `stk`, locals `loc` and store `g` terminates with result `r`:
with enough fuel the interpreter gives `r`, and more fuel does not change it. -/
def Ends (M : Mod σ) (is : List Instr) (stk loc : List Val) (g : Store σ) (r : Res σ) : Prop :=
  ∃ n₀, ∀ n, n₀ ≤ n → exec M n is stk loc g = r

theorem ends_iff {is stk loc} {g : Store σ} {r : Res σ} (hr : r ≠ .oof) :
    Ends M is stk loc g r ↔ WP M is stk loc g (· = r) := by
  constructor
  · rintro ⟨n, h⟩
    exact ⟨n, r, h n (Nat.le_refl _), hr, rfl⟩
  · rintro ⟨n, r', h1, h2, rfl⟩
    refine ⟨n, fun m hm => ?_⟩
    rw [exec_mono n m _ _ _ _ hm (by rw [h1]; exact h2), h1]

/-- A fragment whose result is known can be replaced by it. -/
theorem wp_of_ends {is stk loc} {g : Store σ} {r : Res σ} {Q : Res σ → Prop}
    (h : Ends M is stk loc g r) (hr : r ≠ .oof) : WP M is stk loc g Q ↔ Q r := by
  constructor
  · rintro ⟨n, r', h1, h2, h3⟩
    obtain ⟨m, hm⟩ := h
    have := hm (max n m) (by omega)
    rw [exec_mono n _ _ _ _ _ (Nat.le_max_left n m) (by rw [h1]; exact h2), h1] at this
    exact this ▸ h3
  · intro hQ
    obtain ⟨m, hm⟩ := h
    exact ⟨m, r, hm m (Nat.le_refl _), hr, hQ⟩

/-- What the second half must satisfy. -/
def seqK (M : Mod σ) (ys : List Instr) (Q : Res σ → Prop) : Res σ → Prop
  | .norm s l g => WP M ys s l g Q
  | .br k s l g => Q (.br k s l g)
  | .ret s g => Q (.ret s g)
  | .trap g => Q (.trap g)
  | .stuck => Q .stuck
  | .oof => False

def NotNorm (r : Res σ) : Prop := ∀ s l g, r ≠ .norm s l g

/-- One instruction either decides the result or continues with the rest, in a way that does not
depend on the rest. -/
theorem step_form (n : Nat) (i : Instr) (stk loc : List Val) (g : Store σ) :
    (∀ is, exec M (n + 1) (i :: is) stk loc g = .oof) ∨
    (∃ r, NotNorm r ∧ ∀ m, n ≤ m → ∀ is, exec M (m + 1) (i :: is) stk loc g = r) ∨
    (∃ js stk' loc' g', ∀ m, n ≤ m → ∀ is,
      exec M (m + 1) (i :: is) stk loc g = exec M m (js ++ is) stk' loc' g') := by
  cases i with
  | b op =>
    cases h : stepB op stk loc g with
    | ok s l g' => exact .inr (.inr ⟨[], s, l, g', fun m _ is => by simp only [exec, h]; rfl⟩)
    | trap => exact .inr (.inl ⟨.trap g, by simp [NotNorm], fun m _ is => by simp only [exec, h]⟩)
    | stuck => exact .inr (.inl ⟨.stuck, by simp [NotNorm], fun m _ is => by simp only [exec, h]⟩)
  | block np nr body =>
    by_cases hl : stk.length < np
    · exact .inr (.inl ⟨.stuck, by simp [NotNorm], fun m _ is => by simp only [exec, hl, if_true]⟩)
    by_cases ho : exec M n body (stk.take np) loc g = .oof
    · exact .inl fun is => by simp only [exec, hl, if_false, ho]
    have hm := fun m h => exec_mono n m _ _ _ _ h ho
    generalize exec M n body (stk.take np) loc g = rb at hm ho
    cases rb with
    | br k s l g' =>
      cases k with
      | zero =>
        exact .inr (.inr ⟨[], s.take nr ++ stk.drop np, l, g', fun m h is => by
          simp only [exec, hl, if_false, hm m h]; rfl⟩)
      | succ k => exact .inr (.inl ⟨.br k s l g', by simp [NotNorm], fun m h is => by
          simp only [exec, hl, if_false, hm m h]⟩)
    | norm s l g' =>
      exact .inr (.inr ⟨[], s ++ stk.drop np, l, g', fun m h is => by
          simp only [exec, hl, if_false, hm m h]; rfl⟩)
    | oof => exact absurd rfl ho
    | ret s g' => exact .inr (.inl ⟨.ret s g', by simp [NotNorm], fun m h is => by
          simp only [exec, hl, if_false, hm m h]⟩)
    | trap g' => exact .inr (.inl ⟨.trap g', by simp [NotNorm], fun m h is => by
          simp only [exec, hl, if_false, hm m h]⟩)
    | stuck => exact .inr (.inl ⟨.stuck, by simp [NotNorm], fun m h is => by
          simp only [exec, hl, if_false, hm m h]⟩)
  | loop np nr body =>
    by_cases hl : stk.length < np
    · exact .inr (.inl ⟨.stuck, by simp [NotNorm], fun m _ is => by simp only [exec, hl, if_true]⟩)
    by_cases ho : exec M n body (stk.take np) loc g = .oof
    · exact .inl fun is => by simp only [exec, hl, if_false, ho]
    have hm := fun m h => exec_mono n m _ _ _ _ h ho
    generalize exec M n body (stk.take np) loc g = rb at hm ho
    cases rb with
    | br k s l g' =>
      cases k with
      | zero =>
        exact .inr (.inr ⟨[.loop np nr body], s.take np ++ stk.drop np, l, g', fun m h is => by
          simp only [exec, hl, if_false, hm m h]; rfl⟩)
      | succ k => exact .inr (.inl ⟨.br k s l g', by simp [NotNorm], fun m h is => by
          simp only [exec, hl, if_false, hm m h]⟩)
    | norm s l g' =>
      exact .inr (.inr ⟨[], s ++ stk.drop np, l, g', fun m h is => by
          simp only [exec, hl, if_false, hm m h]; rfl⟩)
    | oof => exact absurd rfl ho
    | ret s g' => exact .inr (.inl ⟨.ret s g', by simp [NotNorm], fun m h is => by
          simp only [exec, hl, if_false, hm m h]⟩)
    | trap g' => exact .inr (.inl ⟨.trap g', by simp [NotNorm], fun m h is => by
          simp only [exec, hl, if_false, hm m h]⟩)
    | stuck => exact .inr (.inl ⟨.stuck, by simp [NotNorm], fun m h is => by
          simp only [exec, hl, if_false, hm m h]⟩)
  | ite np nr thn els =>
    match stk with
    | .i32 c :: s =>
      exact .inr (.inr ⟨[.block np nr (if c = 0#32 then els else thn)], s, loc, g,
        fun m h is => by simp only [exec]; rfl⟩)
    | [] => exact .inr (.inl ⟨.stuck, by simp [NotNorm], fun m _ is => by simp only [exec]⟩)
    | .i64 _ :: _ => exact .inr (.inl ⟨.stuck, by simp [NotNorm], fun m _ is => by simp only [exec]⟩)
    | .v128 _ :: _ => exact .inr (.inl ⟨.stuck, by simp [NotNorm], fun m _ is => by simp only [exec]⟩)
  | br l => exact .inr (.inl ⟨.br l stk loc g, by simp [NotNorm], fun m _ is => by simp only [exec]⟩)
  | brIf l =>
    match stk with
    | .i32 c :: s =>
      by_cases hc : c = 0#32
      · exact .inr (.inr ⟨[], s, loc, g, fun m h is => by simp only [exec, hc, if_true]; rfl⟩)
      · exact .inr (.inl ⟨.br l s loc g, by simp [NotNorm], fun m _ is => by
          simp only [exec, hc, if_false]⟩)
    | [] => exact .inr (.inl ⟨.stuck, by simp [NotNorm], fun m _ is => by simp only [exec]⟩)
    | .i64 _ :: _ => exact .inr (.inl ⟨.stuck, by simp [NotNorm], fun m _ is => by simp only [exec]⟩)
    | .v128 _ :: _ => exact .inr (.inl ⟨.stuck, by simp [NotNorm], fun m _ is => by simp only [exec]⟩)
  | ret => exact .inr (.inl ⟨.ret stk g, by simp [NotNorm], fun m _ is => by simp only [exec]⟩)
  | unreachable => exact .inr (.inl ⟨.trap g, by simp [NotNorm], fun m _ is => by simp only [exec]⟩)
  | call f =>
    cases f with
    | host hf =>
      by_cases hl : stk.length < (hostSig hf).1.length
      · exact .inr (.inl ⟨.stuck, by simp [NotNorm], fun m _ is => by simp only [exec, hl, if_true]⟩)
      cases hh : M.host hf (stk.take (hostSig hf).1.length).reverse g with
      | ret vs g' =>
        exact .inr (.inr ⟨[], vs.reverse ++ stk.drop (hostSig hf).1.length, loc, g',
          fun m h is => by simp only [exec, hl, if_false, hh]; rfl⟩)
      | err g' => exact .inr (.inl ⟨.trap g', by simp [NotNorm], fun m _ is => by
          simp only [exec, hl, if_false, hh]⟩)
    | std sf =>
      by_cases hl : stk.length < (stdFunc sf).params.length
      · exact .inr (.inl ⟨.stuck, by simp [NotNorm], fun m _ is => by
          simp only [exec, Mod.func, hl, if_true]⟩)
      by_cases ho : exec M n (stdFunc sf).body [] ((stk.take (stdFunc sf).params.length).reverse ++
          (stdFunc sf).locals.map VT.zero) g = .oof
      · exact .inl fun is => by simp only [exec, Mod.func, hl, if_false, ho, Res.toCall]
      have hm := fun m h => exec_mono n m _ _ _ _ h ho
      generalize exec M n (stdFunc sf).body [] ((stk.take (stdFunc sf).params.length).reverse ++
          (stdFunc sf).locals.map VT.zero) g = rb at hm ho
      cases hr : rb.toCall (stdFunc sf).results.length with
      | ret vs g' =>
        exact .inr (.inr ⟨[], vs.reverse ++ stk.drop (stdFunc sf).params.length, loc, g',
          fun m h is => by simp only [exec, Mod.func, hl, if_false, hm m h, hr]; rfl⟩)
      | trap g' => exact .inr (.inl ⟨.trap g', by simp [NotNorm], fun m h is => by
          simp only [exec, Mod.func, hl, if_false, hm m h, hr]⟩)
      | stuck => exact .inr (.inl ⟨.stuck, by simp [NotNorm], fun m h is => by
          simp only [exec, Mod.func, hl, if_false, hm m h, hr]⟩)
      | oof =>
        exfalso; apply ho
        cases rb with
        | br k _ _ _ => cases k <;> simp [Res.toCall] at hr
        | oof => rfl
        | _ => simp [Res.toCall] at hr
    | user uf =>
      cases hd : M.user uf with
      | none => exact .inr (.inl ⟨.stuck, by simp [NotNorm], fun m _ is => by
          simp only [exec, Mod.func, hd]⟩)
      | some d =>
      by_cases hl : stk.length < d.params.length
      · exact .inr (.inl ⟨.stuck, by simp [NotNorm], fun m _ is => by
          simp only [exec, Mod.func, hd, hl, if_true]⟩)
      by_cases ho : exec M n d.body [] ((stk.take d.params.length).reverse ++
          d.locals.map VT.zero) g = .oof
      · exact .inl fun is => by simp only [exec, Mod.func, hd, hl, if_false, ho, Res.toCall]
      have hm := fun m h => exec_mono n m _ _ _ _ h ho
      generalize exec M n d.body [] ((stk.take d.params.length).reverse ++
          d.locals.map VT.zero) g = rb at hm ho
      cases hr : rb.toCall d.results.length with
      | ret vs g' =>
        exact .inr (.inr ⟨[], vs.reverse ++ stk.drop d.params.length, loc, g',
          fun m h is => by simp only [exec, Mod.func, hd, hl, if_false, hm m h, hr]; rfl⟩)
      | trap g' => exact .inr (.inl ⟨.trap g', by simp [NotNorm], fun m h is => by
          simp only [exec, Mod.func, hd, hl, if_false, hm m h, hr]⟩)
      | stuck => exact .inr (.inl ⟨.stuck, by simp [NotNorm], fun m h is => by
          simp only [exec, Mod.func, hd, hl, if_false, hm m h, hr]⟩)
      | oof =>
        exfalso; apply ho
        cases rb with
        | br k _ _ _ => cases k <;> simp [Res.toCall] at hr
        | oof => rfl
        | _ => simp [Res.toCall] at hr
  | callIndirect ps rs =>
    match stk with
    | .i32 k :: s =>
      cases ht : stdTable k.toNat with
      | none => exact .inr (.inl ⟨.trap g, by simp [NotNorm], fun m _ is => by simp only [exec, ht]⟩)
      | some f =>
        by_cases hs : M.sig f = some (ps, rs)
        · exact .inr (.inr ⟨[.call f], s, loc, g, fun m h is => by
            simp only [exec, ht, hs, if_true]; rfl⟩)
        · exact .inr (.inl ⟨.trap g, by simp [NotNorm], fun m _ is => by
            simp only [exec, ht, hs, if_false]⟩)
    | [] => exact .inr (.inl ⟨.stuck, by simp [NotNorm], fun m _ is => by simp only [exec]⟩)
    | .i64 _ :: _ => exact .inr (.inl ⟨.stuck, by simp [NotNorm], fun m _ is => by simp only [exec]⟩)
    | .v128 _ :: _ => exact .inr (.inl ⟨.stuck, by simp [NotNorm], fun m _ is => by simp only [exec]⟩)

theorem seqK_notNorm {ys : List Instr} {Q : Res σ → Prop} {r : Res σ} (hn : NotNorm r)
    (ho : r ≠ .oof) : seqK M ys Q r ↔ Q r := by
  cases r with
  | norm s l g => exact absurd rfl (hn s l g)
  | oof => exact absurd rfl ho
  | _ => rfl

theorem wp_append {xs ys : List Instr} {stk loc} {g : Store σ} {Q : Res σ → Prop} :
    WP M (xs ++ ys) stk loc g Q ↔ WP M xs stk loc g (seqK M ys Q) := by
  constructor
  · rintro ⟨n, r, h1, h2, h3⟩
    induction n generalizing xs stk loc g with
    | zero => exact absurd h1.symm h2
    | succ n ih =>
      cases xs with
      | nil => exact wp_nil.2 ⟨n + 1, r, h1, h2, h3⟩
      | cons i is =>
        rcases step_form (M := M) n i stk loc g with h | ⟨r', hn, h⟩ | ⟨js, s, l, g', h⟩
        · exact absurd ((h _).symm.trans h1).symm h2
        · have e : r' = r := by rw [← h1]; exact (h n (Nat.le_refl _) _).symm
          subst e
          exact ⟨n + 1, r', h n (Nat.le_refl _) _, h2, (seqK_notNorm hn h2).2 h3⟩
        · have e : exec M n ((js ++ is) ++ ys) s l g' = r := by
            rw [← h1, List.append_assoc]; exact (h n (Nat.le_refl _) _).symm
          obtain ⟨k, r', k1, k2, k3⟩ := ih e
          refine ⟨max n k + 1, r', ?_, k2, k3⟩
          rw [h _ (by omega), exec_mono k _ _ _ _ _ (by omega) (by rw [k1]; exact k2), k1]
  · rintro ⟨n, r, h1, h2, h3⟩
    induction n generalizing xs stk loc g with
    | zero => exact absurd h1.symm h2
    | succ n ih =>
      cases xs with
      | nil =>
        simp only [exec] at h1
        subst h1; exact h3
      | cons i is =>
        rcases step_form (M := M) n i stk loc g with h | ⟨r', hn, h⟩ | ⟨js, s, l, g', h⟩
        · exact absurd ((h _).symm.trans h1).symm h2
        · have e : r' = r := by rw [← h1]; exact (h n (Nat.le_refl _) _).symm
          subst e
          exact ⟨n + 1, r', h n (Nat.le_refl _) _, h2, (seqK_notNorm hn h2).1 h3⟩
        · have e : exec M n (js ++ is) s l g' = r := by
            rw [← h1]; exact (h n (Nat.le_refl _) _).symm
          obtain ⟨k, r', k1, k2, k3⟩ := ih e
          refine ⟨max n k + 1, r', ?_, k2, k3⟩
          rw [List.append_assoc] at k1
          rw [List.cons_append, h _ (by omega),
            exec_mono k _ _ _ _ _ (by omega) (by rw [k1]; exact k2), k1]

@[wps] theorem seqK_norm {ys : List Instr} {Q : Res σ → Prop} {s l} {g : Store σ} :
    seqK M ys Q (.norm s l g) ↔ WP M ys s l g Q := Iff.rfl
@[wps] theorem seqK_br {ys : List Instr} {Q : Res σ → Prop} {k s l} {g : Store σ} :
    seqK M ys Q (.br k s l g) ↔ Q (.br k s l g) := Iff.rfl
@[wps] theorem seqK_ret {ys : List Instr} {Q : Res σ → Prop} {s} {g : Store σ} :
    seqK M ys Q (.ret s g) ↔ Q (.ret s g) := Iff.rfl
@[wps] theorem seqK_trap {ys : List Instr} {Q : Res σ → Prop} {g : Store σ} :
    seqK M ys Q (.trap g) ↔ Q (.trap g) := Iff.rfl

end Wasm
