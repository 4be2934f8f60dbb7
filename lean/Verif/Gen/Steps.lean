import Verif.Wasm.Seq
import Verif.Wasm.Tac
import Verif.Gen.Mem

/-! Straight-line code: `Steps` and its rules. -/

namespace Gen
open Wasm

variable {σ : Type} {M : Wasm.Mod σ}

/-- Executing `is` ends normally in the given configuration. -/
def Steps (M : Wasm.Mod σ) (is : List Instr) (stk loc : List Val) (g : Store σ) (stk' loc' : List Val)
    (g' : Store σ) : Prop :=
  ∀ rest Q, WP M (is ++ rest) stk loc g Q ↔ WP M rest stk' loc' g' Q

theorem Steps.refl {stk loc : List Val} {g : Store σ} : Steps M [] stk loc g stk loc g :=
  fun _ _ => Iff.rfl

theorem Steps.append {xs ys : List Instr} {s l s1 l1 s2 l2 : List Val} {g g1 g2 : Store σ}
    (h : Steps M xs s l g s1 l1 g1) (h' : Steps M ys s1 l1 g1 s2 l2 g2) :
    Steps M (xs ++ ys) s l g s2 l2 g2 := by
  intro rest Q
  rw [List.append_assoc, h, h']

theorem Steps.cons {i : Instr} {ys : List Instr} {s l s1 l1 s2 l2 : List Val} {g g1 g2 : Store σ}
    (h : Steps M [i] s l g s1 l1 g1) (h' : Steps M ys s1 l1 g1 s2 l2 g2) :
    Steps M (i :: ys) s l g s2 l2 g2 := h.append h'

theorem Steps.wp {is : List Instr} {s l s1 l1 : List Val} {g g1 : Store σ}
    (h : Steps M is s l g s1 l1 g1) {Q : Res σ → Prop} :
    WP M is s l g Q ↔ Q (.norm s1 l1 g1) := by
  have := h [] Q
  rw [List.append_nil, wp_nil] at this
  exact this

theorem Steps.of_wp {is : List Instr} {s l s1 l1 : List Val} {g g1 : Store σ}
    (h : ∀ Q : Res σ → Prop, WP M is s l g Q ↔ Q (.norm s1 l1 g1)) :
    Steps M is s l g s1 l1 g1 := by
  intro rest Q
  rw [wp_append, h]; rfl

theorem Steps.b {op : Basic} {s l s1 l1 : List Val} {g g1 : Store σ}
    (h : stepB op s l g = .ok s1 l1 g1) : Steps M [.b op] s l g s1 l1 g1 := by
  intro rest Q
  show WP M (.b op :: rest) s l g Q ↔ _
  rw [wp_b, h]; rfl

theorem steps_get {n : Nat} {v : Val} {s l : List Val} {g : Store σ} (h : l[n]? = some v) :
    Steps M [.b (.localGet n)] s l g (v :: s) l g := Steps.b (by simp [stepB, h])

theorem steps_set {n : Nat} {v : Val} {s l : List Val} {g : Store σ} (h : n < l.length) :
    Steps M [.b (.localSet n)] (v :: s) l g s (l.set n v) g := Steps.b (by simp [stepB, h])

theorem steps_const {v : Val} {s l : List Val} {g : Store σ} :
    Steps M [.b (.const v)] s l g (v :: s) l g := Steps.b rfl

/-- Pushing constants. -/
theorem steps_consts {s l : List Val} {g : Store σ} (vs : List Val) :
    Steps M (vs.map fun v => .b (.const v)) s l g (vs.reverse ++ s) l g := by
  induction vs generalizing s with
  | nil => exact Steps.refl
  | cons v vs ih =>
    have := Steps.cons (M := M) (steps_const (v := v) (s := s) (l := l) (g := g)) ih
    simpa using this

theorem steps_placeholder {s l : List Val} {g : Store σ} (T : Spec.Ty) :
    Steps M (placeholder T) s l g (((wty T).map VT.zero).reverse ++ s) l g := by
  have := steps_consts (M := M) (s := s) (l := l) (g := g) ((wty T).map VT.zero)
  simpa [placeholder, Function.comp_def] using this

/-- Dropping values. -/
theorem steps_drops {s l : List Val} {g : Store σ} {α : Type} (ts : List α) (ws : List Val)
    (h : ws.length = ts.length) :
    Steps M (ts.map fun _ => .b .drop) (ws ++ s) l g s l g := by
  induction ts generalizing ws with
  | nil =>
    obtain rfl : ws = [] := List.length_eq_zero_iff.1 (by simpa using h)
    exact Steps.refl
  | cons t ts ih =>
    cases ws with
    | nil => simp at h
    | cons w ws =>
      exact Steps.cons (Steps.b (by simp [stepB])) (ih ws (by simpa using h))

/-- Reading locals. -/
theorem steps_getLocals {s l : List Val} {g : Store σ} {ls : List Nat} {ws : List Val}
    (h : ls.map (l[·]?) = ws.map some) :
    Steps M (getLocals ls) s l g (ws.reverse ++ s) l g := by
  induction ls generalizing ws s with
  | nil =>
    obtain rfl : ws = [] := by simpa using h.symm
    exact Steps.refl
  | cons n ls ih =>
    cases ws with
    | nil => simp at h
    | cons w ws =>
      simp only [List.map_cons, List.cons.injEq] at h
      have := Steps.cons (M := M) (steps_get (s := s) (g := g) h.1) (ih h.2)
      simpa [getLocals] using this

/-- Locals after `local_set` of `ls` to `ws`. -/
def setAll (loc : List Val) : List Nat → List Val → List Val
  | l :: ls, w :: ws => setAll (loc.set l w) ls ws
  | _, _ => loc

theorem length_setAll (loc : List Val) (ls : List Nat) (ws : List Val) :
    (setAll loc ls ws).length = loc.length := by
  induction ls generalizing loc ws with
  | nil => cases ws <;> rfl
  | cons l ls ih =>
    cases ws with
    | nil => rfl
    | cons w ws => simp [setAll, ih]

theorem setAll_other {loc : List Val} {ls : List Nat} {ws : List Val} {i : Nat} (h : i ∉ ls) :
    (setAll loc ls ws)[i]? = loc[i]? := by
  induction ls generalizing loc ws with
  | nil => cases ws <;> rfl
  | cons l ls ih =>
    cases ws with
    | nil => rfl
    | cons w ws =>
      simp only [List.mem_cons, not_or] at h
      simp [setAll, ih h.2, List.getElem?_set, Ne.symm h.1]

theorem setAll_same {loc : List Val} {ls : List Nat} {ws : List Val} (hn : ls.Nodup)
    (hl : ∀ l ∈ ls, l < loc.length) (hw : ls.length = ws.length) :
    ls.map ((setAll loc ls ws)[·]?) = ws.map some := by
  induction ls generalizing loc ws with
  | nil =>
    obtain rfl : ws = [] := List.length_eq_zero_iff.1 (by simpa using hw.symm)
    rfl
  | cons l ls ih =>
    cases ws with
    | nil => simp at hw
    | cons w ws =>
      simp only [List.nodup_cons] at hn
      simp only [setAll, List.map_cons, List.cons.injEq]
      constructor
      · rw [setAll_other hn.1]
        simp [List.getElem?_set, hl l (List.mem_cons_self ..)]
      · exact ih hn.2 (fun x hx => by simp; exact hl x (List.mem_cons_of_mem _ hx)) (by simpa using hw)

theorem steps_sets {s loc : List Val} {g : Store σ} (ls : List Nat) (ws : List Val)
    (hw : ls.length = ws.length) (hl : ∀ l ∈ ls, l < loc.length) :
    Steps M (ls.map fun l => .b (.localSet l)) (ws ++ s) loc g s (setAll loc ls ws) g := by
  induction ls generalizing loc ws with
  | nil =>
    obtain rfl : ws = [] := List.length_eq_zero_iff.1 (by simpa using hw.symm)
    exact Steps.refl
  | cons l ls ih =>
    cases ws with
    | nil => simp at hw
    | cons w ws =>
      exact Steps.cons (steps_set (hl l (List.mem_cons_self ..))) (ih ws (by simpa using hw)
        (fun x hx => by simp; exact hl x (List.mem_cons_of_mem _ hx)))

theorem nodup_rev {ls : List Nat} (h : ls.Nodup) : ls.reverse.Nodup := by
  rw [List.Nodup, List.pairwise_reverse]
  exact h.imp fun hab e => hab e.symm

/-- Saving the top values, given in logical order, to distinct locals. -/
theorem steps_setLocals {s loc : List Val} {g : Store σ} (ls : List Nat) (ws : List Val)
    (hn : ls.Nodup) (hw : ls.length = ws.length) (hl : ∀ l ∈ ls, l < loc.length) :
    ∃ loc', Steps M (setLocals ls) (ws.reverse ++ s) loc g s loc' g ∧ loc'.length = loc.length ∧
      (∀ i, i ∉ ls → loc'[i]? = loc[i]?) ∧ ls.map (loc'[·]?) = ws.map some := by
  refine ⟨setAll loc ls.reverse ws.reverse, ?_, length_setAll .., fun i hi => setAll_other (by simpa using hi), ?_⟩
  · exact steps_sets ls.reverse ws.reverse (by simpa using hw) (by simpa using hl)
  · have := setAll_same (loc := loc) (ls := ls.reverse) (ws := ws.reverse) (nodup_rev hn)
      (by simpa using hl) (by simpa using hw)
    have := congrArg List.reverse this
    simpa [← List.map_reverse] using this

theorem mem_saveLocals {T : Spec.Ty} {n i : Nat} : i ∈ saveLocals T n ↔ n ≤ i ∧ i < n + (wty T).length := by
  simp [saveLocals, List.mem_range']
  constructor
  · rintro ⟨a, h, rfl⟩; omega
  · rintro ⟨h, h'⟩; exact ⟨i - n, by omega, by omega⟩

/-- `save_to_locals`. -/
theorem steps_save {s loc : List Val} {g : Store σ} (T : Spec.Ty) (n : Nat) (ws : List Val)
    (hw : ws.length = (wty T).length) (hl : n + (wty T).length ≤ loc.length) :
    ∃ loc', Steps M (saveCode T n) (ws.reverse ++ s) loc g s loc' g ∧ loc'.length = loc.length ∧
      (∀ i, i < n ∨ n + (wty T).length ≤ i → loc'[i]? = loc[i]?) ∧
      (saveLocals T n).map (loc'[·]?) = ws.map some := by
  obtain ⟨loc', h1, h2, h3, h4⟩ := steps_setLocals (M := M) (s := s) (loc := loc) (g := g) (saveLocals T n) ws
    (nodup_rev List.nodup_range') (by simp [saveLocals, hw])
    (fun l hl' => by have := mem_saveLocals.1 hl'; omega)
  exact ⟨loc', h1, h2, fun i hi => h3 i (by rw [mem_saveLocals]; omega), h4⟩

end Gen
