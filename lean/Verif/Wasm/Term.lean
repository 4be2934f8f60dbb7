import Verif.Wasm.StdValid
import Verif.Wasm.Rules

/-!
Termination: a verification-condition generator that forgets the contents of memory and globals, and its
soundness. What is proved for it holds for every store.
-/

namespace Wasm

variable {σ : Type} {M : Mod σ}

/-- Every call of `f` with arguments of its types ends, whatever the store. -/
def Terminates (M : Mod σ) (f : FId) : Prop :=
  ∀ ps rs, M.sig f = some (ps, rs) → ∀ (args : List Val) (g : Store σ), tys args = ps →
    ∃ r, Runs M f args g r ∧ CResTy rs r ∧ r ≠ .oof

/-- What must hold before a basic instruction: reads of memory and globals give any value. -/
def stepV (op : Basic) (stk loc : List Val) (K : List Val → List Val → Prop) : Prop :=
  match op, stk with
  | .i32load _ _, .i32 _ :: stk => ∀ v, K (.i32 v :: stk) loc
  | .i64load _ _, .i32 _ :: stk => ∀ v, K (.i64 v :: stk) loc
  | .v128load _, .i32 _ :: stk => ∀ v, K (.v128 v :: stk) loc
  | .i32store _ _, .i32 _ :: .i32 _ :: stk => K stk loc
  | .i64store _ _, .i64 _ :: .i32 _ :: stk => K stk loc
  | .v128store _, .v128 _ :: .i32 _ :: stk => K stk loc
  | .memCopy, .i32 _ :: .i32 _ :: .i32 _ :: stk => K stk loc
  | .memFill, .i32 _ :: .i32 _ :: .i32 _ :: stk => K stk loc
  | .global32Get _, stk => ∀ v, K (.i32 v :: stk) loc
  | .global64Get _, stk => ∀ v, K (.i64 v :: stk) loc
  | .const v, stk => K (v :: stk) loc
  | .i32bin op, .i32 b :: .i32 a :: stk => K (.i32 (op.eval a b) :: stk) loc
  | .i64bin op, .i64 b :: .i64 a :: stk => K (.i64 (op.eval a b) :: stk) loc
  | .i32div op, .i32 b :: .i32 a :: stk => ∀ r, op.eval a b = some r → K (.i32 r :: stk) loc
  | .i64div op, .i64 b :: .i64 a :: stk => ∀ r, op.eval a b = some r → K (.i64 r :: stk) loc
  | .i32rel op, .i32 b :: .i32 a :: stk => K (.i32 (op.eval a b) :: stk) loc
  | .i64rel op, .i64 b :: .i64 a :: stk => K (.i32 (op.eval a b) :: stk) loc
  | .i32eqz, .i32 a :: stk => K (.i32 (b32 (a = 0#32)) :: stk) loc
  | .i64eqz, .i64 a :: stk => K (.i32 (b32 (a = 0#64)) :: stk) loc
  | .i32clz, .i32 a :: stk => K (.i32 (clz a) :: stk) loc
  | .i64clz, .i64 a :: stk => K (.i64 (clz a) :: stk) loc
  | .i32wrap, .i64 a :: stk => K (.i32 (a.setWidth 32) :: stk) loc
  | .i64extU, .i32 a :: stk => K (.i64 (a.setWidth 64) :: stk) loc
  | .i64extS, .i32 a :: stk => K (.i64 (a.signExtend 64) :: stk) loc
  | .drop, _ :: stk => K stk loc
  | .select, .i32 c :: b :: a :: stk => K ((if c = 0#32 then b else a) :: stk) loc
  | .localGet n, stk => n < loc.length → K (nth loc n :: stk) loc
  | .localSet n, v :: stk => K stk (loc.set n v)
  | .localTee n, v :: stk => K (v :: stk) (loc.set n v)
  | .global32Set _, .i32 _ :: stk => K stk loc
  | .global64Set _, .i64 _ :: stk => K stk loc
  | .v128and, .v128 b :: .v128 a :: stk => K (.v128 (a &&& b) :: stk) loc
  | .v128xor, .v128 b :: .v128 a :: stk => K (.v128 (a ^^^ b) :: stk) loc
  | .v128anyTrue, .v128 a :: stk => K (.i32 (b32 (a ≠ 0#128)) :: stk) loc
  | .i8x16swizzle, .v128 _ :: .v128 _ :: stk => ∀ v, K (.v128 v :: stk) loc
  | .i64x2extract l, .v128 v :: stk => K (.i64 (BitVec.ofNat 64 (v.toNat / 2 ^ (64 * l))) :: stk) loc
  | _, _ => True

/-- The postcondition of the body of a block. -/
def closeP (nr : Nat) (rest : List Val) (P : Option Nat → List Val → List Val → Prop) : Option Nat → List Val → List Val → Prop
  | none, s, l => P none (s ++ rest) l
  | some 0, s, l => P none (s.take nr ++ rest) l
  | some (k + 1), s, l => P (some k) s l

/-- The postcondition of the body of a loop. -/
def loopP (I : List Val → Prop) (rest : List Val) (P : Option Nat → List Val → List Val → Prop) :
    Option Nat → List Val → List Val → Prop
  | none, s, l => P none (s ++ rest) l
  | some 0, _, l => I l
  | some (k + 1), s, l => P (some k) s l

/-- The postcondition of an instruction followed by others. -/
def seqP (K : List Val → List Val → Prop) (P : Option Nat → List Val → List Val → Prop) : Option Nat → List Val → List Val → Prop
  | none, s, l => K s l
  | some k, s, l => P (some k) s l

mutual
/-- The verification condition of an instruction; `T` are the functions known to terminate. -/
def vcI (T : FId → Prop) : Instr → List Val → List Val → (Option Nat → List Val → List Val → Prop) → Prop
  | .b op, stk, loc, P => stepV op stk loc (fun s l => P none s l)
  | .block np nr body, stk, loc, P => vcL T body (stk.take np) loc (closeP nr (stk.drop np) P)
  | .loop np _ body, stk, loc, P => ∃ (I : List Val → Prop) (μ : List Val → Nat), np = 0 ∧ I loc ∧
      ∀ l, I l → vcL T body [] l (loopP (fun l' => I l' ∧ μ l' < μ l) stk P)
  | .ite np nr t e, stk, loc, P =>
    match stk with
    | .i32 c :: rest => if c = 0#32 then vcL T e (rest.take np) loc (closeP nr (rest.drop np) P)
        else vcL T t (rest.take np) loc (closeP nr (rest.drop np) P)
    | _ => True
  | .br k, stk, loc, P => P (some k) stk loc
  | .brIf k, stk, loc, P =>
    match stk with
    | .i32 c :: rest => if c = 0#32 then P none rest loc else P (some k) rest loc
    | _ => True
  | .ret, _, _, _ => True
  | .unreachable, _, _, _ => True
  | .call f, stk, loc, P =>
    match stdSig f with
    | some (ps, rs) => T f ∧ tys (stk.take ps.length) = ps.reverse ∧
        ∀ vs, tys vs = rs → P none (vs.reverse ++ stk.drop ps.length) loc
    | none => False
  | .callIndirect ps rs, stk, loc, P =>
    match stk with
    | .i32 _ :: rest => (∀ k f, stdTable k = some f → stdSig f = some (ps, rs) → T f) ∧ tys (rest.take ps.length) = ps.reverse ∧
        ∀ vs, tys vs = rs → P none (vs.reverse ++ rest.drop ps.length) loc
    | _ => True
/-- The verification condition of a sequence. -/
def vcL (T : FId → Prop) : List Instr → List Val → List Val → (Option Nat → List Val → List Val → Prop) → Prop
  | [], stk, loc, P => P none stk loc
  | i :: is, stk, loc, P => vcI T i stk loc (seqP (fun s l => vcL T is s l P) P)
end

/-- The postcondition as one on results: anything goes when execution ends or traps. -/
def tol (P : Option Nat → List Val → List Val → Prop) : Res σ → Prop
  | .norm s l _ => P none s l
  | .br k s l _ => P (some k) s l
  | .ret _ _ => True
  | .trap _ => True
  | .stuck => True
  | .oof => False

theorem stepV_sound {op : Basic} {stk loc : List Val} {K : List Val → List Val → Prop} (h : stepV op stk loc K) (g : Store σ)
    {s l : List Val} {g' : Store σ} (he : stepB op stk loc g = .ok s l g') : K s l := by
  unfold stepB at he
  split at he
  case h_17 =>
    split at he
    · rename_i v hv
      cases he
      have hn := (List.getElem?_eq_some_iff.1 hv).1
      have := h hn
      rw [nth_of_lt hn, Option.some.injEq] at hv
      rwa [hv] at this
    · cases he
  all_goals first
    | (cases he; exact h)
    | (cases he; exact h _)
    | (cases he; done)
    | (split at he
       · cases he; first | exact h | exact h _ | exact h _ (by assumption)
       · cases he)

theorem stdSig_mem {f : FId} {x} (h : M.sig f = some x) (hu : ∀ k, f ≠ .user k) : stdSig f = some x := by
  cases f with
  | std f => simpa [stdSig, Mod.sig, Mod.func] using h
  | host f => simpa [stdSig, Mod.sig, Mod.func] using h
  | user k => exact absurd rfl (hu k)

theorem Terminates.call {f : FId} (ht : Terminates M f) {ps rs : List VT} (hs : M.sig f = some (ps, rs))
    {is : List Instr} {stk loc : List Val} {g : Store σ} {P : Option Nat → List Val → List Val → Prop}
    (ha : tys (stk.take ps.length) = ps.reverse)
    (h : ∀ vs g, tys vs = rs → WP M is (vs.reverse ++ stk.drop ps.length) loc g (tol P)) :
    WP M (.call f :: is) stk loc g (tol P) := by
  have hl : ps.length ≤ stk.length := by
    have := congrArg List.length ha
    rw [tys_length, List.length_take, List.length_reverse] at this; omega
  rw [wp_call hs hl]
  obtain ⟨r, hr, hrt, hro⟩ := ht ps rs hs (stk.take ps.length).reverse g (by rw [tys_reverse, ha, List.reverse_reverse])
  rw [call_of_runs hr hro]
  cases r with
  | ret vs g' => exact h vs g' hrt
  | trap g' => trivial
  | stuck => trivial
  | oof => exact absurd rfl hro

mutual
theorem vcI_sound {T : FId → Prop} (hT : ∀ f, T f → Terminates M f) : ∀ (i : Instr) (is : List Instr) (stk loc : List Val) (g : Store σ)
    (K : List Val → List Val → Prop) (P : Option Nat → List Val → List Val → Prop), vcI T i stk loc (seqP K P) →
    (∀ s l g, K s l → WP M is s l g (tol P)) → WP M (i :: is) stk loc g (tol P)
  | .b op, is, stk, loc, g, K, P, h, hk => by
    rw [wp_b]
    simp only [vcI] at h
    cases he : stepB op stk loc g with
    | ok s l g' => exact hk s l g' (stepV_sound h g he)
    | trap => trivial
    | stuck => trivial
  | .block np nr body, is, stk, loc, g, K, P, h, hk => by
    simp only [vcI] at h
    by_cases hl : np ≤ stk.length
    · rw [wp_block hl]
      exact block_sound hT body nr is _ _ loc g K P h hk
    · exact (wp_end (r := .stuck) (by simp) fun n => by simp only [exec, show stk.length < np by omega, if_true]).2 trivial
  | .loop np nr body, is, stk, loc, g, K, P, h, hk => by
    simp only [vcI] at h
    obtain ⟨I, μ, rfl, hI, hstep⟩ := h
    refine wp_loop_inv (fun (x : List Val) l _ => x = l ∧ I l) μ loc ⟨rfl, hI⟩ ?_
    rintro x l g' ⟨rfl, hx⟩
    refine (vcL_sound hT body [] x g' _ (hstep x hx)).mono ?_
    intro r hr
    cases r with
    | norm s l g => exact hk _ _ _ hr
    | br k s l g =>
      cases k with
      | zero => exact ⟨l, hr.2, rfl, hr.1⟩
      | succ k => exact hr
    | ret s g => trivial
    | trap g => trivial
    | stuck => trivial
    | oof => exact hr
  | .ite np nr t e, is, stk, loc, g, K, P, h, hk => by
    simp only [vcI] at h
    match stk, h with
    | .i32 c :: rest, h =>
      simp only at h
      rw [wp_ite]
      by_cases hl : np ≤ rest.length
      · rw [wp_block hl]
        by_cases hc : c = 0#32
        · rw [if_pos hc] at h ⊢; exact block_sound hT e nr is _ _ loc g K P h hk
        · rw [if_neg hc] at h ⊢; exact block_sound hT t nr is _ _ loc g K P h hk
      · exact (wp_end (r := .stuck) (by simp) fun n => by simp only [exec, show rest.length < np by omega, if_true]).2 trivial
    | [], _ => exact (wp_end (r := .stuck) (by simp) fun n => by simp only [exec]).2 trivial
    | .i64 _ :: _, _ => exact (wp_end (r := .stuck) (by simp) fun n => by simp only [exec]).2 trivial
    | .v128 _ :: _, _ => exact (wp_end (r := .stuck) (by simp) fun n => by simp only [exec]).2 trivial
  | .br k, is, stk, loc, g, K, P, h, hk => by
    rw [wp_br]; simp only [vcI, seqP] at h; exact h
  | .brIf k, is, stk, loc, g, K, P, h, hk => by
    simp only [vcI] at h
    match stk, h with
    | .i32 c :: rest, h =>
      simp only at h
      rw [wp_brIf]
      by_cases hc : c = 0#32
      · rw [if_pos hc] at h ⊢; exact hk _ _ _ h
      · rw [if_neg hc] at h ⊢; exact h
    | [], _ => exact (wp_end (r := .stuck) (by simp) fun n => by simp only [exec]).2 trivial
    | .i64 _ :: _, _ => exact (wp_end (r := .stuck) (by simp) fun n => by simp only [exec]).2 trivial
    | .v128 _ :: _, _ => exact (wp_end (r := .stuck) (by simp) fun n => by simp only [exec]).2 trivial
  | .ret, is, stk, loc, g, K, P, h, hk => wp_ret.2 trivial
  | .unreachable, is, stk, loc, g, K, P, h, hk => wp_unreachable.2 trivial
  | .call f, is, stk, loc, g, K, P, h, hk => by
    simp only [vcI] at h
    cases hs : stdSig f with
    | none => rw [hs] at h; exact h.elim
    | some x =>
      obtain ⟨ps, rs⟩ := x
      rw [hs] at h
      obtain ⟨h1, h2, h3⟩ := h
      exact (hT f h1).call (sig_of_stdSig hs) h2 fun vs g' hv => hk _ _ _ (h3 vs hv)
  | .callIndirect ps rs, is, stk, loc, g, K, P, h, hk => by
    simp only [vcI] at h
    match stk, h with
    | .i32 c :: rest, h =>
      obtain ⟨h1, h2, h3⟩ := h
      cases hf : stdTable c.toNat with
      | none => exact (wp_end (r := .trap g) (by simp) fun n => by simp only [exec, hf]).2 trivial
      | some f =>
        by_cases hs : M.sig f = some (ps, rs)
        · rw [wp_callIndirect hf hs]
          have hu : ∀ k, f ≠ .user k := by
            rintro k rfl
            unfold stdTable at hf
            split at hf <;> simp at hf
          exact (hT f (h1 _ f hf (stdSig_mem hs hu))).call hs h2 fun vs g' hv => hk _ _ _ (h3 vs hv)
        · exact (wp_end (r := .trap g) (by simp) fun n => by simp only [exec, hf, hs, if_false]).2 trivial
    | [], _ => exact (wp_end (r := .stuck) (by simp) fun n => by simp only [exec]).2 trivial
    | .i64 _ :: _, _ => exact (wp_end (r := .stuck) (by simp) fun n => by simp only [exec]).2 trivial
    | .v128 _ :: _, _ => exact (wp_end (r := .stuck) (by simp) fun n => by simp only [exec]).2 trivial
theorem block_sound {T : FId → Prop} (hT : ∀ f, T f → Terminates M f) (body : List Instr) (nr : Nat) (is : List Instr) (stk rest loc : List Val)
    (g : Store σ) (K : List Val → List Val → Prop) (P : Option Nat → List Val → List Val → Prop)
    (h : vcL T body stk loc (closeP nr rest (seqP K P))) (hk : ∀ s l g, K s l → WP M is s l g (tol P)) :
    WP M body stk loc g (blockK M nr is rest (tol P)) := by
  refine (vcL_sound hT body stk loc g _ h).mono ?_
  intro r hr
  cases r with
  | norm s l g => exact hk _ _ _ hr
  | br k s l g =>
    cases k with
    | zero => exact hk _ _ _ hr
    | succ k => exact hr
  | ret s g => trivial
  | trap g => trivial
  | stuck => trivial
  | oof => exact hr
theorem vcL_sound {T : FId → Prop} (hT : ∀ f, T f → Terminates M f) : ∀ (is : List Instr) (stk loc : List Val) (g : Store σ)
    (P : Option Nat → List Val → List Val → Prop), vcL T is stk loc P → WP M is stk loc g (tol P)
  | [], stk, loc, g, P, h => by
    rw [wp_nil]; simp only [vcL] at h; exact h
  | i :: is, stk, loc, g, P, h => by
    simp only [vcL] at h
    exact vcI_sound hT i is stk loc g _ P h fun s l g' hk => vcL_sound hT is s l g' P hk
end

theorem seqP_mono {K K' : List Val → List Val → Prop} {P P' : Option Nat → List Val → List Val → Prop} (hK : ∀ s l, K s l → K' s l)
    (hP : ∀ x s l, P x s l → P' x s l) (x) (s l) (h : seqP K P x s l) : seqP K' P' x s l := by
  cases x with
  | none => exact hK _ _ h
  | some k => exact hP _ _ _ h

theorem closeP_mono {nr : Nat} {rest : List Val} {P P' : Option Nat → List Val → List Val → Prop}
    (hP : ∀ x s l, P x s l → P' x s l) (x) (s l) (h : closeP nr rest P x s l) : closeP nr rest P' x s l := by
  match x, h with
  | none, h => exact hP _ _ _ h
  | some 0, h => exact hP _ _ _ h
  | some (k + 1), h => exact hP _ _ _ h

theorem loopP_mono {I : List Val → Prop} {rest : List Val} {P P' : Option Nat → List Val → List Val → Prop}
    (hP : ∀ x s l, P x s l → P' x s l) (x) (s l) (h : loopP I rest P x s l) : loopP I rest P' x s l := by
  match x, h with
  | none, h => exact hP _ _ _ h
  | some 0, h => exact h
  | some (k + 1), h => exact hP _ _ _ h

theorem stepV_mono {op : Basic} {stk loc : List Val} {K K' : List Val → List Val → Prop} (hK : ∀ s l, K s l → K' s l)
    (h : stepV op stk loc K) : stepV op stk loc K' := by
  unfold stepV at h ⊢
  split at h <;> first
    | exact hK _ _ h
    | exact fun v => hK _ _ (h v)
    | exact fun v hv => hK _ _ (h v hv)
    | trivial

mutual
theorem vcI_mono {T : FId → Prop} : ∀ (i : Instr) (stk loc : List Val) (P P' : Option Nat → List Val → List Val → Prop),
    (∀ x s l, P x s l → P' x s l) → vcI T i stk loc P → vcI T i stk loc P'
  | .b op, stk, loc, P, P', hP, h => by
    simp only [vcI] at h ⊢; exact stepV_mono (hP none) h
  | .block np nr body, stk, loc, P, P', hP, h => by
    simp only [vcI] at h ⊢; exact vcL_mono body _ _ _ _ (closeP_mono hP) h
  | .loop np nr body, stk, loc, P, P', hP, h => by
    simp only [vcI] at h ⊢
    obtain ⟨I, μ, h1, h2, h3⟩ := h
    exact ⟨I, μ, h1, h2, fun l hl => vcL_mono body _ _ _ _ (loopP_mono hP) (h3 l hl)⟩
  | .ite np nr t e, stk, loc, P, P', hP, h => by
    simp only [vcI] at h ⊢
    split
    · simp only at h
      split
      · rename_i hc; rw [if_pos hc] at h; exact vcL_mono e _ _ _ _ (closeP_mono hP) h
      · rename_i hc; rw [if_neg hc] at h; exact vcL_mono t _ _ _ _ (closeP_mono hP) h
    · trivial
  | .br k, stk, loc, P, P', hP, h => by simp only [vcI] at h ⊢; exact hP _ _ _ h
  | .brIf k, stk, loc, P, P', hP, h => by
    simp only [vcI] at h ⊢
    split
    · simp only at h
      split
      · rename_i hc; rw [if_pos hc] at h; exact hP _ _ _ h
      · rename_i hc; rw [if_neg hc] at h; exact hP _ _ _ h
    · trivial
  | .ret, stk, loc, P, P', hP, h => by simp only [vcI]
  | .unreachable, stk, loc, P, P', hP, h => by simp only [vcI]
  | .call f, stk, loc, P, P', hP, h => by
    simp only [vcI] at h ⊢
    split
    · rename_i heq; rw [heq] at h; exact ⟨h.1, h.2.1, fun vs hv => hP _ _ _ (h.2.2 vs hv)⟩
    · rename_i heq; rw [heq] at h; exact h
  | .callIndirect ps rs, stk, loc, P, P', hP, h => by
    simp only [vcI] at h ⊢
    split
    · exact ⟨h.1, h.2.1, fun vs hv => hP _ _ _ (h.2.2 vs hv)⟩
    · trivial
theorem vcL_mono {T : FId → Prop} : ∀ (is : List Instr) (stk loc : List Val) (P P' : Option Nat → List Val → List Val → Prop),
    (∀ x s l, P x s l → P' x s l) → vcL T is stk loc P → vcL T is stk loc P'
  | [], stk, loc, P, P', hP, h => by simp only [vcL] at h ⊢; exact hP _ _ _ h
  | i :: is, stk, loc, P, P', hP, h => by
    simp only [vcL] at h ⊢
    exact vcI_mono i _ _ _ _ (seqP_mono (fun s l => vcL_mono is s l P P' hP) hP) h
end

/-- Cutting a sequence in two. -/
theorem vc_cut {T : FId → Prop} {ys : List Instr} {P : Option Nat → List Val → List Val → Prop} (R : List Val → List Val → Prop)
    (hR : ∀ s l, R s l → vcL T ys s l P) : ∀ (xs : List Instr) (stk loc : List Val), vcL T xs stk loc (seqP R P) → vcL T (xs ++ ys) stk loc P
  | [], stk, loc, h => by simp only [vcL] at h; exact hR _ _ h
  | x :: xs, stk, loc, h => by
    rw [List.cons_append]
    simp only [vcL] at h ⊢
    refine vcI_mono x _ _ _ _ (fun y s l hy => ?_) h
    cases y with
    | none => exact vc_cut R hR xs s l hy
    | some k => exact hy

section rules
variable {T : FId → Prop} {is : List Instr} {stk loc : List Val} {P : Option Nat → List Val → List Val → Prop}

@[wps] theorem vc_const {v} : vcL T (.b (.const v) :: is) stk loc P = vcL T is (v :: stk) loc P := by simp only [vcL, vcI, seqP, stepV]
@[wps] theorem vc_i32bin {op a b} : vcL T (.b (.i32bin op) :: is) (.i32 b :: .i32 a :: stk) loc P = vcL T is (.i32 (op.eval a b) :: stk) loc P := by simp only [vcL, vcI, seqP, stepV]
@[wps] theorem vc_i64bin {op a b} : vcL T (.b (.i64bin op) :: is) (.i64 b :: .i64 a :: stk) loc P = vcL T is (.i64 (op.eval a b) :: stk) loc P := by simp only [vcL, vcI, seqP, stepV]
@[wps] theorem vc_i32div {op a b} : vcL T (.b (.i32div op) :: is) (.i32 b :: .i32 a :: stk) loc P = (∀ r, op.eval a b = some r → vcL T is (.i32 r :: stk) loc P) := by simp only [vcL, vcI, seqP, stepV]
@[wps] theorem vc_i64div {op a b} : vcL T (.b (.i64div op) :: is) (.i64 b :: .i64 a :: stk) loc P = (∀ r, op.eval a b = some r → vcL T is (.i64 r :: stk) loc P) := by simp only [vcL, vcI, seqP, stepV]
@[wps] theorem vc_i32rel {op a b} : vcL T (.b (.i32rel op) :: is) (.i32 b :: .i32 a :: stk) loc P = vcL T is (.i32 (op.eval a b) :: stk) loc P := by simp only [vcL, vcI, seqP, stepV]
@[wps] theorem vc_i64rel {op a b} : vcL T (.b (.i64rel op) :: is) (.i64 b :: .i64 a :: stk) loc P = vcL T is (.i32 (op.eval a b) :: stk) loc P := by simp only [vcL, vcI, seqP, stepV]
@[wps] theorem vc_i32eqz {a} : vcL T (.b .i32eqz :: is) (.i32 a :: stk) loc P = vcL T is (.i32 (b32 (a = 0#32)) :: stk) loc P := by simp only [vcL, vcI, seqP, stepV]
@[wps] theorem vc_i64eqz {a} : vcL T (.b .i64eqz :: is) (.i64 a :: stk) loc P = vcL T is (.i32 (b32 (a = 0#64)) :: stk) loc P := by simp only [vcL, vcI, seqP, stepV]
@[wps] theorem vc_i32clz {a} : vcL T (.b .i32clz :: is) (.i32 a :: stk) loc P = vcL T is (.i32 (clz a) :: stk) loc P := by simp only [vcL, vcI, seqP, stepV]
@[wps] theorem vc_i64clz {a} : vcL T (.b .i64clz :: is) (.i64 a :: stk) loc P = vcL T is (.i64 (clz a) :: stk) loc P := by simp only [vcL, vcI, seqP, stepV]
@[wps] theorem vc_i32wrap {a} : vcL T (.b .i32wrap :: is) (.i64 a :: stk) loc P = vcL T is (.i32 (a.setWidth 32) :: stk) loc P := by simp only [vcL, vcI, seqP, stepV]
@[wps] theorem vc_i64extU {a} : vcL T (.b .i64extU :: is) (.i32 a :: stk) loc P = vcL T is (.i64 (a.setWidth 64) :: stk) loc P := by simp only [vcL, vcI, seqP, stepV]
@[wps] theorem vc_i64extS {a} : vcL T (.b .i64extS :: is) (.i32 a :: stk) loc P = vcL T is (.i64 (a.signExtend 64) :: stk) loc P := by simp only [vcL, vcI, seqP, stepV]
@[wps] theorem vc_anyTrue {a} : vcL T (.b .v128anyTrue :: is) (.v128 a :: stk) loc P = vcL T is (.i32 (b32 (a ≠ 0#128)) :: stk) loc P := by simp only [vcL, vcI, seqP, stepV]
@[wps] theorem vc_drop {v} : vcL T (.b .drop :: is) (v :: stk) loc P = vcL T is stk loc P := by simp only [vcL, vcI, seqP, stepV]
@[wps] theorem vc_select32 {a b c} : vcL T (.b .select :: is) (.i32 c :: .i32 b :: .i32 a :: stk) loc P = vcL T is (.i32 (if c = 0#32 then b else a) :: stk) loc P := by
  simp only [vcL, vcI, seqP, stepV]; split <;> rfl
@[wps] theorem vc_select64 {a b c} : vcL T (.b .select :: is) (.i32 c :: .i64 b :: .i64 a :: stk) loc P = vcL T is (.i64 (if c = 0#32 then b else a) :: stk) loc P := by
  simp only [vcL, vcI, seqP, stepV]; split <;> rfl
@[wps] theorem vc_localGet {n} (h : n < loc.length) : vcL T (.b (.localGet n) :: is) stk loc P = vcL T is (nth loc n :: stk) loc P := by
  simp only [vcL, vcI, seqP, stepV, h, forall_const]
@[wps] theorem vc_localSet {n v} : vcL T (.b (.localSet n) :: is) (v :: stk) loc P = vcL T is stk (loc.set n v) P := by simp only [vcL, vcI, seqP, stepV]
@[wps] theorem vc_localTee {n v} : vcL T (.b (.localTee n) :: is) (v :: stk) loc P = vcL T is (v :: stk) (loc.set n v) P := by simp only [vcL, vcI, seqP, stepV]
@[wps] theorem vc_g32get {x} : vcL T (.b (.global32Get x) :: is) stk loc P = (∀ v, vcL T is (.i32 v :: stk) loc P) := by simp only [vcL, vcI, seqP, stepV]
@[wps] theorem vc_g64get {x} : vcL T (.b (.global64Get x) :: is) stk loc P = (∀ v, vcL T is (.i64 v :: stk) loc P) := by simp only [vcL, vcI, seqP, stepV]
@[wps] theorem vc_g32set {x v} : vcL T (.b (.global32Set x) :: is) (.i32 v :: stk) loc P = vcL T is stk loc P := by simp only [vcL, vcI, seqP, stepV]
@[wps] theorem vc_g64set {x v} : vcL T (.b (.global64Set x) :: is) (.i64 v :: stk) loc P = vcL T is stk loc P := by simp only [vcL, vcI, seqP, stepV]
@[wps] theorem vc_i32load {n off a} : vcL T (.b (.i32load n off) :: is) (.i32 a :: stk) loc P = (∀ v, vcL T is (.i32 v :: stk) loc P) := by simp only [vcL, vcI, seqP, stepV]
@[wps] theorem vc_i64load {n off a} : vcL T (.b (.i64load n off) :: is) (.i32 a :: stk) loc P = (∀ v, vcL T is (.i64 v :: stk) loc P) := by simp only [vcL, vcI, seqP, stepV]
@[wps] theorem vc_v128load {off a} : vcL T (.b (.v128load off) :: is) (.i32 a :: stk) loc P = (∀ v, vcL T is (.v128 v :: stk) loc P) := by simp only [vcL, vcI, seqP, stepV]
@[wps] theorem vc_i32store {n off a v} : vcL T (.b (.i32store n off) :: is) (.i32 v :: .i32 a :: stk) loc P = vcL T is stk loc P := by simp only [vcL, vcI, seqP, stepV]
@[wps] theorem vc_i64store {n off a v} : vcL T (.b (.i64store n off) :: is) (.i64 v :: .i32 a :: stk) loc P = vcL T is stk loc P := by simp only [vcL, vcI, seqP, stepV]
@[wps] theorem vc_v128store {off a v} : vcL T (.b (.v128store off) :: is) (.v128 v :: .i32 a :: stk) loc P = vcL T is stk loc P := by simp only [vcL, vcI, seqP, stepV]
@[wps] theorem vc_memCopy {a b c} : vcL T (.b .memCopy :: is) (.i32 a :: .i32 b :: .i32 c :: stk) loc P = vcL T is stk loc P := by simp only [vcL, vcI, seqP, stepV]
@[wps] theorem vc_memFill {a b c} : vcL T (.b .memFill :: is) (.i32 a :: .i32 b :: .i32 c :: stk) loc P = vcL T is stk loc P := by simp only [vcL, vcI, seqP, stepV]
@[wps] theorem vc_swizzle {a b} : vcL T (.b .i8x16swizzle :: is) (.v128 a :: .v128 b :: stk) loc P = (∀ v, vcL T is (.v128 v :: stk) loc P) := by simp only [vcL, vcI, seqP, stepV]
@[wps] theorem vc_v128and {a b} : vcL T (.b .v128and :: is) (.v128 b :: .v128 a :: stk) loc P = vcL T is (.v128 (a &&& b) :: stk) loc P := by simp only [vcL, vcI, seqP, stepV]
@[wps] theorem vc_v128xor {a b} : vcL T (.b .v128xor :: is) (.v128 b :: .v128 a :: stk) loc P = vcL T is (.v128 (a ^^^ b) :: stk) loc P := by simp only [vcL, vcI, seqP, stepV]
@[wps] theorem vc_extract {k a} : vcL T (.b (.i64x2extract k) :: is) (.v128 a :: stk) loc P = vcL T is (.i64 (BitVec.ofNat 64 (a.toNat / 2 ^ (64 * k))) :: stk) loc P := by simp only [vcL, vcI, seqP, stepV]
@[wps] theorem vc_nil : vcL T [] stk loc P = P none stk loc := by simp only [vcL]
@[wps] theorem vc_br {k} : vcL T (.br k :: is) stk loc P = P (some k) stk loc := by simp only [vcL, vcI, seqP]
@[wps] theorem vc_brIf {k c} : vcL T (.brIf k :: is) (.i32 c :: stk) loc P = if c = 0#32 then vcL T is stk loc P else P (some k) stk loc := by simp only [vcL, vcI, seqP]
@[wps] theorem vc_ret : vcL T (.ret :: is) stk loc P = True := by simp only [vcL, vcI]
@[wps] theorem vc_unreachable : vcL T (.unreachable :: is) stk loc P = True := by simp only [vcL, vcI]
@[wps] theorem vc_block {np nr body} : vcL T (.block np nr body :: is) stk loc P = vcL T body (stk.take np) loc (closeP nr (stk.drop np) (seqP (fun s l => vcL T is s l P) P)) := by
  simp only [vcL, vcI]
@[wps] theorem vc_ite {np nr t e c} : vcL T (.ite np nr t e :: is) (.i32 c :: stk) loc P =
    if c = 0#32 then vcL T e (stk.take np) loc (closeP nr (stk.drop np) (seqP (fun s l => vcL T is s l P) P))
    else vcL T t (stk.take np) loc (closeP nr (stk.drop np) (seqP (fun s l => vcL T is s l P) P)) := by
  simp only [vcL, vcI]
theorem vc_loop {nr body} (I : List Val → Prop) (μ : List Val → Nat) (h0 : I loc)
    (h : ∀ l, I l → vcL T body [] l (loopP (fun l' => I l' ∧ μ l' < μ l) stk (seqP (fun s l => vcL T is s l P) P))) :
    vcL T (.loop 0 nr body :: is) stk loc P := by
  simp only [vcL, vcI]; exact ⟨I, μ, trivial, h0, h⟩
theorem vc_call {f ps rs} (hs : stdSig f = some (ps, rs)) (hT : T f) (ha : tys (stk.take ps.length) = ps.reverse)
    (h : ∀ vs, tys vs = rs → vcL T is (vs.reverse ++ stk.drop ps.length) loc P) : vcL T (.call f :: is) stk loc P := by
  simp only [vcL, vcI, hs, seqP]; exact ⟨hT, ha, h⟩
theorem vc_callIndirect {ps rs c} (hT : ∀ k f, stdTable k = some f → stdSig f = some (ps, rs) → T f)
    (ha : tys (stk.take ps.length) = ps.reverse)
    (h : ∀ vs, tys vs = rs → vcL T is (vs.reverse ++ stk.drop ps.length) loc P) :
    vcL T (.callIndirect ps rs :: is) (.i32 c :: stk) loc P := by
  simp only [vcL, vcI, seqP]; exact ⟨hT, ha, h⟩
@[wps] theorem closeP_none {nr rest} {P : Option Nat → List Val → List Val → Prop} {s l} : closeP nr rest P none s l = P none (s ++ rest) l := rfl
@[wps] theorem closeP_0 {nr rest} {P : Option Nat → List Val → List Val → Prop} {s l} : closeP nr rest P (some 0) s l = P none (s.take nr ++ rest) l := rfl
@[wps] theorem closeP_1 {nr rest} {P : Option Nat → List Val → List Val → Prop} {s l} : closeP nr rest P (some 1) s l = P (some 0) s l := rfl
@[wps] theorem closeP_2 {nr rest} {P : Option Nat → List Val → List Val → Prop} {s l} : closeP nr rest P (some 2) s l = P (some 1) s l := rfl
@[wps] theorem closeP_3 {nr rest} {P : Option Nat → List Val → List Val → Prop} {s l} : closeP nr rest P (some 3) s l = P (some 2) s l := rfl
@[wps] theorem closeP_4 {nr rest} {P : Option Nat → List Val → List Val → Prop} {s l} : closeP nr rest P (some 4) s l = P (some 3) s l := rfl
@[wps] theorem closeP_5 {nr rest} {P : Option Nat → List Val → List Val → Prop} {s l} : closeP nr rest P (some 5) s l = P (some 4) s l := rfl
@[wps] theorem loopP_none {I rest} {P : Option Nat → List Val → List Val → Prop} {s l} : loopP I rest P none s l = P none (s ++ rest) l := rfl
@[wps] theorem loopP_0 {I rest} {P : Option Nat → List Val → List Val → Prop} {s l} : loopP I rest P (some 0) s l = I l := rfl
@[wps] theorem loopP_1 {I rest} {P : Option Nat → List Val → List Val → Prop} {s l} : loopP I rest P (some 1) s l = P (some 0) s l := rfl
@[wps] theorem loopP_2 {I rest} {P : Option Nat → List Val → List Val → Prop} {s l} : loopP I rest P (some 2) s l = P (some 1) s l := rfl
@[wps] theorem loopP_3 {I rest} {P : Option Nat → List Val → List Val → Prop} {s l} : loopP I rest P (some 3) s l = P (some 2) s l := rfl
@[wps] theorem loopP_4 {I rest} {P : Option Nat → List Val → List Val → Prop} {s l} : loopP I rest P (some 4) s l = P (some 3) s l := rfl
@[wps] theorem loopP_5 {I rest} {P : Option Nat → List Val → List Val → Prop} {s l} : loopP I rest P (some 5) s l = P (some 4) s l := rfl
@[wps] theorem seqP_none {K} {P : Option Nat → List Val → List Val → Prop} {s l} : seqP K P none s l = K s l := rfl
@[wps] theorem seqP_some {K k} {P : Option Nat → List Val → List Val → Prop} {s l} : seqP K P (some k) s l = P (some k) s l := rfl
end rules

/-- A library function terminates if its verification condition holds. -/
theorem terminates_of_vc (hV : M.Valid) {T : FId → Prop} (hT : ∀ f, T f → Terminates M f) (f : StdFn)
    (h : ∀ args, tys args = (stdFunc f).params →
      vcL T (stdFunc f).body [] (args ++ (stdFunc f).locals.map VT.zero) (fun _ _ _ => True)) : Terminates M (.std f) := by
  intro ps rs hs args g ha
  have hp : (stdFunc f).params = ps := by simp [Mod.sig, Mod.func] at hs; exact hs.1
  have hc : Call M (.std f) args g (fun _ => True) :=
    call_std.2 ((vcL_sound hT _ _ _ g _ (h args (by rw [ha, hp]))).mono fun _ _ => trivial)
  obtain ⟨n, r, h1, h2, -⟩ := hc
  refine ⟨r, (runs_iff_call h2).2 ⟨n, r, h1, h2, rfl⟩, ?_, h2⟩
  rw [← h1]
  exact invoke_typed hV n _ ps rs hs args ha g

/-- Host functions always return or abort. -/
theorem terminates_host (hV : M.Valid) (f : HostFn) : Terminates M (.host f) := by
  intro ps rs hs args g ha
  obtain ⟨r, hr⟩ : ∃ r, invoke M 0 (.host f) args g = r := ⟨_, rfl⟩
  have hall : ∀ n, invoke M n (.host f) args g = r := fun n => hr
  have ho : r ≠ .oof := by
    rw [← hr]; unfold invoke; simp only; split <;> simp
  exact ⟨r, ⟨0, fun m _ => hall m⟩, by rw [← hr]; exact invoke_typed hV 0 _ ps rs hs args ha g, ho⟩

mutual
/-- Code without loops that only calls functions of `S`. -/
def easyI (S : FId → Bool) : Instr → Bool
  | .b _ | .br _ | .brIf _ | .ret | .unreachable => true
  | .block _ _ is => easyL S is
  | .ite _ _ t e => easyL S t && easyL S e
  | .loop _ _ _ => false
  | .call f => S f && (stdSig f).isSome
  | .callIndirect _ _ => false
/-- The same for a sequence. -/
def easyL (S : FId → Bool) : List Instr → Bool
  | [] => true
  | i :: is => easyI S i && easyL S is
end

theorem Call.of_typed {f : FId} {is : List Instr} {stk loc : List Val} {g : Store σ} {ps rs : List VT} (hs : M.sig f = some (ps, rs))
    (hc : ∀ args g, Call M f args g (fun _ => True)) (h : ∀ s l g, WP M is s l g (fun _ => True)) :
    WP M (.call f :: is) stk loc g (fun _ => True) := by
  by_cases hl : ps.length ≤ stk.length
  · rw [wp_call hs hl]
    obtain ⟨n, r, h1, h2, -⟩ := hc (stk.take ps.length).reverse g
    refine ⟨n, r, h1, h2, ?_⟩
    cases r with
    | ret vs g' => exact h _ _ _
    | trap g' => trivial
    | stuck => trivial
    | oof => exact absurd rfl h2
  · cases f with
    | std f =>
      simp [Mod.sig, Mod.func] at hs
      exact (wp_end (r := .stuck) (by simp) fun n => by simp [exec, Mod.func, hs.1, show stk.length < ps.length by omega]).2 trivial
    | host f =>
      simp [Mod.sig] at hs
      exact (wp_end (r := .stuck) (by simp) fun n => by simp [exec, hs, show stk.length < ps.length by omega]).2 trivial
    | user f =>
      simp only [Mod.sig, Mod.func, Option.map_eq_some_iff, Prod.mk.injEq] at hs
      obtain ⟨d, hd, hp, -⟩ := hs
      exact (wp_end (r := .stuck) (by simp) fun n => by simp [exec, Mod.func, hd, hp, show stk.length < ps.length by omega]).2 trivial

mutual
theorem easyI_sound {S : FId → Bool} (hS : ∀ f, S f = true → ∀ args g, Call M f args g (fun _ => True)) :
    ∀ (i : Instr), easyI S i = true → ∀ (is : List Instr) (stk loc : List Val) (g : Store σ),
    (∀ s l g, WP M is s l g (fun _ => True)) → WP M (i :: is) stk loc g (fun _ => True)
  | .b op, _, is, stk, loc, g, hk => by
    rw [wp_b]
    cases he : stepB op stk loc g with
    | ok s l g' => exact hk s l g'
    | trap => trivial
    | stuck => trivial
  | .block np nr body, h, is, stk, loc, g, hk => by
    simp only [easyI] at h
    by_cases hl : np ≤ stk.length
    · rw [wp_block hl]
      exact easy_block hS body nr is _ _ loc g h hk
    · exact (wp_end (r := .stuck) (by simp) fun n => by simp only [exec, show stk.length < np by omega, if_true]).2 trivial
  | .loop np nr body, h, is, stk, loc, g, hk => by simp [easyI] at h
  | .ite np nr t e, h, is, stk, loc, g, hk => by
    simp only [easyI, Bool.and_eq_true] at h
    match stk with
    | .i32 c :: rest =>
      rw [wp_ite]
      by_cases hl : np ≤ rest.length
      · rw [wp_block hl]
        by_cases hc : c = 0#32
        · rw [if_pos hc]; exact easy_block hS e nr is _ _ loc g h.2 hk
        · rw [if_neg hc]; exact easy_block hS t nr is _ _ loc g h.1 hk
      · exact (wp_end (r := .stuck) (by simp) fun n => by simp only [exec, show rest.length < np by omega, if_true]).2 trivial
    | [] => exact (wp_end (r := .stuck) (by simp) fun n => by simp only [exec]).2 trivial
    | .i64 _ :: _ => exact (wp_end (r := .stuck) (by simp) fun n => by simp only [exec]).2 trivial
    | .v128 _ :: _ => exact (wp_end (r := .stuck) (by simp) fun n => by simp only [exec]).2 trivial
  | .br k, _, is, stk, loc, g, hk => wp_br.2 trivial
  | .brIf k, _, is, stk, loc, g, hk => by
    match stk with
    | .i32 c :: rest =>
      rw [wp_brIf]
      by_cases hc : c = 0#32
      · rw [if_pos hc]; exact hk _ _ _
      · rw [if_neg hc]; trivial
    | [] => exact (wp_end (r := .stuck) (by simp) fun n => by simp only [exec]).2 trivial
    | .i64 _ :: _ => exact (wp_end (r := .stuck) (by simp) fun n => by simp only [exec]).2 trivial
    | .v128 _ :: _ => exact (wp_end (r := .stuck) (by simp) fun n => by simp only [exec]).2 trivial
  | .ret, _, is, stk, loc, g, hk => wp_ret.2 trivial
  | .unreachable, _, is, stk, loc, g, hk => wp_unreachable.2 trivial
  | .call f, h, is, stk, loc, g, hk => by
    simp only [easyI, Bool.and_eq_true, Option.isSome_iff_exists] at h
    obtain ⟨h1, ⟨ps, rs⟩, h2⟩ := h
    exact Call.of_typed (sig_of_stdSig h2) (hS f h1) hk
  | .callIndirect ps rs, h, is, stk, loc, g, hk => by simp [easyI] at h
theorem easy_block {S : FId → Bool} (hS : ∀ f, S f = true → ∀ args g, Call M f args g (fun _ => True))
    (body : List Instr) (nr : Nat) (is : List Instr) (stk rest loc : List Val) (g : Store σ)
    (h : easyL S body = true) (hk : ∀ s l g, WP M is s l g (fun _ => True)) :
    WP M body stk loc g (blockK M nr is rest (fun _ => True)) := by
  obtain ⟨n, r, h1, h2, -⟩ := easyL_sound hS body h stk loc g
  refine ⟨n, r, h1, h2, ?_⟩
  cases r with
  | norm s l g => exact hk _ _ _
  | br k s l g =>
    cases k with
    | zero => exact hk _ _ _
    | succ k => trivial
  | ret s g => trivial
  | trap g => trivial
  | stuck => trivial
  | oof => exact absurd rfl h2
theorem easyL_sound {S : FId → Bool} (hS : ∀ f, S f = true → ∀ args g, Call M f args g (fun _ => True)) :
    ∀ (is : List Instr), easyL S is = true → ∀ (stk loc : List Val) (g : Store σ), WP M is stk loc g (fun _ => True)
  | [], _, stk, loc, g => wp_nil.2 trivial
  | i :: is, h, stk, loc, g => by
    simp only [easyL, Bool.and_eq_true] at h
    exact easyI_sound hS i h.1 is stk loc g fun s l g' => easyL_sound hS is h.2 s l g'
end

end Wasm
