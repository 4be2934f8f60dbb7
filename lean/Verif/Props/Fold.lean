import Verif.Props.Sequences

/-!
C37: `fold`, `filter` and `map` with functions of the contract, `fold` and `map` with built-in words too.
`sem K.fns k j args c s` is the outcome of a call of function `j` (below `k`) of the contract with the arguments
`args` in context `c` and contract state `s` (C33); `f.apply (sem K.fns k) args c s` is the same for a function `f`
that is a function of the contract (`.user j`) or a built-in word.
-/

namespace Props
open Wasm Spec Host Core Gen

/-! ### Specification -/

/-- `(fold f vs a)`: the function is called with each element and the result so far, first to last; the state
goes from `s` to `s'`. -/
inductive Folds (call : List Value → St → Out Value) : List Value → Value → St → Value → St → Prop
  | nil (a : Value) (s : St) : Folds call [] a s a s
  | cons {x : Value} {xs : List Value} {a b r : Value} {s s1 s2 : St} : call [x, a] s = .val b s1 → Folds call xs b s1 r s2 →
      Folds call (x :: xs) a s r s2

/-- The function is called with each row of arguments, first to last, with the results `us`. -/
inductive Results (call : List Value → St → Out Value) : List (List Value) → St → List Value → St → Prop
  | nil (s : St) : Results call [] s [] s
  | cons {r : List Value} {rs : List (List Value)} {u : Value} {us : List Value} {s s1 s2 : St} : call r s = .val u s1 →
      Results call rs s1 us s2 → Results call (r :: rs) s (u :: us) s2

theorem folds_elems {call : FSem} {f : Fn} {c : Cx} {vs : List Value} {a r : Value} {s s' : St}
    (h : Folds (fun as s => f.apply call as c s) vs a s r s') : foldElems call f c vs a s = .val r s' := by
  induction h with
  | nil => rfl
  | cons h1 _ ih => simp only [foldElems, h1, Out.bind, ih]

theorem results_rows {call : FSem} {f : Fn} {c : Cx} {rs : List (List Value)} {us : List Value} {s s' : St}
    (h : Results (fun as s => f.apply call as c s) rs s us s') : mapRows call f c rs s = .val us s' := by
  induction h with
  | nil => rfl
  | cons h1 _ ih => simp only [mapRows, h1, Out.bind, ih]

theorem results_mask {call : FSem} {f : Nat} {c : Cx} : ∀ {vs : List Value} {bs : List Bool} {s s' : St},
    Results (fun as s => call f as c s) (vs.map fun v => [v]) s (bs.map .bool) s' → maskElems call f c vs s = .val bs s'
  | [], [], _, _, .nil _ => rfl
  | v :: vs, b :: bs, _, _, .cons h1 h2 => by simp only [maskElems, h1, Out.bind, results_mask h2]

/-- The rows of arguments of `map`: there are as many as the shortest sequence has elements, and row `i` has
element `i` of each sequence. -/
theorem rows_spec : ∀ (vss : List (List Value)) (i : Nat) (r : List Value), vss ≠ [] →
    ((rows vss)[i]? = some r ↔ r.map some = vss.map (·[i]?))
  | [], _, _, h => absurd rfl h
  | [vs], i, r, _ => by
    simp only [rows, List.getElem?_map, Option.map_eq_some_iff, List.map_cons, List.map_nil]
    constructor
    · rintro ⟨v, h, rfl⟩; simp [h]
    · intro h
      cases r with
      | nil => simp at h
      | cons x r =>
        cases r with
        | nil => exact ⟨x, by simpa using h.symm, rfl⟩
        | cons => simp at h
  | vs :: us :: vss, i, r, _ => by
    have ih := fun r => rows_spec (us :: vss) i r (by simp)
    rw [rows, List.getElem?_zipWith]
    · cases r with
      | nil =>
        simp only [List.map_nil, List.map_cons]
        constructor
        · intro h; split at h <;> simp at h
        · intro h; cases h
      | cons x r =>
        rw [List.map_cons, List.map_cons, List.cons.injEq, ← ih r]
        constructor
        · intro h
          split at h
          · rename_i a b h1 h2
            simp only [Option.some.injEq, List.cons.injEq] at h
            rw [h1, h2, h.1, h.2]
            exact ⟨rfl, rfl⟩
          · cases h
        · rintro ⟨h1, h2⟩
          rw [← h1, h2]
    · simp

/-- The elements that `filter` keeps: those with a true result, in order. -/
theorem keep_spec : ∀ (bs : List Bool) (vs : List Value), keep bs vs = ((vs.zip bs).filter (·.2)).map Prod.fst
  | [], vs => by simp [keep]
  | b :: bs, [] => by cases b <;> simp [keep]
  | true :: bs, v :: vs => by simp [keep, keep_spec bs vs]
  | false :: bs, v :: vs => by simp [keep, keep_spec bs vs]

section
variable (K : Ctx) (M : Wasm.Mod World) (hC : ContractOk K) (hL : Linked K M) (k : Nat) (R : Ty) (wr er : Bool) (Δ : TEnv)
  (ρ : Env) (c : Cx) (s s1 s2 s3 : St)
include hC hL

/-- **C37**: `(fold f e i)` with any function of the contract or built-in word (`fnTy`: it is defined for an element and
the accumulator), if the result has no part in memory. Missing: results with parts in memory
(`C37_fold_counterexample`). -/
theorem C37_fold_partial (f : Fn) (S T : Ty) (hS : SeqOk S) (e i : Expr) (hte : wt K k wr R e er Δ S) (hti : wt K k wr R i er Δ T)
    (hT : hasInMem T = false) (hf : fnTy K k wr f [elemTy S, T] T) (v a r : Value) (vs : List Value)
    (he : eval (sem K.fns k) e ρ c s = .val v s1) (hv : seqElems v = some vs) (hi : eval (sem K.fns k) i ρ c s1 = .val a s2)
    (h : Folds (fun as s => f.apply (sem K.fns k) as c s) vs a s2 r s3) :
    Leaves K M k R wr Δ (.fold f S e i) T ρ c s r s3 := by
  refine leaves hC hL (er := er) ?_ ?_
  · simp only [wt]; exact ⟨hS, hte, hti, hT, hf⟩
  · simp only [eval, he, Out.bind, hi, hv, folds_elems h]

/-- **C37**: if a call of the function aborts, `(fold f e i)` aborts with the same error. -/
theorem C37_fold_error_partial (f : Fn) (S T : Ty) (hS : SeqOk S) (e i : Expr) (hte : wt K k wr R e er Δ S) (hti : wt K k wr R i er Δ T)
    (hT : hasInMem T = false) (hf : fnTy K k wr f [elemTy S, T] T) (v a b x : Value) (xs ys : List Value) (code : Nat)
    (he : eval (sem K.fns k) e ρ c s = .val v s1) (hv : seqElems v = some (xs ++ x :: ys)) (hi : eval (sem K.fns k) i ρ c s1 = .val a s2)
    (h : Folds (fun as s => f.apply (sem K.fns k) as c s) xs a s2 b s3) (hx : f.apply (sem K.fns k) [x, b] c s3 = .fail code) :
    Fails K M k R wr Δ (.fold f S e i) T ρ c s code := by
  refine fails hC hL (er := er) ?_ ?_
  · simp only [wt]; exact ⟨hS, hte, hti, hT, hf⟩
  · simp only [eval, he, Out.bind, hi, hv]
    clear he hi hv
    induction h with
    | nil => simp only [List.nil_append, foldElems, hx, Out.bind]
    | cons h1 _ ih => simp only [List.cons_append, foldElems, h1, Out.bind]; exact ih hx

/-- **C37**: `(map f e1 e2 …)` with any function of the contract or built-in word whose result has no part in memory is
the list of the results for the rows of arguments (`rows_spec`). Missing: results with parts in memory; for functions of
the contract, a first sequence that is a list and that the compiler generates with the type it makes up for it
(`C37_map_counterexample`). -/
theorem C37_map_partial (f : Fn) (E : Ty) (m : Nat) (hS : SeqOk (.list m E)) (es : Exprs) (hne : es ≠ .nil)
    (hts : wtMap K k wr R es (isUser f) er Δ) (hT : hasInMem E = false) (hm : ∃ S ∈ Gen.tys es, maxLen S ≤ m)
    (hf : fnTy K k wr f ((Gen.tys es).map elemTy) E) (vs us : List Value) (vss : List (List Value))
    (he : evals (sem K.fns k) es ρ c s = .val vs s1) (hv : vs.mapM seqElems = some vss)
    (h : Results (fun as s => f.apply (sem K.fns k) as c s) (rows vss) s1 us s2) :
    Leaves K M k R wr Δ (.map f es) (.list m E) ρ c s (.list us) s2 := by
  refine leaves hC hL (er := er) ?_ ?_
  · simp only [wt]; exact ⟨m, E, rfl, hS, hT, hne, hts, hm, hf⟩
  · simp only [eval, he, Out.bind, hv, results_rows h]

/-- **C37**: `(fold + e a)` on a list of unsigned integers is their sum with `a`; it aborts with an arithmetic overflow
if the sum is not below 2^128. -/
theorem C37_fold_sum (m : Nat) (hS : SeqOk (.list m .uint)) (e : Expr) (hte : wt K k wr R e er Δ (.list m .uint)) (a : Nat) (ha : a < 2 ^ 128)
    (ns : List Nat) (he : eval (sem K.fns k) e ρ c s = .val (.list (ns.map .uint)) s1) :
    (a + ns.sum < 2 ^ 128 → Leaves K M k R wr Δ (.fold (.nary .add) (.list m .uint) e (.lit (.uint a))) .uint ρ c s (.uint (a + ns.sum)) s1) ∧
    (2 ^ 128 ≤ a + ns.sum → Fails K M k R wr Δ (.fold (.nary .add) (.list m .uint) e (.lit (.uint a))) .uint ρ c s eOverflow) := by
  have hlit : wt K k wr R (.lit (.uint a)) er Δ .uint := by
    simp only [wt, LitTy, HasType, LitIn, IsUInt, and_true, true_and]; exact ha
  have hty : wt K k wr R (.fold (.nary .add) (.list m .uint) e (.lit (.uint a))) er Δ .uint := by
    simp only [wt]; exact ⟨hS, hte, hlit, rfl, .inr rfl, by simp, by simp [elemTy]⟩
  have h : ∀ (ns : List Nat) (a : Nat),
      (a + ns.sum < 2 ^ 128 → foldElems (sem K.fns k) (.nary .add) c (ns.map .uint) (.uint a) s1 = .val (.uint (a + ns.sum)) s1) ∧
      (a < 2 ^ 128 → 2 ^ 128 ≤ a + ns.sum → foldElems (sem K.fns k) (.nary .add) c (ns.map .uint) (.uint a) s1 = .fail eOverflow) := by
    intro ns
    induction ns with
    | nil =>
      intro a
      simp only [List.map_nil, foldElems, List.sum_nil, Nat.add_zero]
      exact ⟨fun _ => trivial, fun h h' => absurd h (Nat.not_lt.2 h')⟩
    | cons x ns ih =>
      intro a
      simp only [List.map_cons, foldElems, Fn.apply, NOp.eval, NOp.fold, NOp.bin, List.sum_cons]
      rw [show a + (x + ns.sum) = x + a + ns.sum by omega]
      by_cases hx : x + a < 2 ^ 128
      · have : IsUInt (x + a) := hx
        simp only [this, if_true, Ans.out, Out.bind]
        exact ⟨(ih _).1, fun _ => (ih _).2 hx⟩
      · have : ¬ IsUInt (x + a) := hx
        simp only [this, if_false, Ans.out, Out.bind]
        exact ⟨fun h => absurd (Nat.lt_of_le_of_lt (Nat.le_add_right _ _) h) hx, fun _ _ => trivial⟩
  constructor
  · intro hs
    refine leaves hC hL (er := er) hty ?_
    simp only [eval, he, Out.bind, seqElems, (h ns a).1 hs]
  · intro hs
    refine fails hC hL (er := er) hty ?_
    simp only [eval, he, Out.bind, seqElems, (h ns a).2 ha hs]

/-- **C37**: `(fold and e a)` and `(fold or e a)` on a list of booleans. -/
theorem C37_fold_bools (m : Nat) (hS : SeqOk (.list m .bool)) (e : Expr) (hte : wt K k wr R e er Δ (.list m .bool)) (a : Bool)
    (bs : List Bool) (he : eval (sem K.fns k) e ρ c s = .val (.list (bs.map .bool)) s1) :
    Leaves K M k R wr Δ (.fold .and_ (.list m .bool) e (.lit (.bool a))) .bool ρ c s (.bool (a && bs.all id)) s1 ∧
    Leaves K M k R wr Δ (.fold .or_ (.list m .bool) e (.lit (.bool a))) .bool ρ c s (.bool (a || bs.any id)) s1 := by
  have hlit : wt K k wr R (.lit (.bool a)) er Δ .bool := by
    simp only [wt, LitTy, HasType, LitIn, and_true]
  have hty : ∀ f, f = .and_ ∨ f = .or_ → wt K k wr R (.fold f (.list m .bool) e (.lit (.bool a))) er Δ .bool := by
    rintro f (rfl | rfl) <;> simp only [wt] <;> exact ⟨hS, hte, hlit, rfl, rfl, by simp, by simp [elemTy]⟩
  have h1 : ∀ (bs : List Bool) (a : Bool), foldElems (sem K.fns k) .and_ c (bs.map .bool) (.bool a) s1 = .val (.bool (a && bs.all id)) s1 := by
    intro bs
    induction bs with
    | nil => intro a; simp [foldElems]
    | cons b bs ih =>
      intro a
      simp only [List.map_cons, foldElems, Fn.apply, bools, Option.map_some, Out.bind, ih]
      simp [Bool.and_left_comm, Bool.and_assoc]
  have h2 : ∀ (bs : List Bool) (a : Bool), foldElems (sem K.fns k) .or_ c (bs.map .bool) (.bool a) s1 = .val (.bool (a || bs.any id)) s1 := by
    intro bs
    induction bs with
    | nil => intro a; simp [foldElems]
    | cons b bs ih =>
      intro a
      simp only [List.map_cons, foldElems, Fn.apply, bools, Option.map_some, Out.bind, ih]
      simp [Bool.or_left_comm, Bool.or_assoc]
  exact ⟨leaves hC hL (er := er) (hty _ (.inl rfl)) (by simp only [eval, he, Out.bind, seqElems, h1]),
    leaves hC hL (er := er) (hty _ (.inr rfl)) (by simp only [eval, he, Out.bind, seqElems, h2])⟩

/-- **C37**: `(filter f e)` on a nonempty sequence, with a private function, is the sequence of those elements for which
the function is true. (See `keep_spec`.) Missing: read-only functions; on an empty sequence the function is called
nevertheless (`C37_filter_counterexample`). -/
theorem C37_filter_partial (j : Nat) (hj : j < k) (f : FunDef) (hf : K.fns[j]? = some f) (hw : f.writes = true → wr = true) (S : Ty) (hS : SeqOk S) (e : Expr) (hte : wt K k wr R e er Δ S) (hk : f.kind = .priv)
    (hp : f.params.map Prod.snd = [elemTy S]) (hr : f.ret = .bool) (v : Value) (vs : List Value) (bs : List Bool)
    (he : eval (sem K.fns k) e ρ c s = .val v s1) (hv : seqElems v = some vs) (hne : vs ≠ [])
    (h : Results (fun as s => sem K.fns k j as c s) (vs.map fun v => [v]) s1 (bs.map .bool) s2) :
    Leaves K M k R wr Δ (.filter j e) S ρ c s (seqKeep bs v) s2 ∧ seqElems (seqKeep bs v) = some (keep bs vs) := by
  refine ⟨leaves hC hL (er := er) ?_ ?_, seqKeep_elems hv bs⟩
  · simp only [wt]; exact ⟨hS, hte, hj, f, hf, hk, hp, hr, hw⟩
  · simp only [eval, he, Out.bind, hv]
    cases vs with
    | nil => exact absurd rfl hne
    | cons x xs => simp only [results_mask h]


end

/-! ### A concrete case

```
(define-private (add (x uint) (a uint)) (+ x a))
(define-private (big (x uint)) (> x u1))
(define-private (f) (fold add (filter big (map add (list u1 u2) (list u5 u0 u7))) u3))
```
-/

def foX : Name := [120#8]
def foA : Name := [97#8]

def foAdd : FunDef := ⟨[(foX, .uint), (foA, .uint)], .uint, .priv, false,
  .nary .add (.cons .uint (.var foX) (.cons .uint (.var foA) .nil))⟩
def foBig : FunDef := ⟨[(foX, .uint)], .bool, .priv, false,
  .prim .gt (.cons .uint (.var foX) (.cons .uint (.lit (.uint 1)) .nil))⟩

def foU (n : Nat) : Expr := .lit (.uint n)
/-- `(list u5 u0 u7)` and `(list u1 u2)`. -/
def foL2 : Expr := .list (.cons .uint (foU 5) (.cons .uint (foU 0) (.cons .uint (foU 7) .nil)))
def foL1 : Expr := .list (.cons .uint (foU 1) (.cons .uint (foU 2) .nil))
def foMap : Expr := .map (.user 0) (.cons (.list 2 .uint) foL1 (.cons (.list 3 .uint) foL2 .nil))
def foF : FunDef := ⟨[], .uint, .priv, false, .fold (.user 0) (.list 2 .uint) (.filter 1 foMap) (foU 3)⟩

def foK : Ctx := ⟨[foAdd, foBig, foF], fun _ => 0, [], fun _ => none, fun _ => none, fun _ => false, 0⟩

theorem foU_wt (n : Nat) (hn : n < 2 ^ 128) (k : Nat) : wt foK k false .uint (foU n) true [] .uint := by
  simp only [foU, wt, LitTy, HasType, LitIn, IsUInt, and_true, true_and]; exact hn

theorem foSeq (m : Nat) (hm : m ≤ 2 ^ 20) : SeqOk (.list m .uint) := by
  simp [SeqOk, isSeq, Ty.WF, maxLen, Gen.unit, typeSize]; exact hm

theorem foMap_wt : wtMap foK 2 false .uint (.cons (.list 2 .uint) foL1 (.cons (.list 3 .uint) foL2 .nil)) true true [] := by
  simp only [wtMap]
  refine ⟨foSeq 2 (by decide), by decide, .inr ⟨trivial, foSeq 16 (by decide), ?_, _, rfl, by decide⟩,
    foSeq 3 (by decide), by decide, .inl ⟨?_, fun h => by cases h⟩, trivial⟩
  · show wt foK 2 false .uint foL1 true [] (.list 16 .uint)
    simp only [foL1, wt, wts]
    exact ⟨16, .uint, rfl, by decide, ⟨foU_wt 1 (by decide) 2, foU_wt 2 (by decide) 2, trivial⟩, by simp [Gen.tys]⟩
  · simp only [foL2, wt, wts]
    exact ⟨3, .uint, rfl, by decide, ⟨foU_wt 5 (by decide) 2, foU_wt 0 (by decide) 2, foU_wt 7 (by decide) 2, trivial⟩, by simp [Gen.tys]⟩

theorem foMap_ty : wt foK 2 false .uint foMap true [] (.list 2 .uint) := by
  simp only [foMap, wt]
  exact ⟨2, .uint, rfl, foSeq 2 (by decide), rfl, by simp, foMap_wt, ⟨.list 2 .uint, by simp [Gen.tys], by simp [maxLen]⟩,
    by decide, foAdd, rfl, rfl, rfl, by simp [foAdd]⟩

theorem foFilter_ty : wt foK 2 false .uint (.filter 1 foMap) true [] (.list 2 .uint) := by
  simp only [wt]
  exact ⟨foSeq 2 (by decide), foMap_ty, by decide, foBig, rfl, rfl, rfl, rfl, by simp [foBig]⟩

theorem fo_ok : ContractOk foK where
  fns k f h := by
    match k, h with
    | 0, h =>
      obtain rfl : foAdd = f := Option.some.inj h
      refine ⟨?_, by decide, by simp [foAdd], by simp [foAdd]⟩
      simp [foAdd, foX, foA, wt, wts, IntTy, Gen.tys, look, Simples, Fit.refl]
    | 1, h =>
      obtain rfl : foBig = f := Option.some.inj h
      refine ⟨?_, by decide, by simp [foBig], by simp [foBig]⟩
      simp [foBig, foX, wt, wts, primTy, CmpTy, IntTy, Gen.tys, look, LitTy, LitIn, HasType, IsUInt, Fit.refl]
    | 2, h =>
      obtain rfl : foF = f := Option.some.inj h
      refine ⟨?_, by simp [foF], by simp [foF], by simp [foF]⟩
      show wt foK 2 false .uint (.fold (.user 0) (.list 2 .uint) (.filter 1 foMap) (foU 3)) true [] .uint
      simp only [wt]
      exact ⟨foSeq 2 (by decide), foFilter_ty, foU_wt 3 (by decide) 2, rfl, by decide, foAdd, rfl, rfl, rfl, by simp [foAdd]⟩
    | k + 3, h => simp [foK] at h
  vars x T h := by simp [foK] at h
  maps x D V h := by simp [foK] at h

theorem fo_add (x a : Nat) (h : x + a < 2 ^ 128) (c : Cx) (s : St) : sem foK.fns 2 0 [.uint x, .uint a] c s = .val (.uint (x + a)) s := by
  have : IsUInt (x + a) := h
  rw [sem_lt foK.fns (by omega) foAdd rfl, FunDef.call]
  simp [foAdd, foX, foA, FunDef.run, eval, evals, Env.get, Out.bind, NOp.eval, NOp.fold, NOp.bin, this, Ans.out, Out.body]

theorem fo_big (x : Nat) (c : Cx) (s : St) : sem foK.fns 2 1 [.uint x] c s = .val (.bool (decide (1 < x))) s := by
  rw [sem_lt foK.fns (by omega) foBig rfl, FunDef.call]
  simp [foBig, foX, FunDef.run, eval, evals, Env.get, Out.bind, Prim.eval, Core.cmp, Ans.out, Out.body]

theorem fo_lists (c : Cx) (s : St) : evals (sem foK.fns 2) (.cons (.list 2 .uint) foL1 (.cons (.list 3 .uint) foL2 .nil)) [] c s =
    .val [.list [.uint 1, .uint 2], .list [.uint 5, .uint 0, .uint 7]] s := by
  simp [evals, foL1, foL2, foU, eval, Out.bind]

/-- `(map add (list u1 u2) (list u5 u0 u7))` is `(list u6 u2)`. -/
example (c : Cx) (s : St) : Leaves foK (moduleOf foK) 2 .uint false [] foMap (.list 2 .uint) [] c s (.list [.uint 6, .uint 2]) s :=
  C37_map_partial foK (moduleOf foK) fo_ok (linked_moduleOf _) 2 .uint false true [] [] c s s s (.user 0)
    .uint 2 (foSeq 2 (by decide)) _ (by simp) foMap_wt rfl ⟨.list 2 .uint, by simp [Gen.tys], by simp [maxLen]⟩ ⟨by decide, foAdd, rfl, rfl, rfl, by simp [foAdd]⟩ _ _
    [[.uint 1, .uint 2], [.uint 5, .uint 0, .uint 7]] (fo_lists c s) rfl
    (.cons (fo_add 1 5 (by decide) c s) (.cons (fo_add 2 0 (by decide) c s) (.nil s)))

theorem fo_map (c : Cx) (s : St) : eval (sem foK.fns 2) foMap [] c s = .val (.list [.uint 6, .uint 2]) s := by
  have h : mapRows (sem foK.fns 2) (.user 0) c [[.uint 1, .uint 5], [.uint 2, .uint 0]] s = .val [.uint 6, .uint 2] s :=
    results_rows (.cons (fo_add 1 5 (by decide) c s) (.cons (fo_add 2 0 (by decide) c s) (.nil s)))
  have hr : [Value.list [.uint 1, .uint 2], .list [.uint 5, .uint 0, .uint 7]].mapM seqElems =
    some [[.uint 1, .uint 2], [.uint 5, .uint 0, .uint 7]] := rfl
  have hr2 : rows [[.uint 1, .uint 2], [.uint 5, .uint 0, .uint 7]] = [[.uint 1, .uint 5], [.uint 2, .uint 0]] := rfl
  simp only [foMap, eval, fo_lists, Out.bind, hr, hr2, h]

/-- `(filter big (map ..))` is `(list u6 u2)`. -/
example (c : Cx) (s : St) : Leaves foK (moduleOf foK) 2 .uint false [] (.filter 1 foMap) (.list 2 .uint) [] c s (.list [.uint 6, .uint 2]) s :=
  (C37_filter_partial foK (moduleOf foK) fo_ok (linked_moduleOf _) 2 .uint false true [] [] c s s s 1 (by decide) foBig rfl (by simp [foBig])
    (.list 2 .uint) (foSeq 2 (by decide)) _ foMap_ty rfl rfl rfl _ _ [true, true] (fo_map c s) rfl (by simp)
    (.cons (fo_big 6 c s) (.cons (fo_big 2 c s) (.nil s)))).1

/-- `(fold add (map ..) u3)` is `u11`. -/
example (c : Cx) (s : St) : Leaves foK (moduleOf foK) 2 .uint false [] (.fold (.user 0) (.list 2 .uint) foMap (foU 3)) .uint [] c s (.uint 11) s :=
  C37_fold_partial foK (moduleOf foK) fo_ok (linked_moduleOf _) 2 .uint false true [] [] c s s s s (.user 0)
    (.list 2 .uint) .uint (foSeq 2 (by decide)) _ _ foMap_ty (foU_wt 3 (by decide) 2) rfl ⟨by decide, foAdd, rfl, rfl, rfl, by simp [foAdd]⟩ _ (.uint 3) _ _ (fo_map c s) rfl (by simp [foU, eval])
    (.cons (fo_add 6 3 (by decide) c s) (.cons (fo_add 2 9 (by decide) c s) (.nil _ s)))

/-- `(fold add (map ..) u340282366920938463463374607431768211450)` aborts. -/
example (c : Cx) (s : St) : Fails foK (moduleOf foK) 2 .uint false [] (.fold (.user 0) (.list 2 .uint) foMap (foU (2 ^ 128 - 6))) .uint [] c s eOverflow :=
  C37_fold_error_partial foK (moduleOf foK) fo_ok (linked_moduleOf _) 2 .uint false true [] [] c s s s s (.user 0)
    (.list 2 .uint) .uint (foSeq 2 (by decide)) _ _ foMap_ty (foU_wt _ (by decide) 2) rfl ⟨by decide, foAdd, rfl, rfl, rfl, by simp [foAdd]⟩ _ (.uint (2 ^ 128 - 6)) _ _ [] [.uint 2] _ (fo_map c s) rfl (by simp [foU, eval])
    (.nil _ _) (by
      rw [Fn.apply, sem_lt foK.fns (by omega) foAdd rfl, FunDef.call]
      simp [foAdd, foX, foA, FunDef.run, eval, evals, Env.get, Out.bind, NOp.eval, NOp.fold, NOp.bin, Ans.out, Out.body, IsUInt])

/-- `(fold + (map ..) u3)` is `u11`, `(fold + (map ..) u340282366920938463463374607431768211450)` aborts. -/
example (c : Cx) (s : St) :
    Leaves foK (moduleOf foK) 2 .uint false [] (.fold (.nary .add) (.list 2 .uint) foMap (foU 3)) .uint [] c s (.uint 11) s ∧
    Fails foK (moduleOf foK) 2 .uint false [] (.fold (.nary .add) (.list 2 .uint) foMap (foU (2 ^ 128 - 6))) .uint [] c s eOverflow :=
  ⟨(C37_fold_sum foK (moduleOf foK) fo_ok (linked_moduleOf _) 2 .uint false true [] [] c s s 2 (foSeq 2 (by decide)) _ foMap_ty 3 (by decide)
      [6, 2] (fo_map c s)).1 (by decide),
    (C37_fold_sum foK (moduleOf foK) fo_ok (linked_moduleOf _) 2 .uint false true [] [] c s s 2 (foSeq 2 (by decide)) _ foMap_ty (2 ^ 128 - 6) (by decide)
      [6, 2] (fo_map c s)).2 (by decide)⟩

/-- `(map + (list u1 u2) (list u5 u0 u7) (list u1 u2))` and `(map > (list u1 u2) (list u5 u0 u7))`. -/
def foSum : Exprs := .cons (.list 2 .uint) foL1 (.cons (.list 3 .uint) foL2 (.cons (.list 2 .uint) foL1 .nil))
def foGt : Exprs := .cons (.list 2 .uint) foL1 (.cons (.list 3 .uint) foL2 .nil)

theorem foL1_wt : wt foK 2 false .uint foL1 true [] (.list 2 .uint) := by
  simp only [foL1, wt, wts]
  exact ⟨2, .uint, rfl, by decide, ⟨foU_wt 1 (by decide) 2, foU_wt 2 (by decide) 2, trivial⟩, by simp [Gen.tys]⟩

theorem foL2_wt : wt foK 2 false .uint foL2 true [] (.list 3 .uint) := by
  simp only [foL2, wt, wts]
  exact ⟨3, .uint, rfl, by decide, ⟨foU_wt 5 (by decide) 2, foU_wt 0 (by decide) 2, foU_wt 7 (by decide) 2, trivial⟩, by simp [Gen.tys]⟩

theorem foSum_wt : wtMap foK 2 false .uint foSum false true [] := by
  simp only [foSum, wtMap]
  exact ⟨foSeq 2 (by decide), by decide, .inl ⟨foL1_wt, by simp⟩, foSeq 3 (by decide), by decide, .inl ⟨foL2_wt, by simp⟩,
    foSeq 2 (by decide), by decide, .inl ⟨foL1_wt, by simp⟩, trivial⟩

theorem foGt_wt : wtMap foK 2 false .uint foGt false true [] := by
  simp only [foGt, wtMap]
  exact ⟨foSeq 2 (by decide), by decide, .inl ⟨foL1_wt, by simp⟩, foSeq 3 (by decide), by decide, .inl ⟨foL2_wt, by simp⟩, trivial⟩

theorem fo_sum (x y z : Nat) (h : x + y + z < 2 ^ 128) (call : FSem) (c : Cx) (s : St) :
    Fn.apply call (.nary .add) [.uint x, .uint y, .uint z] c s = .val (.uint (x + y + z)) s := by
  have h1 : IsUInt (x + y) := Nat.lt_of_le_of_lt (Nat.le_add_right _ _) h
  have h2 : IsUInt (x + y + z) := h
  simp [Fn.apply, NOp.eval, NOp.fold, NOp.bin, h1, h2, Ans.out]

/-- They are `(list u7 u4)` and `(list false true)`. -/
example (c : Cx) (s : St) :
    Leaves foK (moduleOf foK) 2 .uint false [] (.map (.nary .add) foSum) (.list 2 .uint) [] c s (.list [.uint 7, .uint 4]) s ∧
    Leaves foK (moduleOf foK) 2 .uint false [] (.map (.word .gt) foGt) (.list 2 .bool) [] c s (.list [.bool false, .bool true]) s :=
  ⟨C37_map_partial foK (moduleOf foK) fo_ok (linked_moduleOf _) 2 .uint false true [] [] c s s s (.nary .add)
      .uint 2 (foSeq 2 (by decide)) foSum (by simp [foSum]) foSum_wt rfl ⟨.list 2 .uint, by simp [foSum, Gen.tys], by simp [maxLen]⟩
      ⟨.inr rfl, by simp [foSum, Gen.tys], by simp [foSum, Gen.tys, elemTy]⟩ [.list [.uint 1, .uint 2], .list [.uint 5, .uint 0, .uint 7], .list [.uint 1, .uint 2]] _
      [[.uint 1, .uint 2], [.uint 5, .uint 0, .uint 7], [.uint 1, .uint 2]] (by simp [foSum, evals, foL1, foL2, foU, eval, Out.bind]) rfl
      (.cons (fo_sum 1 5 1 (by decide) _ c s) (.cons (fo_sum 2 0 2 (by decide) _ c s) (.nil s))),
    C37_map_partial foK (moduleOf foK) fo_ok (linked_moduleOf _) 2 .uint false true [] [] c s s s (.word .gt)
      .bool 2 (by simp [SeqOk, isSeq, Ty.WF, maxLen, Gen.unit, typeSize]) foGt (by simp [foGt]) foGt_wt rfl ⟨.list 2 .uint, by simp [foGt, Gen.tys], by simp [maxLen]⟩
      ⟨trivial, by simp [primTy, foGt, Gen.tys, elemTy, CmpTy, IntTy]⟩ _ _
      [[.uint 1, .uint 2], [.uint 5, .uint 0, .uint 7]] (fo_lists c s) rfl
      (.cons (by simp [Fn.apply, Prim.eval, Core.cmp, Ans.out]; rfl) (.cons (by simp [Fn.apply, Prim.eval, Core.cmp, Ans.out]) (.nil s)))⟩

/-! ### Deviations

```
(define-private (bad (x (string-ascii 1))) (> (- u0 u1) u1))
(define-private (negate (x bool)) (not x))
(define-private (pick (x bool) (a (string-ascii 20))) (if x a "a"))
```
-/

def foBad : FunDef := ⟨[(foX, .ascii 1)], .bool, .priv, false,
  .prim .gt (.cons .uint (.nary .sub (.cons .uint (foU 0) (.cons .uint (foU 1) .nil))) (.cons .uint (foU 1) .nil))⟩
def foNot : FunDef := ⟨[(foX, .bool)], .bool, .priv, false, .prim .not_ (.cons .bool (.var foX) .nil)⟩
def foPick : FunDef := ⟨[(foX, .bool), (foA, .ascii 20)], .ascii 20, .priv, false,
  .ite (.var foX) (.var foA) (.lit (.ascii [97#8]))⟩

def foK2 : Ctx := ⟨[foBad, foNot, foPick], fun _ => 0, [[97#8], List.replicate 20 97#8], fun _ => none, fun _ => none, fun _ => false, 0⟩

/-- **C37**, a deviation: `(filter bad "")` aborts; in Clarity it is `""`, as there is no element for which `bad`
could be called. -/
theorem C37_filter_counterexample :
    ∃ g', Ends (moduleOf foK2) (compile foK2 .bool (.filter 0 (.lit (.ascii []))) (.ascii 3) 0 [] 0).is []
      [.i32 0#32, .i32 0#32, .i32 0#32, .i32 0#32] cxStore (.trap g') ∧ g'.g32 .errCode = 1#32 :=
  ⟨_, (ends_iff (by simp)).2 ⟨200, _, by rfl, by simp, rfl⟩, by rfl⟩

def foBools : List Bool → Exprs
  | [] => .nil
  | b :: bs => .cons .bool (.lit (.bool b)) (foBools bs)


/-- **C37**, a deviation: `(map negate (list true true true true true))` ends with `true` (the last of the
five 4-byte elements at 1016 is 1) instead of being five times `false`: the compiler gives the first list the type
of a list of 4 elements, and the fifth one is overwritten with the first result. -/
theorem C37_map_counterexample :
    ∃ loc' g', Ends (moduleOf foK2) (compile foK2 .bool (.map (.user 1) (.cons (.list 5 .bool) (.list (foBools [true, true, true, true, true])) .nil))
        (.list 5 .bool) 0 [] 0).is [] (List.replicate 13 (.i32 0#32)) cxStore (.norm [.i32 20#32, .i32 1016#32] loc' g') ∧
      bytesAt g'.mem 1016 20 = [0#8, 0#8, 0#8, 0#8, 0#8, 0#8, 0#8, 0#8, 0#8, 0#8, 0#8, 0#8, 0#8, 0#8, 0#8, 0#8, 1#8, 0#8, 0#8, 0#8] :=
  ⟨_, _, (ends_iff (by simp)).2 ⟨400, _, by rfl, by simp, rfl⟩, by rfl⟩

/-- A store with the literal `"a"` at 0 and 97 everywhere else. -/
def foStore : Store World := { cxStore with mem := ⟨65536, fun _ => 97#8, by decide⟩ }

def foPicks : Expr := .fold (.user 2) (.list 4 .bool) (.list (foBools [true, true, true, false])) (.lit (.ascii (List.replicate 20 97#8)))

theorem fo_pick (b : Bool) (a : List Byte) (c : Cx) (s : St) :
    sem foK2.fns 3 2 [.bool b, .ascii a] c s = .val (.ascii (if b then a else [97#8])) s := by
  rw [sem_lt foK2.fns (by omega) foPick rfl, FunDef.call]
  cases b <;> simp [foPick, foX, foA, FunDef.run, eval, Env.get, Out.bind, Out.body]

/-- In Clarity, `(fold pick (list true true true false) "aaaaaaaaaaaaaaaaaaaa")` is `"a"`. -/
theorem fo_picks (c : Cx) (s : St) : eval (sem foK2.fns 3) foPicks [] c s = .val (.ascii [97#8]) s := by
  have h : foldElems (sem foK2.fns 3) (.user 2) c [.bool true, .bool true, .bool true, .bool false] (.ascii (List.replicate 20 97#8)) s =
      .val (.ascii [97#8]) s :=
    folds_elems (.cons (fo_pick _ _ c s) (.cons (fo_pick _ _ c s) (.cons (fo_pick _ _ c s) (.cons (fo_pick _ _ c s) (.nil _ s)))))
  simp only [foPicks, foBools, eval, evals, Out.bind, seqElems, h]

/-- **C37**, a deviation: the compiled code gives a string of 20 bytes. The accumulator is copied to ever higher
addresses, beyond the memory reserved for one copy, and overwrites the elements of the list not yet read. -/
theorem C37_fold_counterexample :
    ∃ a loc' g', Ends (moduleOf foK2) (compile foK2 .bool foPicks (.ascii 20) 0 [] 0).is [] (List.replicate 13 (.i32 0#32)) foStore
      (.norm [.i32 20#32, .i32 a] loc' g') :=
  ⟨_, _, _, (ends_iff (by simp)).2 ⟨400, _, by rfl, by simp, rfl⟩⟩

end Props
