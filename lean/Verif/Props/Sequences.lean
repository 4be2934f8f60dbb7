import Verif.Props.CompileEx

/-!
C37: words on sequences (buffers, strings, lists). `seqElems v` are the elements of the sequence `v`
(those of a buffer or string are buffers and strings of length one); `elemTy S` is their type,
`maxLen S` the largest number of them. `SeqOk S`: `S` is a well-formed sequence type within the limits of
Clarity (at most 2^20 elements of less than 2^32 bytes).
-/

namespace Props
open Wasm Spec Host Core Gen

/-- The code of `e`, an expression of type `T` in function `k` of the contract `K`, started in any situation
(`Ok`) in which the variables `Δ` have the values `ρ`, the execution context is `c` and the contract
state is `s`, ends normally; it leaves on the stack the value `v`, and the contract state `s'`. -/
def Leaves (K : Ctx) (M : Wasm.Mod World) (k : Nat) (R : Ty) (wr : Bool) (Δ : TEnv) (e : Expr) (T : Ty) (ρ : Env) (c : Cx)
    (s : St) (v : Value) (s' : St) : Prop :=
  ∀ (H : Nat → Prop) (Γ : Scope) (n d : Nat) (w : World) (stk loc : List Val) (g : Store World),
    Ok ⟨K, M, need K k, R, H⟩ wr c w s Δ Γ ρ n (compile K R e T d Γ n).al (compile K R e T d Γ n).ls.length loc g →
    ∃ N ws loc' g', exec M N (compile K R e T d Γ n).is stk loc g = .norm (ws.reverse ++ stk) loc' g' ∧
      g'.host = put w s' ∧ Rep g'.mem ⟨sp g', H⟩ T v ws

theorem leaves {K : Ctx} {M : Wasm.Mod World} (hC : ContractOk K) (hL : Linked K M) {k : Nat} {R : Ty} {wr er : Bool} {Δ : TEnv}
    {e : Expr} {T : Ty} {ρ : Env} {c : Cx} {s s' : St} {v : Value} (ht : wt K k wr R e er Δ T)
    (he : eval (sem K.fns k) e ρ c s = .val v s') : Leaves K M k R wr Δ e T ρ c s v s' := by
  intro H Γ n d w stk loc g hok
  have h := good_expr (k := k) (wr := wr) e ⟨K, M, need K k, R, H⟩ (setup hC hL k R H) T er Δ Γ ρ n w c s d stk loc g ht hok
  rw [he] at h
  obtain ⟨N, r, h1, _, ws, loc', g', h2, _, h3, _, h4⟩ := h (by simp)
  exact ⟨N, ws, loc', g', by rw [← h1, h2] at *, h3, h4⟩

/-- The same, if the code aborts with the runtime error `code`. -/
def Fails (K : Ctx) (M : Wasm.Mod World) (k : Nat) (R : Ty) (wr : Bool) (Δ : TEnv) (e : Expr) (T : Ty) (ρ : Env) (c : Cx)
    (s : St) (code : Nat) : Prop :=
  ∀ (H : Nat → Prop) (Γ : Scope) (n d : Nat) (w : World) (stk loc : List Val) (g : Store World),
    Ok ⟨K, M, need K k, R, H⟩ wr c w s Δ Γ ρ n (compile K R e T d Γ n).al (compile K R e T d Γ n).ls.length loc g →
    ∃ N g', exec M N (compile K R e T d Γ n).is stk loc g = .trap g' ∧ g'.g32 .errCode = BitVec.ofNat 32 code

theorem fails {K : Ctx} {M : Wasm.Mod World} (hC : ContractOk K) (hL : Linked K M) {k : Nat} {R : Ty} {wr er : Bool} {Δ : TEnv}
    {e : Expr} {T : Ty} {ρ : Env} {c : Cx} {s : St} {code : Nat} (ht : wt K k wr R e er Δ T)
    (he : eval (sem K.fns k) e ρ c s = .fail code) : Fails K M k R wr Δ e T ρ c s code := by
  intro H Γ n d w stk loc g hok
  have h := good_expr (k := k) (wr := wr) e ⟨K, M, need K k, R, H⟩ (setup hC hL k R H) T er Δ Γ ρ n w c s d stk loc g ht hok
  rw [he] at h
  obtain ⟨N, r, h1, _, g', h2, h3⟩ := h (by simp)
  exact ⟨N, g', by rw [← h1, h2] at *, h3⟩

section
variable (K : Ctx) (M : Wasm.Mod World) (hC : ContractOk K) (hL : Linked K M) (k : Nat) (R : Ty) (wr er : Bool) (Δ : TEnv)
  (ρ : Env) (c : Cx) (s s1 s2 s3 : St) (S : Ty) (hS : SeqOk S) (e : Expr) (hte : wt K k wr R e er Δ S) (v : Value) (vs : List Value)
  (he : eval (sem K.fns k) e ρ c s = .val v s1) (hv : seqElems v = some vs)
include hC hL hS hte he hv

/-- **C37**: `(len e)` is the number of elements. -/
theorem C37_len : Leaves K M k R wr Δ (.prim .len (.cons S e .nil)) .uint ρ c s (.uint vs.length) s1 := by
  refine leaves hC hL (er := er) ?_ ?_
  · simp only [wt, wts, primTy, Gen.tys, and_true]; exact ⟨hte, S, hS, rfl⟩
  · simp [eval, evals, he, Out.bind, Prim.eval, hv, Ans.out]

/-- **C37**: `(as-max-len? e m)` is the sequence if it has at most `m` elements, and none otherwise. -/
theorem C37_as_max_len (m : Nat) (hm : m < 2 ^ 32) :
    Leaves K M k R wr Δ (.prim (.asMaxLen m) (.cons S e .nil)) (.opt (withMax m S)) ρ c s
      (if vs.length ≤ m then .some v else .none) s1 := by
  refine leaves hC hL (er := er) ?_ ?_
  · simp only [wt, wts, primTy, Gen.tys, and_true]; exact ⟨hte, S, hS, hm, rfl, rfl⟩
  · simp [eval, evals, he, Out.bind, Prim.eval, hv, Ans.out]

/-- **C37**: `(element-at? e i)` is the element at position `n`, for every `n < 2 ^ 128`; none exactly if
there is no such position. -/
theorem C37_element_at (i : Expr) (hti : wt K k wr R i er Δ .uint) (n : Nat)
    (hi : eval (sem K.fns k) i ρ c s1 = .val (.uint n) s2) :
    Leaves K M k R wr Δ (.elementAt S e i) (.opt (elemTy S)) ρ c s
      (match vs[n]? with
        | some x => .some x
        | none => .none) s2 := by
  refine leaves hC hL (er := er) ?_ ?_
  · simp only [wt]; exact ⟨hS, trivial, hte, hti⟩
  · simp only [eval, he, Out.bind, hi, Core.elementAt, hv, Ans.out]
    rfl

/-- **C37**: `(slice? e l r)` is the part from position `l` up to position `r`, none exactly if
`l ≤ r ≤ len` does not hold. Missing: the case that `r ≤ len` and `2 ^ 32 ≤ l`, in which the compiled code
may not give none (`C37_slice_counterexample`). -/
theorem C37_slice_partial (l r : Expr) (htl : wt K k wr R l er Δ .uint) (htr : wt K k wr R r er Δ .uint) (a b : Nat)
    (hl : eval (sem K.fns k) l ρ c s1 = .val (.uint a) s2) (hr : eval (sem K.fns k) r ρ c s2 = .val (.uint b) s3)
    (hd : ¬ (b ≤ vs.length ∧ 2 ^ 32 ≤ a)) :
    Leaves K M k R wr Δ (.slice S e l r) (.opt S) ρ c s
      (if a ≤ b ∧ b ≤ vs.length then .some (seqPart a (b - a) v) else .none) s3 := by
  refine leaves hC hL (er := er) ?_ ?_
  · simp only [wt]; exact ⟨hS, trivial, hte, htl, htr⟩
  · simp only [eval, he, Out.bind, hl, hr, sliceAns, hv, Ans.out, if_neg hd]

/-- **C37**: `(index-of? e x)` on a nonempty sequence, or with an item without effects, is the first position
at which there is an element equal to the item, and none exactly if there is none. Missing: on an empty
sequence the compiled code does not evaluate the item, so that its effects do not happen
(`C37_index_of_counterexample`). -/
theorem C37_index_of_partial (hc : comparable (elemTy S) = true) (x : Expr) (htx : wt K k wr R x er Δ (elemTy S)) (u : Value)
    (hx : eval (sem K.fns k) x ρ c s1 = .val u s2) (hd : vs ≠ [] ∨ s2 = s1) :
    (∀ i, vs[i]? = some u → (∀ j, j < i → vs[j]? ≠ some u) →
      Leaves K M k R wr Δ (.indexOf S e x) (.opt .uint) ρ c s (.some (.uint i)) s2) ∧
    (u ∉ vs → Leaves K M k R wr Δ (.indexOf S e x) (.opt .uint) ρ c s .none s2) := by
  have hev : eval (sem K.fns k) (.indexOf S e x) ρ c s = .val (match firstIndex u vs with
      | some i => .some (.uint i)
      | none => .none) s2 := by
    simp only [eval, he, Out.bind, hv]
    cases vs with
    | nil =>
      obtain rfl : s2 = s1 := hd.resolve_left (fun h => h rfl)
      dsimp only
      rw [if_pos ⟨u, hx⟩]
      rfl
    | cons v vs => simp only [hx]; rfl
  have hwt : wt K k wr R (.indexOf S e x) er Δ (.opt .uint) := by
    simp only [wt]; exact ⟨hS, hc, trivial, hte, htx⟩
  refine ⟨fun i h1 h2 => leaves hC hL hwt ?_, fun h => leaves hC hL hwt ?_⟩
  · rw [hev, firstIndex_some vs i h2 h1]
  · rw [hev, firstIndex_none vs fun j hj => h (List.mem_of_getElem? hj)]

/-- **C37**: `(replace-at? e i x)` is the sequence with `x` in place of the element at position `n`, for every
`n < 2 ^ 128`; none exactly if there is no such position. (An element of a buffer or string is a buffer or string
of length one.) Missing: for an empty buffer or string as replacement the result is the runtime error
`BadTypeConstruction` if the position exists (`C37_replace_at_empty`), and the compiled code gives that error,
instead of none, if it does not (`C37_replace_at_counterexample`). -/
theorem C37_replace_at_partial (i x : Expr) (hti : wt K k wr R i er Δ .uint) (htx : wt K k wr R x er Δ (elemTy S)) (n : Nat)
    (u y : Value) (hi : eval (sem K.fns k) i ρ c s1 = .val (.uint n) s2) (hx : eval (sem K.fns k) x ρ c s2 = .val u s3)
    (hy : seqSet n v u = some y) :
    Leaves K M k R wr Δ (.replaceAt S e i x) (.opt S) ρ c s (if n < vs.length then .some y else .none) s3 := by
  refine leaves hC hL (er := er) ?_ ?_
  · simp only [wt]; exact ⟨hS, trivial, hte, hti, htx⟩
  · simp only [eval, he, Out.bind, hi, hx, replaceAns, hv, hy, Ans.out]

/-- **C37**: a replacement that is not exactly one element gives the runtime error `BadTypeConstruction`. -/
theorem C37_replace_at_empty (i x : Expr) (hti : wt K k wr R i er Δ .uint) (htx : wt K k wr R x er Δ (elemTy S)) (n : Nat)
    (u : Value) (hi : eval (sem K.fns k) i ρ c s1 = .val (.uint n) s2) (hx : eval (sem K.fns k) x ρ c s2 = .val u s3)
    (hy : seqSet n v u = none) (hn : n < vs.length) :
    Fails K M k R wr Δ (.replaceAt S e i x) (.opt S) ρ c s 5 := by
  refine fails hC hL (er := er) ?_ ?_
  · simp only [wt]; exact ⟨hS, trivial, hte, hti, htx⟩
  · simp only [eval, he, Out.bind, hi, hx, replaceAns, hv, hy, Ans.out, if_pos hn]

/-- **C37**: `(concat e b)` is the one sequence followed by the other. `T` is the type of the result according to
the type checker. -/
theorem C37_concat_partial (b : Expr) (T : Ty) (u x : Value) (hST : S = T) (htb : wt K k wr R b er Δ S)
    (hb : eval (sem K.fns k) b ρ c s1 = .val u s2) (hx : seqCat v u = some x) (hT : HasType T x) :
    Leaves K M k R wr Δ (.concat T e b) T ρ c s x s2 := by
  subst hST
  refine leaves hC hL (er := er) ?_ ?_
  · simp only [wt]; exact ⟨hS, fun _ h => h, hte, htb⟩
  · simp only [eval, he, Out.bind, hb, hx, if_pos hT]

end

section
variable (K : Ctx) (M : Wasm.Mod World) (hC : ContractOk K) (hL : Linked K M) (k : Nat) (R : Ty) (wr er : Bool) (Δ : TEnv)
  (ρ : Env) (c : Cx) (s s1 s2 : St)
include hC hL

/-- **C37**: `(list e ...)` is the list of the values of the operands, in order, which are evaluated in that order
(`evals`). -/
theorem C37_list (E : Ty) (m : Nat) (es : Exprs) (hts : wts K k wr R es er Δ) (hE : ∀ U ∈ Gen.tys es, U = E)
    (hm : (Gen.tys es).length ≤ m) (vs : List Value) (he : evals (sem K.fns k) es ρ c s = .val vs s1) :
    Leaves K M k R wr Δ (.list es) (.list m E) ρ c s (.list vs) s1 := by
  refine leaves hC hL (er := er) ?_ ?_
  · simp only [wt]; exact ⟨m, E, rfl, hm, hts, hE⟩
  · simp only [eval, he, Out.bind]

/-- **C37**: `(append e x)` is the list `e` followed by the element `x`. -/
theorem C37_append (E : Ty) (m : Nat) (hS : SeqOk (.list (m + 1) E)) (e x : Expr) (hte : wt K k wr R e er Δ (.list m E))
    (htx : wt K k wr R x er Δ E) (vs : List Value) (u : Value) (he : eval (sem K.fns k) e ρ c s = .val (.list vs) s1)
    (hx : eval (sem K.fns k) x ρ c s1 = .val u s2) :
    Leaves K M k R wr Δ (.append e x) (.list (m + 1) E) ρ c s (.list (vs ++ [u])) s2 := by
  refine leaves hC hL (er := er) ?_ ?_
  · simp only [wt]; exact ⟨m, E, rfl, hS, hte, htx⟩
  · simp only [eval, he, Out.bind, hx]

end

/-! ### A concrete case -/

/-- The bytes of the string literal `"t"` are in the data segment of the contract `cxK`. -/
theorem seq_ok {al ll : Nat} (ha : al ≤ 100) {loc : List Val} (hl : ll ≤ loc.length) (M : Wasm.Mod World) (R : Ty) :
    Ok ⟨cxK, M, need cxK 0, R, fun _ => False⟩ true cxCx ledgerStore.host (cxSt 9) [] [] [] 0 al ll loc cxStore where
  cx := cx_ready.cx
  inv := ⟨cx_ready.host, cx_ready.st, cx_ready.lits, fun _ h => h.elim, by
    have h : sp cxStore = 1000 ∧ cxStore.mem.size = 65536 := by decide +kernel
    have h0 : need cxK 0 = 0 := rfl
    show sp cxStore + al + need cxK 0 ≤ _
    omega, cx_ready.small⟩
  env := fun x D h => by simp [look] at h
  locs := by omega

/-- `(element-at? "t" u0)` is `(some "t")` and `(element-at? "t" u18446744073709551616)` is `none`. -/
example : (∃ N ws loc' g', exec (moduleOf cxK) N (compile cxK cxR (.elementAt (.ascii 5) (.lit (.ascii [116#8])) (.lit (.uint 0)))
      (.opt (.ascii 1)) 0 [] 0).is [] [.i32 0#32, .i64 0#64, .i32 0#32] cxStore = .norm ws loc' g' ∧
      Rep g'.mem ⟨sp g', fun _ => False⟩ (.opt (.ascii 1)) (.some (.ascii [116#8])) ws.reverse) ∧
    (∃ N ws loc' g', exec (moduleOf cxK) N (compile cxK cxR (.elementAt (.ascii 5) (.lit (.ascii [116#8])) (.lit (.uint (2 ^ 64))))
      (.opt (.ascii 1)) 0 [] 0).is [] [.i32 0#32, .i64 0#64, .i32 0#32] cxStore = .norm ws loc' g' ∧
      Rep g'.mem ⟨sp g', fun _ => False⟩ (.opt (.ascii 1)) .none ws.reverse) := by
  have h : ∀ n, n < 2 ^ 128 → _ := fun n hn => C37_element_at cxK (moduleOf cxK) cx_ok (linked_moduleOf _) 0 cxR true true [] [] cxCx
    (cxSt 9) (cxSt 9) (cxSt 9) (.ascii 5) (by simp [SeqOk, isSeq, Ty.WF, maxLen, Gen.unit]) (.lit (.ascii [116#8]))
    (by simp [wt, LitTy, HasType, LitIn, cxK, cxT, asciiOk]) (.ascii [116#8]) [.ascii [116#8]]
    (by simp [eval]) rfl (.lit (.uint n)) (by simp only [wt, LitTy, HasType, LitIn, IsUInt, and_true, true_and]; exact hn) n (by simp [eval])
  constructor
  · obtain ⟨N, ws, loc', g', h1, _, h2⟩ := h 0 (by decide) (fun _ => False) [] 0 0 ledgerStore.host [] [.i32 0#32, .i64 0#64, .i32 0#32] cxStore
      (seq_ok (by decide) (by decide) _ _)
    exact ⟨N, ws.reverse, loc', g', by rw [List.append_nil] at h1; exact h1, by rw [List.reverse_reverse]; exact h2⟩
  · obtain ⟨N, ws, loc', g', h1, _, h2⟩ := h (2 ^ 64) (by decide) (fun _ => False) [] 0 0 ledgerStore.host [] [.i32 0#32, .i64 0#64, .i32 0#32] cxStore
      (seq_ok (by decide) (by decide) _ _)
    exact ⟨N, ws.reverse, loc', g', by rw [List.append_nil] at h1; exact h1, by rw [List.reverse_reverse]; exact h2⟩

/-- The literal `"t"`. Below: `(append (list "t") "t")`, `(concat "t" "t")`, `(replace-at? "t" u0 "t")`. -/
def seqT : Expr := .lit (.ascii [116#8])

theorem seqT_wt (er : Bool) (n : Nat) (hn : 1 ≤ n) : wt cxK 0 true cxR seqT er [] (.ascii n) := by
  simp [seqT, wt, LitTy, HasType, LitIn, cxK, cxT, asciiOk]; exact hn

example : Leaves cxK (moduleOf cxK) 0 cxR true [] (.append (.list (.cons (.ascii 1) seqT .nil)) seqT) (.list 2 (.ascii 1)) [] cxCx (cxSt 9)
    (.list [.ascii [116#8], .ascii [116#8]]) (cxSt 9) :=
  C37_append cxK (moduleOf cxK) cx_ok (linked_moduleOf _) 0 cxR true true [] [] cxCx (cxSt 9) (cxSt 9) (cxSt 9) (.ascii 1) 1
    (by simp [SeqOk, isSeq, Ty.WF, maxLen, Gen.unit, typeSize]) _ _
    (by simp only [wt, wts]; exact ⟨1, .ascii 1, rfl, by simp [Gen.tys], ⟨seqT_wt _ _ (by omega), trivial⟩, by simp [Gen.tys]⟩)
    (seqT_wt _ _ (by omega)) [.ascii [116#8]] (.ascii [116#8]) (by simp [eval, evals, seqT, Out.bind]) (by simp [eval, seqT])

example : Leaves cxK (moduleOf cxK) 0 cxR true [] (.concat (.ascii 2) seqT seqT) (.ascii 2) [] cxCx (cxSt 9)
    (.ascii [116#8, 116#8]) (cxSt 9) :=
  C37_concat_partial cxK (moduleOf cxK) cx_ok (linked_moduleOf _) 0 cxR true true [] [] cxCx (cxSt 9) (cxSt 9) (cxSt 9) (.ascii 2)
    (by simp [SeqOk, isSeq, Ty.WF, maxLen, Gen.unit]) seqT (seqT_wt _ _ (by omega)) (.ascii [116#8]) [.ascii [116#8]]
    (by simp [eval, seqT]) rfl seqT (.ascii 2) (.ascii [116#8]) _ rfl (seqT_wt _ _ (by omega)) (by simp [eval, seqT]) rfl
    (by simp [HasType, asciiOk])

example : Leaves cxK (moduleOf cxK) 0 cxR true [] (.replaceAt (.ascii 1) seqT (.lit (.uint 0)) seqT) (.opt (.ascii 1)) [] cxCx (cxSt 9)
    (.some (.ascii [116#8])) (cxSt 9) :=
  C37_replace_at_partial cxK (moduleOf cxK) cx_ok (linked_moduleOf _) 0 cxR true true [] [] cxCx (cxSt 9) (cxSt 9) (cxSt 9) (cxSt 9) (.ascii 1)
    (by simp [SeqOk, isSeq, Ty.WF, maxLen, Gen.unit]) seqT (seqT_wt _ _ (by omega)) (.ascii [116#8]) [.ascii [116#8]]
    (by simp [eval, seqT]) rfl (.lit (.uint 0)) seqT (by simp [wt, LitTy, HasType, LitIn, IsUInt]) (seqT_wt _ _ (by omega)) 0
    (.ascii [116#8]) (.ascii [116#8]) (by simp [eval]) (by simp [eval, seqT]) rfl

/-! ### Deviations -/

/-- A contract with the literal `"abc"` at address 0. -/
def seqK : Ctx := ⟨[], fun _ => 0, [[97#8, 98#8, 99#8]], fun _ => none, fun _ => none, fun _ => false, 0⟩

/-- `(slice? "abc" l r)`. -/
def seqSlice (l r : Nat) : List Instr :=
  (compile seqK .bool (.slice (.ascii 3) (.lit (.ascii [97#8, 98#8, 99#8])) (.lit (.uint l)) (.lit (.uint r))) (.opt (.ascii 3)) 0 [] 0).is

/-- The locals of this code. -/
def seqLocs : List Val := [.i64 0#64, .i32 0#32, .i64 0#64, .i64 0#64, .i32 0#32, .i64 0#64]

/-- **C37**, a deviation: `(slice? "abc" u18446744073709551616 u1)` gives the string of length 1 at address 0,
that is `(some "a")`, in Clarity it is none: the overflow flag of the left position is lost. -/
theorem C37_slice_counterexample {σ : Type} (M : Wasm.Mod σ) (g : Store σ) :
    ∃ loc', Ends M (seqSlice (2 ^ 64) 1) [] seqLocs g (.norm [.i32 1#32, .i32 0#32, .i32 1#32] loc' g) :=
  ⟨_, (ends_iff (by simp)).2 ⟨100, _, by rfl, by simp, rfl⟩⟩

/-- **C37**, a deviation: `(index-of? "" x)` gives none without evaluating the item, whatever it is: the code of
the item is not run even if it would abort. -/
theorem C37_index_of_counterexample {σ : Type} (M : Wasm.Mod σ) (g : Store σ) (K : Ctx) (R : Ty) (x : Expr) (loc : List Val)
    (hl : 3 ≤ loc.length) :
    ∃ loc', Ends M (compile K R (.indexOf (.ascii 3) (.lit (.ascii [])) x) (.opt .uint) 0 [] 0).is [] loc g
      (.norm [.i64 0#64, .i64 0#64, .i32 0#32] loc' g) := by
  simp only [compile, litCode, addr, lset, lget, c32, c64, List.cons_append, List.nil_append, List.length_nil, Nat.add_zero]
  refine ⟨((loc.set 2 (.i32 0#32)).set 0 (.i32 (BitVec.ofNat 32 (K.off [])))).set 1 (.i32 (BitVec.ofNat 32 (K.off []))), ?_⟩
  rw [ends_iff (by simp)]
  wpl
  simp

/-- `(replace-at? "abc" u5 "")`. -/
def seqReplace : List Instr :=
  (compile seqK .bool (.replaceAt (.ascii 3) (.lit (.ascii [97#8, 98#8, 99#8])) (.lit (.uint 5)) (.lit (.ascii []))) (.opt (.ascii 3)) 0 [] 0).is

/-- **C37**, a deviation: `(replace-at? "abc" u5 "")` aborts with the error 5 (`BadTypeConstruction`); in
Clarity it is none, as there is no position 5. -/
theorem C37_replace_at_counterexample (M : Wasm.Mod World) :
    ∃ g', Ends M seqReplace [] [.i32 0#32, .i32 0#32, .i32 0#32, .i32 0#32, .i64 0#64, .i32 0#32, .i32 0#32, .i32 0#32] cxStore
      (.trap g') ∧ g'.g32 .errCode = 5#32 :=
  ⟨_, (ends_iff (by simp)).2 ⟨100, _, by rfl, by simp, rfl⟩, by rfl⟩

end Props
