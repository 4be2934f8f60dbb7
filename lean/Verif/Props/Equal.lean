import Verif.Props.Compile

/-!
C35: `is-eq`. `Rep m b T v ws`: the Wasm values `ws`, with what they point to in the region `b` of the
memory `m`, represent the value `v` of type `T` (the payload of a `none`, and the other half of a
response, may be anything). `as.map (loc[·]?) = ws.map some`: the locals `as` hold `ws`.
-/

namespace Props
open Wasm Spec Host Core Gen

/-- **C35.** The comparison code of type `T`, on two values held in locals, ends and pushes 1 exactly if
the values are equal, and 0 exactly if they are not, however deep the type is nested and however long
the values are. It does not change memory, globals or host state, nor the locals of the first value or
any other local below `n`, except those of the second value. `comparable T`: there is no trait
reference in `T` (`is-eq` is not implemented for them, the contract is refused). -/
theorem C35_comparison {σ : Type} (M : Wasm.Mod σ) (T : Ty) (hc : comparable T = true) (hwf : T.WF) (b : Reg)
    (as bs : List Nat) (n : Nat) (stk loc : List Val) (g : Store σ) (v u : Value) (ws us : List Val)
    (hv : Rep g.mem b T v ws) (hu : Rep g.mem b T u us) (hb : b.hi ≤ g.mem.size)
    (has : as.map (loc[·]?) = ws.map some) (hbs : bs.map (loc[·]?) = us.map some)
    (hn : ∀ x ∈ as ++ bs, x < n) (hd : ∀ x ∈ as, x ∉ bs) (hnd : bs.Nodup)
    (hl : n + (equalCode T as bs n).2.length ≤ loc.length) :
    ∃ c loc', Ends M (equalCode T as bs n).1 stk loc g (.norm (.i32 c :: stk) loc' g) ∧
      (c = 1#32 ↔ v = u) ∧ (c = 0#32 ↔ v ≠ u) ∧ loc'.length = loc.length ∧
      ∀ i, i < n → i ∉ bs → loc'[i]? = loc[i]? := by
  obtain ⟨N, r, h1, h2, c, loc', rfl, h3, h4⟩ := wp_equal (M := M) (b := b) T as bs n stk loc g v u ws us hc hwf hv hu has hbs
    (fun x hx => hn x (by simp [hx])) (fun x hx => hn x (by simp [hx])) hd hnd hl hb
  refine ⟨c, loc', (ends_iff h2).2 ⟨N, _, h1, h2, rfl⟩, ?_, ?_, h4.1, h4.2⟩
  · rcases h3 with ⟨rfl, h⟩ | ⟨rfl, h⟩ <;> simp [h]
  · rcases h3 with ⟨rfl, h⟩ | ⟨rfl, h⟩ <;> simp [h]

/-- **C35**, for expressions: the code of `(is-eq e ..)`, at any place of function `k` of a well-typed
contract, with any number of operands of a common type `T`: if the operands evaluate (left to right) to
`vs`, it ends, the contract state is the one the operands leave, and the result on the stack is 1 exactly
if all the values are equal to the first one, and 0 otherwise. -/
theorem C35_is_eq (K : Ctx) (M : Wasm.Mod World) (hC : ContractOk K) (hL : Linked K M) (k : Nat)
    (R T : Ty) (H : Nat → Prop) (es : Exprs) (wr er : Bool) (Δ : TEnv) (Γ : Scope) (ρ : Env) (n d : Nat) (w : World)
    (c : Cx) (s s' : St) (stk loc : List Val) (g : Store World) (vs : List Value)
    (hT : comparable T = true) (hwf : T.WF) (ht : wts K k wr R es er Δ) (hes : ∀ U ∈ Gen.tys es, U = T) (hne : es ≠ .nil)
    (hok : Ok ⟨K, M, need K k, R, H⟩ wr c w s Δ Γ ρ n (compile K R (.isEq T es) .bool d Γ n).al
      (compile K R (.isEq T es) .bool d Γ n).ls.length loc g)
    (he : evals (sem K.fns k) es ρ c s = .val vs s') :
    ∃ N q loc' g', exec M N (compile K R (.isEq T es) .bool d Γ n).is stk loc g = .norm (.i32 q :: stk) loc' g' ∧
      g'.host = put w s' ∧ ((q = 1#32 ∧ ∀ u ∈ vs, vs.head? = some u) ∨ (q = 0#32 ∧ ∃ u ∈ vs, vs.head? ≠ some u)) := by
  have h := good_expr (k := k) (wr := wr) (.isEq T es) ⟨K, M, need K k, R, H⟩ (setup hC hL k R H) .bool er Δ Γ ρ n w c s d
    stk loc g (by simp only [wt]; exact ⟨trivial, hT, hwf, ht, hes, hne⟩) hok
  classical
  rw [show eval (sem K.fns k) (.isEq T es) ρ c s = .val (.bool (decide (AllEqual vs))) s' from by
    simp only [eval, he, Out.bind, Out.val.injEq, Value.bool.injEq, and_true]] at h
  obtain ⟨N, r, h1, _, us, loc', g', h2, _, h3, _, h4⟩ := h (by simp)
  simp only [IsRep, Rep] at h4
  obtain ⟨x, hx, rfl⟩ := h4
  rw [Value.bool.injEq] at hx
  subst hx
  refine ⟨N, if AllEqual vs then 1#32 else 0#32, loc', g', ?_, h3, ?_⟩
  · rw [← h1, h2] at *
    by_cases h : AllEqual vs <;> simp [h, encB] at *
  · by_cases h : AllEqual vs
    · left
      refine ⟨if_pos h, ?_⟩
      cases vs with
      | nil => simp
      | cons v vs =>
        intro u hu
        rcases List.mem_cons.1 hu with rfl | hu
        · rfl
        · rw [List.head?_cons, h u hu]
    · right
      refine ⟨if_neg h, ?_⟩
      cases vs with
      | nil => exact absurd trivial h
      | cons v vs =>
        simp only [AllEqual] at h
        push Not at h
        obtain ⟨u, hu, hne⟩ := h
        exact ⟨u, by simp [hu], by simpa using hne⟩

/-- A memory with two lists of two buffers: `(list 0x616263 0x)` at 0 and `(list 0x616264 0x)` at 32. -/
def eqMem : Mem where
  size := 65536
  byte i := ([16, 0, 0, 0, 3, 0, 0, 0, 0, 0, 0, 0, 0, 0, 0, 0, 97, 98, 99, 0, 0, 0, 0, 0, 0, 0, 0, 0, 0, 0, 0, 0,
    48, 0, 0, 0, 3, 0, 0, 0, 0, 0, 0, 0, 0, 0, 0, 0, 97, 98, 100] : List (BitVec 8)).getD i 0
  le := by decide

theorem eqMem_has {o l : Nat} (h : o + l ≤ 64) : (seg 0 64).Has o l := ⟨h, fun i _ _ (hi : i < 0) => by omega⟩

theorem eqMem_rep (o : BitVec 32) (x : BitVec 8)
    (h : (o, x) = (0#32, 99#8) ∨ (o, x) = (32#32, 100#8)) :
    Rep eqMem (seg 0 64) (.list 2 (.buff 3)) (.list [.buff [97, 98, x], .buff []]) [.i32 o, .i32 16#32] := by
  simp only [Rep]
  refine ⟨_, o, 16#32, rfl, Nat.le_refl 2, rfl, rfl, ?_, ?_⟩
  · rcases h with h | h <;> cases h <;> exact eqMem_has (by decide)
  · intro i v hi
    match i, hi with
    | 0, hi =>
      simp at hi
      subst hi
      refine ⟨by simp [HasType], ?_⟩
      rcases h with h | h <;> cases h
      · exact ⟨16#32, 3#32, by decide, by decide, eqMem_has (by decide), by decide⟩
      · exact ⟨48#32, 3#32, by decide, by decide, eqMem_has (by decide), by decide⟩
    | 1, hi =>
      simp at hi
      subst hi
      refine ⟨by simp [HasType], ?_⟩
      rcases h with h | h <;> cases h
      · exact ⟨0#32, 0#32, by decide, by decide, eqMem_has (by decide), by decide⟩
      · exact ⟨0#32, 0#32, by decide, by decide, eqMem_has (by decide), by decide⟩
    | _ + 2, hi => simp at hi

/-- The hypotheses are met: the two lists differ, and the first one equals itself (in other locals). -/
example {σ : Type} (M : Wasm.Mod σ) (g : Store σ) (hm : g.mem = eqMem) :
    (∃ loc', Ends M (equalCode (.list 2 (.buff 3)) [0, 1] [2, 3] 4).1 []
      ([.i32 0#32, .i32 16#32, .i32 32#32, .i32 16#32] ++ List.replicate 7 (.i32 0#32)) g (.norm [.i32 0#32] loc' g)) ∧
    (∃ loc', Ends M (equalCode (.list 2 (.buff 3)) [0, 1] [2, 3] 4).1 []
      ([.i32 0#32, .i32 16#32, .i32 0#32, .i32 16#32] ++ List.replicate 7 (.i32 0#32)) g (.norm [.i32 1#32] loc' g)) := by
  have hs : (seg 0 64).hi ≤ g.mem.size := by rw [hm]; decide
  constructor
  · obtain ⟨c, loc', h1, _, h2, _⟩ := C35_comparison M (.list 2 (.buff 3)) (by decide) (by simp [Ty.WF]) (seg 0 64) [0, 1] [2, 3] 4 []
      ([.i32 0#32, .i32 16#32, .i32 32#32, .i32 16#32] ++ List.replicate 7 (.i32 0#32)) g _ _ [.i32 0#32, .i32 16#32] [.i32 32#32, .i32 16#32]
      (by rw [hm]; exact eqMem_rep 0#32 99#8 (.inl rfl)) (by rw [hm]; exact eqMem_rep 32#32 100#8 (.inr rfl)) hs (by simp) (by simp)
      (by simp) (by simp) (by simp) (by decide)
    exact ⟨loc', by rwa [h2.2 (by simp)] at h1⟩
  · obtain ⟨c, loc', h1, h2, _⟩ := C35_comparison M (.list 2 (.buff 3)) (by decide) (by simp [Ty.WF]) (seg 0 64) [0, 1] [2, 3] 4 []
      ([.i32 0#32, .i32 16#32, .i32 0#32, .i32 16#32] ++ List.replicate 7 (.i32 0#32)) g _ _ [.i32 0#32, .i32 16#32] [.i32 0#32, .i32 16#32]
      (by rw [hm]; exact eqMem_rep 0#32 99#8 (.inl rfl)) (by rw [hm]; exact eqMem_rep 0#32 99#8 (.inl rfl)) hs (by simp) (by simp)
      (by simp) (by simp) (by simp) (by decide)
    exact ⟨loc', by rwa [h2.2 rfl] at h1⟩

end Props
