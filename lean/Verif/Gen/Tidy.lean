import Verif.Gen.Compile
import Verif.Gen.Steps

/-!
Generated code is tidy: it does not change the locals of its surroundings, never returns from the
function, and branches at most to the block around the function body. This holds for every
expression, well typed or not.
-/

namespace Gen
open Wasm Spec Host Core

/-- The imported functions that only the host and `at-block` use. -/
@[simp] def notCalled : List HostFn := [.enter_at_block, .exit_at_block, .define_ft, .define_nft, .define_function, .define_trait,
  .define_map, .define_variable, .impl_trait]

/-- A function that compiled code may call. -/
def Callable : FId → Prop
  | .host h => h ∉ notCalled
  | _ => True

@[simp] theorem callable_std {f : StdFn} : Callable (.std f) := trivial
@[simp] theorem callable_user {j : Nat} : Callable (.user j) := trivial
@[simp] theorem callable_host {h : HostFn} : Callable (.host h) ↔ h ∉ notCalled := .rfl

mutual
/-- The instruction sets only locals from `n` on, branches to labels up to `d`, does not return. -/
def tidyI (n : Nat) : Nat → Instr → Prop
  | _, .b (.localSet i) => n ≤ i
  | _, .b (.localTee i) => n ≤ i
  | _, .b _ => True
  | d, .block _ _ is => tidyL n (d + 1) is
  | d, .loop _ _ is => tidyL n (d + 1) is
  | d, .ite _ _ a b => tidyL n (d + 1) a ∧ tidyL n (d + 1) b
  | d, .br l => l ≤ d
  | d, .brIf l => l ≤ d
  | _, .ret => False
  | _, .call f => Callable f
  | _, _ => True
/-- All the instructions are tidy. -/
def tidyL (n : Nat) : Nat → List Instr → Prop
  | _, [] => True
  | d, i :: is => tidyI n d i ∧ tidyL n d is
end

@[simp] theorem tidyL_nil {n d : Nat} : tidyL n d [] := by simp [tidyL]

@[simp] theorem tidyL_cons {n d : Nat} {i : Instr} {is : List Instr} :
    tidyL n d (i :: is) ↔ tidyI n d i ∧ tidyL n d is := by simp [tidyL]

@[simp] theorem tidyL_append {n d : Nat} : ∀ {as bs : List Instr}, tidyL n d (as ++ bs) ↔ tidyL n d as ∧ tidyL n d bs
  | [], bs => by simp
  | a :: as, bs => by simp [tidyL_append (as := as), and_assoc]

theorem tidyL_all {n d : Nat} : ∀ {as : List Instr}, (∀ i ∈ as, tidyI n d i) → tidyL n d as
  | [], _ => by simp
  | a :: as, h => by simp only [tidyL_cons]; exact ⟨h a (by simp), tidyL_all fun i hi => h i (by simp [hi])⟩

/-! ### What tidy code does -/

/-- The locals below `n` are as in `loc`, labels are at most `d`, there was no return. -/
def Kept {σ : Type} (n d : Nat) (loc : List Val) : Res σ → Prop
  | .norm _ loc' _ => ∀ i, i < n → loc'[i]? = loc[i]?
  | .br l _ loc' _ => l ≤ d ∧ ∀ i, i < n → loc'[i]? = loc[i]?
  | .ret _ _ => False
  | _ => True

theorem stepB_kept {σ : Type} {n d : Nat} {op : Basic} {stk loc stk' loc' : List Val} {g g' : Store σ}
    (ht : tidyI n d (.b op)) (h : stepB op stk loc g = .ok stk' loc' g') : ∀ i, i < n → loc'[i]? = loc[i]? := by
  intro i hi
  unfold stepB at h
  split at h
  case h_18 =>
    simp only [tidyI] at ht
    split at h <;> cases h
    rw [List.getElem?_set_ne (by omega)]
  case h_19 =>
    simp only [tidyI] at ht
    split at h <;> cases h
    rw [List.getElem?_set_ne (by omega)]
  all_goals first
    | (cases h; rfl)
    | (split at h <;> first | (cases h; rfl) | exact absurd h (by simp))
    | exact absurd h (by simp)

theorem Kept.trans {σ : Type} {n d : Nat} {loc loc1 : List Val} (h : ∀ i, i < n → loc1[i]? = loc[i]?) :
    ∀ {r : Res σ}, Kept n d loc1 r → Kept n d loc r
  | .norm _ _ _, h' => fun i hi => by rw [h' i hi, h i hi]
  | .br _ _ _ _, h' => ⟨h'.1, fun i hi => by rw [h'.2 i hi, h i hi]⟩
  | .ret _ _, h' => h'.elim
  | .trap _, _ | .stuck, _ | .oof, _ => trivial

theorem exec_kept {σ : Type} (M : Wasm.Mod σ) {n : Nat} : ∀ (fuel d : Nat) (is : List Instr) (stk loc : List Val)
    (g : Store σ), tidyL n d is → Kept n d loc (exec M fuel is stk loc g)
  | 0, _, _, _, _, _, _ => trivial
  | fuel + 1, d, [], stk, loc, g, _ => fun _ _ => rfl
  | fuel + 1, d, i :: is, stk, loc, g, ht => by
    have ih := exec_kept M (n := n) fuel
    obtain ⟨hi, hs⟩ := tidyL_cons.1 ht
    cases i with
    | b op =>
      simp only [exec]
      cases hb : stepB op stk loc g with
      | ok stk' loc' g' => exact (ih d is _ _ _ hs).trans (stepB_kept hi hb)
      | trap => trivial
      | stuck => trivial
    | block np nr body =>
      simp only [exec]
      split
      · trivial
      · have hb := ih (d + 1) body (stk.take np) loc g (by simpa only [tidyI] using hi)
        revert hb
        cases exec M fuel body (stk.take np) loc g with
        | norm s l g' => exact fun hb => (ih d is _ _ _ hs).trans hb
        | br k s l g' =>
          cases k with
          | zero => exact fun hb => (ih d is _ _ _ hs).trans hb.2
          | succ k => exact fun hb => ⟨Nat.le_of_succ_le_succ hb.1, hb.2⟩
        | ret s g' => exact fun hb => hb.elim
        | trap g' => exact fun _ => trivial
        | stuck => exact fun _ => trivial
        | oof => exact fun _ => trivial
    | loop np nr body =>
      simp only [exec]
      split
      · trivial
      · have hb := ih (d + 1) body (stk.take np) loc g (by simpa only [tidyI] using hi)
        revert hb
        cases exec M fuel body (stk.take np) loc g with
        | norm s l g' => exact fun hb => (ih d is _ _ _ hs).trans hb
        | br k s l g' =>
          cases k with
          | zero => exact fun hb => (ih d _ _ _ _ ht).trans hb.2
          | succ k => exact fun hb => ⟨Nat.le_of_succ_le_succ hb.1, hb.2⟩
        | ret s g' => exact fun hb => hb.elim
        | trap g' => exact fun _ => trivial
        | stuck => exact fun _ => trivial
        | oof => exact fun _ => trivial
    | ite np nr a b =>
      simp only [exec]
      split
      · rename_i c stk' 
        refine ih d _ _ _ _ (tidyL_cons.2 ⟨?_, hs⟩)
        simp only [tidyI] at hi ⊢
        split
        · exact hi.2
        · exact hi.1
      · trivial
    | br l =>
      simp only [exec]
      exact ⟨by simpa only [tidyI] using hi, fun _ _ => rfl⟩
    | brIf l =>
      simp only [exec]
      split
      · split
        · exact ih d _ _ _ _ hs
        · exact ⟨by simpa only [tidyI] using hi, fun _ _ => rfl⟩
      · trivial
    | ret => simp only [tidyI] at hi
    | unreachable => trivial
    | call f =>
      cases f with
      | host h =>
        simp only [exec]
        split
        · trivial
        · split
          · exact ih d _ _ _ _ hs
          · trivial
      | std f =>
        simp only [exec]
        split
        · trivial
        · split
          · trivial
          · split
            · exact ih d _ _ _ _ hs
            · trivial
            · trivial
            · trivial
      | user f =>
        simp only [exec]
        split
        · trivial
        · split
          · trivial
          · split
            · exact ih d _ _ _ _ hs
            · trivial
            · trivial
            · trivial
    | callIndirect ps rs =>
      simp only [exec]
      split
      · split
        · trivial
        · split
          · rename_i hf _
            refine ih d _ _ _ _ (tidyL_cons.2 ⟨?_, hs⟩)
            unfold stdTable at hf
            simp only [tidyI]
            split at hf <;> cases hf <;> first | trivial | simp
          · trivial
      · trivial

/-! ### Generated code is tidy -/

section
variable {n d m : Nat}

@[simp] theorem tidy_getLocals {ls : List Nat} : tidyL n d (getLocals ls) :=
  tidyL_all fun i hi => by
    simp only [getLocals, List.mem_map] at hi
    obtain ⟨l, _, rfl⟩ := hi
    simp [tidyI]

@[simp] theorem tidy_placeholder {T : Ty} : tidyL n d (placeholder T) :=
  tidyL_all fun i hi => by
    simp only [placeholder, List.mem_map] at hi
    obtain ⟨l, _, rfl⟩ := hi
    simp [tidyI]

@[simp] theorem tidy_dropValue {T : Ty} : tidyL n d (dropValue T) :=
  tidyL_all fun i hi => by
    simp only [dropValue, List.mem_map] at hi
    obtain ⟨l, _, rfl⟩ := hi
    simp [tidyI]

theorem tidy_save {T : Ty} (h : n ≤ m) : tidyL n d (saveCode T m) :=
  tidyL_all fun i hi => by
    simp only [saveCode, setLocals, saveLocals, List.reverse_reverse, List.mem_map, List.mem_range'_1] at hi
    obtain ⟨l, h2, rfl⟩ := hi
    simp only [tidyI]; omega

@[simp] theorem tidy_addr {K : Ctx} {bs : List Byte} : tidyL n d (addr K bs) := by simp [addr, c32, tidyI]

@[simp] theorem tidy_raise {c : Nat} : tidyL n d (raise c) := by simp [raise, c32, tidyI]

@[simp] theorem tidy_c32 {c : Nat} : tidyI n d (c32 c) := by simp [c32, tidyI]

@[simp] theorem tidy_lget {c : Nat} : tidyI n d (lget c) := by simp [lget, tidyI]

@[simp] theorem tidy_call {f : FId} : tidyI n d (.call f) ↔ Callable f := by simp [tidyI]


theorem tidy_lset {c : Nat} : tidyI n d (lset c) ↔ n ≤ c := by simp [lset, tidyI]

@[simp] theorem tidy_lit {K : Ctx} {v : Value} : tidyL n d (litCode K v) := by
  cases v <;> simp [litCode, encI, encU, encB, tidyI]

theorem tidy_alloc {k : Nat} (h : n ≤ m) : tidyL n d (allocCode m k) := by simp [allocCode, tidyI, h]

mutual
theorem tidy_writeMem {ol : Nat} : ∀ {T : Ty} {off m : Nat}, n ≤ m → tidyL n d (writeMem ol T off m).is
  | .int, _, _, h | .uint, _, _, h => by simp [writeMem, store64, tidyI, h]; omega
  | .principal, _, _, h | .callable _, _, _, h | .trait _, _, _, h | .traitRef _, _, _, h | .buff _, _, _, h
  | .ascii _, _, _, h | .utf8 _, _, _, h | .list _ _, _, _, h => by simp [writeMem, store32, tidyI, h]; omega
  | .bool, _, _, h => by simp [writeMem, store32, tidyI, h]
  | .noType, _, _, _ => by simp [writeMem, tidyI]
  | .opt t, off, m, h => by
    have := @tidy_writeMem ol t (off + 4) m h
    simp [writeMem, store32, tidyI, this]; omega
  | .resp o e, off, m, h => by
    have h1 := @tidy_writeMem ol e (off + 4 + typeSize o) m h
    have h2 := @tidy_writeMem ol o (off + 4) (m + (writeMem ol e (off + 4 + typeSize o) m).ls.length) (by omega)
    simp [writeMem, store32, tidyI, h1, h2]; omega
  | .tuple fs, off, m, h => by
    simp only [writeMem]
    exact tidy_writeMemF h
theorem tidy_writeMemF {ol : Nat} : ∀ {fs : Fields} {off m : Nat}, n ≤ m → tidyL n d (writeMemF ol fs off m).is
  | .nil, _, _, _ => by simp [writeMemF]
  | .cons _ t fs, off, m, h => by
    have h1 := @tidy_writeMemF ol fs (off + typeSize t) m h
    have h2 := @tidy_writeMem ol t off (m + (writeMemF ol fs (off + typeSize t) m).ls.length) (by omega)
    simp [writeMemF, h1, h2]
end

mutual
@[simp] theorem tidy_readMem {ol : Nat} : ∀ {T : Ty} {off : Nat}, tidyL n d (readMem ol T off).is
  | .int, _ | .uint, _ => by simp [readMem, load64, tidyI]
  | .principal, _ | .callable _, _ | .trait _, _ | .traitRef _, _ | .buff _, _
  | .ascii _, _ | .utf8 _, _ | .list _ _, _ => by simp [readMem, load32, tidyI]
  | .bool, _ => by simp [readMem, load32, tidyI]
  | .noType, _ => by simp [readMem, tidyI]
  | .opt t, off => by simp [readMem, load32, tidyI, @tidy_readMem ol t]
  | .resp o e, off => by simp [readMem, load32, tidyI, @tidy_readMem ol o, @tidy_readMem ol e]
  | .tuple fs, off => by simp only [readMem]; exact tidy_readMemF
theorem tidy_readMemF {ol : Nat} : ∀ {fs : Fields} {off adj : Nat}, tidyL n d (readMemF ol fs off adj).is
  | .nil, _, _ => by simp [readMemF]
  | .cons _ t fs, off, adj => by simp [readMemF, @tidy_readMem ol t, @tidy_readMemF ol fs]
end

theorem tidy_getCode {k : Name} (h : n ≤ m) : ∀ {fs : Fields}, tidyL n d (getCode k m fs)
  | .nil => by simp [getCode]
  | .cons k' t fs => by
    simp only [getCode, tidyL_append]
    refine ⟨tidy_getCode h, ?_⟩
    split
    · exact tidy_save h
    · simp

@[simp] theorem tidy_primPre {p : Prim} {T : Ty} : tidyL n d (primPre p T) := by
  unfold primPre; split <;> simp

@[simp] theorem tidy_countCode {S : Ty} : tidyL n d (countCode S) := by
  unfold countCode; split <;> simp [tidyI]

@[simp] theorem tidy_c64 {c : Nat} : tidyI n d (c64 c) := by simp [c64, tidyI]

@[simp] theorem tidy_readElem {S : Ty} {o : Nat} : tidyL n d (readElem S o) := by
  unfold readElem; split <;> simp [tidyI]

theorem tidy_index {S : Ty} {o x : Nat} (h : n ≤ o) (h' : n ≤ x) : tidyL n d (indexCode S o x) := by
  have : tidyL n d (scaleCode S) := by unfold scaleCode; split <;> simp [tidyI]
  simp [indexCode, tidyI, this, h, h']

theorem tidy_wordCode {q : Word} {Ts : List Ty} {T : Ty} : tidyL n d (wordCode q Ts T) := by
  unfold wordCode
  split
  case h_9 =>
    refine tidyL_all fun i hi => ?_
    rw [List.eq_of_mem_replicate hi]
    simp [tidyI]
  all_goals simp [tidyI]

theorem tidy_primPost {p : Prim} {Ts : List Ty} {T : Ty} (h : n ≤ m) : tidyL n d (primPost p Ts T m).is := by
  unfold primPost
  split
  all_goals first
    | exact tidy_wordCode
    | (split <;> simp)
    | (simp [tidyI, tidy_save h, tidy_getCode h]; done)
    | (simp [tidyI, tidy_lset, h]; done)
    | (simp [tidyI, tidy_lset, h, encU]; omega)

theorem tidy_unCode {o : NOp} {T : Ty} (h : n ≤ m) : tidyL n d (unCode o T m).is := by
  unfold unCode
  split <;> simp [tidyI, tidy_lset]
  omega

theorem tidy_callCode {f : Nat} {kind : Kind} {R : Ty} (h : n ≤ m) : tidyL n d (callCode f kind R m).is := by
  unfold callCode
  split <;> simp [tidyI, tidy_save h]

theorem tidy_copyBytes {o l c : Nat} (h : n ≤ o) (h' : n ≤ c) : tidyL n d (copyBytes o l c) := by
  simp [copyBytes, lget, lset, tidyI, h, h']

theorem getD_ge {ls : List Nat} {i : Nat} (h : ∀ x ∈ ls, n ≤ x) (hi : i < ls.length) : n ≤ ls.getD i 0 := by
  rw [List.getD_eq_getElem?_getD, List.getElem?_eq_getElem hi]
  exact h _ (List.getElem_mem hi)

mutual
theorem tidy_copyVal {n c : Nat} (hc : n ≤ c) : ∀ (T : Ty) {ls : List Nat} {m d : Nat}, n ≤ m → (∀ x ∈ ls, n ≤ x) →
    ls.length = (wty T).length → tidyL n d (copyVal T ls c m).is
  | .noType, _, _, _, _, _, _ | .int, _, _, _, _, _, _ | .uint, _, _, _, _, _, _ | .bool, _, _, _, _, _, _ => by
    simp [copyVal]
  | .principal, _, _, _, h, h1, h2 | .callable _, _, _, _, h, h1, h2 | .trait _, _, _, _, h, h1, h2
  | .traitRef _, _, _, _, h, h1, h2 | .buff _, _, _, _, h, h1, h2 | .ascii _, _, _, _, h, h1, h2
  | .utf8 _, _, _, _, h, h1, h2 => by
    simp only [copyVal]
    exact tidy_copyBytes (getD_ge h1 (by rw [h2]; simp [wty])) hc
  | .list _ e, ls, m, d, h, h1, h2 => by
    have a0 : n ≤ ls.getD 0 0 := getD_ge h1 (by rw [h2]; simp [wty])
    have a1 : n ≤ ls.getD 1 0 := getD_ge h1 (by rw [h2]; simp [wty])
    have hb : ∀ d, tidyL n d (copyVal e (saveLocals e m) c (m + (wty e).length)).is := fun d =>
      tidy_copyVal hc e (by omega) (fun x hx => by have := mem_saveLocals.1 hx; omega) (by simp [saveLocals])
    have hw : ∀ {d ol k}, n ≤ k → tidyL n d (writeMem ol e 0 k).is := fun h => tidy_writeMem h
    simp only [copyVal, tidyL_append]
    refine ⟨tidy_copyBytes a0 hc, ?_⟩
    generalize ls.getD 0 0 = x at *
    generalize ls.getD 1 0 = y at *
    simp only [lget, lset, c32, tidyL, tidyI, tidyL_append, hb, tidy_save h, hw (show n ≤ m + (wty e).length +
      (copyVal e (saveLocals e m) c (m + (wty e).length)).ls.length by omega), a0, a1, tidy_readMem, tidy_getLocals, and_self, Nat.zero_le]
  | .opt t, ls, m, d, h, h1, h2 => by
    have hb : ∀ d, tidyL n d (copyVal t ls.tail c m).is := fun d =>
      tidy_copyVal hc t h (fun x hx => h1 x (List.mem_of_mem_tail hx)) (by simp [wty] at h2; simp [h2])
    simp [copyVal, lget, tidyI, hb]
  | .resp o e, ls, m, d, h, h1, h2 => by
    simp only [wty, List.length_cons, List.length_append] at h2
    have ha : ∀ d, tidyL n d (copyVal o (ls.tail.take (wty o).length) c m).is := fun d =>
      tidy_copyVal hc o h (fun x hx => h1 x (List.mem_of_mem_tail (List.mem_of_mem_take hx))) (by simp; omega)
    have hb : ∀ d k, n ≤ k → tidyL n d (copyVal e (ls.tail.drop (wty o).length) c k).is := fun d k hk =>
      tidy_copyVal hc e hk (fun x hx => h1 x (List.mem_of_mem_tail (List.mem_of_mem_drop hx))) (by simp; omega)
    simp only [copyVal, lget, tidyL, tidyI, true_and, and_true]
    constructor
    · split
      · exact ha _
      · simp
    · split
      · exact hb _ _ (by omega)
      · simp
  | .tuple fs, ls, m, d, h, h1, h2 => by
    simp only [copyVal]
    exact tidy_copyFields hc fs h h1 h2
theorem tidy_copyFields {n c : Nat} (hc : n ≤ c) : ∀ (fs : Fields) {ls : List Nat} {m d : Nat}, n ≤ m →
    (∀ x ∈ ls, n ≤ x) → ls.length = (wtyF fs).length → tidyL n d (copyFields fs ls c m).is
  | .nil, _, _, _, _, _, _ => by simp [copyFields]
  | .cons _ t fs, ls, m, d, h, h1, h2 => by
    simp only [wtyF, List.length_append] at h2
    have ha : ∀ d, tidyL n d (copyVal t (ls.take (wty t).length) c m).is := fun d =>
      tidy_copyVal hc t h (fun x hx => h1 x (List.mem_of_mem_take hx)) (by simp; omega)
    simp only [copyFields, tidyL_append]
    constructor
    · split
      · exact ha _
      · simp
    · exact tidy_copyFields hc fs (by omega) (fun x hx => h1 x (List.mem_of_mem_drop hx)) (by simp; omega)
end

theorem tidy_callUser {f : Nat} {kind : Kind} {R : Ty} (h : n ≤ m) : tidyL n d (callUser f kind R m).is := by
  unfold callUser
  split
  · simp only [tidyL_append]
    exact ⟨⟨⟨⟨tidy_alloc h, tidy_callCode (by omega)⟩, tidy_save (by omega)⟩,
      tidy_copyVal h R (by omega) (fun x hx => by have := mem_saveLocals.1 hx; omega) (by simp [saveLocals])⟩, by simp⟩
  · exact tidy_callCode h

theorem tidy_callAt {c0 f : Nat} {kind : Kind} {R : Ty} (h0 : n ≤ c0) (h : n ≤ m) : tidyL n d (callAt c0 f kind R m).is := by
  unfold callAt
  dsimp only
  split
  · simp only [tidyL_append]
    exact ⟨⟨⟨tidy_callCode h, tidy_save (by omega)⟩,
      tidy_copyVal h0 R (by omega) (fun x hx => by have := mem_saveLocals.1 hx; omega) (by simp [saveLocals])⟩, by simp⟩
  · exact tidy_callCode h

theorem tidy_setLocals {ls : List Nat} (h : ∀ x ∈ ls, n ≤ x) : tidyL n d (setLocals ls) :=
  tidyL_all fun i hi => by
    simp only [setLocals, List.mem_map, List.mem_reverse] at hi
    obtain ⟨x, hx, rfl⟩ := hi
    exact h x hx

theorem tidy_mapCount {S : Ty} {mn q : Nat} (h : n ≤ mn) (h' : n ≤ q) : tidyL n d (mapCount S mn q) := by
  simp [mapCount, tidyI, tidy_lset, h]; omega

theorem tidy_mapReads : ∀ {ls : List (Ty × Nat)}, (∀ x ∈ ls, n ≤ x.2) → tidyL n d (mapReads ls)
  | [], _ => by simp [mapReads]
  | (S, o) :: r, h => by
    have h1 := h (S, o) (by simp)
    have h2 := tidy_mapReads (ls := r) fun x hx => h x (by simp [hx])
    simp [mapReads, tidyI, tidy_lset, h1, h2]

theorem tidy_naryReads {o : NOp} {E : Ty} : ∀ {ls : List (Ty × Nat)}, (∀ x ∈ ls, n ≤ x.2) → tidyL n d (naryReads o E ls)
  | [], _ => by simp [naryReads]
  | (S, q) :: ls, h => by
    have h1 := tidy_naryReads (o := o) (E := E) (ls := ls) fun x hx => h x (by simp [hx])
    have h2 : n ≤ q := h (S, q) (by simp)
    simp [naryReads, tidyI, tidy_lset, h1, h2]

theorem tidy_boolWord {a : Bool} {k : Nat} : tidyL n d (boolWord a k) := by
  unfold boolWord
  generalize k - 1 = i
  induction i with
  | zero => simp
  | succ i ih => simp [List.replicate_succ, tidyI, ih]

theorem tidy_fnAt {K : Ctx} {c0 : Nat} {f : Fn} {Ts : List Ty} {T : Ty} (h0 : n ≤ c0) (h : n ≤ m) : tidyL n d (fnAt K c0 f Ts T m).is := by
  cases f with
  | user j =>
    simp only [fnAt]
    split
    · exact tidy_callAt h0 h
    · simp
  | word q => exact tidy_primPost h
  | nary o => simp [fnAt]
  | and_ => exact tidy_boolWord
  | or_ => exact tidy_boolWord

theorem tidy_fnMap {K : Ctx} {f : Fn} {ss : List (Ty × Nat)} {E : Ty} (h0 : ∀ x ∈ ss, n ≤ x.2) (h : n ≤ m) : tidyL n d (fnMap K f ss E m).is := by
  cases f with
  | user j =>
    simp only [fnMap]
    split
    · simp only [tidyL_append]; exact ⟨tidy_mapReads h0, tidy_callUser h⟩
    · simp
  | word q => simp only [fnMap, tidyL_append]; exact ⟨tidy_mapReads h0, tidy_primPost h⟩
  | nary o =>
    match ss, h0 with
    | [], _ => simp [fnMap]
    | [x], h0 => simp only [fnMap, tidyL_append]; exact ⟨tidy_mapReads h0, tidy_unCode h⟩
    | x :: y :: r, h0 =>
      simp only [fnMap, tidyL_append]
      exact ⟨tidy_mapReads fun z hz => h0 z (by simp at hz; simp [hz]), tidy_naryReads fun z hz => h0 z (List.mem_cons_of_mem _ hz)⟩
  | and_ => simp only [fnMap, tidyL_append]; exact ⟨tidy_mapReads h0, tidy_boolWord⟩
  | or_ => simp only [fnMap, tidyL_append]; exact ⟨tidy_mapReads h0, tidy_boolWord⟩

theorem tidy_shortReturn {R : Ty} {cl : Nat} {neg : Bool} : tidyL n d (shortReturn R d cl neg) := by
  cases neg <;> simp [shortReturn, tidyI]

theorem tidy_circuit {a : Bool} {b : List Instr} (h : tidyL n (d + 1) b) : tidyI n d (circuit a b) := by
  cases a <;> simp [circuit, tidyI, h]

theorem tidy_equalBytes {oa la ob lb m : Nat} (h : n ≤ m) : tidyL n d (equalBytes oa la ob lb m) := by
  simp [equalBytes, tidyI]
  omega

theorem tidy_equalList {oa la ob lb size : Nat} {rd cmp : List Instr} (h : ∀ d, tidyL n d rd) (h' : ∀ d, tidyL n d cmp)
    (h1 : n ≤ oa) (h2 : n ≤ ob) (h3 : n ≤ lb) : tidyL n d (equalList oa la ob lb size rd cmp) := by
  simp [equalList, tidyI, h, h', h1, h2, h3]

/- Comparing lists sets locals of both operands. -/
mutual
theorem tidy_equal : ∀ (T : Ty) (as bs : List Nat) (m d : Nat), n ≤ m → (∀ x ∈ as, n ≤ x) → (∀ x ∈ bs, n ≤ x) →
    (wty T).length ≤ as.length → (wty T).length ≤ bs.length → tidyL n d (equalCode T as bs m).1
  | .noType, as, bs, m, d, h, ha, hb, la, lb => by simp [equalCode, tidyI]
  | .bool, as, bs, m, d, h, ha, hb, la, lb => by simp [equalCode, tidyI]
  | .int, as, bs, m, d, h, ha, hb, la, lb | .uint, as, bs, m, d, h, ha, hb, la, lb => by
    simp [equalCode, equalInt, tidyI]
  | .trait _, as, bs, m, d, h, ha, hb, la, lb | .traitRef _, as, bs, m, d, h, ha, hb, la, lb => by simp [equalCode]
  | .buff _, as, bs, m, d, h, ha, hb, la, lb | .ascii _, as, bs, m, d, h, ha, hb, la, lb
  | .utf8 _, as, bs, m, d, h, ha, hb, la, lb | .principal, as, bs, m, d, h, ha, hb, la, lb
  | .callable _, as, bs, m, d, h, ha, hb, la, lb => by
    simp only [equalCode]; exact tidy_equalBytes h
  | .opt t, as, bs, m, d, h, ha, hb, la, lb => by
    simp only [wty, List.length_cons] at la lb
    have := tidy_equal t as.tail bs.tail m (d + 1 + 1) h (fun x hx => ha x (List.mem_of_mem_tail hx))
      (fun x hx => hb x (List.mem_of_mem_tail hx)) (by rw [List.length_tail]; omega) (by rw [List.length_tail]; omega)
    simp [equalCode, tidyI, this]
  | .resp o e, as, bs, m, d, h, ha, hb, la, lb => by
    simp only [wty, List.length_cons, List.length_append] at la lb
    have h1 := tidy_equal o (as.tail.take (wty o).length) (bs.tail.take (wty o).length) m (d + 1 + 1) h
      (fun x hx => ha x (List.mem_of_mem_tail (List.mem_of_mem_take hx)))
      (fun x hx => hb x (List.mem_of_mem_tail (List.mem_of_mem_take hx)))
      (by rw [List.length_take, List.length_tail]; omega) (by rw [List.length_take, List.length_tail]; omega)
    have h2 := fun k => tidy_equal e (as.tail.drop (wty o).length) (bs.tail.drop (wty o).length) (m + k) (d + 1 + 1) (by omega)
      (fun x hx => ha x (List.mem_of_mem_tail (List.mem_of_mem_drop hx)))
      (fun x hx => hb x (List.mem_of_mem_tail (List.mem_of_mem_drop hx)))
      (by rw [List.length_drop, List.length_tail]; omega) (by rw [List.length_drop, List.length_tail]; omega)
    simp only [equalCode, tidyL_cons, tidyI, h1, h2, tidyL_nil, and_self]
  | .list _ e, as, bs, m, d, h, ha, hb, la, lb => by
    simp only [wty, List.length_cons, List.length_nil] at la lb
    match as, bs with
    | a :: a' :: as, b :: b' :: bs =>
      simp only [equalCode, List.getD_cons_zero, List.getD_cons_succ]
      have e1 : ∀ k, (wty e).length ≤ (saveLocals e k).length := fun k => by simp [saveLocals]
      refine tidy_equalList (fun d => ?_) (fun d => tidy_equal e _ _ _ d (by omega) (fun x hx => ?_) (fun x hx => ?_) (e1 _) (e1 _))
        (ha _ (by simp)) (hb _ (by simp)) (hb _ (by simp))
      · simp only [tidyL_append]
        exact ⟨⟨tidy_readMem, tidy_save h⟩, tidy_readMem, tidy_save (by omega)⟩
      · have := mem_saveLocals.1 hx; omega
      · have := mem_saveLocals.1 hx; omega
    | [], _ => simp at la
    | [_], _ => simp at la
    | _ :: _ :: _, [] => simp at lb
    | _ :: _ :: _, [_] => simp at lb
  | .tuple .nil, as, bs, m, d, h, ha, hb, la, lb => by
    simp [equalCode, equalFields, tidyI]
  | .tuple (.cons k t .nil), as, bs, m, d, h, ha, hb, la, lb => by
    simp only [wty, wtyF, List.append_nil] at la lb
    simp only [equalCode]
    exact tidy_equal t as bs m d h ha hb la lb
  | .tuple (.cons k t (.cons k' t' fs)), as, bs, m, d, h, ha, hb, la, lb => by
    simp only [wty] at la lb
    simp only [equalCode, tidyL_cons, tidyI]
    exact ⟨tidy_equalF (.cons k t (.cons k' t' fs)) as bs m (m + 1) d h (by omega) ha hb la lb, trivial, tidyL_nil⟩
theorem tidy_equalF : ∀ (fs : Fields) (as bs : List Nat) (r m d : Nat), n ≤ r → n ≤ m → (∀ x ∈ as, n ≤ x) →
    (∀ x ∈ bs, n ≤ x) → (wtyF fs).length ≤ as.length → (wtyF fs).length ≤ bs.length →
    tidyL n (d + 1) (equalFields r fs as bs m).1
  | .nil, as, bs, r, m, d, hr, h, ha, hb, la, lb => by simp [equalFields]
  | .cons k t fs, as, bs, r, m, d, hr, h, ha, hb, la, lb => by
    simp only [wtyF, List.length_append] at la lb
    have h1 := tidy_equal t (as.take (wty t).length) (bs.take (wty t).length) m (d + 1) h
      (fun x hx => ha x (List.mem_of_mem_take hx)) (fun x hx => hb x (List.mem_of_mem_take hx))
      (by rw [List.length_take]; omega) (by rw [List.length_take]; omega)
    have h2 := fun k => tidy_equalF fs (as.drop (wty t).length) (bs.drop (wty t).length) r (m + k) d hr (by omega)
      (fun x hx => ha x (List.mem_of_mem_drop hx)) (fun x hx => hb x (List.mem_of_mem_drop hx))
      (by rw [List.length_drop]; omega) (by rw [List.length_drop]; omega)
    simp [equalFields, tidyI, h1, h2, hr]
end

theorem tidy_replace {S : Ty} {k k2 m n d : Nat} (h : n ≤ m) : tidyL n d (replaceCode S k k2 m).is := by
  unfold replaceCode
  split
  · rename_i E
    have h1 : ∀ d, tidyL n d (writeMem m E 0 (m + 1)).is := fun d => tidy_writeMem (by omega)
    simp [tidyI, tidy_lset, h1, h]
  · simp [tidyI, tidy_lset]
    omega

theorem tidy_putTag {n d ol off t : Nat} : tidyL n d (putTag ol off t) := by simp [putTag, lget, c32, tidyI]

theorem tidy_startPtr {n d ol off l : Nat} (h : n ≤ l) : tidyL n d (startPtr ol off l) := by
  unfold startPtr; split <;> simp [lget, c32, tidyI, h]

mutual
theorem tidy_ser {lit : Name → Nat} {n : Nat} : ∀ (T : Ty) {ol off m d : Nat}, n ≤ m → tidyL n d (ser lit T ol off m).is
  | .noType, ol, off, m, d, h => by simp [ser]
  | .int, ol, off, m, d, h | .uint, ol, off, m, d, h => by
    simp only [ser, serInt, tidyL_append]
    exact ⟨⟨by simp [lset, tidyI]; omega, tidy_startPtr (by omega)⟩, by simp [lget, c32, tidyI]; omega⟩
  | .principal, ol, off, m, d, h | .callable _, ol, off, m, d, h | .trait _, ol, off, m, d, h
  | .traitRef _, ol, off, m, d, h => by
    simp only [ser, serPrincipal, tidyL_append]
    exact ⟨⟨by simp [lset, tidyI]; omega, tidy_startPtr (by omega)⟩, by simp [lget, c32, tidyI]⟩
  | .bool, ol, off, m, d, h => by simp [ser, serBool, lset, lget, c32, tidyI]; omega
  | .buff _, ol, off, m, d, h | .ascii _, ol, off, m, d, h => by
    simp only [ser, serBytes, tidyL_append]
    exact ⟨⟨by simp [lset, tidyI]; omega, tidy_putTag⟩, by simp [lget, c32, tidyI]; omega⟩
  | .utf8 _, ol, off, m, d, h => by
    simp only [ser, serUtf8, tidyL_append]
    exact ⟨⟨by simp [lset, tidyI]; omega, tidy_putTag⟩, by simp [lget, lset, c32, tidyI]; omega⟩
  | .list _ e, ol, off, m, d, h => by
    have h1 := tidy_ser (lit := lit) (n := n) e (ol := m) (off := 0) (m := m + 3) (d := d + 1 + 1) (by omega)
    simp only [ser, serList, tidyL_append]
    refine ⟨tidy_putTag, ?_⟩
    simp [lget, lset, c32, tidyI, h1, tidy_readMem]
    omega
  | .opt t, ol, off, m, d, h => by
    have h1 := tidy_ser (lit := lit) (n := n) t (ol := ol) (off := off + 1) (m := m + (wty t).length) (d := d + 1) (by omega)
    simp only [ser, tidyL_append]
    refine ⟨tidy_save h, ?_⟩
    simp [c32, tidyI, h1, tidy_putTag]
  | .resp o e, ol, off, m, d, h => by
    have h1 := fun k => tidy_ser (lit := lit) (n := n) o (ol := ol) (off := off + 1) (m := m + k) (d := d + 1) (by omega)
    have h2 := fun k => tidy_ser (lit := lit) (n := n) e (ol := ol) (off := off + 1) (m := m + k) (d := d + 1) (by omega)
    simp only [ser, tidyL_append]
    refine ⟨⟨tidy_save h, tidy_save (by omega)⟩, ?_⟩
    simp [c32, tidyI, Nat.add_assoc, h1, h2, tidy_putTag]
  | .tuple fs, ol, off, m, d, h => by
    simp only [ser, tidyL_append]
    exact ⟨⟨⟨⟨tidy_save (by omega), tidy_putTag⟩, by simp [lget, c32, tidyI]; omega⟩, tidy_serF fs h (by omega)⟩,
      by simp [lget, c32, tidyI]⟩
theorem tidy_serF {lit : Name → Nat} {n : Nat} : ∀ (fs : Fields) {wp m d : Nat} {ls : List Nat}, n ≤ wp → n ≤ m →
    tidyL n d (serF lit fs wp ls m).is
  | .nil, wp, m, d, ls, h, h' => by simp [serF]
  | .cons k t fs, wp, m, d, ls, h, h' => by
    simp only [serF, tidyL_append]
    exact ⟨⟨⟨⟨by simp [lget, lset, c32, tidyI]; omega, by simp⟩, tidy_ser t h'⟩, by simp [lget, tidyI]; omega⟩,
      tidy_serF fs h (by omega)⟩
end

theorem tidy_des {n ol el rl : Nat} (ho : n ≤ ol) (hr : n ≤ rl) : ∀ (T : Ty) {m d : Nat}, n ≤ m → tidyL n d (des T ol el rl m).is
  | .int, m, d, h | .uint, m, d, h => by simp [des, desInt, incr, plus, load8, lget, lset, c32, tidyI]; omega
  | .principal, m, d, h | .callable _, m, d, h | .trait _, m, d, h | .traitRef _, m, d, h => by
    simp [des, desPrincipal, incr, plus, load8, lget, lset, c32, tidyI]; omega
  | .bool, m, d, h => by simp [des, desBool, incr, plus, load8, lget, lset, c32, tidyI]; omega
  | .buff _, m, d, h => by simp [des, desBytes, plus, load8, lget, lset, c32, tidyI]; omega
  | .ascii _, m, d, h => by simp [des, desBytes, plus, load8, lget, lset, c32, tidyI]; omega
  | .utf8 _, m, d, h => by simp [des, desUtf8, incr, plus, load8, lget, lset, c32, tidyI]; omega
  | .opt t, m, d, h => by
    have h1 := fun d => tidy_des (el := el) ho hr t (m := m + 1) (d := d) (by omega)
    have h2 : ∀ k d, tidyL n d (saveCode t (m + 1 + k)) := fun k d => tidy_save (by omega)
    simp [des, desOpt, incr, plus, load8, lget, lset, c32, tidyI, h1, h2]; omega
  | .resp t u, m, d, h => by
    have h1 := fun d => tidy_des (el := el) ho hr t (m := m + 1) (d := d) (by omega)
    have h3 := fun k d => tidy_des (el := el) ho hr u (m := m + 1 + k + (wty t).length) (d := d) (by omega)
    have h2 : ∀ k d, tidyL n d (saveCode t (m + 1 + k)) := fun k d => tidy_save (by omega)
    have h4 : ∀ k j i d, tidyL n d (saveCode u (m + 1 + k + j + i)) := fun k j i d => tidy_save (by omega)
    simp [des, desResp, incr, plus, load8, lget, lset, c32, tidyI, h1, h2, h3, h4]; omega
  | .list _ e, m, d, h => by
    have h1 := fun d => tidy_des (el := el) ho hr e (m := m + 4) (d := d) (by omega)
    have h2 : ∀ k d, tidyL n d (saveCode e (m + 4 + k)) := fun k d => tidy_save (by omega)
    have h3 : ∀ k j d, tidyL n d (writeMem (m + 2) e 0 (m + 4 + k + j)).is := fun k j d => tidy_writeMem (by omega)
    simp [des, desList, incr, plus, load8, lget, lset, c32, tidyI, h1, h2, h3]; omega
  | .tuple _, m, d, h => by simp [des]
  | .noType, m, d, h => by simp [des]

variable {K : Ctx} {R : Ty} {n : Nat}

mutual
theorem tidy_compile : ∀ (e : Expr) (T : Ty) (d : Nat) (Γ : Scope) (m : Nat), n ≤ m →
    tidyL n d (compile K R e T d Γ m).is
  | .lit v, T, d, Γ, m, h => by simp [compile]
  | .none_, T, d, Γ, m, h => by simp [compile]
  | .var x, T, d, Γ, m, h => by simp [compile]
  | .txSender, T, d, Γ, m, h | .contractCaller, T, d, Γ, m, h => by simp [compile, tidy_alloc h]
  | .prim p es, T, d, Γ, m, h => by
    have := tidy_args es d Γ m h
    simp only [compile, tidyL_append]
    exact ⟨⟨tidy_primPre, this⟩, tidy_primPost (by omega)⟩
  | .nary o es, T, d, Γ, m, h => by simp only [compile]; exact tidy_nary o T es d Γ m h
  | .isEq U es, T, d, Γ, m, h => by simp only [compile]; exact tidy_eq U es d Γ m h
  | .tuple bs, T, d, Γ, m, h => by simp [compile, tidy_fields bs d Γ m h]
  | .let_ bs body, T, d, Γ, m, h => by
    simp only [compile, tidyL_append]
    exact ⟨tidy_binds bs d Γ m h, tidy_seq body _ _ _ (by omega)⟩
  | .begin_ body, T, d, Γ, m, h => by simp only [compile]; exact tidy_seq body d Γ m h
  | .ite c a b, T, d, Γ, m, h => by
    simp only [compile, tidyL_append, tidyL_cons, tidyI]
    exact ⟨tidy_compile c .bool d Γ m h, ⟨tidy_compile a _ _ _ _ (by omega), tidy_compile b _ _ _ _ (by omega)⟩, tidyL_nil⟩
  | .and_ es, T, d, Γ, m, h | .or_ es, T, d, Γ, m, h => by
    simp only [compile, tidyL_cons]
    exact ⟨tidy_c32, tidy_branches _ es d Γ m h⟩
  | .matchOpt U e x a b, T, d, Γ, m, h => by
    simp only [compile, tidyL_append, tidyL_cons, tidyI]
    exact ⟨⟨tidy_compile e _ d Γ m h, tidy_save (by omega)⟩,
      ⟨tidy_compile a _ _ _ _ (by omega), tidy_compile b _ _ _ _ (by omega)⟩, tidyL_nil⟩
  | .matchResp O E e x a y b, T, d, Γ, m, h => by
    simp only [compile, tidyL_append, tidyL_cons, tidyI]
    exact ⟨⟨⟨tidy_compile e _ d Γ m h, tidy_save (by omega)⟩, tidy_save (by omega)⟩,
      ⟨tidy_compile a _ _ _ _ (by omega), tidy_compile b _ _ _ _ (by omega)⟩, tidyL_nil⟩
  | .asserts c t, T, d, Γ, m, h => by
    simp only [compile, tidyL_append, tidyL_cons, tidy_lset]
    exact ⟨⟨⟨⟨tidy_compile c _ d Γ m h, by omega, tidyL_nil⟩, tidy_compile t _ _ _ _ (by omega)⟩, tidy_shortReturn⟩,
      tidy_c32, tidyL_nil⟩
  | .unwrapOpt e t, T, d, Γ, m, h => by
    simp only [compile, tidyL_append, tidyL_cons, tidy_lset]
    exact ⟨⟨⟨⟨⟨tidy_compile e _ d Γ m h, tidy_save (by omega)⟩, by omega, tidyL_nil⟩,
      tidy_compile t _ _ _ _ (by omega)⟩, tidy_shortReturn⟩, tidy_getLocals⟩
  | .unwrapResp E e t, T, d, Γ, m, h => by
    simp only [compile, tidyL_append, tidyL_cons, tidy_lset]
    exact ⟨⟨⟨⟨⟨⟨tidy_compile e _ d Γ m h, tidy_save (by omega)⟩, tidy_save (by omega)⟩, by omega, tidyL_nil⟩,
      tidy_compile t _ _ _ _ (by omega)⟩, tidy_shortReturn⟩, tidy_getLocals⟩
  | .unwrapErr O e t, T, d, Γ, m, h => by
    simp only [compile, tidyL_append, tidyL_cons, tidy_lset]
    exact ⟨⟨⟨⟨⟨⟨tidy_compile e _ d Γ m h, tidy_save (by omega)⟩, tidy_save (by omega)⟩, by omega, tidyL_nil⟩,
      tidy_compile t _ _ _ _ (by omega)⟩, tidy_shortReturn⟩, tidy_getLocals⟩
  | .tryOpt e, T, d, Γ, m, h => by
    have h1 := tidy_compile e (.opt T) d Γ m h
    have h2 : tidyL n d (saveCode T (m + (compile K R e (.opt T) d Γ m).ls.length)) := tidy_save (by omega)
    simp [compile, tidy_lset, h1, h2, tidy_shortReturn]; omega
  | .tryResp E e, T, d, Γ, m, h => by
    have h1 := tidy_compile e (.resp T E) d Γ m h
    have h2 : tidyL n d (saveCode E (m + (compile K R e (.resp T E) d Γ m).ls.length)) := tidy_save (by omega)
    have h3 : tidyL n d (saveCode T (m + (compile K R e (.resp T E) d Γ m).ls.length + (wty E).length)) := tidy_save (by omega)
    simp [compile, tidy_lset, h1, h2, h3, tidy_shortReturn]; omega
  | .call f es, T, d, Γ, m, h => by
    simp only [compile]
    split
    · simp only [tidyL_append]
      exact ⟨tidy_args es d Γ m h, tidy_callUser (by omega)⟩
    · exact tidy_args es d Γ m h
  | .asContract e, T, d, Γ, m, h => by simp [compile, tidy_compile e T d Γ m h]
  | .varGet x, T, d, Γ, m, h => by simp [compile, tidy_alloc h]
  | .varSet x e, T, d, Γ, m, h => by
    simp only [compile, tidyL_append, tidyL_cons]
    exact ⟨⟨⟨⟨tidy_compile e _ d Γ m h, tidy_alloc (by omega)⟩, tidy_writeMem (by omega)⟩, tidy_addr⟩, by simp⟩
  | .mapGet x e, T, d, Γ, m, h => by
    simp only [compile, tidyL_append, tidyL_cons, tidy_lset]
    exact ⟨⟨⟨⟨⟨⟨⟨tidy_addr, tidy_alloc (by omega)⟩, tidy_compile e _ d Γ _ (by omega)⟩, tidy_writeMem (by omega)⟩, by simp⟩,
      tidy_alloc (by omega)⟩, by simp; omega⟩, tidy_readMem⟩
  | .mapSet x e v, T, d, Γ, m, h | .mapInsert x e v, T, d, Γ, m, h => by
    simp only [compile, mapWrite, tidyL_append, tidyL_cons, tidy_lset]
    exact ⟨⟨⟨⟨⟨⟨⟨⟨⟨tidy_addr, tidy_alloc (by omega)⟩, tidy_compile e _ d Γ _ (by omega)⟩, tidy_writeMem (by omega)⟩, by simp⟩,
      tidy_alloc (by omega)⟩, by simp; omega⟩, tidy_compile v _ d Γ _ (by omega)⟩, tidy_writeMem (by omega)⟩, by simp⟩
  | .mapDelete x e, T, d, Γ, m, h => by
    simp only [compile, tidyL_append, tidyL_cons, tidy_lset]
    exact ⟨⟨⟨⟨⟨tidy_addr, tidy_alloc (by omega)⟩, by simp; omega⟩, tidy_compile e _ d Γ _ (by omega)⟩,
      tidy_writeMem (by omega)⟩, by simp⟩
  | .elementAt S e i, T, d, Γ, m, h => by
    have h1 := tidy_compile e S d Γ m h
    have h2 := tidy_compile i .uint d Γ (m + (compile K R e S d Γ m).ls.length) (by omega)
    simp only [compile, elementAtCode, tidyL_append, tidyL_cons]
    exact ⟨⟨h1, by simp [tidyI], h2⟩, tidy_index (by omega) (by omega), by simp [tidyI]; omega⟩
  | .slice S e l r, T, d, Γ, m, h => by
    have h1 := tidy_compile e S d Γ m h
    have h2 := tidy_compile l .uint d Γ (m + (compile K R e S d Γ m).ls.length + 4) (by omega)
    have h3 := tidy_compile r .uint d Γ (m + (compile K R e S d Γ m).ls.length + 4 +
      (compile K R l .uint d Γ (m + (compile K R e S d Γ m).ls.length + 4)).ls.length) (by omega)
    simp only [compile, sliceLeft, sliceRight, tidyL_append, tidyL_cons]
    exact ⟨⟨⟨⟨⟨h1, by simp [tidyI]; omega⟩, h2⟩, tidy_index (by omega) (by omega), by simp [tidyI]; omega⟩, h3⟩,
      tidy_index (by omega) (by omega), by simp [tidyI]; omega⟩
  | .indexOf S e x, T, d, Γ, m, h => by
    have h1 := tidy_compile e S d Γ m h
    have h2 := tidy_compile x (elemTy S) (d + 1) Γ (m + (compile K R e S d Γ m).ls.length + 3) (by omega)
    simp only [compile]
    generalize compile K R e S d Γ m = A at *
    generalize compile K R x (elemTy S) (d + 1) Γ (m + A.ls.length + 3) = B at *
    have h3 : ∀ d, tidyL n d (saveCode (elemTy S) (m + A.ls.length + 3 + B.ls.length)) := fun d => tidy_save (by omega)
    have h4 : ∀ d, tidyL n d (saveCode (elemTy S) (m + A.ls.length + 3 + B.ls.length + (wty (elemTy S)).length + 1)) :=
      fun d => tidy_save (by omega)
    have h5 : ∀ d, tidyL n d (equalCode (elemTy S) (saveLocals (elemTy S) (m + A.ls.length + 3 + B.ls.length))
        (saveLocals (elemTy S) (m + A.ls.length + 3 + B.ls.length + (wty (elemTy S)).length + 1))
        (m + A.ls.length + 3 + B.ls.length + (wty (elemTy S)).length + 1 + (wty (elemTy S)).length)).1 := fun d =>
      tidy_equal _ _ _ _ d (by omega) (fun i hi => by have := mem_saveLocals.1 hi; omega)
        (fun i hi => by have := mem_saveLocals.1 hi; omega) (by simp [saveLocals]) (by simp [saveLocals])
    simp [indexOfLoop, tidyI, tidy_lset, h1, h2, h3, h4, h5]
    omega
  | .list es, T, d, Γ, m, h => by
    simp only [compile, tidyL_append]
    exact ⟨tidy_alloc (by omega), tidy_list (elemTy T) m es 0 d Γ _ (by omega)⟩
  | .append e x, T, d, Γ, m, h => by
    simp only [compile, appendCode, tidyL_append]
    exact ⟨⟨⟨⟨⟨⟨tidy_alloc (by omega), by simp⟩, tidy_compile e _ d Γ _ (by omega)⟩, by simp [tidyI, tidy_lset]; omega⟩,
      tidy_compile x _ d Γ _ (by omega)⟩, tidy_writeMem (by omega)⟩, by simp⟩
  | .concat _ a b, T, d, Γ, m, h => by
    simp only [compile, tidyL_append]
    exact ⟨⟨⟨⟨⟨tidy_alloc (by omega), by simp⟩, tidy_compile a _ d Γ _ (by omega)⟩, by simp [tidyI]; omega⟩,
      tidy_compile b _ d Γ _ (by omega)⟩, by simp [tidyI]; omega⟩
  | .replaceAt S e i x, T, d, Γ, m, h => by
    simp only [compile, tidyL_append]
    exact ⟨⟨⟨⟨⟨⟨⟨⟨⟨⟨tidy_alloc (by omega), by simp⟩, tidy_compile e _ d Γ _ (by omega)⟩, by simp [tidyI]; omega⟩,
      by simp⟩, by simp [tidyI, tidy_lset]; omega⟩, tidy_compile i _ d Γ _ (by omega)⟩, tidy_index (by omega) (by omega)⟩,
      by simp [tidyI, tidy_lset]; omega⟩, tidy_compile x _ d Γ _ (by omega)⟩, tidy_replace (by omega)⟩
  | .mem q S e, T, d, Γ, m, h => by
    simp only [compile, tidyL_append]
    refine ⟨tidy_compile e S d Γ m h, ?_⟩
    unfold memCode
    split <;> simp only [tidyL_append] <;> exact ⟨tidy_alloc (by omega), by simp [tidyI]; try omega⟩
  | .token q es, T, d, Γ, m, h => by
    simp only [compile, tidyL_append]
    exact ⟨⟨by unfold tokenPre; split <;> simp, tidy_args es d Γ m h⟩, by unfold tokenPost; split <;> simp⟩
  | .toBuff V e, T, d, Γ, m, h => by
    simp only [compile, tidyL_append]
    exact ⟨⟨⟨tidy_compile e _ d Γ _ h, tidy_alloc (by omega)⟩, tidy_ser _ (by omega)⟩, by
      simp [toBuffCode, lset, lget, c32, tidyI]; omega⟩
  | .fromBuff V mx e, T, d, Γ, m, h => by
    simp only [compile, tidyL_append]
    exact ⟨⟨⟨⟨⟨tidy_compile e _ d Γ _ h, by simp [tidyI]; omega⟩, tidy_alloc (by omega)⟩,
      by simp [fromBuffStart, lset, lget, tidyI]; omega⟩, tidy_des (by omega) (by omega) _ (by omega)⟩, by
      simp [fromBuffEnd, lget, tidyI]⟩
  | .fold f S e i, T, d, Γ, m, h => by
    simp only [compile]
    have h1 := tidy_compile e S d Γ (m + 1) (by omega)
    generalize compile K R e S d Γ (m + 1) = A at *
    have h2 := tidy_compile i T d Γ (m + 1 + A.ls.length + 3) (by omega)
    generalize compile K R i T d Γ (m + 1 + A.ls.length + 3) = B at *
    generalize hq : m + 1 + A.ls.length + 3 + B.ls.length = q at *
    have h3 : tidyL n (d + 1) (saveCode T q) := tidy_save (by omega)
    have h5 : ∀ d, tidyL n d (fnAt K m f [elemTy S, T] T (q + (wty T).length)).is := fun d => tidy_fnAt h (by omega)
    generalize fnAt K m f [elemTy S, T] T (q + (wty T).length) = C at *
    have h4 : tidyL n (d + 1) (foldLoop S C.is (saveLocals T q) (m + 1 + A.ls.length + 1)) := by
      have h6 : ∀ d, tidyL n d (setLocals (saveLocals T q)) := fun d =>
        tidy_setLocals fun x hx => by have := mem_saveLocals.1 hx; omega
      simp [foldLoop, tidyI, h5, h6]
      omega
    simp only [tidyL_append]
    exact ⟨⟨⟨⟨tidy_alloc h, h1⟩, by simp [tidyI, tidy_lset]; omega⟩, h2⟩, by simp [tidyI, h3, h4]⟩
  | .filter f e, T, d, Γ, m, h => by
    simp only [compile, tidyL_append]
    exact ⟨⟨⟨⟨tidy_compile e T d Γ m h, by simp [tidy_lset]; omega⟩, tidy_alloc (by omega)⟩,
      by simp [filterLoop, tidyI, tidy_lset]; omega⟩, by simp⟩
  | .map f es, T, d, Γ, m, h => by
    simp only [compile]
    have h1 := tidy_map m h es (isUser f) d Γ (m + 1) (by omega)
    generalize compileMap K R m es (isUser f) d Γ (m + 1) = A at *
    have h2 : ∀ d, tidyL n d (fnMap K f A.2 (elemTy T) (m + 1 + A.1.ls.length + 3)).is := fun d => tidy_fnMap h1.2 (by omega)
    generalize fnMap K f A.2 (elemTy T) (m + 1 + A.1.ls.length + 3) = C at *
    have h3 : ∀ d, tidyL n d (writeMem (m + 1 + A.1.ls.length + 1) (elemTy T) 0 (m + 1 + A.1.ls.length + 3 + C.ls.length)).is :=
      fun d => tidy_writeMem (by omega)
    simp only [tidyL_append]
    exact ⟨⟨⟨⟨⟨by simp [tidy_lset, h], h1.1⟩, tidy_alloc (by omega)⟩, by simp [tidy_lset]; omega⟩,
      by simp only [mapLoop, tidyL_append, tidyL_cons, tidyI, tidy_lset, h2, h3, tidy_lget, tidy_c32, tidyL_nil, true_and, and_true]; omega⟩, by simp [tidyI]⟩
theorem tidy_map (mn : Nat) (hmn : n ≤ mn) : ∀ (es : Exprs) (first : Bool) (d : Nat) (Γ : Scope) (m : Nat), n ≤ m →
    tidyL n d (compileMap K R mn es first d Γ m).1.is ∧ ∀ x ∈ (compileMap K R mn es first d Γ m).2, n ≤ x.2
  | .nil, first, d, Γ, m, h => by simp [compileMap]
  | .cons S e es, first, d, Γ, m, h => by
    simp only [compileMap]
    have h1 := tidy_compile e (if first then mapTy S else S) d Γ m h
    generalize compile K R e (if first then mapTy S else S) d Γ m = A at *
    have h2 := tidy_map mn hmn es false d Γ (m + A.ls.length + 2) (by omega)
    simp only [tidyL_append, List.mem_cons]
    refine ⟨⟨⟨h1, tidy_mapCount hmn (by omega)⟩, h2.1⟩, ?_⟩
    rintro x (rfl | hx)
    · show n ≤ _ + 1
      omega
    · exact h2.2 x hx
theorem tidy_list (E : Ty) (ol : Nat) : ∀ (es : Exprs) (off d : Nat) (Γ : Scope) (m : Nat), n ≤ m →
    tidyL n d (compileList K R E ol es off d Γ m).is
  | .nil, off, d, Γ, m, h => by simp [compileList]
  | .cons T e es, off, d, Γ, m, h => by
    simp only [compileList, tidyL_append]
    exact ⟨⟨tidy_compile e E d Γ m h, tidy_writeMem (by omega)⟩, tidy_list E ol es _ d Γ _ (by omega)⟩
theorem tidy_args : ∀ (es : Exprs) (d : Nat) (Γ : Scope) (m : Nat), n ≤ m → tidyL n d (compileArgs K R es d Γ m).is
  | .nil, d, Γ, m, h => by simp [compileArgs]
  | .cons T e es, d, Γ, m, h => by
    simp only [compileArgs, tidyL_append]
    exact ⟨tidy_compile e T d Γ m h, tidy_args es d Γ _ (by omega)⟩
theorem tidy_nary (o : NOp) (T : Ty) : ∀ (es : Exprs) (d : Nat) (Γ : Scope) (m : Nat), n ≤ m →
    tidyL n d (compileNary K R o T es d Γ m).is
  | .nil, d, Γ, m, h => by simp [compileNary]
  | .cons U e .nil, d, Γ, m, h => by
    simp only [compileNary, tidyL_append]
    exact ⟨tidy_compile e U d Γ m h, tidy_unCode (by omega)⟩
  | .cons U e (.cons U' e' es), d, Γ, m, h => by
    simp only [compileNary, tidyL_append]
    exact ⟨tidy_compile e U d Γ m h, tidy_ops o T (.cons U' e' es) d Γ _ (by omega)⟩
theorem tidy_ops (o : NOp) (T : Ty) : ∀ (es : Exprs) (d : Nat) (Γ : Scope) (m : Nat), n ≤ m →
    tidyL n d (compileOps K R o T es d Γ m).is
  | .nil, d, Γ, m, h => by simp [compileOps]
  | .cons U e es, d, Γ, m, h => by
    simp only [compileOps, tidyL_append, tidyL_cons]
    exact ⟨tidy_compile e U d Γ m h, tidy_call.2 trivial, tidy_ops o T es d Γ _ (by omega)⟩
theorem tidy_eq (T : Ty) : ∀ (es : Exprs) (d : Nat) (Γ : Scope) (m : Nat), n ≤ m →
    tidyL n d (compileEq K R T es d Γ m).is
  | .nil, d, Γ, m, h => by simp [compileEq]
  | .cons U e .nil, d, Γ, m, h => by
    simp only [compileEq, tidyL_append]
    exact ⟨⟨tidy_compile e T d Γ m h, tidy_dropValue⟩, by simp⟩
  | .cons U e (.cons U' e' es), d, Γ, m, h => by
    simp only [compileEq, tidyL_append, tidyL_cons]
    refine ⟨⟨tidy_compile e T d Γ m h, tidy_save (by omega)⟩, tidy_c32,
      tidy_eqs T _ (.cons U' e' es) d Γ _ (by omega) (fun x hx => ?_) (by simp [saveLocals])⟩
    have := mem_saveLocals.1 hx; omega
theorem tidy_eqs (T : Ty) (as : List Nat) : ∀ (es : Exprs) (d : Nat) (Γ : Scope) (m : Nat), n ≤ m →
    (∀ x ∈ as, n ≤ x) → (wty T).length ≤ as.length → tidyL n d (compileEqs K R T as es d Γ m).is
  | .nil, d, Γ, m, h, _, _ => by simp [compileEqs]
  | .cons U e es, d, Γ, m, h, ha, hl => by
    simp only [compileEqs, tidyL_append, tidyL_cons]
    refine ⟨⟨⟨tidy_compile e T d Γ m h, tidy_save (by omega)⟩, tidy_equal T _ _ _ d (by omega) ha (fun x hx => ?_) hl
      (by simp [saveLocals])⟩, by simp [tidyI], tidy_eqs T as es d Γ _ (by omega) ha hl⟩
    have := mem_saveLocals.1 hx; omega
theorem tidy_seq : ∀ (es : Exprs) (d : Nat) (Γ : Scope) (m : Nat), n ≤ m → tidyL n d (compileSeq K R es d Γ m).is
  | .nil, d, Γ, m, h => by simp [compileSeq]
  | .cons T e .nil, d, Γ, m, h => by
    simp only [compileSeq]
    exact tidy_compile e T d Γ m h
  | .cons T e (.cons T' e' es), d, Γ, m, h => by
    simp only [compileSeq, tidyL_append]
    exact ⟨⟨tidy_compile e T d Γ m h, tidy_dropValue⟩, tidy_seq (.cons T' e' es) d Γ _ (by omega)⟩
theorem tidy_branches (a : Bool) : ∀ (es : Exprs) (d : Nat) (Γ : Scope) (m : Nat), n ≤ m →
    tidyL n d (compileBranches K R a es d Γ m).is
  | .nil, d, Γ, m, h => by simp [compileBranches]
  | .cons T e es, d, Γ, m, h => by
    simp only [compileBranches, tidyL_cons]
    exact ⟨tidy_circuit (tidy_compile e T (d + 1) Γ m h), tidy_branches a es d Γ _ (by omega)⟩
theorem tidy_binds : ∀ (bs : Binds) (d : Nat) (Γ : Scope) (m : Nat), n ≤ m → tidyL n d (compileBinds K R bs d Γ m).1.is
  | .nil, d, Γ, m, h => by simp [compileBinds]
  | .cons x T e bs, d, Γ, m, h => by
    simp only [compileBinds, tidyL_append]
    exact ⟨⟨tidy_compile e T d Γ m h, tidy_save (by omega)⟩, tidy_binds bs _ _ _ (by omega)⟩
theorem tidy_fields : ∀ (bs : Binds) (d : Nat) (Γ : Scope) (m : Nat), n ≤ m → tidyL n d (compileFields K R bs d Γ m).1.is
  | .nil, d, Γ, m, h => by simp [compileFields]
  | .cons x T e bs, d, Γ, m, h => by
    simp only [compileFields, tidyL_append]
    exact ⟨⟨tidy_compile e T d Γ m h, tidy_save (by omega)⟩, tidy_fields bs _ _ _ (by omega)⟩
end
end

/-- Any return of a compiled function restores the stack pointer. -/
theorem fn_restores {σ : Type} {M : Wasm.Mod σ} {K : Ctx} {f : FunDef} {j fuel : Nat}
    (hM : M.user j = some (compileFn K f).1) {args us : List Val} {g g' : Store σ}
    (h : invoke M fuel (.user j) args g = .ret us g') : g'.g32 .stackPointer = g.g32 .stackPointer := by
  simp only [invoke, Mod.func, hM] at h
  have hk := tidy_compile (K := K) (R := f.ret) (n := (f.params.flatMap fun p => wty p.2).length + 1) f.body f.ret 0
    (paramScope f.params 0) _ (Nat.le_refl _)
  simp only [compileFn] at h
  generalize (compile K f.ret f.body f.ret 0 (paramScope f.params 0) _) = b at h hk
  generalize List.length (f.params.flatMap fun p => wty p.2) = fp at h hk
  generalize args ++ _ = loc at h
  match fuel with
  | 0 | 1 => simp [exec, Res.toCall, stepB] at h
  | 2 => by_cases hl : fp < loc.length <;> simp [exec, Res.toCall, stepB, lset, hl] at h
  | fuel + 3 =>
    simp only [exec, stepB, lset] at h
    by_cases hl : fp < loc.length
    · simp only [hl, if_true, List.length_nil, Nat.not_lt_zero, if_false, List.take_nil, List.drop_nil] at h
      have hb := exec_kept M fuel 0 b.is [] (loc.set fp (.i32 (g.g32 .stackPointer))) g hk
      have fin : ∀ (s : List Val) l g1, (∀ i, i < fp + 1 → l[i]? = (loc.set fp (.i32 (g.g32 .stackPointer)))[i]?) →
          ∀ fuel, (exec M fuel [lget fp, .b (.global32Set .stackPointer)] s l g1).toCall (wty f.ret).length = .ret us g' →
          g'.g32 .stackPointer = g.g32 .stackPointer := by
        intro s l g1 hl1 fuel h1
        have hfp := hl1 fp (by omega)
        rw [List.getElem?_set_self hl] at hfp
        match fuel with
        | 0 => simp [exec, Res.toCall] at h1
        | 1 => simp [exec, stepB, lget, hfp, Res.toCall] at h1
        | 2 => simp [exec, stepB, lget, hfp, Res.toCall] at h1
        | fuel + 3 =>
          simp only [exec, stepB, lget, hfp, Res.toCall, CRes.ret.injEq] at h1
          rw [← h1.2]
          simp [Store.set32]
      revert hb h
      cases exec M fuel b.is [] (loc.set fp (.i32 (g.g32 .stackPointer))) g with
      | norm s l g1 => exact fun h hb => fin _ _ _ hb _ h
      | br k s l g1 =>
        intro h hb
        obtain rfl : k = 0 := Nat.le_zero.1 hb.1
        exact fin _ _ _ hb.2 _ h
      | ret s g1 => exact fun _ hb => hb.elim
      | trap g1 => intro h; simp [Res.toCall] at h
      | stuck => intro h; simp [Res.toCall] at h
      | oof => intro h; simp [Res.toCall] at h
    · simp [hl, Res.toCall] at h

end Gen
