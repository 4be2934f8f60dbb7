import Verif.Gen.ExprProof7
import Verif.Gen.ExprSeq
import Verif.Gen.ExprList2

/-! Code of expressions: functions and words applied by `fold` and `map`. -/

namespace Gen
open Wasm Spec Host Core

section
variable {p : P} {k : Nat} {wr : Bool} {w : World} {d n : Nat} {er : Bool}
  {stk loc : List Val} {g : Store World}

/-- A boolean on the stack. -/
def bval (b : Bool) : Val := .i32 (if b then 1#32 else 0#32)

/-- `and` (true) or `or` (false) of two booleans. -/
def two (isAnd : Bool) (a b : Bool) : Bool := if isAnd then a && b else a || b

theorem steps_bools {σ : Type} {M : Wasm.Mod σ} {g : Store σ} {isAnd : Bool} : ∀ (x : Bool) (xs : List Bool),
    Steps M (List.replicate xs.length (.b (.i32bin (if isAnd then .and else .or)))) (bval x :: (xs.map bval ++ stk)) loc g
      (bval (xs.foldl (two isAnd) x) :: stk) loc g
  | x, [] => Steps.refl
  | x, y :: ys => by
    have h1 : Steps M [.b (.i32bin (if isAnd then .and else .or))] (bval x :: ((y :: ys).map bval ++ stk)) loc g
        (bval (two isAnd x y) :: (ys.map bval ++ stk)) loc g := by
      refine Steps.of_wp fun Q => ?_
      cases isAnd <;> cases x <;> cases y <;> simp only [bval, two, List.map_cons, List.cons_append] <;> wpl <;> rfl
    exact h1.append (steps_bools (two isAnd x y) ys)

theorem foldl_and : ∀ (bs : List Bool) (b : Bool), bs.foldl (two true) b = (b && bs.all id)
  | [], b => by simp
  | c :: bs, b => by simp only [List.foldl_cons, foldl_and bs, two, List.all_cons, id]; cases b <;> simp

theorem foldl_or : ∀ (bs : List Bool) (b : Bool), bs.foldl (two false) b = (b || bs.any id)
  | [], b => by simp
  | c :: bs, b => by simp only [List.foldl_cons, foldl_or bs, two, List.any_cons, id]; cases b <;> simp

theorem rep_bools {m : Mem} {b : Reg} : ∀ {Ts : List Ty} {vs : List Value} {ws : List Val}, (∀ U ∈ Ts, U = .bool) → RepAll m b Ts vs ws →
    ∃ bs, bools vs = some bs ∧ ws = bs.map bval ∧ bs.length = Ts.length
  | [], vs, ws, _, h => by obtain ⟨rfl, rfl⟩ := h; exact ⟨[], rfl, rfl, rfl⟩
  | T :: Ts, vs, ws, ht, h => by
    obtain ⟨x, r, us, rs, rfl, rfl, h1, h2⟩ := h
    obtain rfl := ht T (by simp)
    obtain ⟨c, rfl, rfl⟩ := h1
    obtain ⟨bs, h3, rfl, h4⟩ := rep_bools (fun U hU => ht U (by simp [hU])) h2
    exact ⟨c :: bs, by simp [bools, h3], rfl, by simp [h4]⟩

/-- `and`, `or` as functions. -/
theorem does_bools {isAnd : Bool} {Ts : List Ty} {vs : List Value} {ws : List Val} {s : St} (h0 : Ts ≠ []) (ht : ∀ U ∈ Ts, U = .bool)
    (hr : RepAll g.mem (p.reg g) Ts vs ws) (hh : g.host = Gen.put w s) (hs : StOk p.K w.contract s) :
    ∃ bs, bools vs = some bs ∧
    Does p w d er n 0 (boolWord isAnd Ts.length) (ws.reverse ++ stk) stk loc g
      (.val (.bool (if isAnd then bs.all id else bs.any id)) s) (IsRep p .bool) := by
  obtain ⟨bs, h1, rfl, h2⟩ := rep_bools ht hr
  refine ⟨bs, h1, ?_⟩
  obtain ⟨y, ys, hy⟩ : ∃ y ys, bs.reverse = y :: ys := by
    cases h : bs.reverse with
    | nil =>
      rw [List.reverse_eq_nil_iff] at h
      subst h
      exact absurd (List.length_eq_zero_iff.1 h2.symm) h0
    | cons y ys => exact ⟨y, ys, rfl⟩
  have hb : bs = ys.reverse ++ [y] := by rw [← List.reverse_reverse bs, hy]; simp
  have hl : Ts.length - 1 = ys.length := by rw [← h2, hb]; simp
  rw [← List.map_reverse, hy, boolWord, hl]
  have hv : ys.foldl (two isAnd) y = if isAnd then bs.all id else bs.any id := by
    cases isAnd
    · rw [foldl_or, hb]; simp [Bool.or_comm]
    · rw [foldl_and, hb]; simp [Bool.and_comm]
  rw [← hv]
  exact Does.ends (ws := [bval _]) (by simpa using steps_bools y ys) Fr.refl hh hs ⟨_, rfl, rfl⟩

theorem light_pre {q : Prim} {T : Ty} (h : Light q) : preVals q T = [] := by
  cases q <;> first | rfl | exact h.elim

/-- What `fold` does with an element and the accumulator. -/
theorem does_fn {f : Fn} {Ts : List Ty} {T : Ty} {c0 : Nat} {c : Cx} {s : St} {vs : List Value} {ws : List Val}
    (hC : ContractOk p.K) (hL : Linked p.K p.M) (hF : ∀ j, j < k → FnGood p.K p.M j) (hb : need p.K k ≤ p.base)
    (ht : fnTy p.K k wr f Ts T) (h2 : Ts.length = 2) (hT : hasInMem T = false) (cx : CxOk c w wr) (iv : Inv p w s 0 g)
    (hl : n + (fnAt p.K c0 f Ts T n).ls.length ≤ loc.length) (hr : RepAll g.mem (p.reg g) Ts vs ws) :
    Does p w d er n 0 (fnAt p.K c0 f Ts T n).is (ws.reverse ++ stk) stk loc g (f.apply (sem p.K.fns k) vs c s) (IsRep p T) := by
  cases f with
  | user j =>
    obtain ⟨hj, fd, hf, rfl, rfl, hw⟩ := ht
    simp only [fnAt, hf, callAt, hT] at hl ⊢
    simp only [Fn.apply]
    rw [sem_lt p.K.fns hj fd hf]
    refine (Does.callFn (p := p) (d := d) (er := er) (n := n) (stk := stk) (loc := loc) hL (hF j hj) hf (hC.fns j fd hf)
      (Nat.le_trans (need_le hj) hb) (cx.sub hw) iv hl hr).mono (Nat.le_refl _) ?_
    rintro v s' us loc' g' - - ⟨hi', -, hv⟩
    exact hv.flat (hasInMem_flat hT)
  | word q =>
    have := prim_post (p := p) (w := w) (d := d) (er := er) (n := n) (stk := stk) (loc := loc) ht.2 hr
      (by have := iv.room; omega) iv.host iv.st hl
    rwa [light_pre ht.1] at this
  | nary o =>
    obtain ⟨h1, h3, h4⟩ := ht
    match Ts, h2 with
    | [T1, T2], _ =>
      obtain rfl := h4 T1 (by simp)
      obtain rfl := h4 T2 (by simp)
      obtain ⟨x, r, us, rs, rfl, rfl, hx, y, r', us', rs', rfl, rfl, hy, rfl, rfl⟩ := hr
      have := Does.op (p := p) (w := w) (d := d) (er := er) (n := n) (stk := stk) (loc := loc) (o := o) h1 hx hy iv.host iv.st
      have e : o.eval [x, y] = o.bin x y := by simp only [NOp.eval, NOp.fold]; cases o.bin x y <;> rfl
      simp only [fnAt, Fn.apply, e]
      simpa using this
  | and_ =>
    obtain ⟨rfl, h1, h3⟩ := ht
    obtain ⟨bs, h4, h5⟩ := does_bools (p := p) (w := w) (d := d) (er := er) (n := n) (stk := stk) (loc := loc) (isAnd := true) h1 h3 hr iv.host iv.st
    simp only [fnAt, Fn.apply, h4]
    exact h5
  | or_ =>
    obtain ⟨rfl, h1, h3⟩ := ht
    obtain ⟨bs, h4, h5⟩ := does_bools (p := p) (w := w) (d := d) (er := er) (n := n) (stk := stk) (loc := loc) (isAnd := false) h1 h3 hr iv.host iv.st
    simp only [fnAt, Fn.apply, h4]
    exact h5
end
end Gen
