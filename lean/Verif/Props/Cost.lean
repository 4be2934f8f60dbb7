import Verif.Gen.CostProof

/-!
C28: the code that the compiler emits to charge costs. `emitCharge c n` is the instruction sequence
charging word cost `c` with factor `n`; `Ends M code stk loc g r` says that running it terminates
with result `r`; `costAt` (Spec/Cost.lean) is the mathematical cost function.
-/

namespace Props
open Wasm Spec Gen
variable {σ : Type} (M : Wasm.Mod σ) (g : Store σ)

theorem budget_charged {g : Store σ} {x y : G64} {C : Nat} (h : y ≠ x) :
    budget (charged g x C) y = budget g y := by
  simp [budget, charged, Store.set64, h]

/-- Enough budget in every dimension: each budget decreases by exactly the cost, and nothing else
(memory, other globals, host state, locals, operand stack) changes. -/
theorem C28_charge_partial (c : WordCost) (s : Scalar) (n : Nat) (stk loc : List Val)
    (hs : ScalarIs loc s n) (hn : n < 2 ^ 32)
    (hdef : ∀ x, cafDefined (dimOf c x) n) (hB : ∀ x, budget g x < 2 ^ 63)
    (hC : ∀ x, costAt (dimOf c x) n < 2 ^ 63)
    (henough : ∀ x, costAt (dimOf c x) n ≤ budget g x) :
    ∃ g', Ends M (emitCharge c s) stk loc g (.norm stk loc g') ∧
      (∀ x, budget g' x = budget g x - costAt (dimOf c x) n) ∧
      g'.mem = g.mem ∧ g'.g32 = g.g32 ∧ g'.host = g.host := by
  have e : ∀ x, (BitVec.ofNat 64 (costAt (dimOf c x) n)).toNat = costAt (dimOf c x) n := fun x => by
    have := hC x; simp only [BitVec.toNat_ofNat]; omega
  have hsub : ∀ x, (g.g64 x - BitVec.ofNat 64 (costAt (dimOf c x) n)).toNat =
      budget g x - costAt (dimOf c x) n := fun x => by
    have h1 := henough x; have h2 := e x; have h3 := hB x
    simp only [budget] at *
    rw [BitVec.toNat_sub, h2]; omega
  refine ⟨charged (charged (charged (charged (charged g .costRuntime (costAt c.runtime n))
    .costReadCount (costAt c.readCount n)) .costReadLength (costAt c.readLength n))
    .costWriteCount (costAt c.writeCount n)) .costWriteLength (costAt c.writeLength n),
    (ends_iff (by simp)).2 ?_, ?_⟩
  · unfold emitCharge
    rw [← List.append_nil (emitWithCaf .costWriteLength _ _ _)]
    rw [wp_caf (c := c.runtime) hs hn (hdef .costRuntime) (hB _) (hC .costRuntime), if_pos (by exact henough .costRuntime),
      wp_caf (c := c.readCount) hs hn (hdef .costReadCount) (by simp only [budget_charged, ne_eq, reduceCtorEq, not_false_eq_true]; exact hB _) (hC .costReadCount),
      if_pos (by simp only [budget_charged, ne_eq, reduceCtorEq, not_false_eq_true]; exact henough .costReadCount),
      wp_caf (c := c.readLength) hs hn (hdef .costReadLength) (by simp only [budget_charged, ne_eq, reduceCtorEq, not_false_eq_true]; exact hB _) (hC .costReadLength),
      if_pos (by simp only [budget_charged, ne_eq, reduceCtorEq, not_false_eq_true]; exact henough .costReadLength),
      wp_caf (c := c.writeCount) hs hn (hdef .costWriteCount) (by simp only [budget_charged, ne_eq, reduceCtorEq, not_false_eq_true]; exact hB _) (hC .costWriteCount),
      if_pos (by simp only [budget_charged, ne_eq, reduceCtorEq, not_false_eq_true]; exact henough .costWriteCount),
      wp_caf (c := c.writeLength) hs hn (hdef .costWriteLength) (by simp only [budget_charged, ne_eq, reduceCtorEq, not_false_eq_true]; exact hB _) (hC .costWriteLength),
      if_pos (by simp only [budget_charged, ne_eq, reduceCtorEq, not_false_eq_true]; exact henough .costWriteLength), wp_nil]
  · refine ⟨fun x => ?_, rfl, rfl, rfl⟩
    rw [← hsub x]
    cases x <;> simp [budget, charged, Store.set64, dimOf]

/-- Some budget is exceeded: execution aborts with the overrun code of the first exceeded
dimension (in charging order); memory and host state are untouched and no budget has grown, except
that the exceeded one is left below zero. -/
theorem C28_overrun_partial (c : WordCost) (s : Scalar) (n : Nat) (stk loc : List Val)
    (hs : ScalarIs loc s n) (hn : n < 2 ^ 32)
    (hdef : ∀ x, cafDefined (dimOf c x) n) (hB : ∀ x, budget g x < 2 ^ 63)
    (hC : ∀ x, costAt (dimOf c x) n < 2 ^ 63)
    (pre post : List G64) (x : G64) (hx : dims = pre ++ x :: post)
    (hpre : ∀ y ∈ pre, costAt (dimOf c y) n ≤ budget g y)
    (hover : budget g x < costAt (dimOf c x) n) :
    ∃ g', Ends M (emitCharge c s) stk loc g (.trap g') ∧
      g'.g32 .errCode = BitVec.ofNat 32 (overrunCode x) ∧
      (∀ y ∈ pre, budget g' y = budget g y - costAt (dimOf c y) n) ∧
      (g'.g64 x).toInt < 0 ∧ (∀ y ∈ post, budget g' y = budget g y) ∧
      g'.mem = g.mem ∧ g'.host = g.host := by
  have e : ∀ x, (BitVec.ofNat 64 (costAt (dimOf c x) n)).toNat = costAt (dimOf c x) n := fun x => by
    have := hC x; simp only [BitVec.toNat_ofNat]; omega
  have hsub : ∀ y, costAt (dimOf c y) n ≤ budget g y →
      (g.g64 y - BitVec.ofNat 64 (costAt (dimOf c y) n)).toNat =
      budget g y - costAt (dimOf c y) n := fun x h1 => by
    have h2 := e x; have h3 := hB x
    simp only [budget] at *
    rw [BitVec.toNat_sub, h2]; omega
  have hneg : (g.g64 x - BitVec.ofNat 64 (costAt (dimOf c x) n)).toInt < 0 := by
    have h2 := e x; have h3 := hB x; have h4 := hC x
    simp only [budget] at *
    rw [BitVec.toInt_sub, BitVec.toInt_eq_toNat_of_lt (by omega),
      BitVec.toInt_eq_toNat_of_lt (by omega), Int.bmod_def]; omega
  have dsplit : (pre = [] ∧ x = .costRuntime ∧ post = [.costReadCount, .costReadLength, .costWriteCount, .costWriteLength])
    ∨ (pre = [.costRuntime] ∧ x = .costReadCount ∧ post = [.costReadLength, .costWriteCount, .costWriteLength])
    ∨ (pre = [.costRuntime, .costReadCount] ∧ x = .costReadLength ∧ post = [.costWriteCount, .costWriteLength])
    ∨ (pre = [.costRuntime, .costReadCount, .costReadLength] ∧ x = .costWriteCount ∧ post = [.costWriteLength])
    ∨ (pre = [.costRuntime, .costReadCount, .costReadLength, .costWriteCount] ∧ x = .costWriteLength ∧ post = []) := by
    unfold dims at hx
    match pre, hx with
    | [], hx => simp at hx; simp [hx]
    | [a], hx => simp at hx; simp [hx]
    | [a, b], hx => simp at hx; simp [hx]
    | [a, b, c'], hx => simp at hx; simp [hx]
    | [a, b, c', d], hx => simp at hx; simp [hx]
    | a :: b :: c' :: d :: f :: l, hx => simp at hx
  unfold emitCharge
  rw [← List.append_nil (emitWithCaf .costWriteLength _ _ _)]
  rcases dsplit with ⟨rfl, rfl, rfl⟩ | ⟨rfl, rfl, rfl⟩ | ⟨rfl, rfl, rfl⟩ | ⟨rfl, rfl, rfl⟩ | ⟨rfl, rfl, rfl⟩
  · refine ⟨(charged g .costRuntime (costAt c.runtime n)).failed 100, (ends_iff (by simp)).2 ?_, rfl, ?_, ?_, ?_, rfl, rfl⟩
    · rw [wp_caf (c := c.runtime) hs hn (hdef .costRuntime) (hB _) (hC .costRuntime), if_neg (by simp only [dimOf] at *; omega)]
    · simp
    · simpa [charged, Store.failed, Store.set32, Store.set64, dimOf] using hneg
    · intro y hy; simp at hy; rcases hy with rfl | rfl | rfl | rfl <;> simp [budget, charged, Store.failed, Store.set32, Store.set64]
  · have p1 := hpre .costRuntime (by simp)
    refine ⟨(charged (charged g .costRuntime (costAt c.runtime n)) .costReadCount (costAt c.readCount n)).failed 101, (ends_iff (by simp)).2 ?_, rfl, ?_, ?_, ?_, rfl, rfl⟩
    · rw [wp_caf (c := c.runtime) hs hn (hdef .costRuntime) (hB _) (hC .costRuntime), if_pos (by exact p1),
        wp_caf (c := c.readCount) hs hn (hdef .costReadCount) (by simp only [budget_charged, ne_eq, reduceCtorEq, not_false_eq_true]; exact hB _) (hC .costReadCount),
        if_neg (by simp only [budget_charged, ne_eq, reduceCtorEq, not_false_eq_true]; simp only [dimOf] at *; omega)]
    · intro y hy; rw [← hsub y (hpre y hy)]
      simp at hy; subst hy; simp [budget, charged, Store.failed, Store.set32, Store.set64, dimOf]
    · simpa [charged, Store.failed, Store.set32, Store.set64, dimOf] using hneg
    · intro y hy; simp at hy; rcases hy with rfl | rfl | rfl <;> simp [budget, charged, Store.failed, Store.set32, Store.set64]
  · have p1 := hpre .costRuntime (by simp)
    have p2 := hpre .costReadCount (by simp)
    refine ⟨(charged (charged (charged g .costRuntime (costAt c.runtime n)) .costReadCount (costAt c.readCount n)) .costReadLength (costAt c.readLength n)).failed 102, (ends_iff (by simp)).2 ?_, rfl, ?_, ?_, ?_, rfl, rfl⟩
    · rw [wp_caf (c := c.runtime) hs hn (hdef .costRuntime) (hB _) (hC .costRuntime), if_pos (by exact p1),
        wp_caf (c := c.readCount) hs hn (hdef .costReadCount) (by simp only [budget_charged, ne_eq, reduceCtorEq, not_false_eq_true]; exact hB _) (hC .costReadCount),
        if_pos (by simp only [budget_charged, ne_eq, reduceCtorEq, not_false_eq_true]; exact p2),
        wp_caf (c := c.readLength) hs hn (hdef .costReadLength) (by simp only [budget_charged, ne_eq, reduceCtorEq, not_false_eq_true]; exact hB _) (hC .costReadLength),
        if_neg (by simp only [budget_charged, ne_eq, reduceCtorEq, not_false_eq_true]; simp only [dimOf] at *; omega)]
    · intro y hy; rw [← hsub y (hpre y hy)]
      simp at hy; rcases hy with rfl | rfl <;> simp [budget, charged, Store.failed, Store.set32, Store.set64, dimOf]
    · simpa [charged, Store.failed, Store.set32, Store.set64, dimOf] using hneg
    · intro y hy; simp at hy; rcases hy with rfl | rfl <;> simp [budget, charged, Store.failed, Store.set32, Store.set64]
  · have p1 := hpre .costRuntime (by simp)
    have p2 := hpre .costReadCount (by simp)
    have p3 := hpre .costReadLength (by simp)
    refine ⟨(charged (charged (charged (charged g .costRuntime (costAt c.runtime n)) .costReadCount (costAt c.readCount n)) .costReadLength (costAt c.readLength n)) .costWriteCount (costAt c.writeCount n)).failed 103, (ends_iff (by simp)).2 ?_, rfl, ?_, ?_, ?_, rfl, rfl⟩
    · rw [wp_caf (c := c.runtime) hs hn (hdef .costRuntime) (hB _) (hC .costRuntime), if_pos (by exact p1),
        wp_caf (c := c.readCount) hs hn (hdef .costReadCount) (by simp only [budget_charged, ne_eq, reduceCtorEq, not_false_eq_true]; exact hB _) (hC .costReadCount),
        if_pos (by simp only [budget_charged, ne_eq, reduceCtorEq, not_false_eq_true]; exact p2),
        wp_caf (c := c.readLength) hs hn (hdef .costReadLength) (by simp only [budget_charged, ne_eq, reduceCtorEq, not_false_eq_true]; exact hB _) (hC .costReadLength),
        if_pos (by simp only [budget_charged, ne_eq, reduceCtorEq, not_false_eq_true]; exact p3),
        wp_caf (c := c.writeCount) hs hn (hdef .costWriteCount) (by simp only [budget_charged, ne_eq, reduceCtorEq, not_false_eq_true]; exact hB _) (hC .costWriteCount),
        if_neg (by simp only [budget_charged, ne_eq, reduceCtorEq, not_false_eq_true]; simp only [dimOf] at *; omega)]
    · intro y hy; rw [← hsub y (hpre y hy)]
      simp at hy; rcases hy with rfl | rfl | rfl <;> simp [budget, charged, Store.failed, Store.set32, Store.set64, dimOf]
    · simpa [charged, Store.failed, Store.set32, Store.set64, dimOf] using hneg
    · intro y hy; simp at hy; rcases hy with rfl; simp [budget, charged, Store.failed, Store.set32, Store.set64]
  · have p1 := hpre .costRuntime (by simp)
    have p2 := hpre .costReadCount (by simp)
    have p3 := hpre .costReadLength (by simp)
    have p4 := hpre .costWriteCount (by simp)
    refine ⟨(charged (charged (charged (charged (charged g .costRuntime (costAt c.runtime n)) .costReadCount (costAt c.readCount n)) .costReadLength (costAt c.readLength n)) .costWriteCount (costAt c.writeCount n)) .costWriteLength (costAt c.writeLength n)).failed 104, (ends_iff (by simp)).2 ?_, rfl, ?_, ?_, ?_, rfl, rfl⟩
    · rw [wp_caf (c := c.runtime) hs hn (hdef .costRuntime) (hB _) (hC .costRuntime), if_pos (by exact p1),
        wp_caf (c := c.readCount) hs hn (hdef .costReadCount) (by simp only [budget_charged, ne_eq, reduceCtorEq, not_false_eq_true]; exact hB _) (hC .costReadCount),
        if_pos (by simp only [budget_charged, ne_eq, reduceCtorEq, not_false_eq_true]; exact p2),
        wp_caf (c := c.readLength) hs hn (hdef .costReadLength) (by simp only [budget_charged, ne_eq, reduceCtorEq, not_false_eq_true]; exact hB _) (hC .costReadLength),
        if_pos (by simp only [budget_charged, ne_eq, reduceCtorEq, not_false_eq_true]; exact p3),
        wp_caf (c := c.writeCount) hs hn (hdef .costWriteCount) (by simp only [budget_charged, ne_eq, reduceCtorEq, not_false_eq_true]; exact hB _) (hC .costWriteCount),
        if_pos (by simp only [budget_charged, ne_eq, reduceCtorEq, not_false_eq_true]; exact p4),
        wp_caf (c := c.writeLength) hs hn (hdef .costWriteLength) (by simp only [budget_charged, ne_eq, reduceCtorEq, not_false_eq_true]; exact hB _) (hC .costWriteLength),
        if_neg (by simp only [budget_charged, ne_eq, reduceCtorEq, not_false_eq_true]; simp only [dimOf] at *; omega)]
    · intro y hy; rw [← hsub y (hpre y hy)]
      simp at hy; rcases hy with rfl | rfl | rfl | rfl <;> simp [budget, charged, Store.failed, Store.set32, Store.set64, dimOf]
    · simpa [charged, Store.failed, Store.set32, Store.set64, dimOf] using hneg
    · simp

/-- Coefficients small enough never to overflow a 32-bit factor. -/
def cafSmall : Caf → Bool
  | .const c => c < 2 ^ 26
  | .linear a b | .logN a b | .nLogN a b => a < 2 ^ 26 && b < 2 ^ 26
  | .none => true

theorem costAt_small {c : Caf} (h : cafSmall c = true) {n : Nat} (hn : n < 2 ^ 32) :
    costAt c n < 2 ^ 63 := by
  have hl : Nat.log2 n ≤ 31 := by
    rcases Nat.eq_zero_or_pos n with h0 | h0
    · subst h0; decide
    · have := (Nat.log2_lt (k := 32) (show n ≠ 0 by omega)).2 hn; omega
  cases c with
  | const c => simp [cafSmall] at h; simp only [costAt]; omega
  | linear a b =>
    simp [cafSmall] at h; simp only [costAt]
    have := Nat.mul_le_mul (show a ≤ 2 ^ 26 by omega) (show n ≤ 2 ^ 32 by omega); omega
  | logN a b =>
    simp [cafSmall] at h; simp only [costAt]
    have := Nat.mul_le_mul (show a ≤ 2 ^ 26 by omega) hl; omega
  | nLogN a b =>
    simp [cafSmall] at h; simp only [costAt]
    have h1 := Nat.mul_le_mul (show n ≤ 2 ^ 32 by omega) hl
    have := Nat.mul_le_mul (show a ≤ 2 ^ 26 by omega) h1; omega
  | none => simp [costAt]

/-- No word of any Clarity version has a cost that could reach `2^63`: the hypothesis `hC` of the two
theorems above holds for every word the compiler can charge, for every factor. -/
theorem C28_tables (w : String) (c : WordCost)
    (h : (w, c) ∈ wordCosts1 ++ wordCosts2 ++ wordCosts3) (n : Nat) (hn : n < 2 ^ 32) (x : G64) :
    costAt (dimOf c x) n < 2 ^ 63 := by
  have key : ∀ p ∈ wordCosts1 ++ wordCosts2 ++ wordCosts3, ∀ x, cafSmall (dimOf p.2 x) = true := by
    have : (wordCosts1 ++ wordCosts2 ++ wordCosts3).all (fun p => dims.all fun x => cafSmall (dimOf p.2 x)) = true := by
      decide +kernel
    intro p hp x
    rw [List.all_eq_true] at this
    have := this p hp
    rw [List.all_eq_true] at this
    exact this x (by cases x <;> simp [dims])
  exact costAt_small (key _ h x) hn

/-- Charging `(tuple-get ..)` in Clarity 1 on a tuple of 4 fields, with 10000 units: 7000 remain. -/
example (loc : List Val) (hb : ∀ x, budget g x = 10000) :
    ∃ g', Ends M (emitCharge ⟨.logN 1000 1000, .none, .none, .none, .none⟩ (.compile 4)) [] loc g
      (.norm [] loc g') ∧ budget g' .costRuntime = 7000 ∧ budget g' .costReadCount = 10000 := by
  have l4 : Nat.log2 4 = 2 := by decide
  obtain ⟨g', h1, h2, _⟩ := C28_charge_partial M g ⟨.logN 1000 1000, .none, .none, .none, .none⟩
    (.compile 4) 4 [] loc rfl (by omega) (by intro x; cases x <;> simp [cafDefined, dimOf])
    (by intro x; rw [hb]; omega)
    (by intro x; cases x <;> simp [costAt, dimOf, l4])
    (by intro x; rw [hb]; cases x <;> simp [costAt, dimOf, l4])
  exact ⟨g', h1, by rw [h2, hb]; simp [costAt, dimOf, l4], by rw [h2, hb]; simp [costAt, dimOf]⟩

/-- The unrestricted claim is false: the budgets are 64-bit unsigned numbers for the host, but the
emitted check is signed, so a budget of `2^63` or more aborts although it covers the cost ... -/
theorem C28_big_budget_counterexample (g : Store σ) (loc : List Val) :
    let g := g.set64 .costRuntime (BitVec.ofNat 64 (2 ^ 63 + 5000))
    costAt (.const 1000) 1 ≤ budget g .costRuntime ∧
    ∃ g', Ends M (emitCharge ⟨.const 1000, .none, .none, .none, .none⟩ (.compile 1)) [] loc g
      (.trap g') := by
  intro g'
  have hb : g'.g64 .costRuntime = BitVec.ofNat 64 (2 ^ 63 + 5000) := by simp [g', Store.set64]
  refine ⟨by rw [budget, hb]; decide, ⟨(g'.set64 .costRuntime
    (BitVec.ofNat 64 (2 ^ 63 + 5000) - 1000#64)).failed 100, (ends_iff (by simp)).2 ?_⟩⟩
  simp only [emitCharge, emitWithCaf, cafConst, scalarGet, subCheck, List.cons_append,
    List.nil_append, List.append_nil]
  wpx [hb]
  rw [if_neg]
  · rfl
  · simp only [Store.set64, if_true]; decide

/-- ... and a logarithmic cost function applied to `n = 0` takes `log2 0 = -1` and increases the
budget. -/
theorem C28_log_zero_counterexample (g : Store σ) (loc : List Val) (hb : budget g .costRuntime = 5000) :
    ∃ g', Ends M (emitCharge ⟨.logN 1000 100, .none, .none, .none, .none⟩ (.compile 0)) [] loc g
      (.norm [] loc g') ∧ budget g' .costRuntime = 5900 := by
  have hb' : g.g64 .costRuntime = 5000#64 := by
    apply BitVec.eq_of_toNat_eq; rw [← budget, hb]; rfl
  refine ⟨g.set64 .costRuntime 5900#64, (ends_iff (by simp)).2 ?_, by simp [budget, Store.set64]⟩
  simp only [emitCharge, emitWithCaf, cafLogN, scalarGet, subCheck, List.cons_append,
    List.nil_append, List.append_nil]
  wpx [hb']
  have e : 5000#64 - ((63#64 - clz 0#64) * 1000#64 + 100#64) = 5900#64 := by decide
  rw [e, if_pos]
  simp only [Store.set64, if_true]; decide

end Props
