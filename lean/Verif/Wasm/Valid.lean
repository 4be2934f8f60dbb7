import Verif.Wasm.WP

/-!
Wasm validation (WebAssembly core specification §3.3) for the subset, as an executable checker, and
its soundness: code accepted by the checker never gets stuck and produces values of the right types.
Since block types are stored as counts only, the checker infers the result types of a block from its
fall-through and its branches. Stack types have their top at the head. Dead code is not checked.
-/

namespace Wasm

variable {σ : Type} {M : Mod σ}

/-- Result of checking: the stack type on normal completion (`none`: never), and the stack types at
the branches, with their label. -/
structure Out where
  fall : Option (List VT)
  brs : List (Nat × List VT)

/-- Types of basic instructions. -/
def typB (loc : List VT) (op : Basic) (st : List VT) : Option (List VT) :=
  match op, st with
  | .const v, st => some (v.ty :: st)
  | .i32bin _, .i32 :: .i32 :: st => some (.i32 :: st)
  | .i64bin _, .i64 :: .i64 :: st => some (.i64 :: st)
  | .i32div _, .i32 :: .i32 :: st => some (.i32 :: st)
  | .i64div _, .i64 :: .i64 :: st => some (.i64 :: st)
  | .i32rel _, .i32 :: .i32 :: st => some (.i32 :: st)
  | .i64rel _, .i64 :: .i64 :: st => some (.i32 :: st)
  | .i32eqz, .i32 :: st => some (.i32 :: st)
  | .i64eqz, .i64 :: st => some (.i32 :: st)
  | .i32clz, .i32 :: st => some (.i32 :: st)
  | .i64clz, .i64 :: st => some (.i64 :: st)
  | .i32wrap, .i64 :: st => some (.i32 :: st)
  | .i64extU, .i32 :: st => some (.i64 :: st)
  | .i64extS, .i32 :: st => some (.i64 :: st)
  | .drop, _ :: st => some st
  | .select, .i32 :: b :: a :: st => if a = b then some (a :: st) else none
  | .localGet n, st => (loc[n]?).map (· :: st)
  | .localSet n, v :: st => if loc[n]? = some v then some st else none
  | .localTee n, v :: st => if loc[n]? = some v then some (v :: st) else none
  | .global32Get _, st => some (.i32 :: st)
  | .global32Set _, .i32 :: st => some st
  | .global64Get _, st => some (.i64 :: st)
  | .global64Set _, .i64 :: st => some st
  | .i32load _ _, .i32 :: st => some (.i32 :: st)
  | .i64load _ _, .i32 :: st => some (.i64 :: st)
  | .i32store _ _, .i32 :: .i32 :: st => some st
  | .i64store _ _, .i64 :: .i32 :: st => some st
  | .v128load _, .i32 :: st => some (.v128 :: st)
  | .v128store _, .v128 :: .i32 :: st => some st
  | .v128and, .v128 :: .v128 :: st => some (.v128 :: st)
  | .v128xor, .v128 :: .v128 :: st => some (.v128 :: st)
  | .v128anyTrue, .v128 :: st => some (.i32 :: st)
  | .i8x16swizzle, .v128 :: .v128 :: st => some (.v128 :: st)
  | .i64x2extract _, .v128 :: st => some (.i64 :: st)
  | .memCopy, .i32 :: .i32 :: .i32 :: st => some st
  | .memFill, .i32 :: .i32 :: .i32 :: st => some st
  | _, _ => none

/-- The type expected at the end of a block: that of the fall-through or of the first branch. -/
def Out.target (nr : Nat) (o : Out) : Option (List VT) :=
  match o.fall with
  | some s => some s
  | none => ((o.brs.lookup 0).map (·.take nr))

/-- Branches to enclosing labels. -/
def Out.outer (o : Out) : List (Nat × List VT) :=
  o.brs.filterMap fun (k, s) => match k with
    | 0 => none
    | k + 1 => some (k, s)

/-- Leaving a block with `nr` results, above `rest`. -/
def Out.close (nr : Nat) (rest : List VT) (o : Out) : Option Out :=
  match o.target nr with
  | none => some ⟨none, o.outer⟩
  | some ts =>
    if ts.length = nr ∧ (∀ p ∈ o.brs, p.1 = 0 → p.2.take nr = ts) then
      some ⟨some (ts ++ rest), o.outer⟩
    else none

/-- Leaving a loop with parameter types `ps`. -/
def Out.closeLoop (nr : Nat) (ps rest : List VT) (o : Out) : Option Out :=
  if (∀ p ∈ o.brs, p.1 = 0 → p.2.take ps.length = ps) ∧ (∀ s ∈ o.fall, s.length = nr) then
    some ⟨o.fall.map (· ++ rest), o.outer⟩
  else none

/-- Merging the two arms of a conditional. -/
def Out.merge (a b : Out) : Option Out :=
  match a.fall, b.fall with
  | none, f => some ⟨f, a.brs ++ b.brs⟩
  | f, none => some ⟨f, a.brs ++ b.brs⟩
  | some x, some y => if x = y then some ⟨some x, a.brs ++ b.brs⟩ else none

/-- Calling a function of type `ps → rs`. -/
def typCall (ps rs st : List VT) : Option Out :=
  if st.take ps.length = ps.reverse then some ⟨some (rs.reverse ++ st.drop ps.length), []⟩ else none

mutual
/-- Check one instruction. -/
def tyI (sg : FId → Option (List VT × List VT)) (loc res : List VT) (i : Instr) (st : List VT) :
    Option Out :=
  match i with
  | .b op => (typB loc op st).map fun s => ⟨some s, []⟩
  | .block np nr body =>
    if st.length < np then none else (tyL sg loc res body (st.take np)).bind (·.close nr (st.drop np))
  | .loop np nr body =>
    if st.length < np then none else
      (tyL sg loc res body (st.take np)).bind (·.closeLoop nr (st.take np) (st.drop np))
  | .ite np nr t e =>
    match st with
    | .i32 :: st =>
      if st.length < np then none else
      ((tyL sg loc res t (st.take np)).bind (·.close nr (st.drop np))).bind fun a =>
      ((tyL sg loc res e (st.take np)).bind (·.close nr (st.drop np))).bind fun b => a.merge b
    | _ => none
  | .br l => some ⟨none, [(l, st)]⟩
  | .brIf l =>
    match st with
    | .i32 :: st => some ⟨some st, [(l, st)]⟩
    | _ => none
  | .ret => if st.take res.length = res.reverse then some ⟨none, []⟩ else none
  | .unreachable => some ⟨none, []⟩
  | .call f => (sg f).bind fun (ps, rs) => typCall ps rs st
  | .callIndirect ps rs =>
    match st with
    | .i32 :: st => typCall ps rs st
    | _ => none
/-- Check a sequence. -/
def tyL (sg : FId → Option (List VT × List VT)) (loc res : List VT) (is : List Instr) (st : List VT) :
    Option Out :=
  match is with
  | [] => some ⟨some st, []⟩
  | i :: is =>
    (tyI sg loc res i st).bind fun o =>
      match o.fall with
      | none => some o
      | some st' => (tyL sg loc res is st').map fun o' => ⟨o'.fall, o.brs ++ o'.brs⟩
end

/-- A function body is valid: it leaves exactly the results, and branches to its outermost label
carry the results. -/
def Func.valid (sg : FId → Option (List VT × List VT)) (d : Func) : Bool :=
  match tyL sg (d.params ++ d.locals) d.results d.body [] with
  | none => false
  | some o => decide ((∀ s ∈ o.fall, s = d.results.reverse) ∧
      ∀ p ∈ o.brs, p.1 = 0 ∧ p.2.take d.results.length = d.results.reverse)

/-- The types of a list of values. -/
def tys (vs : List Val) : List VT := vs.map Val.ty

/-- A module is valid: its own functions are, and host functions return values of their types. -/
structure Mod.Valid (M : Mod σ) : Prop where
  user : ∀ k d, M.user k = some d → d.valid M.sig = true
  std : ∀ f, (stdFunc f).valid M.sig = true
  host : ∀ h args g vs g', tys args = (hostSig h).1 → M.host h args g = .ret vs g' →
    tys vs = (hostSig h).2

/-- An execution result agrees with the checker's prediction. -/
def ResTy (o : Out) (loc res : List VT) : Res σ → Prop
  | .norm s l _ => o.fall = some (tys s) ∧ tys l = loc
  | .br k s l _ => (k, tys s) ∈ o.brs ∧ tys l = loc
  | .ret s _ => (tys s).take res.length = res.reverse
  | .trap _ => True
  | .stuck => False
  | .oof => True

/-- A call result has the result types. -/
def CResTy (res : List VT) : CRes σ → Prop
  | .ret vs _ => tys vs = res
  | .trap _ => True
  | .stuck => False
  | .oof => True

theorem tys_take (vs : List Val) (n : Nat) : tys (vs.take n) = (tys vs).take n := by simp [tys]
theorem tys_drop (vs : List Val) (n : Nat) : tys (vs.drop n) = (tys vs).drop n := by simp [tys]
theorem tys_append (a b : List Val) : tys (a ++ b) = tys a ++ tys b := by simp [tys]
theorem tys_reverse (a : List Val) : tys a.reverse = (tys a).reverse := by simp [tys]
theorem tys_length (a : List Val) : (tys a).length = a.length := by simp [tys]

theorem ty_i32 {v : Val} (h : v.ty = .i32) : ∃ x, v = .i32 x := by cases v <;> simp [Val.ty] at h; exact ⟨_, rfl⟩
theorem ty_i64 {v : Val} (h : v.ty = .i64) : ∃ x, v = .i64 x := by cases v <;> simp [Val.ty] at h; exact ⟨_, rfl⟩
theorem ty_v128 {v : Val} (h : v.ty = .v128) : ∃ x, v = .v128 x := by cases v <;> simp [Val.ty] at h; exact ⟨_, rfl⟩

/-- A basic instruction accepted by the checker is not stuck. -/
def SResTy (st : List VT) (loc : List VT) : SRes σ → Prop
  | .ok s l _ => tys s = st ∧ tys l = loc
  | .trap => True
  | .stuck => False

theorem tys_cons {stk : List Val} {t : VT} {st : List VT} (h : tys stk = t :: st) :
    ∃ v s, stk = v :: s ∧ v.ty = t ∧ tys s = st := by
  cases stk with
  | nil => simp [tys] at h
  | cons v s => simp [tys] at h; exact ⟨v, s, rfl, h.1, h.2⟩

theorem tys_i32 {stk : List Val} {st : List VT} (h : tys stk = .i32 :: st) :
    ∃ x s, stk = .i32 x :: s ∧ tys s = st := by
  obtain ⟨v, s, rfl, hv, hs⟩ := tys_cons h
  obtain ⟨x, rfl⟩ := ty_i32 hv
  exact ⟨x, s, rfl, hs⟩
theorem tys_i64 {stk : List Val} {st : List VT} (h : tys stk = .i64 :: st) :
    ∃ x s, stk = .i64 x :: s ∧ tys s = st := by
  obtain ⟨v, s, rfl, hv, hs⟩ := tys_cons h
  obtain ⟨x, rfl⟩ := ty_i64 hv
  exact ⟨x, s, rfl, hs⟩
theorem tys_v128 {stk : List Val} {st : List VT} (h : tys stk = .v128 :: st) :
    ∃ x s, stk = .v128 x :: s ∧ tys s = st := by
  obtain ⟨v, s, rfl, hv, hs⟩ := tys_cons h
  obtain ⟨x, rfl⟩ := ty_v128 hv
  exact ⟨x, s, rfl, hs⟩

set_option hygiene false in
/-- Close a case of `stepB_typed`, or leave it if the stack must be split further. -/
macro "stk_close" : tactic => `(tactic|
  (cases h <;> first
    | exact ⟨rfl, rfl⟩
    | (simp only [stepB]; split <;> first | exact ⟨rfl, rfl⟩ | trivial)))

set_option maxHeartbeats 1000000 in
theorem stepB_typed {op : Basic} {stk loc : List Val} {g : Store σ} {st' : List VT}
    (h : typB (tys loc) op (tys stk) = some st') : SResTy st' (tys loc) (stepB op stk loc g) := by
  have hloc : ∀ (n : Nat) (v : Val), loc[n]? = some v → (tys loc)[n]? = some v.ty := by
    intro n v hv; simp [tys, hv]
  have hset : ∀ (n : Nat) (v : Val), (tys loc)[n]? = some v.ty →
      n < loc.length ∧ tys (loc.set n v) = tys loc := by
    intro n v hv
    have hl : n < loc.length := by
      have := (List.getElem?_eq_some_iff.1 hv).1; simpa [tys] using this
    refine ⟨hl, ?_⟩
    unfold tys at *
    rw [List.map_set]
    apply List.ext_getElem?
    intro i
    by_cases hi : n = i
    · subst hi; simp [List.getElem?_set_self, hl]; simpa [hl] using hv.symm
    · simp [List.getElem?_set_ne hi]
  cases op
  case localGet n =>
    simp only [typB, Option.map_eq_some_iff] at h
    obtain ⟨t, h1, rfl⟩ := h
    have hl : n < loc.length := by
      have := (List.getElem?_eq_some_iff.1 h1).1; simpa [tys] using this
    have h2 := hloc n loc[n] (List.getElem?_eq_getElem hl)
    rw [h1] at h2
    simp only [stepB, List.getElem?_eq_getElem hl]
    refine ⟨?_, rfl⟩
    rw [Option.some.inj h2]; rfl
  case localSet n =>
    rcases stk with _ | ⟨v, s⟩
    · simp [typB, tys] at h
    · have h : (if (tys loc)[n]? = some v.ty then some (tys s) else none) = some st' := h
      by_cases hv : (tys loc)[n]? = some v.ty
      case neg => rw [if_neg hv] at h; cases h
      rw [if_pos hv] at h
      cases h
      obtain ⟨h1, h2⟩ := hset n v hv
      simp only [stepB, h1, if_true]
      exact ⟨rfl, h2⟩
  case localTee n =>
    rcases stk with _ | ⟨v, s⟩
    · simp [typB, tys] at h
    · have h : (if (tys loc)[n]? = some v.ty then some (v.ty :: tys s) else none) = some st' := h
      by_cases hv : (tys loc)[n]? = some v.ty
      case neg => rw [if_neg hv] at h; cases h
      rw [if_pos hv] at h
      cases h
      obtain ⟨h1, h2⟩ := hset n v hv
      simp only [stepB, h1, if_true]
      exact ⟨rfl, h2⟩
  case select =>
    rcases stk with _ | ⟨v, _ | ⟨b, _ | ⟨a, s⟩⟩⟩ <;> (try cases v) <;> (try (exfalso; cases h; done))
    have h : (if a.ty = b.ty then some (a.ty :: tys s) else none) = some st' := h
    by_cases hv : a.ty = b.ty
    case neg => rw [if_neg hv] at h; cases h
    rw [if_pos hv] at h
    cases h
    simp only [stepB]
    refine ⟨?_, rfl⟩
    split <;> simp [tys, hv]
  all_goals first
    | stk_close
    | (rcases stk with _ | ⟨_ | _ | _, s⟩ <;> first
      | stk_close
      | (rcases s with _ | ⟨_ | _ | _, s⟩ <;> first
        | stk_close
        | (rcases s with _ | ⟨_ | _ | _, s⟩ <;> stk_close)))

theorem mem_outer {o : Out} {k : Nat} {s : List VT} : (k, s) ∈ o.outer ↔ (k + 1, s) ∈ o.brs := by
  simp only [Out.outer, List.mem_filterMap]
  constructor
  · rintro ⟨⟨k', s'⟩, hm, h⟩
    cases k' with
    | zero => simp at h
    | succ k' =>
      simp only [Option.some.injEq, Prod.mk.injEq] at h
      obtain ⟨rfl, rfl⟩ := h
      exact hm
  · intro h; exact ⟨_, h, rfl⟩

theorem lookup0_mem {l : List (Nat × List VT)} {s : List VT} (h : (0, s) ∈ l) :
    ∃ s', l.lookup 0 = some s' := by
  induction l with
  | nil => simp at h
  | cons p l ih =>
    obtain ⟨k, t⟩ := p
    cases k with
    | zero => exact ⟨t, rfl⟩
    | succ k =>
      simp only [List.mem_cons, Prod.mk.injEq] at h
      rcases h with h | h
      · omega
      · obtain ⟨s', hs⟩ := ih h
        refine ⟨s', ?_⟩
        simp only [List.lookup]
        exact hs

/-- `o'` allows everything that `o` allows. -/
def Out.le (o o' : Out) : Prop :=
  (∀ s, o.fall = some s → o'.fall = some s) ∧ ∀ p ∈ o.brs, p ∈ o'.brs

theorem ResTy.mono {o o' : Out} {loc res : List VT} {r : Res σ} (h : ResTy o loc res r)
    (hle : o.le o') : ResTy o' loc res r := by
  cases r with
  | norm s l g => exact ⟨hle.1 _ h.1, h.2⟩
  | br k s l g => exact ⟨hle.2 _ h.1, h.2⟩
  | _ => exact h

theorem typCall_some {ps rs st : List VT} {o : Out} (h : typCall ps rs st = some o) :
    st.take ps.length = ps.reverse ∧ o = ⟨some (rs.reverse ++ st.drop ps.length), []⟩ := by
  unfold typCall at h
  by_cases hc : st.take ps.length = ps.reverse
  · rw [if_pos hc] at h; exact ⟨hc, (Option.some.inj h).symm⟩
  · rw [if_neg hc] at h; cases h

theorem typCall_len {ps rs st : List VT} {o : Out} (h : typCall ps rs st = some o) :
    ¬ st.length < ps.length := by
  have := congrArg List.length (typCall_some h).1
  simp only [List.length_take, List.length_reverse] at this
  omega

theorem valid_body {sg : FId → Option (List VT × List VT)} {d : Func} (h : d.valid sg = true) :
    ∃ o, tyL sg (d.params ++ d.locals) d.results d.body [] = some o ∧
      (∀ s, o.fall = some s → s = d.results.reverse) ∧
      ∀ k s, (k, s) ∈ o.brs → k = 0 ∧ s.take d.results.length = d.results.reverse := by
  unfold Func.valid at h
  split at h
  · cases h
  · rename_i o ho
    have h := of_decide_eq_true h
    exact ⟨o, ho, fun s hs => h.1 s hs, fun k s hs => h.2 _ hs⟩

theorem zero_ty (t : VT) : t.zero.ty = t := by cases t <;> rfl

theorem tys_zero (l : List VT) : tys (l.map VT.zero) = l := by
  simp only [tys, List.map_map]
  conv => rhs; rw [← List.map_id l]
  exact List.map_congr_left fun t _ => zero_ty t

/-- The outcome of a valid body, seen from the caller. -/
theorem toCall_typed {o : Out} {loc res : List VT} {r : Res σ} (h : ResTy o loc res r)
    (hf : ∀ s, o.fall = some s → s = res.reverse)
    (hb : ∀ k s, (k, s) ∈ o.brs → k = 0 ∧ s.take res.length = res.reverse) :
    CResTy res (r.toCall res.length) := by
  have key : ∀ s : List Val, (tys s).take res.length = res.reverse →
      tys (s.take res.length).reverse = res := by
    intro s hs; rw [tys_reverse, tys_take, hs, List.reverse_reverse]
  cases r with
  | norm s l g =>
    refine key s ?_
    have := hf _ h.1
    rw [this]
    exact List.take_of_length_le (by simp)
  | br k s l g =>
    obtain ⟨rfl, h2⟩ := hb _ _ h.1
    exact key s h2
  | ret s g => exact key s h
  | trap g => trivial
  | stuck => exact h
  | oof => trivial

theorem exec_typed (hV : M.Valid) (n : Nat) :
    ∀ (is : List Instr) (stk loc : List Val) (g : Store σ) (locT res : List VT) (o : Out),
      tys loc = locT → tyL M.sig locT res is (tys stk) = some o →
      ResTy o locT res (exec M n is stk loc g) := by
  induction n with
  | zero => intros; trivial
  | succ n ih =>
    intro is stk loc g locT res o hloc h
    cases is with
    | nil =>
      simp only [tyL, Option.some.injEq] at h
      subst h; exact ⟨rfl, hloc⟩
    | cons i is =>
      simp only [tyL, Option.bind_eq_some_iff] at h
      obtain ⟨o1, h1, h⟩ := h
      -- continue with the rest of the sequence after normal completion of `i`
      have rest : ∀ s l (g' : Store σ), o1.fall = some (tys s) → tys l = locT →
          ResTy o locT res (exec M n is s l g') := by
        intro s l g' hf hl
        simp only [hf, Option.map_eq_some_iff] at h
        obtain ⟨o', h2, rfl⟩ := h
        exact (ih is s l g' locT res o' hl h2).mono ⟨fun _ x => x, fun p hp => List.mem_append_right _ hp⟩
      have hle : ∀ p ∈ o1.brs, p ∈ o.brs := by
        cases hf : o1.fall with
        | none => simp only [hf, Option.some.injEq] at h; subst h; exact fun p hp => hp
        | some st' =>
          simp only [hf, Option.map_eq_some_iff] at h
          obtain ⟨o', _, rfl⟩ := h
          exact fun p hp => List.mem_append_left _ hp
      -- a sequence starting with another instruction whose prediction is below that of `i`
      have other : ∀ (i' : Instr) (s l : List Val) (g' : Store σ) (o1' : Out),
          tyI M.sig locT res i' (tys s) = some o1' → o1'.le o1 → tys l = locT →
          ResTy o locT res (exec M n (i' :: is) s l g') := by
        intro i' s l g' o1' hi' hle' hl
        cases hf : o1'.fall with
        | none =>
          refine (ih (i' :: is) s l g' locT res o1' hl (by simp [tyL, hi', hf])).mono
            ⟨fun s' hs' => (by rw [hf] at hs'; cases hs'), fun p hp => hle p (hle'.2 p hp)⟩
        | some st' =>
          have hf1 := hle'.1 _ hf
          simp only [hf1, Option.map_eq_some_iff] at h
          obtain ⟨o', h2, rfl⟩ := h
          refine (ih (i' :: is) s l g' locT res ⟨o'.fall, o1'.brs ++ o'.brs⟩ hl
            (by simp [tyL, hi', hf, h2])).mono ⟨fun _ x => x, fun p hp => ?_⟩
          rcases List.mem_append.1 hp with hp | hp
          · exact List.mem_append_left _ (hle'.2 p hp)
          · exact List.mem_append_right _ hp
      -- calls of Wasm functions
      have callf : ∀ (f : FId) (d : Func) (ps rs : List VT), M.func f = some d →
          d.valid M.sig = true → ps = d.params → rs = d.results → ∀ (stk : List Val),
          typCall ps rs (tys stk) = some o1 →
          ResTy o locT res (
            if stk.length < d.params.length then .stuck else
            match (exec M n d.body [] ((stk.take d.params.length).reverse ++ d.locals.map VT.zero) g).toCall
                d.results.length with
            | .ret vs g' => exec M n is (vs.reverse ++ stk.drop d.params.length) loc g'
            | .trap g' => .trap g'
            | .stuck => .stuck
            | .oof => .oof) := by
        rintro f d ps rs hd hval rfl rfl stk hc
        have hlen := typCall_len hc
        rw [tys_length] at hlen
        obtain ⟨hc1, hc2⟩ := typCall_some hc
        rw [if_neg hlen]
        obtain ⟨ob, b1, b2, b3⟩ := valid_body hval
        have hargs : tys ((stk.take d.params.length).reverse ++ d.locals.map VT.zero) =
            d.params ++ d.locals := by
          rw [tys_append, tys_reverse, tys_take, hc1, List.reverse_reverse, tys_zero]
        have hb := toCall_typed (ih d.body [] _ g _ d.results ob hargs b1) b2 b3
        split <;> rename_i heq <;> rw [heq] at hb
        · refine rest _ _ _ ?_ hloc
          rw [hc2, tys_append, tys_reverse, tys_drop, hb]
        · trivial
        · exact hb
        · trivial
      cases i with
      | b op =>
        simp only [exec]
        simp only [tyI, Option.map_eq_some_iff] at h1
        obtain ⟨s, h2, rfl⟩ := h1
        subst hloc
        have := stepB_typed (g := g) h2
        split <;> rename_i heq <;> rw [heq] at this
        · exact rest _ _ _ (by rw [this.1]) this.2
        · trivial
        · exact this
      | block np nr body =>
        simp only [exec]
        simp only [tyI, tys_length] at h1
        by_cases hl : stk.length < np
        · rw [if_pos hl] at h1; cases h1
        rw [if_neg hl] at h1 ⊢
        simp only [Option.bind_eq_some_iff] at h1
        obtain ⟨ob, hb, hc⟩ := h1
        have hr := ih body (stk.take np) loc g locT res ob hloc (by rw [tys_take]; exact hb)
        have hout : ∀ k s, (k + 1, s) ∈ ob.brs → (k, s) ∈ o1.brs := by
          intro k s hks
          unfold Out.close at hc
          split at hc
          · cases hc; exact mem_outer.2 hks
          · rename_i ts hts
            by_cases hcond : ts.length = nr ∧ (∀ p ∈ ob.brs, p.1 = 0 → p.2.take nr = ts)
            · rw [if_pos hcond] at hc; cases hc; exact mem_outer.2 hks
            · rw [if_neg hcond] at hc; cases hc
        have hnorm : ∀ s, ob.fall = some s → o1.fall = some (s ++ (tys stk).drop np) := by
          intro s hs
          unfold Out.close Out.target at hc
          simp only [hs] at hc
          by_cases hcond : s.length = nr ∧ (∀ p ∈ ob.brs, p.1 = 0 → p.2.take nr = s)
          · rw [if_pos hcond] at hc; cases hc; rfl
          · rw [if_neg hcond] at hc; cases hc
        have hbr : ∀ s, (0, s) ∈ ob.brs → o1.fall = some (s.take nr ++ (tys stk).drop np) := by
          intro s hs
          unfold Out.close at hc
          split at hc
          · rename_i hn
            unfold Out.target at hn
            split at hn
            · cases hn
            · obtain ⟨s', hs'⟩ := lookup0_mem hs
              rw [hs'] at hn; cases hn
          · rename_i ts hts
            by_cases hcond : ts.length = nr ∧ (∀ p ∈ ob.brs, p.1 = 0 → p.2.take nr = ts)
            · rw [if_pos hcond] at hc; cases hc
              rw [hcond.2 _ hs rfl]
            · rw [if_neg hcond] at hc; cases hc
        split <;> rename_i heq <;> rw [heq] at hr
        · exact rest _ _ _ (by rw [tys_append, tys_drop]; exact hnorm _ hr.1) hr.2
        · exact rest _ _ _ (by rw [tys_append, tys_drop, tys_take]; exact hbr _ hr.1) hr.2
        · exact ⟨hle _ (hout _ _ hr.1), hr.2⟩
        · exact hr
        · trivial
        · exact hr
        · trivial
      | loop np nr body =>
        have h1' := h1
        simp only [exec]
        simp only [tyI, tys_length] at h1
        by_cases hl : stk.length < np
        · rw [if_pos hl] at h1; cases h1
        rw [if_neg hl] at h1 ⊢
        simp only [Option.bind_eq_some_iff] at h1
        obtain ⟨ob, hb, hc⟩ := h1
        have hr := ih body (stk.take np) loc g locT res ob hloc (by rw [tys_take]; exact hb)
        have hlen : ((tys stk).take np).length = np := by
          rw [List.length_take, tys_length]; omega
        unfold Out.closeLoop at hc
        rw [hlen] at hc
        by_cases hcond : (∀ p ∈ ob.brs, p.1 = 0 → p.2.take np = (tys stk).take np) ∧
            (∀ s ∈ ob.fall, s.length = nr)
        case neg => rw [if_neg hcond] at hc; cases hc
        rw [if_pos hcond] at hc
        cases hc
        split <;> rename_i heq <;> rw [heq] at hr
        · refine rest _ _ _ ?_ hr.2
          rw [tys_append, tys_drop, hr.1]; rfl
        · rename_i s l g'
          refine other (.loop np nr body) _ _ _ _ ?_ ⟨fun _ x => x, fun _ x => x⟩ hr.2
          rw [tys_append, tys_take, tys_drop, hcond.1 _ hr.1 rfl, List.take_append_drop]
          exact h1'
        · exact ⟨hle _ (mem_outer.2 hr.1), hr.2⟩
        · exact hr
        · trivial
        · exact hr
        · trivial
      | ite np nr t e =>
        simp only [tyI] at h1
        generalize hst : tys stk = st at h1
        split at h1
        case h_2 => cases h1
        rename_i st
        obtain ⟨c, s, rfl, hs⟩ := tys_i32 hst
        subst hs
        simp only [exec]
        rw [tys_length] at h1
        by_cases hl : s.length < np
        · rw [if_pos hl] at h1; cases h1
        rw [if_neg hl] at h1
        rw [Option.bind_eq_some_iff] at h1
        obtain ⟨a, ha, h1⟩ := h1
        rw [Option.bind_eq_some_iff] at h1
        obtain ⟨b, hb, hm⟩ := h1
        have hab : a.le o1 ∧ b.le o1 := by
          unfold Out.merge at hm
          split at hm
          · rename_i f hfa
            cases hm
            exact ⟨⟨fun s hs => (by rw [hfa] at hs; cases hs), fun p hp => List.mem_append_left _ hp⟩,
              ⟨fun s hs => hs, fun p hp => List.mem_append_right _ hp⟩⟩
          · rename_i hfa hfb _
            cases hm
            exact ⟨⟨fun s hs => hs, fun p hp => List.mem_append_left _ hp⟩,
              ⟨fun s hs => by simp_all, fun p hp => List.mem_append_right _ hp⟩⟩
          · rename_i x y hfa hfb
            by_cases hxy : x = y
            · rw [if_pos hxy] at hm; cases hm; subst hxy
              exact ⟨⟨fun s hs => by rw [← hs, hfa], fun p hp => List.mem_append_left _ hp⟩,
                ⟨fun s hs => by rw [← hs, hfb], fun p hp => List.mem_append_right _ hp⟩⟩
            · rw [if_neg hxy] at hm; cases hm
        by_cases hcz : c = 0#32
        · rw [if_pos hcz]
          refine other (.block np nr e) s loc g b ?_ hab.2 hloc
          simp only [tyI, tys_length, if_neg hl]; exact hb
        · rw [if_neg hcz]
          refine other (.block np nr t) s loc g a ?_ hab.1 hloc
          simp only [tyI, tys_length, if_neg hl]; exact ha
      | br l =>
        simp only [tyI, Option.some.injEq] at h1
        subst h1
        exact ⟨hle _ (by simp), hloc⟩
      | brIf l =>
        simp only [tyI] at h1
        generalize hst : tys stk = st at h1
        split at h1
        case h_2 => cases h1
        rename_i st
        obtain ⟨c, s, rfl, hs⟩ := tys_i32 hst
        subst hs
        cases h1
        simp only [exec]
        by_cases hcz : c = 0#32
        · rw [if_pos hcz]; exact rest _ _ _ rfl hloc
        · rw [if_neg hcz]; exact ⟨hle _ (by simp), hloc⟩
      | ret =>
        simp only [tyI] at h1
        by_cases hc : (tys stk).take res.length = res.reverse
        · exact hc
        · rw [if_neg hc] at h1; cases h1
      | unreachable => trivial
      | call f =>
        simp only [tyI, Option.bind_eq_some_iff] at h1
        obtain ⟨⟨ps, rs⟩, hsg, hc⟩ := h1
        cases f with
        | host hf =>
          simp only [exec]
          simp only [Mod.sig, Option.some.injEq] at hsg
          obtain ⟨hc1, hc2⟩ := typCall_some hc
          have hlen := typCall_len hc
          rw [tys_length] at hlen
          have e1 : (hostSig hf).1 = ps := by rw [hsg]
          have e2 : (hostSig hf).2 = rs := by rw [hsg]
          rw [e1, if_neg hlen]
          split
          · rename_i vs g' heq
            have := hV.host hf _ g vs g' (by rw [tys_reverse, tys_take, hc1, List.reverse_reverse, e1]) heq
            rw [e2] at this
            refine rest _ _ _ ?_ hloc
            rw [hc2, tys_append, tys_reverse, tys_drop, this]
          · trivial
        | std sf =>
          simp only [Mod.sig, Mod.func, Option.map_some, Option.some.injEq, Prod.mk.injEq] at hsg
          simp only [exec, Mod.func]
          exact callf (.std sf) (stdFunc sf) ps rs rfl (hV.std sf) hsg.1.symm hsg.2.symm stk hc
        | user uf =>
          simp only [Mod.sig, Option.map_eq_some_iff, Prod.mk.injEq] at hsg
          obtain ⟨d, hd, e1, e2⟩ := hsg
          simp only [exec, hd]
          exact callf (.user uf) d ps rs hd (hV.user uf d hd) e1.symm e2.symm stk hc
      | callIndirect ps rs =>
        simp only [tyI] at h1
        generalize hst : tys stk = st at h1
        split at h1
        case h_2 => cases h1
        rename_i st
        obtain ⟨k, s, rfl, hs⟩ := tys_i32 hst
        subst hs
        simp only [exec]
        split
        · trivial
        · rename_i f hf
          by_cases hsg : M.sig f = some (ps, rs)
          · rw [if_pos hsg]
            refine other (.call f) s loc g o1 ?_ ⟨fun _ x => x, fun _ x => x⟩ hloc
            simp only [tyI, hsg, Option.bind_some]; exact h1
          · rw [if_neg hsg]; trivial

/-- Calling any function of a valid module with arguments of its types does not get stuck and
returns values of its result types. -/
theorem invoke_typed (hV : M.Valid) (n : Nat) (f : FId) (ps rs : List VT) (hsg : M.sig f = some (ps, rs))
    (args : List Val) (ha : tys args = ps) (g : Store σ) : CResTy rs (invoke M n f args g) := by
  have key : ∀ (d : Func), d.valid M.sig = true → d.params = ps → d.results = rs →
      CResTy rs ((exec M n d.body [] (args ++ d.locals.map VT.zero) g).toCall d.results.length) := by
    rintro d hd rfl rfl
    obtain ⟨ob, b1, b2, b3⟩ := valid_body hd
    exact toCall_typed (exec_typed hV n d.body [] _ g _ d.results ob
      (by rw [tys_append, tys_zero, ha]) b1) b2 b3
  unfold invoke
  cases f with
  | host h =>
    simp only [Mod.sig, Option.some.injEq] at hsg
    simp only
    split
    · rename_i vs g' heq
      have := hV.host h args g vs g' (by rw [ha, hsg]) heq
      rw [hsg] at this; exact this
    · trivial
  | std f =>
    simp only [Mod.sig, Mod.func, Option.map_some, Option.some.injEq, Prod.mk.injEq] at hsg
    exact key _ (hV.std f) hsg.1 hsg.2
  | user f =>
    simp only [Mod.sig, Option.map_eq_some_iff, Prod.mk.injEq] at hsg
    obtain ⟨d, hd, e1, e2⟩ := hsg
    simp only [hd]
    exact key d (hV.user f d hd) e1 e2

end Wasm
