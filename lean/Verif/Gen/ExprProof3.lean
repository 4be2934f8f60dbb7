import Verif.Gen.ExprWord
import Verif.Gen.SeqProof
import Verif.Props.Arith

/-! Code of expressions: operators. -/

namespace Gen
open Wasm Spec Host Core

section
variable {p : P} {k : Nat} {call : FSem} {wr : Bool} {w : World} {d n al : Nat} {er : Bool}
  {stk bs loc loc' : List Val} {g : Store World}

theorem tmod_isInt {a b : Int} (ha : IsInt a) (hb : b ≠ 0) : IsInt (a.tmod b) := by
  have h := Int.natAbs_tmod a b
  have h2 : a.natAbs % b.natAbs ≤ a.natAbs := Nat.mod_le _ _
  have h3 := Int.tmod_nonneg (a := a) b
  have h4 : a ≤ 0 → a.tmod b ≤ 0 := fun h => by
    have := Int.tmod_nonneg (a := -a) b (by omega)
    rw [Int.neg_tmod] at this
    omega
  unfold IsInt at *
  by_cases h0 : 0 ≤ a
  · have := h3 h0; omega
  · have := h4 (by omega); omega

theorem bin_runs {M : Wasm.Mod World} {o : NOp} {T : Ty} {m : Mem} {b : Reg} {x y : Value} {wx wy : List Val}
    (hT : IntTy T) (hx : Rep m b T x wx) (hy : Rep m b T y wy) :
    RunsOp M (NOp.std o T) (wx ++ wy) g T (o.bin x y) := by
  rcases hT with rfl | rfl
  · simp only [Rep] at hx hy
    obtain ⟨x, rfl, hx, rfl⟩ := hx
    obtain ⟨y, rfl, hy, rfl⟩ := hy
    cases o <;> simp only [NOp.std, bySign, NOp.bin]
    · have h := Props.C01_add_int M g x y hx hy
      split at h
      · rw [if_pos ‹_›]; exact .inl ⟨_, _, rfl, fun _ _ => rep_int ‹_›, h⟩
      · rw [if_neg ‹_›]; exact .inr (.inl ⟨_, rfl, h⟩)
    · have h := Props.C02_sub_int M g x y hx hy
      split at h
      · rw [if_pos ‹_›]; exact .inl ⟨_, _, rfl, fun _ _ => rep_int ‹_›, h⟩
      · rw [if_neg ‹_›]; exact .inr (.inl ⟨_, rfl, h⟩)
    · by_cases e : x * y = -2 ^ 127 ∧ x ≠ 1 ∧ y ≠ 1
      · rw [if_pos e]; exact .inr (.inr rfl)
      · rw [if_neg e]
        have h := Props.C03_mul_int_partial M g x y hx hy (by
          by_cases e1 : x * y = -2 ^ 127
          · right
            by_cases e2 : x = 1
            · exact .inl e2
            · exact .inr (Classical.not_not.1 fun e3 => e ⟨e1, e2, e3⟩)
          · exact .inl e1)
        split at h
        · rw [if_pos ‹_›]; exact .inl ⟨_, _, rfl, fun _ _ => rep_int ‹_›, h⟩
        · rw [if_neg ‹_›]; exact .inr (.inl ⟨_, rfl, h⟩)
    · have h := Props.C04_div_int M g x y hx hy
      split at h
      · rw [if_pos ‹_›]; exact .inr (.inl ⟨_, rfl, h⟩)
      · rw [if_neg ‹_›]
        split at h
        · rw [if_pos ‹_›]; exact .inl ⟨_, _, rfl, fun _ _ => rep_int ‹_›, h⟩
        · rw [if_neg ‹_›]; exact .inr (.inl ⟨_, rfl, h⟩)
  · simp only [Rep] at hx hy
    obtain ⟨x, rfl, hx, rfl⟩ := hx
    obtain ⟨y, rfl, hy, rfl⟩ := hy
    cases o <;> simp only [NOp.std, bySign, NOp.bin]
    · have h := Props.C01_add_uint M g x y hx hy
      split at h
      · rw [if_pos ‹_›]; exact .inl ⟨_, _, rfl, fun _ _ => rep_uint ‹_›, h⟩
      · rw [if_neg ‹_›]; exact .inr (.inl ⟨_, rfl, h⟩)
    · by_cases e : y ≤ x
      · have h := Props.C02_sub_uint_partial M g x y hx hy (.inr e)
        rw [if_pos e] at h ⊢
        exact .inl ⟨_, _, rfl, fun _ _ => rep_uint (by unfold IsUInt at *; omega), h⟩
      · rw [if_neg e]
        split
        · have h := Props.C02_sub_uint_partial M g x y hx hy (.inl ‹_›)
          rw [if_neg e] at h
          exact .inr (.inl ⟨_, rfl, h⟩)
        · exact .inr (.inr rfl)
    · have h := Props.C03_mul_uint M g x y hx hy
      split at h
      · rw [if_pos ‹_›]; exact .inl ⟨_, _, rfl, fun _ _ => rep_uint ‹_›, h⟩
      · rw [if_neg ‹_›]; exact .inr (.inl ⟨_, rfl, h⟩)
    · have h := Props.C04_div_uint M g x y hx hy
      split at h
      · rw [if_pos ‹_›]; exact .inr (.inl ⟨_, rfl, h⟩)
      · rw [if_neg ‹_›]
        refine .inl ⟨_, _, rfl, fun _ _ => rep_uint ?_, h⟩
        have := Nat.div_le_self x y
        unfold IsUInt at *; omega

theorem runs_not {M : Wasm.Mod World} (x : Bool) : Runs M (.std .not_) (encB x) g (.ret (encB !x) g) := by
  apply runs_std (by simp)
  cases x <;> wpx [stdFunc, Std.not_, Std.not__body, encB] <;> rfl

/-- Aborting. -/
theorem Does.raise {α : Type} {c : Nat} {is : List Instr} {Q : α → List Val → List Val → Store World → Prop} :
    Does p w d er n al (raise c ++ is) stk bs loc g (.fail c) Q := by
  intro _
  have h : Runs p.M (.std .runtime_error) [.i32 (BitVec.ofNat 32 c)] g (abort g c) := by
    apply runs_std (by simp [abort])
    wpx [stdFunc, Std.runtime_error, Std.runtime_error_body]
    rfl
  show WP p.M (c32 c :: .call (.std .runtime_error) :: is) stk loc g _
  rw [show ∀ r Q, WP p.M (c32 c :: r) _ loc g Q ↔ _ from steps_c32]
  have hsig : p.M.sig (.std .runtime_error) = some ((stdFunc .runtime_error).params, (stdFunc .runtime_error).results) := rfl
  have := wp_call_runs (is := is) (stk := stk) (loc := loc) (Q := Post p w d er n al bs loc g (.fail c) Q) hsig rfl h (by simp [abort])
  exact this.2 ⟨g.failed c, rfl, by simp [Store.failed, Store.set32]⟩

/-! ### One operator -/

/-- The part of the values of a tuple that belongs to a field. -/
def slice (k : Name) : Fields → List Val → List Val
  | .nil, _ => []
  | .cons k' t fs, ws => if k' = k then ws.take (wty t).length else slice k fs (ws.drop (wty t).length)

theorem slice_ty {k : Name} {t : Ty} : ∀ {fs : Fields} {ws : List Val}, fieldTy k fs = some t →
    ws.map Val.ty = wtyF fs → (slice k fs ws).map Val.ty = wty t
  | .nil, ws, h, _ => by simp [fieldTy] at h
  | .cons k' t' fs, ws, h, hw => by
    obtain ⟨us, vs, rfl, hu, hv⟩ := typed_append hw
    simp only [fieldTy] at h
    simp only [slice, ← typed_length hu, List.take_left', List.drop_left']
    by_cases e : k' = k
    · rw [if_pos e] at h ⊢; cases h; exact hu
    · rw [if_neg e] at h ⊢; exact slice_ty h hv

theorem RepF.slice {m : Mem} {b : Reg} {k : Name} {t : Ty} : ∀ {fs : Fields} {kvs : List (Name × Value)} {ws : List Val},
    fieldTy k fs = some t → RepF m b fs kvs ws → ∃ x, field k kvs = some x ∧ Rep m b t x (Gen.slice k fs ws)
  | .nil, _, ws, h, _ => by simp [fieldTy] at h
  | .cons k' t' fs, _, ws, h, hw => by
    simp only [RepF] at hw
    obtain ⟨x, r, us, vs, rfl, rfl, hu, hv⟩ := hw
    simp only [fieldTy] at h
    simp only [Gen.slice, ← hu.len, List.take_left', List.drop_left', field]
    by_cases e : k' = k
    · rw [if_pos e] at h; rw [if_pos e, if_pos e]; cases h; exact ⟨x, rfl, hu⟩
    · rw [if_neg e] at h; rw [if_neg e, if_neg e]; exact RepF.slice h hv

theorem steps_getCode_none {M : Wasm.Mod World} {k : Name} {m : Nat} : ∀ {fs : Fields} {ws stk : List Val},
    k ∉ fs.keys → ws.map Val.ty = wtyF fs → Steps M (getCode k m fs) (ws.reverse ++ stk) loc g stk loc g
  | .nil, ws, stk, _, hw => by
    simp only [wtyF, List.map_eq_nil_iff] at hw
    subst hw
    exact Steps.refl
  | .cons k' t fs, ws, stk, h, hw => by
    obtain ⟨us, vs, rfl, hu, hv⟩ := typed_append hw
    simp only [Fields.keys, List.mem_cons, not_or] at h
    simp only [getCode, if_neg (Ne.symm h.1), List.reverse_append, List.append_assoc]
    exact (steps_getCode_none h.2 hv).append (steps_dropValue (typed_length hu))

theorem steps_getCode {k : Name} {t : Ty} {m : Nat} : ∀ {fs : Fields} {ws stk loc : List Val},
    fs.keys.Nodup → fieldTy k fs = some t → ws.map Val.ty = wtyF fs → m + (wty t).length ≤ loc.length →
    ∃ loc', Steps p.M (getCode k m fs) (ws.reverse ++ stk) loc g stk loc' g ∧ Fr m 0 loc loc' g g ∧
      (saveLocals t m).map (loc'[·]?) = (slice k fs ws).map some
  | .nil, _, _, _, _, h, _, _ => by simp [fieldTy] at h
  | .cons k' t' fs, ws, stk, loc, hn, h, hw, hl => by
    obtain ⟨us, vs, rfl, hu, hv⟩ := typed_append hw
    simp only [Fields.keys, List.nodup_cons] at hn
    simp only [fieldTy] at h
    simp only [getCode, slice, ← typed_length hu, List.take_left', List.drop_left', List.reverse_append,
      List.append_assoc]
    by_cases e : k' = k
    · rw [if_pos e] at h; rw [if_pos e, if_pos e]
      cases h
      obtain ⟨loc', h1, h2, _, h3⟩ := saved (p := p) (T := t) (ws := us) (loc := loc) (g := g) (stk := stk)
        (m := m) (typed_length hu) hl
      exact ⟨loc', (steps_getCode_none (by rw [← e]; exact hn.1) hv).append h1, h2, h3⟩
    · rw [if_neg e] at h; rw [if_neg e, if_neg e]
      obtain ⟨loc', h1, h2, h3⟩ := steps_getCode (stk := us.reverse ++ stk) hn.2 h hv hl
      exact ⟨loc', h1.append (steps_dropValue (typed_length hu)), h2, h3⟩

/-- The values pushed by `primPre`. -/
def preVals (q : Prim) (T : Ty) : List Val :=
  match q, T with
  | .some_, _ => [.i32 1#32]
  | .ok_, _ => [.i32 1#32]
  | .err_, .resp o _ => .i32 0#32 :: (wty o).map VT.zero
  | .asMaxLen _, _ => [.i32 0#32, .i32 1#32]
  | _, _ => []

theorem steps_pre {M : Wasm.Mod World} (q : Prim) (T : Ty) :
    Steps M (primPre q T) stk loc g ((preVals q T).reverse ++ stk) loc g := by
  unfold primPre preVals
  split
  · exact steps_c32
  · exact steps_c32
  · rename_i o _
    have := (steps_c32 (M := M) (v := 0) (s := stk) (l := loc) (g := g)).cons (steps_placeholder o)
    simpa using this
  · exact steps_c32.cons steps_c32
  · rename_i h1 h2 h4 h3
    split
    · exact (h1 rfl).elim
    · exact (h2 rfl).elim
    · exact (h3 _ _ rfl rfl).elim
    · exact (h4 _ rfl).elim
    · exact Steps.refl

theorem cmp_runs {M : Wasm.Mod World} {T U : Ty} {b : Reg} {x y : Value} {wx wy : List Val}
    (hT : CmpTy T U) (hz : b.hi ≤ g.mem.size) (hx : Rep g.mem b T x wx) (hy : Rep g.mem b U y wy) :
    RunsOp M (cmpFn T .lt_int .lt_uint .lt_buff) (wx ++ wy) g .bool (Prim.eval .lt [x, y]) ∧
    RunsOp M (cmpFn T .le_int .le_uint .le_buff) (wx ++ wy) g .bool (Prim.eval .le [x, y]) ∧
    RunsOp M (cmpFn T .gt_int .gt_uint .gt_buff) (wx ++ wy) g .bool (Prim.eval .gt [x, y]) ∧
    RunsOp M (cmpFn T .ge_int .ge_uint .ge_buff) (wx ++ wy) g .bool (Prim.eval .ge [x, y]) := by
  have nat : ∀ a b : Nat, decide ((a : Int) < b) = decide (a < b) ∧ decide ((a : Int) ≤ b) = decide (a ≤ b) :=
    fun a b => by simp
  have fin : ∀ {f : StdFn} {c : Bool}, Runs M (.std f) (wx ++ wy) g (.ret (encB c) g) →
      RunsOp M f (wx ++ wy) g .bool (.ok (.bool c)) := fun h => .inl ⟨_, _, rfl, fun _ _ => rep_bool _, h⟩
  rcases hT with ⟨rfl | rfl, rfl⟩ | ⟨n, n', rfl, rfl⟩ | ⟨n, n', rfl, rfl⟩ | ⟨n, n', rfl, rfl⟩
  · simp only [Rep] at hx hy
    obtain ⟨x, rfl, hx, rfl⟩ := hx
    obtain ⟨y, rfl, hy, rfl⟩ := hy
    obtain ⟨h1, h2, h3, h4⟩ := Props.C05_compare_int M g x y hx hy
    exact ⟨fin h1, fin h3, fin h2, fin h4⟩
  · simp only [Rep] at hx hy
    obtain ⟨x, rfl, hx, rfl⟩ := hx
    obtain ⟨y, rfl, hy, rfl⟩ := hy
    obtain ⟨h1, h2, h3, h4⟩ := Props.C05_compare_uint M g x y hx hy
    simp only [Prim.eval, Core.cmp, (nat _ _).1, (nat _ _).2]
    exact ⟨fin h1, fin h3, fin h2, fin h4⟩
  · simp only [Rep] at hx hy
    obtain ⟨hv, hx⟩ := hx
    obtain ⟨hu, hy⟩ := hy
    cases x <;> simp only [HasType] at hv
    cases y <;> simp only [HasType] at hu
    obtain ⟨h1, h2, h3, h4⟩ := bytes_runs (M := M) hz hx hy
    exact ⟨fin h1, fin h2, fin h3, fin h4⟩
  · simp only [Rep] at hx hy
    obtain ⟨hv, hx⟩ := hx
    obtain ⟨hu, hy⟩ := hy
    cases x <;> simp only [HasType] at hv
    cases y <;> simp only [HasType] at hu
    obtain ⟨h1, h2, h3, h4⟩ := bytes_runs (M := M) hz hx hy
    exact ⟨fin h1, fin h2, fin h3, fin h4⟩
  · simp only [Rep] at hx hy
    obtain ⟨hv, hx⟩ := hx
    obtain ⟨hu, hy⟩ := hy
    cases x <;> simp only [HasType] at hv
    cases y <;> simp only [HasType] at hu
    obtain ⟨h1, h2, h3, h4⟩ := bytes_runs (M := M) hz hx hy
    simp only [memBytes, lexSign_flat (fun c h => scalar_lt (hv.2 c h)) (fun c h => scalar_lt (hu.2 c h))] at h1 h2 h3 h4
    exact ⟨fin h1, fin h2, fin h3, fin h4⟩

theorem cmp_len {T U : Ty} {m : Mem} {b : Reg} {x y : Value} {wx wy : List Val}
    (hT : CmpTy T U) (hx : Rep m b T x wx) (hy : Rep m b U y wy) :
    wx.length + wy.length = 4 ∧
    (stdFunc (cmpFn T .lt_int .lt_uint .lt_buff)).params.length = 4 ∧
    (stdFunc (cmpFn T .le_int .le_uint .le_buff)).params.length = 4 ∧
    (stdFunc (cmpFn T .gt_int .gt_uint .gt_buff)).params.length = 4 ∧
    (stdFunc (cmpFn T .ge_int .ge_uint .ge_buff)).params.length = 4 := by
  rw [hx.len, hy.len]
  rcases hT with ⟨rfl | rfl, rfl⟩ | ⟨n, n', rfl, rfl⟩ | ⟨n, n', rfl, rfl⟩ | ⟨n, n', rfl, rfl⟩ <;>
    exact ⟨rfl, rfl, rfl, rfl, rfl⟩

theorem mod_runs {M : Wasm.Mod World} {T : Ty} {m : Mem} {b : Reg} {x y : Value} {wx wy : List Val}
    (hT : IntTy T) (hx : Rep m b T x wx) (hy : Rep m b T y wy) :
    RunsOp M (bySign T .mod_int .mod_uint) (wx ++ wy) g T (Prim.eval .mod [x, y]) := by
  rcases hT with rfl | rfl
  · simp only [Rep] at hx hy
    obtain ⟨x, rfl, hx, rfl⟩ := hx
    obtain ⟨y, rfl, hy, rfl⟩ := hy
    have h := Props.C04_mod_int M g x y hx hy
    simp only [Prim.eval, bySign]
    split at h
    · rw [if_pos ‹_›]; exact .inr (.inl ⟨_, rfl, h⟩)
    · rw [if_neg ‹_›]; exact .inl ⟨_, _, rfl, fun _ _ => rep_int (tmod_isInt hx ‹_›), h⟩
  · simp only [Rep] at hx hy
    obtain ⟨x, rfl, hx, rfl⟩ := hx
    obtain ⟨y, rfl, hy, rfl⟩ := hy
    have h := Props.C04_mod_uint M g x y hx hy
    simp only [Prim.eval, bySign]
    split at h
    · rw [if_pos ‹_›]; exact .inr (.inl ⟨_, rfl, h⟩)
    · rw [if_neg ‹_›]
      refine .inl ⟨_, _, rfl, fun _ _ => rep_uint ?_, h⟩
      have := Nat.mod_le x y
      unfold IsUInt at *; omega

theorem rep_ok {m : Mem} {b : Reg} {t e : Ty} {x : Value} {us js : List Val} (h : Rep m b t x us)
    (hj : js.map Val.ty = wty e) : Rep m b (.resp t e) (.ok x) (.i32 1#32 :: (us ++ js)) := by
  simp only [Rep]; exact .inl ⟨x, us, js, rfl, rfl, h, hj⟩

theorem rep_err {m : Mem} {b : Reg} {o t : Ty} {x : Value} {us js : List Val} (h : Rep m b t x us)
    (hj : js.map Val.ty = wty o) : Rep m b (.resp o t) (.err x) (.i32 0#32 :: (js ++ us)) := by
  simp only [Rep]; exact .inr ⟨x, us, js, rfl, rfl, h, hj⟩

/-- Flipping a tag. -/
theorem steps_xor {M : Wasm.Mod World} (x : BitVec 32) :
    Steps M [c32 1, .b (.i32bin .xor)] (.i32 x :: stk) loc g (.i32 (x ^^^ 1#32) :: stk) loc g := by
  refine Steps.of_wp fun Q => ?_
  unfold c32
  wpx []

theorem steps_eqz {M : Wasm.Mod World} (x : BitVec 32) :
    Steps M [.b .i32eqz] (.i32 x :: stk) loc g (.i32 (if x = 0#32 then 1#32 else 0#32) :: stk) loc g := by
  refine Steps.of_wp fun Q => ?_
  rw [wp_i32eqz, wp_nil]
  rfl

/-- `if` without result whose taken branch is empty. -/
theorem steps_skip {M : Wasm.Mod World} {x : BitVec 32} {A B : List Instr}
    (h : (if x = 0#32 then B else A) = []) : Steps M [.ite 0 0 A B] (.i32 x :: stk) loc g stk loc g := by
  refine Steps.of_wp fun Q => ?_
  rw [wp_ite, h, wp_block0, wp_nil, blockK_norm, wp_nil]
  rfl

/-- `if` that raises an error. -/
theorem Does.raiseIf {α : Type} {x : BitVec 32} {A B is : List Instr} {c : Nat}
    {Q : α → List Val → List Val → Store World → Prop}
    (h : (if x = 0#32 then B else A) = Gen.raise c) :
    Does p w d er n al ([.ite 0 0 A B] ++ is) (.i32 x :: stk) bs loc g (.fail c) Q := by
  have := Does.bind (α := Unit) (β := α) (p := p) (w := w) (d := d) (er := er) (n := n) (n' := n) (al := al) (al' := 0)
    (is := [.ite 0 0 A B]) (is' := is) (stk := .i32 x :: stk) (bs := stk) (loc := loc) (g := g) (o := .fail c)
    (Q := fun _ _ _ _ => True) (k := fun _ _ => .fail c) (Q2 := Q) (bs2 := bs)
    (Does.ite (c := x) (by rw [h]; have := Does.raise (p := p) (w := w) (d := d + 1) (er := er) (n := n) (al := al) (is := []) (stk := []) (bs := []) (loc := loc) (g := g) (α := Unit) (c := c) (Q := fun _ _ _ _ => True); rwa [List.append_nil] at this))
    (Nat.le_refl _) (by intro a s' ws loc' g' h; cases h)
  simpa [Out.bind] using this

/-- Choosing the default. -/
theorem steps_default {T : Ty} {x : BitVec 32} {us ws : List Val} {m : Nat} (hd : ws.length = (wty T).length)
    (hw : (saveLocals T m).map (loc[·]?) = us.map some) :
    Steps p.M [.ite (wty T).length (wty T).length (dropValue T ++ getLocals (saveLocals T m)) []]
      (.i32 x :: (ws.reverse ++ stk)) loc g ((if x = 0#32 then ws else us).reverse ++ stk) loc g := by
  refine Steps.of_wp fun Q => ?_
  rw [wp_ite, wp_block (by simp [hd])]
  rw [← hd, List.take_left' (by simp), List.drop_left' (by simp)]
  have hu : us.length = ws.length := by
    have := congrArg List.length hw
    simp only [List.length_map, saveLocals, List.length_reverse, List.length_range'] at this
    omega
  by_cases e : x = 0#32
  · simp only [e, if_true]
    rw [wp_nil, blockK_norm, wp_nil]
  · simp only [e, if_false]
    have h1 := (steps_dropValue (M := p.M) (s := []) (l := loc) (g := g) hd).append (steps_getLocals hw)
    rw [List.append_nil] at h1
    rw [h1.wp, blockK_norm, wp_nil, List.append_nil]

/-- The code after the operands of an operator. -/
theorem prim_post {q : Prim} {Ts : List Ty} {T : Ty} {vs : List Value} {ws : List Val} {s : St}
    (ht : primTy q Ts T) (hr : RepAll g.mem (p.reg g) Ts vs ws) (hz : sp g ≤ g.mem.size)
    (hh : g.host = put w s) (hs : StOk p.K w.contract s) (hl : n + (primPost q Ts T n).ls.length ≤ loc.length) :
    Does p w d er n 0 (primPost q Ts T n).is (ws.reverse ++ ((preVals q T).reverse ++ stk)) stk loc g
      ((q.eval vs).out s) (IsRep p T) := by
  cases q with
  | some_ =>
    obtain ⟨t, rfl, rfl⟩ := ht
    obtain ⟨x, rfl, hx⟩ := repAll1 hr
    exact Does.done (ws := .i32 1#32 :: ws) (by simp [preVals]) hh hs (rep_some hx)
  | ok_ =>
    obtain ⟨t, e, rfl, rfl⟩ := ht
    obtain ⟨x, rfl, hx⟩ := repAll1 hr
    refine Does.ends (ws := .i32 1#32 :: (ws ++ (wty e).map VT.zero)) ?_ Fr.refl hh hs (rep_ok hx (zeros_ty _))
    simp only [primPost, preVals]
    have := steps_placeholder (M := p.M) (s := ws.reverse ++ .i32 1#32 :: stk) (l := loc) (g := g) e
    simpa using this
  | err_ =>
    obtain ⟨t, o, rfl, rfl⟩ := ht
    obtain ⟨x, rfl, hx⟩ := repAll1 hr
    exact Does.done (ws := .i32 0#32 :: ((wty o).map VT.zero ++ ws)) (by simp [preVals]) hh hs
      (rep_err hx (zeros_ty _))
  | isSome =>
    obtain ⟨t, rfl, rfl⟩ := ht
    obtain ⟨x, rfl, hx⟩ := repAll1 hr
    simp only [Rep] at hx
    simp only [primPost, preVals, List.reverse_nil, List.nil_append]
    rcases hx with ⟨us, rfl, rfl, hu⟩ | ⟨x, us, rfl, rfl, hu⟩ <;> rw [List.reverse_cons, List.append_assoc]
    · exact Does.ends (ws := encB false) (steps_dropValue (typed_length hu)) Fr.refl hh hs (rep_bool _)
    · exact Does.ends (ws := encB true) (steps_dropValue hu.len) Fr.refl hh hs (rep_bool _)
  | isNone =>
    obtain ⟨t, rfl, rfl⟩ := ht
    obtain ⟨x, rfl, hx⟩ := repAll1 hr
    simp only [Rep] at hx
    simp only [primPost, preVals, List.reverse_nil, List.nil_append]
    rcases hx with ⟨us, rfl, rfl, hu⟩ | ⟨x, us, rfl, rfl, hu⟩ <;> rw [List.reverse_cons, List.append_assoc]
    · exact Does.ends (ws := encB true) ((steps_dropValue (typed_length hu)).append (steps_xor 0#32)) Fr.refl hh hs (rep_bool _)
    · exact Does.ends (ws := encB false) ((steps_dropValue hu.len).append (steps_xor 1#32)) Fr.refl hh hs (rep_bool _)
  | isOk =>
    obtain ⟨o, e, rfl, rfl⟩ := ht
    obtain ⟨x, rfl, hx⟩ := repAll1 hr
    simp only [Rep] at hx
    simp only [primPost, preVals, List.reverse_nil, List.nil_append]
    rcases hx with ⟨x, us, js, rfl, rfl, hu, hj⟩ | ⟨x, us, js, rfl, rfl, hu, hj⟩ <;>
      rw [List.reverse_cons, List.append_assoc, List.reverse_append, List.append_assoc]
    · exact Does.ends (ws := encB true) ((steps_dropValue (typed_length hj)).append (steps_dropValue hu.len)) Fr.refl hh hs (rep_bool _)
    · exact Does.ends (ws := encB false) ((steps_dropValue hu.len).append (steps_dropValue (typed_length hj))) Fr.refl hh hs (rep_bool _)
  | isErr =>
    obtain ⟨o, e, rfl, rfl⟩ := ht
    obtain ⟨x, rfl, hx⟩ := repAll1 hr
    simp only [Rep] at hx
    simp only [primPost, preVals, List.reverse_nil, List.nil_append]
    rcases hx with ⟨x, us, js, rfl, rfl, hu, hj⟩ | ⟨x, us, js, rfl, rfl, hu, hj⟩ <;>
      simp only [List.reverse_cons, List.reverse_append, List.append_assoc]
    · exact Does.ends (ws := encB false) ((steps_dropValue (typed_length hj)).append ((steps_dropValue hu.len).append (steps_xor 1#32))) Fr.refl hh hs (rep_bool _)
    · exact Does.ends (ws := encB true) ((steps_dropValue hu.len).append ((steps_dropValue (typed_length hj)).append (steps_xor 0#32))) Fr.refl hh hs (rep_bool _)
  | not_ =>
    obtain ⟨rfl, rfl⟩ := ht
    obtain ⟨x, rfl, hx⟩ := repAll1 hr
    simp only [Rep] at hx
    obtain ⟨x, rfl, rfl⟩ := hx
    exact Does.run (.inl ⟨_, _, rfl, fun _ _ => rep_bool _, runs_not x⟩) rfl hh hs
  | defaultTo =>
    simp only [primTy] at ht
    subst ht
    obtain ⟨x, y, us, rs, rfl, rfl, hx, hy⟩ := repAll2 hr
    simp only [Rep] at hy
    simp only [primPost] at hl
    simp only [primPost, preVals, List.reverse_nil, List.nil_append]
    rcases hy with ⟨js, rfl, rfl, hu⟩ | ⟨y, js, rfl, rfl, hu⟩ <;>
      simp only [List.reverse_append, List.reverse_cons, List.append_assoc]
    · obtain ⟨loc2, s1, f1, _, w1⟩ := saved (p := p) (T := T) (m := n) (ws := js) (stk := .i32 0#32 :: (us.reverse ++ stk)) (g := g) (loc := loc)
        (typed_length hu) hl
      exact Does.ends (ws := us) (s1.append (steps_default hx.len w1)) f1 hh hs hx
    · obtain ⟨loc2, s1, f1, _, w1⟩ := saved (p := p) (T := T) (m := n) (ws := js) (stk := .i32 1#32 :: (us.reverse ++ stk)) (g := g) (loc := loc)
        hu.len hl
      exact Does.ends (ws := js) (s1.append (steps_default hx.len w1)) f1 hh hs hu
  | unwrapPanic =>
    rcases ht with rfl | ⟨e, rfl⟩
    · obtain ⟨x, rfl, hx⟩ := repAll1 hr
      simp only [Rep] at hx
      simp only [primPost] at hl
      simp only [primPost, preVals, List.reverse_nil, List.nil_append, List.append_assoc]
      rcases hx with ⟨us, rfl, rfl, hu⟩ | ⟨x, us, rfl, rfl, hu⟩ <;> rw [List.reverse_cons, List.append_assoc]
      · obtain ⟨loc2, s1, f1, _, w1⟩ := saved (p := p) (T := T) (m := n) (ws := us) (stk := .i32 0#32 :: stk) (g := g) (loc := loc)
          (typed_length hu) hl
        refine Does.steps0 s1 f1 (Nat.le_refl _) ?_
        refine Does.steps0 (is := [.b .i32eqz]) (steps_eqz 0#32) Fr.refl (Nat.le_refl _) ?_
        exact Does.raiseIf rfl
      · obtain ⟨loc2, s1, f1, _, w1⟩ := saved (p := p) (T := T) (m := n) (ws := us) (stk := .i32 1#32 :: stk) (g := g) (loc := loc)
          hu.len hl
        refine Does.steps0 s1 f1 (Nat.le_refl _) ?_
        refine Does.steps0 (is := [.b .i32eqz]) (steps_eqz 1#32) Fr.refl (Nat.le_refl _) ?_
        refine Does.steps0 (is := [.ite 0 0 (raise 6) []]) (steps_skip rfl) Fr.refl (Nat.le_refl _) ?_
        exact Does.ends (steps_getLocals w1) Fr.refl hh hs hu
    · obtain ⟨x, rfl, hx⟩ := repAll1 hr
      simp only [Rep] at hx
      simp only [primPost] at hl
      simp only [primPost, preVals, List.reverse_nil, List.nil_append, List.append_assoc]
      rcases hx with ⟨x, us, js, rfl, rfl, hu, hj⟩ | ⟨x, us, js, rfl, rfl, hu, hj⟩ <;>
        rw [List.reverse_cons, List.append_assoc, List.reverse_append, List.append_assoc]
      · obtain ⟨loc2, s1, f1, _, w1⟩ := saved (p := p) (T := T) (m := n) (ws := us) (stk := .i32 1#32 :: stk) (g := g) (loc := loc)
          hu.len hl
        refine Does.steps0 (steps_dropValue (typed_length hj)) Fr.refl (Nat.le_refl _) ?_
        refine Does.steps0 s1 f1 (Nat.le_refl _) ?_
        refine Does.steps0 (is := [.b .i32eqz]) (steps_eqz 1#32) Fr.refl (Nat.le_refl _) ?_
        refine Does.steps0 (is := [.ite 0 0 (raise 6) []]) (steps_skip rfl) Fr.refl (Nat.le_refl _) ?_
        exact Does.ends (steps_getLocals w1) Fr.refl hh hs hu
      · obtain ⟨loc2, s1, f1, _, w1⟩ := saved (p := p) (T := T) (m := n) (ws := js) (stk := .i32 0#32 :: stk) (g := g) (loc := loc)
          (typed_length hj) hl
        refine Does.steps0 (steps_dropValue hu.len) Fr.refl (Nat.le_refl _) ?_
        refine Does.steps0 s1 f1 (Nat.le_refl _) ?_
        refine Does.steps0 (is := [.b .i32eqz]) (steps_eqz 0#32) Fr.refl (Nat.le_refl _) ?_
        exact Does.raiseIf rfl
  | unwrapErrPanic =>
    obtain ⟨o, rfl⟩ := ht
    obtain ⟨x, rfl, hx⟩ := repAll1 hr
    simp only [Rep] at hx
    simp only [primPost] at hl
    simp only [primPost, preVals, List.reverse_nil, List.nil_append, List.append_assoc]
    rcases hx with ⟨x, us, js, rfl, rfl, hu, hj⟩ | ⟨x, us, js, rfl, rfl, hu, hj⟩ <;>
      rw [List.reverse_cons, List.append_assoc, List.reverse_append, List.append_assoc]
    · obtain ⟨loc2, s1, f1, _, w1⟩ := saved (p := p) (T := T) (m := n) (ws := js) (stk := us.reverse ++ .i32 1#32 :: stk) (g := g) (loc := loc)
        (typed_length hj) hl
      refine Does.steps0 s1 f1 (Nat.le_refl _) ?_
      refine Does.steps0 (steps_dropValue hu.len) Fr.refl (Nat.le_refl _) ?_
      refine Does.steps0 (is := [.b .i32eqz]) (steps_eqz 1#32) Fr.refl (Nat.le_refl _) ?_
      exact Does.raiseIf rfl
    · obtain ⟨loc2, s1, f1, _, w1⟩ := saved (p := p) (T := T) (m := n) (ws := us) (stk := js.reverse ++ .i32 0#32 :: stk) (g := g) (loc := loc)
        hu.len hl
      refine Does.steps0 s1 f1 (Nat.le_refl _) ?_
      refine Does.steps0 (steps_dropValue (typed_length hj)) Fr.refl (Nat.le_refl _) ?_
      refine Does.steps0 (is := [.b .i32eqz]) (steps_eqz 0#32) Fr.refl (Nat.le_refl _) ?_
      refine Does.steps0 (is := [.ite 0 0 [] (raise 6)]) (steps_skip rfl) Fr.refl (Nat.le_refl _) ?_
      exact Does.ends (steps_getLocals w1) Fr.refl hh hs hu
  | get k =>
    obtain ⟨fs, t, hn, hk, ⟨rfl, rfl⟩ | ⟨rfl, rfl⟩⟩ := ht
    · obtain ⟨x, rfl, hx⟩ := repAll1 hr
      simp only [Rep] at hx
      obtain ⟨kvs, rfl, hx⟩ := hx
      simp only [primPost, fieldsOf, hk, Option.getD_some] at hl
      simp only [primPost, preVals, List.reverse_nil, List.nil_append, fieldsOf, hk, Option.getD_some]
      obtain ⟨loc2, s1, f1, w1⟩ := steps_getCode (p := p) (g := g) (stk := stk) (loc := loc) (m := n) hn hk hx.ty hl
      obtain ⟨y, h1, h2⟩ := hx.slice hk
      simp only [Prim.eval, h1, Ans.out]
      exact Does.ends (s1.append (steps_getLocals w1)) f1 hh hs h2
    · obtain ⟨x, rfl, hx⟩ := repAll1 hr
      simp only [Rep] at hx
      simp only [primPost, fieldsOf, hk, Option.getD_some] at hl
      simp only [primPost, preVals, List.reverse_nil, List.nil_append, fieldsOf, hk, Option.getD_some]
      rcases hx with ⟨us, rfl, rfl, hu⟩ | ⟨x, us, rfl, rfl, kvs, rfl, hu⟩ <;> rw [List.reverse_cons, List.append_assoc]
      · obtain ⟨loc2, s1, f1, w1⟩ := steps_getCode (p := p) (g := g) (stk := .i32 0#32 :: stk) (loc := loc) (m := n) hn hk hu hl
        refine Does.ends (ws := .i32 0#32 :: slice k fs us) ?_ f1 hh hs (rep_none (slice_ty hk hu))
        rw [List.reverse_cons, List.append_assoc]
        exact s1.append (steps_getLocals w1)
      · obtain ⟨loc2, s1, f1, w1⟩ := steps_getCode (p := p) (g := g) (stk := .i32 1#32 :: stk) (loc := loc) (m := n) hn hk hu.ty hl
        obtain ⟨y, h1, h2⟩ := hu.slice hk
        simp only [Prim.eval, h1, Ans.out]
        refine Does.ends (ws := .i32 1#32 :: slice k fs us) ?_ f1 hh hs (rep_some h2)
        rw [List.reverse_cons, List.append_assoc]
        exact s1.append (steps_getLocals w1)
  | mod =>
    obtain ⟨hT, rfl⟩ := ht
    obtain ⟨x, y, us, rs, rfl, rfl, hx, hy⟩ := repAll2 hr
    refine Does.run (mod_runs hT hx hy) ?_ hh hs
    rw [List.length_append, hx.len, hy.len]; rcases hT with rfl | rfl <;> rfl
  | lt =>
    obtain ⟨t, u, hT, rfl, rfl⟩ := ht
    obtain ⟨x, y, us, rs, rfl, rfl, hx, hy⟩ := repAll2 hr
    have hlen := cmp_len hT hx hy
    exact Does.run (cmp_runs hT hz hx hy).1 (by rw [List.length_append, hlen.1, hlen.2.1]) hh hs
  | le =>
    obtain ⟨t, u, hT, rfl, rfl⟩ := ht
    obtain ⟨x, y, us, rs, rfl, rfl, hx, hy⟩ := repAll2 hr
    have hlen := cmp_len hT hx hy
    exact Does.run (cmp_runs hT hz hx hy).2.1 (by rw [List.length_append, hlen.1, hlen.2.2.1]) hh hs
  | gt =>
    obtain ⟨t, u, hT, rfl, rfl⟩ := ht
    obtain ⟨x, y, us, rs, rfl, rfl, hx, hy⟩ := repAll2 hr
    have hlen := cmp_len hT hx hy
    exact Does.run (cmp_runs hT hz hx hy).2.2.1 (by rw [List.length_append, hlen.1, hlen.2.2.2.1]) hh hs
  | ge =>
    obtain ⟨t, u, hT, rfl, rfl⟩ := ht
    obtain ⟨x, y, us, rs, rfl, rfl, hx, hy⟩ := repAll2 hr
    have hlen := cmp_len hT hx hy
    exact Does.run (cmp_runs hT hz hx hy).2.2.2 (by rw [List.length_append, hlen.1, hlen.2.2.2.2]) hh hs
  | toInt =>
    obtain ⟨rfl, rfl⟩ := ht
    obtain ⟨x, rfl, hx⟩ := repAll1 hr
    simp only [Rep] at hx
    obtain ⟨x, rfl, hx, rfl⟩ := hx
    refine Does.run (args := encU x) ?_ rfl hh hs
    have h := Props.C10_to_int p.M g x hx
    simp only [Prim.eval]
    by_cases e : x < 2 ^ 127
    · have e' : IsInt x := by unfold IsInt; omega
      rw [if_pos e] at h; rw [if_pos e']
      exact .inl ⟨_, _, rfl, fun _ _ => rep_int e', h⟩
    · have e' : ¬ IsInt x := by unfold IsInt; omega
      rw [if_neg e] at h; rw [if_neg e']
      exact .inr (.inl ⟨_, rfl, h⟩)
  | toUint =>
    obtain ⟨rfl, rfl⟩ := ht
    obtain ⟨x, rfl, hx⟩ := repAll1 hr
    simp only [Rep] at hx
    obtain ⟨x, rfl, hx, rfl⟩ := hx
    refine Does.run (args := encI x) ?_ rfl hh hs
    have h := Props.C10_to_uint p.M g x hx
    simp only [Prim.eval]
    by_cases e : 0 ≤ x
    · rw [if_pos e] at h ⊢
      exact .inl ⟨_, _, rfl, fun _ _ => rep_uint (by unfold IsUInt; unfold IsInt at hx; omega), h⟩
    · rw [if_neg e] at h ⊢
      exact .inr (.inl ⟨_, rfl, h⟩)
  | len =>
    obtain ⟨S, hS, rfl, rfl⟩ := ht
    obtain ⟨x, rfl, hx⟩ := repAll1 hr
    obtain ⟨vs, o, l, hvs, hlen, rfl, hl', hhas⟩ := rep_seq hS.1 hx
    simp only [primPost, List.length_singleton] at hl
    simp only [primPost, preVals, List.append_assoc, Prim.eval, hvs, Ans.out]
    have hM := hS.2.2.1
    refine Does.ends (ws := encU vs.length) (loc1 := loc.set n (.i32 l)) (g1 := g) ?_
      (Fr.locals (by simp) fun i hi => by rw [List.getElem?_set_ne (by omega)]) hh hs (rep_uint (by unfold IsUInt; omega))
    refine Steps.append (s1 := .i32 l :: stk) (l1 := loc.set n (.i32 l)) (g1 := g) ?_
      (Steps.append (steps_count hS hl') ?_)
    · refine Steps.of_wp fun Q => ?_
      simp only [lset, lget, List.reverse_cons, List.reverse_nil, List.nil_append, List.cons_append]
      wpl
    · refine Steps.of_wp fun Q => ?_
      have e1 : (BitVec.ofNat 32 vs.length).setWidth 64 = BitVec.ofNat 64 vs.length := by
        apply BitVec.eq_of_toNat_eq
        rw [BitVec.toNat_setWidth, BitVec.toNat_ofNat, BitVec.toNat_ofNat]; omega
      have e2 : vs.length / 2 ^ 64 = 0 := by omega
      simp only [c64, encU, e2]
      wpl [e1]
  | asMaxLen q =>
    obtain ⟨S, hS, hq, rfl, rfl⟩ := ht
    obtain ⟨x, rfl, hx⟩ := repAll1 hr
    obtain ⟨vs, o, l, hvs, hlen, rfl, hl', hhas⟩ := rep_seq hS.1 hx
    simp only [primPost, List.length_cons, List.length_nil] at hl
    simp only [primPost, preVals, List.append_assoc, Prim.eval, hvs, Ans.out]
    have hM := hS.2.2.1
    have key : Steps p.M ([lset n, lset (n + 1), lget n] ++ (countCode S ++ ([.b .i64extU] ++
        (((encU q).map fun v => .b (.const v)) ++
        [.b .drop, .b (.i64rel .gtU), .b .select, lget (n + 1), lget n]))))
        ([Val.i32 o, .i32 l].reverse ++ ([Val.i32 0#32, .i32 1#32].reverse ++ stk)) loc g
        ([Val.i32 (if vs.length ≤ q then 1#32 else 0#32), .i32 o, .i32 l].reverse ++ stk)
        ((loc.set n (.i32 l)).set (n + 1) (.i32 o)) g := by
      refine Steps.append (s1 := .i32 l :: .i32 1#32 :: .i32 0#32 :: stk) (l1 := (loc.set n (.i32 l)).set (n + 1) (.i32 o)) (g1 := g) ?_
        (Steps.append (steps_count hS hl') ?_)
      · refine Steps.of_wp fun Q => ?_
        simp only [lset, lget, List.reverse_cons, List.reverse_nil, List.nil_append, List.cons_append]
        wpl
      · refine Steps.of_wp fun Q => ?_
        have e1 : ((BitVec.ofNat 32 vs.length).setWidth 64).toNat = vs.length := by
          rw [BitVec.toNat_setWidth, BitVec.toNat_ofNat]; omega
        have e2 : (BitVec.ofNat 64 q).toNat = q := by rw [BitVec.toNat_ofNat]; omega
        simp only [encU, lget, List.reverse_cons, List.reverse_nil, List.nil_append, List.cons_append, List.map_cons, List.map_nil]
        wpl [e1, e2]
        simp only [Nat.not_lt]
    have hf : Fr n 0 loc ((loc.set n (.i32 l)).set (n + 1) (.i32 o)) g g :=
      Fr.locals (by simp) fun i hi => by rw [List.getElem?_set_ne (by omega), List.getElem?_set_ne (by omega)]
    by_cases e : vs.length ≤ q
    · rw [if_pos e] at key ⊢
      exact Does.ends key hf hh hs (rep_some (rep_max hS.1 hx hvs e))
    · rw [if_neg e] at key ⊢
      exact Does.ends key hf hh hs (rep_none (by rw [wty_seq (by cases S <;> simp_all [withMax, isSeq, SeqOk])]; rfl))
  | word q => exact word_post ht hr hz hh hs

end

end Gen
