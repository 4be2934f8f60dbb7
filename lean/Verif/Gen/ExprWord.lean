import Verif.Gen.ExprProof2
import Verif.Props.Bytes
import Verif.Props.Parse
import Verif.Props.Arith2

/-! Code of expressions: operators computed by one function of the runtime library. -/

namespace Gen
open Wasm Spec Host Core

section
variable {p : P} {k : Nat} {call : FSem} {wr : Bool} {w : World} {d n al : Nat} {er : Bool}
  {stk bs loc loc' : List Val} {g : Store World}

/-- A function of the runtime library computes an operator. -/
def RunsOp (M : Wasm.Mod World) (f : StdFn) (args : List Val) (g : Store World) (T : Ty) (a : Ans) : Prop :=
  (∃ v ws, a = .ok v ∧ (∀ m b, Rep m b T v ws) ∧ Runs M (.std f) args g (.ret ws g)) ∨
  (∃ c, a = .fail c ∧ Runs M (.std f) args g (abort g c)) ∨ a = .deviates

theorem Does.run {f : StdFn} {args : List Val} {T : Ty} {a : Ans} {s : St}
    (h : RunsOp p.M f args g T a) (hl : args.length = (stdFunc f).params.length)
    (hh : g.host = put w s) (hs : StOk p.K w.contract s) :
    Does p w d er n 0 [.call (.std f)] (args.reverse ++ stk) stk loc g (a.out s) (IsRep p T) := by
  intro hd
  have hsig : p.M.sig (.std f) = some ((stdFunc f).params, (stdFunc f).results) := rfl
  rcases h with ⟨v, ws, rfl, hr, h⟩ | ⟨c, rfl, h⟩ | rfl
  · rw [wp_call_runs hsig hl h (by simp), callK_ret, wp_nil]
    exact ⟨ws, loc, g, rfl, Fr.refl, hh, hs, hr _ _⟩
  · rw [wp_call_runs hsig hl h (by simp [abort])]
    exact ⟨g.failed c, rfl, by simp [Store.failed, Store.set32]⟩
  · exact absurd rfl hd

theorem rep_int {m : Mem} {b : Reg} {z : Int} (h : IsInt z) : Rep m b .int (.int z) (encI z) := by
  simp only [Rep]; exact ⟨z, rfl, h, rfl⟩

theorem rep_uint {m : Mem} {b : Reg} {z : Nat} (h : IsUInt z) : Rep m b .uint (.uint z) (encU z) := by
  simp only [Rep]; exact ⟨z, rfl, h, rfl⟩

theorem repAll1 {m : Mem} {b : Reg} {T : Ty} {vs : List Value} {ws : List Val} (h : RepAll m b [T] vs ws) :
    ∃ x, vs = [x] ∧ Rep m b T x ws := by
  obtain ⟨x, r, us, rs, rfl, rfl, h, rfl, rfl⟩ := h
  exact ⟨x, rfl, by simpa using h⟩

theorem repAll2 {m : Mem} {b : Reg} {T U : Ty} {vs : List Value} {ws : List Val} (h : RepAll m b [T, U] vs ws) :
    ∃ x y us rs, vs = [x, y] ∧ ws = us ++ rs ∧ Rep m b T x us ∧ Rep m b U y rs := by
  obtain ⟨x, r, us, rs, rfl, rfl, h, h'⟩ := h
  obtain ⟨y, rfl, hy⟩ := repAll1 h'
  exact ⟨x, y, us, rs, rfl, rfl, h, hy⟩

theorem rep_none {m : Mem} {b : Reg} {t : Ty} {us : List Val} (h : us.map Val.ty = wty t) :
    Rep m b (.opt t) .none (.i32 0#32 :: us) := by
  simp only [Rep]; exact .inl ⟨us, trivial, rfl, h⟩

theorem rep_some {m : Mem} {b : Reg} {t : Ty} {x : Value} {us : List Val} (h : Rep m b t x us) :
    Rep m b (.opt t) (.some x) (.i32 1#32 :: us) := by
  simp only [Rep]; exact .inr ⟨x, us, rfl, rfl, h⟩


/-! ### Comparisons of buffers and strings -/

theorem lexSign_bytes : ∀ (a b : List Byte),
    let x := lexSign (a.map BitVec.toNat) (b.map BitVec.toNat)
    (x < 0 ↔ lexLt a b = true) ∧ (0 < x ↔ lexLt b a = true) ∧ (x = 0 ↔ a = b)
  | [], [] => by simp [lexSign, lexLt]
  | [], _ :: _ => by simp [lexSign, lexLt]
  | _ :: _, [] => by simp [lexSign, lexLt]
  | a :: as, b :: bs => by
    have ih := lexSign_bytes as bs
    simp only [List.map_cons, lexSign, lexLt, Bool.or_eq_true, decide_eq_true_eq, Bool.and_eq_true,
      List.cons.injEq] at ih ⊢
    have e : a = b ↔ a.toNat = b.toNat := BitVec.toNat_inj.symm
    have e' : b = a ↔ a.toNat = b.toNat := by rw [eq_comm, e]
    rw [e, e', ih.2.2.symm, ih.1.symm, ih.2.1.symm]
    split
    · omega
    · split <;> omega

theorem lexSign_four {a b : Nat} (ha : a < 2 ^ 32) (hb : b < 2 ^ 32) (as bs : List Nat) :
    lexSign ((beBytes4 a).map BitVec.toNat ++ as) ((beBytes4 b).map BitVec.toNat ++ bs) =
      if a < b then -1 else if b < a then 1 else lexSign as bs := by
  simp only [beBytes4, List.map_cons, List.map_nil, List.cons_append, List.nil_append, lexSign,
    BitVec.toNat_ofNat]
  repeat' split
  all_goals first | rfl | omega

theorem lexSign_flat : ∀ {a b : List Nat}, (∀ c ∈ a, c < 2 ^ 32) → (∀ c ∈ b, c < 2 ^ 32) →
    lexSign ((a.flatMap beBytes4).map BitVec.toNat) ((b.flatMap beBytes4).map BitVec.toNat) = lexSign a b
  | [], [], _, _ => rfl
  | [], b :: bs, _, _ => by simp [lexSign, beBytes4]
  | a :: as, [], _, _ => by simp [lexSign, beBytes4]
  | a :: as, b :: bs, ha, hb => by
    rw [List.flatMap_cons, List.flatMap_cons, List.map_append, List.map_append,
      lexSign_four (ha a (by simp)) (hb b (by simp)), lexSign,
      lexSign_flat (fun c h => ha c (by simp [h])) (fun c h => hb c (by simp [h]))]

theorem scalar_lt {c : Nat} (h : isScalar c) : c < 2 ^ 32 := by
  unfold isScalar at h; omega

/-- Comparing two byte sequences in memory. -/
theorem bytes_runs {M : Wasm.Mod World} {b : Reg} {x y : List Byte} {wx wy : List Val} (hb : b.hi ≤ g.mem.size)
    (hx : BytesIn g.mem b x wx) (hy : BytesIn g.mem b y wy) :
    let z := lexSign (x.map BitVec.toNat) (y.map BitVec.toNat)
    Runs M (.std .lt_buff) (wx ++ wy) g (.ret (encB (decide (z < 0))) g) ∧
    Runs M (.std .le_buff) (wx ++ wy) g (.ret (encB (decide (z ≤ 0))) g) ∧
    Runs M (.std .gt_buff) (wx ++ wy) g (.ret (encB (decide (0 < z))) g) ∧
    Runs M (.std .ge_buff) (wx ++ wy) g (.ret (encB (decide (0 ≤ z))) g) := by
  obtain ⟨o, l, rfl, hl, ho, hm⟩ := hx
  obtain ⟨o', l', rfl, hl', ho', hm'⟩ := hy
  have := ho.1; have := ho'.1
  obtain ⟨h1, h2, h3, h4⟩ := Props.C06_compare_bytes M g o l o' l' (by omega) (by omega)
  rw [hl, hl', hm, hm'] at h1 h2 h3 h4
  have key : ∀ (P : Prop) [Decidable P] (c : Bool), (c = true ↔ P) → [Val.i32 (b32 P)] = encB c := by
    intro P _ c h
    by_cases e : P
    · rw [show c = true from h.2 e]; simp [b32, e, encB]
    · rw [show c = false from Bool.eq_false_iff.2 fun h' => e (h.1 h')]; simp [b32, e, encB]
  obtain ⟨e1, e2, e3⟩ := lexSign_bytes x y
  intro z
  have q1 := key (lexLt x y = true) (decide (z < 0)) (by rw [decide_eq_true_eq]; exact e1)
  have q2 := key (lexLt y x = true) (decide (0 < z)) (by rw [decide_eq_true_eq]; exact e2)
  have q3 := key (x = y ∨ lexLt x y = true) (decide (z ≤ 0)) (by rw [decide_eq_true_eq, ← e1, ← e3]; omega)
  have q4 := key (x = y ∨ lexLt y x = true) (decide (0 ≤ z)) (by rw [decide_eq_true_eq, ← e2, ← e3]; omega)
  rw [q1] at h1; rw [q2] at h2; rw [q3] at h3; rw [q4] at h4
  exact ⟨h1, h3, h2, h4⟩

/-! ### Bits -/

theorem encI_bits (x : BitVec 128) : encI x.toInt = encU x.toNat := by
  apply encI_eq_encU
  have := x.isLt
  rw [BitVec.toInt_eq_toNat_cond]
  split <;> omega

theorem bits_args {z : Int} (h : IsInt z) : encI z = encU (BitVec.ofInt 128 z).toNat := by
  rw [← encI_bits, BitVec.toInt_ofInt]
  congr 1
  unfold IsInt at h
  rw [Int.bmod_def]
  split <;> omega

theorem toInt_isInt (x : BitVec 128) : IsInt x.toInt := by
  have := x.toInt_lt; have := x.le_toInt
  unfold IsInt; omega

/-- The function of a bitwise operator. -/
abbrev bitFn (o : BitOp) : StdFn :=
  match o with
  | .and => .bit_and
  | .or => .bit_or
  | .xor => .bit_xor

theorem bit_runs {M : Wasm.Mod World} (o : BitOp) (x y : BitVec 128) :
    Runs M (.std (bitFn o)) (encU x.toNat ++ encU y.toNat) g (.ret (encU (o.vec x y).toNat) g) := by
  obtain ⟨al, ah, ha⟩ := exists_u128 (n := x.toNat) (by unfold IsUInt; omega)
  obtain ⟨bl, bh, hb⟩ := exists_u128 (n := y.toNat) (by unfold IsUInt; omega)
  cases o
  · have := runs_bit_and (M := M) (g := g) al ah bl bh
    rw [← Props.args_u, ← ha, ← hb, ← BitVec.toNat_and] at this; exact this
  · have := runs_bit_or (M := M) (g := g) al ah bl bh
    rw [← Props.args_u, ← ha, ← hb, ← BitVec.toNat_or] at this; exact this
  · have := runs_bit_xor (M := M) (g := g) al ah bl bh
    rw [← Props.args_u, ← ha, ← hb, ← BitVec.toNat_xor] at this; exact this

theorem bits_bin {M : Wasm.Mod World} {o : BitOp} {T : Ty} {m : Mem} {b : Reg} {x y : Value} {wx wy : List Val}
    (hT : IntTy T) (hx : Rep m b T x wx) (hy : Rep m b T y wy) :
    ∃ v ws, o.bin x y = .ok v ∧ (∀ m b, Rep m b T v ws) ∧
      Runs M (.std (bitFn o)) (wx ++ wy) g (.ret ws g) := by
  rcases hT with rfl | rfl
  · simp only [Rep] at hx hy
    obtain ⟨x, rfl, hx, rfl⟩ := hx
    obtain ⟨y, rfl, hy, rfl⟩ := hy
    rw [bits_args hx, bits_args hy]
    refine ⟨_, _, rfl, fun _ _ => rep_int (toInt_isInt _), ?_⟩
    rw [encI_bits]
    exact bit_runs o _ _
  · simp only [Rep] at hx hy
    obtain ⟨x, rfl, hx, rfl⟩ := hx
    obtain ⟨y, rfl, hy, rfl⟩ := hy
    have e : ∀ {z : Nat}, IsUInt z → (BitVec.ofNat 128 z).toNat = z := fun h => by
      rw [BitVec.toNat_ofNat]; exact Nat.mod_eq_of_lt h
    have := bit_runs (M := M) (g := g) o (BitVec.ofNat 128 x) (BitVec.ofNat 128 y)
    rw [e hx, e hy] at this
    exact ⟨_, _, rfl, fun _ _ => rep_uint (by unfold IsUInt; omega), this⟩

theorem steps_call {M : Wasm.Mod World} {f : StdFn} {args ws : List Val}
    (h : Runs M (.std f) args g (.ret ws g)) (hl : args.length = (stdFunc f).params.length) :
    Steps M [.call (.std f)] (args.reverse ++ stk) loc g (ws.reverse ++ stk) loc g := by
  refine Steps.of_wp fun Q => ?_
  have hsig : M.sig (.std f) = some ((stdFunc f).params, (stdFunc f).results) := rfl
  rw [wp_call_runs hsig hl h (by simp), callK_ret, wp_nil]

theorem steps_bits {M : Wasm.Mod World} {o : BitOp} {T : Ty} {m : Mem} {b : Reg} (hT : IntTy T) :
    ∀ {k : Nat} {vs : List Value} {ws stk : List Val}, RepAll m b (List.replicate (k + 1) T) vs ws →
    ∃ v us, o.eval vs = .ok v ∧ Rep m b T v us ∧
      Steps M (List.replicate k (.call (.std (bitFn o)))) (ws.reverse ++ stk) loc g (us.reverse ++ stk) loc g
  | 0, vs, ws, stk, h => by
    obtain ⟨x, rfl, hx⟩ := repAll1 h
    exact ⟨x, ws, rfl, hx, Steps.refl⟩
  | k + 1, vs, ws, stk, h => by
    rw [List.replicate_succ] at h
    obtain ⟨x, r, us, rs, rfl, rfl, hx, h'⟩ := h
    obtain ⟨v, ts, e, hv, hs⟩ := steps_bits (M := M) (o := o) hT (stk := us.reverse ++ stk) h'
    obtain ⟨u, zs, e2, hu, hrun⟩ := bits_bin (M := M) (g := g) (o := o) hT hx hv
    refine ⟨u, zs, ?_, hu _ _, ?_⟩
    · rw [List.replicate_succ] at h'
      obtain ⟨y, r', _, _, rfl, _⟩ := h'
      rw [BitOp.eval, e]
      exact e2
    · rw [List.replicate_succ', List.reverse_append, List.append_assoc]
      refine hs.append ?_
      have hl : (us ++ ts).length = (stdFunc (bitFn o)).params.length := by
        rw [List.length_append, hx.len, hv.len]; rcases hT with rfl | rfl <;> cases o <;> rfl
      have := steps_call (stk := stk) (loc := loc) hrun hl
      rwa [List.reverse_append, List.append_assoc] at this

/-! ### Numerals -/

theorem scalars_of {m : Mem} {o : Nat} : ∀ {cs : List Nat}, (∀ c ∈ cs, c < 2 ^ 32) →
    bytesAt m o (cs.flatMap beBytes4).length = cs.flatMap beBytes4 → scalarsAt m o cs.length = cs
  | [], _, _ => rfl
  | c :: cs, hc, h => by
    rw [List.flatMap_cons, List.length_append, bytesAt_add] at h
    obtain ⟨h1, h2⟩ := List.append_inj h (by rw [Wasm.length_bytesAt])
    have h3 := hc c (by simp)
    have ih := scalars_of (o := o + 4) (fun c h => hc c (by simp [h])) h2
    have h1 : bytesAt m o 4 = beBytes4 c := h1
    rw [List.length_cons, scalarsAt, ih, h1]
    congr 1
    simp only [beBytes4, beNat, List.foldl_cons, List.foldl_nil, BitVec.toNat_ofNat]
    omega

theorem four_length : ∀ (cs : List Nat), (cs.flatMap beBytes4).length = 4 * cs.length
  | [] => rfl
  | c :: cs => by
    rw [List.flatMap_cons, List.length_append, four_length cs, List.length_cons]
    simp only [beBytes4, List.length_cons, List.length_nil]
    omega

theorem parseU_runs {M : Wasm.Mod World} {f : StdFn} {args : List Val} {cs : List Nat}
    (h1 : cs.length ≤ 39 → ¬ Props.ParseBug cs → Runs M (.std f) args g (.ret (encOptU (parseUInt cs)) g))
    (h2 : 39 < cs.length → Runs M (.std f) args g (.ret (encOptU none) g)) :
    RunsOp M f args g (.opt .uint) (parseUAns cs) := by
  unfold parseUAns
  split
  · exact .inr (.inr rfl)
  · rename_i hn
    have hn1 : ¬ (39 < cs.length ∧ parseUInt cs ≠ none) := fun h => hn (.inl h)
    have hn2 : ¬ Props.ParseBug cs := fun h => hn (.inr h)
    have hr : Runs M (.std f) args g (.ret (encOptU (parseUInt cs)) g) := by
      by_cases e : cs.length ≤ 39
      · exact h1 e hn2
      · rw [show parseUInt cs = none from Classical.not_not.1 fun h => hn1 ⟨by omega, h⟩]
        exact h2 (by omega)
    refine .inl ⟨_, _, rfl, fun m b => ?_, hr⟩
    cases e : parseUInt cs with
    | none => exact rep_none rfl
    | some n =>
      refine rep_some (rep_uint ?_)
      unfold parseUInt at e
      have := (Option.filter_eq_some_iff.1 e).2
      exact of_decide_eq_true this

theorem parseI_runs {M : Wasm.Mod World} {f : StdFn} {args : List Val} {cs : List Nat}
    (h1 : cs ≠ [] → Props.numeralLen cs ≤ 39 → Runs M (.std f) args g (.ret (encOptI (parseInt cs)) g)) :
    RunsOp M f args g (.opt .int) (parseIAns cs) := by
  unfold parseIAns
  by_cases hn : cs = [] ∨ 39 < (if cs.head? = some 45 then cs.tail.length else cs.length)
  · rw [if_pos hn]; exact .inr (.inr rfl)
  · rw [if_neg hn]
    rw [not_or, Nat.not_lt] at hn
    refine .inl ⟨_, _, rfl, fun m b => ?_, h1 hn.1 hn.2⟩
    cases e : parseInt cs with
    | none => exact rep_none rfl
    | some n =>
      refine rep_some (rep_int ?_)
      unfold parseInt at e
      have := of_decide_eq_true (Option.filter_eq_some_iff.1 e).2
      exact this

/-! ### All of them -/

theorem pow_runs {M : Wasm.Mod World} {T : Ty} {m : Mem} {b : Reg} {x y : Value} {wx wy : List Val}
    (hT : IntTy T) (hx : Rep m b T x wx) (hy : Rep m b T y wy) :
    RunsOp M (bySign T .pow_int .pow_uint) (wx ++ wy) g T (Word.eval .pow [x, y]) := by
  rcases hT with rfl | rfl
  · simp only [Rep] at hx hy
    obtain ⟨x, rfl, hx, rfl⟩ := hx
    obtain ⟨y, rfl, hy, rfl⟩ := hy
    obtain ⟨al, ah, rfl⟩ := exists_i128 hx
    obtain ⟨bl, bh, rfl⟩ := exists_i128 hy
    have h := runs_pow_int (M := M) (g := g) al ah bl bh
    rw [← Props.args_i] at h
    generalize i128 al ah = a at *
    generalize i128 bl bh = b at *
    simp only [Word.eval, bySign]
    by_cases c1 : b < 0 ∧ (a = 0 ∨ a = 1)
    · rw [if_neg (by omega), if_pos (by omega)] at h
      rw [if_pos c1]
      exact .inl ⟨_, _, rfl, fun _ _ => rep_int hx, h⟩
    rw [if_neg c1]
    by_cases c2 : a = -1 ∧ 127 < b
    · rw [if_pos c2]; exact .inr (.inr rfl)
    rw [if_neg c2]
    by_cases c3 : b < 0
    · rw [if_neg (by omega), if_neg (by omega), if_pos (.inl c3)] at h
      rw [if_pos c3]
      exact .inr (.inl ⟨_, rfl, h⟩)
    rw [if_neg c3]
    by_cases c4 : b = 0
    · rw [if_pos c4] at h
      subst c4
      simp only [Int.toNat_zero, pow_zero]
      rw [if_pos (by decide)]
      exact .inl ⟨_, _, rfl, fun _ _ => rep_int (by decide), h⟩
    rw [if_neg c4] at h
    by_cases c5 : a = 0 ∨ a = 1 ∨ b = 1
    · have e : a ^ b.toNat = a := by
        rcases c5 with rfl | rfl | rfl
        · rw [zero_pow (by omega)]
        · rw [one_pow]
        · simp
      rw [if_pos c5] at h
      rw [e, if_pos hx]
      exact .inl ⟨_, _, rfl, fun _ _ => rep_int hx, h⟩
    rw [if_neg c5] at h
    by_cases c6 : (if a < 0 then (127 : Int) else 126) < b
    · rw [if_pos (.inr c6)] at h
      have hbig : ¬ IsInt (a ^ b.toNat) := by
        intro hi
        unfold IsInt at hi
        have hna : 2 ≤ a.natAbs := by split at c6 <;> omega
        have h4 : (if a < 0 then 128 else 127) ≤ b.toNat := by
          split at c6 <;> simp_all <;> omega
        have h5 : 2 ^ b.toNat ≤ (a ^ b.toNat).natAbs := by
          rw [Int.natAbs_pow]; exact Nat.pow_le_pow_left hna _
        by_cases hneg : a < 0
        · rw [if_pos hneg] at h4
          have := Nat.le_trans (Nat.pow_le_pow_right (by decide : 0 < 2) h4) h5
          omega
        · rw [if_neg hneg] at h4
          have h6 := Nat.le_trans (Nat.pow_le_pow_right (by decide : 0 < 2) h4) h5
          have := pow_nonneg (Int.not_lt.1 hneg) b.toNat
          omega
      rw [if_neg hbig, if_pos c6]
      exact .inr (.inl ⟨_, rfl, h⟩)
    · rw [if_neg (by rw [not_or]; exact ⟨c3, c6⟩)] at h
      by_cases c7 : IsInt (a ^ b.toNat)
      · rw [if_pos c7] at h ⊢
        exact .inl ⟨_, _, rfl, fun _ _ => rep_int c7, h⟩
      · rw [if_neg c7] at h ⊢
        rw [if_neg c6]
        exact .inr (.inl ⟨_, rfl, h⟩)
  · simp only [Rep] at hx hy
    obtain ⟨x, rfl, hx, rfl⟩ := hx
    obtain ⟨y, rfl, hy, rfl⟩ := hy
    obtain ⟨h1, h2⟩ := Props.C08_pow_uint M g x y hx hy
    simp only [Word.eval, bySign]
    by_cases e : IsUInt (x ^ y)
    · rw [if_pos e]; exact .inl ⟨_, _, rfl, fun _ _ => rep_uint e, h1 e⟩
    · rw [if_neg e]
      have := h2 e
      split at this
      · rw [if_pos ‹_›]; exact .inr (.inl ⟨_, rfl, this⟩)
      · rw [if_neg ‹_›]; exact .inr (.inl ⟨_, rfl, this⟩)

theorem one_runs {M : Wasm.Mod World} {T : Ty} {m : Mem} {b : Reg} {x : Value} {wx : List Val}
    (hT : IntTy T) (hx : Rep m b T x wx) :
    RunsOp M (bySign T .log2_int .log2_uint) wx g T (Word.eval .log2 [x]) ∧
    RunsOp M (bySign T .sqrti_int .sqrti_uint) wx g T (Word.eval .sqrti [x]) ∧
    RunsOp M .bit_not wx g T (Word.eval .bitNot [x]) := by
  have big : ∀ n : Nat, n ≠ 0 → n < 2 ^ 128 → n.log2 < 128 := fun n h0 h => (Nat.log2_lt h0).2 h
  rcases hT with rfl | rfl
  · simp only [Rep] at hx
    obtain ⟨x, rfl, hx, rfl⟩ := hx
    simp only [Word.eval, bySign]
    refine ⟨?_, ?_, ?_⟩
    · obtain ⟨h1, h2⟩ := Props.C07_log2_int M g x hx
      split
      · exact .inr (.inl ⟨_, rfl, h1 ‹_›⟩)
      · have h0 : x.toNat ≠ 0 := by omega
        have hx' : x.toNat < 2 ^ 128 := by unfold IsInt at hx; omega
        obtain ⟨b1, b2⟩ := log2_bounds h0
        refine .inl ⟨_, _, rfl, fun _ _ => rep_int ?_, h2 _ ?_ ?_⟩
        · have := big _ h0 hx'
          unfold IsInt; omega
        · zify at b1; omega
        · zify at b2; omega
    · obtain ⟨h1, h2⟩ := Props.C07_sqrti_int M g x hx
      split
      · exact .inr (.inl ⟨_, rfl, h1 ‹_›⟩)
      · have b1 := Nat.sqrt_le x.toNat
        have b2 := Nat.lt_succ_sqrt x.toNat
        have b3 := Nat.sqrt_le_self x.toNat
        refine .inl ⟨_, _, rfl, fun _ _ => rep_int ?_, h2 _ ?_ ?_⟩
        · unfold IsInt at *; omega
        · zify at b1; omega
        · rw [Nat.succ_eq_add_one] at b2; zify at b2; omega
    · obtain ⟨al, ah, rfl⟩ := exists_i128 hx
      have h := runs_bit_not (M := M) (g := g) al ah
      refine .inl ⟨_, _, rfl, fun _ _ => rep_int ?_, ?_⟩
      · unfold IsInt at *; omega
      · rw [encI_i128]
        rw [encI_eq_encU (n := 2 ^ 128 - 1 - u128 al ah)]
        · exact h
        · have := u128_lt al ah
          rcases i128_eq al ah with h | h <;> omega
  · simp only [Rep] at hx
    obtain ⟨x, rfl, hx, rfl⟩ := hx
    simp only [Word.eval, bySign]
    refine ⟨?_, ?_, ?_⟩
    · obtain ⟨h1, h2, _⟩ := Props.C07_log2_uint M g x hx
      split
      · exact .inr (.inl ⟨_, rfl, h1 ‹_›⟩)
      · have h0 : x ≠ 0 := ‹_›
        obtain ⟨b1, b2⟩ := log2_bounds h0
        refine .inl ⟨_, _, rfl, fun _ _ => rep_uint ?_, h2 _ b1 b2⟩
        have := big _ h0 hx
        unfold IsUInt; omega
    · have b1 := Nat.sqrt_le x
      have b2 := Nat.lt_succ_sqrt x
      have b3 := Nat.sqrt_le_self x
      exact .inl ⟨_, _, rfl, fun _ _ => rep_uint (by unfold IsUInt at *; omega), Props.C07_sqrti_uint M g _ _ hx b1 b2⟩
    · obtain ⟨al, ah, rfl⟩ := exists_u128 hx
      have h := runs_bit_not (M := M) (g := g) al ah
      rw [← encU_u128] at h
      exact .inl ⟨_, _, rfl, fun _ _ => rep_uint (by unfold IsUInt; omega), h⟩

theorem shift_runs {M : Wasm.Mod World} {T : Ty} {m : Mem} {b : Reg} {x y : Value} {wx wy : List Val}
    (hT : IntTy T) (hx : Rep m b T x wx) (hy : Rep m b .uint y wy) :
    RunsOp M .bit_shift_left (wx ++ wy) g T (Word.eval .shl [x, y]) ∧
    RunsOp M (bySign T .bit_shift_right_int .bit_shift_right_uint) (wx ++ wy) g T (Word.eval .shr [x, y]) := by
  rcases hT with rfl | rfl
  · simp only [Rep] at hx hy
    obtain ⟨x, rfl, hx, rfl⟩ := hx
    obtain ⟨y, rfl, hy, rfl⟩ := hy
    obtain ⟨_, h2, _, h4⟩ := Props.C09_shifts M g 0 y x (by decide) hy hx
    refine ⟨.inl ⟨_, _, rfl, fun _ _ => rep_int ?_, h2⟩, .inl ⟨_, _, rfl, fun _ _ => rep_int ?_, h4⟩⟩
    · unfold IsInt wrapI; omega
    · have hp : (1 : Int) ≤ 2 ^ (y % 128) := by have := Int.pow_pos (n := 2) (m := y % 128) (by decide); omega
      generalize (2 : Int) ^ (y % 128) = q at *
      unfold IsInt at *
      constructor
      · exact (Int.le_ediv_iff_mul_le (by omega)).2 (by nlinarith)
      · exact Int.ediv_lt_of_lt_mul (by omega) (by nlinarith)
  · simp only [Rep] at hx hy
    obtain ⟨x, rfl, hx, rfl⟩ := hx
    obtain ⟨y, rfl, hy, rfl⟩ := hy
    obtain ⟨h1, _, h3, _⟩ := Props.C09_shifts M g x y 0 hx hy (by decide)
    refine ⟨.inl ⟨_, _, rfl, fun _ _ => rep_uint ?_, h1⟩, .inl ⟨_, _, rfl, fun _ _ => rep_uint ?_, h3⟩⟩
    · unfold IsUInt; omega
    · exact Nat.lt_of_le_of_lt (Nat.div_le_self _ _) hx

theorem str_runs {M : Wasm.Mod World} {S : Ty} {b : Reg} {x : Value} {wx : List Val} (hb : b.hi ≤ g.mem.size)
    (hS : StrTy S) (hx : Rep g.mem b S x wx) :
    RunsOp M (match [S] with | [.ascii _] => .string_to_int | _ => .utf8_to_int) wx g (.opt .int)
      (Word.eval .strToInt [x]) ∧
    RunsOp M (match [S] with | [.ascii _] => .string_to_uint | _ => .utf8_to_uint) wx g (.opt .uint)
      (Word.eval .strToUint [x]) := by
  rcases hS with ⟨n, rfl⟩ | ⟨n, rfl⟩
  · simp only [Rep] at hx
    obtain ⟨hv, o, l, rfl, hl, ho, hm⟩ := hx
    cases x <;> simp only [HasType] at hv
    rename_i bs
    simp only [memBytes] at hl ho hm
    have := ho.1
    have e : asciiAt g.mem o.toNat l.toNat = bs.map BitVec.toNat := by rw [asciiAt, hl, hm]
    refine ⟨parseI_runs fun h0 h => ?_, parseU_runs (fun h hbug => ?_) fun h => ?_⟩
    · have : bs.length ≠ 0 := fun h => h0 (by rw [List.length_eq_zero_iff.1 h]; rfl)
      have := Props.C13_string_to_int_partial M g o l (by omega) (by omega) (by rw [e]; exact h)
      rwa [e] at this
    · have := Props.C13_string_to_uint_partial M g o l (by omega) (by rw [List.length_map] at h; omega) (by rw [e]; exact hbug)
      rwa [e] at this
    · exact Props.C13_string_to_uint_long M g o l (by rw [List.length_map] at h; omega)
  · simp only [Rep] at hx
    obtain ⟨hv, o, l, rfl, hl, ho, hm⟩ := hx
    cases x <;> simp only [HasType] at hv
    rename_i cs
    simp only [memBytes] at hl ho hm
    have := ho.1
    have e : scalarsAt g.mem o.toNat cs.length = cs := scalars_of (fun c h => scalar_lt (hv.2 c h)) hm
    have h4 := four_length cs
    refine ⟨parseI_runs fun h0 h => ?_, parseU_runs (fun h hbug => ?_) fun h => ?_⟩
    · have : cs.length ≠ 0 := fun h => h0 (List.length_eq_zero_iff.1 h)
      have := Props.C13_utf8_to_int_partial M g o l cs.length (by omega) (by omega) (by omega) (by rw [e]; exact h)
      rwa [e] at this
    · have := Props.C13_utf8_to_uint_partial M g o l cs.length (by omega) (by omega) h (by rw [e]; exact hbug)
      rwa [e] at this
    · have := runs_utf8_to_uint (M := M) (g := g) o l cs.length (by omega) (by omega)
      rw [e, codeParse, if_neg (by omega)] at this
      exact this

theorem word_post {q : Word} {Ts : List Ty} {T : Ty} {vs : List Value} {ws : List Val} {s : St}
    (ht : wordTy q Ts T) (hr : RepAll g.mem (p.reg g) Ts vs ws) (hz : sp g ≤ g.mem.size) (hh : g.host = put w s)
    (hs : StOk p.K w.contract s) :
    Does p w d er n 0 (wordCode q Ts T) (ws.reverse ++ stk) stk loc g ((q.eval vs).out s) (IsRep p T) := by
  have two : ∀ {f : StdFn} {us rs : List Val} {a : Ans}, RunsOp p.M f (us ++ rs) g T a →
      us.length + rs.length = (stdFunc f).params.length →
      Does p w d er n 0 [.call (.std f)] ((us ++ rs).reverse ++ stk) stk loc g (a.out s) (IsRep p T) :=
    fun h hl => Does.run h (by rw [List.length_append]; exact hl) hh hs
  cases q with
  | pow =>
    obtain ⟨hT, rfl⟩ := ht
    obtain ⟨x, y, us, rs, rfl, rfl, hx, hy⟩ := repAll2 hr
    refine two (pow_runs hT hx hy) ?_
    rw [hx.len, hy.len]; rcases hT with rfl | rfl <;> rfl
  | log2 =>
    obtain ⟨hT, rfl⟩ := ht
    obtain ⟨x, rfl, hx⟩ := repAll1 hr
    refine Does.run (one_runs hT hx).1 ?_ hh hs
    rw [hx.len]; rcases hT with rfl | rfl <;> rfl
  | sqrti =>
    obtain ⟨hT, rfl⟩ := ht
    obtain ⟨x, rfl, hx⟩ := repAll1 hr
    refine Does.run (one_runs hT hx).2.1 ?_ hh hs
    rw [hx.len]; rcases hT with rfl | rfl <;> rfl
  | bitNot =>
    obtain ⟨hT, rfl⟩ := ht
    obtain ⟨x, rfl, hx⟩ := repAll1 hr
    refine Does.run (one_runs hT hx).2.2 ?_ hh hs
    rw [hx.len]; rcases hT with rfl | rfl <;> rfl
  | shl =>
    obtain ⟨hT, rfl⟩ := ht
    obtain ⟨x, y, us, rs, rfl, rfl, hx, hy⟩ := repAll2 hr
    refine two (shift_runs hT hx hy).1 ?_
    rw [hx.len, hy.len]; rcases hT with rfl | rfl <;> rfl
  | shr =>
    obtain ⟨hT, rfl⟩ := ht
    obtain ⟨x, y, us, rs, rfl, rfl, hx, hy⟩ := repAll2 hr
    refine two (shift_runs hT hx hy).2 ?_
    rw [hx.len, hy.len]; rcases hT with rfl | rfl <;> rfl
  | strToInt =>
    obtain ⟨S, hS, rfl, rfl⟩ := ht
    obtain ⟨x, rfl, hx⟩ := repAll1 hr
    refine Does.run (str_runs hz hS hx).1 ?_ hh hs
    rw [hx.len]; rcases hS with ⟨_, rfl⟩ | ⟨_, rfl⟩ <;> rfl
  | strToUint =>
    obtain ⟨S, hS, rfl, rfl⟩ := ht
    obtain ⟨x, rfl, hx⟩ := repAll1 hr
    refine Does.run (str_runs hz hS hx).2 ?_ hh hs
    rw [hx.len]; rcases hS with ⟨_, rfl⟩ | ⟨_, rfl⟩ <;> rfl
  | bits o =>
    obtain ⟨hT, k, rfl⟩ := ht
    obtain ⟨v, us, e, hv, hst⟩ := steps_bits (M := p.M) (o := o) (stk := stk) (loc := loc) (g := g) hT hr
    simp only [Word.eval, e, Ans.out, wordCode, List.length_replicate, Nat.add_sub_cancel]
    exact Does.ends hst Fr.refl hh hs hv

end

end Gen
