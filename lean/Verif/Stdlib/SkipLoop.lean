import Verif.Stdlib.Skip

/-!
`$stdlib.skip-unknown-value` (standard.wat 3583-3712) does not terminate on some malformed bytes: a length
of almost 2^32 makes the sum of offset and length wrap around, the offset moves backwards, and a tuple is
skipped inside itself.
-/

namespace Wasm
open Spec
variable {σ : Type} {M : Mod σ} {g : Store σ}

theorem halts_append {n : Nat} {xs is : List Instr} {stk loc s l : List Val} {g g' : Store σ}
    (h : exec M n (xs ++ is) stk loc g ≠ .oof) (hx : WP M xs stk loc g (· = .norm s l g')) :
    ∃ m, m ≤ n ∧ exec M m is s l g' ≠ .oof := by
  obtain ⟨k, r, k1, k2, k3⟩ := hx
  subst k3
  induction n generalizing xs stk loc g k with
  | zero => exact absurd rfl h
  | succ n ih =>
    cases xs with
    | nil =>
      obtain ⟨k, rfl⟩ : ∃ j, k = j + 1 := by
        cases k with
        | zero => exact absurd k1.symm k2
        | succ j => exact ⟨j, rfl⟩
      simp only [exec, Res.norm.injEq] at k1
      obtain ⟨rfl, rfl, rfl⟩ := k1
      exact ⟨n + 1, Nat.le_refl _, h⟩
    | cons i xs =>
      rcases step_form (M := M) n i stk loc g with h' | ⟨r', hn, h'⟩ | ⟨js, s', l', g'', h'⟩
      · exact absurd (h' _) h
      · have : exec M (max n k + 1) (i :: xs) stk loc g = .norm s l g' := by
          rw [exec_mono k _ _ _ _ _ (by omega) (by rw [k1]; exact k2), k1]
        rw [h' _ (by omega)] at this
        exact absurd this (hn s l g')
      · have e1 : exec M n ((js ++ xs) ++ is) s' l' g'' ≠ .oof := by
          rw [List.append_assoc, ← h' n (Nat.le_refl _)]; exact h
        have e2 : exec M (max n k) (js ++ xs) s' l' g'' = .norm s l g' := by
          rw [← h' _ (by omega), exec_mono k _ _ _ _ _ (by omega) (by rw [k1]; exact k2), k1]
        obtain ⟨m, m1, m2⟩ := ih e1 _ e2
        exact ⟨m, by omega, m2⟩

theorem halts_block {n np nr : Nat} {body is : List Instr} {stk loc : List Val} (hnp : np = 0)
    (h : exec M n (.block np nr body :: is) stk loc g ≠ .oof) : ∃ m, m < n ∧ exec M m body [] loc g ≠ .oof := by
  subst hnp
  cases n with
  | zero => exact absurd rfl h
  | succ n =>
    refine ⟨n, by omega, fun h' => h ?_⟩
    simp only [exec, Nat.not_lt_zero, if_false, List.take_zero, h']

theorem halts_ite {n nr : Nat} {c : BitVec 32} {thn els is : List Instr} {stk loc : List Val}
    (h : exec M n (.ite 0 nr thn els :: is) (.i32 c :: stk) loc g ≠ .oof) :
    ∃ m, m < n ∧ exec M m (if c = 0#32 then els else thn) [] loc g ≠ .oof := by
  cases n with
  | zero => exact absurd rfl h
  | succ n =>
    simp only [exec] at h
    obtain ⟨m, m1, m2⟩ := halts_block rfl h
    exact ⟨m, by omega, m2⟩

theorem halts_loop {n nr : Nat} {body is : List Instr} {stk loc : List Val}
    (h : exec M n (.loop 0 nr body :: is) stk loc g ≠ .oof) : ∃ m, m < n ∧ exec M m body [] loc g ≠ .oof := by
  cases n with
  | zero => exact absurd rfl h
  | succ n =>
    refine ⟨n, by omega, fun h' => h ?_⟩
    simp only [exec, Nat.not_lt_zero, if_false, List.take_zero, h']

theorem halts_again {n nr : Nat} {body is : List Instr} {stk loc s l : List Val} {g' : Store σ}
    (h : exec M n (.loop 0 nr body :: is) stk loc g ≠ .oof) (hb : WP M body [] loc g (· = .br 0 s l g')) :
    ∃ m, m < n ∧ exec M m (.loop 0 nr body :: is) stk l g' ≠ .oof := by
  obtain ⟨k, r, k1, k2, k3⟩ := hb
  subst k3
  cases n with
  | zero => exact absurd rfl h
  | succ n =>
    refine ⟨n, by omega, ?_⟩
    have h1 : exec M n body [] loc g ≠ .oof := by
      intro h'; apply h; simp only [exec, Nat.not_lt_zero, if_false, List.take_zero, h']
    have h2 : exec M n body [] loc g = .br 0 s l g' := by
      rw [exec_det h1 (by rw [k1]; exact k2), k1]
    simpa only [exec, Nat.not_lt_zero, if_false, List.take_zero, h2, List.drop_zero, List.nil_append] using h

theorem halts_std {n : Nat} {f : StdFn} {args : List Val} (h : invoke M n (.std f) args g ≠ .oof) :
    exec M n (stdFunc f).body [] (args ++ (stdFunc f).locals.map VT.zero) g ≠ .oof := by
  intro h'
  apply h
  show Res.toCall _ (exec M n (stdFunc f).body [] (args ++ (stdFunc f).locals.map VT.zero) g) = .oof
  rw [h']; rfl

theorem halts_call {n : Nat} {f : StdFn} {args stk loc : List Val} {is : List Instr}
    (hl : args.length = (stdFunc f).params.length)
    (h : exec M n (.call (.std f) :: is) (args.reverse ++ stk) loc g ≠ .oof) :
    ∃ m, m < n ∧ invoke M m (.std f) args g ≠ .oof := by
  cases n with
  | zero => exact absurd rfl h
  | succ n =>
    refine ⟨n, by omega, fun h' => h ?_⟩
    have e1 : (args.reverse ++ stk).take (stdFunc f).params.length = args.reverse := by
      rw [← hl, ← List.length_reverse, List.take_left]
    have e2 : ¬ (args.reverse ++ stk).length < (stdFunc f).params.length := by simp; omega
    have h'' : Res.toCall (stdFunc f).results.length (exec M n (stdFunc f).body [] (args ++ (stdFunc f).locals.map VT.zero) g) = .oof := h'
    show exec M (n + 1) _ _ _ _ = _
    simp only [exec, Mod.func, if_neg e2, e1, List.reverse_reverse, h'']

theorem halts_callIndirect {n : Nat} {f : StdFn} {k : BitVec 32} {args stk loc : List Val} {is : List Instr} {ps rs : List VT}
    (hk : stdTable k.toNat = some (.std f)) (hs : M.sig (.std f) = some (ps, rs))
    (hl : args.length = (stdFunc f).params.length)
    (h : exec M n (.callIndirect ps rs :: is) (.i32 k :: (args.reverse ++ stk)) loc g ≠ .oof) :
    ∃ m, m < n ∧ invoke M m (.std f) args g ≠ .oof := by
  cases n with
  | zero => exact absurd rfl h
  | succ n =>
    simp only [exec, hk, hs, if_true] at h
    obtain ⟨m, m1, m2⟩ := halts_call hl h
    exact ⟨m, by omega, m2⟩

/-- The bytes `01 61 0c 00000002 01 61 02 fffffff2`: a name `a`, and a tuple with two fields, the first of
which is named `a` and is a buffer of 4294967282 bytes. -/
def loopBytes : List Byte :=
  [0x01#8, 0x61#8, 0x0c#8, 0x00#8, 0x00#8, 0x00#8, 0x02#8, 0x01#8, 0x61#8, 0x02#8, 0xff#8, 0xff#8, 0xff#8, 0xf2#8]

theorem runs_name_a (o : BitVec 32) (h1 : g.mem.byte o.toNat = 0x61#8) (h2 : o.toNat + 1 ≤ g.mem.size) :
    Runs M (.std .check_clarity_name) [.i32 o, .i32 1#32] g (.ret [.i32 1#32] g) := by
  have := runs_check_clarity_name (M := M) (g := g) o 1#32 h2
  have e : asciiAt g.mem o.toNat (1#32).toNat = [0x61] := by
    show asciiAt g.mem o.toNat 1 = _
    rw [asciiAt_succ, asciiAt_zero, h1]; rfl
  rw [e] at this
  exact this

/-- With any amount of fuel, skipping the tuple does not end. -/
theorem skip_loops (a e : BitVec 32) (hb : Holds g.mem a.toNat loopBytes) (he : a.toNat + 14 ≤ e.toNat) (ha : a ≠ 0#32) :
    ∀ n, invoke M n (.std .skip_unknown_value) [.i32 (a + 2#32), .i32 e] g = .oof := by
  have hae := e.isLt
  have ad : ∀ k : Nat, k ≤ 14 → (a + BitVec.ofNat 32 k).toNat = a.toNat + k := by
    intro k hk; rw [BitVec.toNat_add, BitVec.toNat_ofNat]; omega
  obtain ⟨b0, z0, c0⟩ := hb.cons
  obtain ⟨b1, z1, c1⟩ := c0.cons
  obtain ⟨b2, z2, c2⟩ := c1.cons
  obtain ⟨b3, z3, c3⟩ := c2.cons
  obtain ⟨b4, z4, c4⟩ := c3.cons
  obtain ⟨b5, z5, c5⟩ := c4.cons
  obtain ⟨b6, z6, c6⟩ := c5.cons
  obtain ⟨b7, z7, c7⟩ := c6.cons
  obtain ⟨b8, z8, c8⟩ := c7.cons
  obtain ⟨b9, z9, c9⟩ := c8.cons
  obtain ⟨b10, z10, c10⟩ := c9.cons
  obtain ⟨b11, z11, c11⟩ := c10.cons
  obtain ⟨b12, z12, c12⟩ := c11.cons
  obtain ⟨b13, z13, -⟩ := c12.cons
  simp only [Nat.add_assoc, Nat.reduceAdd] at b0 b1 b2 b3 b4 b5 b6 b7 b8 b9 b10 b11 b12 b13 z0 z1 z2 z3 z4 z5 z6 z7 z8 z9 z10 z11 z12 z13
  have hsize : a.toNat + 14 ≤ g.mem.size := by omega
  have r1 : Runs M (.std .load_i32_be) [.i32 (a + 3#32)] g (.ret [.i32 2#32] g) := by
    have := runs_load_i32_be (M := M) (g := g) (a + 3#32) (by rw [ad 3 (by omega)]; omega)
    rw [beNat4, ad 3 (by omega)] at this
    simp only [Nat.add_assoc, Nat.reduceAdd, b3, b4, b5, b6] at this
    exact this
  have r2 : Runs M (.std .load_i32_be) [.i32 (a + 10#32)] g (.ret [.i32 4294967282#32] g) := by
    have := runs_load_i32_be (M := M) (g := g) (a + 10#32) (by rw [ad 10 (by omega)]; omega)
    rw [beNat4, ad 10 (by omega)] at this
    simp only [Nat.add_assoc, Nat.reduceAdd, b10, b11, b12, b13] at this
    exact this
  -- the buffer: the offset moves backwards
  have r3 : Runs M (.std .skip_buffer) [.i32 (a + 10#32), .i32 e] g (.ret [.i32 a] g) := by
    apply runs_std (by simp)
    wpy [stdFunc, Std.skip_buffer, Std.skip_buffer_body]
    have e1 : (a + 10#32 + 4#32) = a + 14#32 := by rw [BitVec.add_assoc]; rfl
    rw [e1, ad 14 (by omega), if_neg (by omega)]
    refine (wp_call_runs (args := [.i32 (a + 10#32)]) (ps := [.i32]) (rs := [.i32]) rfl rfl r2 (by simp)).2 ?_
    wpy
    have e2 : a + 14#32 + 4294967282#32 = a := by rw [BitVec.add_assoc]; simp
    rw [e1, e2, if_pos (by omega)]
  have r4 : Runs M (.std .skip_unknown_value) [.i32 (a + 9#32), .i32 e] g (.ret [.i32 a] g) := by
    refine runs_dispatch (t := 2) (by omega) (f := .std .skip_buffer) rfl rfl ?_ (by rw [ad 9 (by omega)]; exact b9) (by rw [ad 9 (by omega)]; omega) ?_ ⟨_, rfl⟩
    · intro h; have := congrArg BitVec.toNat h; rw [ad 9 (by omega)] at this; omega
    · rw [show a + 9#32 + 1#32 = a + 10#32 by rw [BitVec.add_assoc]; rfl]; exact r3
  intro n
  by_contra hh
  induction n using Nat.strongRecOn with
  | _ n ih =>
    have h1 := halts_std hh
    obtain ⟨n1, l1, h1⟩ := halts_append (xs := Std.skip_unknown_value_body.take 3) (is := Std.skip_unknown_value_body.drop 3)
      (s := [.i32 0#32]) (l := [.i32 (a + 2#32), .i32 e, .i32 0#32]) (g' := g) h1 (by
        wpy [stdFunc, Std.skip_unknown_value, Std.skip_unknown_value_body, List.take]
        rw [b32, if_neg]
        intro h; have := congrArg BitVec.toNat h; rw [ad 2 (by omega)] at this; omega)
    obtain ⟨n2, l2, h2⟩ := halts_ite h1
    simp only [if_true] at h2
    obtain ⟨n3, l3, h3⟩ := halts_append (is := [.callIndirect [.i32, .i32] [.i32]])
      (xs := [.b (.localGet 0), .b (.i32load 1 0), .b (.localTee 2), .b (.const (.i32 14#32)),
        .b (.i32rel .gtU), .ite 0 0 [.b (.const (.i32 0#32)), .ret] [],
        .b (.localGet 0), .b (.const (.i32 1#32)), .b (.i32bin .add), .b (.localGet 1), .b (.localGet 2),
        .b (.const (.i32 5#32)), .b (.i32bin .add)])
      (s := [.i32 17#32, .i32 e, .i32 (a + 3#32)]) (l := [.i32 (a + 2#32), .i32 e, .i32 12#32]) (g' := g) h2 (by
        wpy
        rw [wp_i32load (by rw [ad 2 (by omega)]; omega), Nat.add_zero, load1, ad 2 (by omega), b2]
        wpy
        rw [BitVec.add_assoc]; rfl)
    obtain ⟨n4, l4, h4⟩ := halts_callIndirect (args := [.i32 (a + 3#32), .i32 e]) (stk := []) (f := .skip_tuple) rfl rfl rfl h3
    have h5 := halts_std h4
    obtain ⟨n6, l6, h6⟩ := halts_append (xs := Std.skip_tuple_body.take 16) (is := Std.skip_tuple_body.drop 16)
      (s := []) (l := [.i32 (a + 7#32), .i32 e, .i32 2#32, .i32 0#32]) (g' := g) h5 (by
        wpy [stdFunc, Std.skip_tuple, Std.skip_tuple_body, List.take]
        have e1 : a + 3#32 + 4#32 = a + 7#32 := by rw [BitVec.add_assoc]; rfl
        rw [e1, ad 7 (by omega), if_neg (by omega)]
        refine (wp_call_runs (args := [.i32 (a + 3#32)]) (ps := [.i32]) (rs := [.i32]) rfl rfl r1 (by simp)).2 ?_
        wpy
        rw [e1])
    obtain ⟨n7, l7, h7⟩ := halts_block rfl h6
    -- the first field
    obtain ⟨n8, l8, h8⟩ := halts_again (s := []) (l := [.i32 a, .i32 e, .i32 1#32, .i32 1#32]) (g' := g) h7 (by
        wpy
        rw [ad 7 (by omega), if_neg (by omega), wp_i32load (by rw [ad 7 (by omega)]; omega), Nat.add_zero, load1, ad 7 (by omega), b7, show BitVec.setWidth 32 1#8 = 1#32 from rfl]
        wpy
        have e1 : a + 7#32 + 1#32 = a + 8#32 := by rw [BitVec.add_assoc]; rfl
        have e2 : a + 8#32 + 1#32 = a + 9#32 := by rw [BitVec.add_assoc]; rfl
        rw [e1]
        refine (wp_call_runs (args := [.i32 (a + 8#32), .i32 1#32]) (ps := [.i32, .i32]) (rs := [.i32]) rfl rfl
          (runs_name_a _ (by rw [ad 8 (by omega)]; exact b8) (by rw [ad 8 (by omega)]; omega)) (by simp)).2 ?_
        wpy
        rw [e2]
        refine (wp_call_runs (args := [.i32 (a + 9#32), .i32 e]) (ps := [.i32, .i32]) (rs := [.i32]) rfl rfl r4 (by simp)).2 ?_
        wpy
        rw [if_neg ha, if_neg (by decide)]
        rfl)
    obtain ⟨n9, l9, h9⟩ := halts_loop h8
    -- the second field: the tuple itself
    obtain ⟨n10, l10, h10⟩ := halts_append (is := [.call (.std .skip_unknown_value), .b (.localTee 0), .b .i32eqz, .brIf 1, .b (.localGet 2),
        .b (.const (.i32 1#32)), .b (.i32bin .sub), .b (.localTee 2), .brIf 0])
      (xs := [.b (.localGet 0), .b (.localGet 1), .b (.i32rel .geU), .brIf 1, .b (.localGet 0),
        .b (.i32load 1 0), .b (.localSet 3), .b (.localGet 0), .b (.const (.i32 1#32)),
        .b (.i32bin .add), .b (.localTee 0), .b (.localGet 3), .call (.std .check_clarity_name),
        .b .i32eqz, .brIf 1, .b (.localGet 0), .b (.localGet 3), .b (.i32bin .add), .b (.localGet 1)])
      (s := [.i32 e, .i32 (a + 2#32)]) (l := [.i32 (a + 1#32), .i32 e, .i32 1#32, .i32 1#32]) (g' := g) h9 (by
        wpy
        rw [if_neg (by omega), wp_i32load (by omega), Nat.add_zero, load1, b0, show BitVec.setWidth 32 1#8 = 1#32 from rfl]
        wpy
        refine (wp_call_runs (args := [.i32 (a + 1#32), .i32 1#32]) (ps := [.i32, .i32]) (rs := [.i32]) rfl rfl
          (runs_name_a _ (by rw [ad 1 (by omega)]; exact b1) (by rw [ad 1 (by omega)]; omega)) (by simp)).2 ?_
        wpy
        rw [BitVec.add_assoc]; rfl)
    obtain ⟨n11, l11, h11⟩ := halts_call (args := [.i32 (a + 2#32), .i32 e]) (stk := []) rfl h10
    exact ih n11 (by omega) h11

end Wasm
