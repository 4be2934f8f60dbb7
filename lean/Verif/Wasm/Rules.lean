import Verif.Wasm.WP
import Verif.Wasm.Attr

/-!
One-step symbolic-execution rules, derived from the wp calculus, collected in the simp set `wps`.
-/

namespace Wasm

variable {σ : Type} {M : Mod σ} {is : List Instr} {stk loc : List Val} {g : Store σ}
  {Q : Res σ → Prop}

/-- Total list access. -/
def nth : List Val → Nat → Val
  | [], _ => .i32 0#32
  | a :: _, 0 => a
  | _ :: l, n + 1 => nth l n

@[wps] theorem nth_zero {a : Val} {l} : nth (a :: l) 0 = a := rfl
@[wps] theorem nth_succ {a : Val} {l n} : nth (a :: l) (n + 1) = nth l n := rfl

theorem nth_of_lt : ∀ {l : List Val} {n}, n < l.length → l[n]? = some (nth l n)
  | a :: l, 0, _ => rfl
  | a :: l, n + 1, h => by
    simp only [List.getElem?_cons_succ, nth]
    exact nth_of_lt (by simpa using h)

@[wps] theorem wp_const {v} :
    WP M (.b (.const v) :: is) stk loc g Q ↔ WP M is (v :: stk) loc g Q := wp_b
@[wps] theorem wp_i32bin {op a b} :
    WP M (.b (.i32bin op) :: is) (.i32 b :: .i32 a :: stk) loc g Q ↔
      WP M is (.i32 (op.eval a b) :: stk) loc g Q := wp_b
@[wps] theorem wp_i64bin {op a b} :
    WP M (.b (.i64bin op) :: is) (.i64 b :: .i64 a :: stk) loc g Q ↔
      WP M is (.i64 (op.eval a b) :: stk) loc g Q := wp_b
@[wps] theorem wp_i32rel {op a b} :
    WP M (.b (.i32rel op) :: is) (.i32 b :: .i32 a :: stk) loc g Q ↔
      WP M is (.i32 (op.eval a b) :: stk) loc g Q := wp_b
@[wps] theorem wp_i64rel {op a b} :
    WP M (.b (.i64rel op) :: is) (.i64 b :: .i64 a :: stk) loc g Q ↔
      WP M is (.i32 (op.eval a b) :: stk) loc g Q := wp_b
@[wps] theorem wp_i32eqz {a} :
    WP M (.b .i32eqz :: is) (.i32 a :: stk) loc g Q ↔
      WP M is (.i32 (b32 (a = 0#32)) :: stk) loc g Q := wp_b
@[wps] theorem wp_i64eqz {a} :
    WP M (.b .i64eqz :: is) (.i64 a :: stk) loc g Q ↔
      WP M is (.i32 (b32 (a = 0#64)) :: stk) loc g Q := wp_b
@[wps] theorem wp_i32clz {a} :
    WP M (.b .i32clz :: is) (.i32 a :: stk) loc g Q ↔
      WP M is (.i32 (clz a) :: stk) loc g Q := wp_b
@[wps] theorem wp_i64clz {a} :
    WP M (.b .i64clz :: is) (.i64 a :: stk) loc g Q ↔
      WP M is (.i64 (clz a) :: stk) loc g Q := wp_b
@[wps] theorem wp_i32wrap {a} :
    WP M (.b .i32wrap :: is) (.i64 a :: stk) loc g Q ↔
      WP M is (.i32 (a.setWidth 32) :: stk) loc g Q := wp_b
@[wps] theorem wp_i64extU {a} :
    WP M (.b .i64extU :: is) (.i32 a :: stk) loc g Q ↔
      WP M is (.i64 (a.setWidth 64) :: stk) loc g Q := wp_b
@[wps] theorem wp_i64extS {a} :
    WP M (.b .i64extS :: is) (.i32 a :: stk) loc g Q ↔
      WP M is (.i64 (a.signExtend 64) :: stk) loc g Q := wp_b
@[wps] theorem wp_drop {a} :
    WP M (.b .drop :: is) (a :: stk) loc g Q ↔ WP M is stk loc g Q := wp_b
theorem wp_select {a b c} :
    WP M (.b .select :: is) (.i32 c :: b :: a :: stk) loc g Q ↔
      WP M is ((if c = 0#32 then b else a) :: stk) loc g Q := wp_b
@[wps] theorem wp_select64 {a b c} :
    WP M (.b .select :: is) (.i32 c :: .i64 b :: .i64 a :: stk) loc g Q ↔
      WP M is (.i64 (if c = 0#32 then b else a) :: stk) loc g Q := by
  rw [wp_select]; split <;> rfl
@[wps] theorem wp_select32 {a b c} :
    WP M (.b .select :: is) (.i32 c :: .i32 b :: .i32 a :: stk) loc g Q ↔
      WP M is (.i32 (if c = 0#32 then b else a) :: stk) loc g Q := by
  rw [wp_select]; split <;> rfl
@[wps] theorem wp_localGet {n} (h : n < loc.length) :
    WP M (.b (.localGet n) :: is) stk loc g Q ↔ WP M is (nth loc n :: stk) loc g Q := by
  rw [wp_b]; simp only [stepB, nth_of_lt h, stepK]
@[wps] theorem wp_localSet {n v} (h : n < loc.length) :
    WP M (.b (.localSet n) :: is) (v :: stk) loc g Q ↔ WP M is stk (loc.set n v) g Q := by
  rw [wp_b]; simp only [stepB, h, if_true, stepK]
@[wps] theorem wp_localTee {n v} (h : n < loc.length) :
    WP M (.b (.localTee n) :: is) (v :: stk) loc g Q ↔ WP M is (v :: stk) (loc.set n v) g Q := by
  rw [wp_b]; simp only [stepB, h, if_true, stepK]
@[wps] theorem wp_g32get {x} :
    WP M (.b (.global32Get x) :: is) stk loc g Q ↔ WP M is (.i32 (g.g32 x) :: stk) loc g Q := wp_b
@[wps] theorem wp_g32set {x v} :
    WP M (.b (.global32Set x) :: is) (.i32 v :: stk) loc g Q ↔ WP M is stk loc (g.set32 x v) Q :=
  wp_b
@[wps] theorem wp_g64get {x} :
    WP M (.b (.global64Get x) :: is) stk loc g Q ↔ WP M is (.i64 (g.g64 x) :: stk) loc g Q := wp_b
@[wps] theorem wp_g64set {x v} :
    WP M (.b (.global64Set x) :: is) (.i64 v :: stk) loc g Q ↔ WP M is stk loc (g.set64 x v) Q :=
  wp_b
@[wps] theorem wp_i64divU {a b} (h : b ≠ 0#64) :
    WP M (.b (.i64div .divU) :: is) (.i64 b :: .i64 a :: stk) loc g Q ↔
      WP M is (.i64 (a / b) :: stk) loc g Q := by
  rw [wp_b]; simp only [stepB, IDiv.eval, if_neg h, stepK]
@[wps] theorem wp_v128and {a b} :
    WP M (.b .v128and :: is) (.v128 b :: .v128 a :: stk) loc g Q ↔
      WP M is (.v128 (a &&& b) :: stk) loc g Q := wp_b
@[wps] theorem wp_v128xor {a b} :
    WP M (.b .v128xor :: is) (.v128 b :: .v128 a :: stk) loc g Q ↔
      WP M is (.v128 (a ^^^ b) :: stk) loc g Q := wp_b
@[wps] theorem wp_v128anyTrue {a} :
    WP M (.b .v128anyTrue :: is) (.v128 a :: stk) loc g Q ↔
      WP M is (.i32 (b32 (a ≠ 0#128)) :: stk) loc g Q := wp_b
@[wps] theorem wp_swizzle {s v} :
    WP M (.b .i8x16swizzle :: is) (.v128 s :: .v128 v :: stk) loc g Q ↔
      WP M is (.v128 (swizzle v s) :: stk) loc g Q := wp_b
@[wps] theorem wp_extract {l v} :
    WP M (.b (.i64x2extract l) :: is) (.v128 v :: stk) loc g Q ↔
      WP M is (.i64 (BitVec.ofNat 64 (v.toNat / 2 ^ (64 * l))) :: stk) loc g Q := wp_b

theorem wp_i32load {n off a} (h : a.toNat + off + n ≤ g.mem.size) :
    WP M (.b (.i32load n off) :: is) (.i32 a :: stk) loc g Q ↔
      WP M is (.i32 (BitVec.ofNat 32 (g.mem.read (a.toNat + off) n)) :: stk) loc g Q := by
  rw [wp_b]; simp only [stepB, h, if_true, stepK]
theorem wp_i64load {n off a} (h : a.toNat + off + n ≤ g.mem.size) :
    WP M (.b (.i64load n off) :: is) (.i32 a :: stk) loc g Q ↔
      WP M is (.i64 (BitVec.ofNat 64 (g.mem.read (a.toNat + off) n)) :: stk) loc g Q := by
  rw [wp_b]; simp only [stepB, h, if_true, stepK]
theorem wp_v128load {off a} (h : a.toNat + off + 16 ≤ g.mem.size) :
    WP M (.b (.v128load off) :: is) (.i32 a :: stk) loc g Q ↔
      WP M is (.v128 (BitVec.ofNat 128 (g.mem.read (a.toNat + off) 16)) :: stk) loc g Q := by
  rw [wp_b]; simp only [stepB, h, if_true, stepK]
theorem wp_i32store {n off v a} (h : a.toNat + off + n ≤ g.mem.size) :
    WP M (.b (.i32store n off) :: is) (.i32 v :: .i32 a :: stk) loc g Q ↔
      WP M is stk loc (g.setMem (g.mem.write (a.toNat + off) n v.toNat)) Q := by
  rw [wp_b]; simp only [stepB, h, if_true, stepK]
theorem wp_i64store {n off v a} (h : a.toNat + off + n ≤ g.mem.size) :
    WP M (.b (.i64store n off) :: is) (.i64 v :: .i32 a :: stk) loc g Q ↔
      WP M is stk loc (g.setMem (g.mem.write (a.toNat + off) n v.toNat)) Q := by
  rw [wp_b]; simp only [stepB, h, if_true, stepK]
theorem wp_v128store {off v a} (h : a.toNat + off + 16 ≤ g.mem.size) :
    WP M (.b (.v128store off) :: is) (.v128 v :: .i32 a :: stk) loc g Q ↔
      WP M is stk loc (g.setMem (g.mem.write (a.toNat + off) 16 v.toNat)) Q := by
  rw [wp_b]; simp only [stepB, h, if_true, stepK]
theorem wp_memCopy {n s d} (h : s.toNat + n.toNat ≤ g.mem.size)
    (h' : d.toNat + n.toNat ≤ g.mem.size) :
    WP M (.b .memCopy :: is) (.i32 n :: .i32 s :: .i32 d :: stk) loc g Q ↔
      WP M is stk loc (g.setMem (g.mem.copy d.toNat s.toNat n.toNat)) Q := by
  rw [wp_b]; simp only [stepB, h, h', and_self, if_true, stepK]
theorem wp_memFill {n v d} (h : d.toNat + n.toNat ≤ g.mem.size) :
    WP M (.b .memFill :: is) (.i32 n :: .i32 v :: .i32 d :: stk) loc g Q ↔
      WP M is stk loc (g.setMem (g.mem.fill d.toNat (v.setWidth 8) n.toNat)) Q := by
  rw [wp_b]; simp only [stepB, h, if_true, stepK]

attribute [wps] wp_nil wp_block0 wp_brIf wp_br wp_ret wp_unreachable

@[wps] theorem wp_ite0 {nr thn els} {c : BitVec 32} :
    WP M (.ite 0 nr thn els :: is) (.i32 c :: stk) loc g Q ↔
      if c = 0#32 then WP M els [] loc g (blockK M nr is stk Q)
      else WP M thn [] loc g (blockK M nr is stk Q) := by
  rw [wp_ite, wp_block0]; split <;> rfl

@[wps] theorem b32_eq_zero {p : Prop} [Decidable p] : (b32 p = 0#32) ↔ ¬ p := by
  unfold b32; split <;> simp_all

@[wps] theorem b32_and {p q : Prop} [Decidable p] [Decidable q] :
    b32 p &&& b32 q = b32 (p ∧ q) := by
  by_cases hp : p <;> by_cases hq : q <;> simp [b32, hp, hq]

@[wps] theorem b32_or {p q : Prop} [Decidable p] [Decidable q] :
    b32 p ||| b32 q = b32 (p ∨ q) := by
  by_cases hp : p <;> by_cases hq : q <;> simp [b32, hp, hq]

@[wps] theorem blockK_norm {nr s l g'} : blockK M nr is stk Q (.norm s l g') ↔
    WP M is (s ++ stk) l g' Q := Iff.rfl
@[wps] theorem blockK_br0 {nr s l g'} : blockK M nr is stk Q (.br 0 s l g') ↔
    WP M is (s.take nr ++ stk) l g' Q := Iff.rfl
@[wps] theorem blockK_brS {nr k s l g'} : blockK M nr is stk Q (.br (k + 1) s l g') ↔
    Q (.br k s l g') := Iff.rfl
@[wps] theorem blockK_ret {nr s g'} : blockK M nr is stk Q (.ret s g') ↔ Q (.ret s g') := Iff.rfl
@[wps] theorem blockK_trap {nr g'} : blockK M nr is stk Q (.trap g') ↔ Q (.trap g') := Iff.rfl
@[wps] theorem loopK_norm {np nr body s l g'} : loopK M np nr body is stk Q (.norm s l g') ↔
    WP M is (s ++ stk) l g' Q := Iff.rfl
@[wps] theorem loopK_brS {np nr body k s l g'} : loopK M np nr body is stk Q (.br (k + 1) s l g') ↔
    Q (.br k s l g') := Iff.rfl
@[wps] theorem loopK_ret {np nr body s g'} : loopK M np nr body is stk Q (.ret s g') ↔
    Q (.ret s g') := Iff.rfl
@[wps] theorem loopK_trap {np nr body g'} : loopK M np nr body is stk Q (.trap g') ↔
    Q (.trap g') := Iff.rfl
@[wps] theorem callK_ret {vs g'} : callK M is stk loc Q (.ret vs g') ↔
    WP M is (vs.reverse ++ stk) loc g' Q := Iff.rfl
@[wps] theorem callK_trap {g'} : callK M is stk loc Q (.trap g') ↔ Q (.trap g') := Iff.rfl

@[wps] theorem toCall_norm {nr s l} {g : Store σ} :
    Res.toCall nr (.norm s l g) = .ret (s.take nr).reverse g := rfl
@[wps] theorem toCall_br0 {nr s l} {g : Store σ} :
    Res.toCall nr (.br 0 s l g) = .ret (s.take nr).reverse g := rfl
@[wps] theorem toCall_ret {nr s} {g : Store σ} :
    Res.toCall nr (.ret s g) = .ret (s.take nr).reverse g := rfl
@[wps] theorem toCall_trap {nr} {g : Store σ} : Res.toCall nr (.trap g) = .trap g := rfl

@[wps] theorem ibin_add {w} {a b : BitVec w} : IBin.eval .add a b = a + b := rfl
@[wps] theorem ibin_sub {w} {a b : BitVec w} : IBin.eval .sub a b = a - b := rfl
@[wps] theorem ibin_mul {w} {a b : BitVec w} : IBin.eval .mul a b = a * b := rfl
@[wps] theorem ibin_and {w} {a b : BitVec w} : IBin.eval .and a b = a &&& b := rfl
@[wps] theorem ibin_or {w} {a b : BitVec w} : IBin.eval .or a b = a ||| b := rfl
@[wps] theorem ibin_xor {w} {a b : BitVec w} : IBin.eval .xor a b = a ^^^ b := rfl
@[wps] theorem ibin_shl {w} {a b : BitVec w} : IBin.eval .shl a b = a <<< (b.toNat % w) := rfl
@[wps] theorem ibin_shrU {w} {a b : BitVec w} : IBin.eval .shrU a b = a >>> (b.toNat % w) := rfl
@[wps] theorem ibin_shrS {w} {a b : BitVec w} :
    IBin.eval .shrS a b = a.sshiftRight (b.toNat % w) := rfl
@[wps] theorem ibin_rotl {w} {a b : BitVec w} :
    IBin.eval .rotl a b = a.rotateLeft (b.toNat % w) := rfl
@[wps] theorem ibin_rotr {w} {a b : BitVec w} :
    IBin.eval .rotr a b = a.rotateRight (b.toNat % w) := rfl
@[wps] theorem irel_eq {w} {a b : BitVec w} : IRel.eval .eq a b = b32 (a = b) := rfl
@[wps] theorem irel_ne {w} {a b : BitVec w} : IRel.eval .ne a b = b32 (a ≠ b) := rfl
@[wps] theorem irel_ltU {w} {a b : BitVec w} : IRel.eval .ltU a b = b32 (a.toNat < b.toNat) := rfl
@[wps] theorem irel_ltS {w} {a b : BitVec w} : IRel.eval .ltS a b = b32 (a.toInt < b.toInt) := rfl
@[wps] theorem irel_gtU {w} {a b : BitVec w} : IRel.eval .gtU a b = b32 (b.toNat < a.toNat) := rfl
@[wps] theorem irel_gtS {w} {a b : BitVec w} : IRel.eval .gtS a b = b32 (b.toInt < a.toInt) := rfl
@[wps] theorem irel_leU {w} {a b : BitVec w} : IRel.eval .leU a b = b32 (a.toNat ≤ b.toNat) := rfl
@[wps] theorem irel_leS {w} {a b : BitVec w} : IRel.eval .leS a b = b32 (a.toInt ≤ b.toInt) := rfl
@[wps] theorem irel_geU {w} {a b : BitVec w} : IRel.eval .geU a b = b32 (b.toNat ≤ a.toNat) := rfl
@[wps] theorem irel_geS {w} {a b : BitVec w} : IRel.eval .geS a b = b32 (b.toInt ≤ a.toInt) := rfl

@[wps] theorem map_zero_nil : List.map VT.zero [] = [] := rfl
@[wps] theorem map_zero_i32 {l} : List.map VT.zero (.i32 :: l) = .i32 0#32 :: l.map VT.zero := rfl
@[wps] theorem map_zero_i64 {l} : List.map VT.zero (.i64 :: l) = .i64 0#64 :: l.map VT.zero := rfl
@[wps] theorem map_zero_v128 {l} : List.map VT.zero (.v128 :: l) = .v128 0#128 :: l.map VT.zero :=
  rfl

attribute [wps] List.length_cons List.length_nil List.set_cons_zero List.set_cons_succ
  List.take_zero List.take_succ_cons List.take_nil List.drop_zero List.drop_succ_cons
  List.cons_append List.nil_append List.append_nil List.reverse_cons List.reverse_nil
  Nat.zero_add List.append_assoc ite_true ite_false if_true if_false not_true_eq_false
  not_false_eq_true

/-- Symbolic execution. -/
syntax "wpx" ("[" Lean.Parser.Tactic.simpLemma,* "]")? (Lean.Parser.Tactic.location)? : tactic
macro_rules
  | `(tactic| wpx $[$l]?) =>
    `(tactic| simp only [wps, Nat.reduceAdd, Nat.reduceLT, Nat.reduceMod,
        BitVec.reduceToNat, BitVec.reduceToInt, BitVec.reduceOfNat, BitVec.reduceEq, Nat.reduceEqDiff] $[$l]?)
  | `(tactic| wpx [$ls,*] $[$l]?) =>
    `(tactic| simp only [wps, Nat.reduceAdd, Nat.reduceLT, Nat.reduceMod,
        BitVec.reduceToNat, BitVec.reduceToInt, BitVec.reduceOfNat, BitVec.reduceEq, Nat.reduceEqDiff, $ls,*] $[$l]?)

/-- A call of a runtime-library function whose outcome is known. -/
theorem wp_call_runs {f : FId} {ps rs : List VT} {args : List Val} {r : CRes σ}
    (hs : M.sig f = some (ps, rs)) (hl : args.length = ps.length)
    (h : Runs M f args g r) (hr : r ≠ .oof) :
    WP M (.call f :: is) (args.reverse ++ stk) loc g Q ↔ callK M is stk loc Q r := by
  rw [wp_call hs (by simp; omega), call_of_runs]
  · rw [← hl, List.drop_append_of_le_length (by simp), List.drop_of_length_le (by simp),
      List.nil_append]
  · rw [← hl, List.take_append_of_le_length (by simp), List.take_of_length_le (by simp),
      List.reverse_reverse]
    exact h
  · exact hr

/-- Proving a `Runs` statement about a runtime-library function by symbolic execution. -/
theorem runs_std {f : StdFn} {args : List Val} {r : CRes σ} (hr : r ≠ .oof)
    (h : WP M (stdFunc f).body [] (args ++ (stdFunc f).locals.map VT.zero) g
        (fun x => x.toCall (stdFunc f).results.length = r)) :
    Runs M (.std f) args g r :=
  (runs_iff_call hr).2 (call_std.2 h)

end Wasm
