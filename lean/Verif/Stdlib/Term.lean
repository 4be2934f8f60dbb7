import Verif.Wasm.Term

/-! Termination of the library functions. -/

namespace Wasm

variable {σ : Type} {M : Mod σ}

/-- Functions whose code and whose callees' code has no loops. -/
def easyAt : Nat → FId → Bool
  | 0, .host _ => true
  | 0, _ => false
  | _ + 1, .host _ => true
  | n + 1, .std f => easyL (easyAt n) (stdFunc f).body
  | _ + 1, .user _ => false

theorem call_host_true (f : HostFn) (args : List Val) (g : Store σ) : Call M (.host f) args g (fun _ => True) := by
  rw [call_host]; split <;> trivial

theorem easyAt_sound : ∀ (n : Nat) (f : FId), easyAt n f = true → ∀ args (g : Store σ), Call M f args g (fun _ => True)
  | 0, .host f, _, args, g => call_host_true f args g
  | _ + 1, .host f, _, args, g => call_host_true f args g
  | 0, .std f, h, _, _ => by simp [easyAt] at h
  | 0, .user f, h, _, _ => by simp [easyAt] at h
  | _ + 1, .user f, h, _, _ => by simp [easyAt] at h
  | n + 1, .std f, h, args, g => call_std.2 (easyL_sound (easyAt_sound n) _ h _ _ _)

theorem terminates_easy (hV : M.Valid) {f : FId} (h : easyAt 8 f = true) : Terminates M f := by
  intro ps rs hs args g ha
  obtain ⟨n, r, h1, h2, -⟩ := easyAt_sound (M := M) 8 f h args g
  exact ⟨r, (runs_iff_call h2).2 ⟨n, r, h1, h2, rfl⟩, by rw [← h1]; exact invoke_typed hV n _ ps rs hs args ha g, h2⟩

theorem tys_all_nil {Q : List Val → Prop} : (∀ vs, tys vs = [] → Q vs) ↔ Q [] :=
  ⟨fun h => h [] rfl, fun h vs hv => by cases vs with | nil => exact h | cons => simp [tys] at hv⟩

theorem tys_all_i32 {Q : List Val → Prop} {ts : List VT} :
    (∀ vs, tys vs = .i32 :: ts → Q vs) ↔ ∀ x vs, tys vs = ts → Q (.i32 x :: vs) :=
  ⟨fun h x vs hv => h _ (by simpa [tys, Val.ty] using hv), fun h vs hv => by
    obtain ⟨x, vs', rfl, h'⟩ := tys_i32 hv; exact h x vs' h'⟩

theorem tys_all_i64 {Q : List Val → Prop} {ts : List VT} :
    (∀ vs, tys vs = .i64 :: ts → Q vs) ↔ ∀ x vs, tys vs = ts → Q (.i64 x :: vs) :=
  ⟨fun h x vs hv => h _ (by simpa [tys, Val.ty] using hv), fun h vs hv => by
    obtain ⟨x, vs', rfl, h'⟩ := tys_i64 hv; exact h x vs' h'⟩

theorem val_all_i32 {Q : Val → Prop} : (∀ v : Val, v.ty = .i32 → Q v) ↔ ∀ x, Q (.i32 x) :=
  ⟨fun h x => h _ rfl, fun h v hv => by obtain ⟨x, rfl⟩ := ty_i32 hv; exact h x⟩

example : (List.filter (fun f => easyAt 8 (.std f)) [StdFn.div_int128, .add_int128, .sub_int128]).length = 2 := by decide +kernel

/-- `vcx` executes symbolically as far as possible. -/
syntax "vcx" ("[" Lean.Parser.Tactic.simpLemma,* "]")? : tactic
macro_rules
  | `(tactic| vcx) => `(tactic| vcx [Nat.add_zero])
  | `(tactic| vcx [$ls,*]) => `(tactic| simp only [wps, Nat.reduceAdd, Nat.reduceLT, Nat.reduceMod,
        BitVec.reduceToNat, BitVec.reduceToInt, BitVec.reduceOfNat, BitVec.reduceEq, Nat.reduceEqDiff,
        ne_eq, Classical.not_not, ite_not, List.take, List.drop, List.nil_append, List.append_nil, $ls,*])

/-- The functions known to terminate: those without loops and those of a list. -/
def Known (L : List StdFn) (f : FId) : Prop := easyAt 8 f = true ∨ ∃ x ∈ L, f = .std x

theorem known_terminates (hV : M.Valid) {L : List StdFn} (hL : ∀ x ∈ L, Terminates M (.std x)) (f : FId) (h : Known L f) :
    Terminates M f := by
  rcases h with h | ⟨x, hx, rfl⟩
  · exact terminates_easy hV h
  · exact hL x hx

theorem Known.easy {L : List StdFn} {f : FId} (h : easyAt 8 f = true) : Known L f := Or.inl h
theorem Known.mem {L : List StdFn} {x : StdFn} (h : x ∈ L) : Known L (.std x) := Or.inr ⟨x, h, rfl⟩

/-- Replace signatures by their values. -/
syntax "vcsig" : tactic
macro_rules
  | `(tactic| vcsig) => `(tactic| simp only [stdFunc, Std.add_int128, Std.add_uint, Std.block64, Std.calculate_sha512, Std.check_clarity_name, Std.clz_int128, Std.compare_clarity_names, Std.div_int128, Std.extend_data, Std.ge_uint, Std.hash160_compress, Std.hash160_pad, Std.is_alpha, Std.is_transient, Std.is_valid_char, Std.is_valid_contract_name, Std.is_valid_string_ascii, Std.is_version_valid, Std.le_int, Std.load_i32_be, Std.log2, Std.lt_uint, Std.mul_int128, Std.mul_uint, Std.pad_sha512_data, Std.pow_inner, Std.process_sha512_block, Std.runtime_error, Std.sha256_buf, Std.sha256_int, Std.skip_principal, Std.skip_unknown_value, Std.sqrti_uint, Std.store_calculated_sha512, Std.string_to_uint, Std.sub_int128, Std.uint_to_string, Std.uint_to_utf8, Std.utf8_to_uint, Std.working_vars, hostSig, tys_all_nil, tys_all_i32, tys_all_i64,
      List.length_cons, List.length_nil, Nat.reduceAdd, List.drop, List.reverse_cons, List.reverse_nil, List.nil_append, List.cons_append])

theorem ite_prop {c : Prop} [Decidable c] {A B : Prop} (h1 : c → A) (h2 : ¬c → B) : if c then A else B := by
  split
  · exact h1 ‹_›
  · exact h2 ‹_›

/-- One step of symbolic execution that is not a loop. -/
syntax "vcstep" : tactic
macro_rules
  | `(tactic| vcstep) => `(tactic| first
    | exact trivial
    | exact ⟨trivial, rfl⟩
    | vcx
    | (refine vc_call rfl (Known.easy (by decide +kernel)) rfl ?_; vcsig; intros)
    | (refine vc_call rfl (Known.mem (by decide)) rfl ?_; vcsig; intros)
    | refine ite_prop (fun _ => ?_) (fun _ => ?_)
    | split
    | intro)

syntax "vcgo" : tactic
macro_rules
  | `(tactic| vcgo) => `(tactic| repeat' vcstep)

/-- Bodies are cut before the `n`-th instruction. -/
theorem vc_at {T : FId → Prop} {is : List Instr} {stk loc : List Val} {P : Option Nat → List Val → List Val → Prop} (n : Nat)
    (R : List Val → List Val → Prop) (h1 : vcL T (is.take n) stk loc (seqP R P)) (h2 : ∀ s l, R s l → vcL T (is.drop n) s l P) :
    vcL T is stk loc P := by
  rw [← List.take_append_drop n is]
  exact vc_cut R h2 _ _ _ h1

theorem term_div_int128 (hV : M.Valid) : Terminates M (.std .div_int128) := by
  refine terminates_of_vc hV (known_terminates hV (L := []) (by simp)) _ ?_
  simp only [stdFunc, Std.div_int128, tys_all_nil, tys_all_i64]
  intro a b c d
  refine vc_at 15 (fun s l => s = [] ∧ tys l = List.replicate 9 .i64) ?_ ?_
  · vcx [Std.div_int128_body]
    vcgo
  rintro s l ⟨rfl, hl⟩
  refine vc_loop (fun l => tys l = List.replicate 9 .i64)
      (fun l => match nth l 8 with | .i64 x => x.toNat | _ => 0) hl ?_
  simp only [List.replicate, tys_all_nil, tys_all_i64]
  intro a b c d e f g h i
  vcgo
  all_goals
    rename_i hc
    refine ⟨rfl, ?_⟩
    have : i ≠ 0#64 := by rintro rfl; revert hc; decide
    have := BitVec.toNat_sub_of_le (x := i) (y := 1#64) (by bv_omega)
    bv_omega

end Wasm
