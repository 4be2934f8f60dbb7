import Verif.Wasm.Frame
import Verif.Wasm.StdValid
import Verif.Host.Errors
import Verif.Props.Arith

/-! Properties C18, C20, C25: safety properties that hold of all executions of the runtime library,
by soundness of static analyses. -/

namespace Props
open Wasm Spec Host
variable {σ : Type}

/-! ## C20 -/

/-- **C20.** In every module whose own functions validate and whose host functions return values of
their declared types, calling any function of the runtime library with arguments of its declared
types, for any number of steps, is never stuck; if it returns, the results have the declared types. -/
theorem C20_std_type_safe (M : Wasm.Mod σ) (hu : ∀ k d, M.user k = some d → d.valid M.sig = true)
    (hh : ∀ h args g vs g', args.map Val.ty = (hostSig h).1 → M.host h args g = .ret vs g' →
      vs.map Val.ty = (hostSig h).2)
    (f : StdFn) (args : List Val) (ha : args.map Val.ty = (stdFunc f).params) (g : Store σ) (n : Nat) :
    (∃ vs g', invoke M n (.std f) args g = .ret vs g' ∧ vs.map Val.ty = (stdFunc f).results) ∨
    (∃ g', invoke M n (.std f) args g = .trap g') ∨ invoke M n (.std f) args g = .oof := by
  have := invoke_typed (M := M) ⟨hu, fun f => std_valid' f, hh⟩ n (.std f) _ _ rfl args ha g
  revert this
  cases invoke M n (.std f) args g with
  | ret vs g' => intro h; exact .inl ⟨vs, g', rfl, h⟩
  | trap g' => intro _; exact .inr (.inl ⟨g', rfl⟩)
  | stuck => intro h; exact absurd h id
  | oof => intro _; exact .inr (.inr rfl)

/-- **C20** for the contract's own functions: whatever passes validation is safe, too. -/
theorem C20_user_type_safe (M : Wasm.Mod σ) (hu : ∀ k d, M.user k = some d → d.valid M.sig = true)
    (hh : ∀ h args g vs g', args.map Val.ty = (hostSig h).1 → M.host h args g = .ret vs g' →
      vs.map Val.ty = (hostSig h).2)
    (k : Nat) (d : Func) (hk : M.user k = some d) (args : List Val) (ha : args.map Val.ty = d.params)
    (g : Store σ) (n : Nat) : invoke M n (.user k) args g ≠ .stuck := by
  have := invoke_typed (M := M) ⟨hu, fun f => std_valid' f, hh⟩ n (.user k) d.params d.results
    (by simp [Mod.sig, Mod.func, hk]) args ha g
  intro e; rw [e] at this; exact this

/-- A module meeting the hypotheses: no functions of its own, host functions that raise errors. -/
def safetyMod : Wasm.Mod Unit := ⟨fun _ => none, fun _ _ g => .err g⟩
example (n : Nat) (g : Store Unit) : invoke safetyMod n (.std .add_uint)
    [.i64 1#64, .i64 0#64, .i64 2#64, .i64 0#64] g ≠ .stuck := by
  intro e
  rcases C20_std_type_safe safetyMod (by simp [safetyMod]) (by simp [safetyMod]) .add_uint
    [.i64 1#64, .i64 0#64, .i64 2#64, .i64 0#64] rfl g n with ⟨_, _, h, _⟩ | ⟨_, h⟩ | h <;>
    rw [e] at h <;> cases h

/-! ## C18 -/

/-- The functions with no designated output area in memory. -/
def pureFns : List StdFn :=
  [.add_int128, .add_int, .add_uint, .sub_int128, .sub_int, .sub_uint, .mul_int128, .mul_uint,
   .mul_int, .div_int128, .div_uint, .div_int, .mod_uint, .mod_int, .lt_uint, .gt_uint, .le_uint,
   .ge_uint, .lt_int, .gt_int, .le_int, .ge_int, .lt_buff, .gt_buff, .le_buff, .ge_buff, .log2,
   .log2_uint, .log2_int, .sqrti_uint, .sqrti_int, .bit_and, .bit_not, .bit_or, .bit_xor,
   .bit_shift_left, .bit_shift_right_uint, .bit_shift_right_int, .clz_int128, .pow_inner, .pow_uint,
   .pow_int, .hash160_f1, .hash160_f2, .hash160_f3, .hash160_f4, .hash160_f5, .load_i32_be,
   .buff_to_uint_be, .buff_to_uint_le, .not_, .is_valid_contract_name, .is_alpha, .is_valid_char,
   .is_transient, .string_to_uint, .utf8_to_uint, .string_to_int, .utf8_to_int, .to_uint, .to_int,
   .is_valid_string_ascii, .compare_clarity_names, .bsearch_clarity_name,
   .skip_int128, .skip_buffer, .skip_boolean_or_none, .skip_principal, .skip_contract,
   .skip_string_ascii, .skip_string_utf8, .check_clarity_name]

/-- The functions that skip nested serialized values; they may call the host's `skip-list`. -/
def skipFns : List StdFn := [.skip_unknown_value, .skip_some_ok_err, .skip_tuple]

/-- The functions that write to memory, other than the three that compute Hash160. -/
def writingFns : List StdFn :=
  [.sha256_buf, .sha256_int, .extend_data, .block64, .working_vars, .hash160_pad, .store_i32_be, .store_i64_be, .uint_to_string, .int_to_string,
   .uint_to_utf8, .int_to_utf8, .sha512_buf, .sha512_int, .pad_sha512_data, .process_sha512_block,
   .calculate_sha512, .store_calculated_sha512, .convert_scalars_to_utf8, .utf8_to_string_utf8]

/-- Error codes of the runtime library (standard.wat 389-402). -/
def stdCodes : List (BitVec 32) := [0#32, 1#32, 2#32, 3#32, 4#32, 5#32, 8#32]

/-- No instruction that changes a global or the memory. -/
def roB : Basic → Bool
  | .global32Set _ | .global64Set _ | .i32store _ _ | .i64store _ _ | .v128store _ | .memCopy
  | .memFill => false
  | _ => true

/-- No instruction that changes a global. -/
def noGlobB : Basic → Bool
  | .global32Set _ | .global64Set _ => false
  | _ => true

/-- Policy of `pureFns`. -/
def purePol : Pol := ⟨roB, fun f => match f with | .std f => pureFns.contains f | _ => false, false, stdCodes⟩

/-- Policy of `pureFns` and `skipFns`. -/
def skipPol : Pol :=
  ⟨roB, fun f => match f with
    | .std f => (pureFns ++ skipFns).contains f
    | .host .skip_list => true
    | _ => false, true, stdCodes⟩

/-- Policy of `pureFns` and `writingFns`. -/
def writePol : Pol :=
  ⟨noGlobB, fun f => match f with | .std f => (pureFns ++ writingFns).contains f | _ => false, false, stdCodes⟩

/-- Nothing but the error code has changed. -/
def OnlyErr (g g' : Store σ) : Prop := g' = g ∨ ∃ c ∈ stdCodes, g' = g.set32 .errCode c

theorem ro_step {op : Basic} (h : roB op = true) {stk loc : List Val} {g : Store σ} {s l g'}
    (he : stepB op stk loc g = .ok s l g') : g' = g := by
  unfold stepB at he
  split at he <;> (try (simp [roB] at h; done)) <;>
    first
    | (cases he; rfl)
    | (exfalso; cases he; done)
    | (split at he <;> first | (cases he; rfl) | cases he)

/-- The globals and the size of the memory are unchanged. -/
def SameGlobals (g g' : Store σ) : Prop :=
  g'.g32 = g.g32 ∧ g'.g64 = g.g64 ∧ g'.mem.size = g.mem.size ∧ g'.host = g.host

theorem noGlob_step {op : Basic} (h : noGlobB op = true) {stk loc : List Val} {g : Store σ} {s l g'}
    (he : stepB op stk loc g = .ok s l g') : SameGlobals g g' := by
  unfold stepB at he
  split at he <;> (try (simp [noGlobB] at h; done)) <;>
    first
    | (cases he; exact ⟨rfl, rfl, rfl, rfl⟩)
    | (exfalso; cases he; done)
    | (split at he <;> first | (cases he; exact ⟨rfl, rfl, rfl, rfl⟩) | cases he)

theorem pure_sound (M : Wasm.Mod σ) : Sound purePol M (fun g g' => g' = g) OnlyErr where
  refl g := rfl
  trans a b c hab hbc := hbc.trans hab
  trap g := .inl rfl
  transT a b c hab hbc := by subst hab; exact hbc
  basic op h stk loc g s l g' he := ro_step h he
  code c hc g := .inr ⟨c, hc, rfl⟩
  func f d hf hd := by
    cases f with
    | std f =>
      simp only [Mod.func, Option.some.injEq] at hd
      subst hd
      have : ∀ f ∈ pureFns, okL purePol none (stdFunc f).body = true := by decide +kernel
      exact this f (by simpa [purePol] using hf)
    | _ => simp [purePol] at hf
  host h hf := by simp [purePol] at hf
  ind h := by simp [purePol] at h
  err := by decide +kernel

/-- **C18.** Whatever the arguments (even of wrong types), the state and the number of steps: an
execution of a function that has no output area in memory ends with the memory, all globals (the
call-stack pointer among them) and the host state exactly as they were; only an abort may record an
error code, one of those of the runtime. -/
theorem C18_pure (M : Wasm.Mod σ) (f : StdFn) (hf : f ∈ pureFns) (args : List Val) (g : Store σ)
    (n : Nat) :
    (∀ vs g', invoke M n (.std f) args g = .ret vs g' → g' = g) ∧
    (∀ g', invoke M n (.std f) args g = .trap g' → g' = g ∨ ∃ c ∈ stdCodes, g' = g.set32 .errCode c) := by
  have := invoke_frame (pure_sound M) n (.std f) (by simpa [purePol] using hf) args g
  constructor
  · intro vs g' h; rw [h] at this; exact this
  · intro g' h; rw [h] at this; exact this

theorem skip_sound (M : Wasm.Mod σ)
    (hM : ∀ args g, (M.host .skip_list args g).rel (fun g g' => g' = g) OnlyErr g) :
    Sound skipPol M (fun g g' => g' = g) OnlyErr where
  refl g := rfl
  trans a b c hab hbc := hbc.trans hab
  trap g := .inl rfl
  transT a b c hab hbc := by subst hab; exact hbc
  basic op h stk loc g s l g' he := ro_step h he
  code c hc g := .inr ⟨c, hc, rfl⟩
  func f d hf hd := by
    cases f with
    | std f =>
      simp only [Mod.func, Option.some.injEq] at hd
      subst hd
      have : ∀ f ∈ pureFns ++ skipFns, okL skipPol none (stdFunc f).body = true := by decide +kernel
      exact this f (by simpa [skipPol] using hf)
    | host h => simp [Mod.func] at hd
    | user k => simp [skipPol] at hf
  host h hf := by cases h <;> first | (simp [skipPol] at hf; done) | exact hM
  ind _ k f hk := by
    unfold stdTable at hk
    split at hk <;> first | (cases hk; decide +kernel) | cases hk
  err := by decide +kernel

/-- **C18** for skipping nested serialized values, in a module whose `skip-list` host function does
not touch the store (but may abort). -/
theorem C18_skip (M : Wasm.Mod σ)
    (hM : ∀ args g, (M.host .skip_list args g).rel (fun g g' => g' = g)
      (fun g g' => g' = g ∨ ∃ c ∈ stdCodes, g' = g.set32 .errCode c) g)
    (f : StdFn) (hf : f ∈ skipFns) (args : List Val) (g : Store σ) (n : Nat) :
    (∀ vs g', invoke M n (.std f) args g = .ret vs g' → g' = g) ∧
    (∀ g', invoke M n (.std f) args g = .trap g' → g' = g ∨ ∃ c ∈ stdCodes, g' = g.set32 .errCode c) := by
  have := invoke_frame (skip_sound M hM) n (.std f) (by simp [skipPol, hf]) args g
  constructor
  · intro vs g' h; rw [h] at this; exact this
  · intro g' h; rw [h] at this; exact this

/-- Everything but the memory contents is unchanged, and the error code satisfies `p`. -/
def OnlyMem (p : BitVec 32 → BitVec 32 → Prop) (g g' : Store σ) : Prop :=
  g'.mem.size = g.mem.size ∧ g'.host = g.host ∧ g'.g64 = g.g64 ∧
  (∀ x, x ≠ .errCode → g'.g32 x = g.g32 x) ∧ p (g.g32 .errCode) (g'.g32 .errCode)

theorem write_sound (M : Wasm.Mod σ) : Sound writePol M (OnlyMem fun a b => b = a)
    (OnlyMem fun a b => b = a ∨ b ∈ stdCodes) where
  refl g := ⟨rfl, rfl, rfl, fun _ _ => rfl, rfl⟩
  trans a b c hab hbc := by
    obtain ⟨a1, a2, a3, a4, a5⟩ := hab
    obtain ⟨b1, b2, b3, b4, b5⟩ := hbc
    exact ⟨by rw [b1, a1], by rw [b2, a2], by rw [b3, a3], fun x hx => by rw [b4 x hx, a4 x hx], b5.trans a5⟩
  trap g := ⟨rfl, rfl, rfl, fun _ _ => rfl, .inl rfl⟩
  transT a b c hab hbc := by
    obtain ⟨a1, a2, a3, a4, a5⟩ := hab
    obtain ⟨b1, b2, b3, b4, b5⟩ := hbc
    refine ⟨by rw [b1, a1], by rw [b2, a2], by rw [b3, a3], fun x hx => by rw [b4 x hx, a4 x hx], ?_⟩
    rw [← a5]; exact b5
  basic op h stk loc g s l g' he := by
    obtain ⟨h1, h2, h3, h4⟩ := noGlob_step h he
    exact ⟨h3, h4, h2, fun x _ => by rw [h1], by rw [h1]⟩
  code c hc g := ⟨rfl, rfl, rfl, fun x hx => by simp [Store.set32, hx], .inr (show c ∈ stdCodes from hc)⟩
  func f d hf hd := by
    cases f with
    | std f =>
      simp only [Mod.func, Option.some.injEq] at hd
      subst hd
      have : ∀ f ∈ pureFns ++ writingFns, okL writePol none (stdFunc f).body = true := by decide +kernel
      exact this f (by simpa [writePol] using hf)
    | _ => simp [writePol] at hf
  host h hf := by simp [writePol] at hf
  ind h := by simp [writePol] at h
  err := by decide +kernel

/-- **C18** for the functions with an output area in memory: every global (the call-stack pointer
among them), the memory size and the host state are unchanged, whatever the arguments. (That they
write nowhere but in their output area is part of C12, C15 and C16.) -/
theorem C18_writing (M : Wasm.Mod σ) (f : StdFn) (hf : f ∈ writingFns) (args : List Val) (g : Store σ)
    (n : Nat) (g' : Store σ)
    (h : (∃ vs, invoke M n (.std f) args g = .ret vs g') ∨ invoke M n (.std f) args g = .trap g') :
    g'.mem.size = g.mem.size ∧ g'.host = g.host ∧ g'.g64 = g.g64 ∧
    (∀ x, x ≠ .errCode → g'.g32 x = g.g32 x) := by
  have := invoke_frame (write_sound M) n (.std f) (by simp [writePol, hf]) args g
  rcases h with ⟨vs, h⟩ | h <;> rw [h] at this <;> exact ⟨this.1, this.2.1, this.2.2.1, this.2.2.2.1⟩

/-! ## C25 -/

/-- No instruction that sets the error code. -/
def noErrB : Basic → Bool
  | .global32Set .errCode => false
  | _ => true

/-- Policy of the whole runtime library. -/
def errPol : Pol :=
  ⟨noErrB, fun f => match f with
    | .std .runtime_error => false
    | .std _ => true
    | .host .is_in_mainnet => true
    | .host .skip_list => true
    | _ => false, true, stdCodes⟩

/-- The error code is unchanged or one of the runtime's. -/
def ErrIn (g g' : Store σ) : Prop := g'.g32 .errCode = g.g32 .errCode ∨ g'.g32 .errCode ∈ stdCodes

/-- The error code is unchanged. -/
def ErrSame (g g' : Store σ) : Prop := g'.g32 .errCode = g.g32 .errCode

theorem noErr_step {op : Basic} (h : noErrB op = true) {stk loc : List Val} {g : Store σ} {s l g'}
    (he : stepB op stk loc g = .ok s l g') : g'.g32 .errCode = g.g32 .errCode := by
  unfold stepB at he
  split at he <;>
    first
    | (cases he; rfl)
    | (cases he; rename_i x _; cases x <;> first | (simp [noErrB] at h; done) | rfl)
    | (exfalso; cases he; done)
    | (split at he <;> first | (cases he; rfl) | cases he)

theorem err_sound (M : Wasm.Mod σ)
    (hM : ∀ h ∈ [HostFn.is_in_mainnet, .skip_list], ∀ args g, (M.host h args g).rel ErrSame ErrIn g) :
    Sound errPol M ErrSame ErrIn where
  refl g := rfl
  trans a b c hab hbc := Eq.trans hbc hab
  trap g := .inl rfl
  transT a b c hab hbc := by
    unfold ErrSame at hab; unfold ErrIn at *; rw [← hab]; exact hbc
  basic op h stk loc g s l g' he := noErr_step h he
  code c hc g := .inr (show c ∈ stdCodes from hc)
  func f d hf hd := by
    cases f with
    | std f =>
      simp only [Mod.func, Option.some.injEq] at hd
      subst hd
      cases f <;> first | (simp [errPol] at hf; done) | decide +kernel
    | host h => simp [Mod.func] at hd
    | user k => simp [errPol] at hf
  host h hf := by cases h <;> first | (simp [errPol] at hf; done) | exact hM _ (by simp)
  ind _ k f hk := by
    unfold stdTable at hk
    split at hk <;> first | (cases hk; rfl) | cases hk
  err := rfl

/-- Clarity's errors for the codes of the runtime (standard.wat 389-402, SIP-002). -/
def docErrors : List (Nat × RtErr) :=
  [(0, .arithmeticOverflow), (1, .arithmeticUnderflow), (2, .divisionByZero), (3, .arithmeticLog2),
   (4, .arithmeticSqrti), (5, .badTypeConstruction), (6, .unwrapFailure), (8, .arithmeticPow)]

/-- **C25**, codes: an abort with a documented code reaches the user as the documented error,
whatever the state and the type parser. -/
theorem C25_documented (sig : List Byte → Option Ty) (g : Store σ) (c : Nat) (e : RtErr)
    (h : (c, e) ∈ docErrors) : fromRuntimeErrorCode sig (g.failed c) = some (.runtime e) := by
  simp only [docErrors, List.mem_cons, Prod.mk.injEq, List.not_mem_nil, or_false] at h
  rcases h with ⟨rfl, rfl⟩ | ⟨rfl, rfl⟩ | ⟨rfl, rfl⟩ | ⟨rfl, rfl⟩ | ⟨rfl, rfl⟩ | ⟨rfl, rfl⟩ |
    ⟨rfl, rfl⟩ | ⟨rfl, rfl⟩ <;> rfl

/-- Distinct documented codes give distinct errors. -/
theorem C25_distinct (c c' : Nat) (e e' : RtErr) (h : (c, e) ∈ docErrors) (h' : (c', e') ∈ docErrors)
    (hne : c ≠ c') : e ≠ e' := by
  have : ∀ p ∈ docErrors, ∀ q ∈ docErrors, p.1 ≠ q.1 → p.2 ≠ q.2 := by decide +kernel
  exact this _ h _ h' hne

/-- **C25**, the runtime: in a module where the two host functions the runtime uses (`is-in-mainnet` and
`skip-list`) do not touch the error code, whatever function of the runtime library traps, with whatever arguments, either did not raise
a Clarity error (out-of-bounds access: the code is what it was, `-1` in a fresh instance), or the
user sees a documented error. -/
theorem C25_runtime (sig : List Byte → Option Ty) (M : Wasm.Mod σ)
    (hM : ∀ h ∈ [HostFn.is_in_mainnet, .skip_list], ∀ args g,
      (M.host h args g).rel (fun g g' => g'.g32 .errCode = g.g32 .errCode)
      (fun g g' => g'.g32 .errCode = g.g32 .errCode) g)
    (f : StdFn) (hf : f ≠ .runtime_error) (args : List Val) (g g' : Store σ) (n : Nat)
    (h : invoke M n (.std f) args g = .trap g') :
    g'.g32 .errCode = g.g32 .errCode ∨
    ∃ c e, (c, e) ∈ docErrors ∧ g'.g32 .errCode = BitVec.ofNat 32 c ∧
      fromRuntimeErrorCode sig g' = some (.runtime e) := by
  have hM' : ∀ h ∈ [HostFn.is_in_mainnet, .skip_list], ∀ args g,
      (M.host h args g).rel ErrSame ErrIn g := by
    intro h hh args g
    have := hM h hh args g
    cases hx : M.host h args g with
    | ret vs g' => rw [hx] at this; exact this
    | err g' => rw [hx] at this; exact .inl this
  have := invoke_frame (err_sound M hM') n (.std f)
    (by cases f <;> first | exact absurd rfl hf | rfl) args g
  rw [h] at this
  rcases this with h | h
  · exact .inl h
  · right
    simp only [stdCodes, List.mem_cons, List.not_mem_nil, or_false] at h
    rcases h with h | h | h | h | h | h | h
    · exact ⟨0, .arithmeticOverflow, by simp [docErrors], h, by unfold fromRuntimeErrorCode; rw [h]; rfl⟩
    · exact ⟨1, .arithmeticUnderflow, by simp [docErrors], h, by unfold fromRuntimeErrorCode; rw [h]; rfl⟩
    · exact ⟨2, .divisionByZero, by simp [docErrors], h, by unfold fromRuntimeErrorCode; rw [h]; rfl⟩
    · exact ⟨3, .arithmeticLog2, by simp [docErrors], h, by unfold fromRuntimeErrorCode; rw [h]; rfl⟩
    · exact ⟨4, .arithmeticSqrti, by simp [docErrors], h, by unfold fromRuntimeErrorCode; rw [h]; rfl⟩
    · exact ⟨5, .badTypeConstruction, by simp [docErrors], h, by unfold fromRuntimeErrorCode; rw [h]; rfl⟩
    · exact ⟨8, .arithmeticPow, by simp [docErrors], h, by unfold fromRuntimeErrorCode; rw [h]; rfl⟩

/-- The recorded error with a value, name or counts, of the store in which an abort with `c` ends. -/
theorem C25_with_data (sig : List Byte → Option Ty) (g : Store σ) (v : Value) (s : List Byte) (T : Ty)
    (hs : memRead g.mem (g.g32 .errTyOff).toNat (g.g32 .errTyLen).toNat = some s) (hT : sig s = some T)
    (hv : readFromWasmIndirect T g.mem (g.g32 .errValOff).toNat = some v) :
    fromRuntimeErrorCode sig (g.failed 7) = some (.assertionFailed v) ∧
    fromRuntimeErrorCode sig (g.failed 10) = some (.expectedValue (.err v)) ∧
    fromRuntimeErrorCode sig (g.failed 11) = some (.expectedValue .none) ∧
    fromRuntimeErrorCode sig (g.failed 12) = some (.expectedValue v) := by
  have hsr : ∀ c, shortReturnValue sig (g.failed c) = some v := by
    intro c
    unfold shortReturnValue
    show (do let s ← memRead g.mem (g.g32 .errTyOff).toNat (g.g32 .errTyLen).toNat
             let ty ← sig s
             readFromWasmIndirect ty g.mem (g.g32 .errValOff).toNat) = _
    simp only [hs, Option.bind_eq_bind, Option.bind_some, hT, hv]
  refine ⟨?_, ?_, ?_, ?_⟩
  · show (do let v ← shortReturnValue sig (g.failed 7); some (VmError.assertionFailed v)) = _
    rw [hsr]; rfl
  · show (do let v ← shortReturnValue sig (g.failed 10); some (VmError.expectedValue (.err v))) = _
    rw [hsr]; rfl
  · rfl
  · show (do let v ← shortReturnValue sig (g.failed 12); some (VmError.expectedValue v)) = _
    rw [hsr]; rfl

/-- Unmapped codes make the host panic: there is no error at all (`none`). -/
theorem C25_unknown_panics (sig : List Byte → Option Ty) (g : Store σ)
    (h : ErrorMap.ofCode (g.g32 .errCode).toInt = .notMapped) : fromRuntimeErrorCode sig g = none := by
  unfold fromRuntimeErrorCode; rw [h]

example (sig : List Byte → Option Ty) (g : Store σ) : fromRuntimeErrorCode sig (g.failed 16) = none :=
  C25_unknown_panics sig _ rfl

/-- The five cost codes are merged into one error: distinctness fails there. -/
theorem C25_cost_merged (sig : List Byte → Option Ty) (g : Store σ) :
    ∀ c ∈ [100, 101, 102, 103, 104], fromRuntimeErrorCode sig (g.failed c) = some .costOverflow := by
  intro c hc
  simp only [List.mem_cons, List.not_mem_nil, or_false] at hc
  rcases hc with rfl | rfl | rfl | rfl | rfl <;> rfl

/-- End to end: adding `2^128 - 1` and `1` ends in Clarity's ArithmeticOverflow. -/
example (sig : List Byte → Option Ty) (M : Wasm.Mod σ) (g : Store σ) :
    ∃ g', Runs M (.std .add_uint) (encU (2 ^ 128 - 1) ++ encU 1) g (.trap g') ∧
      fromRuntimeErrorCode sig g' = some (.runtime .arithmeticOverflow) := by
  refine ⟨g.failed 0, ?_, C25_documented sig g 0 _ (by simp [docErrors])⟩
  have := C01_add_uint M g (2 ^ 128 - 1) 1 (by decide) (by decide)
  rw [if_neg (by decide)] at this
  exact this

end Props
