import Verif.Stdlib.Term2
import Verif.Wasm.StdValid

/-! Property C19: calls of the runtime library end. -/

namespace Props
open Wasm
variable {σ : Type}

/-- **C19**, all functions of the runtime library but thirteen: in every module whose own functions
validate and whose host functions return values of their declared types, a call with any arguments of
the declared types in any state ends: it returns values of the declared types or it traps. From some
number of steps on the outcome does not depend on the number of steps allowed.

Not covered: the functions that walk over a value of unknown type (`skip-unknown-value`,
`skip-some-ok-err`, `skip-tuple`), for which the claim is false (`C19_counterexample_skip`), and ten
functions whose loops end only if a length is not close to 2^32 or a multiple of four, or because of
what division computes; for these the theorems C12, C13, C16, C40 and C41 say that they end on the
operands the compiler passes. -/
theorem C19_terminates_partial (M : Wasm.Mod σ) (hu : ∀ k d, M.user k = some d → d.valid M.sig = true)
    (hh : ∀ h args g vs g', args.map Val.ty = (hostSig h).1 → M.host h args g = .ret vs g' →
      vs.map Val.ty = (hostSig h).2)
    (f : StdFn) (hf : f ∉ [StdFn.skip_unknown_value, .skip_some_ok_err, .skip_tuple, .sha256_buf, .sha512_buf, .hash160_buf,
      .utf8_to_uint, .utf8_to_int, .uint_to_string, .int_to_string, .uint_to_utf8, .int_to_utf8, .convert_scalars_to_utf8])
    (args : List Val) (ha : args.map Val.ty = (stdFunc f).params) (g : Store σ) :
    ∃ n₀, (∃ vs g', (∀ n, n₀ ≤ n → invoke M n (.std f) args g = .ret vs g') ∧ vs.map Val.ty = (stdFunc f).results) ∨
      (∃ g', ∀ n, n₀ ≤ n → invoke M n (.std f) args g = .trap g') := by
  have hV : M.Valid := ⟨hu, fun f => std_valid' f, hh⟩
  have key : Terminates M (.std f) := by
    cases f
    all_goals first
      | exact terminates_easy hV (by decide +kernel)
      | exact absurd (by decide) hf
      | exact term_div_int128 hV
      | exact term_lt_buff hV
      | exact term_gt_buff hV
      | exact term_le_buff hV
      | exact term_ge_buff hV
      | exact term_pow_inner hV
      | exact term_working_vars hV
      | exact term_is_valid_string_ascii hV
      | exact term_compare_clarity_names hV
      | exact term_calculate_sha512 hV
      | exact term_is_valid_contract_name hV
      | exact term_block64 hV
      | exact term_process_sha512_block hV
      | exact term_string_to_uint hV
      | exact term_utf8_to_string_utf8 hV
      | exact term_check_clarity_name hV
      | exact term_skip_string_utf8 hV
      | exact term_bsearch_clarity_name hV
      | exact term_sqrti_uint hV
      | exact term_hash160_compress hV
      | exact term_div_uint hV
      | exact term_div_int hV
      | exact term_mod_uint hV
      | exact term_mod_int hV
      | exact term_sqrti_int hV
      | exact term_pow_uint hV
      | exact term_pow_int hV
      | exact term_sha256_int hV
      | exact term_hash160_int hV
      | exact term_principal_construct hV
      | exact term_string_to_int hV
      | exact term_sha512_int hV
      | exact term_skip_contract hV
      | exact term_skip_string_ascii hV
  obtain ⟨r, ⟨n₀, hr⟩, hty, hne⟩ := key _ _ rfl args g ha
  refine ⟨n₀, ?_⟩
  cases r with
  | ret vs g' => exact .inl ⟨vs, g', hr, hty⟩
  | trap g' => exact .inr ⟨g', hr⟩
  | stuck => exact absurd hty id
  | oof => exact absurd rfl hne

/-- The hypotheses hold for a module without functions of its own and hosts that trap, the function `div-int`. -/
example (g : Store Unit) : ∃ n₀ r, (∀ n, n₀ ≤ n →
    invoke ({ user := fun _ => none, host := fun _ _ g => .err g } : Wasm.Mod Unit) n (.std .div_int)
      [.i64 7#64, .i64 0#64, .i64 2#64, .i64 0#64] g = r) ∧ r ≠ .oof ∧ r ≠ .stuck := by
  obtain ⟨n₀, ⟨vs, g', h, -⟩ | ⟨g', h⟩⟩ := C19_terminates_partial
    ({ user := fun _ => none, host := fun _ _ g => .err g } : Wasm.Mod Unit) (by simp) (by simp) .div_int (by decide)
    [.i64 7#64, .i64 0#64, .i64 2#64, .i64 0#64] rfl g
  · exact ⟨n₀, _, h, by simp, by simp⟩
  · exact ⟨n₀, _, h, by simp, by simp⟩

end Props
