{
 "claims": [
  {
   "property": "C01",
   "status": "proved",
   "theorems": [
    "Props.C01_add_uint",
    "Props.C01_add_int"
   ],
   "note": "All operands; the outcome includes the whole resulting store."
  },
  {
   "property": "C02",
   "status": "partial",
   "theorems": [
    "Props.C02_sub_int",
    "Props.C02_sub_uint_partial",
    "Props.C02_sub_uint_counterexample"
   ],
   "note": "Signed: complete. Unsigned: false as stated; the code misses the underflow when the subtrahend is >= 2^128-2^64 and the low halves borrow (witness proved)."
  },
  {
   "property": "C03",
   "status": "partial",
   "theorems": [
    "Props.C03_mul_uint",
    "Props.C03_mul_int_partial",
    "Props.C03_mul_int_counterexample"
   ],
   "note": "Unsigned: complete. Signed: false as stated; a product equal to -2^127 is rejected unless one operand is 1 (witness proved)."
  },
  {
   "property": "C04",
   "status": "proved",
   "theorems": [
    "Props.C04_div_uint",
    "Props.C04_mod_uint",
    "Props.C04_div_int",
    "Props.C04_mod_int"
   ],
   "note": "All operands."
  },
  {
   "property": "C05",
   "status": "proved",
   "theorems": [
    "Props.C05_compare_uint",
    "Props.C05_compare_int"
   ],
   "note": "All eight functions, all operands."
  },
  {
   "property": "C06",
   "status": "proved",
   "theorems": [
    "Props.C06_compare_bytes",
    "Props.lexLt_iff"
   ],
   "note": "All memories, offsets and lengths within memory; the store is unchanged."
  },
  {
   "property": "C07",
   "status": "proved",
   "theorems": [
    "Props.C07_log2_uint",
    "Props.C07_log2_int",
    "Props.C07_sqrti_uint",
    "Props.C07_sqrti_int"
   ],
   "note": "All operands."
  },
  {
   "property": "C08",
   "status": "partial",
   "theorems": [
    "Props.C08_pow_uint",
    "Props.C08_pow_int_partial",
    "Props.C08_pow_int_counterexample"
   ],
   "note": "Unsigned: complete. Signed: false for base -1 with exponent above 127 (witness proved); complete otherwise."
  },
  {
   "property": "C09",
   "status": "proved",
   "theorems": [
    "Props.C09_bitwise_uint",
    "Props.C09_bitwise_int",
    "Props.C09_shifts"
   ],
   "note": "All operands, all bits."
  },
  {
   "property": "C10",
   "status": "proved",
   "theorems": [
    "Props.C10_to_uint",
    "Props.C10_to_int"
   ],
   "note": "All operands."
  },
  {
   "property": "C11",
   "status": "partial",
   "theorems": [
    "Props.C11_buff_to_uint_le_partial",
    "Props.C11_buff_to_uint_be_partial",
    "Props.C11_buff_to_uint_le_counterexample"
   ],
   "note": "Needs 16 readable bytes from the start (le) or before the end (be) of the buffer; otherwise the code traps (witness proved)."
  },
  {
   "property": "C12",
   "status": "proved",
   "theorems": [
    "Props.C12_uint_to_string",
    "Props.C12_int_to_string",
    "Props.C12_uint_to_utf8",
    "Props.C12_int_to_utf8",
    "Props.decStr_canonical",
    "Props.decStr_unique"
   ],
   "note": "All integers, all memories and result offsets (one character past address 0, end below 4 GiB); bytes outside the string unchanged."
  },
  {
   "property": "C13",
   "status": "partial",
   "theorems": [
    "Props.C13_string_to_uint_partial",
    "Props.C13_string_to_int_partial",
    "Props.C13_utf8_to_uint_partial",
    "Props.C13_utf8_to_int_partial",
    "Props.C13_string_to_uint_counterexample",
    "Props.C13_string_to_uint_long"
   ],
   "note": "False as stated in two ways, both proved of the code: 39-digit numerals >= 2^128 ending in 0..5 parse to a number, and numerals longer than 39 characters (leading zeros) are rejected. Right for all other strings."
  },
  {
   "property": "C14",
   "status": "proved",
   "theorems": [
    "Props.C14_uint_string",
    "Props.C14_int_string",
    "Props.C14_uint_utf8",
    "Props.C14_int_utf8"
   ],
   "note": "All integers; the parser runs on the printer's results in the printer's store."
  },
  {
   "property": "C15",
   "status": "proved",
   "theorems": [
    "Props.C15_decode",
    "Props.isUtf8_unique",
    "Props.C15_truncated_counterexample"
   ],
   "note": "Success exactly on well-formed UTF-8 within the limit, for all byte sequences (input and output areas in memory, disjoint, memory below 4 GiB). Failure is none, except that a sequence truncated at the end of memory traps (witness proved)."
  },
  {
   "property": "C16",
   "status": "proved",
   "theorems": [
    "Props.C16_encode"
   ],
   "note": "All sequences of code points, all memories; input and output areas disjoint."
  },
  {
   "property": "C17",
   "status": "partial",
   "theorems": [
    "Props.C17_string_ascii",
    "Props.C17_clarity_name",
    "Props.C17_contract_name_partial",
    "Props.C17_contract_name_counterexample"
   ],
   "note": "ASCII and clarity names: complete. Contract names: complete except that an 11-byte string within 5 bytes of the end of memory that does not start with a letter makes the check trap (witness proved)."
  },
  {
   "property": "C18",
   "status": "proved",
   "theorems": [
    "Props.C18_pure",
    "Props.C18_skip",
    "Props.C18_writing",
    "Props.C12_uint_to_string",
    "Props.C12_int_to_string",
    "Props.C15_decode",
    "Props.C16_encode"
   ],
   "note": "All executions, any arguments, by soundness of a static analysis; functions without output area leave the whole store unchanged, the others leave all globals unchanged (their output areas are in C12, C15, C16)."
  },
  {
   "property": "C19",
   "status": "partial",
   "theorems": [
    "Props.C19_terminates_partial",
    "Props.C19_counterexample_skip"
   ],
   "note": "88 of the 101 functions, all arguments and states, by a termination calculus proved sound for the interpreter. False for skip-unknown-value: on 14 given bytes (a tuple with a negative-length buffer inside) it never ends, proved. The other ten end on the operands the compiler passes (C12, C13, C16, C40, C41)."
  },
  {
   "property": "C20",
   "status": "proved",
   "theorems": [
    "Props.C20_std_type_safe",
    "Props.C20_user_type_safe"
   ],
   "note": "Soundness of a validator for the whole Wasm subset, and the kernel's evaluation of the validator on all functions of standard.wat."
  },
  {
   "property": "C21",
   "status": "partial",
   "theorems": [
    "Props.C21_write_read_partial",
    "Props.C21_trait_write_fails"
   ],
   "note": "All types without traits inside, all values, all addresses and memories with room. Types with a trait (CallableType) inside: writing is proved to fail always, so the property is false there."
  },
  {
   "property": "C22",
   "status": "proved",
   "theorems": [
    "Props.C22_written_fits",
    "Props.C22_no_repr_too_small"
   ],
   "note": "All types and values, every successful write with representation, whatever the addresses. The size computed with include_repr=false is too small for nested in-memory types (witness proved)."
  },
  {
   "property": "C23",
   "status": "proved",
   "theorems": [
    "Props.C23_store_load",
    "Props.C23_sizes",
    "Props.C23_exact",
    "Props.C23_locals"
   ],
   "note": "All types, operands, addresses, fresh-local numbers. A NoType position (a placeholder that carries no value) is loaded as zero whatever was stored; every other position is restored exactly (C23_exact: types without NoType round-trip exactly)."
  },
  {
   "property": "C24",
   "status": "partial",
   "theorems": [
    "Props.C24_arguments_partial",
    "Props.C24_list_of_traits_rejected",
    "Props.C24_none_trait_ref_panics"
   ],
   "note": "Any number of arguments of all types without trait references and without traits inside lists. Lists of traits are always rejected, optional trait references panic (both proved)."
  },
  {
   "property": "C25",
   "status": "proved",
   "theorems": [
    "Props.C25_documented",
    "Props.C25_distinct",
    "Props.C25_runtime",
    "Props.C25_with_data",
    "Props.C25_unknown_panics",
    "Props.C25_cost_merged"
   ],
   "note": "All stores and all runtime functions. The five cost codes map to one error and unknown codes make the host panic (both proved; the statement says so)."
  },
  {
   "property": "C26",
   "status": "proved",
   "theorems": [
    "Props.C26_found",
    "Props.C26_std_data",
    "Props.C26_reserved_disjoint",
    "Props.C26_shared",
    "Props.C26_memory",
    "Props.C26_buff_not_shared"
   ],
   "note": "All sequences of literals, as long as the literal memory ends below 4 GiB. Names must not start with a double quote."
  },
  {
   "property": "C27",
   "status": "partial",
   "theorems": [
    "Props.C27_counts_partial",
    "Props.C27_counterexample"
   ],
   "note": "Right when the two numbers were not used as byte literals before; false otherwise (witness proved: the second failing call reports the first one's count)."
  },
  {
   "property": "C28",
   "status": "partial",
   "theorems": [
    "Props.C28_charge_partial",
    "Props.C28_overrun_partial",
    "Props.C28_tables",
    "Props.C28_big_budget_counterexample",
    "Props.C28_log_zero_counterexample"
   ],
   "note": "All cost functions, factors and budgets below 2^63, except logarithmic costs at factor 0; witnesses proved for budgets >= 2^63 (abort although enough) and for log at 0 (budget grows)."
  },
  {
   "property": "C29",
   "status": "proved",
   "theorems": [
    "Props.C29_serialize",
    "Props.C29_size",
    "Props.C29_to_consensus_buff"
   ],
   "note": "All well-formed types and values of any size and depth, all memories (below 4 GiB, with room for the encoding), any stack. C29_to_consensus_buff: inside any well-typed contract of the modelled language."
  },
  {
   "property": "C30",
   "status": "partial",
   "theorems": [
    "Props.C30_reads_back",
    "Props.C30_rejects_partial",
    "Props.C30_from_consensus_buff",
    "Props.C30_from_consensus_buff_none_partial",
    "Props.C30_round_trip",
    "Props.C30_counterexample_principal"
   ],
   "note": "All types built from integers, booleans, principals, buffers, strings, lists, optionals and responses; all bytes, all memories (below 4 GiB, with the room the compiler reserves). Rejection is for types without principals: a standard principal with any version byte and a contract principal with an empty name are accepted (witness proved). Missing: tuples."
  },
  {
   "property": "C31",
   "status": "partial",
   "theorems": [
    "Props.C31_skip_partial",
    "Props.C31_one_end",
    "Props.C31_unknown_prefix",
    "Props.C31_integer",
    "Props.C31_counterexample_truncated",
    "Props.C31_counterexample_wrap"
   ],
   "note": "Skipping the encoding of any value of any size and depth stops at its end (skip_list is a host function, its contract is a hypothesis, satisfiable). Rejection of malformed bytes is false: a truncated some and a buffer of length 2^32-1 are accepted (witnesses proved); unknown prefixes and truncated integers are rejected (proved)."
  },
  {
   "property": "C32",
   "status": "proved",
   "theorems": [
    "Props.C32_compare_names",
    "Props.C32_bsearch"
   ],
   "note": "All tables of strictly increasing non-empty names, all non-empty names, all memories."
  },
  {
   "property": "C33",
   "status": "partial",
   "theorems": [
    "Props.C33_compiled_functions_partial",
    "Props.C33_asserts_counterexample",
    "Props.C33_nary_counterexample",
    "Props.C33_try_counterexample",
    "Props.C33_let_none_counterexample"
   ],
   "note": "All contracts in the modelled language (literals, variables, let, begin, if, and/or/not, arithmetic, bitwise words, comparisons, parsing of numerals, constructors, unwraps, try, match, tuples, data variables, maps, calls, sequence words with fold, filter and map, as-contract), all arguments, states, memories. Four constructs are miscompiled, each proved by a witness (eager asserts!, interleaved variadic operands, try! of an optional in a function with another optional type, let-bound none) and excluded; nothing is claimed on the operands where the library deviates (C02, C03)."
  },
  {
   "property": "C34",
   "status": "proved",
   "theorems": [
    "Props.C34_any_operands",
    "Props.C34_short_circuit"
   ],
   "note": "C34_any_operands: any operands, typed or not, any host, on executions of the operands' codes. C34_short_circuit: the same against the Clarity semantics for well-typed contracts."
  },
  {
   "property": "C35",
   "status": "proved",
   "theorems": [
    "Props.C35_comparison",
    "Props.C35_is_eq"
   ],
   "note": "All types without trait references (for those the compiler refuses is-eq), values of any size and depth, any number of operands. Operands on which the library deviates (C02, C03) give no value and are outside C35_is_eq."
  },
  {
   "property": "C36",
   "status": "partial",
   "theorems": [
    "Props.C36_calls_partial",
    "Props.C36_commit_keeps",
    "Props.C43_roll_back_no_trace"
   ],
   "note": "Calls inside a contract, to any depth, and the host's transactions for any nested history. Any well-formed return type, with the copying of results. Missing: contract-call? to other contracts."
  },
  {
   "property": "C37",
   "status": "partial",
   "theorems": [
    "Props.C37_len",
    "Props.C37_as_max_len",
    "Props.C37_element_at",
    "Props.C37_slice_partial",
    "Props.C37_index_of_partial",
    "Props.C37_list",
    "Props.C37_append",
    "Props.C37_concat_partial",
    "Props.C37_replace_at_partial",
    "Props.C37_replace_at_empty",
    "Props.C37_slice_counterexample",
    "Props.C37_index_of_counterexample",
    "Props.C37_replace_at_counterexample",
    "Props.C37_fold_partial",
    "Props.C37_fold_error_partial",
    "Props.C37_fold_sum",
    "Props.C37_fold_bools",
    "Props.C37_filter_partial",
    "Props.C37_map_partial",
    "Props.C37_fold_counterexample",
    "Props.C37_filter_counterexample",
    "Props.C37_map_counterexample"
   ],
   "note": "All sequence types within the limits of Clarity, all sequences, all indices below 2^128. slice? with a left position from 2^32 on, index-of? on an empty sequence with an item that has effects, and replace-at? of an empty string out of range deviate (proved). concat: given that the result has the type the type checker computed. fold, filter and map with functions of the contract, fold and map with built-in words too, results without parts in memory. False as stated, witnesses proved: fold with an accumulator in memory, filter of an empty sequence, map over a first list that gets a made-up type. Missing: built-in words in filter and words that need working memory, read-only functions in filter, results of map in memory."
  },
  {
   "property": "C38",
   "status": "proved",
   "theorems": [
    "Props.C38_stack_pointer"
   ],
   "note": "Every function definition of the modelled language, typed or not, every host, every execution that returns."
  },
  {
   "property": "C39",
   "status": "partial",
   "theorems": [
    "Props.C39_construct_partial",
    "Props.C39_ok_iff",
    "Props.C39_is_standard",
    "Props.C39_destruct",
    "Props.C39_round_trip"
   ],
   "note": "All versions, hashes and names, both networks, any memory. Missing: operands within 5 bytes of the end of the memory, where the check of an 11-character name can trap (C17_contract_name_counterexample)."
  },
  {
   "property": "C40",
   "status": "proved",
   "theorems": [
    "Props.C40_sha256_buf",
    "Props.C40_sha256_uint",
    "Props.C40_sha256_int",
    "Props.C40_sha512_buf",
    "Props.C40_sha512_uint",
    "Props.C40_sha512_int"
   ],
   "note": "All messages (up to the 2^29 bytes whose bit count fits the code's 32-bit shift; Clarity's limit is 2^20) and all integers, with the space the compiler reserves; also that nothing but the result and the reserved space changes. Specification: FIPS 180-4, constants checked against roots of primes."
  },
  {
   "property": "C41",
   "status": "partial",
   "theorems": [
    "Props.C41_hash160_buf_partial",
    "Props.C41_hash160_uint_partial",
    "Props.C41_hash160_int_partial",
    "Props.C41_no_room_counterexample"
   ],
   "note": "All messages and integers, given l+392 (386) bytes above the stack pointer. The compiler reserves only l+361: witness proved that hash160 then traps when the memory ends there."
  },
  {
   "property": "C42",
   "status": "partial",
   "theorems": [
    "Props.C42_ledgers_balance",
    "Props.C42_abort_changes_nothing",
    "Props.C42_err_changes_nothing",
    "Props.C42_ft_mint",
    "Props.C42_ft_burn",
    "Props.C42_ft_transfer",
    "Props.C42_stx_transfer",
    "Props.C42_stx_burn",
    "Props.C42_declared_max_partial",
    "Props.C42_declared_max_counterexample",
    "Props.C42_nft_mint_partial",
    "Props.C42_nft_transfer_partial",
    "Props.C42_nft_burn_partial",
    "Props.C42_nft_ok_counterexample",
    "Props.C42_any_code",
    "Props.C42_compiled",
    "Props.C42_chain"
   ],
   "note": "All histories: ledgers balanced, supply within the recorded maximum, failures change nothing. False as stated: a declared maximum whose low half is >= 2^63 is recorded as a much larger one (witness proved); successful NFT operations return 132 instead of true (witness proved)."
  },
  {
   "property": "C43",
   "status": "partial",
   "theorems": [
    "Props.C43_context_restored",
    "Props.C43_as_contract_inside",
    "Props.C43_at_block_inside",
    "Props.C43_at_block_var_get",
    "Props.C43_at_block_no_trace",
    "Props.C43_roll_back_no_trace",
    "Props.C43_as_contract_partial",
    "Props.C43_early_return_counterexample",
    "Props.C43_nested_at_block_counterexample"
   ],
   "note": "All properly nested histories of host calls, and the generated code of as-contract around any well-typed expression that does not leave early. False as stated twice, witnesses proved: an early return inside as-contract leaves the contract as sender; after an inner at-block the outer one reads the current state."
  },
  {
   "property": "C44",
   "status": "proved",
   "theorems": [
    "Props.C44_encode_decode",
    "Props.C44_decode_encode"
   ],
   "note": "All valid trait identifiers, both directions."
  },
  {
   "property": "C45",
   "status": "partial",
   "theorems": [
    "Props.C45_map_op",
    "Props.C45_map_history",
    "Props.C45_map_read_only",
    "Props.C45_map_get_partial",
    "Props.C45_var_partial",
    "Props.C45_var_set",
    "Props.C45_any_code_typed",
    "Props.C45_chain_typed",
    "Props.C45_chain_ready",
    "Props.C45_define_var",
    "Props.C45_define_map",
    "Props.C45_define_nft",
    "Props.C45_init",
    "Props.C45_deployed"
   ],
   "note": "All histories; whatever code runs, variables, maps and tokens keep existing with contents of their declared types (C45_any_code_typed), through any history of calls of any compiled contracts (C45_chain_typed), and from the initialisation of the contract on (C45_deployed). Reading back excludes value types containing traits (the host cannot write them, C21)."
  },
  {
   "property": "C46",
   "status": "partial",
   "theorems": [
    "Props.C46_call_from_outside_partial",
    "Props.C46_history_partial",
    "Props.C46_history_typed_partial",
    "Props.C46_from_deployment_partial",
    "Props.C46_room",
    "Props.C46_no_room_counterexample"
   ],
   "note": "All contracts of the modelled language, all arguments and states, single calls and histories of any number of calls (same answers, errors, final state and events; every answer and stored value of its declared type), provided the instance's memory has room for the arguments. False without: the memory of a module is sized from its literals, frames and work spaces only and never grown for the arguments (witness proved)."
  },
  {
   "property": "C47",
   "status": "proved",
   "theorems": [
    "Props.C47_copies_result",
    "Props.countSpace_eq"
   ],
   "note": "All types, values and places; used by C33 and C36 for calls inside compiled functions."
  },
  {
   "property": "C48",
   "status": "partial",
   "theorems": [
    "Props.C48_compare",
    "Props.C48_pow_uint",
    "Props.C48_pow_int_partial",
    "Props.C48_log2",
    "Props.C48_sqrti",
    "Props.C48_shifts",
    "Props.C48_bit_not",
    "Props.C48_bits",
    "Props.C48_bits_determine",
    "Props.C48_string_to_uint_partial",
    "Props.C48_string_to_int_partial",
    "Props.C48_int_to_ascii",
    "Props.C48_int_to_utf8",
    "Props.C48_sha256",
    "Props.C48_sha512",
    "Props.C48_hash160_partial"
   ],
   "note": "All operand expressions of the modelled language, all values. Excluded: the operands on which the library deviates (base -1 with exponents above 127, C08; long and some 39-digit numerals, C13), and string-to-int? of the empty string and of more than 39 characters. sha256 and sha512 need only the work space that the compiler reserves; hash160 needs more (C41)."
  },
  {
   "property": "C49",
   "status": "partial",
   "theorems": [
    "Props.C49_stx_transfer",
    "Props.C49_stx_transfer_memo",
    "Props.C49_stx_burn",
    "Props.C49_ft_mint_partial",
    "Props.C49_ft_burn",
    "Props.C49_ft_transfer",
    "Props.C49_ft_reads",
    "Props.C49_stx_get_balance"
   ],
   "note": "For every ledger that adds up (C42), through the code of any operand expressions, host calls included. Missing: minting beyond the maximal supply (aborts the transaction; C42 says so for the host call), locked STX, stx-account and the nft words in compiled code."
  },
  {
   "property": "C50",
   "status": "partial",
   "theorems": [
    "Props.C50_any_code_isolated",
    "Props.C50_any_code_authority",
    "Props.C50_compiled_authority",
    "Props.C50_authority",
    "Props.C50_chain_stx",
    "Props.C50_chain_isolated"
   ],
   "note": "Any Wasm code with any use of the host functions of the model. Authority over STX and events: without at-block and started in the outermost transaction (C50_any_code_authority; compiled contracts, well typed or not, are such code: C50_compiled_authority), or for properly nested histories with at-block and nested transactions (C50_authority). Over histories of calls of any compiled contracts by anybody, kept or undone: C50_chain_stx, C50_chain_isolated. Missing: contract-call? and the host functions outside the model, which the model lets fail."
  }
 ]
}