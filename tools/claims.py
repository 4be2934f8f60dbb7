claim("C01", "proved", ["Props.C01_add_uint", "Props.C01_add_int"], "All operands; the outcome includes the whole resulting store.")
claim("C02", "partial", ["Props.C02_sub_int", "Props.C02_sub_uint_partial", "Props.C02_sub_uint_counterexample"],
      "Signed: complete. Unsigned: false as stated; the code misses the underflow when the subtrahend is >= 2^128-2^64 and the low halves borrow (witness proved).")
claim("C03", "partial", ["Props.C03_mul_uint", "Props.C03_mul_int_partial", "Props.C03_mul_int_counterexample"],
      "Unsigned: complete. Signed: false as stated; a product equal to -2^127 is rejected unless one operand is 1 (witness proved).")
claim("C04", "proved", ["Props.C04_div_uint", "Props.C04_mod_uint", "Props.C04_div_int", "Props.C04_mod_int"], "All operands.")
claim("C05", "proved", ["Props.C05_compare_uint", "Props.C05_compare_int"], "All eight functions, all operands.")
claim("C07", "proved", ["Props.C07_log2_uint", "Props.C07_log2_int", "Props.C07_sqrti_uint", "Props.C07_sqrti_int"], "All operands.")
claim("C08", "partial", ["Props.C08_pow_uint", "Props.C08_pow_int_partial", "Props.C08_pow_int_counterexample"],
      "Unsigned: complete. Signed: false for base -1 with exponent above 127 (witness proved); complete otherwise.")
claim("C09", "proved", ["Props.C09_bitwise_uint", "Props.C09_bitwise_int", "Props.C09_shifts"], "All operands, all bits.")
claim("C10", "proved", ["Props.C10_to_uint", "Props.C10_to_int"], "All operands.")
claim("C06", "proved", ["Props.C06_compare_bytes", "Props.lexLt_iff"], "All memories, offsets and lengths within memory; the store is unchanged.")
claim("C11", "partial", ["Props.C11_buff_to_uint_le_partial", "Props.C11_buff_to_uint_be_partial", "Props.C11_buff_to_uint_le_counterexample"],
      "Needs 16 readable bytes from the start (le) or before the end (be) of the buffer; otherwise the code traps (witness proved).")
claim("C13", "partial", ["Props.C13_string_to_uint_partial", "Props.C13_string_to_int_partial", "Props.C13_utf8_to_uint_partial", "Props.C13_utf8_to_int_partial", "Props.C13_string_to_uint_counterexample", "Props.C13_string_to_uint_long"],
      "False as stated in two ways, both proved of the code: 39-digit numerals >= 2^128 ending in 0..5 parse to a number, and numerals longer than 39 characters (leading zeros) are rejected. Right for all other strings.")
claim("C12", "proved", ["Props.C12_uint_to_string", "Props.C12_int_to_string", "Props.C12_uint_to_utf8", "Props.C12_int_to_utf8", "Props.decStr_canonical", "Props.decStr_unique"],
      "All integers, all memories and result offsets (one character past address 0, end below 4 GiB); bytes outside the string unchanged.")
claim("C14", "proved", ["Props.C14_uint_string", "Props.C14_int_string", "Props.C14_uint_utf8", "Props.C14_int_utf8"], "All integers; the parser runs on the printer's results in the printer's store.")
claim("C17", "partial", ["Props.C17_string_ascii", "Props.C17_clarity_name", "Props.C17_contract_name_partial", "Props.C17_contract_name_counterexample"],
      "ASCII and clarity names: complete. Contract names: complete except that an 11-byte string within 5 bytes of the end of memory that does not start with a letter makes the check trap (witness proved).")
claim("C32", "proved", ["Props.C32_compare_names", "Props.C32_bsearch"], "All tables of strictly increasing non-empty names, all non-empty names, all memories.")
claim("C15", "proved", ["Props.C15_decode", "Props.isUtf8_unique", "Props.C15_truncated_counterexample"],
      "Success exactly on well-formed UTF-8 within the limit, for all byte sequences (input and output areas in memory, disjoint, memory below 4 GiB). Failure is none, except that a sequence truncated at the end of memory traps (witness proved).")
claim("C16", "proved", ["Props.C16_encode"], "All sequences of code points, all memories; input and output areas disjoint.")
claim("C21", "partial", ["Props.C21_write_read_partial", "Props.C21_trait_write_fails"],
      "All types without traits inside, all values, all addresses and memories with room. Types with a trait (CallableType) inside: writing is proved to fail always, so the property is false there.")
claim("C22", "proved", ["Props.C22_written_fits", "Props.C22_no_repr_too_small"],
      "All types and values, every successful write with representation, whatever the addresses. The size computed with include_repr=false is too small for nested in-memory types (witness proved).")
claim("C23", "proved", ["Props.C23_store_load", "Props.C23_sizes", "Props.C23_exact", "Props.C23_locals"],
      "All types, operands, addresses, fresh-local numbers. A NoType position (a placeholder that carries no value) is loaded as zero whatever was stored; every other position is restored exactly (C23_exact: types without NoType round-trip exactly).")
claim("C24", "partial", ["Props.C24_arguments_partial", "Props.C24_list_of_traits_rejected", "Props.C24_none_trait_ref_panics"],
      "Any number of arguments of all types without trait references and without traits inside lists. Lists of traits are always rejected, optional trait references panic (both proved).")
claim("C18", "proved", ["Props.C18_pure", "Props.C18_skip", "Props.C18_writing", "Props.C12_uint_to_string", "Props.C12_int_to_string", "Props.C15_decode", "Props.C16_encode"],
      "All executions, any arguments, by soundness of a static analysis; functions without output area leave the whole store unchanged, the others leave all globals unchanged (their output areas are in C12, C15, C16).")
claim("C20", "proved", ["Props.C20_std_type_safe", "Props.C20_user_type_safe"],
      "Soundness of a validator for the whole Wasm subset, and the kernel's evaluation of the validator on all functions of standard.wat.")
claim("C25", "proved", ["Props.C25_documented", "Props.C25_distinct", "Props.C25_runtime", "Props.C25_with_data", "Props.C25_unknown_panics", "Props.C25_cost_merged"],
      "All stores and all runtime functions. The five cost codes map to one error and unknown codes make the host panic (both proved; the statement says so).")
claim("C26", "proved", ["Props.C26_found", "Props.C26_std_data", "Props.C26_reserved_disjoint", "Props.C26_shared", "Props.C26_memory", "Props.C26_buff_not_shared"],
      "All sequences of literals, as long as the literal memory ends below 4 GiB. Names must not start with a double quote.")
claim("C27", "partial", ["Props.C27_counts_partial", "Props.C27_counterexample"],
      "Right when the two numbers were not used as byte literals before; false otherwise (witness proved: the second failing call reports the first one's count).")
claim("C28", "partial", ["Props.C28_charge_partial", "Props.C28_overrun_partial", "Props.C28_tables", "Props.C28_big_budget_counterexample", "Props.C28_log_zero_counterexample"],
      "All cost functions, factors and budgets below 2^63, except logarithmic costs at factor 0; witnesses proved for budgets >= 2^63 (abort although enough) and for log at 0 (budget grows).")
claim("C29", "proved", ["Props.C29_serialize", "Props.C29_size", "Props.C29_to_consensus_buff"],
      "All well-formed types and values of any size and depth, all memories (below 4 GiB, with room for the encoding), any stack. C29_to_consensus_buff: inside any well-typed contract of the modelled language.")
claim("C30", "partial", ["Props.C30_reads_back", "Props.C30_rejects_partial", "Props.C30_from_consensus_buff", "Props.C30_from_consensus_buff_none_partial", "Props.C30_round_trip", "Props.C30_counterexample_principal"],
      "All types built from integers, booleans, principals, buffers, strings, lists, optionals and responses; all bytes, all memories (below 4 GiB, with the room the compiler reserves). Rejection is for types without principals: a standard principal with any version byte and a contract principal with an empty name are accepted (witness proved). Missing: tuples.")
claim("C19", "partial", ["Props.C19_terminates_partial", "Props.C19_counterexample_skip"],
      "88 of the 101 functions, all arguments and states, by a termination calculus proved sound for the interpreter. False for skip-unknown-value: on 14 given bytes (a tuple with a negative-length buffer inside) it never ends, proved. The other ten end on the operands the compiler passes (C12, C13, C16, C40, C41).")
claim("C31", "partial", ["Props.C31_skip_partial", "Props.C31_one_end", "Props.C31_unknown_prefix", "Props.C31_integer", "Props.C31_counterexample_truncated", "Props.C31_counterexample_wrap"],
      "Skipping the encoding of any value of any size and depth stops at its end (skip_list is a host function, its contract is a hypothesis, satisfiable). Rejection of malformed bytes is false: a truncated some and a buffer of length 2^32-1 are accepted (witnesses proved); unknown prefixes and truncated integers are rejected (proved).")
claim("C44", "proved", ["Props.C44_encode_decode", "Props.C44_decode_encode"], "All valid trait identifiers, both directions.")
claim("C42", "partial", ["Props.C42_ledgers_balance", "Props.C42_abort_changes_nothing", "Props.C42_err_changes_nothing", "Props.C42_ft_mint", "Props.C42_ft_burn", "Props.C42_ft_transfer", "Props.C42_stx_transfer", "Props.C42_stx_burn", "Props.C42_declared_max_partial", "Props.C42_declared_max_counterexample", "Props.C42_nft_mint_partial", "Props.C42_nft_transfer_partial", "Props.C42_nft_burn_partial", "Props.C42_nft_ok_counterexample", "Props.C42_any_code", "Props.C42_compiled", "Props.C42_chain"],
      "All histories: ledgers balanced, supply within the recorded maximum, failures change nothing. False as stated: a declared maximum whose low half is >= 2^63 is recorded as a much larger one (witness proved); successful NFT operations return 132 instead of true (witness proved).")
claim("C45", "partial", ["Props.C45_map_op", "Props.C45_map_history", "Props.C45_map_read_only", "Props.C45_map_get_partial", "Props.C45_var_partial", "Props.C45_var_set", "Props.C45_any_code_typed", "Props.C45_chain_typed", "Props.C45_chain_ready", "Props.C45_define_var", "Props.C45_define_map", "Props.C45_define_nft", "Props.C45_init", "Props.C45_deployed"],
      "All histories; whatever code runs, variables, maps and tokens keep existing with contents of their declared types (C45_any_code_typed), through any history of calls of any compiled contracts (C45_chain_typed), and from the initialisation of the contract on (C45_deployed). Reading back excludes value types containing traits (the host cannot write them, C21).")
claim("C33", "partial", ["Props.C33_compiled_functions_partial", "Props.C33_asserts_counterexample", "Props.C33_nary_counterexample", "Props.C33_try_counterexample", "Props.C33_let_none_counterexample"],
      "All contracts in the modelled language (literals, variables, let, begin, if, and/or/not, arithmetic, bitwise words, comparisons, parsing of numerals, constructors, unwraps, try, match, tuples, data variables, maps, calls, sequence words with fold, filter and map, as-contract), all arguments, states, memories. Four constructs are miscompiled, each proved by a witness (eager asserts!, interleaved variadic operands, try! of an optional in a function with another optional type, let-bound none) and excluded; nothing is claimed on the operands where the library deviates (C02, C03).")
claim("C34", "proved", ["Props.C34_any_operands", "Props.C34_short_circuit"],
      "C34_any_operands: any operands, typed or not, any host, on executions of the operands' codes. C34_short_circuit: the same against the Clarity semantics for well-typed contracts.")
claim("C35", "proved", ["Props.C35_comparison", "Props.C35_is_eq"],
      "All types without trait references (for those the compiler refuses is-eq), values of any size and depth, any number of operands. Operands on which the library deviates (C02, C03) give no value and are outside C35_is_eq.")
claim("C36", "partial", ["Props.C36_calls_partial", "Props.C36_commit_keeps", "Props.C43_roll_back_no_trace"],
      "Calls inside a contract, to any depth, and the host's transactions for any nested history. Any well-formed return type, with the copying of results. Missing: contract-call? to other contracts.")
claim("C37", "partial", ["Props.C37_len", "Props.C37_as_max_len", "Props.C37_element_at", "Props.C37_slice_partial", "Props.C37_index_of_partial", "Props.C37_list", "Props.C37_append", "Props.C37_concat_partial", "Props.C37_replace_at_partial", "Props.C37_replace_at_empty", "Props.C37_slice_counterexample", "Props.C37_index_of_counterexample", "Props.C37_replace_at_counterexample", "Props.C37_fold_partial", "Props.C37_fold_error_partial", "Props.C37_fold_sum", "Props.C37_fold_bools", "Props.C37_filter_partial", "Props.C37_map_partial", "Props.C37_fold_counterexample", "Props.C37_filter_counterexample", "Props.C37_map_counterexample"],
      "All sequence types within the limits of Clarity, all sequences, all indices below 2^128. slice? with a left position from 2^32 on, index-of? on an empty sequence with an item that has effects, and replace-at? of an empty string out of range deviate (proved). concat: given that the result has the type the type checker computed. fold, filter and map with functions of the contract, fold and map with built-in words too, results without parts in memory. False as stated, witnesses proved: fold with an accumulator in memory, filter of an empty sequence, map over a first list that gets a made-up type. Missing: built-in words in filter and words that need working memory, read-only functions in filter, results of map in memory.")
claim("C38", "proved", ["Props.C38_stack_pointer"],
      "Every function definition of the modelled language, typed or not, every host, every execution that returns.")
claim("C43", "partial", ["Props.C43_context_restored", "Props.C43_as_contract_inside", "Props.C43_at_block_inside", "Props.C43_at_block_var_get", "Props.C43_at_block_no_trace", "Props.C43_roll_back_no_trace", "Props.C43_as_contract_partial", "Props.C43_early_return_counterexample", "Props.C43_nested_at_block_counterexample"],
      "All properly nested histories of host calls, and the generated code of as-contract around any well-typed expression that does not leave early. False as stated twice, witnesses proved: an early return inside as-contract leaves the contract as sender; after an inner at-block the outer one reads the current state.")
claim("C46", "partial", ["Props.C46_call_from_outside_partial", "Props.C46_history_partial", "Props.C46_history_typed_partial", "Props.C46_from_deployment_partial", "Props.C46_room", "Props.C46_no_room_counterexample"],
      "All contracts of the modelled language, all arguments and states, single calls and histories of any number of calls (same answers, errors, final state and events; every answer and stored value of its declared type), provided the instance's memory has room for the arguments. False without: the memory of a module is sized from its literals, frames and work spaces only and never grown for the arguments (witness proved).")
claim("C47", "proved", ["Props.C47_copies_result", "Props.countSpace_eq"],
      "All types, values and places; used by C33 and C36 for calls inside compiled functions.")
claim("C48", "partial", ["Props.C48_compare", "Props.C48_pow_uint", "Props.C48_pow_int_partial", "Props.C48_log2", "Props.C48_sqrti", "Props.C48_shifts", "Props.C48_bit_not", "Props.C48_bits", "Props.C48_bits_determine", "Props.C48_string_to_uint_partial", "Props.C48_string_to_int_partial", "Props.C48_int_to_ascii", "Props.C48_int_to_utf8", "Props.C48_sha256", "Props.C48_sha512", "Props.C48_hash160_partial"],
      "All operand expressions of the modelled language, all values. Excluded: the operands on which the library deviates (base -1 with exponents above 127, C08; long and some 39-digit numerals, C13), and string-to-int? of the empty string and of more than 39 characters. sha256 and sha512 need only the work space that the compiler reserves; hash160 needs more (C41).")
claim("C40", "proved", ["Props.C40_sha256_buf", "Props.C40_sha256_uint", "Props.C40_sha256_int", "Props.C40_sha512_buf", "Props.C40_sha512_uint", "Props.C40_sha512_int"],
      "All messages (up to the 2^29 bytes whose bit count fits the code's 32-bit shift; Clarity's limit is 2^20) and all integers, with the space the compiler reserves; also that nothing but the result and the reserved space changes. Specification: FIPS 180-4, constants checked against roots of primes.")
claim("C41", "partial", ["Props.C41_hash160_buf_partial", "Props.C41_hash160_uint_partial", "Props.C41_hash160_int_partial", "Props.C41_no_room_counterexample"],
      "All messages and integers, given l+392 (386) bytes above the stack pointer. The compiler reserves only l+361: witness proved that hash160 then traps when the memory ends there.")
claim("C39", "partial", ["Props.C39_construct_partial", "Props.C39_ok_iff", "Props.C39_is_standard", "Props.C39_destruct", "Props.C39_round_trip"],
      "All versions, hashes and names, both networks, any memory. Missing: operands within 5 bytes of the end of the memory, where the check of an 11-character name can trap (C17_contract_name_counterexample).")
claim("C50", "partial", ["Props.C50_any_code_isolated", "Props.C50_any_code_authority", "Props.C50_compiled_authority", "Props.C50_authority", "Props.C50_chain_stx", "Props.C50_chain_isolated"],
      "Any Wasm code with any use of the host functions of the model. Authority over STX and events: without at-block and started in the outermost transaction (C50_any_code_authority; compiled contracts, well typed or not, are such code: C50_compiled_authority), or for properly nested histories with at-block and nested transactions (C50_authority). Over histories of calls of any compiled contracts by anybody, kept or undone: C50_chain_stx, C50_chain_isolated. Missing: contract-call? and the host functions outside the model, which the model lets fail.")
claim("C49", "partial", ["Props.C49_stx_transfer", "Props.C49_stx_transfer_memo", "Props.C49_stx_burn", "Props.C49_ft_mint_partial", "Props.C49_ft_burn", "Props.C49_ft_transfer", "Props.C49_ft_reads", "Props.C49_stx_get_balance"],
      "For every ledger that adds up (C42), through the code of any operand expressions, host calls included. Missing: minting beyond the maximal supply (aborts the transaction; C42 says so for the host call), locked STX, stx-account and the nft words in compiled code.")
