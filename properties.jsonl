{"id": "C01", "title": "Addition is exact or aborts", "statement": "For every pair of Clarity ints (uints) given as two 64-bit halves, running the runtime's addition returns the exact mathematical sum if it lies in the 128-bit signed (unsigned) range, and otherwise aborts the execution with the arithmetic-overflow error code 0; it terminates and changes neither memory nor any other global.", "quantifier": "all 2^256 operand pairs, every memory and global state", "why_tests_cant": "2^256 operand pairs; carries between halves and sign boundary cases cannot be enumerated", "anchors": ["clar2wasm/src/standard/standard.wat: $stdlib.add-int128, $stdlib.add-int, $stdlib.add-uint, $stdlib.runtime-error"]}
{"id": "C02", "title": "Subtraction is exact or aborts", "statement": "For every pair of ints (uints) subtraction returns the exact difference if representable and otherwise aborts with the underflow error code 1.", "quantifier": "all 2^256 operand pairs, every memory and global state", "why_tests_cant": "the borrow/sign corner cases are a vanishing fraction of the operand space", "anchors": ["clar2wasm/src/standard/standard.wat: $stdlib.sub-int128, $stdlib.sub-int, $stdlib.sub-uint"]}
{"id": "C03", "title": "Multiplication is exact or aborts", "statement": "For every pair of ints (uints) multiplication returns the exact product if representable and otherwise aborts with the overflow error code 0.", "quantifier": "all 2^256 operand pairs, every memory and global state", "why_tests_cant": "overflow detection depends on carries of partial products spread over the 256-bit operand space", "anchors": ["clar2wasm/src/standard/standard.wat: $stdlib.mul-int128, $stdlib.mul-uint, $stdlib.mul-int"]}
{"id": "C04", "title": "Division and remainder are exact", "statement": "For every dividend and non-zero divisor, division returns the quotient truncated towards zero and modulo the matching remainder (sign of the dividend); a zero divisor aborts with code 2, and the only unrepresentable quotient, MIN / -1, aborts with code 0.", "quantifier": "all 2^256 operand pairs", "why_tests_cant": "the 128-step shift-subtract loop must be right for every operand pair", "anchors": ["clar2wasm/src/standard/standard.wat: $stdlib.div-int128, $stdlib.div-uint, $stdlib.div-int, $stdlib.mod-uint, $stdlib.mod-int"]}
{"id": "C05", "title": "Integer comparisons are the mathematical order", "statement": "For all ints (uints) the eight comparison functions <, >, <=, >= return 1 exactly when the mathematical relation holds of the 128-bit numbers and 0 otherwise.", "quantifier": "all 2^256 operand pairs", "why_tests_cant": "equal upper halves with arbitrary lower halves, and sign flips, cannot be enumerated", "anchors": ["clar2wasm/src/standard/standard.wat: $stdlib.lt-uint .. $stdlib.ge-int"]}
{"id": "C06", "title": "Byte-sequence comparisons are lexicographic order", "statement": "For any two byte sequences of any length lying in memory, <, >, <=, >= on them decide the lexicographic byte order (a proper prefix is smaller), without reading outside the two sequences and without changing memory.", "quantifier": "all memories, offsets and lengths within memory", "why_tests_cant": "sequences have unbounded length and content", "anchors": ["clar2wasm/src/standard/standard.wat: $stdlib.lt-buff, $stdlib.gt-buff, $stdlib.le-buff, $stdlib.ge-buff"]}
{"id": "C07", "title": "log2 and sqrti are the exact integer functions", "statement": "log2 returns floor(log2 x) for every positive x and aborts with code 3 for x <= 0; sqrti returns the floor square root for every non-negative x and aborts with code 4 for negative x; both terminate.", "quantifier": "all 2^128 operands", "why_tests_cant": "a digit-by-digit loop whose correctness is an invariant over all operands", "anchors": ["clar2wasm/src/standard/standard.wat: $stdlib.log2, $stdlib.log2-uint, $stdlib.log2-int, $stdlib.sqrti-uint, $stdlib.sqrti-int"]}
{"id": "C08", "title": "Exponentiation is exact or aborts", "statement": "pow returns base^exponent exactly whenever that value is representable (with 0^0 = 1), aborts with a runtime error when it is not, and aborts for a negative exponent; it always terminates.", "quantifier": "all 2^256 operand pairs", "why_tests_cant": "square-and-multiply overflow checks interact over the whole operand space", "anchors": ["clar2wasm/src/standard/standard.wat: $stdlib.pow-inner, $stdlib.pow-uint, $stdlib.pow-int"]}
{"id": "C09", "title": "Bitwise operators act bit by bit", "statement": "bit-and, bit-or, bit-xor, bit-not produce the value whose every one of the 128 bits is the boolean operation of the operand bits; shifts move by the shift amount modulo 128, shifting in zeros (left, right on uint) or copies of the sign bit (right on int).", "quantifier": "all operands and shift amounts", "why_tests_cant": "2^256 inputs; the half-crossing shift has a different code path for each of 128 amounts", "anchors": ["clar2wasm/src/standard/standard.wat: $stdlib.bit-and, bit-or, bit-xor, bit-not, bit-shift-left, bit-shift-right-uint, bit-shift-right-int"]}
{"id": "C10", "title": "Integer type conversions preserve value or abort", "statement": "to-uint returns the same number for every non-negative int and aborts otherwise; to-int returns the same number for every uint below 2^127 and aborts otherwise.", "quantifier": "all 2^128 operands", "why_tests_cant": "2^128 inputs", "anchors": ["clar2wasm/src/standard/standard.wat: $stdlib.to-uint, $stdlib.to-int"]}
{"id": "C11", "title": "Buffers convert to the integers they denote", "statement": "For every buffer of at most 16 bytes anywhere in memory, the big-endian (little-endian) conversion returns the number its bytes denote; longer buffers abort with code 5. Memory is unchanged.", "quantifier": "all memories, offsets and lengths", "why_tests_cant": "unbounded memory contents; SIMD masking depends on every length", "anchors": ["clar2wasm/src/standard/standard.wat: $stdlib.buff-to-uint-be, $stdlib.buff-to-uint-le"]}
{"id": "C12", "title": "Integers print in canonical decimal", "statement": "For every int (uint) the string written in memory is exactly its canonical decimal representation (no leading zeros, '-' for negatives), its reported length is right, and no byte outside the written string changes.", "quantifier": "all 2^128 numbers, every target offset", "why_tests_cant": "digit loop over all 2^128 values", "anchors": ["clar2wasm/src/standard/standard.wat: $stdlib.uint-to-string, $stdlib.int-to-string, $stdlib.uint-to-utf8, $stdlib.int-to-utf8"]}
{"id": "C13", "title": "Decimal strings parse to the number they denote or to none", "statement": "For every byte string, string-to-uint (string-to-int) returns some n exactly when the string is a non-empty decimal numeral (optionally preceded by '-' for ints) denoting a representable n, and none otherwise.", "quantifier": "all strings in all memories", "why_tests_cant": "unbounded strings; overflow cut-off at the 39th digit", "anchors": ["clar2wasm/src/standard/standard.wat: $stdlib.string-to-uint, $stdlib.string-to-int, $stdlib.utf8-to-uint, $stdlib.utf8-to-int"]}
{"id": "C14", "title": "Print/parse round trip", "statement": "Parsing the decimal string produced for any int or uint gives back the same number.", "quantifier": "all 2^128 numbers", "why_tests_cant": "2^128 inputs", "anchors": ["clar2wasm/src/standard/standard.wat: $stdlib.uint-to-string, $stdlib.string-to-uint"]}
{"id": "C15", "title": "UTF-8 decoding accepts exactly well-formed UTF-8", "statement": "Converting a byte sequence to a string-utf8 (a sequence of 4-byte big-endian Unicode scalar values) succeeds exactly for well-formed UTF-8 within the maximum length and yields its scalar values in order.", "quantifier": "all byte sequences", "why_tests_cant": "unbounded input; multi-byte boundary cases", "anchors": ["clar2wasm/src/standard/standard.wat: $stdlib.utf8-to-string-utf8"]}
{"id": "C16", "title": "UTF-8 encoding of scalars", "statement": "Converting a sequence of Unicode scalar values to UTF-8 writes exactly the concatenation of their standard encodings and returns the length, for every sequence.", "quantifier": "all scalar sequences", "why_tests_cant": "unbounded sequences", "anchors": ["clar2wasm/src/standard/standard.wat: $stdlib.convert-scalars-to-utf8"]}
{"id": "C17", "title": "ASCII and name validation decide their grammar", "statement": "The ASCII check accepts exactly the sequences of printable/whitespace ASCII bytes allowed by Clarity; the contract-name and clarity-name checks accept exactly the byte strings of the grammar of those names.", "quantifier": "all byte sequences in memory", "why_tests_cant": "unbounded inputs", "anchors": ["clar2wasm/src/standard/standard.wat: $stdlib.is-valid-string-ascii, $stdlib.is-valid-contract-name, $stdlib.check-clarity-name, $stdlib.is-alpha, $stdlib.is-valid-char"]}
{"id": "C18", "title": "Runtime-library calls do not disturb the contract's memory", "statement": "Arithmetic, comparison, conversion and validation functions of the runtime leave the call-stack pointer global and every memory byte outside their designated output area unchanged, whatever the operands.", "quantifier": "all operands, all memories", "why_tests_cant": "a frame property over all states", "anchors": ["clar2wasm/src/standard/standard.wat"]}
{"id": "C19", "title": "Runtime-library calls terminate", "statement": "Every modelled runtime function terminates on every input: it returns or it aborts with a recorded error code, it never loops forever.", "quantifier": "all inputs", "why_tests_cant": "termination is a property of unboundedly many executions", "anchors": ["clar2wasm/src/standard/standard.wat"]}
{"id": "C20", "title": "Runtime-library code is type safe", "statement": "Executing any function of the runtime library with arguments of its declared types never gets stuck on an operand-stack, local, global or label error, and returns values of exactly its declared result types.", "quantifier": "all arguments, memories, globals and executions", "why_tests_cant": "type safety quantifies over every execution", "anchors": ["clar2wasm/src/standard/standard.wat"]}
{"id": "C21", "title": "Host/guest value round trip", "statement": "For every Clarity type and every value of that type, writing the value to linear memory from the host and reading it back at the same type yields the same value, and no byte outside the value's region is changed.", "quantifier": "all types (any nesting) and all values", "why_tests_cant": "unbounded nesting of types", "anchors": ["clar2wasm/src/wasm_utils.rs: write_to_wasm, read_from_wasm, read_from_wasm_indirect, get_type_size, get_type_in_memory_size"]}
{"id": "C22", "title": "Written values fit the reserved space", "statement": "The number of bytes a value of type T occupies when written by the host (representation plus in-memory parts) never exceeds the space computed for T.", "quantifier": "all types and values", "why_tests_cant": "unbounded nesting", "anchors": ["clar2wasm/src/wasm_utils.rs: get_type_size, get_type_in_memory_size, reserve_space*, write_to_wasm"]}
{"id": "C23", "title": "Generated load/store code round trip", "statement": "For every Clarity type, the instructions the compiler emits to store a value from the Wasm stack and those it emits to load it from the same address are inverse, preserve memory outside the value's representation, and take the declared number of bytes.", "quantifier": "all types and all operand values", "why_tests_cant": "unbounded nesting of types; a property of generated code", "anchors": ["clar2wasm/src/wasm_generator.rs: write_to_memory, read_from_memory, save_to_locals, clar2wasm_ty"]}
{"id": "C24", "title": "Arguments and results cross the host boundary unchanged", "statement": "Passing any Clarity value of a declared parameter type into a function and converting the Wasm results back at that type gives the same Clarity value.", "quantifier": "all types and values", "why_tests_cant": "unbounded nesting", "anchors": ["clar2wasm/src/wasm_utils.rs: pass_argument_to_wasm, wasm_to_clarity_value"]}
{"id": "C25", "title": "Runtime error codes are mapped faithfully", "statement": "Every error code the runtime can raise is turned into the documented Clarity error, distinct codes give distinct errors (except that the five cost-overrun codes all become the one cost-overflow error), and an unknown code makes the host panic instead of reporting a wrong error.", "quantifier": "all 2^32 codes", "why_tests_cant": "must hold for all codes", "anchors": ["clar2wasm/src/error_mapping.rs: ErrorMap, resolve_error, handle_runtime_error"]}
{"id": "C26", "title": "Literal memory is laid out without overlap", "statement": "However many literals a contract contains, in whatever order, each literal's bytes are found at the address the compiler returned for it, equal strings, names and byte tables share one address (integer, principal and buffer literals are not shared), and areas reserved later never overlap it.", "quantifier": "all sequences of literal registrations and reservations", "why_tests_cant": "unbounded histories", "anchors": ["clar2wasm/src/wasm_generator.rs: add_clarity_string_literal, add_bytes_literal, add_literal, create_call_stack_local"]}
{"id": "C27", "title": "Argument-count errors report the actual numbers", "statement": "When a runtime argument-count error is raised, the expected and actual counts that reach the user are the numbers of that call, whatever calls were compiled before.", "quantifier": "all histories of compiled calls", "why_tests_cant": "depends on the history of literal registrations", "anchors": ["clar2wasm/src/wasm_utils.rs: check_argument_count", "clar2wasm/src/error_mapping.rs: extract_expected_and_got"]}
{"id": "C28", "title": "Cost charging never loses or creates budget", "statement": "Each charged operation decreases the remaining budget of every cost dimension by exactly its cost function's value, aborts with the dimension's overrun code when the budget is exceeded, and never increases the budget.", "quantifier": "all budgets, input sizes and cost functions", "why_tests_cant": "2^64 budgets and sizes; wrap-around corner cases", "anchors": ["clar2wasm/src/cost.rs: ChargeGenerator, charge, caf_*"]}
{"id": "C29", "title": "Consensus serialization follows SIP-005", "statement": "For every value of every type, the generated serialization code writes exactly the SIP-005 encoding of the value and reports its length.", "quantifier": "all types and values", "why_tests_cant": "unbounded nesting; a property of generated code", "anchors": ["clar2wasm/src/serialize.rs"]}
{"id": "C30", "title": "Consensus deserialization inverts serialization and is safe on any bytes", "statement": "For every type T, the generated deserialization code returns some v on the encoding of any v of T, and never returns some v for bytes that are not an encoding of v, never reads past the buffer.", "quantifier": "all types, all buffers", "why_tests_cant": "all possible (malformed) inputs", "anchors": ["clar2wasm/src/deserialize.rs", "clar2wasm/src/standard/standard.wat: $stdlib.skip-unknown-value"]}
{"id": "C31", "title": "Skipping an unknown serialized value stops at its end", "statement": "Skipping over the encoding of any value moves the offset exactly to the end of that encoding, and bytes that are not an encoding inside the given bounds are rejected.", "quantifier": "all values, all malformed byte strings", "why_tests_cant": "unbounded values", "anchors": ["clar2wasm/src/standard/standard.wat: $stdlib.skip-unknown-value, $stdlib.skip-*"]}
{"id": "C32", "title": "Name lookup in tuples is correct", "statement": "Binary search over a sorted table of names returns the index of the name when present and reports absence otherwise; name comparison is the lexicographic order used to sort them.", "quantifier": "all tables and names", "why_tests_cant": "unbounded tables", "anchors": ["clar2wasm/src/standard/standard.wat: $stdlib.bsearch-clarity-name, $stdlib.compare-clarity-names"]}
{"id": "C33", "title": "Compiled expressions mean what Clarity says", "statement": "For every well-typed expression of the core language (literals, variables, let, begin, if, and/or/not, arithmetic, comparisons, option/response/tuple constructors, unwraps and try), executing the compiled code gives the value, the early return or the runtime error that Clarity's semantics gives.", "quantifier": "all expressions and all variable environments", "why_tests_cant": "an induction over all programs", "anchors": ["clar2wasm/src/wasm_generator.rs: traverse_expr", "clar2wasm/src/words/"]}
{"id": "C34", "title": "Short-circuit boolean operators", "statement": "and / or evaluate their operands left to right and stop at the first deciding one; the value is the conjunction / disjunction, for any number of operands and whatever effects they have.", "quantifier": "all operand lists", "why_tests_cant": "unbounded operand lists with effects", "anchors": ["clar2wasm/src/words/conditionals.rs"]}
{"id": "C35", "title": "Structural equality", "statement": "is-eq compiled for a type T returns true exactly when the two values are equal, for all values of any type.", "quantifier": "all types and pairs of values", "why_tests_cant": "unbounded nesting", "anchors": ["clar2wasm/src/words/equal.rs"]}
{"id": "C36", "title": "Failed public calls leave no trace", "statement": "A public function that returns (err ..), or aborts, leaves the datastore as it was before the call, while one that returns (ok ..) commits exactly its writes, for arbitrary nesting of calls.", "quantifier": "all call trees", "why_tests_cant": "unbounded nesting of calls", "anchors": ["clar2wasm/src/wasm_generator.rs: local_call_public", "clar2wasm/src/linker.rs: link_begin_public_call_fn, link_commit_call_fn, link_roll_back_call_fn"]}
{"id": "C37", "title": "Sequence operations", "statement": "concat, append, slice?, element-at?, replace-at?, index-of?, as-max-len? and len compiled for buffers, strings and lists give the results of the list operations of the same name on all sequences, with none exactly for out-of-range indices.", "quantifier": "all sequences and indices", "why_tests_cant": "unbounded sequences and 2^128 indices", "anchors": ["clar2wasm/src/words/sequences.rs", "clar2wasm/src/words/equal.rs: index-of?"]}
{"id": "C38", "title": "Function calls restore the call stack", "statement": "Whatever path a compiled function leaves by (normal return or early return), the call-stack pointer has the value it had at the call.", "quantifier": "all function bodies and executions", "why_tests_cant": "all paths of all programs", "anchors": ["clar2wasm/src/wasm_generator.rs: traverse_define_function"]}
{"id": "C39", "title": "Principals are constructed exactly from valid parts", "statement": "principal-construct? returns ok for exactly the valid version/hash/name combinations of the network and the documented error otherwise; the principal bytes written are exactly those of the parts. principal-destruct? gives the parts back (as an error for another network) and is-standard says whether the version is the network's.", "quantifier": "all versions, hashes, names", "why_tests_cant": "2^168 inputs and unbounded names", "anchors": ["clar2wasm/src/standard/standard.wat: $stdlib.principal-construct, $stdlib.is-version-valid, $stdlib.is-valid-contract-name", "clar2wasm/src/words/principal.rs"]}
{"id": "C40", "title": "SHA-2 of any message", "statement": "sha256 (sha512) of any byte sequence in memory, and of any int, is the FIPS 180-4 digest of those bytes.", "quantifier": "all messages of any length", "why_tests_cant": "unbounded messages, padding boundary cases", "anchors": ["clar2wasm/src/standard/standard.wat: $stdlib.sha256-buf, $stdlib.sha256-int, $stdlib.sha512-buf, $stdlib.sha512-int"]}
{"id": "C41", "title": "Hash160 of any message", "statement": "hash160 of any byte sequence is RIPEMD-160 of its SHA-256.", "quantifier": "all messages", "why_tests_cant": "unbounded messages", "anchors": ["clar2wasm/src/standard/standard.wat: $stdlib.hash160-buf, $stdlib.hash160-int"]}
{"id": "C42", "title": "Token ledgers conserve supply", "statement": "For any history of mint, burn and transfer operations on a fungible token, the supply equals the sum of balances, never exceeds the declared maximum, and a failing operation changes nothing; every non-fungible asset has at most one owner.", "quantifier": "all histories of operations", "why_tests_cant": "unbounded histories", "anchors": ["clar2wasm/src/linker.rs: link_ft_mint_fn, link_ft_burn_fn, link_ft_transfer_fn, link_nft_*"]}
{"id": "C43", "title": "Execution context is restored", "statement": "as-contract and at-block change the sender, caller and block context for exactly the enclosed expression and restore the previous ones afterwards, for arbitrarily nested uses.", "quantifier": "all nestings", "why_tests_cant": "unbounded nesting", "anchors": ["clar2wasm/src/words/principal.rs", "clar2wasm/src/initialize.rs: ClarityWasmContext push/pop"]}
{"id": "C44", "title": "Trait identifiers survive the host boundary", "statement": "Encoding any trait identifier to bytes and decoding those bytes gives the same identifier.", "quantifier": "all identifiers", "why_tests_cant": "unbounded names", "anchors": ["clar2wasm/src/wasm_utils.rs: trait_identifier_as_bytes, trait_identifier_from_bytes"]}
{"id": "C45", "title": "Data variables and maps behave like variables and maps", "statement": "var-get returns the value last set by var-set (or the initial one); over any sequence of map-set, map-insert and map-delete the returned booleans and map-get? are those of a partial function from keys to values; each operation changes nothing but the addressed variable or entry, and map writes abort in a read-only context.", "quantifier": "all types, keys, values and operation sequences", "why_tests_cant": "unbounded sequences and values", "anchors": ["clar2wasm/src/linker.rs: link_get_variable_fn, link_set_variable_fn, link_map_get_fn, link_map_set_fn, link_map_insert_fn, link_map_delete_fn"]}
{"id": "C46", "title": "Calling a contract function with Clarity values", "statement": "Calling any function of a contract from outside with any values of its parameter types gives the caller the value and the contract state that Clarity prescribes, or the documented runtime error; the call never fails for another reason.", "quantifier": "all contracts, functions, arguments and states", "why_tests_cant": "unbounded programs, values and histories", "anchors": ["clar2wasm/src/wasm_utils.rs: call_function, pass_argument_to_wasm, reserve_space_for_return, wasm_to_clarity_value"]}
{"id": "C47", "title": "Results of calls outlive the frame of the called function", "statement": "After a call of a contract function whose result has parts in memory, all these parts, at any depth, have been copied to the space the caller reserved, whose size is exactly what the type needs; the value is unchanged, and nothing else in memory changes.", "quantifier": "all types, values and layouts", "why_tests_cant": "unbounded types and values", "anchors": ["clar2wasm/src/wasm_generator.rs: visit_call_user_defined", "clar2wasm/src/wasm_generator.rs: copy_value, has_in_memory_type, count_in_memory_space"]}
{"id": "C48", "title": "Comparison, arithmetic, bitwise and parsing words in compiled contracts", "statement": "In a compiled contract, <, <=, >, >= order integers by value and buffers and strings lexicographically; pow, log2, sqrti, bit-and, bit-or, bit-xor (any number of operands), bit-not, the shifts, string-to-int? and string-to-uint? give, on the values of any operand expressions, exactly the mathematical result Clarity prescribes or its runtime error; int-to-ascii and int-to-utf8 give the canonical numeral, sha256, sha512 and hash160 the digest.", "quantifier": "all operand expressions, values, states and memories", "why_tests_cant": "128-bit integers, unbounded strings, any program around the word", "anchors": ["clar2wasm/src/words/comparison.rs", "clar2wasm/src/words/arithmetic.rs: log2, pow, sqrti", "clar2wasm/src/words/bitwise.rs", "clar2wasm/src/words/conversion.rs: StringToInt, StringToUint, IntToAscii, IntToUtf8", "clar2wasm/src/words/hashing.rs: traverse_hash"]}
{"id": "C49", "title": "STX and fungible token words in compiled contracts", "statement": "In a compiled contract, stx-transfer?, stx-transfer-memo?, stx-burn?, ft-mint?, ft-burn?, ft-transfer?, stx-get-balance, ft-get-supply and ft-get-balance, on the values of any operand expressions, read or change exactly the balances, supplies and events Clarity prescribes and give (ok true), or change nothing and give the prescribed error (zero amount, same account, not the sender, too little).", "quantifier": "all operand expressions, amounts, principals, states and memories", "why_tests_cant": "any ledger state, 128-bit amounts, any program around the word", "anchors": ["clar2wasm/src/words/stx.rs: StxGetBalance, StxBurn, StxTransfer, StxTransferMemo", "clar2wasm/src/words/tokens.rs: MintFungibleToken, BurnFungibleToken, TransferFungibleToken, GetSupplyOfFungibleToken, GetBalanceOfFungibleToken", "clar2wasm/src/linker.rs: link_stx_transfer_fn, link_stx_burn_fn, link_ft_mint_fn, link_ft_burn_fn, link_ft_transfer_fn"]}
{"id": "C50", "title": "What the code of a contract cannot do", "statement": "Whatever Wasm code a contract consists of, a call of it, whether it returns or traps, leaves the tokens, balances, owners, variables and maps of every other contract as they were; nobody but the transaction sender and the contract itself loses STX; no STX are made; the events already emitted stay, and those added are the contract's own or about STX paid by the sender or the contract.", "quantifier": "all modules (compiled or written by hand), arguments, states and memories", "why_tests_cant": "any code, unbounded executions, any sequence of host calls", "anchors": ["clar2wasm/src/linker.rs: link_host_functions", "clar2wasm/src/initialize.rs: ClarityWasmContext"]}
