#!/usr/bin/env python3
"""Writes ../properties.jsonl. Source of truth for the property list."""
import json, os
P = []
W = "clar2wasm/src/standard/standard.wat"
def p(title, statement, quantifier, why, anchors):
    P.append(dict(id="C%02d" % (len(P)+1), title=title, statement=statement,
                  quantifier=quantifier, why_tests_cant=why, anchors=anchors))

p("Addition is exact or aborts",
  "For every pair of Clarity ints (uints) given as two 64-bit halves, running the runtime's addition returns the exact mathematical sum if it lies in the 128-bit signed (unsigned) range, and otherwise aborts the execution with the arithmetic-overflow error code 0; it terminates and changes neither memory nor any other global.",
  "all 2^256 operand pairs, every memory and global state",
  "2^256 operand pairs; carries between halves and sign boundary cases cannot be enumerated",
  [W+": $stdlib.add-int128, $stdlib.add-int, $stdlib.add-uint, $stdlib.runtime-error"])
p("Subtraction is exact or aborts",
  "For every pair of ints (uints) subtraction returns the exact difference if representable and otherwise aborts with the underflow error code 1.",
  "all 2^256 operand pairs, every memory and global state",
  "the borrow/sign corner cases are a vanishing fraction of the operand space",
  [W+": $stdlib.sub-int128, $stdlib.sub-int, $stdlib.sub-uint"])
p("Multiplication is exact or aborts",
  "For every pair of ints (uints) multiplication returns the exact product if representable and otherwise aborts with the overflow error code 0.",
  "all 2^256 operand pairs, every memory and global state",
  "overflow detection depends on carries of partial products spread over the 256-bit operand space",
  [W+": $stdlib.mul-int128, $stdlib.mul-uint, $stdlib.mul-int"])
p("Division and remainder are exact",
  "For every dividend and non-zero divisor, division returns the quotient truncated towards zero and modulo the matching remainder (sign of the dividend); a zero divisor aborts with code 2, and the only unrepresentable quotient, MIN / -1, aborts with code 0.",
  "all 2^256 operand pairs",
  "the 128-step shift-subtract loop must be right for every operand pair",
  [W+": $stdlib.div-int128, $stdlib.div-uint, $stdlib.div-int, $stdlib.mod-uint, $stdlib.mod-int"])
p("Integer comparisons are the mathematical order",
  "For all ints (uints) the eight comparison functions <, >, <=, >= return 1 exactly when the mathematical relation holds of the 128-bit numbers and 0 otherwise.",
  "all 2^256 operand pairs",
  "equal upper halves with arbitrary lower halves, and sign flips, cannot be enumerated",
  [W+": $stdlib.lt-uint .. $stdlib.ge-int"])
p("Byte-sequence comparisons are lexicographic order",
  "For any two byte sequences of any length lying in memory, <, >, <=, >= on them decide the lexicographic byte order (a proper prefix is smaller), without reading outside the two sequences and without changing memory.",
  "all memories, offsets and lengths within memory",
  "sequences have unbounded length and content",
  [W+": $stdlib.lt-buff, $stdlib.gt-buff, $stdlib.le-buff, $stdlib.ge-buff"])
p("log2 and sqrti are the exact integer functions",
  "log2 returns floor(log2 x) for every positive x and aborts with code 3 for x <= 0; sqrti returns the floor square root for every non-negative x and aborts with code 4 for negative x; both terminate.",
  "all 2^128 operands",
  "a digit-by-digit loop whose correctness is an invariant over all operands",
  [W+": $stdlib.log2, $stdlib.log2-uint, $stdlib.log2-int, $stdlib.sqrti-uint, $stdlib.sqrti-int"])
p("Exponentiation is exact or aborts",
  "pow returns base^exponent exactly whenever that value is representable (with 0^0 = 1), aborts with a runtime error when it is not, and aborts for a negative exponent; it always terminates.",
  "all 2^256 operand pairs",
  "square-and-multiply overflow checks interact over the whole operand space",
  [W+": $stdlib.pow-inner, $stdlib.pow-uint, $stdlib.pow-int"])
p("Bitwise operators act bit by bit",
  "bit-and, bit-or, bit-xor, bit-not produce the value whose every one of the 128 bits is the boolean operation of the operand bits; shifts move by the shift amount modulo 128, shifting in zeros (left, right on uint) or copies of the sign bit (right on int).",
  "all operands and shift amounts",
  "2^256 inputs; the half-crossing shift has a different code path for each of 128 amounts",
  [W+": $stdlib.bit-and, bit-or, bit-xor, bit-not, bit-shift-left, bit-shift-right-uint, bit-shift-right-int"])
p("Integer type conversions preserve value or abort",
  "to-uint returns the same number for every non-negative int and aborts otherwise; to-int returns the same number for every uint below 2^127 and aborts otherwise.",
  "all 2^128 operands", "2^128 inputs",
  [W+": $stdlib.to-uint, $stdlib.to-int"])
p("Buffers convert to the integers they denote",
  "For every buffer of at most 16 bytes anywhere in memory, the big-endian (little-endian) conversion returns the number its bytes denote; longer buffers abort with code 5. Memory is unchanged.",
  "all memories, offsets and lengths", "unbounded memory contents; SIMD masking depends on every length",
  [W+": $stdlib.buff-to-uint-be, $stdlib.buff-to-uint-le"])
p("Integers print in canonical decimal",
  "For every int (uint) the string written in memory is exactly its canonical decimal representation (no leading zeros, '-' for negatives), its reported length is right, and no byte outside the written string changes.",
  "all 2^128 numbers, every target offset", "digit loop over all 2^128 values",
  [W+": $stdlib.uint-to-string, $stdlib.int-to-string, $stdlib.uint-to-utf8, $stdlib.int-to-utf8"])
p("Decimal strings parse to the number they denote or to none",
  "For every byte string, string-to-uint (string-to-int) returns some n exactly when the string is a non-empty decimal numeral (optionally preceded by '-' for ints) denoting a representable n, and none otherwise.",
  "all strings in all memories", "unbounded strings; overflow cut-off at the 39th digit",
  [W+": $stdlib.string-to-uint, $stdlib.string-to-int, $stdlib.utf8-to-uint, $stdlib.utf8-to-int"])
p("Print/parse round trip",
  "Parsing the decimal string produced for any int or uint gives back the same number.",
  "all 2^128 numbers", "2^128 inputs",
  [W+": $stdlib.uint-to-string, $stdlib.string-to-uint"])
p("UTF-8 decoding accepts exactly well-formed UTF-8",
  "Converting a byte sequence to a string-utf8 (a sequence of 4-byte big-endian Unicode scalar values) succeeds exactly for well-formed UTF-8 within the maximum length and yields its scalar values in order.",
  "all byte sequences", "unbounded input; multi-byte boundary cases",
  [W+": $stdlib.utf8-to-string-utf8"])
p("UTF-8 encoding of scalars",
  "Converting a sequence of Unicode scalar values to UTF-8 writes exactly the concatenation of their standard encodings and returns the length, for every sequence.",
  "all scalar sequences", "unbounded sequences",
  [W+": $stdlib.convert-scalars-to-utf8"])
p("ASCII and name validation decide their grammar",
  "The ASCII check accepts exactly the sequences of printable/whitespace ASCII bytes allowed by Clarity; the contract-name and clarity-name checks accept exactly the byte strings of the grammar of those names.",
  "all byte sequences in memory", "unbounded inputs",
  [W+": $stdlib.is-valid-string-ascii, $stdlib.is-valid-contract-name, $stdlib.check-clarity-name, $stdlib.is-alpha, $stdlib.is-valid-char"])
p("Runtime-library calls do not disturb the contract's memory",
  "Arithmetic, comparison, conversion and validation functions of the runtime leave the call-stack pointer global and every memory byte outside their designated output area unchanged, whatever the operands.",
  "all operands, all memories", "a frame property over all states",
  [W])
p("Runtime-library calls terminate",
  "Every modelled runtime function terminates on every input: it returns or it aborts with a recorded error code, it never loops forever.",
  "all inputs", "termination is a property of unboundedly many executions",
  [W])
p("Runtime-library code is type safe",
  "Executing any function of the runtime library with arguments of its declared types never gets stuck on an operand-stack, local, global or label error, and returns values of exactly its declared result types.",
  "all arguments, memories, globals and executions", "type safety quantifies over every execution",
  [W])
p("Host/guest value round trip",
  "For every Clarity type and every value of that type, writing the value to linear memory from the host and reading it back at the same type yields the same value, and no byte outside the value's region is changed.",
  "all types (any nesting) and all values", "unbounded nesting of types",
  ["clar2wasm/src/wasm_utils.rs: write_to_wasm, read_from_wasm, read_from_wasm_indirect, get_type_size, get_type_in_memory_size"])
p("Written values fit the reserved space",
  "The number of bytes a value of type T occupies when written by the host (representation plus in-memory parts) never exceeds the space computed for T.",
  "all types and values", "unbounded nesting",
  ["clar2wasm/src/wasm_utils.rs: get_type_size, get_type_in_memory_size, reserve_space*, write_to_wasm"])
p("Generated load/store code round trip",
  "For every Clarity type, the instructions the compiler emits to store a value from the Wasm stack and those it emits to load it from the same address are inverse, preserve memory outside the value's representation, and take the declared number of bytes.",
  "all types and all operand values", "unbounded nesting of types; a property of generated code",
  ["clar2wasm/src/wasm_generator.rs: write_to_memory, read_from_memory, save_to_locals, clar2wasm_ty"])
p("Arguments and results cross the host boundary unchanged",
  "Passing any Clarity value of a declared parameter type into a function and converting the Wasm results back at that type gives the same Clarity value.",
  "all types and values", "unbounded nesting",
  ["clar2wasm/src/wasm_utils.rs: pass_argument_to_wasm, wasm_to_clarity_value"])
p("Runtime error codes are mapped faithfully",
  "Every error code the runtime can raise is turned into the documented Clarity error, distinct codes give distinct errors (except that the five cost-overrun codes all become the one cost-overflow error), and an unknown code makes the host panic instead of reporting a wrong error.",
  "all 2^32 codes", "must hold for all codes",
  ["clar2wasm/src/error_mapping.rs: ErrorMap, resolve_error, handle_runtime_error"])
p("Literal memory is laid out without overlap",
  "However many literals a contract contains, in whatever order, each literal's bytes are found at the address the compiler returned for it, equal strings, names and byte tables share one address (integer, principal and buffer literals are not shared), and areas reserved later never overlap it.",
  "all sequences of literal registrations and reservations", "unbounded histories",
  ["clar2wasm/src/wasm_generator.rs: add_clarity_string_literal, add_bytes_literal, add_literal, create_call_stack_local"])
p("Argument-count errors report the actual numbers",
  "When a runtime argument-count error is raised, the expected and actual counts that reach the user are the numbers of that call, whatever calls were compiled before.",
  "all histories of compiled calls", "depends on the history of literal registrations",
  ["clar2wasm/src/wasm_utils.rs: check_argument_count", "clar2wasm/src/error_mapping.rs: extract_expected_and_got"])
p("Cost charging never loses or creates budget",
  "Each charged operation decreases the remaining budget of every cost dimension by exactly its cost function's value, aborts with the dimension's overrun code when the budget is exceeded, and never increases the budget.",
  "all budgets, input sizes and cost functions", "2^64 budgets and sizes; wrap-around corner cases",
  ["clar2wasm/src/cost.rs: ChargeGenerator, charge, caf_*"])
p("Consensus serialization follows SIP-005",
  "For every value of every type, the generated serialization code writes exactly the SIP-005 encoding of the value and reports its length.",
  "all types and values", "unbounded nesting; a property of generated code",
  ["clar2wasm/src/serialize.rs"])
p("Consensus deserialization inverts serialization and is safe on any bytes",
  "For every type T, the generated deserialization code returns some v on the encoding of any v of T, and never returns some v for bytes that are not an encoding of v, never reads past the buffer.",
  "all types, all buffers", "all possible (malformed) inputs",
  ["clar2wasm/src/deserialize.rs", W+": $stdlib.skip-unknown-value"])
p("Skipping an unknown serialized value stops at its end",
  "Skipping over the encoding of any value moves the offset exactly to the end of that encoding, and bytes that are not an encoding inside the given bounds are rejected.",
  "all values, all malformed byte strings", "unbounded values",
  [W+": $stdlib.skip-unknown-value, $stdlib.skip-*"])
p("Name lookup in tuples is correct",
  "Binary search over a sorted table of names returns the index of the name when present and reports absence otherwise; name comparison is the lexicographic order used to sort them.",
  "all tables and names", "unbounded tables",
  [W+": $stdlib.bsearch-clarity-name, $stdlib.compare-clarity-names"])
p("Compiled expressions mean what Clarity says",
  "For every well-typed expression of the core language (literals, variables, let, begin, if, and/or/not, arithmetic, comparisons, option/response/tuple constructors, unwraps and try), executing the compiled code gives the value, the early return or the runtime error that Clarity's semantics gives.",
  "all expressions and all variable environments", "an induction over all programs",
  ["clar2wasm/src/wasm_generator.rs: traverse_expr", "clar2wasm/src/words/"])
p("Short-circuit boolean operators",
  "and / or evaluate their operands left to right and stop at the first deciding one; the value is the conjunction / disjunction, for any number of operands and whatever effects they have.",
  "all operand lists", "unbounded operand lists with effects",
  ["clar2wasm/src/words/conditionals.rs"])
p("Structural equality",
  "is-eq compiled for a type T returns true exactly when the two values are equal, for all values of any type.",
  "all types and pairs of values", "unbounded nesting",
  ["clar2wasm/src/words/equal.rs"])
p("Failed public calls leave no trace",
  "A public function that returns (err ..), or aborts, leaves the datastore as it was before the call, while one that returns (ok ..) commits exactly its writes, for arbitrary nesting of calls.",
  "all call trees", "unbounded nesting of calls",
  ["clar2wasm/src/wasm_generator.rs: local_call_public", "clar2wasm/src/linker.rs: link_begin_public_call_fn, link_commit_call_fn, link_roll_back_call_fn"])
p("Sequence operations",
  "concat, append, slice?, element-at?, replace-at?, index-of?, as-max-len? and len compiled for buffers, strings and lists give the results of the list operations of the same name on all sequences, with none exactly for out-of-range indices.",
  "all sequences and indices", "unbounded sequences and 2^128 indices",
  ["clar2wasm/src/words/sequences.rs", "clar2wasm/src/words/equal.rs: index-of?"])
p("Function calls restore the call stack",
  "Whatever path a compiled function leaves by (normal return or early return), the call-stack pointer has the value it had at the call.",
  "all function bodies and executions", "all paths of all programs",
  ["clar2wasm/src/wasm_generator.rs: traverse_define_function"])
p("Principals are constructed exactly from valid parts",
  "principal-construct? returns ok for exactly the valid version/hash/name combinations of the network and the documented error otherwise; the principal bytes written are exactly those of the parts. principal-destruct? gives the parts back (as an error for another network) and is-standard says whether the version is the network's.",
  "all versions, hashes, names", "2^168 inputs and unbounded names",
  [W+": $stdlib.principal-construct, $stdlib.is-version-valid, $stdlib.is-valid-contract-name", "clar2wasm/src/words/principal.rs"])
p("SHA-2 of any message",
  "sha256 (sha512) of any byte sequence in memory, and of any int, is the FIPS 180-4 digest of those bytes.",
  "all messages of any length", "unbounded messages, padding boundary cases",
  [W+": $stdlib.sha256-buf, $stdlib.sha256-int, $stdlib.sha512-buf, $stdlib.sha512-int"])
p("Hash160 of any message",
  "hash160 of any byte sequence is RIPEMD-160 of its SHA-256.",
  "all messages", "unbounded messages",
  [W+": $stdlib.hash160-buf, $stdlib.hash160-int"])
p("Token ledgers conserve supply",
  "For any history of mint, burn and transfer operations on a fungible token, the supply equals the sum of balances, never exceeds the declared maximum, and a failing operation changes nothing; every non-fungible asset has at most one owner.",
  "all histories of operations", "unbounded histories",
  ["clar2wasm/src/linker.rs: link_ft_mint_fn, link_ft_burn_fn, link_ft_transfer_fn, link_nft_*"])
p("Execution context is restored",
  "as-contract and at-block change the sender, caller and block context for exactly the enclosed expression and restore the previous ones afterwards, for arbitrarily nested uses.",
  "all nestings", "unbounded nesting",
  ["clar2wasm/src/words/principal.rs", "clar2wasm/src/initialize.rs: ClarityWasmContext push/pop"])
p("Trait identifiers survive the host boundary",
  "Encoding any trait identifier to bytes and decoding those bytes gives the same identifier.",
  "all identifiers", "unbounded names",
  ["clar2wasm/src/wasm_utils.rs: trait_identifier_as_bytes, trait_identifier_from_bytes"])
p("Data variables and maps behave like variables and maps",
  "var-get returns the value last set by var-set (or the initial one); over any sequence of map-set, map-insert and map-delete the returned booleans and map-get? are those of a partial function from keys to values; each operation changes nothing but the addressed variable or entry, and map writes abort in a read-only context.",
  "all types, keys, values and operation sequences", "unbounded sequences and values",
  ["clar2wasm/src/linker.rs: link_get_variable_fn, link_set_variable_fn, link_map_get_fn, link_map_set_fn, link_map_insert_fn, link_map_delete_fn"])
p("Calling a contract function with Clarity values",
  "Calling any function of a contract from outside with any values of its parameter types gives the caller the value and the contract state that Clarity prescribes, or the documented runtime error; the call never fails for another reason.",
  "all contracts, functions, arguments and states", "unbounded programs, values and histories",
  ["clar2wasm/src/wasm_utils.rs: call_function, pass_argument_to_wasm, reserve_space_for_return, wasm_to_clarity_value"])

p("Results of calls outlive the frame of the called function",
  "After a call of a contract function whose result has parts in memory, all these parts, at any depth, have been copied to the space the caller reserved, whose size is exactly what the type needs; the value is unchanged, and nothing else in memory changes.",
  "all types, values and layouts", "unbounded types and values",
  ["clar2wasm/src/wasm_generator.rs: visit_call_user_defined", "clar2wasm/src/wasm_generator.rs: copy_value, has_in_memory_type, count_in_memory_space"])
p("Comparison, arithmetic, bitwise and parsing words in compiled contracts",
  "In a compiled contract, <, <=, >, >= order integers by value and buffers and strings lexicographically; pow, log2, sqrti, bit-and, bit-or, bit-xor (any number of operands), bit-not, the shifts, string-to-int? and string-to-uint? give, on the values of any operand expressions, exactly the mathematical result Clarity prescribes or its runtime error; int-to-ascii and int-to-utf8 give the canonical numeral, sha256, sha512 and hash160 the digest.",
  "all operand expressions, values, states and memories", "128-bit integers, unbounded strings, any program around the word",
  ["clar2wasm/src/words/comparison.rs", "clar2wasm/src/words/arithmetic.rs: log2, pow, sqrti", "clar2wasm/src/words/bitwise.rs", "clar2wasm/src/words/conversion.rs: StringToInt, StringToUint, IntToAscii, IntToUtf8", "clar2wasm/src/words/hashing.rs: traverse_hash"])
p("STX and fungible token words in compiled contracts",
  "In a compiled contract, stx-transfer?, stx-transfer-memo?, stx-burn?, ft-mint?, ft-burn?, ft-transfer?, stx-get-balance, ft-get-supply and ft-get-balance, on the values of any operand expressions, read or change exactly the balances, supplies and events Clarity prescribes and give (ok true), or change nothing and give the prescribed error (zero amount, same account, not the sender, too little).",
  "all operand expressions, amounts, principals, states and memories", "any ledger state, 128-bit amounts, any program around the word",
  ["clar2wasm/src/words/stx.rs: StxGetBalance, StxBurn, StxTransfer, StxTransferMemo", "clar2wasm/src/words/tokens.rs: MintFungibleToken, BurnFungibleToken, TransferFungibleToken, GetSupplyOfFungibleToken, GetBalanceOfFungibleToken", "clar2wasm/src/linker.rs: link_stx_transfer_fn, link_stx_burn_fn, link_ft_mint_fn, link_ft_burn_fn, link_ft_transfer_fn"])
p("What the code of a contract cannot do",
  "Whatever Wasm code a contract consists of, a call of it, whether it returns or traps, leaves the tokens, balances, owners, variables and maps of every other contract as they were; nobody but the transaction sender and the contract itself loses STX; no STX are made; the events already emitted stay, and those added are the contract's own or about STX paid by the sender or the contract.",
  "all modules (compiled or written by hand), arguments, states and memories", "any code, unbounded executions, any sequence of host calls",
  ["clar2wasm/src/linker.rs: link_host_functions", "clar2wasm/src/initialize.rs: ClarityWasmContext"])

out = os.path.join(os.path.dirname(os.path.abspath(__file__)), "..", "properties.jsonl")
with open(out, "w") as f:
    for x in P: f.write(json.dumps(x) + "\n")
print(len(P))
