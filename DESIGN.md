# Formal model of clarity-wasm in Lean 4

## Layers of the model

| layer | Lean | source | how |
|---|---|---|---|
| 0 Wasm | `Wasm/Syntax, Sem` | WebAssembly core spec, the instructions the project uses | deep embedding; fuel-driven interpreter with outcomes *fall through, branch, return, trap, stuck, out of fuel* |
| 0 logic | `Wasm/WP, Rules, Tac, Seq, Frame, Valid` | – | weakest-precondition calculus, frame analysis and validator, all proved sound for the interpreter |
| 1 runtime library | `Stdlib/Code*` | `standard/standard.wat` | **generated** by `tools/wat2lean.py`, instruction for instruction, one definition per Wasm function with its line range |
| 2 host ABI | `Host/Abi, Bytes, Args, Trait, Errors, Literals, Run` | `wasm_utils.rs`, `error_mapping.rs`, parts of `wasm_generator.rs` | by hand, function by function |
| 3 code generator | `Gen/Mem, Cost, CostTables, Compile` | `wasm_generator.rs`, `words/*.rs`, `cost.rs` | Lean functions that emit Layer-0 code; `CostTables` is generated by `tools/cost2lean.py` |
| 4 host state | `Host/World` | `linker.rs`, `initialize.rs` | by hand: databases, tokens, nested transactions, context stacks |

Specifications are separate (`Spec/*`): 128-bit integers, bytes, decimal numerals, names, UTF-8, Clarity
types and values, cost functions, ledgers, and `Spec/Core`, an evaluator of a core of Clarity that knows
nothing about Wasm. The theorems for users are in `Props/*`; beside each there is an `example` (or a
named concrete case) that meets its hypotheses.

## Plan and status per property

`MANIFEST.json` has the exact theorem names; this table says what is modelled and how it is proved.

| id | model | proof | status |
|---|---|---|---|
| C01–C05, C07–C10 arithmetic | generated code of the 128-bit functions | symbolic execution with the wp calculus, loop invariants, arithmetic over `Nat`/`Int` | C01 C04 C05 C07 C09 C10 proved; C02 C03 C08 partial (code is wrong on some operands, witnesses) |
| C06, C11–C17, C32 bytes, strings, names, UTF-8 | generated code, arbitrary memories | wp + loop invariants over memory | C06 C12 C14 C15 C16 C32 proved; C11 C13 C17 partial (witnesses) |
| C18 no side effects | all library functions | soundness of a static frame analysis, run by the kernel on each function | proved |
| C19 termination of the library | generated code | `Wasm/Term`: generator of termination conditions, proved sound; a variant for each loop (`Stdlib/Term, Term2`) | partial (88 of 101 functions; witness that skip-unknown-value can loop) |
| C20 type safety | validator for the subset | progress and preservation on the interpreter, the validator run by the kernel | proved |
| C21, C22, C24 values across the host boundary | `write_to_wasm`, `read_from_wasm`, sizes, argument passing | mutual induction on types and values | C22 proved, C21 C24 partial (trait types; witnesses) |
| C23 values in linear memory | emitted load/store/local code | induction on types, wp | proved |
| C25 error codes | error map + all traps of the library | frame analysis for the error-code global | proved |
| C26, C27 literals, argument counts | literal table, emitted check | invariant over all sequences of literals | C26 proved; C27 partial (witness) |
| C28 costs | emitted charging code, generated tables | wp; tables compared entry by entry | partial (witnesses for budgets ≥ 2^63, log at 0) |
| C29 consensus serialization | `Gen/Serialize.lean` (serialize.rs, words/consensus_buff.rs) against `Spec/Consensus.lean` (SIP-005) | mutual induction on types; loop invariant for lists; `to-consensus-buff?` in the compiler proof | proved |
| C31 skipping | generated code of the skip functions | mutual induction on values (`Stdlib/Skip, SkipLoop`) | partial (malformed bytes can be accepted, witnesses) |
| C30 deserialization | `Gen/Deserialize.lean` (deserialize.rs, `from-consensus-buff?`) against `Spec/Decode.lean`, proved to be the inverse of `Spec/Consensus.lean` | induction on types, loop invariants for lists and UTF-8, `from-consensus-buff?` in the compiler proof | partial (tuples missing; malformed principals accepted, witness) |
| C33, C34, C36, C38 compiled programs | `Gen/Compile` against `Spec/Core` | simulation by mutual induction on expressions, induction on the number of functions | C34 C38 proved; C33 C36 partial (witnesses) |
| C35 equality | `Gen/Equal.lean` (equal.rs), `is-eq` in `Spec/Core.lean`, `Gen/Compile.lean` | induction on the type; loop invariants for byte strings and lists | `Props/Equal.lean` |
| C37 sequence words | `Gen/Seq.lean` (sequences.rs, `index-of?` in equal.rs), in `Spec/Core.lean`, `Gen/Compile.lean` | symbolic execution on representations, loop invariant for `index-of?`, operands evaluated while memory is reserved (`Gen/Hold`), loop invariants over the calls for `fold`, `filter`, `map` | `Props/Sequences.lean`, `Props/Fold.lean`, partial |
| C39 principals | `standard.wat` principal-construct, is-version-valid, is-valid-contract-name; `words/principal.rs` is-standard, principal-destruct? | symbolic execution against `Spec/Construct` through `Rep` | partial: 11-character names at the end of the memory |
| C40 SHA-2 | `standard.wat` sha256, sha512 and their five helpers | loop invariants against `Spec/Sha2` (FIPS 180-4; constants checked as roots of primes, functions on the published examples) | proved |
| C41 hash160 | `standard.wat` hash160, RIPEMD compression through the function table | the same against `Spec/Ripemd160` | partial: reserved space too small by 31 bytes (witness) |
| C42, C45 tokens, variables, maps | host state machine | invariants over all histories of host calls, over executions of any Wasm code, and over histories of the chain | partial (witnesses) |
| C43 context | host state machine and emitted code of `as-contract` | induction on nested histories | partial (witnesses) |
| C44 trait identifiers | encode/decode | round trip both ways | proved |
| C47 copied results | `Gen/Copy.lean` (`copy_value`, `has_in_memory_type`, the end of a call of a user function) | induction on types, moving representation and destination pointer | proved |
| C48 words on integers and strings, hashes | `wordCode`, `cmpFn`, `memCode` in `Gen/Compile.lean` | library theorems composed through representations (`Gen/ExprWord`, `Gen/ExprMem`); the library's data segments are literals of the contract (`StdIn`), its work space is `Ctx.ws` | partial (C08, C13, C41 deviations) |
| C49 STX and fungible tokens | `tokenPre`, `tokenPost` in `Gen/Compile.lean` (stx.rs, tokens.rs), `TWord` in `Spec/Core.lean` | host calls of `Host/World` composed with the operands through representations (`Gen/ExprToken`), then read on ledgers that add up | partial: supply limit, locked STX, nft |
| C50 what code cannot do | `Host/World`, the interpreter (`Wasm/HostInv`: whatever every imported function preserves, every execution preserves; `Gen/HostCalls`: which ones compiled code calls) | induction on executions of any code; on programs for what compiled code calls; induction over histories of calls of any contracts (`Props/Chain`); nested histories for transactions | partial: `contract-call?` |
| C46 calls from outside | `call_function` on top of C24, C33, C25 | composition; uniqueness of the answer; induction over histories of calls (a session of the code exists and its sessions are exactly those of Clarity, also from the initialisation of the contract on) | partial (witness: no room for arguments) |

## Deviations of the code from Clarity found and proved

Each is a theorem about the model (named `..._counterexample` or listed in the note of its property):

1. `mul-int`: a product equal to −2^127 overflows unless one operand is 1 (C03).
2. `sub-uint`: misses the underflow when the subtrahend is ≥ 2^128 − 2^64 and the low halves borrow (C02).
3. `string-to-uint`: 39-digit numerals ≥ 2^128 ending in 0..5 are accepted with a wrong value; numerals
   of more than 39 characters are rejected (C13).
4. `pow-int`: base −1 with an exponent above 127 (C08).
5. `buff-to-uint-*` read 16 bytes whatever the length, and trap near the end of memory (C11).
6. `is-valid-contract-name` reads past the name (traps at the end of memory) (C17).
7. UTF-8 decoding of a sequence truncated at the end of memory traps (C15).
8. Argument-count errors report the numbers of an earlier literal (C27).
9. Types containing traits cannot be written to memory / passed in lists or optionals (C21, C24).
10. The size without representation is too small for nested in-memory values (C22).
11. Unknown error codes make the host panic; five cost codes are one error (C25).
12. Budgets ≥ 2^63 abort; logarithmic cost at factor 0 increases the budget (C28).
13. `ft` maximum supply with low half ≥ 2^63 is recorded as a larger one; successful NFT operations push
    132 instead of `true` (C42).
14. `asserts!` evaluates the thrown expression even if the assertion holds; variadic arithmetic
    interleaves evaluation of operands with the operation; `try!` of an optional in a function that
    returns another optional type, and a `let`-bound `none`, give invalid code (C33).
15. An early return inside `as-contract` leaves the contract as sender; after an inner `at-block` the
    outer one reads the current state (C43).
16. The memory of a module is not sized for the arguments of calls from outside (C46).
17. `slice?` with a left position ≥ 2^32 can give a part of the memory instead of none; `index-of?` on an
    empty sequence does not evaluate the item; `replace-at?` aborts for an empty replacement even if the
    position is out of range (C37).

18. `skip-unknown-value` accepts a truncated `some` and lengths that wrap around; on the bytes
    `0c 00000002 01 61 02 fffffff2` (after a name) it goes back to an earlier offset and never ends, so
    `from-consensus-buff?` of a tuple with an unknown key exhausts the stack (C19, C31).

19. Deserialization accepts principals with a version byte above 31 and contract principals with invalid
    names (C30).

20. `filter` calls its function even for an empty sequence; `map` gives its first list a made-up type, so that
    `(map f (list true true true true true))` overwrites its own input; `fold` with an accumulator in memory copies
    it beyond the space reserved and overwrites the list (C37).

Found by reading, not stated as theorems: `mod-int` of MIN by −1 is 0 (as in Clarity); `uint-to-string`
needs one byte below its result offset; `compare-clarity-names` wraps for zero length; `contract_call`
pushes a caller that is not popped; `set_variable` does not check for a read-only context;
`short_return_error` under-allocates; `replace-at?` does not give the replacement the type of the elements,
so that `(replace-at? (list (some 1)) u0 none)` gives invalid code.

## What is modelled and what is not

*Runtime library*: all functions of `standard.wat` are embedded (generated). Theorems of functional
correctness exist for the functions named in the properties; type safety, frame and error-code theorems
cover all of them.

*Wasm*: the integer instructions, memory (one memory, no growth except `memory.grow` as in `Sem`),
globals, blocks, loops, calls that occur. Not modelled: floats, tables, references, SIMD instructions other than those that occur, the binary
format, wasmtime's stack limit and fuel.

*Code generator* (`Gen/Compile`): literals, variables, `let`, `begin`, `if`, `and`, `or`, `not`,
integer arithmetic, bitwise words and shifts, `pow`, `log2`, `sqrti`, comparison of integers, buffers and strings, `string-to-int?`/`string-to-uint?`, constructors, `is-*`, `default-to`, all unwraps, `try!`, `asserts!`,
`match`, tuples and `get`, conversion `to-int`/`to-uint`, data variables, maps, calls of earlier
functions (with `copy_value` of results in memory), `as-contract`, the words of C49 on STX and fungible tokens (nft words and `stx-account` not), `is-eq`, `len`, `as-max-len?`, `element-at?`, `slice?`, `index-of?`, `list`,
`append`, `concat`, `replace-at?`, `fold`, `filter` and `map` with functions of the contract, `fold` and `map` with the arithmetic operators, comparisons, `and`, `or`, `not`, conversions and library words too, `int-to-ascii`, `int-to-utf8`, `sha256`, `sha512`, `hash160`, `to-consensus-buff?` (with the whole of serialize.rs), `from-consensus-buff?` (deserialize.rs without tuples), function prologue and epilogue. Simplifications (also in the file): cost
tracking off; locals numbered in request order; literal offsets given by a function; the type checker's
results are part of the syntax; `Gen/Cost` models cost charging separately. Not modelled: see the notes of
the properties in the manifest; in particular `contract-call?`, traits, `print` and block information words.

*Host* (`Host/World`, `Host/Define`): see their headers. The clarity crate is not part of the repository; what is
assumed of it (nested transactions, `at-block` reads, `admits`) is stated there.

*ABI*: `i32` offsets are natural numbers, theorems assume memories below 2 GiB; every `Err` is `none`.

## Trusted base

Lean 4's kernel, and the axioms `propext`, `Classical.choice`, `Quot.sound` (each theorem depends on a
subset of these; no other axioms, no compiled evaluation: concrete cases use `decide +kernel`). Beyond
the kernel one has to trust: the reading of the Rust sources into the model (every definition cites the
lines it models), `tools/wat2lean.py` and `tools/cost2lean.py` for the generated files, and the reading
of the Wasm specification in `Wasm/Sem.lean`.

## Testing the theorems

`seeded/LOG.jsonl` records wrong programs: `tools/mutate.py` edits the model in a scratch copy, rebuilds
and records which theorems fail; survivors led to the strengthened theorems recorded there.
