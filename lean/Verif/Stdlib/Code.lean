import Verif.Wasm.Syntax

/-! Generated by tools/wat2lean.py from /repo/clar2wasm/src/standard/standard.wat. Do not edit.
One definition per Wasm function, instruction for instruction (operands first, then operator). -/

namespace Wasm.Std

/-- `$stdlib.runtime-error`: standard.wat lines 403-407. Locals: 0 = $error_code. -/
def runtime_error_body : List Instr := [
  .b (.localGet 0), .b (.global32Set .errCode), .unreachable]

/-- `$stdlib.runtime-error`: standard.wat lines 403-407 (signature and locals). -/
def runtime_error : Func where
  params := [.i32]
  results := []
  locals := []
  body := runtime_error_body

/-- `$stdlib.add-int128`: standard.wat lines 410-418. Locals: 0 = $a_lo, 1 = $a_hi, 2 = $b_lo, 3 = $b_hi. -/
def add_int128_body : List Instr := [
  .b (.localGet 0), .b (.localGet 2), .b (.i64bin .add), .b (.localTee 2), .b (.localGet 0),
  .b (.localGet 2), .b (.i64rel .gtU), .b .i64extU, .b (.localGet 1), .b (.localGet 3),
  .b (.i64bin .add), .b (.i64bin .add)]

/-- `$stdlib.add-int128`: standard.wat lines 410-418 (signature and locals). -/
def add_int128 : Func where
  params := [.i64, .i64, .i64, .i64]
  results := [.i64, .i64]
  locals := []
  body := add_int128_body

/-- `$stdlib.add-int`: standard.wat lines 420-444. Locals: 0 = $a_lo, 1 = $a_hi, 2 = $b_lo, 3 = $b_hi, 4 = $sum_hi, 5 = $sum_lo. -/
def add_int_body : List Instr := [
  .b (.localGet 0), .b (.localGet 1), .b (.localGet 2), .b (.localGet 3), .call (.std .add_int128),
  .b (.localSet 4), .b (.localSet 5), .b (.localGet 1), .b (.const (.i64 63#64)), .b (.i64bin .shrS),
  .b (.localGet 3), .b (.const (.i64 63#64)), .b (.i64bin .shrS), .b (.i64rel .eq),
  .ite 0 0 [
    .b (.localGet 1), .b (.const (.i64 63#64)), .b (.i64bin .shrS), .b (.localGet 4),
    .b (.const (.i64 63#64)), .b (.i64bin .shrS), .b (.i64rel .ne),
    .ite 0 0 [
      .b (.const (.i32 0#32)), .call (.std .runtime_error)] []] [],
  .b (.localGet 5), .b (.localGet 4), .ret]

/-- `$stdlib.add-int`: standard.wat lines 420-444 (signature and locals). -/
def add_int : Func where
  params := [.i64, .i64, .i64, .i64]
  results := [.i64, .i64]
  locals := [.i64, .i64]
  body := add_int_body

/-- `$stdlib.add-uint`: standard.wat lines 446-457. Locals: 0 = $a_lo, 1 = $a_hi, 2 = $b_lo, 3 = $b_hi. -/
def add_uint_body : List Instr := [
  .b (.localGet 0), .b (.localGet 1), .b (.localGet 2), .b (.localGet 3), .call (.std .add_int128),
  .b (.localSet 1), .b (.localSet 0), .b (.localGet 0), .b (.localGet 1), .b (.localGet 2),
  .b (.localGet 3), .call (.std .lt_uint),
  .ite 0 0 [
    .b (.const (.i32 0#32)), .call (.std .runtime_error)] [],
  .b (.localGet 0), .b (.localGet 1)]

/-- `$stdlib.add-uint`: standard.wat lines 446-457 (signature and locals). -/
def add_uint : Func where
  params := [.i64, .i64, .i64, .i64]
  results := [.i64, .i64]
  locals := []
  body := add_uint_body

/-- `$stdlib.sub-int128`: standard.wat lines 460-476. Locals: 0 = $a_lo, 1 = $a_hi, 2 = $b_lo, 3 = $b_hi, 4 = $borrow, 5 = $diff_lo, 6 = $diff_hi. -/
def sub_int128_body : List Instr := [
  .b (.localGet 0), .b (.localGet 2), .b (.i64rel .ltU), .b .i64extU, .b (.localSet 4),
  .b (.localGet 0), .b (.localGet 2), .b (.i64bin .sub), .b (.localSet 5), .b (.localGet 1),
  .b (.localGet 3), .b (.i64bin .sub), .b (.localGet 4), .b (.i64bin .sub), .b (.localSet 6),
  .b (.localGet 5), .b (.localGet 6), .ret]

/-- `$stdlib.sub-int128`: standard.wat lines 460-476 (signature and locals). -/
def sub_int128 : Func where
  params := [.i64, .i64, .i64, .i64]
  results := [.i64, .i64]
  locals := [.i64, .i64, .i64]
  body := sub_int128_body

/-- `$stdlib.sub-int`: standard.wat lines 478-502. Locals: 0 = $a_lo, 1 = $a_hi, 2 = $b_lo, 3 = $b_hi, 4 = $diff_hi, 5 = $diff_lo. -/
def sub_int_body : List Instr := [
  .b (.localGet 0), .b (.localGet 1), .b (.localGet 2), .b (.localGet 3), .call (.std .sub_int128),
  .b (.localSet 4), .b (.localSet 5), .b (.localGet 1), .b (.const (.i64 63#64)), .b (.i64bin .shrS),
  .b (.localGet 3), .b (.const (.i64 63#64)), .b (.i64bin .shrS), .b (.i64rel .ne),
  .ite 0 0 [
    .b (.localGet 1), .b (.const (.i64 63#64)), .b (.i64bin .shrS), .b (.localGet 4),
    .b (.const (.i64 63#64)), .b (.i64bin .shrS), .b (.i64rel .ne),
    .ite 0 0 [
      .b (.const (.i32 1#32)), .call (.std .runtime_error)] []] [],
  .b (.localGet 5), .b (.localGet 4), .ret]

/-- `$stdlib.sub-int`: standard.wat lines 478-502 (signature and locals). -/
def sub_int : Func where
  params := [.i64, .i64, .i64, .i64]
  results := [.i64, .i64]
  locals := [.i64, .i64]
  body := sub_int_body

/-- `$stdlib.sub-uint`: standard.wat lines 504-524. Locals: 0 = $a_lo, 1 = $a_hi, 2 = $b_lo, 3 = $b_hi, 4 = $diff_hi, 5 = $diff_lo. -/
def sub_uint_body : List Instr := [
  .b (.localGet 0), .b (.localGet 1), .b (.localGet 2), .b (.localGet 3), .call (.std .sub_int128),
  .b (.localSet 4), .b (.localSet 5), .b (.localGet 4), .b (.localGet 1), .b (.i64rel .gtU),
  .ite 0 0 [
    .b (.const (.i32 1#32)), .call (.std .runtime_error)] [],
  .b (.localGet 5), .b (.localGet 4), .ret]

/-- `$stdlib.sub-uint`: standard.wat lines 504-524 (signature and locals). -/
def sub_uint : Func where
  params := [.i64, .i64, .i64, .i64]
  results := [.i64, .i64]
  locals := [.i64, .i64]
  body := sub_uint_body

/-- `$stdlib.mul-int128`: standard.wat lines 526-568. Locals: 0 = $a_lo, 1 = $a_hi, 2 = $b_lo, 3 = $b_hi, 4 = $u2, 5 = $v2, 6 = $t1, 7 = $t2, 8 = $t3. -/
def mul_int128_body : List Instr := [
  .b (.localGet 0), .b (.const (.i64 4294967295#64)), .b (.i64bin .and), .b (.localTee 5),
  .b (.localGet 2), .b (.const (.i64 4294967295#64)), .b (.i64bin .and), .b (.localTee 4),
  .b (.i64bin .mul), .b (.localTee 6), .b (.const (.i64 32#64)), .b (.i64bin .shrU),
  .b (.localGet 4), .b (.localGet 0), .b (.const (.i64 32#64)), .b (.i64bin .shrU), .b (.localTee 4),
  .b (.i64bin .mul), .b (.i64bin .add), .b (.localTee 7), .b (.const (.i64 4294967295#64)),
  .b (.i64bin .and), .b (.localGet 5), .b (.localGet 2), .b (.const (.i64 32#64)),
  .b (.i64bin .shrU), .b (.localTee 5), .b (.i64bin .mul), .b (.i64bin .add), .b (.localTee 8),
  .b (.const (.i64 32#64)), .b (.i64bin .shl), .b (.localGet 6), .b (.const (.i64 4294967295#64)),
  .b (.i64bin .and), .b (.i64bin .or), .b (.localGet 0), .b (.localGet 3), .b (.i64bin .mul),
  .b (.localGet 1), .b (.localGet 2), .b (.i64bin .mul), .b (.i64bin .add), .b (.localGet 5),
  .b (.localGet 4), .b (.i64bin .mul), .b (.i64bin .add), .b (.localGet 7), .b (.const (.i64 32#64)),
  .b (.i64bin .shrU), .b (.i64bin .add), .b (.localGet 8), .b (.const (.i64 32#64)),
  .b (.i64bin .shrU), .b (.i64bin .add)]

/-- `$stdlib.mul-int128`: standard.wat lines 526-568 (signature and locals). -/
def mul_int128 : Func where
  params := [.i64, .i64, .i64, .i64]
  results := [.i64, .i64]
  locals := [.i64, .i64, .i64, .i64, .i64]
  body := mul_int128_body

/-- `$stdlib.mul-uint`: standard.wat lines 570-637. Locals: 0 = $a_lo, 1 = $a_hi, 2 = $b_lo, 3 = $b_hi, 4 = $tmp. -/
def mul_uint_body : List Instr := [
  .b (.localGet 0), .b (.localGet 1), .call (.std .clz_int128), .b (.localGet 2), .b (.localGet 3),
  .call (.std .clz_int128), .b (.i32bin .add), .b (.localSet 4), .b (.localGet 4),
  .b (.const (.i32 128#32)), .b (.i32rel .geU),
  .ite 0 0 [
    .b (.localGet 0), .b (.localGet 1), .b (.localGet 2), .b (.localGet 3), .call (.std .mul_int128),
    .ret] [],
  .b (.localGet 4), .b (.const (.i32 126#32)), .b (.i32rel .leU),
  .ite 0 0 [
    .b (.const (.i32 0#32)), .call (.std .runtime_error)] [],
  .b (.localGet 2), .b (.const (.i64 1#64)), .b (.i64bin .and), .b .i32wrap, .b (.localSet 4),
  .b (.localGet 3), .b (.const (.i64 63#64)), .b (.i64bin .shl), .b (.localGet 2),
  .b (.const (.i64 1#64)), .b (.i64bin .shrU), .b (.i64bin .or), .b (.localGet 3),
  .b (.const (.i64 1#64)), .b (.i64bin .shrU), .b (.localGet 0), .b (.localGet 1),
  .call (.std .mul_int128), .b (.localSet 3), .b (.localSet 2), .b (.localGet 3),
  .b (.const (.i64 0#64)), .b (.i64rel .ltS),
  .ite 0 0 [
    .b (.const (.i32 0#32)), .call (.std .runtime_error)] [],
  .b (.localGet 3), .b (.const (.i64 1#64)), .b (.i64bin .shl), .b (.localGet 2),
  .b (.const (.i64 63#64)), .b (.i64bin .shrU), .b (.i64bin .or), .b (.localSet 3), .b (.localGet 2),
  .b (.const (.i64 1#64)), .b (.i64bin .shl), .b (.localSet 2), .b (.localGet 4),
  .ite 0 0 [
    .b (.localGet 2), .b (.localGet 3), .b (.localGet 0), .b (.localGet 1), .call (.std .add_uint),
    .b (.localSet 3), .b (.localSet 2)] [],
  .b (.localGet 2), .b (.localGet 3)]

/-- `$stdlib.mul-uint`: standard.wat lines 570-637 (signature and locals). -/
def mul_uint : Func where
  params := [.i64, .i64, .i64, .i64]
  results := [.i64, .i64]
  locals := [.i32]
  body := mul_uint_body

/-- `$stdlib.mul-int`: standard.wat lines 639-705. Locals: 0 = $a_lo, 1 = $a_hi, 2 = $b_lo, 3 = $b_hi, 4 = $sign. -/
def mul_int_body : List Instr := [
  .b (.localGet 1), .b (.localGet 0), .b (.const (.i64 1#64)), .b (.i64bin .xor), .b (.i64bin .or),
  .b .i64eqz,
  .ite 0 0 [
    .b (.localGet 2), .b (.localGet 3), .ret] [],
  .b (.localGet 3), .b (.localGet 2), .b (.const (.i64 1#64)), .b (.i64bin .xor), .b (.i64bin .or),
  .b .i64eqz,
  .ite 0 0 [
    .b (.localGet 0), .b (.localGet 1), .ret] [],
  .b (.const (.i64 0#64)), .b (.localGet 0), .b (.i64bin .sub), .b (.localGet 0), .b (.localGet 1),
  .b (.const (.i64 0#64)), .b (.i64rel .ltS), .b (.localTee 4), .b .select, .b (.const (.i64 0#64)),
  .b (.localGet 1), .b (.localGet 0), .b (.const (.i64 0#64)), .b (.i64rel .ne), .b .i64extU,
  .b (.i64bin .add), .b (.i64bin .sub), .b (.localGet 1), .b (.localGet 4), .b .select,
  .b (.const (.i64 0#64)), .b (.localGet 2), .b (.i64bin .sub), .b (.localGet 2), .b (.localGet 3),
  .b (.const (.i64 0#64)), .b (.i64rel .ltS), .b (.localTee 4), .b .select, .b (.const (.i64 0#64)),
  .b (.localGet 3), .b (.localGet 2), .b (.const (.i64 0#64)), .b (.i64rel .ne), .b .i64extU,
  .b (.i64bin .add), .b (.i64bin .sub), .b (.localGet 3), .b (.localGet 4), .b .select,
  .b (.localGet 1), .b (.const (.i64 0#64)), .b (.i64rel .ltS), .b (.localGet 4), .b (.i32bin .xor),
  .b (.localSet 4), .call (.std .mul_uint), .b (.localSet 1), .b (.localSet 0), .b (.localGet 1),
  .b (.const (.i64 0#64)), .b (.i64rel .ltS),
  .ite 0 0 [
    .b (.const (.i32 0#32)), .call (.std .runtime_error)] [],
  .b (.const (.i64 0#64)), .b (.localGet 0), .b (.i64bin .sub), .b (.localGet 0), .b (.localGet 4),
  .b .select, .b (.const (.i64 0#64)), .b (.localGet 1), .b (.localGet 0), .b (.const (.i64 0#64)),
  .b (.i64rel .ne), .b .i64extU, .b (.i64bin .add), .b (.i64bin .sub), .b (.localGet 1),
  .b (.localGet 4), .b .select]

/-- `$stdlib.mul-int`: standard.wat lines 639-705 (signature and locals). -/
def mul_int : Func where
  params := [.i64, .i64, .i64, .i64]
  results := [.i64, .i64]
  locals := [.i32]
  body := mul_int_body

/-- `$stdlib.div-int128`: standard.wat lines 707-778. Locals: 0 = $dividend_lo, 1 = $dividend_hi, 2 = $divisor_lo, 3 = $divisor_hi, 4 = $quotient_hi, 5 = $quotient_lo, 6 = $remainder_hi, 7 = $remainder_lo, 8 = $current_bit. -/
def div_int128_body : List Instr := [
  .b (.localGet 3), .b (.localGet 2), .b (.i64bin .or), .b .i64eqz,
  .ite 0 0 [
    .b (.const (.i32 2#32)), .call (.std .runtime_error)] [],
  .b (.const (.i64 0#64)), .b (.localSet 4), .b (.const (.i64 0#64)), .b (.localSet 5),
  .b (.const (.i64 0#64)), .b (.localSet 6), .b (.const (.i64 0#64)), .b (.localSet 7),
  .b (.const (.i64 127#64)), .b (.localSet 8),
  .loop 0 0 [
    .b (.localGet 6), .b (.const (.i64 1#64)), .b (.i64bin .shl), .b (.localGet 7),
    .b (.const (.i64 63#64)), .b (.i64bin .shrU), .b (.i64bin .or), .b (.localSet 6),
    .b (.localGet 7), .b (.const (.i64 1#64)), .b (.i64bin .shl), .b (.localGet 1),
    .b (.const (.i64 63#64)), .b (.i64bin .shrU), .b (.i64bin .or), .b (.localSet 7),
    .b (.localGet 1), .b (.const (.i64 1#64)), .b (.i64bin .shl), .b (.localGet 0),
    .b (.const (.i64 63#64)), .b (.i64bin .shrU), .b (.i64bin .or), .b (.localSet 1),
    .b (.localGet 0), .b (.const (.i64 1#64)), .b (.i64bin .shl), .b (.localSet 0), .b (.localGet 6),
    .b (.localGet 3), .b (.i64rel .gtU), .b (.localGet 6), .b (.localGet 3), .b (.i64rel .eq),
    .b (.localGet 7), .b (.localGet 2), .b (.i64rel .geU), .b (.i32bin .and), .b (.i32bin .or),
    .ite 0 0 [
      .b (.localGet 7), .b (.localGet 6), .b (.localGet 2), .b (.localGet 3),
      .call (.std .sub_int128), .b (.localSet 6), .b (.localSet 7), .b (.localGet 8),
      .b (.const (.i64 64#64)), .b (.i64rel .ltU),
      .ite 0 0 [
        .b (.localGet 5), .b (.const (.i64 1#64)), .b (.localGet 8), .b (.i64bin .shl),
        .b (.i64bin .or), .b (.localSet 5)] [
        .b (.localGet 4), .b (.const (.i64 1#64)), .b (.localGet 8), .b (.const (.i64 64#64)),
        .b (.i64bin .sub), .b (.i64bin .shl), .b (.i64bin .or), .b (.localSet 4)]] [],
    .b (.localGet 8), .b (.const (.i64 1#64)), .b (.i64bin .sub), .b (.localSet 8), .b (.localGet 8),
    .b (.const (.i64 0#64)), .b (.i64rel .geS), .brIf 0],
  .b (.localGet 5), .b (.localGet 4), .b (.localGet 7), .b (.localGet 6), .ret]

/-- `$stdlib.div-int128`: standard.wat lines 707-778 (signature and locals). -/
def div_int128 : Func where
  params := [.i64, .i64, .i64, .i64]
  results := [.i64, .i64, .i64, .i64]
  locals := [.i64, .i64, .i64, .i64, .i64]
  body := div_int128_body

/-- `$stdlib.div-uint`: standard.wat lines 780-793. Locals: 0 = $dividend_lo, 1 = $dividend_hi, 2 = $divisor_lo, 3 = $divisor_hi, 4 = $quotient_hi, 5 = $quotient_lo, 6 = $remainder_hi, 7 = $remainder_lo. -/
def div_uint_body : List Instr := [
  .b (.localGet 0), .b (.localGet 1), .b (.localGet 2), .b (.localGet 3), .call (.std .div_int128),
  .b (.localSet 6), .b (.localSet 7), .b (.localSet 4), .b (.localSet 5), .b (.localGet 5),
  .b (.localGet 4), .ret]

/-- `$stdlib.div-uint`: standard.wat lines 780-793 (signature and locals). -/
def div_uint : Func where
  params := [.i64, .i64, .i64, .i64]
  results := [.i64, .i64]
  locals := [.i64, .i64, .i64, .i64]
  body := div_uint_body

/-- `$stdlib.div-int`: standard.wat lines 795-850. Locals: 0 = $dividend_lo, 1 = $dividend_hi, 2 = $divisor_lo, 3 = $divisor_hi, 4 = $quotient_hi, 5 = $quotient_lo, 6 = $remainder_hi, 7 = $remainder_lo, 8 = $sign_dividend, 9 = $sign_divisor, 10 = $expected_sign. -/
def div_int_body : List Instr := [
  .b (.localGet 0), .b .i64eqz, .b (.localGet 1), .b (.const (.i64 9223372036854775808#64)),
  .b (.i64rel .eq), .b (.i32bin .and), .b (.localGet 2), .b (.localGet 3), .b (.i64bin .and),
  .b (.const (.i64 18446744073709551615#64)), .b (.i64rel .eq), .b (.i32bin .and),
  .ite 0 0 [
    .b (.const (.i32 0#32)), .call (.std .runtime_error)] [],
  .b (.localGet 1), .b (.const (.i64 63#64)), .b (.i64bin .shrS), .b (.localSet 8), .b (.localGet 3),
  .b (.const (.i64 63#64)), .b (.i64bin .shrS), .b (.localSet 9), .b (.localGet 8), .b (.localGet 9),
  .b (.i64bin .xor), .b (.localSet 10), .b (.localGet 8), .b .i32wrap,
  .ite 0 0 [
    .b (.const (.i64 0#64)), .b (.const (.i64 0#64)), .b (.localGet 0), .b (.localGet 1),
    .call (.std .sub_int128), .b (.localSet 1), .b (.localSet 0)] [],
  .b (.localGet 9), .b .i32wrap,
  .ite 0 0 [
    .b (.const (.i64 0#64)), .b (.const (.i64 0#64)), .b (.localGet 2), .b (.localGet 3),
    .call (.std .sub_int128), .b (.localSet 3), .b (.localSet 2)] [],
  .b (.localGet 0), .b (.localGet 1), .b (.localGet 2), .b (.localGet 3), .call (.std .div_int128),
  .b (.localSet 6), .b (.localSet 7), .b (.localSet 4), .b (.localSet 5), .b (.localGet 10),
  .b .i32wrap,
  .ite 0 0 [
    .b (.const (.i64 0#64)), .b (.const (.i64 0#64)), .b (.localGet 5), .b (.localGet 4),
    .call (.std .sub_int128), .b (.localSet 4), .b (.localSet 5)] [],
  .b (.localGet 5), .b (.localGet 4), .ret]

/-- `$stdlib.div-int`: standard.wat lines 795-850 (signature and locals). -/
def div_int : Func where
  params := [.i64, .i64, .i64, .i64]
  results := [.i64, .i64]
  locals := [.i64, .i64, .i64, .i64, .i64, .i64, .i64]
  body := div_int_body

/-- `$stdlib.mod-uint`: standard.wat lines 852-865. Locals: 0 = $dividend_lo, 1 = $dividend_hi, 2 = $divisor_lo, 3 = $divisor_hi, 4 = $quotient_hi, 5 = $quotient_lo, 6 = $remainder_hi, 7 = $remainder_lo. -/
def mod_uint_body : List Instr := [
  .b (.localGet 0), .b (.localGet 1), .b (.localGet 2), .b (.localGet 3), .call (.std .div_int128),
  .b (.localSet 6), .b (.localSet 7), .b (.localSet 4), .b (.localSet 5), .b (.localGet 7),
  .b (.localGet 6), .ret]

/-- `$stdlib.mod-uint`: standard.wat lines 852-865 (signature and locals). -/
def mod_uint : Func where
  params := [.i64, .i64, .i64, .i64]
  results := [.i64, .i64]
  locals := [.i64, .i64, .i64, .i64]
  body := mod_uint_body

/-- `$stdlib.mod-int`: standard.wat lines 867-913. Locals: 0 = $dividend_lo, 1 = $dividend_hi, 2 = $divisor_lo, 3 = $divisor_hi, 4 = $quotient_hi, 5 = $quotient_lo, 6 = $remainder_hi, 7 = $remainder_lo, 8 = $sign_dividend, 9 = $sign_divisor, 10 = $expected_sign. -/
def mod_int_body : List Instr := [
  .b (.localGet 1), .b (.const (.i64 63#64)), .b (.i64bin .shrS), .b (.localSet 8), .b (.localGet 3),
  .b (.const (.i64 63#64)), .b (.i64bin .shrS), .b (.localSet 9), .b (.localGet 8), .b (.localGet 9),
  .b (.i64bin .xor), .b (.localSet 10), .b (.localGet 8), .b .i32wrap,
  .ite 0 0 [
    .b (.const (.i64 0#64)), .b (.const (.i64 0#64)), .b (.localGet 0), .b (.localGet 1),
    .call (.std .sub_int128), .b (.localSet 1), .b (.localSet 0)] [],
  .b (.localGet 9), .b .i32wrap,
  .ite 0 0 [
    .b (.const (.i64 0#64)), .b (.const (.i64 0#64)), .b (.localGet 2), .b (.localGet 3),
    .call (.std .sub_int128), .b (.localSet 3), .b (.localSet 2)] [],
  .b (.localGet 0), .b (.localGet 1), .b (.localGet 2), .b (.localGet 3), .call (.std .div_int128),
  .b (.localSet 6), .b (.localSet 7), .b (.localSet 4), .b (.localSet 5), .b (.localGet 8),
  .b .i32wrap,
  .ite 0 0 [
    .b (.const (.i64 0#64)), .b (.const (.i64 0#64)), .b (.localGet 7), .b (.localGet 6),
    .call (.std .sub_int128), .b (.localSet 6), .b (.localSet 7)] [],
  .b (.localGet 7), .b (.localGet 6), .ret]

/-- `$stdlib.mod-int`: standard.wat lines 867-913 (signature and locals). -/
def mod_int : Func where
  params := [.i64, .i64, .i64, .i64]
  results := [.i64, .i64]
  locals := [.i64, .i64, .i64, .i64, .i64, .i64, .i64]
  body := mod_int_body

/-- `$stdlib.lt-uint`: standard.wat lines 915-921. Locals: 0 = $a_lo, 1 = $a_hi, 2 = $b_lo, 3 = $b_hi. -/
def lt_uint_body : List Instr := [
  .b (.localGet 0), .b (.localGet 2), .b (.i64rel .ltU), .b (.localGet 1), .b (.localGet 3),
  .b (.i64rel .ltU), .b (.localGet 1), .b (.localGet 3), .b (.i64rel .eq), .b .select]

/-- `$stdlib.lt-uint`: standard.wat lines 915-921 (signature and locals). -/
def lt_uint : Func where
  params := [.i64, .i64, .i64, .i64]
  results := [.i32]
  locals := []
  body := lt_uint_body

/-- `$stdlib.gt-uint`: standard.wat lines 923-929. Locals: 0 = $a_lo, 1 = $a_hi, 2 = $b_lo, 3 = $b_hi. -/
def gt_uint_body : List Instr := [
  .b (.localGet 0), .b (.localGet 2), .b (.i64rel .gtU), .b (.localGet 1), .b (.localGet 3),
  .b (.i64rel .gtU), .b (.localGet 1), .b (.localGet 3), .b (.i64rel .eq), .b .select]

/-- `$stdlib.gt-uint`: standard.wat lines 923-929 (signature and locals). -/
def gt_uint : Func where
  params := [.i64, .i64, .i64, .i64]
  results := [.i32]
  locals := []
  body := gt_uint_body

/-- `$stdlib.le-uint`: standard.wat lines 931-937. Locals: 0 = $a_lo, 1 = $a_hi, 2 = $b_lo, 3 = $b_hi. -/
def le_uint_body : List Instr := [
  .b (.localGet 0), .b (.localGet 2), .b (.i64rel .leU), .b (.localGet 1), .b (.localGet 3),
  .b (.i64rel .leU), .b (.localGet 1), .b (.localGet 3), .b (.i64rel .eq), .b .select]

/-- `$stdlib.le-uint`: standard.wat lines 931-937 (signature and locals). -/
def le_uint : Func where
  params := [.i64, .i64, .i64, .i64]
  results := [.i32]
  locals := []
  body := le_uint_body

/-- `$stdlib.ge-uint`: standard.wat lines 939-945. Locals: 0 = $a_lo, 1 = $a_hi, 2 = $b_lo, 3 = $b_hi. -/
def ge_uint_body : List Instr := [
  .b (.localGet 0), .b (.localGet 2), .b (.i64rel .geU), .b (.localGet 1), .b (.localGet 3),
  .b (.i64rel .geU), .b (.localGet 1), .b (.localGet 3), .b (.i64rel .eq), .b .select]

/-- `$stdlib.ge-uint`: standard.wat lines 939-945 (signature and locals). -/
def ge_uint : Func where
  params := [.i64, .i64, .i64, .i64]
  results := [.i32]
  locals := []
  body := ge_uint_body

/-- `$stdlib.lt-int`: standard.wat lines 947-953. Locals: 0 = $a_lo, 1 = $a_hi, 2 = $b_lo, 3 = $b_hi. -/
def lt_int_body : List Instr := [
  .b (.localGet 0), .b (.localGet 2), .b (.i64rel .ltU), .b (.localGet 1), .b (.localGet 3),
  .b (.i64rel .ltS), .b (.localGet 1), .b (.localGet 3), .b (.i64rel .eq), .b .select]

/-- `$stdlib.lt-int`: standard.wat lines 947-953 (signature and locals). -/
def lt_int : Func where
  params := [.i64, .i64, .i64, .i64]
  results := [.i32]
  locals := []
  body := lt_int_body

/-- `$stdlib.gt-int`: standard.wat lines 955-961. Locals: 0 = $a_lo, 1 = $a_hi, 2 = $b_lo, 3 = $b_hi. -/
def gt_int_body : List Instr := [
  .b (.localGet 0), .b (.localGet 2), .b (.i64rel .gtU), .b (.localGet 1), .b (.localGet 3),
  .b (.i64rel .gtS), .b (.localGet 1), .b (.localGet 3), .b (.i64rel .eq), .b .select]

/-- `$stdlib.gt-int`: standard.wat lines 955-961 (signature and locals). -/
def gt_int : Func where
  params := [.i64, .i64, .i64, .i64]
  results := [.i32]
  locals := []
  body := gt_int_body

/-- `$stdlib.le-int`: standard.wat lines 963-969. Locals: 0 = $a_lo, 1 = $a_hi, 2 = $b_lo, 3 = $b_hi. -/
def le_int_body : List Instr := [
  .b (.localGet 0), .b (.localGet 2), .b (.i64rel .leU), .b (.localGet 1), .b (.localGet 3),
  .b (.i64rel .leS), .b (.localGet 1), .b (.localGet 3), .b (.i64rel .eq), .b .select]

/-- `$stdlib.le-int`: standard.wat lines 963-969 (signature and locals). -/
def le_int : Func where
  params := [.i64, .i64, .i64, .i64]
  results := [.i32]
  locals := []
  body := le_int_body

/-- `$stdlib.ge-int`: standard.wat lines 971-977. Locals: 0 = $a_lo, 1 = $a_hi, 2 = $b_lo, 3 = $b_hi. -/
def ge_int_body : List Instr := [
  .b (.localGet 0), .b (.localGet 2), .b (.i64rel .geU), .b (.localGet 1), .b (.localGet 3),
  .b (.i64rel .geS), .b (.localGet 1), .b (.localGet 3), .b (.i64rel .eq), .b .select]

/-- `$stdlib.ge-int`: standard.wat lines 971-977 (signature and locals). -/
def ge_int : Func where
  params := [.i64, .i64, .i64, .i64]
  results := [.i32]
  locals := []
  body := ge_int_body

/-- `$stdlib.lt-buff`: standard.wat lines 979-1027. Locals: 0 = $offset_a, 1 = $length_a, 2 = $offset_b, 3 = $length_b, 4 = $i, 5 = $sub. -/
def lt_buff_body : List Instr := [
  .block 0 0 [
    .b (.localGet 1), .b (.localGet 3), .b (.localGet 1), .b (.localGet 3), .b (.i32rel .ltU),
    .b .select, .b (.localTee 4), .b .i32eqz, .brIf 0,
    .loop 0 0 [
      .b (.localGet 0), .b (.i32load 1 0), .b (.localGet 2), .b (.i32load 1 0), .b (.i32bin .sub),
      .b (.localTee 5), .b .i32eqz,
      .ite 0 0 [
        .b (.localGet 0), .b (.const (.i32 1#32)), .b (.i32bin .add), .b (.localSet 0),
        .b (.localGet 2), .b (.const (.i32 1#32)), .b (.i32bin .add), .b (.localSet 2),
        .b (.localGet 4), .b (.const (.i32 1#32)), .b (.i32bin .sub), .b (.localTee 4), .brIf 1] []]],
  .b (.localGet 5), .b (.const (.i32 0#32)), .b (.i32rel .ltS), .b (.localGet 1), .b (.localGet 3),
  .b (.i32rel .ltU), .b (.localGet 5), .b .select]

/-- `$stdlib.lt-buff`: standard.wat lines 979-1027 (signature and locals). -/
def lt_buff : Func where
  params := [.i32, .i32, .i32, .i32]
  results := [.i32]
  locals := [.i32, .i32]
  body := lt_buff_body

/-- `$stdlib.gt-buff`: standard.wat lines 1029-1064. Locals: 0 = $offset_a, 1 = $length_a, 2 = $offset_b, 3 = $length_b, 4 = $i, 5 = $sub. -/
def gt_buff_body : List Instr := [
  .block 0 0 [
    .b (.localGet 1), .b (.localGet 3), .b (.localGet 1), .b (.localGet 3), .b (.i32rel .ltU),
    .b .select, .b (.localTee 4), .b .i32eqz, .brIf 0,
    .loop 0 0 [
      .b (.localGet 0), .b (.i32load 1 0), .b (.localGet 2), .b (.i32load 1 0), .b (.i32bin .sub),
      .b (.localTee 5), .b .i32eqz,
      .ite 0 0 [
        .b (.localGet 0), .b (.const (.i32 1#32)), .b (.i32bin .add), .b (.localSet 0),
        .b (.localGet 2), .b (.const (.i32 1#32)), .b (.i32bin .add), .b (.localSet 2),
        .b (.localGet 4), .b (.const (.i32 1#32)), .b (.i32bin .sub), .b (.localTee 4), .brIf 1] []]],
  .b (.localGet 5), .b (.const (.i32 0#32)), .b (.i32rel .gtS), .b (.localGet 1), .b (.localGet 3),
  .b (.i32rel .gtU), .b (.localGet 5), .b .select]

/-- `$stdlib.gt-buff`: standard.wat lines 1029-1064 (signature and locals). -/
def gt_buff : Func where
  params := [.i32, .i32, .i32, .i32]
  results := [.i32]
  locals := [.i32, .i32]
  body := gt_buff_body

/-- `$stdlib.le-buff`: standard.wat lines 1066-1101. Locals: 0 = $offset_a, 1 = $length_a, 2 = $offset_b, 3 = $length_b, 4 = $i, 5 = $sub. -/
def le_buff_body : List Instr := [
  .block 0 0 [
    .b (.localGet 1), .b (.localGet 3), .b (.localGet 1), .b (.localGet 3), .b (.i32rel .ltU),
    .b .select, .b (.localTee 4), .b .i32eqz, .brIf 0,
    .loop 0 0 [
      .b (.localGet 0), .b (.i32load 1 0), .b (.localGet 2), .b (.i32load 1 0), .b (.i32bin .sub),
      .b (.localTee 5), .b .i32eqz,
      .ite 0 0 [
        .b (.localGet 0), .b (.const (.i32 1#32)), .b (.i32bin .add), .b (.localSet 0),
        .b (.localGet 2), .b (.const (.i32 1#32)), .b (.i32bin .add), .b (.localSet 2),
        .b (.localGet 4), .b (.const (.i32 1#32)), .b (.i32bin .sub), .b (.localTee 4), .brIf 1] []]],
  .b (.localGet 5), .b (.const (.i32 0#32)), .b (.i32rel .leS), .b (.localGet 1), .b (.localGet 3),
  .b (.i32rel .leU), .b (.localGet 5), .b .select]

/-- `$stdlib.le-buff`: standard.wat lines 1066-1101 (signature and locals). -/
def le_buff : Func where
  params := [.i32, .i32, .i32, .i32]
  results := [.i32]
  locals := [.i32, .i32]
  body := le_buff_body

/-- `$stdlib.ge-buff`: standard.wat lines 1103-1138. Locals: 0 = $offset_a, 1 = $length_a, 2 = $offset_b, 3 = $length_b, 4 = $i, 5 = $sub. -/
def ge_buff_body : List Instr := [
  .block 0 0 [
    .b (.localGet 1), .b (.localGet 3), .b (.localGet 1), .b (.localGet 3), .b (.i32rel .ltU),
    .b .select, .b (.localTee 4), .b .i32eqz, .brIf 0,
    .loop 0 0 [
      .b (.localGet 0), .b (.i32load 1 0), .b (.localGet 2), .b (.i32load 1 0), .b (.i32bin .sub),
      .b (.localTee 5), .b .i32eqz,
      .ite 0 0 [
        .b (.localGet 0), .b (.const (.i32 1#32)), .b (.i32bin .add), .b (.localSet 0),
        .b (.localGet 2), .b (.const (.i32 1#32)), .b (.i32bin .add), .b (.localSet 2),
        .b (.localGet 4), .b (.const (.i32 1#32)), .b (.i32bin .sub), .b (.localTee 4), .brIf 1] []]],
  .b (.localGet 5), .b (.const (.i32 0#32)), .b (.i32rel .geS), .b (.localGet 1), .b (.localGet 3),
  .b (.i32rel .geU), .b (.localGet 5), .b .select]

/-- `$stdlib.ge-buff`: standard.wat lines 1103-1138 (signature and locals). -/
def ge_buff : Func where
  params := [.i32, .i32, .i32, .i32]
  results := [.i32]
  locals := [.i32, .i32]
  body := ge_buff_body

/-- `$log2`: standard.wat lines 1140-1146. Locals: 0 = $lo, 1 = $hi. -/
def log2_body : List Instr := [
  .b (.localGet 0), .b .i64clz, .b (.const (.i64 63#64)), .b (.i64bin .xor), .b (.localGet 1),
  .b .i64clz, .b (.const (.i64 127#64)), .b (.i64bin .xor), .b (.localGet 1), .b .i64eqz, .b .select]

/-- `$log2`: standard.wat lines 1140-1146 (signature and locals). -/
def log2 : Func where
  params := [.i64, .i64]
  results := [.i64]
  locals := []
  body := log2_body

/-- `$stdlib.log2-uint`: standard.wat lines 1148-1154. Locals: 0 = $lo, 1 = $hi. -/
def log2_uint_body : List Instr := [
  .b (.localGet 1), .b (.localGet 0), .b (.i64bin .or), .b .i64eqz,
  .ite 0 0 [
    .b (.const (.i32 3#32)), .call (.std .runtime_error)] [],
  .b (.localGet 0), .b (.localGet 1), .call (.std .log2), .b (.const (.i64 0#64))]

/-- `$stdlib.log2-uint`: standard.wat lines 1148-1154 (signature and locals). -/
def log2_uint : Func where
  params := [.i64, .i64]
  results := [.i64, .i64]
  locals := []
  body := log2_uint_body

/-- `$stdlib.log2-int`: standard.wat lines 1156-1162. Locals: 0 = $lo, 1 = $hi. -/
def log2_int_body : List Instr := [
  .b (.localGet 0), .b (.localGet 1), .b (.const (.i64 0#64)), .b (.const (.i64 0#64)),
  .call (.std .le_int),
  .ite 0 0 [
    .b (.const (.i32 3#32)), .call (.std .runtime_error)] [],
  .b (.localGet 0), .b (.localGet 1), .call (.std .log2), .b (.const (.i64 0#64))]

/-- `$stdlib.log2-int`: standard.wat lines 1156-1162 (signature and locals). -/
def log2_int : Func where
  params := [.i64, .i64]
  results := [.i64, .i64]
  locals := []
  body := log2_int_body

/-- `$stdlib.sqrti-uint`: standard.wat lines 1164-1255. Locals: 0 = $lo, 1 = $hi, 2 = $d_lo, 3 = $d_hi, 4 = $c_lo, 5 = $c_hi, 6 = $tmp_lo, 7 = $tmp_hi. -/
def sqrti_uint_body : List Instr := [
  .b (.localGet 0), .b (.localGet 1), .b (.i64bin .or), .b .i64eqz,
  .ite 0 0 [
    .b (.const (.i64 0#64)), .b (.const (.i64 0#64)), .ret] [],
  .b (.const (.i64 0#64)), .b (.localSet 4), .b (.const (.i64 0#64)), .b (.localSet 5),
  .b (.localGet 1), .b .i64eqz,
  .ite 0 0 [
    .b (.const (.i64 4611686018427387904#64)), .b (.localSet 3),
    .loop 0 0 [
      .b (.localGet 3), .b (.localTee 2), .b (.const (.i64 2#64)), .b (.i64bin .shrU),
      .b (.localSet 3), .b (.localGet 0), .b (.localGet 2), .b (.i64rel .ltU), .brIf 0],
    .b (.const (.i64 0#64)), .b (.localSet 3)] [
    .b (.const (.i64 4611686018427387904#64)), .b (.localSet 2),
    .loop 0 0 [
      .b (.localGet 2), .b (.localTee 3), .b (.const (.i64 2#64)), .b (.i64bin .shrU),
      .b (.localSet 2), .b (.localGet 1), .b (.localGet 3), .b (.i64rel .ltU), .brIf 0],
    .b (.const (.i64 0#64)), .b (.localSet 2)],
  .loop 0 0 [
    .b (.localGet 4), .b (.localGet 5), .b (.localGet 2), .b (.localGet 3), .call (.std .add_int128),
    .b (.localSet 7), .b (.localSet 6), .b (.localGet 5), .b (.const (.i64 63#64)),
    .b (.i64bin .shl), .b (.localGet 4), .b (.const (.i64 1#64)), .b (.i64bin .shrU),
    .b (.i64bin .or), .b (.localSet 4), .b (.localGet 5), .b (.const (.i64 1#64)),
    .b (.i64bin .shrU), .b (.localSet 5), .b (.localGet 0), .b (.localGet 1), .b (.localGet 6),
    .b (.localGet 7), .call (.std .ge_uint),
    .ite 0 0 [
      .b (.localGet 0), .b (.localGet 1), .b (.localGet 6), .b (.localGet 7),
      .call (.std .sub_int128), .b (.localSet 1), .b (.localSet 0), .b (.localGet 4),
      .b (.localGet 5), .b (.localGet 2), .b (.localGet 3), .call (.std .add_int128),
      .b (.localSet 5), .b (.localSet 4)] [],
    .b (.localGet 3), .b (.const (.i64 62#64)), .b (.i64bin .shl), .b (.localGet 2),
    .b (.const (.i64 2#64)), .b (.i64bin .shrU), .b (.i64bin .or), .b (.localSet 2),
    .b (.localGet 3), .b (.const (.i64 2#64)), .b (.i64bin .shrU), .b (.localSet 3),
    .b (.localGet 2), .b (.localGet 3), .b (.i64bin .or), .b (.const (.i64 0#64)), .b (.i64rel .ne),
    .brIf 0],
  .b (.localGet 4), .b (.localGet 5)]

/-- `$stdlib.sqrti-uint`: standard.wat lines 1164-1255 (signature and locals). -/
def sqrti_uint : Func where
  params := [.i64, .i64]
  results := [.i64, .i64]
  locals := [.i64, .i64, .i64, .i64, .i64, .i64]
  body := sqrti_uint_body

/-- `$stdlib.sqrti-int`: standard.wat lines 1257-1262. Locals: 0 = $lo, 1 = $hi. -/
def sqrti_int_body : List Instr := [
  .b (.localGet 1), .b (.const (.i64 0#64)), .b (.i64rel .ltS),
  .ite 0 0 [
    .b (.const (.i32 4#32)), .call (.std .runtime_error)] [],
  .b (.localGet 0), .b (.localGet 1), .call (.std .sqrti_uint)]

/-- `$stdlib.sqrti-int`: standard.wat lines 1257-1262 (signature and locals). -/
def sqrti_int : Func where
  params := [.i64, .i64]
  results := [.i64, .i64]
  locals := []
  body := sqrti_int_body

/-- `$stdlib.bit-and`: standard.wat lines 1264-1267. Locals: 0 = $a_lo, 1 = $a_hi, 2 = $b_lo, 3 = $b_hi. -/
def bit_and_body : List Instr := [
  .b (.localGet 0), .b (.localGet 2), .b (.i64bin .and), .b (.localGet 1), .b (.localGet 3),
  .b (.i64bin .and)]

/-- `$stdlib.bit-and`: standard.wat lines 1264-1267 (signature and locals). -/
def bit_and : Func where
  params := [.i64, .i64, .i64, .i64]
  results := [.i64, .i64]
  locals := []
  body := bit_and_body

/-- `$stdlib.bit-not`: standard.wat lines 1269-1273. Locals: 0 = $a_lo, 1 = $a_hi. -/
def bit_not_body : List Instr := [
  .b (.localGet 0), .b (.const (.i64 18446744073709551615#64)), .b (.i64bin .xor), .b (.localGet 1),
  .b (.const (.i64 18446744073709551615#64)), .b (.i64bin .xor)]

/-- `$stdlib.bit-not`: standard.wat lines 1269-1273 (signature and locals). -/
def bit_not : Func where
  params := [.i64, .i64]
  results := [.i64, .i64]
  locals := []
  body := bit_not_body

/-- `$stdlib.bit-or`: standard.wat lines 1275-1278. Locals: 0 = $a_lo, 1 = $a_hi, 2 = $b_lo, 3 = $b_hi. -/
def bit_or_body : List Instr := [
  .b (.localGet 0), .b (.localGet 2), .b (.i64bin .or), .b (.localGet 1), .b (.localGet 3),
  .b (.i64bin .or)]

/-- `$stdlib.bit-or`: standard.wat lines 1275-1278 (signature and locals). -/
def bit_or : Func where
  params := [.i64, .i64, .i64, .i64]
  results := [.i64, .i64]
  locals := []
  body := bit_or_body

/-- `$stdlib.bit-xor`: standard.wat lines 1280-1283. Locals: 0 = $a_lo, 1 = $a_hi, 2 = $b_lo, 3 = $b_hi. -/
def bit_xor_body : List Instr := [
  .b (.localGet 0), .b (.localGet 2), .b (.i64bin .xor), .b (.localGet 1), .b (.localGet 3),
  .b (.i64bin .xor)]

/-- `$stdlib.bit-xor`: standard.wat lines 1280-1283 (signature and locals). -/
def bit_xor : Func where
  params := [.i64, .i64, .i64, .i64]
  results := [.i64, .i64]
  locals := []
  body := bit_xor_body

/-- `$stdlib.bit-shift-left`: standard.wat lines 1285-1305. Locals: 0 = $a_lo, 1 = $a_hi, 2 = $b_lo, 3 = $b_hi. -/
def bit_shift_left_body : List Instr := [
  .b (.localGet 2), .b (.const (.i64 127#64)), .b (.i64bin .and), .b (.localSet 2), .b (.localGet 2),
  .b (.const (.i64 64#64)), .b (.i64rel .ltU),
  .ite 0 2 [
    .b (.const (.i64 0#64)), .b (.localGet 0), .b (.const (.i64 64#64)), .b (.localGet 2),
    .b (.i64bin .sub), .b (.i64bin .shrU), .b (.localGet 2), .b .i64eqz, .b .select,
    .b (.localSet 3), .b (.localGet 0), .b (.localGet 2), .b (.i64bin .shl), .b (.localGet 1),
    .b (.localGet 2), .b (.i64bin .shl), .b (.localGet 3), .b (.i64bin .or)] [
    .b (.const (.i64 0#64)), .b (.localGet 0), .b (.localGet 2), .b (.const (.i64 64#64)),
    .b (.i64bin .sub), .b (.i64bin .shl)]]

/-- `$stdlib.bit-shift-left`: standard.wat lines 1285-1305 (signature and locals). -/
def bit_shift_left : Func where
  params := [.i64, .i64, .i64, .i64]
  results := [.i64, .i64]
  locals := []
  body := bit_shift_left_body

/-- `$stdlib.bit-shift-right-uint`: standard.wat lines 1307-1328. Locals: 0 = $a_lo, 1 = $a_hi, 2 = $b_lo, 3 = $b_hi. -/
def bit_shift_right_uint_body : List Instr := [
  .b (.localGet 2), .b (.const (.i64 127#64)), .b (.i64bin .and), .b (.localSet 2), .b (.localGet 2),
  .b (.const (.i64 64#64)), .b (.i64rel .ltU),
  .ite 0 2 [
    .b (.const (.i64 0#64)), .b (.localGet 1), .b (.const (.i64 64#64)), .b (.localGet 2),
    .b (.i64bin .sub), .b (.i64bin .shl), .b (.localGet 2), .b .i64eqz, .b .select, .b (.localSet 3),
    .b (.localGet 0), .b (.localGet 2), .b (.i64bin .shrU), .b (.localGet 3), .b (.i64bin .or),
    .b (.localGet 1), .b (.localGet 2), .b (.i64bin .shrU)] [
    .b (.localGet 1), .b (.localGet 2), .b (.const (.i64 64#64)), .b (.i64bin .sub),
    .b (.i64bin .shrU), .b (.const (.i64 0#64))]]

/-- `$stdlib.bit-shift-right-uint`: standard.wat lines 1307-1328 (signature and locals). -/
def bit_shift_right_uint : Func where
  params := [.i64, .i64, .i64, .i64]
  results := [.i64, .i64]
  locals := []
  body := bit_shift_right_uint_body

/-- `$stdlib.bit-shift-right-int`: standard.wat lines 1330-1346. Locals: 0 = $a_lo, 1 = $a_hi, 2 = $b_lo, 3 = $b_hi. -/
def bit_shift_right_int_body : List Instr := [
  .b (.localGet 2), .b (.const (.i64 127#64)), .b (.i64bin .and), .b (.localSet 2), .b (.localGet 2),
  .b (.const (.i64 64#64)), .b (.i64rel .ltU),
  .ite 0 2 [
    .b (.const (.i64 0#64)), .b (.localGet 1), .b (.const (.i64 64#64)), .b (.localGet 2),
    .b (.i64bin .sub), .b (.i64bin .shl), .b (.localGet 2), .b .i64eqz, .b .select, .b (.localSet 3),
    .b (.localGet 0), .b (.localGet 2), .b (.i64bin .shrU), .b (.localGet 3), .b (.i64bin .or),
    .b (.localGet 1), .b (.localGet 2), .b (.i64bin .shrS)] [
    .b (.localGet 1), .b (.localGet 2), .b (.const (.i64 64#64)), .b (.i64bin .sub),
    .b (.i64bin .shrS), .b (.localGet 1), .b (.const (.i64 63#64)), .b (.i64bin .shrS)]]

/-- `$stdlib.bit-shift-right-int`: standard.wat lines 1330-1346 (signature and locals). -/
def bit_shift_right_int : Func where
  params := [.i64, .i64, .i64, .i64]
  results := [.i64, .i64]
  locals := []
  body := bit_shift_right_int_body

/-- `$clz-int128`: standard.wat lines 1348-1356. Locals: 0 = $a_lo, 1 = $a_hi. -/
def clz_int128_body : List Instr := [
  .b (.const (.i64 64#64)), .b (.localGet 0), .b .i64clz, .b (.i64bin .add), .b (.localGet 1),
  .b .i64clz, .b (.localGet 1), .b .i64eqz, .b .select, .b .i32wrap]

/-- `$clz-int128`: standard.wat lines 1348-1356 (signature and locals). -/
def clz_int128 : Func where
  params := [.i64, .i64]
  results := [.i32]
  locals := []
  body := clz_int128_body

/-- `$pow-inner`: standard.wat lines 1358-1383. Locals: 0 = $a_lo, 1 = $a_hi, 2 = $b, 3 = $carry_lo, 4 = $carry_hi. -/
def pow_inner_body : List Instr := [
  .b (.const (.i64 1#64)), .b (.localSet 3), .b (.const (.i64 0#64)), .b (.localSet 4),
  .loop 0 0 [
    .b (.localGet 2), .b (.const (.i32 1#32)), .b (.i32bin .and), .b .i32eqz,
    .ite 0 0 [
      .b (.localGet 2), .b (.const (.i32 1#32)), .b (.i32bin .shrU), .b (.localSet 2),
      .b (.localGet 0), .b (.localGet 1), .b (.localGet 0), .b (.localGet 1), .call (.std .mul_uint),
      .b (.localSet 1), .b (.localSet 0)] [
      .b (.localGet 2), .b (.const (.i32 1#32)), .b (.i32bin .xor), .b (.localSet 2),
      .b (.localGet 0), .b (.localGet 1), .b (.localGet 3), .b (.localGet 4), .call (.std .mul_uint),
      .b (.localSet 4), .b (.localSet 3)],
    .b (.localGet 2), .b (.const (.i32 1#32)), .b (.i32rel .gtU), .brIf 0],
  .b (.localGet 0), .b (.localGet 1), .b (.localGet 3), .b (.localGet 4), .call (.std .mul_uint)]

/-- `$pow-inner`: standard.wat lines 1358-1383 (signature and locals). -/
def pow_inner : Func where
  params := [.i64, .i64, .i32]
  results := [.i64, .i64]
  locals := [.i64, .i64]
  body := pow_inner_body

/-- `$stdlib.pow-uint`: standard.wat lines 1385-1430. Locals: 0 = $a_lo, 1 = $a_hi, 2 = $b_lo, 3 = $b_hi. -/
def pow_uint_body : List Instr := [
  .b (.localGet 2), .b (.localGet 3), .b (.i64bin .or), .b .i64eqz,
  .ite 0 0 [
    .b (.const (.i64 1#64)), .b (.const (.i64 0#64)), .ret] [],
  .b (.localGet 0), .b (.const (.i64 2#64)), .b (.i64rel .ltU), .b (.localGet 1), .b .i64eqz,
  .b (.i32bin .and), .b (.localGet 2), .b (.const (.i64 1#64)), .b (.i64bin .xor), .b (.localGet 3),
  .b (.i64bin .or), .b .i64eqz, .b (.i32bin .or),
  .ite 0 0 [
    .b (.localGet 0), .b (.localGet 1), .ret] [],
  .b (.localGet 2), .b (.const (.i64 127#64)), .b (.i64rel .gtU), .b (.localGet 3),
  .b (.const (.i64 0#64)), .b (.i64rel .ne), .b (.i32bin .or),
  .ite 0 0 [
    .b (.const (.i32 8#32)), .call (.std .runtime_error)] [],
  .b (.localGet 0), .b (.const (.i64 2#64)), .b (.i64bin .xor), .b (.localGet 1), .b (.i64bin .or),
  .b .i64eqz,
  .ite 0 0 [
    .b (.const (.i64 1#64)), .b (.localGet 2), .b (.i64bin .shl), .b (.const (.i64 0#64)),
    .b (.localGet 2), .b (.const (.i64 64#64)), .b (.i64rel .ltU), .b .select,
    .b (.const (.i64 0#64)), .b (.const (.i64 1#64)), .b (.localGet 2), .b (.const (.i64 64#64)),
    .b (.i64bin .sub), .b (.i64bin .shl), .b (.localGet 2), .b (.const (.i64 64#64)),
    .b (.i64rel .ltU), .b .select, .ret] [],
  .b (.localGet 0), .b (.localGet 1), .b (.localGet 2), .b .i32wrap, .call (.std .pow_inner)]

/-- `$stdlib.pow-uint`: standard.wat lines 1385-1430 (signature and locals). -/
def pow_uint : Func where
  params := [.i64, .i64, .i64, .i64]
  results := [.i64, .i64]
  locals := []
  body := pow_uint_body

/-- `$stdlib.pow-int`: standard.wat lines 1432-1550. Locals: 0 = $a_lo, 1 = $a_hi, 2 = $b_lo, 3 = $b_hi, 4 = $negative. -/
def pow_int_body : List Instr := [
  .b (.localGet 2), .b (.localGet 3), .b (.i64bin .or), .b .i64eqz,
  .ite 0 0 [
    .b (.const (.i64 1#64)), .b (.const (.i64 0#64)), .ret] [],
  .b (.localGet 0), .b (.const (.i64 2#64)), .b (.i64rel .ltU), .b (.localGet 1), .b .i64eqz,
  .b (.i32bin .and), .b (.localGet 2), .b (.const (.i64 1#64)), .b (.i64bin .xor), .b (.localGet 3),
  .b (.i64bin .or), .b .i64eqz, .b (.i32bin .or),
  .ite 0 0 [
    .b (.localGet 0), .b (.localGet 1), .ret] [],
  .b (.localGet 3), .b (.const (.i64 0#64)), .b (.i64rel .ltS),
  .ite 0 0 [
    .b (.const (.i32 8#32)), .call (.std .runtime_error)] [],
  .b (.localGet 2), .b (.const (.i64 126#64)), .b (.localGet 1), .b (.const (.i64 0#64)),
  .b (.i64rel .ltS), .b .i64extU, .b (.i64bin .add), .b (.i64rel .gtU), .b (.localGet 3),
  .b (.const (.i64 0#64)), .b (.i64rel .ne), .b (.i32bin .or),
  .ite 0 0 [
    .b (.const (.i32 8#32)), .call (.std .runtime_error)] [],
  .b (.localGet 0), .b (.const (.i64 2#64)), .b (.i64bin .xor), .b (.localGet 1), .b (.i64bin .or),
  .b .i64eqz,
  .ite 0 0 [
    .b (.const (.i64 1#64)), .b (.localGet 2), .b (.i64bin .shl), .b (.const (.i64 0#64)),
    .b (.localGet 2), .b (.const (.i64 64#64)), .b (.i64rel .ltU), .b (.localTee 4), .b .select,
    .b (.const (.i64 0#64)), .b (.const (.i64 1#64)), .b (.localGet 2), .b (.const (.i64 64#64)),
    .b (.i64bin .sub), .b (.i64bin .shl), .b (.localGet 4), .b .select, .ret] [],
  .b (.localGet 0), .b (.const (.i64 18446744073709551614#64)), .b (.i64rel .eq), .b (.localGet 1),
  .b (.const (.i64 18446744073709551615#64)), .b (.i64rel .eq), .b (.i32bin .and),
  .ite 0 0 [
    .b (.const (.i64 18446744073709551615#64)), .b (.const (.i64 1#64)), .b (.localGet 2),
    .b (.const (.i64 1#64)), .b (.i64bin .and), .b .i32wrap, .b (.localTee 4), .b .select,
    .b (.localSet 0), .b (.const (.i64 18446744073709551615#64)), .b (.const (.i64 0#64)),
    .b (.localGet 4), .b .select, .b (.localSet 1), .b (.localGet 0), .b (.localGet 2),
    .b (.i64bin .shl), .b (.const (.i64 0#64)), .b (.localGet 2), .b (.const (.i64 64#64)),
    .b (.i64rel .ltU), .b (.localTee 4), .b .select, .b (.localGet 1), .b (.localGet 0),
    .b (.localGet 2), .b (.const (.i64 64#64)), .b (.i64bin .sub), .b (.i64bin .shl),
    .b (.localGet 4), .b .select, .ret] [],
  .b (.const (.i64 0#64)), .b (.localGet 0), .b (.i64bin .sub), .b (.localGet 0), .b (.localGet 1),
  .b (.const (.i64 0#64)), .b (.i64rel .ltS), .b (.localTee 4), .b .select, .b (.const (.i64 0#64)),
  .b (.localGet 1), .b (.localGet 0), .b (.const (.i64 0#64)), .b (.i64rel .ne), .b .i64extU,
  .b (.i64bin .add), .b (.i64bin .sub), .b (.localGet 1), .b (.localGet 4), .b .select,
  .b (.localGet 2), .b .i32wrap, .b (.localTee 4), .b (.localGet 1), .b (.const (.i64 0#64)),
  .b (.i64rel .ltS), .b (.localGet 4), .b (.const (.i32 1#32)), .b (.i32bin .and), .b (.i32bin .and),
  .b (.localSet 4), .call (.std .pow_inner), .b (.localSet 1), .b (.localSet 0), .b (.localGet 1),
  .b (.const (.i64 0#64)), .b (.i64rel .ltS),
  .ite 0 0 [
    .b (.const (.i32 0#32)), .call (.std .runtime_error)] [],
  .b (.localGet 4),
  .ite 0 2 [
    .b (.const (.i64 0#64)), .b (.localGet 0), .b (.i64bin .sub), .b (.const (.i64 0#64)),
    .b (.localGet 1), .b (.localGet 0), .b (.const (.i64 0#64)), .b (.i64rel .ne), .b .i64extU,
    .b (.i64bin .add), .b (.i64bin .sub)] [
    .b (.localGet 0), .b (.localGet 1)]]

/-- `$stdlib.pow-int`: standard.wat lines 1432-1550 (signature and locals). -/
def pow_int : Func where
  params := [.i64, .i64, .i64, .i64]
  results := [.i64, .i64]
  locals := [.i32]
  body := pow_int_body

/-- `$stdlib.sha256-buf`: standard.wat lines 1552-1588. Locals: 0 = $offset, 1 = $length, 2 = $offset-result, 3 = $i. -/
def sha256_buf_body : List Instr := [
  .b (.localGet 0), .b (.localGet 1), .call (.std .extend_data), .b (.localSet 1),
  .b (.const (.i32 0#32)), .b (.localSet 3),
  .loop 0 0 [
    .b (.localGet 3), .call (.std .block64), .call (.std .working_vars), .b (.localGet 3),
    .b (.const (.i32 64#32)), .b (.i32bin .add), .b (.localTee 3), .b (.localGet 1),
    .b (.i32rel .ltU), .brIf 0],
  .b (.localGet 2), .b (.global32Get .stackPointer), .b (.v128load 0),
  .b (.const (.v128 0xc0d0e0f08090a0b0405060700010203#128)), .b .i8x16swizzle, .b (.v128store 0),
  .b (.localGet 2), .b (.global32Get .stackPointer), .b (.v128load 16),
  .b (.const (.v128 0xc0d0e0f08090a0b0405060700010203#128)), .b .i8x16swizzle, .b (.v128store 16),
  .b (.localGet 2), .b (.const (.i32 32#32))]

/-- `$stdlib.sha256-buf`: standard.wat lines 1552-1588 (signature and locals). -/
def sha256_buf : Func where
  params := [.i32, .i32, .i32]
  results := [.i32, .i32]
  locals := [.i32]
  body := sha256_buf_body

/-- `$stdlib.sha256-int`: standard.wat lines 1590-1622. Locals: 0 = $lo, 1 = $hi, 2 = $offset-result. -/
def sha256_int_body : List Instr := [
  .b (.global32Get .stackPointer), .b (.const (.i32 0#32)), .b (.const (.i32 32#32)), .b .memCopy,
  .b (.global32Get .stackPointer), .b (.localGet 0), .b (.i64store 8 288),
  .b (.global32Get .stackPointer), .b (.localGet 1), .b (.i64store 8 296),
  .b (.global32Get .stackPointer), .b (.const (.i32 128#32)), .b (.i32store 4 304),
  .b (.global32Get .stackPointer), .b (.const (.i32 308#32)), .b (.i32bin .add),
  .b (.const (.i32 0#32)), .b (.const (.i32 46#32)), .b .memFill, .b (.global32Get .stackPointer),
  .b (.const (.i32 128#32)), .b (.i32store 1 351), .b (.const (.i32 0#32)), .call (.std .block64),
  .call (.std .working_vars), .b (.localGet 2), .b (.global32Get .stackPointer), .b (.v128load 0),
  .b (.const (.v128 0xc0d0e0f08090a0b0405060700010203#128)), .b .i8x16swizzle, .b (.v128store 0),
  .b (.localGet 2), .b (.global32Get .stackPointer), .b (.v128load 16),
  .b (.const (.v128 0xc0d0e0f08090a0b0405060700010203#128)), .b .i8x16swizzle, .b (.v128store 16),
  .b (.localGet 2), .b (.const (.i32 32#32))]

/-- `$stdlib.sha256-int`: standard.wat lines 1590-1622 (signature and locals). -/
def sha256_int : Func where
  params := [.i64, .i64, .i32]
  results := [.i32, .i32]
  locals := []
  body := sha256_int_body

/-- `$extend-data`: standard.wat lines 1624-1686. Locals: 0 = $offset, 1 = $length, 2 = $res_len, 3 = $len64. -/
def extend_data_body : List Instr := [
  .b (.global32Get .stackPointer), .b (.const (.i32 0#32)), .b (.const (.i32 32#32)), .b .memCopy,
  .b (.global32Get .stackPointer), .b (.const (.i32 288#32)), .b (.i32bin .add), .b (.localGet 0),
  .b (.localGet 1), .b .memCopy, .b (.localGet 1), .b (.const (.i32 8#32)), .b (.i32bin .add),
  .b (.const (.i32 63#32)), .b (.i32bin .or), .b (.const (.i32 1#32)), .b (.i32bin .add),
  .b (.localSet 2), .b (.global32Get .stackPointer), .b (.localGet 1), .b (.i32bin .add),
  .b (.const (.i32 128#32)), .b (.i32store 4 288), .b (.global32Get .stackPointer), .b (.localGet 1),
  .b (.i32bin .add), .b (.const (.i32 289#32)), .b (.i32bin .add), .b (.const (.i32 0#32)),
  .b (.localGet 2), .b (.localGet 1), .b (.i32bin .sub), .b (.const (.i32 8#32)), .b (.i32bin .sub),
  .b .memFill, .b (.localGet 1), .b (.const (.i32 3#32)), .b (.i32bin .shl), .b .i64extU,
  .b (.localSet 3), .b (.global32Get .stackPointer), .b (.localGet 2), .b (.i32bin .add),
  .b (.const (.i32 8#32)), .b (.i32bin .sub), .b (.localGet 3), .b (.const (.i64 56#64)),
  .b (.i64bin .shl), .b (.localGet 3), .b (.const (.i64 65280#64)), .b (.i64bin .and),
  .b (.const (.i64 40#64)), .b (.i64bin .shl), .b (.i64bin .or), .b (.localGet 3),
  .b (.const (.i64 16711680#64)), .b (.i64bin .and), .b (.const (.i64 24#64)), .b (.i64bin .shl),
  .b (.localGet 3), .b (.const (.i64 4278190080#64)), .b (.i64bin .and), .b (.const (.i64 8#64)),
  .b (.i64bin .shl), .b (.i64bin .or), .b (.i64bin .or), .b (.localGet 3), .b (.const (.i64 8#64)),
  .b (.i64bin .shrU), .b (.const (.i64 4278190080#64)), .b (.i64bin .and), .b (.localGet 3),
  .b (.const (.i64 24#64)), .b (.i64bin .shrU), .b (.const (.i64 16711680#64)), .b (.i64bin .and),
  .b (.i64bin .or), .b (.localGet 3), .b (.const (.i64 40#64)), .b (.i64bin .shrU),
  .b (.const (.i64 65280#64)), .b (.i64bin .and), .b (.localGet 3), .b (.const (.i64 56#64)),
  .b (.i64bin .shrU), .b (.i64bin .or), .b (.i64bin .or), .b (.i64bin .or), .b (.i64store 8 288),
  .b (.localGet 2)]

/-- `$extend-data`: standard.wat lines 1624-1686 (signature and locals). -/
def extend_data : Func where
  params := [.i32, .i32]
  results := [.i32]
  locals := [.i32, .i64]
  body := extend_data_body

/-- `$block64`: standard.wat lines 1688-1746. Locals: 0 = $data, 1 = $origin, 2 = $i, 3 = $tmp. -/
def block64_body : List Instr := [
  .b (.global32Get .stackPointer), .b (.localSet 1), .b (.localGet 1), .b (.localGet 0),
  .b (.i32bin .add), .b (.localSet 0), .b (.const (.i32 0#32)), .b (.localSet 2),
  .loop 0 0 [
    .b (.localGet 1), .b (.localGet 2), .b (.i32bin .add), .b (.localGet 0), .b (.localGet 2),
    .b (.i32bin .add), .b (.v128load 288), .b (.const (.v128 0xc0d0e0f08090a0b0405060700010203#128)),
    .b .i8x16swizzle, .b (.v128store 32), .b (.localGet 2), .b (.const (.i32 16#32)),
    .b (.i32bin .add), .b (.localTee 2), .b (.const (.i32 64#32)), .b (.i32rel .ltU), .brIf 0],
  .b (.const (.i32 0#32)), .b (.localSet 2),
  .loop 0 0 [
    .b (.localGet 1), .b (.localGet 2), .b (.i32bin .add), .b (.localSet 0), .b (.localGet 0),
    .b (.const (.i32 64#32)), .b (.i32bin .add), .b (.localGet 0), .b (.i32load 4 32),
    .b (.localGet 0), .b (.i32load 4 36), .b (.localSet 3), .b (.localGet 3),
    .b (.const (.i32 7#32)), .b (.i32bin .rotr), .b (.localGet 3), .b (.const (.i32 18#32)),
    .b (.i32bin .rotr), .b (.i32bin .xor), .b (.localGet 3), .b (.const (.i32 3#32)),
    .b (.i32bin .shrU), .b (.i32bin .xor), .b (.i32bin .add), .b (.localGet 0), .b (.i32load 4 68),
    .b (.i32bin .add), .b (.localGet 0), .b (.i32load 4 88), .b (.localSet 3), .b (.localGet 3),
    .b (.const (.i32 17#32)), .b (.i32bin .rotr), .b (.localGet 3), .b (.const (.i32 19#32)),
    .b (.i32bin .rotr), .b (.i32bin .xor), .b (.localGet 3), .b (.const (.i32 10#32)),
    .b (.i32bin .shrU), .b (.i32bin .xor), .b (.i32bin .add), .b (.i32store 4 32), .b (.localGet 2),
    .b (.const (.i32 4#32)), .b (.i32bin .add), .b (.localTee 2), .b (.const (.i32 192#32)),
    .b (.i32rel .ltU), .brIf 0]]

/-- `$block64`: standard.wat lines 1688-1746 (signature and locals). -/
def block64 : Func where
  params := [.i32]
  results := []
  locals := [.i32, .i32, .i32]
  body := block64_body

/-- `$working-vars`: standard.wat lines 1748-1822. Locals: 0 = $origin, 1 = $a, 2 = $b, 3 = $c, 4 = $d, 5 = $e, 6 = $f, 7 = $g, 8 = $h, 9 = $temp1, 10 = $temp2, 11 = $i. -/
def working_vars_body : List Instr := [
  .b (.global32Get .stackPointer), .b (.localSet 0), .b (.localGet 0), .b (.i32load 4 0),
  .b (.localSet 1), .b (.localGet 0), .b (.i32load 4 4), .b (.localSet 2), .b (.localGet 0),
  .b (.i32load 4 8), .b (.localSet 3), .b (.localGet 0), .b (.i32load 4 12), .b (.localSet 4),
  .b (.localGet 0), .b (.i32load 4 16), .b (.localSet 5), .b (.localGet 0), .b (.i32load 4 20),
  .b (.localSet 6), .b (.localGet 0), .b (.i32load 4 24), .b (.localSet 7), .b (.localGet 0),
  .b (.i32load 4 28), .b (.localSet 8), .b (.const (.i32 0#32)), .b (.localSet 11),
  .loop 0 0 [
    .b (.localGet 8), .b (.localGet 5), .b (.const (.i32 6#32)), .b (.i32bin .rotr),
    .b (.localGet 5), .b (.const (.i32 11#32)), .b (.i32bin .rotr), .b (.i32bin .xor),
    .b (.localGet 5), .b (.const (.i32 25#32)), .b (.i32bin .rotr), .b (.i32bin .xor),
    .b (.i32bin .add), .b (.localGet 5), .b (.localGet 6), .b (.i32bin .and), .b (.localGet 5),
    .b (.const (.i32 4294967295#32)), .b (.i32bin .xor), .b (.localGet 7), .b (.i32bin .and),
    .b (.i32bin .xor), .b (.i32bin .add), .b (.localGet 11), .b (.i32load 4 32), .b (.i32bin .add),
    .b (.localGet 0), .b (.localGet 11), .b (.i32bin .add), .b (.i32load 4 32), .b (.i32bin .add),
    .b (.localSet 9), .b (.localGet 1), .b (.const (.i32 2#32)), .b (.i32bin .rotr),
    .b (.localGet 1), .b (.const (.i32 13#32)), .b (.i32bin .rotr), .b (.i32bin .xor),
    .b (.localGet 1), .b (.const (.i32 22#32)), .b (.i32bin .rotr), .b (.i32bin .xor),
    .b (.localGet 1), .b (.localGet 2), .b (.i32bin .and), .b (.localGet 1), .b (.localGet 3),
    .b (.i32bin .and), .b (.i32bin .xor), .b (.localGet 2), .b (.localGet 3), .b (.i32bin .and),
    .b (.i32bin .xor), .b (.i32bin .add), .b (.localSet 10), .b (.localGet 7), .b (.localSet 8),
    .b (.localGet 6), .b (.localSet 7), .b (.localGet 5), .b (.localSet 6), .b (.localGet 4),
    .b (.localGet 9), .b (.i32bin .add), .b (.localSet 5), .b (.localGet 3), .b (.localSet 4),
    .b (.localGet 2), .b (.localSet 3), .b (.localGet 1), .b (.localSet 2), .b (.localGet 9),
    .b (.localGet 10), .b (.i32bin .add), .b (.localSet 1), .b (.localGet 11),
    .b (.const (.i32 4#32)), .b (.i32bin .add), .b (.localTee 11), .b (.const (.i32 256#32)),
    .b (.i32rel .ltU), .brIf 0],
  .b (.localGet 0), .b (.localGet 0), .b (.i32load 4 0), .b (.localGet 1), .b (.i32bin .add),
  .b (.i32store 4 0), .b (.localGet 0), .b (.localGet 0), .b (.i32load 4 4), .b (.localGet 2),
  .b (.i32bin .add), .b (.i32store 4 4), .b (.localGet 0), .b (.localGet 0), .b (.i32load 4 8),
  .b (.localGet 3), .b (.i32bin .add), .b (.i32store 4 8), .b (.localGet 0), .b (.localGet 0),
  .b (.i32load 4 12), .b (.localGet 4), .b (.i32bin .add), .b (.i32store 4 12), .b (.localGet 0),
  .b (.localGet 0), .b (.i32load 4 16), .b (.localGet 5), .b (.i32bin .add), .b (.i32store 4 16),
  .b (.localGet 0), .b (.localGet 0), .b (.i32load 4 20), .b (.localGet 6), .b (.i32bin .add),
  .b (.i32store 4 20), .b (.localGet 0), .b (.localGet 0), .b (.i32load 4 24), .b (.localGet 7),
  .b (.i32bin .add), .b (.i32store 4 24), .b (.localGet 0), .b (.localGet 0), .b (.i32load 4 28),
  .b (.localGet 8), .b (.i32bin .add), .b (.i32store 4 28)]

/-- `$working-vars`: standard.wat lines 1748-1822 (signature and locals). -/
def working_vars : Func where
  params := []
  results := []
  locals := [.i32, .i32, .i32, .i32, .i32, .i32, .i32, .i32, .i32, .i32, .i32, .i32]
  body := working_vars_body

/-- `$stdlib.hash160-buf`: standard.wat lines 1824-1841. Locals: 0 = $offset, 1 = $length, 2 = $offset-result, 3 = $i. -/
def hash160_buf_body : List Instr := [
  .b (.global32Get .stackPointer), .b (.localTee 3), .b (.const (.i32 32#32)), .b (.i32bin .add),
  .b (.global32Set .stackPointer), .b (.localGet 0), .b (.localGet 1), .b (.localGet 3),
  .call (.std .sha256_buf), .b .drop, .b (.global32Set .stackPointer), .call (.std .hash160_pad),
  .b (.localGet 2), .call (.std .hash160_compress), .b (.localGet 2), .b (.const (.i32 20#32))]

/-- `$stdlib.hash160-buf`: standard.wat lines 1824-1841 (signature and locals). -/
def hash160_buf : Func where
  params := [.i32, .i32, .i32]
  results := [.i32, .i32]
  locals := [.i32]
  body := hash160_buf_body

/-- `$stdlib.hash160-int`: standard.wat lines 1843-1860. Locals: 0 = $lo, 1 = $hi, 2 = $offset-result, 3 = $i. -/
def hash160_int_body : List Instr := [
  .b (.global32Get .stackPointer), .b (.localTee 3), .b (.const (.i32 32#32)), .b (.i32bin .add),
  .b (.global32Set .stackPointer), .b (.localGet 0), .b (.localGet 1), .b (.localGet 3),
  .call (.std .sha256_int), .b .drop, .b (.global32Set .stackPointer), .call (.std .hash160_pad),
  .b (.localGet 2), .call (.std .hash160_compress), .b (.localGet 2), .b (.const (.i32 20#32))]

/-- `$stdlib.hash160-int`: standard.wat lines 1843-1860 (signature and locals). -/
def hash160_int : Func where
  params := [.i64, .i64, .i32]
  results := [.i32, .i32]
  locals := [.i32]
  body := hash160_int_body

/-- `$hash160-pad`: standard.wat lines 1862-1871. -/
def hash160_pad_body : List Instr := [
  .b (.global32Get .stackPointer), .b (.const (.i64 128#64)), .b (.i64store 8 32),
  .b (.global32Get .stackPointer), .b (.const (.i32 40#32)), .b (.i32bin .add),
  .b (.const (.i32 0#32)), .b (.const (.i32 16#32)), .b .memFill, .b (.global32Get .stackPointer),
  .b (.const (.i64 256#64)), .b (.i64store 8 56)]

/-- `$hash160-pad`: standard.wat lines 1862-1871 (signature and locals). -/
def hash160_pad : Func where
  params := []
  results := []
  locals := []
  body := hash160_pad_body

/-- `$hash160-compress`: standard.wat lines 1873-1968. Locals: 0 = $offset-result, 1 = $h0, 2 = $h1, 3 = $h2, 4 = $h3, 5 = $h4, 6 = $a1, 7 = $b1, 8 = $c1, 9 = $d1, 10 = $e1, 11 = $a2, 12 = $b2, 13 = $c2, 14 = $d2, 15 = $e2, 16 = $i, 17 = $round. -/
def hash160_compress_body : List Instr := [
  .b (.const (.i32 1732584193#32)), .b (.localTee 1), .b (.localTee 6), .b (.localSet 11),
  .b (.const (.i32 4023233417#32)), .b (.localTee 2), .b (.localTee 7), .b (.localSet 12),
  .b (.const (.i32 2562383102#32)), .b (.localTee 3), .b (.localTee 8), .b (.localSet 13),
  .b (.const (.i32 271733878#32)), .b (.localTee 4), .b (.localTee 9), .b (.localSet 14),
  .b (.const (.i32 3285377520#32)), .b (.localTee 5), .b (.localTee 10), .b (.localSet 15),
  .b (.const (.i32 0#32)), .b (.localSet 16),
  .loop 0 0 [
    .b (.localGet 16), .b (.const (.i32 4#32)), .b (.i32bin .shrU), .b (.localSet 17),
    .b (.localGet 6), .b (.localGet 7), .b (.localGet 8), .b (.localGet 9), .b (.localGet 17),
    .b (.const (.i32 2#32)), .b (.i32bin .shl), .b (.i32load 4 608), .b (.localGet 17),
    .callIndirect [.i32, .i32, .i32, .i32] [.i32], .b (.i32bin .add),
    .b (.global32Get .stackPointer), .b (.localGet 16), .b (.i32load 1 288), .b (.const (.i32 2#32)),
    .b (.i32bin .shl), .b (.i32bin .add), .b (.i32load 4 0), .b (.i32bin .add), .b (.localGet 16),
    .b (.i32load 1 448), .b (.i32bin .rotl), .b (.localGet 10), .b (.i32bin .add), .b (.localGet 10),
    .b (.localSet 6), .b (.localGet 9), .b (.localSet 10), .b (.localGet 8),
    .b (.const (.i32 10#32)), .b (.i32bin .rotl), .b (.localSet 9), .b (.localGet 7),
    .b (.localSet 8), .b (.localSet 7), .b (.localGet 11), .b (.localGet 12), .b (.localGet 13),
    .b (.localGet 14), .b (.localGet 17), .b (.const (.i32 2#32)), .b (.i32bin .shl),
    .b (.i32load 4 628), .b (.const (.i32 4#32)), .b (.localGet 17), .b (.i32bin .sub),
    .callIndirect [.i32, .i32, .i32, .i32] [.i32], .b (.i32bin .add),
    .b (.global32Get .stackPointer), .b (.localGet 16), .b (.i32load 1 368), .b (.const (.i32 2#32)),
    .b (.i32bin .shl), .b (.i32bin .add), .b (.i32load 4 0), .b (.i32bin .add), .b (.localGet 16),
    .b (.i32load 1 528), .b (.i32bin .rotl), .b (.localGet 15), .b (.i32bin .add), .b (.localGet 15),
    .b (.localSet 11), .b (.localGet 14), .b (.localSet 15), .b (.localGet 13),
    .b (.const (.i32 10#32)), .b (.i32bin .rotl), .b (.localSet 14), .b (.localGet 12),
    .b (.localSet 13), .b (.localSet 12), .b (.localGet 16), .b (.const (.i32 1#32)),
    .b (.i32bin .add), .b (.localTee 16), .b (.const (.i32 80#32)), .b (.i32rel .ltU), .brIf 0],
  .b (.localGet 0), .b (.localGet 2), .b (.localGet 8), .b (.i32bin .add), .b (.localGet 14),
  .b (.i32bin .add), .b (.i32store 4 0), .b (.localGet 0), .b (.localGet 3), .b (.localGet 9),
  .b (.i32bin .add), .b (.localGet 15), .b (.i32bin .add), .b (.i32store 4 4), .b (.localGet 0),
  .b (.localGet 4), .b (.localGet 10), .b (.i32bin .add), .b (.localGet 11), .b (.i32bin .add),
  .b (.i32store 4 8), .b (.localGet 0), .b (.localGet 5), .b (.localGet 6), .b (.i32bin .add),
  .b (.localGet 12), .b (.i32bin .add), .b (.i32store 4 12), .b (.localGet 0), .b (.localGet 1),
  .b (.localGet 7), .b (.i32bin .add), .b (.localGet 13), .b (.i32bin .add), .b (.i32store 4 16)]

/-- `$hash160-compress`: standard.wat lines 1873-1968 (signature and locals). -/
def hash160_compress : Func where
  params := [.i32]
  results := []
  locals := [.i32, .i32, .i32, .i32, .i32, .i32, .i32, .i32, .i32, .i32, .i32, .i32, .i32, .i32, .i32, .i32, .i32]
  body := hash160_compress_body

/-- `$hash160-f1`: standard.wat lines 1970-1974. Locals: 0 = $x, 1 = $y, 2 = $z, 3 = $k. -/
def hash160_f1_body : List Instr := [
  .b (.localGet 0), .b (.localGet 1), .b (.i32bin .xor), .b (.localGet 2), .b (.i32bin .xor),
  .b (.localGet 3), .b (.i32bin .add)]

/-- `$hash160-f1`: standard.wat lines 1970-1974 (signature and locals). -/
def hash160_f1 : Func where
  params := [.i32, .i32, .i32, .i32]
  results := [.i32]
  locals := []
  body := hash160_f1_body

/-- `$hash160-f2`: standard.wat lines 1976-1983. Locals: 0 = $x, 1 = $y, 2 = $z, 3 = $k. -/
def hash160_f2_body : List Instr := [
  .b (.localGet 0), .b (.localGet 1), .b (.i32bin .and), .b (.localGet 0),
  .b (.const (.i32 4294967295#32)), .b (.i32bin .xor), .b (.localGet 2), .b (.i32bin .and),
  .b (.i32bin .or), .b (.localGet 3), .b (.i32bin .add)]

/-- `$hash160-f2`: standard.wat lines 1976-1983 (signature and locals). -/
def hash160_f2 : Func where
  params := [.i32, .i32, .i32, .i32]
  results := [.i32]
  locals := []
  body := hash160_f2_body

/-- `$hash160-f3`: standard.wat lines 1985-1992. Locals: 0 = $x, 1 = $y, 2 = $z, 3 = $k. -/
def hash160_f3_body : List Instr := [
  .b (.localGet 0), .b (.localGet 1), .b (.const (.i32 4294967295#32)), .b (.i32bin .xor),
  .b (.i32bin .or), .b (.localGet 2), .b (.i32bin .xor), .b (.localGet 3), .b (.i32bin .add)]

/-- `$hash160-f3`: standard.wat lines 1985-1992 (signature and locals). -/
def hash160_f3 : Func where
  params := [.i32, .i32, .i32, .i32]
  results := [.i32]
  locals := []
  body := hash160_f3_body

/-- `$hash160-f4`: standard.wat lines 1994-2001. Locals: 0 = $x, 1 = $y, 2 = $z, 3 = $k. -/
def hash160_f4_body : List Instr := [
  .b (.localGet 0), .b (.localGet 2), .b (.i32bin .and), .b (.localGet 1), .b (.localGet 2),
  .b (.const (.i32 4294967295#32)), .b (.i32bin .xor), .b (.i32bin .and), .b (.i32bin .or),
  .b (.localGet 3), .b (.i32bin .add)]

/-- `$hash160-f4`: standard.wat lines 1994-2001 (signature and locals). -/
def hash160_f4 : Func where
  params := [.i32, .i32, .i32, .i32]
  results := [.i32]
  locals := []
  body := hash160_f4_body

/-- `$hash160-f5`: standard.wat lines 2003-2010. Locals: 0 = $x, 1 = $y, 2 = $z, 3 = $k. -/
def hash160_f5_body : List Instr := [
  .b (.localGet 0), .b (.localGet 1), .b (.localGet 2), .b (.const (.i32 4294967295#32)),
  .b (.i32bin .xor), .b (.i32bin .or), .b (.i32bin .xor), .b (.localGet 3), .b (.i32bin .add)]

/-- `$hash160-f5`: standard.wat lines 2003-2010 (signature and locals). -/
def hash160_f5 : Func where
  params := [.i32, .i32, .i32, .i32]
  results := [.i32]
  locals := []
  body := hash160_f5_body

/-- `$stdlib.store-i32-be`: standard.wat lines 2012-2026. Locals: 0 = $address, 1 = $value. -/
def store_i32_be_body : List Instr := [
  .b (.localGet 0), .b (.localGet 1), .b (.const (.i32 24#32)), .b (.i32bin .shl), .b (.localGet 1),
  .b (.const (.i32 65280#32)), .b (.i32bin .and), .b (.const (.i32 8#32)), .b (.i32bin .shl),
  .b (.i32bin .or), .b (.localGet 1), .b (.const (.i32 8#32)), .b (.i32bin .shrU),
  .b (.const (.i32 65280#32)), .b (.i32bin .and), .b (.localGet 1), .b (.const (.i32 24#32)),
  .b (.i32bin .shrU), .b (.i32bin .or), .b (.i32bin .or), .b (.i32store 4 0)]

/-- `$stdlib.store-i32-be`: standard.wat lines 2012-2026 (signature and locals). -/
def store_i32_be : Func where
  params := [.i32, .i32]
  results := []
  locals := []
  body := store_i32_be_body

/-- `$stdlib.load-i32-be`: standard.wat lines 2028-2041. Locals: 0 = $address, 1 = $value. -/
def load_i32_be_body : List Instr := [
  .b (.localGet 0), .b (.i32load 4 0), .b (.localSet 1), .b (.localGet 1), .b (.const (.i32 24#32)),
  .b (.i32bin .shl), .b (.localGet 1), .b (.const (.i32 65280#32)), .b (.i32bin .and),
  .b (.const (.i32 8#32)), .b (.i32bin .shl), .b (.i32bin .or), .b (.localGet 1),
  .b (.const (.i32 8#32)), .b (.i32bin .shrU), .b (.const (.i32 65280#32)), .b (.i32bin .and),
  .b (.localGet 1), .b (.const (.i32 24#32)), .b (.i32bin .shrU), .b (.i32bin .or), .b (.i32bin .or)]

/-- `$stdlib.load-i32-be`: standard.wat lines 2028-2041 (signature and locals). -/
def load_i32_be : Func where
  params := [.i32]
  results := [.i32]
  locals := [.i32]
  body := load_i32_be_body

/-- `$stdlib.store-i64-be`: standard.wat lines 2043-2069. Locals: 0 = $address, 1 = $value. -/
def store_i64_be_body : List Instr := [
  .b (.localGet 0), .b (.localGet 1), .b (.const (.i64 56#64)), .b (.i64bin .shl), .b (.localGet 1),
  .b (.const (.i64 65280#64)), .b (.i64bin .and), .b (.const (.i64 40#64)), .b (.i64bin .shl),
  .b (.i64bin .or), .b (.localGet 1), .b (.const (.i64 16711680#64)), .b (.i64bin .and),
  .b (.const (.i64 24#64)), .b (.i64bin .shl), .b (.localGet 1), .b (.const (.i64 4278190080#64)),
  .b (.i64bin .and), .b (.const (.i64 8#64)), .b (.i64bin .shl), .b (.i64bin .or), .b (.i64bin .or),
  .b (.localGet 1), .b (.const (.i64 8#64)), .b (.i64bin .shrU), .b (.const (.i64 4278190080#64)),
  .b (.i64bin .and), .b (.localGet 1), .b (.const (.i64 24#64)), .b (.i64bin .shrU),
  .b (.const (.i64 16711680#64)), .b (.i64bin .and), .b (.i64bin .or), .b (.localGet 1),
  .b (.const (.i64 40#64)), .b (.i64bin .shrU), .b (.const (.i64 65280#64)), .b (.i64bin .and),
  .b (.localGet 1), .b (.const (.i64 56#64)), .b (.i64bin .shrU), .b (.i64bin .or), .b (.i64bin .or),
  .b (.i64bin .or), .b (.i64store 8 0)]

/-- `$stdlib.store-i64-be`: standard.wat lines 2043-2069 (signature and locals). -/
def store_i64_be : Func where
  params := [.i32, .i64]
  results := []
  locals := []
  body := store_i64_be_body

/-- `$stdlib.buff-to-uint-be`: standard.wat lines 2071-2107. Locals: 0 = $offset, 1 = $length, 2 = $mask_lo, 3 = $mask_hi, 4 = $double. -/
def buff_to_uint_be_body : List Instr := [
  .b (.localGet 1), .b (.const (.i32 16#32)), .b (.i32rel .gtU),
  .ite 0 0 [
    .b (.const (.i32 5#32)), .call (.std .runtime_error)] [],
  .b (.localGet 1), .b .i32eqz,
  .ite 0 0 [
    .b (.const (.i64 0#64)), .b (.const (.i64 0#64)), .ret] [],
  .b (.localGet 0), .b (.localGet 1), .b (.i32bin .add), .b (.const (.i32 16#32)), .b (.i32bin .sub),
  .b (.localSet 0), .b (.const (.i64 18446744073709551615#64)),
  .b (.const (.i64 18446744073709551615#64)), .b (.localGet 1), .b (.const (.i32 56#32)),
  .b (.i32bin .mul), .b (.const (.i32 56#32)), .b (.i32bin .and), .b .i64extU, .b (.i64bin .shrU),
  .b (.localTee 3), .b (.localGet 1), .b (.const (.i32 8#32)), .b (.i32rel .geU), .b .select,
  .b (.localSet 2), .b (.localGet 3), .b (.const (.i64 0#64)), .b (.localGet 1),
  .b (.const (.i32 8#32)), .b (.i32rel .gtU), .b .select, .b (.localSet 3), .b (.localGet 0),
  .b (.v128load 0), .b (.const (.v128 0x8090a0b0c0d0e0f0001020304050607#128)), .b .i8x16swizzle,
  .b (.localSet 4), .b (.localGet 4), .b (.i64x2extract 1), .b (.localGet 2), .b (.i64bin .and),
  .b (.localGet 4), .b (.i64x2extract 0), .b (.localGet 3), .b (.i64bin .and)]

/-- `$stdlib.buff-to-uint-be`: standard.wat lines 2071-2107 (signature and locals). -/
def buff_to_uint_be : Func where
  params := [.i32, .i32]
  results := [.i64, .i64]
  locals := [.i64, .i64, .v128]
  body := buff_to_uint_be_body

/-- `$stdlib.buff-to-uint-le`: standard.wat lines 2109-2132. Locals: 0 = $offset, 1 = $length, 2 = $mask_lo, 3 = $mask_hi. -/
def buff_to_uint_le_body : List Instr := [
  .b (.localGet 1), .b (.const (.i32 16#32)), .b (.i32rel .gtU),
  .ite 0 0 [
    .b (.const (.i32 5#32)), .call (.std .runtime_error)] [],
  .b (.localGet 1), .b .i32eqz,
  .ite 0 0 [
    .b (.const (.i64 0#64)), .b (.const (.i64 0#64)), .ret] [],
  .b (.const (.i64 18446744073709551615#64)), .b (.const (.i64 18446744073709551615#64)),
  .b (.localGet 1), .b (.const (.i32 56#32)), .b (.i32bin .mul), .b (.const (.i32 56#32)),
  .b (.i32bin .and), .b .i64extU, .b (.i64bin .shrU), .b (.localTee 3), .b (.localGet 1),
  .b (.const (.i32 8#32)), .b (.i32rel .geU), .b .select, .b (.localSet 2), .b (.localGet 3),
  .b (.const (.i64 0#64)), .b (.localGet 1), .b (.const (.i32 8#32)), .b (.i32rel .gtU), .b .select,
  .b (.localSet 3), .b (.localGet 0), .b (.i64load 8 0), .b (.localGet 2), .b (.i64bin .and),
  .b (.localGet 0), .b (.i64load 8 8), .b (.localGet 3), .b (.i64bin .and)]

/-- `$stdlib.buff-to-uint-le`: standard.wat lines 2109-2132 (signature and locals). -/
def buff_to_uint_le : Func where
  params := [.i32, .i32]
  results := [.i64, .i64]
  locals := [.i64, .i64]
  body := buff_to_uint_le_body

/-- `$stdlib.not`: standard.wat lines 2137-2139. Locals: 0 = $bool_in. -/
def not__body : List Instr := [
  .b (.localGet 0), .b .i32eqz]

/-- `$stdlib.not`: standard.wat lines 2137-2139 (signature and locals). -/
def not_ : Func where
  params := [.i32]
  results := [.i32]
  locals := []
  body := not__body

/-- `$stdlib.principal-construct`: standard.wat lines 2145-2280. Locals: 0 = $version_offset, 1 = $version_length, 2 = $pkhash_offset, 3 = $pkhash_length, 4 = $contract_present, 5 = $contract_offset, 6 = $contract_length, 7 = $res_principal_offset, 8 = $version, 9 = $valid, 10 = $result_length. -/
def principal_construct_body : List Instr := [
  .b (.localGet 1), .b .i32eqz,
  .ite 0 0 [
    .b (.const (.i32 0#32)), .b (.const (.i32 0#32)), .b (.const (.i32 0#32)),
    .b (.const (.i64 1#64)), .b (.const (.i64 0#64)), .b (.const (.i32 0#32)),
    .b (.const (.i32 0#32)), .b (.const (.i32 0#32)), .ret] [],
  .b (.localGet 0), .b (.i32load 1 0), .b (.localTee 8), .b (.const (.i32 32#32)), .b (.i32rel .geU),
  .ite 0 0 [
    .b (.const (.i32 0#32)), .b (.const (.i32 0#32)), .b (.const (.i32 0#32)),
    .b (.const (.i64 1#64)), .b (.const (.i64 0#64)), .b (.const (.i32 0#32)),
    .b (.const (.i32 0#32)), .b (.const (.i32 0#32)), .ret] [],
  .b (.localGet 8), .call (.std .is_version_valid), .b (.localSet 9), .b (.localGet 3),
  .b (.const (.i32 20#32)), .b (.i32rel .ltU),
  .ite 0 0 [
    .b (.const (.i32 0#32)), .b (.const (.i32 0#32)), .b (.const (.i32 0#32)),
    .b (.const (.i64 1#64)), .b (.const (.i64 0#64)), .b (.const (.i32 0#32)),
    .b (.const (.i32 0#32)), .b (.const (.i32 0#32)), .ret] [],
  .b (.localGet 7), .b (.localGet 8), .b (.i32store 1 0), .b (.localGet 7), .b (.const (.i32 1#32)),
  .b (.i32bin .add), .b (.localGet 2), .b (.const (.i32 20#32)), .b .memCopy, .b (.localGet 7),
  .b (.localGet 6), .b (.i32store 1 21), .b (.localGet 4), .b (.const (.i32 1#32)), .b (.i32rel .eq),
  .ite 0 0 [
    .b (.localGet 5), .b (.localGet 6), .call (.std .is_valid_contract_name), .b .i32eqz,
    .ite 0 0 [
      .b (.const (.i32 0#32)), .b (.const (.i32 0#32)), .b (.const (.i32 0#32)),
      .b (.const (.i64 2#64)), .b (.const (.i64 0#64)), .b (.const (.i32 0#32)),
      .b (.const (.i32 0#32)), .b (.const (.i32 0#32)), .ret] [],
    .b (.localGet 7), .b (.const (.i32 22#32)), .b (.i32bin .add), .b (.localGet 5),
    .b (.localGet 6), .b .memCopy] [],
  .b (.localGet 6), .b (.const (.i32 22#32)), .b (.i32bin .add), .b (.localSet 10), .b (.localGet 9),
  .ite 0 8 [
    .b (.const (.i32 1#32)), .b (.localGet 7), .b (.localGet 10), .b (.const (.i64 0#64)),
    .b (.const (.i64 0#64)), .b (.const (.i32 0#32)), .b (.const (.i32 0#32)),
    .b (.const (.i32 0#32))] [
    .b (.const (.i32 0#32)), .b (.const (.i32 0#32)), .b (.const (.i32 0#32)),
    .b (.const (.i64 0#64)), .b (.const (.i64 0#64)), .b (.const (.i32 1#32)), .b (.localGet 7),
    .b (.localGet 10)]]

/-- `$stdlib.principal-construct`: standard.wat lines 2145-2280 (signature and locals). -/
def principal_construct : Func where
  params := [.i32, .i32, .i32, .i32, .i32, .i32, .i32, .i32]
  results := [.i32, .i32, .i32, .i64, .i64, .i32, .i32, .i32]
  locals := [.i32, .i32, .i32]
  body := principal_construct_body

/-- `$stdlib.is-valid-contract-name`: standard.wat lines 2282-2321. Locals: 0 = $offset, 1 = $length, 2 = $end. -/
def is_valid_contract_name_body : List Instr := [
  .b (.localGet 1), .b .i32eqz,
  .ite 0 0 [
    .b (.const (.i32 0#32)), .ret] [],
  .b (.localGet 0), .b (.i32load 1 0), .call (.std .is_alpha), .b .i32eqz,
  .ite 0 0 [
    .b (.localGet 0), .b (.localGet 1), .call (.std .is_transient),
    .ite 0 0 [
      .b (.const (.i32 1#32)), .ret] [],
    .b (.const (.i32 0#32)), .ret] [],
  .b (.localGet 0), .b (.localGet 1), .b (.i32bin .add), .b (.localSet 2), .b (.localGet 0),
  .b (.const (.i32 1#32)), .b (.i32bin .add), .b (.localSet 0),
  .loop 0 0 [
    .b (.localGet 0), .b (.localGet 2), .b (.i32rel .eq),
    .ite 0 0 [
      .b (.const (.i32 1#32)), .ret] [],
    .b (.localGet 0), .b (.i32load 1 0), .call (.std .is_valid_char), .b .i32eqz,
    .ite 0 0 [
      .b (.const (.i32 0#32)), .ret] [],
    .b (.localGet 0), .b (.const (.i32 1#32)), .b (.i32bin .add), .b (.localSet 0), .br 0],
  .unreachable]

/-- `$stdlib.is-valid-contract-name`: standard.wat lines 2282-2321 (signature and locals). -/
def is_valid_contract_name : Func where
  params := [.i32, .i32]
  results := [.i32]
  locals := [.i32]
  body := is_valid_contract_name_body

/-- `$stdlib.is-alpha`: standard.wat lines 2324-2332. Locals: 0 = $char. -/
def is_alpha_body : List Instr := [
  .b (.localGet 0), .b (.const (.i32 223#32)), .b (.i32bin .and), .b (.const (.i32 65#32)),
  .b (.i32bin .sub), .b (.const (.i32 255#32)), .b (.i32bin .and), .b (.const (.i32 26#32)),
  .b (.i32rel .ltU)]

/-- `$stdlib.is-alpha`: standard.wat lines 2324-2332 (signature and locals). -/
def is_alpha : Func where
  params := [.i32]
  results := [.i32]
  locals := []
  body := is_alpha_body

/-- `$stdlib.is-valid-char`: standard.wat lines 2335-2349. Locals: 0 = $char. -/
def is_valid_char_body : List Instr := [
  .b (.localGet 0), .call (.std .is_alpha), .b (.localGet 0), .b (.const (.i32 48#32)),
  .b (.i32rel .geU), .b (.localGet 0), .b (.const (.i32 57#32)), .b (.i32rel .leU),
  .b (.i32bin .and), .b (.i32bin .or), .b (.localGet 0), .b (.const (.i32 45#32)), .b (.i32rel .eq),
  .b (.localGet 0), .b (.const (.i32 95#32)), .b (.i32rel .eq), .b (.i32bin .or), .b (.i32bin .or)]

/-- `$stdlib.is-valid-char`: standard.wat lines 2335-2349 (signature and locals). -/
def is_valid_char : Func where
  params := [.i32]
  results := [.i32]
  locals := []
  body := is_valid_char_body

/-- `$stdlib.is-transient`: standard.wat lines 2352-2367. Locals: 0 = $offset, 1 = $length. -/
def is_transient_body : List Instr := [
  .b (.localGet 1), .b (.const (.i32 11#32)), .b (.i32rel .ne),
  .ite 0 1 [
    .b (.const (.i32 0#32))] [
    .b (.localGet 0), .b (.v128load 0), .b (.const (.v128 0xffffffffffffffffffffff#128)),
    .b .v128and, .b (.const (.v128 0x746e6569736e6172745f5f#128)), .b .v128xor, .b .v128anyTrue,
    .b .i32eqz]]

/-- `$stdlib.is-transient`: standard.wat lines 2352-2367 (signature and locals). -/
def is_transient : Func where
  params := [.i32, .i32]
  results := [.i32]
  locals := []
  body := is_transient_body

/-- `$stdlib.is-version-valid`: standard.wat lines 2370-2391. Locals: 0 = $version. -/
def is_version_valid_body : List Instr := [
  .call (.host .is_in_mainnet),
  .ite 0 1 [
    .b (.localGet 0), .b (.const (.i32 20#32)), .b (.i32rel .eq), .b (.localGet 0),
    .b (.const (.i32 22#32)), .b (.i32rel .eq), .b (.i32bin .or)] [
    .b (.localGet 0), .b (.const (.i32 21#32)), .b (.i32rel .eq), .b (.localGet 0),
    .b (.const (.i32 26#32)), .b (.i32rel .eq), .b (.i32bin .or)]]

/-- `$stdlib.is-version-valid`: standard.wat lines 2370-2391 (signature and locals). -/
def is_version_valid : Func where
  params := [.i32]
  results := [.i32]
  locals := []
  body := is_version_valid_body

/-- `$stdlib.string-to-uint`: standard.wat lines 2393-2468. Locals: 0 = $offset, 1 = $len, 2 = $lo, 3 = $hi, 4 = $loaded. -/
def string_to_uint_body : List Instr := [
  .b (.localGet 1), .b (.const (.i32 40#32)), .b (.i32bin .sub), .b (.const (.i32 4294967257#32)),
  .b (.i32rel .ltU),
  .ite 0 0 [
    .b (.const (.i32 0#32)), .b (.const (.i64 0#64)), .b (.const (.i64 0#64)), .ret] [],
  .loop 0 0 [
    .b (.localGet 0), .b (.i64load 1 0), .b (.const (.i64 48#64)), .b (.i64bin .sub),
    .b (.localTee 4), .b (.const (.i64 10#64)), .b (.i64rel .ltU),
    .ite 0 0 [
      .b (.localGet 2), .b (.const (.i64 10#64)), .b (.i64bin .mul), .b (.localGet 4),
      .b (.i64bin .add), .b (.localSet 2)] [
      .b (.const (.i32 0#32)), .b (.const (.i64 0#64)), .b (.const (.i64 0#64)), .ret],
    .b (.localGet 0), .b (.const (.i32 1#32)), .b (.i32bin .add), .b (.localSet 0), .b (.localGet 1),
    .b (.const (.i32 1#32)), .b (.i32bin .sub), .b (.localTee 1), .b (.const (.i32 0#32)),
    .b (.i32rel .ne), .b (.localGet 2), .b (.const (.i64 1844674407370955161#64)), .b (.i64rel .ltU),
    .b (.i32bin .and), .brIf 0],
  .b (.localGet 1), .b .i32eqz,
  .ite 0 0 [
    .b (.const (.i32 1#32)), .b (.localGet 2), .b (.const (.i64 0#64)), .ret] [],
  .loop 0 0 [
    .b (.localGet 0), .b (.i64load 1 0), .b (.const (.i64 48#64)), .b (.i64bin .sub),
    .b (.localTee 4), .b (.const (.i64 10#64)), .b (.i64rel .ltU),
    .ite 0 0 [
      .b (.localGet 2), .b (.localGet 3), .b (.const (.i64 10#64)), .b (.const (.i64 0#64)),
      .call (.std .mul_int128), .b (.localGet 4), .b (.const (.i64 0#64)), .call (.std .add_int128),
      .b (.localSet 3), .b (.localSet 2)] [
      .b (.const (.i32 0#32)), .b (.const (.i64 0#64)), .b (.const (.i64 0#64)), .ret],
    .b (.localGet 0), .b (.const (.i32 1#32)), .b (.i32bin .add), .b (.localSet 0), .b (.localGet 1),
    .b (.const (.i32 1#32)), .b (.i32bin .sub), .b (.localTee 1), .b (.const (.i32 0#32)),
    .b (.i32rel .ne), .b (.localGet 2), .b (.const (.i64 11068046444225730969#64)),
    .b (.i64rel .ltU), .b (.localGet 3), .b (.const (.i64 1844674407370955161#64)),
    .b (.i64rel .ltU), .b (.localGet 3), .b (.const (.i64 1844674407370955161#64)), .b (.i64rel .eq),
    .b .select, .b (.i32bin .and), .brIf 0],
  .b (.localGet 1), .b .i32eqz,
  .ite 0 3 [
    .b (.const (.i32 1#32)), .b (.localGet 2), .b (.localGet 3)] [
    .b (.localGet 0), .b (.i64load 1 0), .b (.const (.i64 48#64)), .b (.i64bin .sub),
    .b (.localTee 4), .b (.const (.i64 5#64)), .b (.i64rel .leU),
    .ite 0 3 [
      .b (.const (.i32 1#32)), .b (.const (.i64 18446744073709551610#64)), .b (.localGet 4),
      .b (.i64bin .add), .b (.const (.i64 18446744073709551615#64))] [
      .b (.const (.i32 0#32)), .b (.const (.i64 0#64)), .b (.const (.i64 0#64))]]]

/-- `$stdlib.string-to-uint`: standard.wat lines 2393-2468 (signature and locals). -/
def string_to_uint : Func where
  params := [.i32, .i32]
  results := [.i32, .i64, .i64]
  locals := [.i64, .i64, .i64]
  body := string_to_uint_body

/-- `$stdlib.utf8-to-uint`: standard.wat lines 2470-2551. Locals: 0 = $offset, 1 = $len, 2 = $lo, 3 = $hi, 4 = $loaded. -/
def utf8_to_uint_body : List Instr := [
  .b (.localGet 1), .b (.const (.i32 157#32)), .b (.i32bin .sub), .b (.const (.i32 4294967140#32)),
  .b (.i32rel .ltU),
  .ite 0 0 [
    .b (.const (.i32 0#32)), .b (.const (.i64 0#64)), .b (.const (.i64 0#64)), .ret] [],
  .loop 0 0 [
    .b (.localGet 0), .b (.i64load 4 0), .b (.localTee 4), .b (.const (.i64 16777215#64)),
    .b (.i64bin .and), .b .i64eqz, .b (.localGet 4), .b (.const (.i64 24#64)), .b (.i64bin .shrU),
    .b (.const (.i64 48#64)), .b (.i64bin .sub), .b (.localTee 4), .b (.const (.i64 10#64)),
    .b (.i64rel .ltU), .b (.i32bin .and),
    .ite 0 0 [
      .b (.localGet 2), .b (.const (.i64 10#64)), .b (.i64bin .mul), .b (.localGet 4),
      .b (.i64bin .add), .b (.localSet 2)] [
      .b (.const (.i32 0#32)), .b (.const (.i64 0#64)), .b (.const (.i64 0#64)), .ret],
    .b (.localGet 0), .b (.const (.i32 4#32)), .b (.i32bin .add), .b (.localSet 0), .b (.localGet 1),
    .b (.const (.i32 4#32)), .b (.i32bin .sub), .b (.localTee 1), .b (.const (.i32 0#32)),
    .b (.i32rel .ne), .b (.localGet 2), .b (.const (.i64 1844674407370955161#64)), .b (.i64rel .ltU),
    .b (.i32bin .and), .brIf 0],
  .b (.localGet 1), .b .i32eqz,
  .ite 0 0 [
    .b (.const (.i32 1#32)), .b (.localGet 2), .b (.const (.i64 0#64)), .ret] [],
  .loop 0 0 [
    .b (.localGet 0), .b (.i64load 4 0), .b (.localTee 4), .b (.const (.i64 16777215#64)),
    .b (.i64bin .and), .b .i64eqz, .b (.localGet 4), .b (.const (.i64 24#64)), .b (.i64bin .shrU),
    .b (.const (.i64 48#64)), .b (.i64bin .sub), .b (.localTee 4), .b (.const (.i64 10#64)),
    .b (.i64rel .ltU), .b (.i32bin .and),
    .ite 0 0 [
      .b (.localGet 2), .b (.localGet 3), .b (.const (.i64 10#64)), .b (.const (.i64 0#64)),
      .call (.std .mul_int128), .b (.localGet 4), .b (.const (.i64 0#64)), .call (.std .add_int128),
      .b (.localSet 3), .b (.localSet 2)] [
      .b (.const (.i32 0#32)), .b (.const (.i64 0#64)), .b (.const (.i64 0#64)), .ret],
    .b (.localGet 0), .b (.const (.i32 4#32)), .b (.i32bin .add), .b (.localSet 0), .b (.localGet 1),
    .b (.const (.i32 4#32)), .b (.i32bin .sub), .b (.localTee 1), .b (.const (.i32 0#32)),
    .b (.i32rel .ne), .b (.localGet 2), .b (.const (.i64 11068046444225730969#64)),
    .b (.i64rel .ltU), .b (.localGet 3), .b (.const (.i64 1844674407370955161#64)),
    .b (.i64rel .ltU), .b (.localGet 3), .b (.const (.i64 1844674407370955161#64)), .b (.i64rel .eq),
    .b .select, .b (.i32bin .and), .brIf 0],
  .b (.localGet 1), .b .i32eqz,
  .ite 0 3 [
    .b (.const (.i32 1#32)), .b (.localGet 2), .b (.localGet 3)] [
    .b (.localGet 0), .b (.i64load 4 0), .b (.localTee 4), .b (.const (.i64 16777215#64)),
    .b (.i64bin .and), .b .i64eqz, .b (.localGet 4), .b (.const (.i64 24#64)), .b (.i64bin .shrU),
    .b (.const (.i64 48#64)), .b (.i64bin .sub), .b (.localTee 4), .b (.const (.i64 5#64)),
    .b (.i64rel .leU), .b (.i32bin .and),
    .ite 0 3 [
      .b (.const (.i32 1#32)), .b (.const (.i64 18446744073709551610#64)), .b (.localGet 4),
      .b (.i64bin .add), .b (.const (.i64 18446744073709551615#64))] [
      .b (.const (.i32 0#32)), .b (.const (.i64 0#64)), .b (.const (.i64 0#64))]]]

/-- `$stdlib.utf8-to-uint`: standard.wat lines 2470-2551 (signature and locals). -/
def utf8_to_uint : Func where
  params := [.i32, .i32]
  results := [.i32, .i64, .i64]
  locals := [.i64, .i64, .i64]
  body := utf8_to_uint_body

/-- `$stdlib.string-to-int`: standard.wat lines 2553-2594. Locals: 0 = $offset, 1 = $len, 2 = $neg, 3 = $lo, 4 = $hi. -/
def string_to_int_body : List Instr := [
  .b (.localGet 0), .b (.i32load 1 0), .b (.const (.i32 45#32)), .b (.i32rel .eq), .b (.localSet 2),
  .b (.localGet 0), .b (.localGet 2), .b (.i32bin .add), .b (.localGet 1), .b (.localGet 2),
  .b (.i32bin .sub), .call (.std .string_to_uint), .b (.localSet 4), .b (.localSet 3),
  .b (.localGet 2), .b (.localGet 3), .b .i64eqz, .b (.localGet 4),
  .b (.const (.i64 9223372036854775808#64)), .b (.i64rel .eq), .b (.i32bin .and), .b (.i32bin .and),
  .ite 0 0 [
    .b (.const (.i32 1#32)), .b (.const (.i64 0#64)), .b (.const (.i64 9223372036854775808#64)), .ret] [],
  .b .i32eqz, .b (.localGet 4), .b (.const (.i64 0#64)), .b (.i64rel .ltS), .b (.i32bin .or),
  .ite 0 0 [
    .b (.const (.i32 0#32)), .b (.const (.i64 0#64)), .b (.const (.i64 0#64)), .ret] [],
  .b (.const (.i32 1#32)), .b (.localGet 2), .b .i32eqz,
  .ite 0 2 [
    .b (.localGet 3), .b (.localGet 4)] [
    .b (.const (.i64 0#64)), .b (.localGet 3), .b (.i64bin .sub), .b (.const (.i64 0#64)),
    .b (.localGet 4), .b (.localGet 3), .b (.const (.i64 0#64)), .b (.i64rel .ne), .b .i64extU,
    .b (.i64bin .add), .b (.i64bin .sub)]]

/-- `$stdlib.string-to-int`: standard.wat lines 2553-2594 (signature and locals). -/
def string_to_int : Func where
  params := [.i32, .i32]
  results := [.i32, .i64, .i64]
  locals := [.i32, .i64, .i64]
  body := string_to_int_body

/-- `$stdlib.utf8-to-int`: standard.wat lines 2596-2637. Locals: 0 = $offset, 1 = $len, 2 = $neg, 3 = $lo, 4 = $hi. -/
def utf8_to_int_body : List Instr := [
  .b (.localGet 0), .b (.i32load 4 0), .b (.const (.i32 754974720#32)), .b (.i32rel .eq),
  .b (.const (.i32 2#32)), .b (.i32bin .shl), .b (.localSet 2), .b (.localGet 0), .b (.localGet 2),
  .b (.i32bin .add), .b (.localGet 1), .b (.localGet 2), .b (.i32bin .sub),
  .call (.std .utf8_to_uint), .b (.localSet 4), .b (.localSet 3), .b (.localGet 2),
  .b (.const (.i32 0#32)), .b (.i32rel .ne), .b (.localGet 3), .b .i64eqz, .b (.localGet 4),
  .b (.const (.i64 9223372036854775808#64)), .b (.i64rel .eq), .b (.i32bin .and), .b (.i32bin .and),
  .ite 0 0 [
    .b (.const (.i32 1#32)), .b (.const (.i64 0#64)), .b (.const (.i64 9223372036854775808#64)), .ret] [],
  .b .i32eqz, .b (.localGet 4), .b (.const (.i64 0#64)), .b (.i64rel .ltS), .b (.i32bin .or),
  .ite 0 0 [
    .b (.const (.i32 0#32)), .b (.const (.i64 0#64)), .b (.const (.i64 0#64)), .ret] [],
  .b (.const (.i32 1#32)), .b (.localGet 2), .b .i32eqz,
  .ite 0 2 [
    .b (.localGet 3), .b (.localGet 4)] [
    .b (.const (.i64 0#64)), .b (.localGet 3), .b (.i64bin .sub), .b (.const (.i64 0#64)),
    .b (.localGet 4), .b (.localGet 3), .b (.const (.i64 0#64)), .b (.i64rel .ne), .b .i64extU,
    .b (.i64bin .add), .b (.i64bin .sub)]]

/-- `$stdlib.utf8-to-int`: standard.wat lines 2596-2637 (signature and locals). -/
def utf8_to_int : Func where
  params := [.i32, .i32]
  results := [.i32, .i64, .i64]
  locals := [.i32, .i64, .i64]
  body := utf8_to_int_body

/-- `$stdlib.uint-to-string`: standard.wat lines 2639-2711. Locals: 0 = $lo, 1 = $hi, 2 = $result_offset, 3 = $i, 4 = $j. -/
def uint_to_string_body : List Instr := [
  .b (.localGet 2), .b (.localTee 3), .b (.localSet 4), .b (.localGet 1), .b (.const (.i64 0#64)),
  .b (.i64rel .ne),
  .ite 0 0 [
    .loop 0 0 [
      .b (.localGet 0), .b (.localGet 1), .b (.const (.i64 10#64)), .b (.const (.i64 0#64)),
      .call (.std .div_int128), .b .drop, .b (.const (.i64 48#64)), .b (.i64bin .add),
      .b (.localSet 0), .b (.localGet 3), .b (.localGet 0), .b (.i64store 1 0), .b (.localSet 1),
      .b (.localSet 0), .b (.localGet 3), .b (.const (.i32 1#32)), .b (.i32bin .add),
      .b (.localSet 3), .b (.localGet 1), .b (.const (.i64 0#64)), .b (.i64rel .ne), .brIf 0]] [],
  .loop 0 0 [
    .b (.localGet 3), .b (.localGet 0), .b (.localGet 0), .b (.const (.i64 10#64)),
    .b (.i64div .divU), .b (.localTee 0), .b (.const (.i64 18446744073709551606#64)),
    .b (.i64bin .mul), .b (.i64bin .add), .b (.const (.i64 48#64)), .b (.i64bin .add),
    .b (.i64store 1 0), .b (.localGet 3), .b (.const (.i32 1#32)), .b (.i32bin .add),
    .b (.localSet 3), .b (.localGet 0), .b (.const (.i64 0#64)), .b (.i64rel .ne), .brIf 0],
  .b (.localGet 4), .b (.localGet 3), .b (.localGet 4), .b (.i32bin .sub), .b (.localGet 3),
  .b (.localSet 2), .b (.localGet 3), .b (.const (.i32 1#32)), .b (.i32bin .sub), .b (.localSet 3),
  .loop 0 0 [
    .b (.localGet 4), .b (.localGet 3), .b (.i32load 1 0), .b (.localGet 3), .b (.localGet 4),
    .b (.i32load 1 0), .b (.i32store 1 0), .b (.i32store 1 0), .b (.localGet 4),
    .b (.const (.i32 1#32)), .b (.i32bin .add), .b (.localTee 4), .b (.localGet 3),
    .b (.const (.i32 1#32)), .b (.i32bin .sub), .b (.localTee 3), .b (.i32rel .ltU), .brIf 0]]

/-- `$stdlib.uint-to-string`: standard.wat lines 2639-2711 (signature and locals). -/
def uint_to_string : Func where
  params := [.i64, .i64, .i32]
  results := [.i32, .i32]
  locals := [.i32, .i32]
  body := uint_to_string_body

/-- `$stdlib.int-to-string`: standard.wat lines 2713-2747. Locals: 0 = $lo, 1 = $hi, 2 = $result_offset, 3 = $negative, 4 = $len. -/
def int_to_string_body : List Instr := [
  .b (.localGet 1), .b (.const (.i64 0#64)), .b (.i64rel .ltS), .b (.localSet 3), .b (.localGet 3),
  .ite 0 0 [
    .b (.localGet 2), .b (.const (.i32 45#32)), .b (.i32store 1 0), .b (.localGet 2),
    .b (.const (.i32 1#32)), .b (.i32bin .add), .b (.localSet 2)] [],
  .b (.localGet 0), .b .i64eqz, .b (.localGet 1), .b (.const (.i64 0#64)), .b (.i64rel .geS),
  .b (.localGet 1), .b (.const (.i64 9223372036854775808#64)), .b (.i64rel .eq), .b .select,
  .ite 0 2 [
    .b (.localGet 0), .b (.localGet 1), .b (.localGet 2), .call (.std .uint_to_string)] [
    .b (.const (.i64 0#64)), .b (.localGet 0), .b (.i64bin .sub), .b (.const (.i64 0#64)),
    .b (.localGet 1), .b (.localGet 0), .b (.const (.i64 0#64)), .b (.i64rel .ne), .b .i64extU,
    .b (.i64bin .add), .b (.i64bin .sub), .b (.localGet 2), .call (.std .uint_to_string)],
  .b (.localGet 3), .b (.i32bin .add), .b (.localSet 4), .b (.localGet 3), .b (.i32bin .sub),
  .b (.localGet 4)]

/-- `$stdlib.int-to-string`: standard.wat lines 2713-2747 (signature and locals). -/
def int_to_string : Func where
  params := [.i64, .i64, .i32]
  results := [.i32, .i32]
  locals := [.i32, .i32]
  body := int_to_string_body

/-- `$stdlib.uint-to-utf8`: standard.wat lines 2749-2824. Locals: 0 = $lo, 1 = $hi, 2 = $result_offset, 3 = $i, 4 = $j. -/
def uint_to_utf8_body : List Instr := [
  .b (.localGet 2), .b (.localTee 3), .b (.localSet 4), .b (.localGet 1), .b (.const (.i64 0#64)),
  .b (.i64rel .ne),
  .ite 0 0 [
    .loop 0 0 [
      .b (.localGet 0), .b (.localGet 1), .b (.const (.i64 10#64)), .b (.const (.i64 0#64)),
      .call (.std .div_int128), .b .drop, .b (.const (.i64 48#64)), .b (.i64bin .add),
      .b (.localSet 0), .b (.localGet 3), .b (.localGet 0), .b (.const (.i64 24#64)),
      .b (.i64bin .shl), .b (.i64store 4 0), .b (.localSet 1), .b (.localSet 0), .b (.localGet 3),
      .b (.const (.i32 4#32)), .b (.i32bin .add), .b (.localSet 3), .b (.localGet 1),
      .b (.const (.i64 0#64)), .b (.i64rel .ne), .brIf 0]] [],
  .loop 0 0 [
    .b (.localGet 3), .b (.localGet 0), .b (.localGet 0), .b (.const (.i64 10#64)),
    .b (.i64div .divU), .b (.localTee 0), .b (.const (.i64 18446744073709551606#64)),
    .b (.i64bin .mul), .b (.i64bin .add), .b (.const (.i64 48#64)), .b (.i64bin .add),
    .b (.const (.i64 24#64)), .b (.i64bin .shl), .b (.i64store 4 0), .b (.localGet 3),
    .b (.const (.i32 4#32)), .b (.i32bin .add), .b (.localSet 3), .b (.localGet 0),
    .b (.const (.i64 0#64)), .b (.i64rel .ne), .brIf 0],
  .b (.localGet 4), .b (.localGet 3), .b (.localGet 4), .b (.i32bin .sub), .b (.localGet 3),
  .b (.localSet 2), .b (.localGet 3), .b (.const (.i32 4#32)), .b (.i32bin .sub), .b (.localSet 3),
  .loop 0 0 [
    .b (.localGet 4), .b (.localGet 3), .b (.i32load 4 0), .b (.localGet 3), .b (.localGet 4),
    .b (.i32load 4 0), .b (.i32store 4 0), .b (.i32store 4 0), .b (.localGet 4),
    .b (.const (.i32 4#32)), .b (.i32bin .add), .b (.localTee 4), .b (.localGet 3),
    .b (.const (.i32 4#32)), .b (.i32bin .sub), .b (.localTee 3), .b (.i32rel .ltU), .brIf 0]]

/-- `$stdlib.uint-to-utf8`: standard.wat lines 2749-2824 (signature and locals). -/
def uint_to_utf8 : Func where
  params := [.i64, .i64, .i32]
  results := [.i32, .i32]
  locals := [.i32, .i32]
  body := uint_to_utf8_body

/-- `$stdlib.int-to-utf8`: standard.wat lines 2826-2861. Locals: 0 = $lo, 1 = $hi, 2 = $result_offset, 3 = $negative, 4 = $len. -/
def int_to_utf8_body : List Instr := [
  .b (.localGet 1), .b (.const (.i64 0#64)), .b (.i64rel .ltS), .b (.const (.i32 2#32)),
  .b (.i32bin .shl), .b (.localSet 3), .b (.localGet 3),
  .ite 0 0 [
    .b (.localGet 2), .b (.const (.i32 754974720#32)), .b (.i32store 4 0), .b (.localGet 2),
    .b (.const (.i32 4#32)), .b (.i32bin .add), .b (.localSet 2)] [],
  .b (.localGet 0), .b .i64eqz, .b (.localGet 1), .b (.const (.i64 0#64)), .b (.i64rel .geS),
  .b (.localGet 1), .b (.const (.i64 9223372036854775808#64)), .b (.i64rel .eq), .b .select,
  .ite 0 2 [
    .b (.localGet 0), .b (.localGet 1), .b (.localGet 2), .call (.std .uint_to_utf8)] [
    .b (.const (.i64 0#64)), .b (.localGet 0), .b (.i64bin .sub), .b (.const (.i64 0#64)),
    .b (.localGet 1), .b (.localGet 0), .b (.const (.i64 0#64)), .b (.i64rel .ne), .b .i64extU,
    .b (.i64bin .add), .b (.i64bin .sub), .b (.localGet 2), .call (.std .uint_to_utf8)],
  .b (.localGet 3), .b (.i32bin .add), .b (.localSet 4), .b (.localGet 3), .b (.i32bin .sub),
  .b (.localGet 4)]

/-- `$stdlib.int-to-utf8`: standard.wat lines 2826-2861 (signature and locals). -/
def int_to_utf8 : Func where
  params := [.i64, .i64, .i32]
  results := [.i32, .i32]
  locals := [.i32, .i32]
  body := int_to_utf8_body

/-- `$stdlib.to-uint`: standard.wat lines 2869-2875. Locals: 0 = $lo, 1 = $hi. -/
def to_uint_body : List Instr := [
  .b (.localGet 1), .b (.const (.i64 0#64)), .b (.i64rel .ltS),
  .ite 0 0 [
    .b (.const (.i32 1#32)), .call (.std .runtime_error)] [],
  .b (.localGet 0), .b (.localGet 1)]

/-- `$stdlib.to-uint`: standard.wat lines 2869-2875 (signature and locals). -/
def to_uint : Func where
  params := [.i64, .i64]
  results := [.i64, .i64]
  locals := []
  body := to_uint_body

/-- `$stdlib.to-int`: standard.wat lines 2883-2894. Locals: 0 = $lo, 1 = $hi. -/
def to_int_body : List Instr := [
  .b (.localGet 1), .b (.const (.i64 9223372036854775808#64)), .b (.i64rel .geU),
  .ite 0 0 [
    .b (.const (.i32 0#32)), .call (.std .runtime_error)] [],
  .b (.localGet 0), .b (.localGet 1)]

/-- `$stdlib.to-int`: standard.wat lines 2883-2894 (signature and locals). -/
def to_int : Func where
  params := [.i64, .i64]
  results := [.i64, .i64]
  locals := []
  body := to_int_body

/-- `$stdlib.sha512-buf`: standard.wat lines 2896-2932. Locals: 0 = $offset, 1 = $length, 2 = $offset-result, 3 = $length_after_padding, 4 = $index. -/
def sha512_buf_body : List Instr := [
  .b (.localGet 0), .b (.localGet 1), .call (.std .pad_sha512_data), .b (.localSet 3),
  .b (.const (.i32 0#32)), .b (.localSet 4),
  .loop 0 0 [
    .b (.localGet 4), .call (.std .process_sha512_block), .call (.std .calculate_sha512),
    .b (.localGet 4), .b (.const (.i32 128#32)), .b (.i32bin .add), .b (.localTee 4),
    .b (.localGet 3), .b (.i32rel .ltU), .brIf 0],
  .b (.localGet 2), .call (.std .store_calculated_sha512), .b (.localGet 2), .b (.const (.i32 64#32))]

/-- `$stdlib.sha512-buf`: standard.wat lines 2896-2932 (signature and locals). -/
def sha512_buf : Func where
  params := [.i32, .i32, .i32]
  results := [.i32, .i32]
  locals := [.i32, .i32]
  body := sha512_buf_body

/-- `$stdlib.sha512-int`: standard.wat lines 2934-2954. Locals: 0 = $lo, 1 = $hi, 2 = $offset-result. -/
def sha512_int_body : List Instr := [
  .b (.global32Get .stackPointer), .b (.const (.i32 648#32)), .b (.const (.i32 64#32)), .b .memCopy,
  .b (.global32Get .stackPointer), .b (.localGet 0), .b (.i64store 8 704),
  .b (.global32Get .stackPointer), .b (.localGet 1), .b (.i64store 8 712),
  .b (.global32Get .stackPointer), .b (.const (.i32 128#32)), .b (.i32store 4 720),
  .b (.global32Get .stackPointer), .b (.const (.i32 724#32)), .b (.i32bin .add),
  .b (.const (.i32 0#32)), .b (.const (.i32 110#32)), .b .memFill, .b (.global32Get .stackPointer),
  .b (.const (.i32 128#32)), .b (.i32store 1 831), .b (.const (.i32 0#32)),
  .call (.std .process_sha512_block), .call (.std .calculate_sha512), .b (.localGet 2),
  .call (.std .store_calculated_sha512), .b (.localGet 2), .b (.const (.i32 64#32))]

/-- `$stdlib.sha512-int`: standard.wat lines 2934-2954 (signature and locals). -/
def sha512_int : Func where
  params := [.i64, .i64, .i32]
  results := [.i32, .i32]
  locals := []
  body := sha512_int_body

/-- `$pad-sha512-data`: standard.wat lines 2956-3029. Locals: 0 = $offset, 1 = $length, 2 = $length_after_padding, 3 = $message_length_64. -/
def pad_sha512_data_body : List Instr := [
  .b (.global32Get .stackPointer), .b (.const (.i32 648#32)), .b (.const (.i32 64#32)), .b .memCopy,
  .b (.global32Get .stackPointer), .b (.const (.i32 704#32)), .b (.i32bin .add), .b (.localGet 0),
  .b (.localGet 1), .b .memCopy, .b (.localGet 1), .b (.const (.i32 16#32)), .b (.i32bin .add),
  .b (.const (.i32 127#32)), .b (.i32bin .or), .b (.const (.i32 1#32)), .b (.i32bin .add),
  .b (.localSet 2), .b (.global32Get .stackPointer), .b (.localGet 1), .b (.i32bin .add),
  .b (.const (.i32 128#32)), .b (.i32store 4 704), .b (.global32Get .stackPointer), .b (.localGet 1),
  .b (.i32bin .add), .b (.const (.i32 705#32)), .b (.i32bin .add), .b (.const (.i32 0#32)),
  .b (.localGet 2), .b (.localGet 1), .b (.i32bin .sub), .b (.const (.i32 8#32)), .b (.i32bin .sub),
  .b .memFill, .b (.localGet 1), .b (.const (.i32 3#32)), .b (.i32bin .shl), .b .i64extU,
  .b (.localSet 3), .b (.global32Get .stackPointer), .b (.localGet 2), .b (.i32bin .add),
  .b (.const (.i32 8#32)), .b (.i32bin .sub), .b (.localGet 3), .b (.const (.i64 56#64)),
  .b (.i64bin .shl), .b (.localGet 3), .b (.const (.i64 65280#64)), .b (.i64bin .and),
  .b (.const (.i64 40#64)), .b (.i64bin .shl), .b (.i64bin .or), .b (.localGet 3),
  .b (.const (.i64 16711680#64)), .b (.i64bin .and), .b (.const (.i64 24#64)), .b (.i64bin .shl),
  .b (.localGet 3), .b (.const (.i64 4278190080#64)), .b (.i64bin .and), .b (.const (.i64 8#64)),
  .b (.i64bin .shl), .b (.i64bin .or), .b (.i64bin .or), .b (.localGet 3), .b (.const (.i64 8#64)),
  .b (.i64bin .shrU), .b (.const (.i64 4278190080#64)), .b (.i64bin .and), .b (.localGet 3),
  .b (.const (.i64 24#64)), .b (.i64bin .shrU), .b (.const (.i64 16711680#64)), .b (.i64bin .and),
  .b (.i64bin .or), .b (.localGet 3), .b (.const (.i64 40#64)), .b (.i64bin .shrU),
  .b (.const (.i64 65280#64)), .b (.i64bin .and), .b (.localGet 3), .b (.const (.i64 56#64)),
  .b (.i64bin .shrU), .b (.i64bin .or), .b (.i64bin .or), .b (.i64bin .or), .b (.i64store 8 704),
  .b (.localGet 2)]

/-- `$pad-sha512-data`: standard.wat lines 2956-3029 (signature and locals). -/
def pad_sha512_data : Func where
  params := [.i32, .i32]
  results := [.i32]
  locals := [.i32, .i64]
  body := pad_sha512_data_body

/-- `$process-sha512-block`: standard.wat lines 3031-3095. Locals: 0 = $current-block-index, 1 = $origin, 2 = $temp-block-data, 3 = $block-iteration-temp, 4 = $index. -/
def process_sha512_block_body : List Instr := [
  .b (.global32Get .stackPointer), .b (.localSet 1), .b (.localGet 1), .b (.localGet 0),
  .b (.i32bin .add), .b (.localSet 2), .b (.const (.i32 0#32)), .b (.localSet 4),
  .loop 0 0 [
    .b (.localGet 1), .b (.localGet 4), .b (.i32bin .add), .b (.localGet 2), .b (.localGet 4),
    .b (.i32bin .add), .b (.v128load 704), .b (.const (.v128 0x8090a0b0c0d0e0f0001020304050607#128)),
    .b .i8x16swizzle, .b (.v128store 64), .b (.localGet 4), .b (.const (.i32 16#32)),
    .b (.i32bin .add), .b (.localTee 4), .b (.const (.i32 128#32)), .b (.i32rel .ltU), .brIf 0],
  .b (.const (.i32 0#32)), .b (.localSet 4),
  .loop 0 0 [
    .b (.localGet 1), .b (.localGet 4), .b (.i32bin .add), .b (.localSet 2), .b (.localGet 2),
    .b (.const (.i32 128#32)), .b (.i32bin .add), .b (.localGet 2), .b (.i64load 8 64),
    .b (.localGet 2), .b (.i64load 8 72), .b (.localSet 3), .b (.localGet 3),
    .b (.const (.i64 1#64)), .b (.i64bin .rotr), .b (.localGet 3), .b (.const (.i64 8#64)),
    .b (.i64bin .rotr), .b (.i64bin .xor), .b (.localGet 3), .b (.const (.i64 7#64)),
    .b (.i64bin .shrU), .b (.i64bin .xor), .b (.i64bin .add), .b (.localGet 2), .b (.i64load 8 136),
    .b (.i64bin .add), .b (.localGet 2), .b (.i64load 8 176), .b (.localSet 3), .b (.localGet 3),
    .b (.const (.i64 19#64)), .b (.i64bin .rotr), .b (.localGet 3), .b (.const (.i64 61#64)),
    .b (.i64bin .rotr), .b (.i64bin .xor), .b (.localGet 3), .b (.const (.i64 6#64)),
    .b (.i64bin .shrU), .b (.i64bin .xor), .b (.i64bin .add), .b (.i64store 8 64), .b (.localGet 4),
    .b (.const (.i32 8#32)), .b (.i32bin .add), .b (.localTee 4), .b (.const (.i32 512#32)),
    .b (.i32rel .ltU), .brIf 0]]

/-- `$process-sha512-block`: standard.wat lines 3031-3095 (signature and locals). -/
def process_sha512_block : Func where
  params := [.i32]
  results := []
  locals := [.i32, .i32, .i64, .i32]
  body := process_sha512_block_body

/-- `$calculate-sha512`: standard.wat lines 3097-3179. Locals: 0 = $origin, 1 = $index, 2 = $a, 3 = $b, 4 = $c, 5 = $d, 6 = $e, 7 = $f, 8 = $g, 9 = $h, 10 = $temp1, 11 = $temp2. -/
def calculate_sha512_body : List Instr := [
  .b (.global32Get .stackPointer), .b (.localSet 0), .b (.localGet 0), .b (.i64load 8 0),
  .b (.localSet 2), .b (.localGet 0), .b (.i64load 8 8), .b (.localSet 3), .b (.localGet 0),
  .b (.i64load 8 16), .b (.localSet 4), .b (.localGet 0), .b (.i64load 8 24), .b (.localSet 5),
  .b (.localGet 0), .b (.i64load 8 32), .b (.localSet 6), .b (.localGet 0), .b (.i64load 8 40),
  .b (.localSet 7), .b (.localGet 0), .b (.i64load 8 48), .b (.localSet 8), .b (.localGet 0),
  .b (.i64load 8 56), .b (.localSet 9), .b (.const (.i32 0#32)), .b (.localSet 1),
  .loop 0 0 [
    .b (.localGet 9), .b (.localGet 6), .b (.const (.i64 14#64)), .b (.i64bin .rotr),
    .b (.localGet 6), .b (.const (.i64 18#64)), .b (.i64bin .rotr), .b (.i64bin .xor),
    .b (.localGet 6), .b (.const (.i64 41#64)), .b (.i64bin .rotr), .b (.i64bin .xor),
    .b (.i64bin .add), .b (.localGet 6), .b (.localGet 7), .b (.i64bin .and), .b (.localGet 6),
    .b (.const (.i64 18446744073709551615#64)), .b (.i64bin .xor), .b (.localGet 8),
    .b (.i64bin .and), .b (.i64bin .xor), .b (.i64bin .add), .b (.localGet 1), .b (.i64load 8 712),
    .b (.i64bin .add), .b (.localGet 0), .b (.localGet 1), .b (.i32bin .add), .b (.i64load 8 64),
    .b (.i64bin .add), .b (.localSet 10), .b (.localGet 2), .b (.const (.i64 28#64)),
    .b (.i64bin .rotr), .b (.localGet 2), .b (.const (.i64 34#64)), .b (.i64bin .rotr),
    .b (.i64bin .xor), .b (.localGet 2), .b (.const (.i64 39#64)), .b (.i64bin .rotr),
    .b (.i64bin .xor), .b (.localGet 2), .b (.localGet 3), .b (.i64bin .and), .b (.localGet 2),
    .b (.localGet 4), .b (.i64bin .and), .b (.i64bin .xor), .b (.localGet 3), .b (.localGet 4),
    .b (.i64bin .and), .b (.i64bin .xor), .b (.i64bin .add), .b (.localSet 11), .b (.localGet 8),
    .b (.localSet 9), .b (.localGet 7), .b (.localSet 8), .b (.localGet 6), .b (.localSet 7),
    .b (.localGet 5), .b (.localGet 10), .b (.i64bin .add), .b (.localSet 6), .b (.localGet 4),
    .b (.localSet 5), .b (.localGet 3), .b (.localSet 4), .b (.localGet 2), .b (.localSet 3),
    .b (.localGet 10), .b (.localGet 11), .b (.i64bin .add), .b (.localSet 2), .b (.localGet 1),
    .b (.const (.i32 8#32)), .b (.i32bin .add), .b (.localTee 1), .b (.const (.i32 640#32)),
    .b (.i32rel .ltU), .brIf 0],
  .b (.localGet 0), .b (.localGet 0), .b (.i64load 8 0), .b (.localGet 2), .b (.i64bin .add),
  .b (.i64store 8 0), .b (.localGet 0), .b (.localGet 0), .b (.i64load 8 8), .b (.localGet 3),
  .b (.i64bin .add), .b (.i64store 8 8), .b (.localGet 0), .b (.localGet 0), .b (.i64load 8 16),
  .b (.localGet 4), .b (.i64bin .add), .b (.i64store 8 16), .b (.localGet 0), .b (.localGet 0),
  .b (.i64load 8 24), .b (.localGet 5), .b (.i64bin .add), .b (.i64store 8 24), .b (.localGet 0),
  .b (.localGet 0), .b (.i64load 8 32), .b (.localGet 6), .b (.i64bin .add), .b (.i64store 8 32),
  .b (.localGet 0), .b (.localGet 0), .b (.i64load 8 40), .b (.localGet 7), .b (.i64bin .add),
  .b (.i64store 8 40), .b (.localGet 0), .b (.localGet 0), .b (.i64load 8 48), .b (.localGet 8),
  .b (.i64bin .add), .b (.i64store 8 48), .b (.localGet 0), .b (.localGet 0), .b (.i64load 8 56),
  .b (.localGet 9), .b (.i64bin .add), .b (.i64store 8 56)]

/-- `$calculate-sha512`: standard.wat lines 3097-3179 (signature and locals). -/
def calculate_sha512 : Func where
  params := []
  results := []
  locals := [.i32, .i32, .i64, .i64, .i64, .i64, .i64, .i64, .i64, .i64, .i64, .i64]
  body := calculate_sha512_body

/-- `$store-calculated-sha512`: standard.wat lines 3181-3210. Locals: 0 = $offset-result. -/
def store_calculated_sha512_body : List Instr := [
  .b (.localGet 0), .b (.global32Get .stackPointer), .b (.v128load 0),
  .b (.const (.v128 0x8090a0b0c0d0e0f0001020304050607#128)), .b .i8x16swizzle, .b (.v128store 0),
  .b (.localGet 0), .b (.global32Get .stackPointer), .b (.v128load 16),
  .b (.const (.v128 0x8090a0b0c0d0e0f0001020304050607#128)), .b .i8x16swizzle, .b (.v128store 16),
  .b (.localGet 0), .b (.global32Get .stackPointer), .b (.v128load 32),
  .b (.const (.v128 0x8090a0b0c0d0e0f0001020304050607#128)), .b .i8x16swizzle, .b (.v128store 32),
  .b (.localGet 0), .b (.global32Get .stackPointer), .b (.v128load 48),
  .b (.const (.v128 0x8090a0b0c0d0e0f0001020304050607#128)), .b .i8x16swizzle, .b (.v128store 48)]

/-- `$store-calculated-sha512`: standard.wat lines 3181-3210 (signature and locals). -/
def store_calculated_sha512 : Func where
  params := [.i32]
  results := []
  locals := []
  body := store_calculated_sha512_body

/-- `$stdlib.convert-scalars-to-utf8`: standard.wat lines 3215-3343. Locals: 0 = $offset, 1 = $length, 2 = $output-offset, 3 = $i, 4 = $initial-output-offset, 5 = $scalar, 6 = $byte1, 7 = $byte2, 8 = $byte3, 9 = $byte4. -/
def convert_scalars_to_utf8_body : List Instr := [
  .b (.localGet 2), .b (.localSet 4), .b (.const (.i32 0#32)), .b (.localSet 3), .b (.localGet 1),
  .b .i32eqz,
  .ite 0 0 [
    .b (.const (.i32 0#32)), .ret] [],
  .loop 0 0 [
    .b (.localGet 0), .b (.localGet 3), .b (.i32bin .add), .b (.i32load 4 0), .b (.localSet 5),
    .b (.localGet 5), .b (.const (.i32 255#32)), .b (.i32bin .and), .b (.const (.i32 24#32)),
    .b (.i32bin .shl), .b (.localGet 5), .b (.const (.i32 65280#32)), .b (.i32bin .and),
    .b (.const (.i32 8#32)), .b (.i32bin .shl), .b (.localGet 5), .b (.const (.i32 16711680#32)),
    .b (.i32bin .and), .b (.const (.i32 8#32)), .b (.i32bin .shrU), .b (.localGet 5),
    .b (.const (.i32 24#32)), .b (.i32bin .shrU), .b (.i32bin .or), .b (.i32bin .or),
    .b (.i32bin .or), .b (.localSet 5), .b (.localGet 5), .b (.const (.i32 128#32)),
    .b (.i32rel .ltU),
    .ite 0 0 [
      .b (.localGet 2), .b (.localGet 5), .b (.i32store 1 0), .b (.localGet 2),
      .b (.const (.i32 1#32)), .b (.i32bin .add), .b (.localSet 2)] [
      .b (.localGet 5), .b (.const (.i32 2048#32)), .b (.i32rel .ltU),
      .ite 0 0 [
        .b (.const (.i32 192#32)), .b (.localGet 5), .b (.const (.i32 6#32)), .b (.i32bin .shrU),
        .b (.i32bin .or), .b (.localSet 6), .b (.const (.i32 128#32)), .b (.localGet 5),
        .b (.const (.i32 63#32)), .b (.i32bin .and), .b (.i32bin .or), .b (.localSet 7),
        .b (.localGet 2), .b (.localGet 6), .b (.i32store 1 0), .b (.localGet 2),
        .b (.const (.i32 1#32)), .b (.i32bin .add), .b (.localSet 2), .b (.localGet 2),
        .b (.localGet 7), .b (.i32store 1 0), .b (.localGet 2), .b (.const (.i32 1#32)),
        .b (.i32bin .add), .b (.localSet 2)] [
        .b (.localGet 5), .b (.const (.i32 65536#32)), .b (.i32rel .ltU),
        .ite 0 0 [
          .b (.const (.i32 224#32)), .b (.localGet 5), .b (.const (.i32 12#32)), .b (.i32bin .shrU),
          .b (.i32bin .or), .b (.localSet 6), .b (.const (.i32 128#32)), .b (.localGet 5),
          .b (.const (.i32 6#32)), .b (.i32bin .shrU), .b (.const (.i32 63#32)), .b (.i32bin .and),
          .b (.i32bin .or), .b (.localSet 7), .b (.const (.i32 128#32)), .b (.localGet 5),
          .b (.const (.i32 63#32)), .b (.i32bin .and), .b (.i32bin .or), .b (.localSet 8),
          .b (.localGet 2), .b (.localGet 6), .b (.i32store 1 0), .b (.localGet 2),
          .b (.const (.i32 1#32)), .b (.i32bin .add), .b (.localSet 2), .b (.localGet 2),
          .b (.localGet 7), .b (.i32store 1 0), .b (.localGet 2), .b (.const (.i32 1#32)),
          .b (.i32bin .add), .b (.localSet 2), .b (.localGet 2), .b (.localGet 8),
          .b (.i32store 1 0), .b (.localGet 2), .b (.const (.i32 1#32)), .b (.i32bin .add),
          .b (.localSet 2)] [
          .b (.localGet 5), .b (.const (.i32 1114112#32)), .b (.i32rel .ltU),
          .ite 0 0 [
            .b (.const (.i32 240#32)), .b (.localGet 5), .b (.const (.i32 18#32)),
            .b (.i32bin .shrU), .b (.i32bin .or), .b (.localSet 6), .b (.const (.i32 128#32)),
            .b (.localGet 5), .b (.const (.i32 12#32)), .b (.i32bin .shrU), .b (.const (.i32 63#32)),
            .b (.i32bin .and), .b (.i32bin .or), .b (.localSet 7), .b (.const (.i32 128#32)),
            .b (.localGet 5), .b (.const (.i32 6#32)), .b (.i32bin .shrU), .b (.const (.i32 63#32)),
            .b (.i32bin .and), .b (.i32bin .or), .b (.localSet 8), .b (.const (.i32 128#32)),
            .b (.localGet 5), .b (.const (.i32 63#32)), .b (.i32bin .and), .b (.i32bin .or),
            .b (.localSet 9), .b (.localGet 2), .b (.localGet 6), .b (.i32store 1 0),
            .b (.localGet 2), .b (.const (.i32 1#32)), .b (.i32bin .add), .b (.localSet 2),
            .b (.localGet 2), .b (.localGet 7), .b (.i32store 1 0), .b (.localGet 2),
            .b (.const (.i32 1#32)), .b (.i32bin .add), .b (.localSet 2), .b (.localGet 2),
            .b (.localGet 8), .b (.i32store 1 0), .b (.localGet 2), .b (.const (.i32 1#32)),
            .b (.i32bin .add), .b (.localSet 2), .b (.localGet 2), .b (.localGet 9),
            .b (.i32store 1 0), .b (.localGet 2), .b (.const (.i32 1#32)), .b (.i32bin .add),
            .b (.localSet 2)] []]]],
    .b (.localGet 3), .b (.const (.i32 4#32)), .b (.i32bin .add), .b (.localSet 3), .b (.localGet 3),
    .b (.localGet 1), .b (.i32rel .ltU), .brIf 0],
  .b (.localGet 2), .b (.localGet 4), .b (.i32bin .sub)]

/-- `$stdlib.convert-scalars-to-utf8`: standard.wat lines 3215-3343 (signature and locals). -/
def convert_scalars_to_utf8 : Func where
  params := [.i32, .i32, .i32]
  results := [.i32]
  locals := [.i32, .i32, .i32, .i32, .i32, .i32, .i32]
  body := convert_scalars_to_utf8_body

/-- `$stdlib.is-valid-string-ascii`: standard.wat lines 3347-3368. Locals: 0 = $offset, 1 = $length, 2 = $char, 3 = $current_length. -/
def is_valid_string_ascii_body : List Instr := [
  .loop 0 0 [
    .b (.localGet 1), .b (.localTee 3),
    .ite 0 0 [
      .b (.localGet 0), .b (.i32load 1 0), .b (.localSet 2), .b (.localGet 0),
      .b (.const (.i32 1#32)), .b (.i32bin .add), .b (.localSet 0), .b (.localGet 1),
      .b (.const (.i32 1#32)), .b (.i32bin .sub), .b (.localSet 1), .b (.localGet 2),
      .b (.const (.i32 32#32)), .b (.i32bin .sub), .b (.const (.i32 95#32)), .b (.i32rel .ltU),
      .brIf 1, .b (.const (.i32 13824#32)), .b (.localGet 2), .b (.i32bin .shrU), .b (.localGet 2),
      .b (.const (.i32 14#32)), .b (.i32rel .ltU), .b (.i32bin .and), .brIf 1] []],
  .b (.localGet 3), .b .i32eqz]

/-- `$stdlib.is-valid-string-ascii`: standard.wat lines 3347-3368 (signature and locals). -/
def is_valid_string_ascii : Func where
  params := [.i32, .i32]
  results := [.i32]
  locals := [.i32, .i32]
  body := is_valid_string_ascii_body

/-- `$stdlib.utf8-to-string-utf8`: standard.wat lines 3370-3509. Locals: 0 = $offset, 1 = $len, 2 = $output-offset, 3 = $max-len, 4 = $scalar, 5 = $byte, 6 = $writeptr. -/
def utf8_to_string_utf8_body : List Instr := [
  .b (.localGet 1), .b .i32eqz,
  .ite 0 0 [
    .b (.const (.i32 1#32)), .b (.localGet 2), .b (.const (.i32 0#32)), .ret] [],
  .b (.localGet 2), .b (.localSet 6),
  .loop 0 0 [
    .b (.localGet 3), .b (.const (.i32 1#32)), .b (.i32bin .sub), .b (.localTee 3),
    .b (.const (.i32 0#32)), .b (.i32rel .ltS),
    .ite 0 0 [
      .b (.const (.i32 0#32)), .b (.const (.i32 0#32)), .b (.const (.i32 0#32)), .ret] [],
    .b (.localGet 0), .b (.i32load 1 0), .b (.localSet 4), .b (.localGet 4),
    .b (.const (.i32 128#32)), .b (.i32rel .ltU),
    .ite 0 0 [
      .b (.localGet 0), .b (.const (.i32 1#32)), .b (.i32bin .add), .b (.localSet 0),
      .b (.localGet 1), .b (.const (.i32 1#32)), .b (.i32bin .sub), .b (.localSet 1)] [
      .b (.localGet 4), .b (.const (.i32 224#32)), .b (.i32bin .and), .b (.const (.i32 192#32)),
      .b (.i32rel .eq),
      .ite 0 0 [
        .b (.localGet 4), .b (.const (.i32 31#32)), .b (.i32bin .and), .b (.const (.i32 6#32)),
        .b (.i32bin .shl), .b (.localSet 4), .b (.localGet 0), .b (.i32load 1 1), .b (.localSet 5),
        .b (.localGet 5), .b (.const (.i32 192#32)), .b (.i32bin .and), .b (.const (.i32 128#32)),
        .b (.i32rel .eq),
        .ite 0 0 [
          .b (.localGet 4), .b (.localGet 5), .b (.const (.i32 63#32)), .b (.i32bin .and),
          .b (.i32bin .or), .b (.localSet 4)] [
          .b (.const (.i32 0#32)), .b (.const (.i32 0#32)), .b (.const (.i32 0#32)), .ret],
        .b (.localGet 4), .b (.const (.i32 128#32)), .b (.i32rel .ltU),
        .ite 0 0 [
          .b (.const (.i32 0#32)), .b (.const (.i32 0#32)), .b (.const (.i32 0#32)), .ret] [],
        .b (.localGet 0), .b (.const (.i32 2#32)), .b (.i32bin .add), .b (.localSet 0),
        .b (.localGet 1), .b (.const (.i32 2#32)), .b (.i32bin .sub), .b (.localSet 1)] [
        .b (.localGet 4), .b (.const (.i32 240#32)), .b (.i32bin .and), .b (.const (.i32 224#32)),
        .b (.i32rel .eq),
        .ite 0 0 [
          .b (.localGet 4), .b (.const (.i32 15#32)), .b (.i32bin .and), .b (.const (.i32 12#32)),
          .b (.i32bin .shl), .b (.localSet 4), .b (.localGet 0), .b (.i32load 1 1), .b (.localSet 5),
          .b (.localGet 5), .b (.const (.i32 192#32)), .b (.i32bin .and), .b (.const (.i32 128#32)),
          .b (.i32rel .eq),
          .ite 0 0 [
            .b (.localGet 4), .b (.localGet 5), .b (.const (.i32 63#32)), .b (.i32bin .and),
            .b (.const (.i32 6#32)), .b (.i32bin .shl), .b (.i32bin .or), .b (.localSet 4)] [
            .b (.const (.i32 0#32)), .b (.const (.i32 0#32)), .b (.const (.i32 0#32)), .ret],
          .b (.localGet 0), .b (.i32load 1 2), .b (.localSet 5), .b (.localGet 5),
          .b (.const (.i32 192#32)), .b (.i32bin .and), .b (.const (.i32 128#32)), .b (.i32rel .eq),
          .ite 0 0 [
            .b (.localGet 4), .b (.localGet 5), .b (.const (.i32 63#32)), .b (.i32bin .and),
            .b (.i32bin .or), .b (.localSet 4)] [
            .b (.const (.i32 0#32)), .b (.const (.i32 0#32)), .b (.const (.i32 0#32)), .ret],
          .b (.localGet 4), .b (.const (.i32 4294965248#32)), .b (.i32bin .and),
          .b (.const (.i32 55296#32)), .b (.i32rel .eq), .b (.localGet 4),
          .b (.const (.i32 2048#32)), .b (.i32rel .ltU), .b (.i32bin .or),
          .ite 0 0 [
            .b (.const (.i32 0#32)), .b (.const (.i32 0#32)), .b (.const (.i32 0#32)), .ret] [],
          .b (.localGet 0), .b (.const (.i32 3#32)), .b (.i32bin .add), .b (.localSet 0),
          .b (.localGet 1), .b (.const (.i32 3#32)), .b (.i32bin .sub), .b (.localSet 1)] [
          .b (.localGet 4), .b (.const (.i32 248#32)), .b (.i32bin .and), .b (.const (.i32 240#32)),
          .b (.i32rel .eq),
          .ite 0 0 [
            .b (.localGet 4), .b (.const (.i32 7#32)), .b (.i32bin .and), .b (.const (.i32 18#32)),
            .b (.i32bin .shl), .b (.localSet 4), .b (.localGet 0), .b (.i32load 1 1),
            .b (.localSet 5), .b (.localGet 5), .b (.const (.i32 192#32)), .b (.i32bin .and),
            .b (.const (.i32 128#32)), .b (.i32rel .eq),
            .ite 0 0 [
              .b (.localGet 4), .b (.localGet 5), .b (.const (.i32 63#32)), .b (.i32bin .and),
              .b (.const (.i32 12#32)), .b (.i32bin .shl), .b (.i32bin .or), .b (.localSet 4)] [
              .b (.const (.i32 0#32)), .b (.const (.i32 0#32)), .b (.const (.i32 0#32)), .ret],
            .b (.localGet 0), .b (.i32load 1 2), .b (.localSet 5), .b (.localGet 5),
            .b (.const (.i32 192#32)), .b (.i32bin .and), .b (.const (.i32 128#32)),
            .b (.i32rel .eq),
            .ite 0 0 [
              .b (.localGet 4), .b (.localGet 5), .b (.const (.i32 63#32)), .b (.i32bin .and),
              .b (.const (.i32 6#32)), .b (.i32bin .shl), .b (.i32bin .or), .b (.localSet 4)] [
              .b (.const (.i32 0#32)), .b (.const (.i32 0#32)), .b (.const (.i32 0#32)), .ret],
            .b (.localGet 0), .b (.i32load 1 3), .b (.localSet 5), .b (.localGet 5),
            .b (.const (.i32 192#32)), .b (.i32bin .and), .b (.const (.i32 128#32)),
            .b (.i32rel .eq),
            .ite 0 0 [
              .b (.localGet 4), .b (.localGet 5), .b (.const (.i32 63#32)), .b (.i32bin .and),
              .b (.i32bin .or), .b (.localSet 4)] [
              .b (.const (.i32 0#32)), .b (.const (.i32 0#32)), .b (.const (.i32 0#32)), .ret],
            .b (.localGet 4), .b (.const (.i32 1114112#32)), .b (.i32bin .sub),
            .b (.const (.i32 4293918720#32)), .b (.i32rel .ltU),
            .ite 0 0 [
              .b (.const (.i32 0#32)), .b (.const (.i32 0#32)), .b (.const (.i32 0#32)), .ret] [],
            .b (.localGet 0), .b (.const (.i32 4#32)), .b (.i32bin .add), .b (.localSet 0),
            .b (.localGet 1), .b (.const (.i32 4#32)), .b (.i32bin .sub), .b (.localSet 1)] [
            .b (.const (.i32 0#32)), .b (.const (.i32 0#32)), .b (.const (.i32 0#32)), .ret]]]],
    .b (.localGet 6), .b (.localGet 4), .b (.const (.i32 24#32)), .b (.i32bin .shl),
    .b (.localGet 4), .b (.const (.i32 65280#32)), .b (.i32bin .and), .b (.const (.i32 8#32)),
    .b (.i32bin .shl), .b (.i32bin .or), .b (.localGet 4), .b (.const (.i32 8#32)),
    .b (.i32bin .shrU), .b (.const (.i32 65280#32)), .b (.i32bin .and), .b (.localGet 4),
    .b (.const (.i32 24#32)), .b (.i32bin .shrU), .b (.i32bin .or), .b (.i32bin .or),
    .b (.i32store 4 0), .b (.localGet 6), .b (.const (.i32 4#32)), .b (.i32bin .add),
    .b (.localSet 6), .b (.localGet 1), .brIf 0],
  .b (.const (.i32 1#32)), .b (.localGet 2), .b (.localGet 6), .b (.localGet 2), .b (.i32bin .sub)]

/-- `$stdlib.utf8-to-string-utf8`: standard.wat lines 3370-3509 (signature and locals). -/
def utf8_to_string_utf8 : Func where
  params := [.i32, .i32, .i32, .i32]
  results := [.i32, .i32, .i32]
  locals := [.i32, .i32, .i32]
  body := utf8_to_string_utf8_body

/-- `$compare-clarity-names`: standard.wat lines 3511-3536. Locals: 0 = $offset_a, 1 = $len_a, 2 = $offset_b, 3 = $len_b, 4 = $min_len, 5 = $a, 6 = $b. -/
def compare_clarity_names_body : List Instr := [
  .b (.localGet 1), .b (.localGet 3), .b (.localGet 1), .b (.localGet 3), .b (.i32rel .ltU),
  .b .select, .b (.localSet 4),
  .loop 0 0 [
    .b (.localGet 0), .b (.i32load 1 0), .b (.localTee 5), .b (.localGet 2), .b (.i32load 1 0),
    .b (.localTee 6), .b (.i32rel .eq),
    .ite 0 0 [
      .b (.localGet 0), .b (.const (.i32 1#32)), .b (.i32bin .add), .b (.localSet 0),
      .b (.localGet 2), .b (.const (.i32 1#32)), .b (.i32bin .add), .b (.localSet 2),
      .b (.localGet 4), .b (.const (.i32 1#32)), .b (.i32bin .sub), .b (.localTee 4), .brIf 1] []],
  .b (.const (.i32 4294967295#32)), .b (.localGet 1), .b (.localGet 3), .b (.i32rel .ne),
  .b (.localGet 1), .b (.localGet 3), .b (.i32rel .ltU), .b .select,
  .b (.const (.i32 4294967295#32)), .b (.localGet 5), .b (.localGet 6), .b (.i32rel .ne),
  .b (.localGet 5), .b (.localGet 6), .b (.i32rel .ltU), .b .select, .b (.localGet 5),
  .b (.localGet 6), .b (.i32rel .eq), .b .select]

/-- `$compare-clarity-names`: standard.wat lines 3511-3536 (signature and locals). -/
def compare_clarity_names : Func where
  params := [.i32, .i32, .i32, .i32]
  results := [.i32]
  locals := [.i32, .i32, .i32]
  body := compare_clarity_names_body

/-- `$stdlib.bsearch-clarity-name`: standard.wat lines 3538-3581. Locals: 0 = $offset_list, 1 = $len_list, 2 = $offset_elem, 3 = $len_elem, 4 = $size, 5 = $i, 6 = $j, 7 = $mid, 8 = $cmp, 9 = $offset_len. -/
def bsearch_clarity_name_body : List Instr := [
  .b (.localGet 0), .b (.i32load 4 0), .b (.localTee 4), .b (.localSet 6), .b (.localGet 0),
  .b (.const (.i32 4#32)), .b (.i32bin .add), .b (.localSet 0), .b (.localGet 0), .b (.localGet 4),
  .b (.const (.i32 2#32)), .b (.i32bin .shl), .b (.i32bin .add), .b (.localSet 9),
  .loop 0 0 [
    .b (.localGet 5), .b (.localGet 4), .b (.const (.i32 1#32)), .b (.i32bin .shrU),
    .b (.i32bin .add), .b (.localSet 7), .b (.localGet 2), .b (.localGet 3), .b (.localGet 0),
    .b (.localGet 7), .b (.const (.i32 2#32)), .b (.i32bin .shl), .b (.i32bin .add),
    .b (.i32load 4 0), .b (.localGet 9), .b (.localGet 7), .b (.i32bin .add), .b (.i32load 1 0),
    .call (.std .compare_clarity_names), .b (.localSet 8), .b (.localGet 8), .b .i32eqz,
    .ite 0 0 [
      .b (.localGet 7), .ret] [],
    .b (.localGet 5), .b (.localGet 7), .b (.const (.i32 1#32)), .b (.i32bin .add), .b (.localGet 8),
    .b (.const (.i32 4294967295#32)), .b (.i32rel .eq), .b .select, .b (.localSet 5),
    .b (.localGet 6), .b (.localGet 7), .b (.localGet 8), .b (.const (.i32 1#32)), .b (.i32rel .eq),
    .b .select, .b (.localSet 6), .b (.localGet 6), .b (.localGet 5), .b (.i32bin .sub),
    .b (.localSet 4), .b (.localGet 5), .b (.localGet 6), .b (.i32rel .ltU), .brIf 0],
  .b (.const (.i32 4294967295#32))]

/-- `$stdlib.bsearch-clarity-name`: standard.wat lines 3538-3581 (signature and locals). -/
def bsearch_clarity_name : Func where
  params := [.i32, .i32, .i32, .i32]
  results := [.i32]
  locals := [.i32, .i32, .i32, .i32, .i32, .i32]
  body := bsearch_clarity_name_body

/-- `$stdlib.skip-unknown-value`: standard.wat lines 3583-3597. Locals: 0 = $offset, 1 = $offset_end, 2 = $id. -/
def skip_unknown_value_body : List Instr := [
  .b (.localGet 0), .b (.localGet 1), .b (.i32rel .eq),
  .ite 0 1 [
    .b (.localGet 0)] [
    .b (.localGet 0), .b (.i32load 1 0), .b (.localTee 2), .b (.const (.i32 14#32)),
    .b (.i32rel .gtU),
    .ite 0 0 [
      .b (.const (.i32 0#32)), .ret] [],
    .b (.localGet 0), .b (.const (.i32 1#32)), .b (.i32bin .add), .b (.localGet 1), .b (.localGet 2),
    .b (.const (.i32 5#32)), .b (.i32bin .add), .callIndirect [.i32, .i32] [.i32]]]

/-- `$stdlib.skip-unknown-value`: standard.wat lines 3583-3597 (signature and locals). -/
def skip_unknown_value : Func where
  params := [.i32, .i32]
  results := [.i32]
  locals := [.i32]
  body := skip_unknown_value_body

/-- `$skip-int128`: standard.wat lines 3599-3606. Locals: 0 = $offset, 1 = $offset_end. -/
def skip_int128_body : List Instr := [
  .b (.localGet 0), .b (.const (.i32 16#32)), .b (.i32bin .add), .b (.localTee 0),
  .b (.const (.i32 0#32)), .b (.localGet 0), .b (.localGet 1), .b (.i32rel .leU), .b .select]

/-- `$skip-int128`: standard.wat lines 3599-3606 (signature and locals). -/
def skip_int128 : Func where
  params := [.i32, .i32]
  results := [.i32]
  locals := []
  body := skip_int128_body

/-- `$skip-buffer`: standard.wat lines 3608-3620. Locals: 0 = $offset, 1 = $offset_end, 2 = $size. -/
def skip_buffer_body : List Instr := [
  .b (.localGet 0), .b (.const (.i32 4#32)), .b (.i32bin .add), .b (.localGet 1), .b (.i32rel .gtU),
  .ite 0 0 [
    .b (.const (.i32 0#32)), .ret] [],
  .b (.localGet 0), .call (.std .load_i32_be), .b (.localSet 2), .b (.localGet 0),
  .b (.const (.i32 4#32)), .b (.i32bin .add), .b (.localGet 2), .b (.i32bin .add), .b (.localTee 0),
  .b (.const (.i32 0#32)), .b (.localGet 0), .b (.localGet 1), .b (.i32rel .leU), .b .select]

/-- `$skip-buffer`: standard.wat lines 3608-3620 (signature and locals). -/
def skip_buffer : Func where
  params := [.i32, .i32]
  results := [.i32]
  locals := [.i32]
  body := skip_buffer_body

/-- `$skip-boolean-or-none`: standard.wat lines 3622-3625. Locals: 0 = $offset, 1 = $offset_end. -/
def skip_boolean_or_none_body : List Instr := [
  .b (.localGet 0)]

/-- `$skip-boolean-or-none`: standard.wat lines 3622-3625 (signature and locals). -/
def skip_boolean_or_none : Func where
  params := [.i32, .i32]
  results := [.i32]
  locals := []
  body := skip_boolean_or_none_body

/-- `$skip-principal`: standard.wat lines 3627-3643. Locals: 0 = $offset, 1 = $offset_end. -/
def skip_principal_body : List Instr := [
  .b (.localGet 1), .b (.localGet 0), .b (.const (.i32 21#32)), .b (.i32bin .add), .b (.localTee 1),
  .b (.i32rel .geU),
  .ite 0 1 [
    .b (.localGet 1), .b (.const (.i32 0#32)), .b (.localGet 0), .b (.i32load 1 0),
    .b (.const (.i32 32#32)), .b (.i32rel .leU), .b .select] [
    .b (.const (.i32 0#32))]]

/-- `$skip-principal`: standard.wat lines 3627-3643 (signature and locals). -/
def skip_principal : Func where
  params := [.i32, .i32]
  results := [.i32]
  locals := []
  body := skip_principal_body

/-- `$skip-contract`: standard.wat lines 3645-3675. Locals: 0 = $offset, 1 = $offset_end. -/
def skip_contract_body : List Instr := [
  .b (.localGet 0), .b (.localGet 1), .call (.std .skip_principal), .b (.localTee 0),
  .b (.const (.i32 0#32)), .b (.i32rel .ne), .b (.localGet 1), .b (.localGet 0), .b (.i32rel .gtU),
  .b (.i32bin .and),
  .ite 0 0 [
    .b (.localGet 1), .b (.localGet 0), .b (.i32load 1 0), .b (.localTee 1), .b (.i32rel .geU),
    .ite 0 0 [
      .b (.localGet 0), .b (.const (.i32 1#32)), .b (.i32bin .add), .b (.localSet 0),
      .b (.localGet 0), .b (.localGet 1), .b (.i32bin .add), .b (.const (.i32 0#32)),
      .b (.localGet 0), .b (.localGet 1), .call (.std .check_clarity_name), .b .select, .ret] []] [],
  .b (.const (.i32 0#32))]

/-- `$skip-contract`: standard.wat lines 3645-3675 (signature and locals). -/
def skip_contract : Func where
  params := [.i32, .i32]
  results := [.i32]
  locals := []
  body := skip_contract_body

/-- `$skip-some-ok-err`: standard.wat lines 3677-3680. Locals: 0 = $offset, 1 = $offset_end. -/
def skip_some_ok_err_body : List Instr := [
  .b (.localGet 0), .b (.localGet 1), .call (.std .skip_unknown_value)]

/-- `$skip-some-ok-err`: standard.wat lines 3677-3680 (signature and locals). -/
def skip_some_ok_err : Func where
  params := [.i32, .i32]
  results := [.i32]
  locals := []
  body := skip_some_ok_err_body

/-- `$skip-tuple`: standard.wat lines 3682-3712. Locals: 0 = $offset, 1 = $offset_end, 2 = $tuple_size, 3 = $name_size. -/
def skip_tuple_body : List Instr := [
  .b (.localGet 0), .b (.const (.i32 4#32)), .b (.i32bin .add), .b (.localGet 1), .b (.i32rel .gtU),
  .ite 0 0 [
    .b (.const (.i32 0#32)), .ret] [],
  .b (.localGet 0), .call (.std .load_i32_be), .b (.localSet 2), .b (.localGet 2), .b .i32eqz,
  .ite 0 0 [
    .b (.const (.i32 0#32)), .ret] [],
  .b (.localGet 0), .b (.const (.i32 4#32)), .b (.i32bin .add), .b (.localSet 0),
  .block 0 0 [
    .loop 0 0 [
      .b (.localGet 0), .b (.localGet 1), .b (.i32rel .geU), .brIf 1, .b (.localGet 0),
      .b (.i32load 1 0), .b (.localSet 3), .b (.localGet 0), .b (.const (.i32 1#32)),
      .b (.i32bin .add), .b (.localTee 0), .b (.localGet 3), .call (.std .check_clarity_name),
      .b .i32eqz, .brIf 1, .b (.localGet 0), .b (.localGet 3), .b (.i32bin .add), .b (.localGet 1),
      .call (.std .skip_unknown_value), .b (.localTee 0), .b .i32eqz, .brIf 1, .b (.localGet 2),
      .b (.const (.i32 1#32)), .b (.i32bin .sub), .b (.localTee 2), .brIf 0]],
  .b (.const (.i32 0#32)), .b (.localGet 0), .b (.localGet 2), .b .select]

/-- `$skip-tuple`: standard.wat lines 3682-3712 (signature and locals). -/
def skip_tuple : Func where
  params := [.i32, .i32]
  results := [.i32]
  locals := [.i32, .i32]
  body := skip_tuple_body

/-- `$skip-string-ascii`: standard.wat lines 3714-3732. Locals: 0 = $offset, 1 = $offset_end, 2 = $size. -/
def skip_string_ascii_body : List Instr := [
  .b (.localGet 1), .b (.localGet 0), .b (.i32bin .sub), .b (.const (.i32 4#32)), .b (.i32rel .ltS),
  .ite 0 0 [
    .b (.const (.i32 0#32)), .ret] [],
  .b (.localGet 0), .call (.std .load_i32_be), .b (.localSet 2), .b (.localGet 1), .b (.localGet 0),
  .b (.const (.i32 4#32)), .b (.i32bin .add), .b (.localTee 0), .b (.i32bin .sub), .b (.localGet 2),
  .b (.i32rel .ltS),
  .ite 0 0 [
    .b (.const (.i32 0#32)), .ret] [],
  .b (.localGet 0), .b (.localGet 2), .b (.i32bin .add), .b (.const (.i32 0#32)), .b (.localGet 0),
  .b (.localGet 2), .call (.std .is_valid_string_ascii), .b .select]

/-- `$skip-string-ascii`: standard.wat lines 3714-3732 (signature and locals). -/
def skip_string_ascii : Func where
  params := [.i32, .i32]
  results := [.i32]
  locals := [.i32]
  body := skip_string_ascii_body

/-- `$skip-string-utf8`: standard.wat lines 3734-3847. Locals: 0 = $offset, 1 = $offset_end, 2 = $size, 3 = $char, 4 = $byte. -/
def skip_string_utf8_body : List Instr := [
  .b (.localGet 1), .b (.localGet 0), .b (.i32bin .sub), .b (.const (.i32 4#32)), .b (.i32rel .ltS),
  .ite 0 0 [
    .b (.const (.i32 0#32)), .ret] [],
  .b (.localGet 0), .call (.std .load_i32_be), .b (.localSet 2), .b (.localGet 1), .b (.localGet 0),
  .b (.const (.i32 4#32)), .b (.i32bin .add), .b (.localTee 0), .b (.i32bin .sub), .b (.localGet 2),
  .b (.i32rel .ltS),
  .ite 0 0 [
    .b (.const (.i32 0#32)), .ret] [],
  .block 0 0 [
    .b (.localGet 2), .b .i32eqz, .brIf 0,
    .loop 0 0 [
      .b (.localGet 0), .b (.i32load 1 0), .b (.localSet 3), .b (.localGet 3),
      .b (.const (.i32 128#32)), .b (.i32rel .ltU),
      .ite 0 0 [
        .b (.localGet 0), .b (.const (.i32 1#32)), .b (.i32bin .add), .b (.localSet 0),
        .b (.localGet 2), .b (.const (.i32 1#32)), .b (.i32bin .sub), .b (.localTee 2), .brIf 1,
        .br 2] [],
      .b (.localGet 3), .b (.const (.i32 224#32)), .b (.i32bin .and), .b (.const (.i32 192#32)),
      .b (.i32rel .eq),
      .ite 0 0 [
        .b (.localGet 2), .b (.const (.i32 2#32)), .b (.i32rel .ltU), .brIf 2, .b (.localGet 0),
        .b (.i32load 1 1), .b (.localSet 4), .b (.localGet 4), .b (.const (.i32 192#32)),
        .b (.i32bin .and), .b (.const (.i32 128#32)), .b (.i32rel .ne), .brIf 2, .b (.localGet 3),
        .b (.const (.i32 31#32)), .b (.i32bin .and), .b (.const (.i32 6#32)), .b (.i32bin .shl),
        .b (.localGet 4), .b (.const (.i32 63#32)), .b (.i32bin .and), .b (.i32bin .or),
        .b (.localSet 3), .b (.localGet 3), .b (.const (.i32 128#32)), .b (.i32rel .ltU), .brIf 2,
        .b (.localGet 0), .b (.const (.i32 2#32)), .b (.i32bin .add), .b (.localSet 0),
        .b (.localGet 2), .b (.const (.i32 2#32)), .b (.i32bin .sub), .b (.localTee 2), .brIf 1,
        .br 2] [],
      .b (.localGet 3), .b (.const (.i32 240#32)), .b (.i32bin .and), .b (.const (.i32 224#32)),
      .b (.i32rel .eq),
      .ite 0 0 [
        .b (.localGet 2), .b (.const (.i32 3#32)), .b (.i32rel .ltU), .brIf 2, .b (.localGet 0),
        .b (.i32load 1 1), .b (.localSet 4), .b (.localGet 4), .b (.const (.i32 192#32)),
        .b (.i32bin .and), .b (.const (.i32 128#32)), .b (.i32rel .ne), .brIf 2, .b (.localGet 3),
        .b (.const (.i32 15#32)), .b (.i32bin .and), .b (.const (.i32 12#32)), .b (.i32bin .shl),
        .b (.localGet 4), .b (.const (.i32 63#32)), .b (.i32bin .and), .b (.const (.i32 6#32)),
        .b (.i32bin .shl), .b (.i32bin .or), .b (.localGet 0), .b (.i32load 1 2), .b (.localTee 4),
        .b (.const (.i32 63#32)), .b (.i32bin .and), .b (.i32bin .or), .b (.localSet 3),
        .b (.localGet 4), .b (.const (.i32 192#32)), .b (.i32bin .and), .b (.const (.i32 128#32)),
        .b (.i32rel .ne), .brIf 2, .b (.localGet 3), .b (.const (.i32 2048#32)), .b (.i32rel .ltU),
        .brIf 2, .b (.localGet 3), .b (.const (.i32 4294965248#32)), .b (.i32bin .and),
        .b (.const (.i32 55296#32)), .b (.i32rel .eq), .brIf 2, .b (.localGet 0),
        .b (.const (.i32 3#32)), .b (.i32bin .add), .b (.localSet 0), .b (.localGet 2),
        .b (.const (.i32 3#32)), .b (.i32bin .sub), .b (.localTee 2), .brIf 1, .br 2] [],
      .b (.localGet 3), .b (.const (.i32 248#32)), .b (.i32bin .and), .b (.const (.i32 240#32)),
      .b (.i32rel .eq),
      .ite 0 0 [
        .b (.localGet 2), .b (.const (.i32 4#32)), .b (.i32rel .ltU), .brIf 2, .b (.localGet 0),
        .b (.i32load 1 1), .b (.localSet 4), .b (.localGet 4), .b (.const (.i32 192#32)),
        .b (.i32bin .and), .b (.const (.i32 128#32)), .b (.i32rel .ne), .brIf 2, .b (.localGet 3),
        .b (.const (.i32 7#32)), .b (.i32bin .and), .b (.const (.i32 18#32)), .b (.i32bin .shl),
        .b (.localGet 4), .b (.const (.i32 63#32)), .b (.i32bin .and), .b (.const (.i32 12#32)),
        .b (.i32bin .shl), .b (.i32bin .or), .b (.localGet 0), .b (.i32load 1 2), .b (.localTee 4),
        .b (.const (.i32 63#32)), .b (.i32bin .and), .b (.const (.i32 6#32)), .b (.i32bin .shl),
        .b (.i32bin .or), .b (.localSet 3), .b (.localGet 4), .b (.const (.i32 192#32)),
        .b (.i32bin .and), .b (.const (.i32 128#32)), .b (.i32rel .ne), .brIf 2, .b (.localGet 0),
        .b (.i32load 1 3), .b (.localSet 4), .b (.localGet 4), .b (.const (.i32 192#32)),
        .b (.i32bin .and), .b (.const (.i32 128#32)), .b (.i32rel .ne), .brIf 2, .b (.localGet 3),
        .b (.localGet 4), .b (.const (.i32 63#32)), .b (.i32bin .and), .b (.i32bin .or),
        .b (.localSet 3), .b (.localGet 3), .b (.const (.i32 1114112#32)), .b (.i32bin .sub),
        .b (.const (.i32 4293918720#32)), .b (.i32rel .ltU), .brIf 2, .b (.localGet 0),
        .b (.const (.i32 4#32)), .b (.i32bin .add), .b (.localSet 0), .b (.localGet 2),
        .b (.const (.i32 4#32)), .b (.i32bin .sub), .b (.localTee 2), .brIf 1] []]],
  .b (.const (.i32 0#32)), .b (.localGet 0), .b (.localGet 2), .b .select]

/-- `$skip-string-utf8`: standard.wat lines 3734-3847 (signature and locals). -/
def skip_string_utf8 : Func where
  params := [.i32, .i32]
  results := [.i32]
  locals := [.i32, .i32, .i32]
  body := skip_string_utf8_body

/-- `$stdlib.check-clarity-name`: standard.wat lines 3849-3941. Locals: 0 = $offset, 1 = $size, 2 = $char. -/
def check_clarity_name_body : List Instr := [
  .b (.localGet 1), .b (.const (.i32 129#32)), .b (.i32bin .sub), .b (.const (.i32 4294967168#32)),
  .b (.i32rel .ltU),
  .ite 0 0 [
    .b (.const (.i32 0#32)), .ret] [],
  .b (.localGet 0), .b (.i32load 1 0), .b (.const (.i32 2097119#32)), .b (.i32bin .and),
  .b (.const (.i32 65#32)), .b (.i32bin .sub), .b (.const (.i32 26#32)), .b (.i32rel .ltU),
  .ite 0 0 [
    .block 0 0 [
      .loop 0 0 [
        .b (.localGet 1), .b (.const (.i32 1#32)), .b (.i32bin .sub), .b (.localTee 1), .b .i32eqz,
        .brIf 1, .b (.localGet 0), .b (.const (.i32 1#32)), .b (.i32bin .add), .b (.localTee 0),
        .b (.i32load 1 0), .b (.localSet 2), .b (.localGet 2), .b (.const (.i32 2097119#32)),
        .b (.i32bin .and), .b (.const (.i32 65#32)), .b (.i32bin .sub), .b (.const (.i32 26#32)),
        .b (.i32rel .ltU), .brIf 0, .b (.localGet 2), .b (.const (.i32 48#32)), .b (.i32bin .sub),
        .b (.const (.i32 10#32)), .b (.i32rel .ltU), .brIf 0, .b (.localGet 2),
        .b (.const (.i32 33#32)), .b (.i32bin .sub), .b (.localTee 2), .b (.const (.i32 63#32)),
        .b (.i32rel .ltU), .b (.const (.i64 4611686020440675841#64)), .b (.localGet 2), .b .i64extU,
        .b (.i64bin .shrU), .b .i32wrap, .b (.i32bin .and), .brIf 0]],
    .b (.localGet 1), .b .i32eqz, .ret] [],
  .b (.localGet 1), .b (.const (.i32 1#32)), .b (.i32rel .eq),
  .ite 0 0 [
    .b (.localGet 0), .b (.i32load 1 0), .b (.localTee 2), .b (.const (.i32 63#32)),
    .b (.i32rel .ltU), .b (.const (.i64 8070639648247906304#64)), .b (.localGet 2), .b .i64extU,
    .b (.i64bin .shrU), .b .i32wrap, .b (.i32bin .and), .ret] [],
  .b (.localGet 1), .b (.const (.i32 2#32)), .b (.i32rel .eq),
  .ite 0 0 [
    .b (.localGet 0), .b (.i32load 2 0), .b (.const (.i32 4294967293#32)), .b (.i32bin .and),
    .b (.const (.i32 15676#32)), .b (.i32rel .eq), .ret] [],
  .b (.const (.i32 0#32))]

/-- `$stdlib.check-clarity-name`: standard.wat lines 3849-3941 (signature and locals). -/
def check_clarity_name : Func where
  params := [.i32, .i32]
  results := [.i32]
  locals := [.i32]
  body := check_clarity_name_body

end Wasm.Std

namespace Wasm

/-- The runtime library: standard.wat lines 403-3941. -/
def stdFunc : StdFn → Func
  | .runtime_error => Std.runtime_error
  | .add_int128 => Std.add_int128
  | .add_int => Std.add_int
  | .add_uint => Std.add_uint
  | .sub_int128 => Std.sub_int128
  | .sub_int => Std.sub_int
  | .sub_uint => Std.sub_uint
  | .mul_int128 => Std.mul_int128
  | .mul_uint => Std.mul_uint
  | .mul_int => Std.mul_int
  | .div_int128 => Std.div_int128
  | .div_uint => Std.div_uint
  | .div_int => Std.div_int
  | .mod_uint => Std.mod_uint
  | .mod_int => Std.mod_int
  | .lt_uint => Std.lt_uint
  | .gt_uint => Std.gt_uint
  | .le_uint => Std.le_uint
  | .ge_uint => Std.ge_uint
  | .lt_int => Std.lt_int
  | .gt_int => Std.gt_int
  | .le_int => Std.le_int
  | .ge_int => Std.ge_int
  | .lt_buff => Std.lt_buff
  | .gt_buff => Std.gt_buff
  | .le_buff => Std.le_buff
  | .ge_buff => Std.ge_buff
  | .log2 => Std.log2
  | .log2_uint => Std.log2_uint
  | .log2_int => Std.log2_int
  | .sqrti_uint => Std.sqrti_uint
  | .sqrti_int => Std.sqrti_int
  | .bit_and => Std.bit_and
  | .bit_not => Std.bit_not
  | .bit_or => Std.bit_or
  | .bit_xor => Std.bit_xor
  | .bit_shift_left => Std.bit_shift_left
  | .bit_shift_right_uint => Std.bit_shift_right_uint
  | .bit_shift_right_int => Std.bit_shift_right_int
  | .clz_int128 => Std.clz_int128
  | .pow_inner => Std.pow_inner
  | .pow_uint => Std.pow_uint
  | .pow_int => Std.pow_int
  | .sha256_buf => Std.sha256_buf
  | .sha256_int => Std.sha256_int
  | .extend_data => Std.extend_data
  | .block64 => Std.block64
  | .working_vars => Std.working_vars
  | .hash160_buf => Std.hash160_buf
  | .hash160_int => Std.hash160_int
  | .hash160_pad => Std.hash160_pad
  | .hash160_compress => Std.hash160_compress
  | .hash160_f1 => Std.hash160_f1
  | .hash160_f2 => Std.hash160_f2
  | .hash160_f3 => Std.hash160_f3
  | .hash160_f4 => Std.hash160_f4
  | .hash160_f5 => Std.hash160_f5
  | .store_i32_be => Std.store_i32_be
  | .load_i32_be => Std.load_i32_be
  | .store_i64_be => Std.store_i64_be
  | .buff_to_uint_be => Std.buff_to_uint_be
  | .buff_to_uint_le => Std.buff_to_uint_le
  | .not_ => Std.not_
  | .principal_construct => Std.principal_construct
  | .is_valid_contract_name => Std.is_valid_contract_name
  | .is_alpha => Std.is_alpha
  | .is_valid_char => Std.is_valid_char
  | .is_transient => Std.is_transient
  | .is_version_valid => Std.is_version_valid
  | .string_to_uint => Std.string_to_uint
  | .utf8_to_uint => Std.utf8_to_uint
  | .string_to_int => Std.string_to_int
  | .utf8_to_int => Std.utf8_to_int
  | .uint_to_string => Std.uint_to_string
  | .int_to_string => Std.int_to_string
  | .uint_to_utf8 => Std.uint_to_utf8
  | .int_to_utf8 => Std.int_to_utf8
  | .to_uint => Std.to_uint
  | .to_int => Std.to_int
  | .sha512_buf => Std.sha512_buf
  | .sha512_int => Std.sha512_int
  | .pad_sha512_data => Std.pad_sha512_data
  | .process_sha512_block => Std.process_sha512_block
  | .calculate_sha512 => Std.calculate_sha512
  | .store_calculated_sha512 => Std.store_calculated_sha512
  | .convert_scalars_to_utf8 => Std.convert_scalars_to_utf8
  | .is_valid_string_ascii => Std.is_valid_string_ascii
  | .utf8_to_string_utf8 => Std.utf8_to_string_utf8
  | .compare_clarity_names => Std.compare_clarity_names
  | .bsearch_clarity_name => Std.bsearch_clarity_name
  | .skip_unknown_value => Std.skip_unknown_value
  | .skip_int128 => Std.skip_int128
  | .skip_buffer => Std.skip_buffer
  | .skip_boolean_or_none => Std.skip_boolean_or_none
  | .skip_principal => Std.skip_principal
  | .skip_contract => Std.skip_contract
  | .skip_some_ok_err => Std.skip_some_ok_err
  | .skip_tuple => Std.skip_tuple
  | .skip_string_ascii => Std.skip_string_ascii
  | .skip_string_utf8 => Std.skip_string_utf8
  | .check_clarity_name => Std.check_clarity_name

/-- Signatures of the imported host functions: standard.wat lines 17-328. -/
def hostSig : HostFn → List VT × List VT
  | .define_function => ([.i32, .i32, .i32], [])
  | .define_variable => ([.i32, .i32, .i32, .i32], [])
  | .define_ft => ([.i32, .i32, .i32, .i64, .i64], [])
  | .define_nft => ([.i32, .i32], [])
  | .define_map => ([.i32, .i32], [])
  | .define_trait => ([.i32, .i32], [])
  | .impl_trait => ([.i32, .i32], [])
  | .get_variable => ([.i32, .i32, .i32, .i32], [])
  | .set_variable => ([.i32, .i32, .i32, .i32], [])
  | .print => ([.i32, .i32, .i32, .i32], [])
  | .enter_as_contract => ([], [])
  | .exit_as_contract => ([], [])
  | .enter_at_block => ([.i32, .i32], [])
  | .exit_at_block => ([], [])
  | .stx_get_balance => ([.i32, .i32], [.i64, .i64])
  | .stx_account => ([.i32, .i32], [.i64, .i64, .i64, .i64, .i64, .i64])
  | .stx_burn => ([.i64, .i64, .i32, .i32], [.i32, .i32, .i64, .i64])
  | .stx_transfer => ([.i64, .i64, .i32, .i32, .i32, .i32, .i32, .i32], [.i32, .i32, .i64, .i64])
  | .ft_get_supply => ([.i32, .i32], [.i64, .i64])
  | .ft_get_balance => ([.i32, .i32, .i32, .i32], [.i64, .i64])
  | .ft_burn => ([.i32, .i32, .i64, .i64, .i32, .i32], [.i32, .i32, .i64, .i64])
  | .ft_mint => ([.i32, .i32, .i64, .i64, .i32, .i32], [.i32, .i32, .i64, .i64])
  | .ft_transfer => ([.i32, .i32, .i64, .i64, .i32, .i32, .i32, .i32], [.i32, .i32, .i64, .i64])
  | .nft_get_owner => ([.i32, .i32, .i32, .i32, .i32, .i32], [.i32, .i32, .i32])
  | .nft_burn => ([.i32, .i32, .i32, .i32, .i32, .i32], [.i32, .i32, .i64, .i64])
  | .nft_mint => ([.i32, .i32, .i32, .i32, .i32, .i32], [.i32, .i32, .i64, .i64])
  | .nft_transfer => ([.i32, .i32, .i32, .i32, .i32, .i32, .i32, .i32], [.i32, .i32, .i64, .i64])
  | .map_get => ([.i32, .i32, .i32, .i32, .i32, .i32], [])
  | .map_set => ([.i32, .i32, .i32, .i32, .i32, .i32], [.i32])
  | .map_insert => ([.i32, .i32, .i32, .i32, .i32, .i32], [.i32])
  | .map_delete => ([.i32, .i32, .i32, .i32], [.i32])
  | .get_block_info_time_property => ([.i64, .i64, .i32, .i32], [])
  | .get_block_info_vrf_seed_property => ([.i64, .i64, .i32, .i32], [])
  | .get_block_info_header_hash_property => ([.i64, .i64, .i32, .i32], [])
  | .get_block_info_burnchain_header_hash_property => ([.i64, .i64, .i32, .i32], [])
  | .get_block_info_identity_header_hash_property => ([.i64, .i64, .i32, .i32], [])
  | .get_block_info_miner_address_property => ([.i64, .i64, .i32, .i32], [])
  | .get_block_info_miner_spend_winner_property => ([.i64, .i64, .i32, .i32], [])
  | .get_block_info_miner_spend_total_property => ([.i64, .i64, .i32, .i32], [])
  | .get_block_info_block_reward_property => ([.i64, .i64, .i32, .i32], [])
  | .get_burn_block_info_header_hash_property => ([.i64, .i64, .i32, .i32], [])
  | .get_burn_block_info_pox_addrs_property => ([.i64, .i64, .i32, .i32], [])
  | .get_stacks_block_info_time_property => ([.i64, .i64, .i32, .i32], [])
  | .get_stacks_block_info_header_hash_property => ([.i64, .i64, .i32, .i32], [])
  | .get_stacks_block_info_identity_header_hash_property => ([.i64, .i64, .i32, .i32], [])
  | .get_tenure_info_burnchain_header_hash_property => ([.i64, .i64, .i32, .i32], [])
  | .get_tenure_info_miner_address_property => ([.i64, .i64, .i32, .i32], [])
  | .get_tenure_info_time_property => ([.i64, .i64, .i32, .i32], [])
  | .get_tenure_info_vrf_seed_property => ([.i64, .i64, .i32, .i32], [])
  | .get_tenure_info_block_reward_property => ([.i64, .i64, .i32, .i32], [])
  | .get_tenure_info_miner_spend_total_property => ([.i64, .i64, .i32, .i32], [])
  | .get_tenure_info_miner_spend_winner_property => ([.i64, .i64, .i32, .i32], [])
  | .contract_call => ([.i32, .i32, .i32, .i32, .i32, .i32, .i32, .i32, .i32, .i32], [])
  | .begin_public_call => ([], [])
  | .begin_read_only_call => ([], [])
  | .commit_call => ([], [])
  | .roll_back_call => ([], [])
  | .keccak256 => ([.i32, .i32, .i32, .i32], [.i32, .i32])
  | .sha512_256 => ([.i32, .i32, .i32, .i32], [.i32, .i32])
  | .secp256k1_recover => ([.i32, .i32, .i32, .i32, .i32, .i32], [])
  | .secp256k1_verify => ([.i32, .i32, .i32, .i32, .i32, .i32], [.i32])
  | .principal_of => ([.i32, .i32, .i32], [.i32, .i32, .i32, .i64, .i64])
  | .tx_sender => ([.i32, .i32], [.i32, .i32])
  | .contract_caller => ([.i32, .i32], [.i32, .i32])
  | .tx_sponsor => ([.i32, .i32], [.i32, .i32, .i32])
  | .block_height => ([], [.i64, .i64])
  | .stacks_block_height => ([], [.i64, .i64])
  | .tenure_height => ([], [.i64, .i64])
  | .burn_block_height => ([], [.i64, .i64])
  | .stx_liquid_supply => ([], [.i64, .i64])
  | .save_constant => ([.i32, .i32, .i32, .i32], [])
  | .load_constant => ([.i32, .i32, .i32, .i32], [])
  | .skip_list => ([.i32, .i32], [.i32])
  | .is_in_regtest => ([], [.i32])
  | .is_in_mainnet => ([], [.i32])
  | .chain_id => ([], [.i64, .i64])
  | .log_ => ([.i64], [])
  | .debug_msg => ([.i32], [])

/-- The function table: standard.wat `(elem ..)` segments, lines 384-389. -/
def stdTable : Nat → Option FId
  | 0 => some (.std .hash160_f1)
  | 1 => some (.std .hash160_f2)
  | 2 => some (.std .hash160_f3)
  | 3 => some (.std .hash160_f4)
  | 4 => some (.std .hash160_f5)
  | 5 => some (.std .skip_int128)
  | 6 => some (.std .skip_int128)
  | 7 => some (.std .skip_buffer)
  | 8 => some (.std .skip_boolean_or_none)
  | 9 => some (.std .skip_boolean_or_none)
  | 10 => some (.std .skip_principal)
  | 11 => some (.std .skip_contract)
  | 12 => some (.std .skip_some_ok_err)
  | 13 => some (.std .skip_some_ok_err)
  | 14 => some (.std .skip_boolean_or_none)
  | 15 => some (.std .skip_some_ok_err)
  | 16 => some (.host .skip_list)
  | 17 => some (.std .skip_tuple)
  | 18 => some (.std .skip_string_ascii)
  | 19 => some (.std .skip_string_utf8)
  | _ => none

/-- The `(data ..)` segments of standard.wat, lines 351-379: (offset, bytes). -/
def stdData : List (Nat × List (BitVec 8)) := [
  (0, [103#8, 230#8, 9#8, 106#8, 133#8, 174#8, 103#8, 187#8, 114#8, 243#8, 110#8, 60#8, 58#8, 245#8, 79#8, 165#8, 127#8, 82#8, 14#8, 81#8, 140#8, 104#8, 5#8, 155#8, 171#8, 217#8, 131#8, 31#8, 25#8, 205#8, 224#8, 91#8]),
  (32, [152#8, 47#8, 138#8, 66#8, 145#8, 68#8, 55#8, 113#8, 207#8, 251#8, 192#8, 181#8, 165#8, 219#8, 181#8, 233#8, 91#8, 194#8, 86#8, 57#8, 241#8, 17#8, 241#8, 89#8, 164#8, 130#8, 63#8, 146#8, 213#8, 94#8, 28#8, 171#8, 152#8, 170#8, 7#8, 216#8, 1#8, 91#8, 131#8, 18#8, 190#8, 133#8, 49#8, 36#8, 195#8, 125#8, 12#8, 85#8, 116#8, 93#8, 190#8, 114#8, 254#8, 177#8, 222#8, 128#8, 167#8, 6#8, 220#8, 155#8, 116#8, 241#8, 155#8, 193#8, 193#8, 105#8, 155#8, 228#8, 134#8, 71#8, 190#8, 239#8, 198#8, 157#8, 193#8, 15#8, 204#8, 161#8, 12#8, 36#8, 111#8, 44#8, 233#8, 45#8, 170#8, 132#8, 116#8, 74#8, 220#8, 169#8, 176#8, 92#8, 218#8, 136#8, 249#8, 118#8, 82#8, 81#8, 62#8, 152#8, 109#8, 198#8, 49#8, 168#8, 200#8, 39#8, 3#8, 176#8, 199#8, 127#8, 89#8, 191#8, 243#8, 11#8, 224#8, 198#8, 71#8, 145#8, 167#8, 213#8, 81#8, 99#8, 202#8, 6#8, 103#8, 41#8, 41#8, 20#8, 133#8, 10#8, 183#8, 39#8, 56#8, 33#8, 27#8, 46#8, 252#8, 109#8, 44#8, 77#8, 19#8, 13#8, 56#8, 83#8, 84#8, 115#8, 10#8, 101#8, 187#8, 10#8, 106#8, 118#8, 46#8, 201#8, 194#8, 129#8, 133#8, 44#8, 114#8, 146#8, 161#8, 232#8, 191#8, 162#8, 75#8, 102#8, 26#8, 168#8, 112#8, 139#8, 75#8, 194#8, 163#8, 81#8, 108#8, 199#8, 25#8, 232#8, 146#8, 209#8, 36#8, 6#8, 153#8, 214#8, 133#8, 53#8, 14#8, 244#8, 112#8, 160#8, 106#8, 16#8, 22#8, 193#8, 164#8, 25#8, 8#8, 108#8, 55#8, 30#8, 76#8, 119#8, 72#8, 39#8, 181#8, 188#8, 176#8, 52#8, 179#8, 12#8, 28#8, 57#8, 74#8, 170#8, 216#8, 78#8, 79#8, 202#8, 156#8, 91#8, 243#8, 111#8, 46#8, 104#8, 238#8, 130#8, 143#8, 116#8, 111#8, 99#8, 165#8, 120#8, 20#8, 120#8, 200#8, 132#8, 8#8, 2#8, 199#8, 140#8, 250#8, 255#8, 190#8, 144#8, 235#8, 108#8, 80#8, 164#8, 247#8, 163#8, 249#8, 190#8, 242#8, 120#8, 113#8, 198#8]),
  (288, [0#8, 1#8, 2#8, 3#8, 4#8, 5#8, 6#8, 7#8, 8#8, 9#8, 10#8, 11#8, 12#8, 13#8, 14#8, 15#8, 7#8, 4#8, 13#8, 1#8, 10#8, 6#8, 15#8, 3#8, 12#8, 0#8, 9#8, 5#8, 2#8, 14#8, 11#8, 8#8, 3#8, 10#8, 14#8, 4#8, 9#8, 15#8, 8#8, 1#8, 2#8, 7#8, 0#8, 6#8, 13#8, 11#8, 5#8, 12#8, 1#8, 9#8, 11#8, 10#8, 0#8, 8#8, 12#8, 4#8, 13#8, 3#8, 7#8, 15#8, 14#8, 5#8, 6#8, 2#8, 4#8, 0#8, 5#8, 9#8, 7#8, 12#8, 2#8, 10#8, 14#8, 1#8, 3#8, 8#8, 11#8, 6#8, 15#8, 13#8]),
  (368, [5#8, 14#8, 7#8, 0#8, 9#8, 2#8, 11#8, 4#8, 13#8, 6#8, 15#8, 8#8, 1#8, 10#8, 3#8, 12#8, 6#8, 11#8, 3#8, 7#8, 0#8, 13#8, 5#8, 10#8, 14#8, 15#8, 8#8, 12#8, 4#8, 9#8, 1#8, 2#8, 15#8, 5#8, 1#8, 3#8, 7#8, 14#8, 6#8, 9#8, 11#8, 8#8, 12#8, 2#8, 10#8, 0#8, 4#8, 13#8, 8#8, 6#8, 4#8, 1#8, 3#8, 11#8, 15#8, 0#8, 5#8, 12#8, 2#8, 13#8, 9#8, 7#8, 10#8, 14#8, 12#8, 15#8, 10#8, 4#8, 1#8, 5#8, 8#8, 7#8, 6#8, 2#8, 13#8, 14#8, 0#8, 3#8, 9#8, 11#8]),
  (448, [11#8, 14#8, 15#8, 12#8, 5#8, 8#8, 7#8, 9#8, 11#8, 13#8, 14#8, 15#8, 6#8, 7#8, 9#8, 8#8, 7#8, 6#8, 8#8, 13#8, 11#8, 9#8, 7#8, 15#8, 7#8, 12#8, 15#8, 9#8, 11#8, 7#8, 13#8, 12#8, 11#8, 13#8, 6#8, 7#8, 14#8, 9#8, 13#8, 15#8, 14#8, 8#8, 13#8, 6#8, 5#8, 12#8, 7#8, 5#8, 11#8, 12#8, 14#8, 15#8, 14#8, 15#8, 9#8, 8#8, 9#8, 14#8, 5#8, 6#8, 8#8, 6#8, 5#8, 12#8, 9#8, 15#8, 5#8, 11#8, 6#8, 8#8, 13#8, 12#8, 5#8, 12#8, 13#8, 14#8, 11#8, 8#8, 5#8, 6#8]),
  (528, [8#8, 9#8, 9#8, 11#8, 13#8, 15#8, 15#8, 5#8, 7#8, 7#8, 8#8, 11#8, 14#8, 14#8, 12#8, 6#8, 9#8, 13#8, 15#8, 7#8, 12#8, 8#8, 9#8, 11#8, 7#8, 7#8, 12#8, 7#8, 6#8, 15#8, 13#8, 11#8, 9#8, 7#8, 15#8, 11#8, 8#8, 6#8, 6#8, 14#8, 12#8, 13#8, 5#8, 14#8, 13#8, 13#8, 7#8, 5#8, 15#8, 5#8, 8#8, 11#8, 14#8, 14#8, 6#8, 14#8, 6#8, 9#8, 12#8, 9#8, 12#8, 5#8, 15#8, 8#8, 8#8, 5#8, 12#8, 9#8, 12#8, 5#8, 14#8, 6#8, 8#8, 13#8, 6#8, 5#8, 15#8, 13#8, 11#8, 11#8]),
  (608, [0#8, 0#8, 0#8, 0#8, 153#8, 121#8, 130#8, 90#8, 161#8, 235#8, 217#8, 110#8, 220#8, 188#8, 27#8, 143#8, 78#8, 253#8, 83#8, 169#8]),
  (628, [230#8, 139#8, 162#8, 80#8, 36#8, 209#8, 77#8, 92#8, 243#8, 62#8, 112#8, 109#8, 233#8, 118#8, 109#8, 122#8, 0#8, 0#8, 0#8, 0#8]),
  (648, [8#8, 201#8, 188#8, 243#8, 103#8, 230#8, 9#8, 106#8, 59#8, 167#8, 202#8, 132#8, 133#8, 174#8, 103#8, 187#8, 43#8, 248#8, 148#8, 254#8, 114#8, 243#8, 110#8, 60#8, 241#8, 54#8, 29#8, 95#8, 58#8, 245#8, 79#8, 165#8, 209#8, 130#8, 230#8, 173#8, 127#8, 82#8, 14#8, 81#8, 31#8, 108#8, 62#8, 43#8, 140#8, 104#8, 5#8, 155#8, 107#8, 189#8, 65#8, 251#8, 171#8, 217#8, 131#8, 31#8, 121#8, 33#8, 126#8, 19#8, 25#8, 205#8, 224#8, 91#8]),
  (712, [34#8, 174#8, 40#8, 215#8, 152#8, 47#8, 138#8, 66#8, 205#8, 101#8, 239#8, 35#8, 145#8, 68#8, 55#8, 113#8, 47#8, 59#8, 77#8, 236#8, 207#8, 251#8, 192#8, 181#8, 188#8, 219#8, 137#8, 129#8, 165#8, 219#8, 181#8, 233#8, 56#8, 181#8, 72#8, 243#8, 91#8, 194#8, 86#8, 57#8, 25#8, 208#8, 5#8, 182#8, 241#8, 17#8, 241#8, 89#8, 155#8, 79#8, 25#8, 175#8, 164#8, 130#8, 63#8, 146#8, 24#8, 129#8, 109#8, 218#8, 213#8, 94#8, 28#8, 171#8, 66#8, 2#8, 3#8, 163#8, 152#8, 170#8, 7#8, 216#8, 190#8, 111#8, 112#8, 69#8, 1#8, 91#8, 131#8, 18#8, 140#8, 178#8, 228#8, 78#8, 190#8, 133#8, 49#8, 36#8, 226#8, 180#8, 255#8, 213#8, 195#8, 125#8, 12#8, 85#8, 111#8, 137#8, 123#8, 242#8, 116#8, 93#8, 190#8, 114#8, 177#8, 150#8, 22#8, 59#8, 254#8, 177#8, 222#8, 128#8, 53#8, 18#8, 199#8, 37#8, 167#8, 6#8, 220#8, 155#8, 148#8, 38#8, 105#8, 207#8, 116#8, 241#8, 155#8, 193#8, 210#8, 74#8, 241#8, 158#8, 193#8, 105#8, 155#8, 228#8, 227#8, 37#8, 79#8, 56#8, 134#8, 71#8, 190#8, 239#8, 181#8, 213#8, 140#8, 139#8, 198#8, 157#8, 193#8, 15#8, 101#8, 156#8, 172#8, 119#8, 204#8, 161#8, 12#8, 36#8, 117#8, 2#8, 43#8, 89#8, 111#8, 44#8, 233#8, 45#8, 131#8, 228#8, 166#8, 110#8, 170#8, 132#8, 116#8, 74#8, 212#8, 251#8, 65#8, 189#8, 220#8, 169#8, 176#8, 92#8, 181#8, 83#8, 17#8, 131#8, 218#8, 136#8, 249#8, 118#8, 171#8, 223#8, 102#8, 238#8, 82#8, 81#8, 62#8, 152#8, 16#8, 50#8, 180#8, 45#8, 109#8, 198#8, 49#8, 168#8, 63#8, 33#8, 251#8, 152#8, 200#8, 39#8, 3#8, 176#8, 228#8, 14#8, 239#8, 190#8, 199#8, 127#8, 89#8, 191#8, 194#8, 143#8, 168#8, 61#8, 243#8, 11#8, 224#8, 198#8, 37#8, 167#8, 10#8, 147#8, 71#8, 145#8, 167#8, 213#8, 111#8, 130#8, 3#8, 224#8, 81#8, 99#8, 202#8, 6#8, 112#8, 110#8, 14#8, 10#8, 103#8, 41#8, 41#8, 20#8, 252#8, 47#8, 210#8, 70#8, 133#8, 10#8, 183#8, 39#8, 38#8, 201#8, 38#8, 92#8, 56#8, 33#8, 27#8, 46#8, 237#8, 42#8, 196#8, 90#8, 252#8, 109#8, 44#8, 77#8, 223#8, 179#8, 149#8, 157#8, 19#8, 13#8, 56#8, 83#8, 222#8, 99#8, 175#8, 139#8, 84#8, 115#8, 10#8, 101#8, 168#8, 178#8, 119#8, 60#8, 187#8, 10#8, 106#8, 118#8, 230#8, 174#8, 237#8, 71#8, 46#8, 201#8, 194#8, 129#8, 59#8, 53#8, 130#8, 20#8, 133#8, 44#8, 114#8, 146#8, 100#8, 3#8, 241#8, 76#8, 161#8, 232#8, 191#8, 162#8, 1#8, 48#8, 66#8, 188#8, 75#8, 102#8, 26#8, 168#8, 145#8, 151#8, 248#8, 208#8, 112#8, 139#8, 75#8, 194#8, 48#8, 190#8, 84#8, 6#8, 163#8, 81#8, 108#8, 199#8, 24#8, 82#8, 239#8, 214#8, 25#8, 232#8, 146#8, 209#8, 16#8, 169#8, 101#8, 85#8, 36#8, 6#8, 153#8, 214#8, 42#8, 32#8, 113#8, 87#8, 133#8, 53#8, 14#8, 244#8, 184#8, 209#8, 187#8, 50#8, 112#8, 160#8, 106#8, 16#8, 200#8, 208#8, 210#8, 184#8, 22#8, 193#8, 164#8, 25#8, 83#8, 171#8, 65#8, 81#8, 8#8, 108#8, 55#8, 30#8, 153#8, 235#8, 142#8, 223#8, 76#8, 119#8, 72#8, 39#8, 168#8, 72#8, 155#8, 225#8, 181#8, 188#8, 176#8, 52#8, 99#8, 90#8, 201#8, 197#8, 179#8, 12#8, 28#8, 57#8, 203#8, 138#8, 65#8, 227#8, 74#8, 170#8, 216#8, 78#8, 115#8, 227#8, 99#8, 119#8, 79#8, 202#8, 156#8, 91#8, 163#8, 184#8, 178#8, 214#8, 243#8, 111#8, 46#8, 104#8, 252#8, 178#8, 239#8, 93#8, 238#8, 130#8, 143#8, 116#8, 96#8, 47#8, 23#8, 67#8, 111#8, 99#8, 165#8, 120#8, 114#8, 171#8, 240#8, 161#8, 20#8, 120#8, 200#8, 132#8, 236#8, 57#8, 100#8, 26#8, 8#8, 2#8, 199#8, 140#8, 40#8, 30#8, 99#8, 35#8, 250#8, 255#8, 190#8, 144#8, 233#8, 189#8, 130#8, 222#8, 235#8, 108#8, 80#8, 164#8, 21#8, 121#8, 198#8, 178#8, 247#8, 163#8, 249#8, 190#8, 43#8, 83#8, 114#8, 227#8, 242#8, 120#8, 113#8, 198#8, 156#8, 97#8, 38#8, 234#8, 206#8, 62#8, 39#8, 202#8, 7#8, 194#8, 192#8, 33#8, 199#8, 184#8, 134#8, 209#8, 30#8, 235#8, 224#8, 205#8, 214#8, 125#8, 218#8, 234#8, 120#8, 209#8, 110#8, 238#8, 127#8, 79#8, 125#8, 245#8, 186#8, 111#8, 23#8, 114#8, 170#8, 103#8, 240#8, 6#8, 166#8, 152#8, 200#8, 162#8, 197#8, 125#8, 99#8, 10#8, 174#8, 13#8, 249#8, 190#8, 4#8, 152#8, 63#8, 17#8, 27#8, 71#8, 28#8, 19#8, 53#8, 11#8, 113#8, 27#8, 132#8, 125#8, 4#8, 35#8, 245#8, 119#8, 219#8, 40#8, 147#8, 36#8, 199#8, 64#8, 123#8, 171#8, 202#8, 50#8, 188#8, 190#8, 201#8, 21#8, 10#8, 190#8, 158#8, 60#8, 76#8, 13#8, 16#8, 156#8, 196#8, 103#8, 29#8, 67#8, 182#8, 66#8, 62#8, 203#8, 190#8, 212#8, 197#8, 76#8, 42#8, 126#8, 101#8, 252#8, 156#8, 41#8, 127#8, 89#8, 236#8, 250#8, 214#8, 58#8, 171#8, 111#8, 203#8, 95#8, 23#8, 88#8, 71#8, 74#8, 140#8, 25#8, 68#8, 108#8])]

end Wasm
