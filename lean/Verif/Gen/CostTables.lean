import Verif.Gen.Cost

/-! Generated by tools/cost2lean.py from /repo/clar2wasm/src/cost/clar{1,2,3}.rs. Do not edit.
A word is named by its Rust type. -/

namespace Gen

/-- cost/clar1.rs 45-905: `WORD_COSTS`, 85 words. -/
def wordCosts1 : List (String × WordCost) :=
  [("Add", ⟨.linear 1000 1000, .none, .none, .none, .none⟩),
   ("Sub", ⟨.linear 1000 1000, .none, .none, .none, .none⟩),
   ("Mul", ⟨.linear 1000 1000, .none, .none, .none, .none⟩),
   ("Div", ⟨.linear 1000 1000, .none, .none, .none, .none⟩),
   ("Log2", ⟨.const 1000, .none, .none, .none, .none⟩),
   ("Modulo", ⟨.const 1000, .none, .none, .none, .none⟩),
   ("Power", ⟨.const 1000, .none, .none, .none, .none⟩),
   ("Sqrti", ⟨.const 1000, .none, .none, .none, .none⟩),
   ("CmpGreater", ⟨.const 1000, .none, .none, .none, .none⟩),
   ("CmpGeq", ⟨.const 1000, .none, .none, .none, .none⟩),
   ("CmpLess", ⟨.const 1000, .none, .none, .none, .none⟩),
   ("CmpLeq", ⟨.const 1000, .none, .none, .none, .none⟩),
   ("Or", ⟨.linear 1000 1000, .none, .none, .none, .none⟩),
   ("And", ⟨.linear 1000 1000, .none, .none, .none, .none⟩),
   ("Not", ⟨.const 1000, .none, .none, .none, .none⟩),
   ("ToInt", ⟨.const 1000, .none, .none, .none, .none⟩),
   ("ToUint", ⟨.const 1000, .none, .none, .none, .none⟩),
   ("Hash160", ⟨.linear 1000 1000, .none, .none, .none, .none⟩),
   ("Keccak256", ⟨.linear 1 127, .none, .none, .none, .none⟩),
   ("Sha256", ⟨.linear 1000 1000, .none, .none, .none, .none⟩),
   ("Sha512", ⟨.linear 1000 1000, .none, .none, .none, .none⟩),
   ("Sha512_256", ⟨.linear 1000 1000, .none, .none, .none, .none⟩),
   ("StxBurn", ⟨.none, .none, .none, .none, .none⟩),
   ("StxGetBalance", ⟨.const 1000, .const 1, .const 1, .none, .none⟩),
   ("Let", ⟨.linear 1000 1000, .none, .none, .none, .none⟩),
   ("AtBlock", ⟨.const 1000, .const 1, .const 1, .none, .none⟩),
   ("GetBlockInfo", ⟨.const 1000, .const 1, .const 1, .none, .none⟩),
   ("GetStacksBlockInfo", ⟨.const 1000, .const 1, .const 1, .none, .none⟩),
   ("GetTenureInfo", ⟨.none, .none, .none, .none, .none⟩),
   ("Asserts", ⟨.const 1000, .none, .none, .none, .none⟩),
   ("Filter", ⟨.const 1000, .none, .none, .none, .none⟩),
   ("If", ⟨.const 1000, .none, .none, .none, .none⟩),
   ("Match", ⟨.const 1000, .none, .none, .none, .none⟩),
   ("Try", ⟨.const 1000, .none, .none, .none, .none⟩),
   ("Unwrap", ⟨.const 1000, .none, .none, .none, .none⟩),
   ("UnwrapErr", ⟨.const 1000, .none, .none, .none, .none⟩),
   ("UnwrapErrPanic", ⟨.const 1000, .none, .none, .none, .none⟩),
   ("UnwrapPanic", ⟨.const 1000, .none, .none, .none, .none⟩),
   ("AsContract", ⟨.const 138, .none, .none, .none, .none⟩),
   ("ContractCall", ⟨.const 1000, .none, .none, .none, .none⟩),
   ("Begin", ⟨.const 1000, .none, .none, .none, .none⟩),
   ("GetDataVar", ⟨.linear 1000 1000, .const 1, .linear 1 1, .none, .none⟩),
   ("SetDataVar", ⟨.linear 1000 1000, .none, .none, .const 1, .linear 1 1⟩),
   ("DefaultTo", ⟨.const 1000, .none, .none, .none, .none⟩),
   ("ClarityOk", ⟨.const 1000, .none, .none, .none, .none⟩),
   ("ClarityErr", ⟨.const 1000, .none, .none, .none, .none⟩),
   ("ClaritySome", ⟨.const 1000, .none, .none, .none, .none⟩),
   ("IndexOf::Alias", ⟨.linear 1000 1000, .none, .none, .none, .none⟩),
   ("IndexOf::Original", ⟨.linear 1000 1000, .none, .none, .none, .none⟩),
   ("IsEq", ⟨.linear 1000 1000, .none, .none, .none, .none⟩),
   ("MapGet", ⟨.linear 1000 1000, .const 1, .linear 1 1, .none, .none⟩),
   ("MapSet", ⟨.linear 1000 1000, .const 1, .none, .const 1, .linear 1 1⟩),
   ("MapInsert", ⟨.linear 1000 1000, .const 1, .none, .const 1, .linear 1 1⟩),
   ("MapDelete", ⟨.linear 1000 1000, .const 1, .none, .const 1, .linear 1 1⟩),
   ("ContractOf", ⟨.const 1000, .none, .none, .none, .none⟩),
   ("IsNone", ⟨.const 1000, .none, .none, .none, .none⟩),
   ("IsSome", ⟨.const 1000, .none, .none, .none, .none⟩),
   ("PrincipalOf", ⟨.const 1000, .none, .none, .none, .none⟩),
   ("Print", ⟨.linear 1000 1000, .none, .none, .none, .none⟩),
   ("IsOk", ⟨.const 1000, .none, .none, .none, .none⟩),
   ("IsErr", ⟨.const 1000, .none, .none, .none, .none⟩),
   ("Recover", ⟨.const 1000, .none, .none, .none, .none⟩),
   ("Verify", ⟨.const 1000, .none, .none, .none, .none⟩),
   ("Append", ⟨.linear 1000 1000, .none, .none, .none, .none⟩),
   ("AsMaxLen", ⟨.const 1000, .none, .none, .none, .none⟩),
   ("Concat", ⟨.linear 1000 1000, .none, .none, .none, .none⟩),
   ("ElementAt::Original", ⟨.const 1000, .none, .none, .none, .none⟩),
   ("ElementAt::Alias", ⟨.const 1000, .none, .none, .none, .none⟩),
   ("Fold", ⟨.const 1000, .none, .none, .none, .none⟩),
   ("Len", ⟨.const 1000, .none, .none, .none, .none⟩),
   ("ListCons", ⟨.linear 1000 1000, .none, .none, .none, .none⟩),
   ("Map", ⟨.linear 1000 1000, .none, .none, .none, .none⟩),
   ("StxTransfer", ⟨.const 1000, .const 1, .const 1, .const 1, .const 1⟩),
   ("MintFungibleToken", ⟨.const 1000, .const 2, .const 1, .const 2, .const 1⟩),
   ("BurnFungibleToken", ⟨.const 1000, .const 2, .const 1, .const 2, .const 1⟩),
   ("TransferFungibleToken", ⟨.const 1000, .const 2, .const 1, .const 2, .const 1⟩),
   ("GetSupplyOfFungibleToken", ⟨.const 1000, .const 1, .const 1, .none, .none⟩),
   ("GetBalanceOfFungibleToken", ⟨.const 1000, .const 1, .const 1, .none, .none⟩),
   ("MintNonFungibleToken", ⟨.linear 1000 1000, .const 1, .const 1, .const 1, .const 1⟩),
   ("BurnNonFungibleToken", ⟨.linear 1000 1000, .const 1, .const 1, .const 1, .const 1⟩),
   ("TransferNonFungibleToken", ⟨.linear 1000 1000, .const 1, .const 1, .const 1, .const 1⟩),
   ("GetOwnerOfNonFungibleToken", ⟨.linear 1000 1000, .const 1, .const 1, .none, .none⟩),
   ("TupleCons", ⟨.nLogN 1000 1000, .none, .none, .none, .none⟩),
   ("TupleGet", ⟨.logN 1000 1000, .none, .none, .none, .none⟩),
   ("TupleMerge", ⟨.linear 1000 408, .none, .none, .none, .none⟩)]

/-- cost/clar2.rs 45-915: `WORD_COSTS`, 86 words. -/
def wordCosts2 : List (String × WordCost) :=
  [("Add", ⟨.linear 14 157, .none, .none, .none, .none⟩),
   ("Sub", ⟨.linear 14 157, .none, .none, .none, .none⟩),
   ("Mul", ⟨.linear 14 157, .none, .none, .none, .none⟩),
   ("Div", ⟨.linear 14 157, .none, .none, .none, .none⟩),
   ("Log2", ⟨.const 170, .none, .none, .none, .none⟩),
   ("Modulo", ⟨.const 170, .none, .none, .none, .none⟩),
   ("Power", ⟨.const 170, .none, .none, .none, .none⟩),
   ("Sqrti", ⟨.const 170, .none, .none, .none, .none⟩),
   ("CmpGreater", ⟨.const 170, .none, .none, .none, .none⟩),
   ("CmpGeq", ⟨.const 170, .none, .none, .none, .none⟩),
   ("CmpLess", ⟨.const 170, .none, .none, .none, .none⟩),
   ("CmpLeq", ⟨.const 170, .none, .none, .none, .none⟩),
   ("Or", ⟨.linear 3 149, .none, .none, .none, .none⟩),
   ("And", ⟨.linear 3 149, .none, .none, .none, .none⟩),
   ("Not", ⟨.const 170, .none, .none, .none, .none⟩),
   ("ToInt", ⟨.const 170, .none, .none, .none, .none⟩),
   ("ToUint", ⟨.const 170, .none, .none, .none, .none⟩),
   ("Hash160", ⟨.linear 1 201, .none, .none, .none, .none⟩),
   ("Keccak256", ⟨.linear 1 221, .none, .none, .none, .none⟩),
   ("Sha256", ⟨.linear 1 100, .none, .none, .none, .none⟩),
   ("Sha512", ⟨.linear 1 176, .none, .none, .none, .none⟩),
   ("Sha512_256", ⟨.linear 1 188, .none, .none, .none, .none⟩),
   ("StxBurn", ⟨.none, .none, .none, .none, .none⟩),
   ("StxGetBalance", ⟨.const 1385, .const 1, .const 1, .none, .none⟩),
   ("Let", ⟨.linear 146 862, .none, .none, .none, .none⟩),
   ("AtBlock", ⟨.const 210, .const 1, .const 1, .none, .none⟩),
   ("GetBlockInfo", ⟨.const 6321, .const 1, .const 1, .none, .none⟩),
   ("GetStacksBlockInfo", ⟨.const 6321, .const 1, .const 1, .none, .none⟩),
   ("GetTenureInfo", ⟨.none, .none, .none, .none, .none⟩),
   ("Asserts", ⟨.const 170, .none, .none, .none, .none⟩),
   ("Filter", ⟨.const 460, .none, .none, .none, .none⟩),
   ("If", ⟨.const 200, .none, .none, .none, .none⟩),
   ("Match", ⟨.const 287, .none, .none, .none, .none⟩),
   ("Try", ⟨.const 287, .none, .none, .none, .none⟩),
   ("Unwrap", ⟨.const 287, .none, .none, .none, .none⟩),
   ("UnwrapErr", ⟨.const 287, .none, .none, .none, .none⟩),
   ("UnwrapErrPanic", ⟨.const 339, .none, .none, .none, .none⟩),
   ("UnwrapPanic", ⟨.const 339, .none, .none, .none, .none⟩),
   ("AsContract", ⟨.const 138, .none, .none, .none, .none⟩),
   ("ContractCall", ⟨.const 153, .none, .none, .none, .none⟩),
   ("Begin", ⟨.const 202, .none, .none, .none, .none⟩),
   ("GetDataVar", ⟨.linear 1 543, .const 1, .linear 1 1, .none, .none⟩),
   ("SetDataVar", ⟨.linear 5 691, .none, .none, .const 1, .linear 1 1⟩),
   ("DefaultTo", ⟨.const 287, .none, .none, .none, .none⟩),
   ("ClarityOk", ⟨.const 230, .none, .none, .none, .none⟩),
   ("ClarityErr", ⟨.const 230, .none, .none, .none, .none⟩),
   ("ClaritySome", ⟨.const 230, .none, .none, .none, .none⟩),
   ("IndexOf::Alias", ⟨.linear 1 243, .none, .none, .none, .none⟩),
   ("IndexOf::Original", ⟨.linear 1 243, .none, .none, .none, .none⟩),
   ("IsEq", ⟨.linear 7 172, .none, .none, .none, .none⟩),
   ("MapGet", ⟨.linear 1 1539, .const 1, .linear 1 1, .none, .none⟩),
   ("MapSet", ⟨.linear 4 2204, .const 1, .none, .const 1, .linear 1 1⟩),
   ("MapInsert", ⟨.linear 4 2204, .const 1, .none, .const 1, .linear 1 1⟩),
   ("MapDelete", ⟨.linear 4 2204, .const 1, .none, .const 1, .linear 1 1⟩),
   ("ContractOf", ⟨.const 13400, .none, .none, .none, .none⟩),
   ("IsNone", ⟨.const 287, .none, .none, .none, .none⟩),
   ("IsSome", ⟨.const 287, .none, .none, .none, .none⟩),
   ("IsStandard", ⟨.const 127, .none, .none, .none, .none⟩),
   ("PrincipalOf", ⟨.const 999, .none, .none, .none, .none⟩),
   ("Print", ⟨.linear 3 1413, .none, .none, .none, .none⟩),
   ("IsOk", ⟨.const 287, .none, .none, .none, .none⟩),
   ("IsErr", ⟨.const 287, .none, .none, .none, .none⟩),
   ("Recover", ⟨.const 14344, .none, .none, .none, .none⟩),
   ("Verify", ⟨.const 13540, .none, .none, .none, .none⟩),
   ("Append", ⟨.linear 71 176, .none, .none, .none, .none⟩),
   ("AsMaxLen", ⟨.const 475, .none, .none, .none, .none⟩),
   ("Concat", ⟨.linear 75 244, .none, .none, .none, .none⟩),
   ("ElementAt::Original", ⟨.const 619, .none, .none, .none, .none⟩),
   ("ElementAt::Alias", ⟨.const 619, .none, .none, .none, .none⟩),
   ("Fold", ⟨.const 483, .none, .none, .none, .none⟩),
   ("Len", ⟨.const 486, .none, .none, .none, .none⟩),
   ("ListCons", ⟨.linear 14 198, .none, .none, .none, .none⟩),
   ("Map", ⟨.linear 1210 3314, .none, .none, .none, .none⟩),
   ("StxTransfer", ⟨.const 1430, .const 1, .const 1, .const 1, .const 1⟩),
   ("MintFungibleToken", ⟨.const 1645, .const 2, .const 1, .const 2, .const 1⟩),
   ("BurnFungibleToken", ⟨.const 612, .const 2, .const 1, .const 2, .const 1⟩),
   ("TransferFungibleToken", ⟨.const 612, .const 2, .const 1, .const 2, .const 1⟩),
   ("GetSupplyOfFungibleToken", ⟨.const 483, .const 1, .const 1, .none, .none⟩),
   ("GetBalanceOfFungibleToken", ⟨.const 547, .const 1, .const 1, .none, .none⟩),
   ("MintNonFungibleToken", ⟨.linear 9 795, .const 1, .const 1, .const 1, .const 1⟩),
   ("BurnNonFungibleToken", ⟨.linear 9 795, .const 1, .const 1, .const 1, .const 1⟩),
   ("TransferNonFungibleToken", ⟨.linear 9 795, .const 1, .const 1, .const 1, .const 1⟩),
   ("GetOwnerOfNonFungibleToken", ⟨.linear 9 795, .const 1, .const 1, .none, .none⟩),
   ("TupleCons", ⟨.nLogN 11 1101, .none, .none, .none, .none⟩),
   ("TupleGet", ⟨.nLogN 4 1780, .none, .none, .none, .none⟩),
   ("TupleMerge", ⟨.linear 4 646, .none, .none, .none, .none⟩)]

/-- cost/clar3.rs 55-1155: `WORD_COSTS`, 109 words. -/
def wordCosts3 : List (String × WordCost) :=
  [("Add", ⟨.linear 11 125, .none, .none, .none, .none⟩),
   ("Sub", ⟨.linear 11 125, .none, .none, .none, .none⟩),
   ("Mul", ⟨.linear 13 125, .none, .none, .none, .none⟩),
   ("Div", ⟨.linear 13 125, .none, .none, .none, .none⟩),
   ("Log2", ⟨.const 133, .none, .none, .none, .none⟩),
   ("Modulo", ⟨.const 141, .none, .none, .none, .none⟩),
   ("Power", ⟨.const 143, .none, .none, .none, .none⟩),
   ("Sqrti", ⟨.const 142, .none, .none, .none, .none⟩),
   ("BitwiseAnd", ⟨.linear 15 129, .none, .none, .none, .none⟩),
   ("BitwiseOr", ⟨.linear 15 129, .none, .none, .none, .none⟩),
   ("BitwiseXor", ⟨.linear 15 129, .none, .none, .none, .none⟩),
   ("BitwiseNot", ⟨.const 147, .none, .none, .none, .none⟩),
   ("BitwiseLShift", ⟨.const 167, .none, .none, .none, .none⟩),
   ("BitwiseRShift", ⟨.const 167, .none, .none, .none, .none⟩),
   ("BuffToIntLe", ⟨.const 141, .none, .none, .none, .none⟩),
   ("BuffToIntBe", ⟨.const 141, .none, .none, .none, .none⟩),
   ("BuffToUintLe", ⟨.const 141, .none, .none, .none, .none⟩),
   ("BuffToUintBe", ⟨.const 141, .none, .none, .none, .none⟩),
   ("CmpGreater", ⟨.linear 7 128, .none, .none, .none, .none⟩),
   ("CmpGeq", ⟨.linear 7 128, .none, .none, .none, .none⟩),
   ("CmpLess", ⟨.linear 7 128, .none, .none, .none, .none⟩),
   ("CmpLeq", ⟨.linear 7 128, .none, .none, .none, .none⟩),
   ("Or", ⟨.linear 3 120, .none, .none, .none, .none⟩),
   ("And", ⟨.linear 3 120, .none, .none, .none, .none⟩),
   ("Not", ⟨.const 138, .none, .none, .none, .none⟩),
   ("IntToAscii", ⟨.const 147, .none, .none, .none, .none⟩),
   ("IntToUtf8", ⟨.const 181, .none, .none, .none, .none⟩),
   ("StringToInt", ⟨.const 168, .none, .none, .none, .none⟩),
   ("StringToUint", ⟨.const 168, .none, .none, .none, .none⟩),
   ("ToInt", ⟨.const 135, .none, .none, .none, .none⟩),
   ("ToUint", ⟨.const 135, .none, .none, .none, .none⟩),
   ("Hash160", ⟨.linear 1 188, .none, .none, .none, .none⟩),
   ("Keccak256", ⟨.linear 1 127, .none, .none, .none, .none⟩),
   ("Sha256", ⟨.linear 1 100, .none, .none, .none, .none⟩),
   ("Sha512", ⟨.linear 1 176, .none, .none, .none, .none⟩),
   ("Sha512_256", ⟨.linear 1 56, .none, .none, .none, .none⟩),
   ("Destruct", ⟨.const 314, .none, .none, .none, .none⟩),
   ("IsStandard", ⟨.const 127, .none, .none, .none, .none⟩),
   ("StxBurn", ⟨.none, .none, .none, .none, .none⟩),
   ("StxGetAccount", ⟨.const 4654, .const 1, .const 1, .none, .none⟩),
   ("StxGetBalance", ⟨.const 4294, .const 1, .const 1, .none, .none⟩),
   ("Let", ⟨.linear 117 178, .none, .none, .none, .none⟩),
   ("AtBlock", ⟨.const 1327, .const 1, .const 1, .none, .none⟩),
   ("GetBlockInfo", ⟨.const 6321, .const 1, .const 1, .none, .none⟩),
   ("GetBurnBlockInfo", ⟨.const 96479, .const 1, .const 1, .none, .none⟩),
   ("GetStacksBlockInfo", ⟨.const 6321, .const 1, .const 1, .none, .none⟩),
   ("GetTenureInfo", ⟨.none, .none, .none, .none, .none⟩),
   ("Asserts", ⟨.const 128, .none, .none, .none, .none⟩),
   ("Filter", ⟨.const 407, .none, .none, .none, .none⟩),
   ("If", ⟨.const 168, .none, .none, .none, .none⟩),
   ("Match", ⟨.const 264, .none, .none, .none, .none⟩),
   ("Try", ⟨.const 240, .none, .none, .none, .none⟩),
   ("Unwrap", ⟨.const 252, .none, .none, .none, .none⟩),
   ("UnwrapErr", ⟨.const 248, .none, .none, .none, .none⟩),
   ("UnwrapErrPanic", ⟨.const 302, .none, .none, .none, .none⟩),
   ("UnwrapPanic", ⟨.const 274, .none, .none, .none, .none⟩),
   ("FromConsensusBuff", ⟨.nLogN 3 185, .none, .none, .none, .none⟩),
   ("ToConsensusBuff", ⟨.linear 1 233, .none, .none, .none, .none⟩),
   ("AsContract", ⟨.const 138, .none, .none, .none, .none⟩),
   ("ContractCall", ⟨.const 134, .none, .none, .none, .none⟩),
   ("Begin", ⟨.const 151, .none, .none, .none, .none⟩),
   ("GetDataVar", ⟨.linear 1 151, .const 1, .linear 1 1, .none, .none⟩),
   ("SetDataVar", ⟨.linear 5 655, .none, .none, .const 1, .linear 1 1⟩),
   ("DefaultTo", ⟨.const 268, .none, .none, .none, .none⟩),
   ("ClarityOk", ⟨.const 199, .none, .none, .none, .none⟩),
   ("ClarityErr", ⟨.const 199, .none, .none, .none, .none⟩),
   ("ClaritySome", ⟨.const 199, .none, .none, .none, .none⟩),
   ("IndexOf::Alias", ⟨.linear 1 211, .none, .none, .none, .none⟩),
   ("IndexOf::Original", ⟨.linear 1 211, .none, .none, .none, .none⟩),
   ("IsEq", ⟨.linear 1 151, .none, .none, .none, .none⟩),
   ("MapGet", ⟨.linear 1 1025, .const 1, .linear 1 1, .none, .none⟩),
   ("MapSet", ⟨.linear 4 1899, .const 1, .none, .const 1, .linear 1 1⟩),
   ("MapInsert", ⟨.linear 4 1899, .const 1, .none, .const 1, .linear 1 1⟩),
   ("MapDelete", ⟨.linear 4 1899, .const 1, .none, .const 1, .linear 1 1⟩),
   ("ContractOf", ⟨.const 13400, .none, .none, .none, .none⟩),
   ("IsNone", ⟨.const 214, .none, .none, .none, .none⟩),
   ("IsSome", ⟨.const 195, .none, .none, .none, .none⟩),
   ("Construct", ⟨.const 398, .none, .none, .none, .none⟩),
   ("PrincipalOf", ⟨.const 984, .none, .none, .none, .none⟩),
   ("Print", ⟨.linear 15 1458, .none, .none, .none, .none⟩),
   ("IsOk", ⟨.const 258, .none, .none, .none, .none⟩),
   ("IsErr", ⟨.const 245, .none, .none, .none, .none⟩),
   ("Recover", ⟨.const 8655, .none, .none, .none, .none⟩),
   ("Verify", ⟨.const 8349, .none, .none, .none, .none⟩),
   ("Append", ⟨.linear 73 285, .none, .none, .none, .none⟩),
   ("AsMaxLen", ⟨.const 475, .none, .none, .none, .none⟩),
   ("Concat", ⟨.linear 37 220, .none, .none, .none, .none⟩),
   ("ElementAt::Original", ⟨.const 498, .none, .none, .none, .none⟩),
   ("ElementAt::Alias", ⟨.const 498, .none, .none, .none, .none⟩),
   ("Fold", ⟨.const 460, .none, .none, .none, .none⟩),
   ("Len", ⟨.const 429, .none, .none, .none, .none⟩),
   ("ListCons", ⟨.linear 14 164, .none, .none, .none, .none⟩),
   ("Map", ⟨.linear 1198 3067, .none, .none, .none, .none⟩),
   ("ReplaceAt", ⟨.linear 1 561, .none, .none, .none, .none⟩),
   ("Slice", ⟨.const 498, .none, .none, .none, .none⟩),
   ("StxTransfer", ⟨.const 4640, .const 1, .const 1, .const 1, .const 1⟩),
   ("StxTransferMemo", ⟨.const 4709, .const 1, .const 1, .const 1, .const 1⟩),
   ("MintFungibleToken", ⟨.const 1479, .const 2, .const 1, .const 2, .const 1⟩),
   ("BurnFungibleToken", ⟨.const 549, .const 2, .const 1, .const 2, .const 1⟩),
   ("TransferFungibleToken", ⟨.const 549, .const 2, .const 1, .const 2, .const 1⟩),
   ("GetSupplyOfFungibleToken", ⟨.const 420, .const 1, .const 1, .none, .none⟩),
   ("GetBalanceOfFungibleToken", ⟨.const 479, .const 1, .const 1, .none, .none⟩),
   ("MintNonFungibleToken", ⟨.linear 9 575, .const 1, .const 1, .const 1, .const 1⟩),
   ("BurnNonFungibleToken", ⟨.linear 9 572, .const 1, .const 1, .const 1, .const 1⟩),
   ("TransferNonFungibleToken", ⟨.linear 9 572, .const 1, .const 1, .const 1, .const 1⟩),
   ("GetOwnerOfNonFungibleToken", ⟨.linear 9 795, .const 1, .const 1, .none, .none⟩),
   ("TupleCons", ⟨.nLogN 10 1876, .none, .none, .none, .none⟩),
   ("TupleGet", ⟨.nLogN 4 1736, .none, .none, .none, .none⟩),
   ("TupleMerge", ⟨.linear 4 408, .none, .none, .none, .none⟩)]

end Gen
