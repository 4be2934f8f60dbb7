/-! Generated by tools/wat2lean.py from /repo/clar2wasm/src/standard/standard.wat. Do not edit. -/

namespace Wasm

/-- Functions defined in standard.wat (lines 403-3941). -/
inductive StdFn
  | runtime_error
  | add_int128
  | add_int
  | add_uint
  | sub_int128
  | sub_int
  | sub_uint
  | mul_int128
  | mul_uint
  | mul_int
  | div_int128
  | div_uint
  | div_int
  | mod_uint
  | mod_int
  | lt_uint
  | gt_uint
  | le_uint
  | ge_uint
  | lt_int
  | gt_int
  | le_int
  | ge_int
  | lt_buff
  | gt_buff
  | le_buff
  | ge_buff
  | log2
  | log2_uint
  | log2_int
  | sqrti_uint
  | sqrti_int
  | bit_and
  | bit_not
  | bit_or
  | bit_xor
  | bit_shift_left
  | bit_shift_right_uint
  | bit_shift_right_int
  | clz_int128
  | pow_inner
  | pow_uint
  | pow_int
  | sha256_buf
  | sha256_int
  | extend_data
  | block64
  | working_vars
  | hash160_buf
  | hash160_int
  | hash160_pad
  | hash160_compress
  | hash160_f1
  | hash160_f2
  | hash160_f3
  | hash160_f4
  | hash160_f5
  | store_i32_be
  | load_i32_be
  | store_i64_be
  | buff_to_uint_be
  | buff_to_uint_le
  | not_
  | principal_construct
  | is_valid_contract_name
  | is_alpha
  | is_valid_char
  | is_transient
  | is_version_valid
  | string_to_uint
  | utf8_to_uint
  | string_to_int
  | utf8_to_int
  | uint_to_string
  | int_to_string
  | uint_to_utf8
  | int_to_utf8
  | to_uint
  | to_int
  | sha512_buf
  | sha512_int
  | pad_sha512_data
  | process_sha512_block
  | calculate_sha512
  | store_calculated_sha512
  | convert_scalars_to_utf8
  | is_valid_string_ascii
  | utf8_to_string_utf8
  | compare_clarity_names
  | bsearch_clarity_name
  | skip_unknown_value
  | skip_int128
  | skip_buffer
  | skip_boolean_or_none
  | skip_principal
  | skip_contract
  | skip_some_ok_err
  | skip_tuple
  | skip_string_ascii
  | skip_string_utf8
  | check_clarity_name
  deriving DecidableEq, Repr

/-- Functions imported by standard.wat from the host (lines 17-328). -/
inductive HostFn
  | define_function
  | define_variable
  | define_ft
  | define_nft
  | define_map
  | define_trait
  | impl_trait
  | get_variable
  | set_variable
  | print
  | enter_as_contract
  | exit_as_contract
  | enter_at_block
  | exit_at_block
  | stx_get_balance
  | stx_account
  | stx_burn
  | stx_transfer
  | ft_get_supply
  | ft_get_balance
  | ft_burn
  | ft_mint
  | ft_transfer
  | nft_get_owner
  | nft_burn
  | nft_mint
  | nft_transfer
  | map_get
  | map_set
  | map_insert
  | map_delete
  | get_block_info_time_property
  | get_block_info_vrf_seed_property
  | get_block_info_header_hash_property
  | get_block_info_burnchain_header_hash_property
  | get_block_info_identity_header_hash_property
  | get_block_info_miner_address_property
  | get_block_info_miner_spend_winner_property
  | get_block_info_miner_spend_total_property
  | get_block_info_block_reward_property
  | get_burn_block_info_header_hash_property
  | get_burn_block_info_pox_addrs_property
  | get_stacks_block_info_time_property
  | get_stacks_block_info_header_hash_property
  | get_stacks_block_info_identity_header_hash_property
  | get_tenure_info_burnchain_header_hash_property
  | get_tenure_info_miner_address_property
  | get_tenure_info_time_property
  | get_tenure_info_vrf_seed_property
  | get_tenure_info_block_reward_property
  | get_tenure_info_miner_spend_total_property
  | get_tenure_info_miner_spend_winner_property
  | contract_call
  | begin_public_call
  | begin_read_only_call
  | commit_call
  | roll_back_call
  | keccak256
  | sha512_256
  | secp256k1_recover
  | secp256k1_verify
  | principal_of
  | tx_sender
  | contract_caller
  | tx_sponsor
  | block_height
  | stacks_block_height
  | tenure_height
  | burn_block_height
  | stx_liquid_supply
  | save_constant
  | load_constant
  | skip_list
  | is_in_regtest
  | is_in_mainnet
  | chain_id
  | log_
  | debug_msg
  deriving DecidableEq, Repr

end Wasm
