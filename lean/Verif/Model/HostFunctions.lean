import Verif.Model.Err
/-!
The table of host functions (soroban-env-common/env.json, expanded into the static array `HOST_FUNCTIONS` by
soroban-env-host/src/vm/func_info.rs:84-150). Generated from env.json; one line per function, in the order of the file.
-/
namespace Soroban.Wasm

/-- A name of a Wasm module, import, export or custom section: its bytes. -/
abbrev Name := List Nat

/-- soroban-env-host/src/vm/func_info.rs:6-28 `HostFuncInfo`: the names of a host function, the number of its arguments and
the protocols it is available in (`wrap` adds the function under these names with the type of `arity` 64-bit integers to one
64-bit integer). -/
structure HostFn where
  modName : Name
  name : Name
  arity : Nat
  minProto : Option Nat
  maxProto : Option Nat
  deriving DecidableEq, Repr

/-- soroban-env-common/env.json, module `context` (imported as "x"). -/
def fns_context : List HostFn := [
  ⟨[120], [95], 4, none, none⟩,  -- log_from_linear_memory
  ⟨[120], [48], 2, none, none⟩,  -- obj_cmp
  ⟨[120], [49], 2, none, none⟩,  -- contract_event
  ⟨[120], [50], 0, none, none⟩,  -- get_ledger_version
  ⟨[120], [51], 0, none, none⟩,  -- get_ledger_sequence
  ⟨[120], [52], 0, none, none⟩,  -- get_ledger_timestamp
  ⟨[120], [53], 1, none, none⟩,  -- fail_with_error
  ⟨[120], [54], 0, none, none⟩,  -- get_ledger_network_id
  ⟨[120], [55], 0, none, none⟩,  -- get_current_contract_address
  ⟨[120], [56], 0, none, none⟩  -- get_max_live_until_ledger
]

/-- soroban-env-common/env.json, module `int` (imported as "i"). -/
def fns_int : List HostFn := [
  ⟨[105], [95], 1, none, none⟩,  -- obj_from_u64
  ⟨[105], [48], 1, none, none⟩,  -- obj_to_u64
  ⟨[105], [49], 1, none, none⟩,  -- obj_from_i64
  ⟨[105], [50], 1, none, none⟩,  -- obj_to_i64
  ⟨[105], [51], 2, none, none⟩,  -- obj_from_u128_pieces
  ⟨[105], [52], 1, none, none⟩,  -- obj_to_u128_lo64
  ⟨[105], [53], 1, none, none⟩,  -- obj_to_u128_hi64
  ⟨[105], [54], 2, none, none⟩,  -- obj_from_i128_pieces
  ⟨[105], [55], 1, none, none⟩,  -- obj_to_i128_lo64
  ⟨[105], [56], 1, none, none⟩,  -- obj_to_i128_hi64
  ⟨[105], [57], 4, none, none⟩,  -- obj_from_u256_pieces
  ⟨[105], [97], 1, none, none⟩,  -- u256_val_from_be_bytes
  ⟨[105], [98], 1, none, none⟩,  -- u256_val_to_be_bytes
  ⟨[105], [99], 1, none, none⟩,  -- obj_to_u256_hi_hi
  ⟨[105], [100], 1, none, none⟩,  -- obj_to_u256_hi_lo
  ⟨[105], [101], 1, none, none⟩,  -- obj_to_u256_lo_hi
  ⟨[105], [102], 1, none, none⟩,  -- obj_to_u256_lo_lo
  ⟨[105], [103], 4, none, none⟩,  -- obj_from_i256_pieces
  ⟨[105], [104], 1, none, none⟩,  -- i256_val_from_be_bytes
  ⟨[105], [105], 1, none, none⟩,  -- i256_val_to_be_bytes
  ⟨[105], [106], 1, none, none⟩,  -- obj_to_i256_hi_hi
  ⟨[105], [107], 1, none, none⟩,  -- obj_to_i256_hi_lo
  ⟨[105], [108], 1, none, none⟩,  -- obj_to_i256_lo_hi
  ⟨[105], [109], 1, none, none⟩,  -- obj_to_i256_lo_lo
  ⟨[105], [110], 2, none, none⟩,  -- u256_add
  ⟨[105], [111], 2, none, none⟩,  -- u256_sub
  ⟨[105], [112], 2, none, none⟩,  -- u256_mul
  ⟨[105], [113], 2, none, none⟩,  -- u256_div
  ⟨[105], [114], 2, none, none⟩,  -- u256_rem_euclid
  ⟨[105], [115], 2, none, none⟩,  -- u256_pow
  ⟨[105], [116], 2, none, none⟩,  -- u256_shl
  ⟨[105], [117], 2, none, none⟩,  -- u256_shr
  ⟨[105], [118], 2, none, none⟩,  -- i256_add
  ⟨[105], [119], 2, none, none⟩,  -- i256_sub
  ⟨[105], [120], 2, none, none⟩,  -- i256_mul
  ⟨[105], [121], 2, none, none⟩,  -- i256_div
  ⟨[105], [122], 2, none, none⟩,  -- i256_rem_euclid
  ⟨[105], [65], 2, none, none⟩,  -- i256_pow
  ⟨[105], [66], 2, none, none⟩,  -- i256_shl
  ⟨[105], [67], 2, none, none⟩,  -- i256_shr
  ⟨[105], [68], 1, none, none⟩,  -- timepoint_obj_from_u64
  ⟨[105], [69], 1, none, none⟩,  -- timepoint_obj_to_u64
  ⟨[105], [70], 1, none, none⟩,  -- duration_obj_from_u64
  ⟨[105], [71], 1, none, none⟩,  -- duration_obj_to_u64
  ⟨[105], [72], 2, some 26, none⟩,  -- u256_checked_add
  ⟨[105], [73], 2, some 26, none⟩,  -- u256_checked_sub
  ⟨[105], [74], 2, some 26, none⟩,  -- u256_checked_mul
  ⟨[105], [75], 2, some 26, none⟩,  -- u256_checked_pow
  ⟨[105], [76], 2, some 26, none⟩,  -- i256_checked_add
  ⟨[105], [77], 2, some 26, none⟩,  -- i256_checked_sub
  ⟨[105], [78], 2, some 26, none⟩,  -- i256_checked_mul
  ⟨[105], [79], 2, some 26, none⟩  -- i256_checked_pow
]

/-- soroban-env-common/env.json, module `map` (imported as "m"). -/
def fns_map : List HostFn := [
  ⟨[109], [95], 0, none, none⟩,  -- map_new
  ⟨[109], [48], 3, none, none⟩,  -- map_put
  ⟨[109], [49], 2, none, none⟩,  -- map_get
  ⟨[109], [50], 2, none, none⟩,  -- map_del
  ⟨[109], [51], 1, none, none⟩,  -- map_len
  ⟨[109], [52], 2, none, none⟩,  -- map_has
  ⟨[109], [53], 2, none, none⟩,  -- map_key_by_pos
  ⟨[109], [54], 2, none, none⟩,  -- map_val_by_pos
  ⟨[109], [55], 1, none, none⟩,  -- map_keys
  ⟨[109], [56], 1, none, none⟩,  -- map_values
  ⟨[109], [57], 3, none, none⟩,  -- map_new_from_linear_memory
  ⟨[109], [97], 4, none, none⟩,  -- map_unpack_to_linear_memory
  ⟨[109], [98], 3, some 28, none⟩,  -- sparse_map_new_from_linear_memory
  ⟨[109], [99], 4, some 28, none⟩  -- sparse_map_unpack_to_linear_memory
]

/-- soroban-env-common/env.json, module `vec` (imported as "v"). -/
def fns_vec : List HostFn := [
  ⟨[118], [95], 0, none, none⟩,  -- vec_new
  ⟨[118], [48], 3, none, none⟩,  -- vec_put
  ⟨[118], [49], 2, none, none⟩,  -- vec_get
  ⟨[118], [50], 2, none, none⟩,  -- vec_del
  ⟨[118], [51], 1, none, none⟩,  -- vec_len
  ⟨[118], [52], 2, none, none⟩,  -- vec_push_front
  ⟨[118], [53], 1, none, none⟩,  -- vec_pop_front
  ⟨[118], [54], 2, none, none⟩,  -- vec_push_back
  ⟨[118], [55], 1, none, none⟩,  -- vec_pop_back
  ⟨[118], [56], 1, none, none⟩,  -- vec_front
  ⟨[118], [57], 1, none, none⟩,  -- vec_back
  ⟨[118], [97], 3, none, none⟩,  -- vec_insert
  ⟨[118], [98], 2, none, none⟩,  -- vec_append
  ⟨[118], [99], 3, none, none⟩,  -- vec_slice
  ⟨[118], [100], 2, none, none⟩,  -- vec_first_index_of
  ⟨[118], [101], 2, none, none⟩,  -- vec_last_index_of
  ⟨[118], [102], 2, none, none⟩,  -- vec_binary_search
  ⟨[118], [103], 2, none, none⟩,  -- vec_new_from_linear_memory
  ⟨[118], [104], 3, none, none⟩  -- vec_unpack_to_linear_memory
]

/-- soroban-env-common/env.json, module `ledger` (imported as "l"). -/
def fns_ledger : List HostFn := [
  ⟨[108], [95], 3, none, none⟩,  -- put_contract_data
  ⟨[108], [48], 2, none, none⟩,  -- has_contract_data
  ⟨[108], [49], 2, none, none⟩,  -- get_contract_data
  ⟨[108], [50], 2, none, none⟩,  -- del_contract_data
  ⟨[108], [51], 3, none, none⟩,  -- create_contract
  ⟨[108], [52], 1, none, none⟩,  -- create_asset_contract
  ⟨[108], [53], 1, none, none⟩,  -- upload_wasm
  ⟨[108], [54], 1, none, none⟩,  -- update_current_contract_wasm
  ⟨[108], [55], 4, none, none⟩,  -- extend_contract_data_ttl
  ⟨[108], [56], 2, none, none⟩,  -- extend_current_contract_instance_and_code_ttl
  ⟨[108], [57], 3, none, none⟩,  -- extend_contract_instance_and_code_ttl
  ⟨[108], [97], 2, none, none⟩,  -- get_contract_id
  ⟨[108], [98], 1, none, none⟩,  -- get_asset_contract_id
  ⟨[108], [99], 3, some 21, none⟩,  -- extend_contract_instance_ttl
  ⟨[108], [100], 3, some 21, none⟩,  -- extend_contract_code_ttl
  ⟨[108], [101], 4, some 22, none⟩,  -- create_contract_with_constructor
  ⟨[108], [102], 5, some 26, none⟩,  -- extend_contract_data_ttl_v2
  ⟨[108], [103], 5, some 26, none⟩,  -- extend_contract_instance_and_code_ttl_v2
  ⟨[108], [104], 1, some 28, none⟩,  -- create_executable_tag
  ⟨[108], [105], 5, some 28, none⟩,  -- create_external_ref_contract
  ⟨[108], [106], 2, some 28, none⟩  -- update_current_contract_executable_ref
]

/-- soroban-env-common/env.json, module `call` (imported as "d"). -/
def fns_call : List HostFn := [
  ⟨[100], [95], 3, none, none⟩,  -- call
  ⟨[100], [48], 3, none, none⟩  -- try_call
]

/-- soroban-env-common/env.json, module `buf` (imported as "b"). -/
def fns_buf : List HostFn := [
  ⟨[98], [95], 1, none, none⟩,  -- serialize_to_bytes
  ⟨[98], [48], 1, none, none⟩,  -- deserialize_from_bytes
  ⟨[98], [49], 4, none, none⟩,  -- bytes_copy_to_linear_memory
  ⟨[98], [50], 4, none, none⟩,  -- bytes_copy_from_linear_memory
  ⟨[98], [51], 2, none, none⟩,  -- bytes_new_from_linear_memory
  ⟨[98], [52], 0, none, none⟩,  -- bytes_new
  ⟨[98], [53], 3, none, none⟩,  -- bytes_put
  ⟨[98], [54], 2, none, none⟩,  -- bytes_get
  ⟨[98], [55], 2, none, none⟩,  -- bytes_del
  ⟨[98], [56], 1, none, none⟩,  -- bytes_len
  ⟨[98], [57], 2, none, none⟩,  -- bytes_push
  ⟨[98], [97], 1, none, none⟩,  -- bytes_pop
  ⟨[98], [98], 1, none, none⟩,  -- bytes_front
  ⟨[98], [99], 1, none, none⟩,  -- bytes_back
  ⟨[98], [100], 3, none, none⟩,  -- bytes_insert
  ⟨[98], [101], 2, none, none⟩,  -- bytes_append
  ⟨[98], [102], 3, none, none⟩,  -- bytes_slice
  ⟨[98], [103], 4, none, none⟩,  -- string_copy_to_linear_memory
  ⟨[98], [104], 4, none, none⟩,  -- symbol_copy_to_linear_memory
  ⟨[98], [105], 2, none, none⟩,  -- string_new_from_linear_memory
  ⟨[98], [106], 2, none, none⟩,  -- symbol_new_from_linear_memory
  ⟨[98], [107], 1, none, none⟩,  -- string_len
  ⟨[98], [108], 1, none, none⟩,  -- symbol_len
  ⟨[98], [109], 3, none, none⟩,  -- symbol_index_in_linear_memory
  ⟨[98], [110], 1, some 23, none⟩,  -- string_to_bytes
  ⟨[98], [111], 1, some 23, none⟩  -- bytes_to_string
]

/-- soroban-env-common/env.json, module `crypto` (imported as "c"). -/
def fns_crypto : List HostFn := [
  ⟨[99], [95], 1, none, none⟩,  -- compute_hash_sha256
  ⟨[99], [48], 3, none, none⟩,  -- verify_sig_ed25519
  ⟨[99], [49], 1, none, none⟩,  -- compute_hash_keccak256
  ⟨[99], [50], 3, none, none⟩,  -- recover_key_ecdsa_secp256k1
  ⟨[99], [51], 3, some 21, none⟩,  -- verify_sig_ecdsa_secp256r1
  ⟨[99], [52], 1, some 22, none⟩,  -- bls12_381_check_g1_is_in_subgroup
  ⟨[99], [53], 2, some 22, none⟩,  -- bls12_381_g1_add
  ⟨[99], [54], 2, some 22, none⟩,  -- bls12_381_g1_mul
  ⟨[99], [55], 2, some 22, none⟩,  -- bls12_381_g1_msm
  ⟨[99], [56], 1, some 22, none⟩,  -- bls12_381_map_fp_to_g1
  ⟨[99], [57], 2, some 22, none⟩,  -- bls12_381_hash_to_g1
  ⟨[99], [97], 1, some 22, none⟩,  -- bls12_381_check_g2_is_in_subgroup
  ⟨[99], [98], 2, some 22, none⟩,  -- bls12_381_g2_add
  ⟨[99], [99], 2, some 22, none⟩,  -- bls12_381_g2_mul
  ⟨[99], [100], 2, some 22, none⟩,  -- bls12_381_g2_msm
  ⟨[99], [101], 1, some 22, none⟩,  -- bls12_381_map_fp2_to_g2
  ⟨[99], [102], 2, some 22, none⟩,  -- bls12_381_hash_to_g2
  ⟨[99], [103], 2, some 22, none⟩,  -- bls12_381_multi_pairing_check
  ⟨[99], [104], 2, some 22, none⟩,  -- bls12_381_fr_add
  ⟨[99], [105], 2, some 22, none⟩,  -- bls12_381_fr_sub
  ⟨[99], [106], 2, some 22, none⟩,  -- bls12_381_fr_mul
  ⟨[99], [107], 2, some 22, none⟩,  -- bls12_381_fr_pow
  ⟨[99], [108], 1, some 22, none⟩,  -- bls12_381_fr_inv
  ⟨[99], [109], 2, some 25, none⟩,  -- bn254_g1_add
  ⟨[99], [110], 2, some 25, none⟩,  -- bn254_g1_mul
  ⟨[99], [111], 2, some 25, none⟩,  -- bn254_multi_pairing_check
  ⟨[99], [112], 8, some 25, none⟩,  -- poseidon_permutation
  ⟨[99], [113], 8, some 25, none⟩,  -- poseidon2_permutation
  ⟨[99], [114], 2, some 26, none⟩,  -- bn254_g1_msm
  ⟨[99], [115], 2, some 26, none⟩,  -- bn254_fr_add
  ⟨[99], [116], 2, some 26, none⟩,  -- bn254_fr_sub
  ⟨[99], [117], 2, some 26, none⟩,  -- bn254_fr_mul
  ⟨[99], [118], 2, some 26, none⟩,  -- bn254_fr_pow
  ⟨[99], [119], 1, some 26, none⟩,  -- bn254_fr_inv
  ⟨[99], [120], 1, some 26, none⟩,  -- bls12_381_g1_is_on_curve
  ⟨[99], [121], 1, some 26, none⟩,  -- bls12_381_g2_is_on_curve
  ⟨[99], [122], 1, some 26, none⟩  -- bn254_g1_is_on_curve
]

/-- soroban-env-common/env.json, module `address` (imported as "a"). -/
def fns_address : List HostFn := [
  ⟨[97], [95], 2, none, none⟩,  -- require_auth_for_args
  ⟨[97], [48], 1, none, none⟩,  -- require_auth
  ⟨[97], [49], 1, none, none⟩,  -- strkey_to_address
  ⟨[97], [50], 1, none, none⟩,  -- address_to_strkey
  ⟨[97], [51], 1, none, none⟩,  -- authorize_as_curr_contract
  ⟨[97], [52], 1, some 23, none⟩,  -- get_address_from_muxed_address
  ⟨[97], [53], 1, some 23, none⟩,  -- get_id_from_muxed_address
  ⟨[97], [54], 1, some 23, none⟩,  -- get_address_executable
  ⟨[97], [55], 1, some 26, none⟩,  -- strkey_to_muxed_address
  ⟨[97], [56], 1, some 26, none⟩,  -- muxed_address_to_strkey
  ⟨[97], [57], 0, some 27, none⟩,  -- get_delegated_signers_for_current_auth_check
  ⟨[97], [97], 1, some 27, none⟩  -- delegate_account_auth
]

/-- soroban-env-common/env.json, module `test` (imported as "t"). -/
def fns_test : List HostFn := [
  ⟨[116], [95], 0, none, none⟩,  -- dummy0
  ⟨[116], [48], 0, some 19, some 19⟩  -- protocol_gated_dummy
]

/-- soroban-env-common/env.json, module `prng` (imported as "p"). -/
def fns_prng : List HostFn := [
  ⟨[112], [95], 1, none, none⟩,  -- prng_reseed
  ⟨[112], [48], 1, none, none⟩,  -- prng_bytes_new
  ⟨[112], [49], 2, none, none⟩,  -- prng_u64_in_inclusive_range
  ⟨[112], [50], 1, none, none⟩  -- prng_vec_shuffle
]

/-- soroban-env-host/src/vm/func_info.rs:127-145 `HOST_FUNCTIONS`. -/
def hostFunctions : List HostFn :=
  fns_context ++ fns_int ++ fns_map ++ fns_vec ++ fns_ledger ++ fns_call ++ fns_buf
    ++ fns_crypto ++ fns_address ++ fns_test ++ fns_prng

end Soroban.Wasm
