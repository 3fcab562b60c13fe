import Verif.Kasm.Code.Macros

/-! More macros of the kernel without labels of their own, transcribed as in `Macros.lean`. -/

namespace Verif.Kasm

/-- `asm/transactions/common_decoding.asm:215-219`. -/
def m_add_address_cost : List I :=
  (m_mload_global_metadata (.lit 0x500000023) ++ (m_add_const (.lit 2400) ++ (m_mstore_global_metadata (.lit 0x500000023) ++ [])))

/-- `asm/transactions/common_decoding.asm:221-225`. -/
def m_add_storage_key_cost : List I :=
  (m_mload_global_metadata (.lit 0x500000023) ++ (m_add_const (.lit 1900) ++ (m_mstore_global_metadata (.lit 0x500000023) ++ [])))

/-- `asm/core/gas.asm:128-134`. -/
def m_all_but_one_64th : List I :=
  DUP 1 :: (m_shr_const (.lit 6) ++ SWAP 1 :: SUB :: [])

/-- `asm/core/create_contract_account.asm:67-77`. -/
def m_append_created_contracts : List I :=
  (m_mload_global_metadata (.lit 0x50000002c) ++ SWAP 1 :: DUP 2 :: (m_mstore_kernel1 (.lit 0x2500000000) ++ (m_increment ++
    (m_mstore_global_metadata (.lit 0x50000002c) ++ []))))

/-- `asm/util/assertions.asm:11-13`. -/
def m_assert_zero1 (ret : Tgt) : List I :=
  (m_jumpi ret ++ [])

/-- `asm/util/assertions.asm:75-78`. -/
def m_assert_ge1 (ret : Tgt) : List I :=
  LT :: (m_assert_zero1 ret ++ [])

/-- `asm/util/assertions.asm:53-56`. -/
def m_assert_le1 (ret : Tgt) : List I :=
  GT :: (m_assert_zero1 ret ++ [])

/-- `asm/util/assertions.asm:21-24`. -/
def m_assert_nonzero1 (ret : Tgt) : List I :=
  ISZERO :: (m_jumpi ret ++ [])

/-- `asm/memory/metadata.asm:472-474`. -/
def m_call_depth : List I :=
  (m_mload_global_metadata (.lit 0x500000026) ++ [])

/-- `asm/core/call.asm:259-263`. -/
def m_check_depth : List I :=
  (m_call_depth ++ (m_gt_const (.lit 1024) ++ (m_jumpi (.lab "call_too_deep") ++ [])))

/-- `asm/memory/metadata.asm:442-445`. -/
def m_check_static : List I :=
  (m_mload_context_metadata (.lit 0x600000008) ++ (m_jumpi (.lab "fault_exception") ++ []))

/-- `asm/journal/journal.asm:181-183`. -/
def m_current_checkpoint : List I :=
  (m_mload_global_metadata (.lit 0x500000021) ++ [])

/-- `asm/journal/journal.asm:185-206`. -/
def m_checkpoint : List I :=
  (m_current_checkpoint ++ DUP 1 :: PUSH 0x1d00000000 /- @SEGMENT_JOURNAL_CHECKPOINTS -/ :: (m_build_kernel_address ++ (m_journal_size ++
    MSTORE_GENERAL :: (m_mload_context_metadata (.lit 0x60000000d) ++ DUP 2 :: DUP 2 :: (m_mstore_current1 (.lit 0x1f00000000) ++
    (m_increment ++ (m_mstore_context_metadata1 (.lit 0x60000000d) ++ (m_increment ++ (m_mstore_global_metadata (.lit 0x500000021) ++ [])))))))))

/-- `asm/memory/txn_fields.asm:15-26`. -/
def m_mstore_txn_field (field : Tgt) : List I :=
  I.push field :: SWAP 1 :: MSTORE_GENERAL :: []

/-- `asm/core/process_txn.asm:412-432`. -/
def m_compute_fees : List I :=
  (m_mload_global_metadata (.lit 0x500000013) ++ (m_mload_txn_field (.lit 0x900000004) ++ (m_mload_txn_field (.lit 0x900000005) ++ DUP 3 ::
    DUP 2 :: (m_assert_ge1 (.lab "invalid_txn_3") ++ DUP 2 :: DUP 2 :: (m_assert_ge1 (.lab "invalid_txn_3") ++
    STK 3 [.e 0, .e 2, .e 1, .e 2] /- (max_fee, max_priority_fee, base_fee) -> (max_fee, base_fee, max_priority_fee, base_fee) -/ :: SUB ::
    (m_min ++
    STK 2 [.e 0, .e 1, .e 0] /- (computed_priority_fee, base_fee) -> (computed_priority_fee, base_fee, computed_priority_fee) -/ :: ADD ::
    (m_mstore_txn_field (.lit 0x900000010) ++ (m_mstore_txn_field (.lit 0x900000011) ++ []))))))))

/-- `asm/util/basic_macros.asm:358-363`. -/
def m_div2 : List I :=
  PUSH 1 :: SHR :: []

/-- `asm/memory/metadata.asm:476-480`. -/
def m_increment_call_depth : List I :=
  (m_mload_global_metadata (.lit 0x500000026) ++ (m_increment ++ (m_mstore_global_metadata (.lit 0x500000026) ++ [])))

/-- `asm/core/selfdestruct_list.asm:5-14`. -/
def m_insert_selfdestruct_list : List I :=
  (m_mload_global_metadata (.lit 0x50000001e) ++ DUP 1 :: PUSH 0x1600000000 /- @SEGMENT_SELFDESTRUCT_LIST -/ :: (m_build_kernel_address ++
    STK 3 [.e 2, .e 0, .e 1] /- (write_addr, len, addr) -> (addr, write_addr, len) -/ :: MSTORE_GENERAL :: (m_increment ++
    (m_mstore_global_metadata (.lit 0x50000001e) ++ []))))

/-- `asm/core/util.asm:33-36`. -/
def m_is_contract_creation : List I :=
  (m_mload_global_metadata (.lit 0x500000024) ++ [])

/-- `asm/journal/account_created.asm:4-6`. -/
def m_journal_add_account_created : List I :=
  (m_journal_add_2 (.lit 9) ++ [])

/-- `asm/journal/journal.asm:86-100`. -/
def m_journal_add_3 (type : Tgt) : List I :=
  (m_journal_data_size ++ I.push type :: (m_append_journal_data ++ SWAP 1 :: (m_append_journal_data ++ SWAP 1 :: (m_append_journal_data ++
    SWAP 1 :: (m_append_journal_data ++ (m_append_journal ++ []))))))

/-- `asm/journal/account_destroyed.asm:3-5`. -/
def m_journal_add_account_destroyed : List I :=
  (m_journal_add_3 (.lit 1) ++ [])

/-- `asm/journal/account_touched.asm:3-5`. -/
def m_journal_add_account_touched : List I :=
  (m_journal_add_1 (.lit 2) ++ [])

/-- `asm/journal/code_change.asm:3-5`. -/
def m_journal_add_code_change : List I :=
  (m_journal_add_2 (.lit 7) ++ [])

/-- `asm/journal/nonce_change.asm:3-5`. -/
def m_journal_add_nonce_change : List I :=
  (m_journal_add_2 (.lit 4) ++ [])

/-- `asm/journal/storage_change.asm:3-5`. -/
def m_journal_add_storage_change : List I :=
  (m_journal_add_3 (.lit 5) ++ [])

/-- `asm/journal/transient_storage_change.asm:3-5`. -/
def m_journal_add_transient_storage_change : List I :=
  (m_journal_add_3 (.lit 11) ++ [])

/-- `asm/journal/journal.asm:40-44`. -/
def m_mload_journal_data : List I :=
  (m_mload_kernel (.lit 0x1c00000000) ++ [])

/-- `asm/journal/journal.asm:120-125`. -/
def m_journal_load_1 : List I :=
  (m_add_const (.lit 1) ++ (m_mload_journal_data ++ []))

/-- `asm/journal/journal.asm:127-137`. -/
def m_journal_load_2 : List I :=
  DUP 1 :: (m_add_const (.lit 2) ++ (m_mload_journal_data ++ SWAP 1 :: (m_add_const (.lit 1) ++ (m_mload_journal_data ++ []))))

/-- `asm/journal/journal.asm:139-155`. -/
def m_journal_load_3 : List I :=
  DUP 1 :: (m_add_const (.lit 3) ++ (m_mload_journal_data ++ SWAP 1 :: DUP 1 :: (m_add_const (.lit 2) ++ (m_mload_journal_data ++ SWAP 1 ::
    (m_add_const (.lit 1) ++ (m_mload_journal_data ++ []))))))

/-- `asm/util/basic_macros.asm:164-170`. -/
def m_le_const (c : Tgt) : List I :=
  I.push c :: LT :: ISZERO :: []

/-- `asm/core/gas.asm:95-111`. -/
def m_leftover_gas : List I :=
  (m_shr_const (.lit 192) ++ (m_mload_context_metadata (.lit 0x60000000c) ++ SWAP 1 :: DUP 2 :: DUP 2 :: LT :: SWAP 2 :: SUB :: MUL :: []))

/-- `asm/journal/journal.asm:11-15`. -/
def m_mload_journal : List I :=
  (m_mload_kernel (.lit 0x1b00000000) ++ [])

/-- `asm/memory/metadata.asm:58-71`. -/
def m_mstore_context_metadata2 (field : Tgt) (value : Tgt) : List I :=
  I.push field :: GET_CONTEXT :: ADD :: I.push value :: MSTORE_GENERAL :: []

/-- `asm/util/basic_macros.asm:434-438`. -/
def m_not_bit : List I :=
  ISZERO :: []

/-- `asm/rlp/num_bytes.asm:28-38`. -/
def m_num_bits : List I :=
  INPUT "num_bits" :: STK 2 [.e 0, .e 1, .e 0] /- (num_bits, x) -> (num_bits, x, num_bits) -/ :: (m_decrement ++ SHR ::
    (m_assert_eq_const (.lit 1) ++ []))

/-- `asm/journal/journal.asm:208-214`. -/
def m_pop_checkpoint : List I :=
  PUSH 1 :: (m_mload_context_metadata (.lit 0x60000000d) ++ SUB :: (m_mstore_context_metadata1 (.lit 0x60000000d) ++ []))

/-- `asm/journal/refund.asm:3-5`. -/
def m_journal_refund : List I :=
  (m_journal_add_1 (.lit 8) ++ [])

/-- `asm/core/gas.asm:19-25`. -/
def m_refund_gas : List I :=
  DUP 1 :: (m_journal_refund ++ (m_mload_global_metadata (.lit 0x50000001b) ++ ADD :: (m_mstore_global_metadata (.lit 0x50000001b) ++ [])))

/-- `asm/curve/secp256k1/ecrecover.asm:178-180`. -/
def m_secp_scalar_half : List I :=
  PUSH 0x7fffffffffffffffffffffffffffffff5d576e7357a4501ddfe92f46681b20a1 /- @SECP_SCALAR_HALF -/ :: []

/-- `asm/transactions/common_decoding.asm:2-5`. -/
def m_store_chain_id_present_true : List I :=
  PUSH 1 :: (m_mstore_txn_field (.lit 0x900000001) ++ [])

/-- `asm/util/basic_macros.asm:429-432`. -/
def m_u256_to_addr : List I :=
  (m_mod_const (.lit 0x10000000000000000000000000000000000000000) ++ [])

end Verif.Kasm
