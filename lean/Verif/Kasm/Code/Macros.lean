import Verif.Kasm.Machine

/-! The macros of the kernel without labels of their own, transcribed from `evm_arithmetization/src/cpu/kernel/asm/`; constants
`@X` are replaced by their value in `evm_arithmetization/src/cpu/kernel/constants/`.  Macros that declare labels are expanded where they
are used (`assembler.rs:199-246`). -/

namespace Verif.Kasm

/-- `asm/util/basic_macros.asm:85-90`. -/
def m_add_const (c : Tgt) : List I :=
  I.push c :: ADD :: []

/-- `asm/util/basic_macros.asm:6-9`. -/
def m_jumpi (dst : Tgt) : List I :=
  I.push dst :: JUMPI :: []

/-- `asm/memory/metadata.asm:448-458`. -/
def m_add_or_fault : List I :=
  DUP 2 :: ADD :: DUP 1 :: SWAP 2 :: GT :: (m_jumpi (.lab "fault_exception") ++ [])

/-- `asm/memory/metadata.asm:27-39`. -/
def m_mload_context_metadata (field : Tgt) : List I :=
  I.push field :: GET_CONTEXT :: ADD :: MLOAD_GENERAL :: []

/-- `asm/memory/metadata.asm:106-108`. -/
def m_address : List I :=
  (m_mload_context_metadata (.lit 0x600000004) ++ [])

/-- `asm/util/basic_macros.asm:78-83`. -/
def m_and_const (c : Tgt) : List I :=
  I.push c :: AND :: []

/-- `asm/memory/metadata.asm:2-11`. -/
def m_mload_global_metadata (field : Tgt) : List I :=
  I.push field :: MLOAD_GENERAL :: []

/-- `asm/mpt/util.asm:19-23`. -/
def m_get_trie_data_size : List I :=
  (m_mload_global_metadata (.lit 0x500000002) ++ [])

/-- `asm/util/basic_macros.asm:350-352`. -/
def m_increment : List I :=
  (m_add_const (.lit 1) ++ [])

/-- `asm/util/basic_macros.asm:469-473`. -/
def m_build_kernel_address : List I :=
  ADD :: []

/-- `asm/memory/core.asm:231-240`. -/
def m_mstore_kernel1 (segment : Tgt) : List I :=
  I.push segment :: (m_build_kernel_address ++ SWAP 1 :: MSTORE_GENERAL :: [])

/-- `asm/mpt/util.asm:7-11`. -/
def m_mstore_trie_data : List I :=
  (m_mstore_kernel1 (.lit 0xc00000000) ++ [])

/-- `asm/memory/metadata.asm:14-24`. -/
def m_mstore_global_metadata (field : Tgt) : List I :=
  I.push field :: SWAP 1 :: MSTORE_GENERAL :: []

/-- `asm/mpt/util.asm:25-29`. -/
def m_set_trie_data_size : List I :=
  (m_mstore_global_metadata (.lit 0x500000002) ++ [])

/-- `asm/mpt/util.asm:32-43`. -/
def m_append_to_trie_data : List I :=
  (m_get_trie_data_size ++ DUP 1 :: (m_increment ++ (m_set_trie_data_size ++ (m_mstore_trie_data ++ []))))

/-- `asm/util/assertions.asm:26-29`. -/
def m_assert_eq0 : List I :=
  SUB :: (m_jumpi (.lab "panic") ++ [])

/-- `asm/util/assertions.asm:31-34`. -/
def m_assert_eq1 (ret : Tgt) : List I :=
  SUB :: (m_jumpi ret ++ [])

/-- `asm/util/assertions.asm:80-84`. -/
def m_assert_eq_const (c : Tgt) : List I :=
  I.push c :: SUB :: (m_jumpi (.lab "panic") ++ [])

/-- `asm/util/assertions.asm:16-19`. -/
def m_assert_nonzero0 : List I :=
  ISZERO :: (m_jumpi (.lab "panic") ++ [])

/-- `asm/util/assertions.asm:58-61`. -/
def m_assert_gt0 : List I :=
  GT :: (m_assert_nonzero0 ++ [])

/-- `asm/util/assertions.asm:7-9`. -/
def m_assert_zero0 : List I :=
  (m_jumpi (.lab "panic") ++ [])

/-- `asm/util/assertions.asm:46-51`. -/
def m_assert_le0 : List I :=
  GT :: (m_assert_zero0 ++ [])

/-- `asm/util/assertions.asm:36-39`. -/
def m_assert_lt0 : List I :=
  LT :: (m_assert_nonzero0 ++ [])

/-- `asm/memory/metadata.asm:267-269`. -/
def m_basefee : List I :=
  (m_mload_global_metadata (.lit 0x500000013) ++ [])

/-- `asm/memory/metadata.asm:254-256`. -/
def m_blockchainid : List I :=
  (m_mload_global_metadata (.lit 0x500000012) ++ [])

/-- `asm/memory/metadata.asm:241-243`. -/
def m_blockgaslimit : List I :=
  (m_mload_global_metadata (.lit 0x500000011) ++ [])

/-- `asm/memory/metadata.asm:228-230`. -/
def m_blocknumber : List I :=
  (m_mload_global_metadata (.lit 0x50000000e) ++ [])

/-- `asm/util/basic_macros.asm:440-445`. -/
def m_build_address : List I :=
  ADD :: ADD :: []

/-- `asm/util/basic_macros.asm:447-451`. -/
def m_build_address_no_offset : List I :=
  ADD :: []

/-- `asm/util/basic_macros.asm:453-459`. -/
def m_build_current_general_address : List I :=
  PUSH 0x700000000 /- @SEGMENT_KERNEL_GENERAL -/ :: GET_CONTEXT :: (m_build_address ++ [])

/-- `asm/util/basic_macros.asm:461-467`. -/
def m_build_current_general_address_no_offset : List I :=
  PUSH 0x700000000 /- @SEGMENT_KERNEL_GENERAL -/ :: GET_CONTEXT :: (m_build_address_no_offset ++ [])

/-- `asm/memory/metadata.asm:176-178`. -/
def m_calldatasize : List I :=
  (m_mload_context_metadata (.lit 0x600000002) ++ [])

/-- `asm/memory/metadata.asm:119-121`. -/
def m_caller : List I :=
  (m_mload_context_metadata (.lit 0x600000006) ++ [])

/-- `asm/memory/metadata.asm:132-134`. -/
def m_callvalue : List I :=
  (m_mload_context_metadata (.lit 0x600000007) ++ [])

/-- `asm/core/gas.asm:14-16`. -/
def m_ctx_gas_limit : List I :=
  (m_mload_context_metadata (.lit 0x60000000c) ++ [])

/-- `asm/util/basic_macros.asm:135-140`. -/
def m_shl_const (c : Tgt) : List I :=
  I.push c :: SHL :: []

/-- `asm/util/basic_macros.asm:142-147`. -/
def m_shr_const (c : Tgt) : List I :=
  I.push c :: SHR :: []

/-- `asm/core/gas.asm:28-41`. -/
def m_charge_gas : List I :=
  (m_shl_const (.lit 192) ++ ADD :: (m_ctx_gas_limit ++ DUP 2 :: (m_shr_const (.lit 192) ++ GT :: (m_jumpi (.lab "fault_exception") ++ []))))

/-- `asm/core/gas.asm:69-75`. -/
def m_charge_gas_const (gas : Tgt) : List I :=
  I.push gas :: (m_charge_gas ++ [])

/-- `asm/memory/metadata.asm:461-470`. -/
def m_check_u32_add : List I :=
  (m_add_or_fault ++ PUSH 0xffffffff :: LT :: (m_jumpi (.lab "fault_exception") ++ []))

/-- `asm/memory/core.asm:212-219`. -/
def m_mload_kernel (segment : Tgt) : List I :=
  I.push segment :: (m_build_kernel_address ++ MLOAD_GENERAL :: [])

/-- `asm/mpt/util.asm:1-5`. -/
def m_mload_trie_data : List I :=
  (m_mload_kernel (.lit 0xc00000000) ++ [])

/-- `asm/mpt/accounts.asm:1-26`. -/
def m_clone_account : List I :=
  (m_get_trie_data_size ++ SWAP 1 :: DUP 1 :: (m_mload_trie_data ++ (m_append_to_trie_data ++ (m_increment ++ (m_increment ++ DUP 1 ::
    (m_mload_trie_data ++ (m_append_to_trie_data ++ (m_increment ++ DUP 1 :: (m_mload_trie_data ++ (m_append_to_trie_data ++
    (m_increment ++ (m_mload_trie_data ++ (m_append_to_trie_data ++ [])))))))))))))

/-- `asm/mpt/accounts.asm:32-39`. -/
def m_clone_slot : List I :=
  (m_get_trie_data_size ++ SWAP 1 :: (m_mload_trie_data ++ (m_append_to_trie_data ++ [])))

/-- `asm/util/basic_macros.asm:1-4`. -/
def m_jump (dst : Tgt) : List I :=
  I.push dst :: JUMP :: []

/-- `asm/memory/syscalls.asm:354-392`. -/
def m_codecopy_after_checks (segment : Tgt) : List I :=
  DUP 1 :: DUP 6 :: GT :: (m_jumpi (.lab "codecopy_large_offset") ++ I.push segment :: SWAP 1 :: DUP 1 :: DUP 8 :: DUP 8 ::
    (m_add_or_fault ++ LT :: (m_jumpi (.lab "codecopy_within_bounds") ++ DUP 7 :: DUP 7 :: ADD :: SUB :: DUP 1 :: DUP 8 :: SUB :: DUP 1 ::
    DUP 7 :: ADD :: GET_CONTEXT :: PUSHL "codecopy_large_offset" :: SWAP 4 :: SWAP 10 :: POP :: SWAP 1 :: SWAP 7 ::
    PUSH 0x200000000 /- @SEGMENT_MAIN_MEMORY -/ :: DUP 10 :: DUP 5 :: SWAP 7 :: DUP 9 :: (m_build_address ++ SWAP 3 :: (m_build_address ++
    (m_jump (.lab "memcpy_bytes") ++ []))))))

/-- `asm/memory/metadata.asm:136-138`. -/
def m_codesize : List I :=
  (m_mload_context_metadata (.lit 0x600000005) ++ [])

/-- `asm/memory/metadata.asm:202-204`. -/
def m_coinbase : List I :=
  (m_mload_global_metadata (.lit 0x50000000c) ++ [])

/-- `asm/util/basic_macros.asm:94-102`. -/
def m_sub_const (c : Tgt) : List I :=
  I.push c :: SWAP 1 :: SUB :: []

/-- `asm/util/basic_macros.asm:354-356`. -/
def m_decrement : List I :=
  (m_sub_const (.lit 1) ++ [])

/-- `asm/util/basic_macros.asm:172-178`. -/
def m_gt_const (c : Tgt) : List I :=
  I.push c :: LT :: []

/-- `asm/memory/metadata.asm:430-438`. -/
def m_ensure_reasonable_offset : List I :=
  (m_gt_const (.lit 0x2faf080) ++ (m_jumpi (.lab "fault_exception") ++ []))

/-- `asm/util/basic_macros.asm:149-154`. -/
def m_eq_const (c : Tgt) : List I :=
  I.push c :: EQ :: []

/-- `asm/util/basic_macros.asm:104-109`. -/
def m_mul_const (c : Tgt) : List I :=
  I.push c :: MUL :: []

/-- `asm/mpt/linked_list/linked_list.asm:144-162`. -/
def m_get_valid_account_ptr : List I :=
  PUSH 0x2200000000 /- @SEGMENT_ACCOUNTS_LINKED_LIST -/ :: DUP 2 :: (m_mul_const (.lit 4) ++ (m_increment ++ (m_assert_gt0 ++ DUP 1 ::
    PUSH 4 :: (m_mload_global_metadata (.lit 0x50000002f) ++ DIV :: (m_assert_gt0 ++ (m_mul_const (.lit 4) ++ []))))))

/-- `asm/util/basic_macros.asm:113-121`. -/
def m_div_const (c : Tgt) : List I :=
  I.push c :: SWAP 1 :: DIV :: []

/-- `asm/core/access_lists.asm:76-89`. -/
def m_get_valid_addr_ptr : List I :=
  DUP 1 :: (m_mload_global_metadata (.lit 0x50000001c) ++ (m_div_const (.lit 2) ++ (m_assert_gt0 ++ (m_mul_const (.lit 2) ++ []))))

/-- `asm/mpt/linked_list/linked_list.asm:472-487`. -/
def m_get_valid_slot_ptr : List I :=
  DUP 1 :: PUSH 5 :: PUSH 0x2300000000 /- @SEGMENT_STORAGE_LINKED_LIST -/ :: (m_mload_global_metadata (.lit 0x500000030) ++ SUB :: DIV ::
    (m_assert_gt0 ++ (m_mul_const (.lit 5) ++ (m_add_const (.lit 0x2300000000) ++ []))))

/-- `asm/core/access_lists.asm:222-233`. -/
def m_get_valid_storage_ptr : List I :=
  DUP 1 :: (m_mload_global_metadata (.lit 0x50000001d) ++ (m_div_const (.lit 4) ++ (m_assert_gt0 ++ (m_mul_const (.lit 4) ++ []))))

/-- `asm/journal/journal.asm:1-3`. -/
def m_journal_size : List I :=
  (m_mload_global_metadata (.lit 0x50000001f) ++ [])

/-- `asm/journal/journal.asm:5-9`. -/
def m_mstore_journal : List I :=
  (m_mstore_kernel1 (.lit 0x1b00000000) ++ [])

/-- `asm/journal/journal.asm:17-28`. -/
def m_append_journal : List I :=
  (m_journal_size ++ SWAP 1 :: DUP 2 :: (m_mstore_journal ++ (m_increment ++ (m_mstore_global_metadata (.lit 0x50000001f) ++ []))))

/-- `asm/journal/journal.asm:30-32`. -/
def m_journal_data_size : List I :=
  (m_mload_global_metadata (.lit 0x500000020) ++ [])

/-- `asm/journal/journal.asm:34-38`. -/
def m_mstore_journal_data : List I :=
  (m_mstore_kernel1 (.lit 0x1c00000000) ++ [])

/-- `asm/journal/journal.asm:46-56`. -/
def m_append_journal_data : List I :=
  (m_journal_data_size ++ SWAP 1 :: DUP 2 :: (m_mstore_journal_data ++ (m_increment ++ (m_mstore_global_metadata (.lit 0x500000020) ++ []))))

/-- `asm/journal/journal.asm:58-70`. -/
def m_journal_add_1 (type : Tgt) : List I :=
  (m_journal_data_size ++ I.push type :: (m_append_journal_data ++ SWAP 1 :: (m_append_journal_data ++ (m_append_journal ++ []))))

/-- `asm/journal/account_loaded.asm:3-7`. -/
def m_journal_add_account_loaded : List I :=
  (m_journal_add_1 (.lit 0) ++ [])

/-- `asm/journal/journal.asm:72-84`. -/
def m_journal_add_2 (type : Tgt) : List I :=
  (m_journal_data_size ++ I.push type :: (m_append_journal_data ++ SWAP 1 :: (m_append_journal_data ++ SWAP 1 :: (m_append_journal_data ++
    (m_append_journal ++ [])))))

/-- `asm/journal/storage_loaded.asm:3-5`. -/
def m_journal_add_storage_loaded : List I :=
  (m_journal_add_2 (.lit 6) ++ [])

/-- `asm/util/basic_macros.asm:12-16`. -/
def m_jump_neq_const (c : Tgt) (jumpdest : Tgt) : List I :=
  I.push c :: SUB :: (m_jumpi jumpdest ++ [])

/-- `asm/util/basic_macros.asm:156-162`. -/
def m_lt_const (c : Tgt) : List I :=
  I.push c :: GT :: []

/-- `asm/memory/metadata.asm:158-160`. -/
def m_mem_words : List I :=
  (m_mload_context_metadata (.lit 0x60000000a) ++ [])

/-- `asm/util/basic_macros.asm:229-235`. -/
def m_square : List I :=
  DUP 1 :: MUL :: []

/-- `asm/memory/metadata.asm:412-425`. -/
def m_memory_cost : List I :=
  DUP 1 :: (m_mul_const (.lit 3) ++ SWAP 1 :: (m_square ++ (m_shr_const (.lit 9) ++ ADD :: [])))

/-- `asm/util/basic_macros.asm:211-227`. -/
def m_select_bool : List I :=
  DUP 1 :: ISZERO :: SWAP 3 :: MUL :: SWAP 2 :: MUL :: ADD :: []

/-- `asm/util/basic_macros.asm:237-246`. -/
def m_min : List I :=
  DUP 2 :: DUP 2 :: GT :: (m_select_bool ++ [])

/-- `asm/memory/core.asm:69-78`. -/
def m_mload_current (segment : Tgt) : List I :=
  I.push segment :: GET_CONTEXT :: (m_build_address ++ MLOAD_GENERAL :: [])

/-- `asm/memory/core.asm:121-125`. -/
def m_mload_current_general : List I :=
  (m_mload_current (.lit 0x700000000) ++ [])

/-- `asm/memory/core.asm:314-319`. -/
def m_mload_kernel_code0 : List I :=
  MLOAD_GENERAL :: []

/-- `asm/memory/txn_fields.asm:2-12`. -/
def m_mload_txn_field (field : Tgt) : List I :=
  I.push field :: MLOAD_GENERAL :: []

/-- `asm/util/basic_macros.asm:125-133`. -/
def m_mod_const (c : Tgt) : List I :=
  I.push c :: SWAP 1 :: MOD :: []

/-- `asm/memory/metadata.asm:162-165`. -/
def m_msize : List I :=
  (m_mem_words ++ (m_mul_const (.lit 32) ++ []))

/-- `asm/memory/metadata.asm:42-55`. -/
def m_mstore_context_metadata1 (field : Tgt) : List I :=
  I.push field :: GET_CONTEXT :: ADD :: SWAP 1 :: MSTORE_GENERAL :: []

/-- `asm/memory/core.asm:84-94`. -/
def m_mstore_current1 (segment : Tgt) : List I :=
  I.push segment :: GET_CONTEXT :: (m_build_address ++ SWAP 1 :: MSTORE_GENERAL :: [])

/-- `asm/memory/core.asm:168-174`. -/
def m_mstore_current_general0 : List I :=
  (m_build_current_general_address ++ SWAP 1 :: MSTORE_GENERAL :: [])

/-- `asm/core/util.asm:120-124`. -/
def m_mstore_u256_max : List I :=
  PUSH 0xffffffffffffffffffffffffffffffffffffffffffffffffffffffffffffffff /- @U256_MAX -/ :: MSTORE_GENERAL :: []

/-- `asm/mpt/linked_list/linked_list.asm:1004-1009`. -/
def m_next_account : List I :=
  (m_add_const (.lit 3) ++ MLOAD_GENERAL :: [])

/-- `asm/mpt/linked_list/linked_list.asm:1011-1015`. -/
def m_next_initial_account : List I :=
  (m_add_const (.lit 4) ++ [])

/-- `asm/mpt/linked_list/linked_list.asm:1036-1040`. -/
def m_next_initial_slot : List I :=
  (m_add_const (.lit 5) ++ [])

/-- `asm/mpt/linked_list/linked_list.asm:1029-1034`. -/
def m_next_slot : List I :=
  (m_add_const (.lit 4) ++ MLOAD_GENERAL :: [])

/-- `asm/memory/metadata.asm:404-410`. -/
def m_num_bytes_to_num_words : List I :=
  (m_add_const (.lit 31) ++ (m_shr_const (.lit 5) ++ []))

/-- `asm/memory/txn_fields.asm:28-30`. -/
def m_origin : List I :=
  (m_mload_txn_field (.lit 0x90000000f) ++ [])

/-- `asm/util/basic_macros.asm:72-76`. -/
def m_pop10 : List I :=
  (rep 10 (POP :: []) ++ [])

/-- `asm/util/basic_macros.asm:24-28`. -/
def m_pop2 : List I :=
  (rep 2 (POP :: []) ++ [])

/-- `asm/util/basic_macros.asm:30-34`. -/
def m_pop3 : List I :=
  (rep 3 (POP :: []) ++ [])

/-- `asm/util/basic_macros.asm:36-40`. -/
def m_pop4 : List I :=
  (rep 4 (POP :: []) ++ [])

/-- `asm/util/basic_macros.asm:48-52`. -/
def m_pop6 : List I :=
  (rep 6 (POP :: []) ++ [])

/-- `asm/util/basic_macros.asm:60-64`. -/
def m_pop8 : List I :=
  (rep 8 (POP :: []) ++ [])

/-- `asm/memory/metadata.asm:189-191`. -/
def m_returndatasize : List I :=
  (m_mload_context_metadata (.lit 0x600000003) ++ [])

/-- `asm/memory/core.asm:420-425`. -/
def m_swap_mstore : List I :=
  SWAP 1 :: MSTORE_GENERAL :: []

/-- `asm/memory/metadata.asm:215-217`. -/
def m_timestamp : List I :=
  (m_mload_global_metadata (.lit 0x50000000d) ++ [])

/-- `asm/memory/syscalls.asm:110-118`. -/
def m_wcopy_charge_gas : List I :=
  PUSH 3 /- @GAS_VERYLOW -/ :: DUP 5 :: ISZERO :: (m_jumpi (.lab "wcopy_empty") ++ DUP 5 :: (m_num_bytes_to_num_words ++
    (m_mul_const (.lit 3) ++ ADD :: (m_charge_gas ++ []))))

/-- Everything to unfold when running a macro. -/
macro "unfold_macros" : tactic => `(tactic| simp only [m_add_const, m_add_or_fault, m_address, m_and_const, m_append_journal, m_append_journal_data, m_append_to_trie_data, m_assert_eq0, m_assert_eq1, m_assert_eq_const, m_assert_gt0, m_assert_le0, m_assert_lt0, m_assert_nonzero0, m_assert_zero0, m_basefee, m_blockchainid, m_blockgaslimit, m_blocknumber, m_build_address, m_build_address_no_offset, m_build_current_general_address, m_build_current_general_address_no_offset, m_build_kernel_address, m_calldatasize, m_caller, m_callvalue, m_charge_gas, m_charge_gas_const, m_check_u32_add, m_clone_account, m_clone_slot, m_codecopy_after_checks, m_codesize, m_coinbase, m_ctx_gas_limit, m_decrement, m_div_const, m_ensure_reasonable_offset, m_eq_const, m_get_trie_data_size, m_get_valid_account_ptr, m_get_valid_addr_ptr, m_get_valid_slot_ptr, m_get_valid_storage_ptr, m_gt_const, m_increment, m_journal_add_1, m_journal_add_2, m_journal_add_account_loaded, m_journal_add_storage_loaded, m_journal_data_size, m_journal_size, m_jump, m_jump_neq_const, m_jumpi, m_lt_const, m_mem_words, m_memory_cost, m_min, m_mload_context_metadata, m_mload_current, m_mload_current_general, m_mload_global_metadata, m_mload_kernel, m_mload_kernel_code0, m_mload_trie_data, m_mload_txn_field, m_mod_const, m_msize, m_mstore_context_metadata1, m_mstore_current1, m_mstore_current_general0, m_mstore_global_metadata, m_mstore_journal, m_mstore_journal_data, m_mstore_kernel1, m_mstore_trie_data, m_mstore_u256_max, m_mul_const, m_next_account, m_next_initial_account, m_next_initial_slot, m_next_slot, m_num_bytes_to_num_words, m_origin, m_pop10, m_pop2, m_pop3, m_pop4, m_pop6, m_pop8, m_returndatasize, m_select_bool, m_set_trie_data_size, m_shl_const, m_shr_const, m_square, m_sub_const, m_swap_mstore, m_timestamp, m_wcopy_charge_gas, rep, List.cons_append, List.nil_append, List.append_assoc, List.append_nil])

end Verif.Kasm
