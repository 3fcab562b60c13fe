import Verif.Kasm.Code.Macros

/-! Kernel code transcribed from `asm/mpt/linked_list/linked_list.asm`, `asm/util/assertions.asm`: macros, and for every label the items from there on. -/

namespace Verif.Kasm


/-- `asm/mpt/linked_list/linked_list.asm:67`, label `loop_store_initial_accounts`. -/
def b_loop_store_initial_accounts : List I :=
  (m_get_trie_data_size ++ DUP 2 :: (m_increment ++ MLOAD_GENERAL :: DUP 1 :: (m_mload_trie_data ++ (m_append_to_trie_data ++ (m_increment ++
    DUP 1 :: (m_mload_trie_data ++ (m_append_to_trie_data ++ (m_increment ++ DUP 1 :: (m_mload_trie_data ++ (m_append_to_trie_data ++
    (m_increment ++ (m_mload_trie_data ++ (m_append_to_trie_data ++ DUP 2 :: (m_add_const (.lit 2) ++ SWAP 1 :: MSTORE_GENERAL :: SWAP 1 ::
    PUSH 4 /- @ACCOUNTS_LINKED_LISTS_NODE_SIZE -/ :: ADD :: SWAP 1 :: DUP 1 :: MLOAD_GENERAL :: SWAP 1 :: DUP 1 :: (m_next_account ++
    DUP 1 :: SWAP 2 :: (m_next_initial_account ++ (m_assert_eq1 (.lab "store_initial_accounts_end_pop_key") ++ SWAP 1 :: DUP 2 ::
    MLOAD_GENERAL :: (m_assert_gt0 ++ (m_jump (.lab "loop_store_initial_accounts") ++ [])))))))))))))))))))

/-- `asm/mpt/linked_list/linked_list.asm:46`, label `store_initial_accounts`. -/
def b_store_initial_accounts : List I :=
  PUSH 4 /- @ACCOUNTS_LINKED_LISTS_NODE_SIZE -/ :: PUSH 0x2200000000 /- @SEGMENT_ACCOUNTS_LINKED_LIST -/ :: ADD ::
    PUSH 0x2200000000 /- @SEGMENT_ACCOUNTS_LINKED_LIST -/ :: DUP 1 :: MLOAD_GENERAL ::
    (m_assert_eq_const (.lit 0xffffffffffffffffffffffffffffffffffffffffffffffffffffffffffffffff) ++ DUP 1 :: (m_next_account ++ DUP 1 ::
    SWAP 2 :: (m_next_initial_account ++ (m_assert_eq1 (.lab "store_initial_accounts_end") ++ b_loop_store_initial_accounts))))

/-- `asm/mpt/linked_list/linked_list.asm:124`, label `store_initial_accounts_end`. -/
def b_store_initial_accounts_end : List I :=
  (m_assert_eq_const (.lit 0x2200000000) ++ DUP 1 :: (m_mstore_global_metadata (.lit 0x500000031) ++
    (m_mstore_global_metadata (.lit 0x50000002f) ++ JUMP :: [])))

/-- `asm/mpt/linked_list/linked_list.asm:121`, label `store_initial_accounts_end_pop_key`. -/
def b_store_initial_accounts_end_pop_key : List I :=
  SWAP 1 :: POP :: b_store_initial_accounts_end

/-- `asm/mpt/linked_list/linked_list.asm:164`, label `insert_account_with_overwrite`. -/
def b_insert_account_with_overwrite : List I :=
  INPUT "linked_list::insert_account" :: (m_get_valid_account_ptr ++ DUP 1 :: MLOAD_GENERAL :: DUP 1 :: DUP 4 :: GT :: DUP 3 ::
    (m_eq_const (.lit 0x2200000000) ++ ADD :: (m_jumpi (.lab "insert_new_account") ++ DUP 3 :: (m_assert_eq0 ++ DUP 1 ::
    (m_add_const (.lit 3) ++ MLOAD_GENERAL ::
    (m_jump_neq_const (.lit 0xffffffffffffffffffffffffffffffffffffffffffffffffffffffffffffffff) (.lab "account_found_with_overwrite") ++
    PANIC :: []))))))

/-- `asm/mpt/linked_list/linked_list.asm:195`, label `account_found_with_overwrite`. -/
def b_account_found_with_overwrite : List I :=
  (m_increment ++ DUP 3 :: MSTORE_GENERAL :: (m_pop2 ++ JUMP :: []))

/-- `asm/mpt/linked_list/linked_list.asm:205`, label `insert_new_account`. -/
def b_insert_new_account : List I :=
  POP :: (m_add_const (.lit 3) ++ (m_mload_global_metadata (.lit 0x50000002f) ++ DUP 2 :: MLOAD_GENERAL :: DUP 1 ::
    (m_eq_const (.lit 0xffffffffffffffffffffffffffffffffffffffffffffffffffffffffffffffff) ++ (m_assert_zero0 ++ DUP 1 :: MLOAD_GENERAL ::
    DUP 5 :: (m_assert_lt0 ++ SWAP 2 :: DUP 2 :: MSTORE_GENERAL :: DUP 1 :: DUP 4 :: MSTORE_GENERAL :: (m_increment ++ DUP 1 :: DUP 5 ::
    MSTORE_GENERAL :: (m_increment ++ DUP 1 :: DUP 5 :: (m_clone_account ++ MSTORE_GENERAL :: (m_increment ++ DUP 1 :: SWAP 2 ::
    MSTORE_GENERAL :: (m_increment ++ (m_mstore_global_metadata (.lit 0x50000002f) ++ (m_pop2 ++ JUMP :: []))))))))))))

/-- `asm/mpt/linked_list/linked_list.asm:261`, label `search_account`. -/
def b_search_account : List I :=
  INPUT "linked_list::search_account" :: (m_get_valid_account_ptr ++ DUP 1 :: MLOAD_GENERAL :: DUP 1 :: DUP 4 :: GT :: DUP 3 ::
    (m_eq_const (.lit 0x2200000000) ++ ADD :: (m_jumpi (.lab "account_not_found") ++ DUP 3 :: (m_assert_eq0 ++ DUP 1 ::
    (m_add_const (.lit 3) ++ MLOAD_GENERAL ::
    (m_jump_neq_const (.lit 0xffffffffffffffffffffffffffffffffffffffffffffffffffffffffffffffff) (.lab "account_found") ++ PANIC :: []))))))

/-- `asm/mpt/linked_list/linked_list.asm:292`, label `account_found`. -/
def b_account_found : List I :=
  (m_increment ++ MLOAD_GENERAL :: STK 3 [.e 2, .e 0] /- (orig_payload_ptr, addr_key, retdest) -> (retdest, orig_payload_ptr) -/ :: JUMP :: [])

/-- `asm/mpt/linked_list/linked_list.asm:302`, label `account_not_found`. -/
def b_account_not_found : List I :=
  STK 4 [.e 3, .t (.lit 0)] /- (pred_addr_key, pred_ptr, addr_key, retdest) -> (retdest, 0) -/ :: JUMP :: []

/-- `asm/mpt/linked_list/linked_list.asm:316`, label `remove_account`. -/
def b_remove_account : List I :=
  INPUT "linked_list::remove_account" :: (m_get_valid_account_ptr ++ (m_add_const (.lit 3) ++ DUP 1 :: MLOAD_GENERAL :: DUP 1 ::
    MLOAD_GENERAL :: DUP 4 :: (m_assert_eq0 ++ (m_add_const (.lit 3) ++ DUP 1 :: MLOAD_GENERAL :: SWAP 1 :: (m_mstore_u256_max ++
    MSTORE_GENERAL :: POP :: JUMP :: [])))))

/-- `asm/mpt/linked_list/linked_list.asm:390`, label `loop_store_initial_slots`. -/
def b_loop_store_initial_slots : List I :=
  DUP 1 :: (m_add_const (.lit 2) ++ MLOAD_GENERAL :: DUP 2 :: (m_add_const (.lit 3) ++ SWAP 1 :: MSTORE_GENERAL :: SWAP 1 ::
    PUSH 5 /- @STORAGE_LINKED_LISTS_NODE_SIZE -/ :: ADD :: SWAP 1 :: DUP 1 :: MLOAD_GENERAL :: SWAP 1 :: DUP 1 :: (m_increment ++
    MLOAD_GENERAL :: SWAP 1 :: DUP 1 :: (m_next_slot ++ DUP 1 :: SWAP 2 :: (m_next_initial_slot ++
    (m_assert_eq1 (.lab "store_initial_slots_end_pop_keys") ++ DUP 1 :: DUP 1 :: (m_increment ++ MLOAD_GENERAL :: SWAP 1 ::
    MLOAD_GENERAL :: SWAP 3 :: LT :: SWAP 2 :: SWAP 1 :: SWAP 3 :: DUP 2 :: DUP 2 :: EQ :: SWAP 1 :: SWAP 3 :: MUL :: SWAP 2 :: LT ::
    ADD :: (m_assert_nonzero0 ++ (m_jump (.lab "loop_store_initial_slots") ++ [])))))))))

/-- `asm/mpt/linked_list/linked_list.asm:368`, label `store_initial_slots`. -/
def b_store_initial_slots : List I :=
  PUSH 5 /- @STORAGE_LINKED_LISTS_NODE_SIZE -/ :: PUSH 0x2300000000 /- @SEGMENT_STORAGE_LINKED_LIST -/ :: ADD ::
    PUSH 0x2300000000 /- @SEGMENT_STORAGE_LINKED_LIST -/ :: DUP 1 :: MLOAD_GENERAL ::
    (m_assert_eq_const (.lit 0xffffffffffffffffffffffffffffffffffffffffffffffffffffffffffffffff) ++ DUP 1 :: (m_next_slot ++ DUP 1 ::
    SWAP 2 :: (m_next_initial_slot ++ (m_assert_eq1 (.lab "store_initial_slots_end") ++ b_loop_store_initial_slots))))

/-- `asm/mpt/linked_list/linked_list.asm:457`, label `store_initial_slots_end`. -/
def b_store_initial_slots_end : List I :=
  (m_assert_eq_const (.lit 0x2300000000) ++ DUP 1 :: (m_mstore_global_metadata (.lit 0x500000032) ++
    (m_mstore_global_metadata (.lit 0x500000030) ++ JUMP :: [])))

/-- `asm/mpt/linked_list/linked_list.asm:452`, label `store_initial_slots_end_pop_keys`. -/
def b_store_initial_slots_end_pop_keys : List I :=
  SWAP 2 :: (m_pop2 ++ b_store_initial_slots_end)

/-- `asm/mpt/linked_list/linked_list.asm:491`, label `insert_slot_with_value`. -/
def b_insert_slot_with_value : List I :=
  INPUT "linked_list::insert_slot" :: (m_get_valid_slot_ptr ++ DUP 1 :: MLOAD_GENERAL :: DUP 1 :: DUP 4 :: GT :: DUP 3 ::
    (m_eq_const (.lit 0x2300000000) ++ ADD :: (m_jumpi (.lab "insert_new_slot_with_value") ++ DUP 3 :: (m_assert_eq0 ++ DUP 1 ::
    (m_increment ++ MLOAD_GENERAL :: DUP 1 :: DUP 5 :: GT :: (m_jumpi (.lab "insert_new_slot_with_value") ++ DUP 4 :: (m_assert_eq0 ++
    DUP 1 :: (m_add_const (.lit 4) ++ MLOAD_GENERAL ::
    (m_jump_neq_const (.lit 0xffffffffffffffffffffffffffffffffffffffffffffffffffffffffffffffff) (.lab "slot_found_write_value") ++ PANIC :: [])))))))))

/-- `asm/mpt/linked_list/linked_list.asm:573`, label `next_node_ok_with_value`. -/
def b_next_node_ok_with_value : List I :=
  POP :: SWAP 2 :: DUP 2 :: MSTORE_GENERAL :: DUP 1 :: DUP 4 :: MSTORE_GENERAL :: (m_increment ++ DUP 1 :: DUP 5 :: MSTORE_GENERAL ::
    (m_increment ++ DUP 1 :: (m_increment ++
    STK 7 [.e 5, .e 0, .e 5, .e 1, .e 0, .e 2, .e 6] /- (new_cloned_value_ptr, new_value_ptr, next_ptr, addr_key, key, value, retdest) -> (value, new_cloned_value_ptr, value, new_value_ptr, new_cloned_value_ptr, next_ptr, retdest) -/ ::
    MSTORE_GENERAL :: MSTORE_GENERAL :: (m_increment ++ DUP 1 :: SWAP 2 :: MSTORE_GENERAL :: (m_increment ++
    (m_mstore_global_metadata (.lit 0x500000030) ++ JUMP :: []))))))

/-- `asm/mpt/linked_list/linked_list.asm:536`, label `insert_new_slot_with_value`. -/
def b_insert_new_slot_with_value : List I :=
  POP :: (m_add_const (.lit 4) ++ (m_mload_global_metadata (.lit 0x500000030) ++ DUP 2 :: MLOAD_GENERAL :: DUP 1 ::
    (m_eq_const (.lit 0xffffffffffffffffffffffffffffffffffffffffffffffffffffffffffffffff) ++ (m_assert_zero0 ++ DUP 1 :: MLOAD_GENERAL ::
    DUP 1 :: DUP 6 :: LT :: (m_jumpi (.lab "next_node_ok_with_value") ++ DUP 5 :: (m_assert_eq0 ++ DUP 1 :: (m_increment ++
    MLOAD_GENERAL :: DUP 1 :: DUP 7 :: (m_assert_lt0 ++ b_next_node_ok_with_value))))))))

/-- `asm/mpt/linked_list/linked_list.asm:614`, label `slot_found_write_value`. -/
def b_slot_found_write_value : List I :=
  (m_add_const (.lit 2) ++ STK 4 [.e 3, .e 0] /- (payload_ptr, addr_key, key, value) -> (value, payload_ptr) -/ :: MSTORE_GENERAL :: JUMP :: [])

/-- `asm/mpt/linked_list/linked_list.asm:644`, label `insert_slot`. -/
def b_insert_slot : List I :=
  INPUT "linked_list::insert_slot" :: (m_get_valid_slot_ptr ++ DUP 1 :: MLOAD_GENERAL :: DUP 1 :: DUP 4 :: GT :: DUP 3 ::
    (m_eq_const (.lit 0x2300000000) ++ ADD :: (m_jumpi (.lab "insert_new_slot") ++ DUP 3 :: (m_assert_eq0 ++ DUP 1 :: (m_increment ++
    MLOAD_GENERAL :: DUP 1 :: DUP 5 :: GT :: (m_jumpi (.lab "insert_new_slot") ++ DUP 4 :: (m_assert_eq0 ++ DUP 1 ::
    (m_add_const (.lit 4) ++ MLOAD_GENERAL ::
    (m_jump_neq_const (.lit 0xffffffffffffffffffffffffffffffffffffffffffffffffffffffffffffffff) (.lab "slot_found_write") ++ PANIC :: [])))))))))

/-- `asm/mpt/linked_list/linked_list.asm:690`, label `slot_found_write`. -/
def b_slot_found_write : List I :=
  (m_add_const (.lit 2) ++ DUP 1 :: MLOAD_GENERAL :: SWAP 1 :: DUP 5 :: MSTORE_GENERAL ::
    STK 5 [.e 4, .e 0] /- (old_value, addr_key, key, value, retdest) -> (retdest, old_value) -/ :: JUMP :: [])

/-- `asm/mpt/linked_list/linked_list.asm:739`, label `next_node_ok`. -/
def b_next_node_ok : List I :=
  POP :: SWAP 2 :: DUP 2 :: MSTORE_GENERAL :: DUP 1 :: DUP 4 :: MSTORE_GENERAL :: (m_increment ++ DUP 1 :: DUP 5 :: MSTORE_GENERAL ::
    (m_increment ++ DUP 1 :: DUP 6 :: MSTORE_GENERAL :: (m_increment ++ DUP 1 :: DUP 6 :: (m_clone_slot ++ MSTORE_GENERAL ::
    (m_increment ++ DUP 1 :: SWAP 2 :: MSTORE_GENERAL :: (m_increment ++ (m_mstore_global_metadata (.lit 0x500000030) ++
    STK 4 [.e 3, .e 2] /- (addr_key, key, value, retdest) -> (retdest, value) -/ :: JUMP :: [])))))))

/-- `asm/mpt/linked_list/linked_list.asm:703`, label `insert_new_slot`. -/
def b_insert_new_slot : List I :=
  POP :: (m_add_const (.lit 4) ++ (m_mload_global_metadata (.lit 0x500000030) ++ DUP 2 :: MLOAD_GENERAL :: DUP 1 ::
    (m_eq_const (.lit 0xffffffffffffffffffffffffffffffffffffffffffffffffffffffffffffffff) ++ (m_assert_zero0 ++ DUP 1 :: MLOAD_GENERAL ::
    DUP 1 :: DUP 6 :: LT :: (m_jumpi (.lab "next_node_ok") ++ DUP 5 :: (m_assert_eq0 ++ DUP 1 :: (m_increment ++ MLOAD_GENERAL :: DUP 1 ::
    DUP 7 :: (m_assert_lt0 ++ b_next_node_ok))))))))

/-- `asm/mpt/linked_list/linked_list.asm:787`, label `search_slot`. -/
def b_search_slot : List I :=
  INPUT "linked_list::search_slot" :: (m_get_valid_slot_ptr ++ DUP 1 :: MLOAD_GENERAL :: DUP 1 :: DUP 4 :: GT :: DUP 3 ::
    (m_eq_const (.lit 0x2300000000) ++ ADD :: (m_jumpi (.lab "slot_not_found") ++ DUP 3 :: (m_assert_eq0 ++ DUP 1 :: (m_increment ++
    MLOAD_GENERAL :: DUP 1 :: DUP 5 :: GT :: (m_jumpi (.lab "slot_not_found") ++ DUP 4 :: (m_assert_eq0 ++ DUP 1 ::
    (m_add_const (.lit 4) ++ MLOAD_GENERAL ::
    (m_jump_neq_const (.lit 0xffffffffffffffffffffffffffffffffffffffffffffffffffffffffffffffff) (.lab "slot_found_no_write") ++ PANIC :: [])))))))))

/-- `asm/mpt/linked_list/linked_list.asm:832`, label `slot_not_found`. -/
def b_slot_not_found : List I :=
  STK 6 [.e 5, .e 4] /- (pred_addr_or_pred_key, pred_ptr, addr_key, key, value, retdest) -> (retdest, value) -/ :: JUMP :: []

/-- `asm/mpt/linked_list/linked_list.asm:838`, label `slot_found_no_write`. -/
def b_slot_found_no_write : List I :=
  (m_add_const (.lit 2) ++ MLOAD_GENERAL :: STK 5 [.e 4, .e 0] /- (old_value, addr_key, key, value, retdest) -> (retdest, old_value) -/ ::
    JUMP :: [])

/-- `asm/mpt/linked_list/linked_list.asm:864`, label `remove_slot`. -/
def b_remove_slot : List I :=
  INPUT "linked_list::remove_slot" :: (m_get_valid_slot_ptr ++ (m_add_const (.lit 4) ++ DUP 1 :: MLOAD_GENERAL :: DUP 1 :: MLOAD_GENERAL ::
    DUP 4 :: (m_assert_eq0 ++ DUP 1 :: (m_increment ++ MLOAD_GENERAL :: DUP 5 :: (m_assert_eq0 ++ (m_add_const (.lit 4) ++ DUP 1 ::
    MLOAD_GENERAL :: SWAP 1 :: (m_mstore_u256_max ++ MSTORE_GENERAL :: (m_pop2 ++ JUMP :: []))))))))

/-- `asm/mpt/linked_list/linked_list.asm:916`, label `remove_all_slots_loop`. -/
def b_remove_all_slots_loop : List I :=
  (m_add_const (.lit 4) ++ DUP 1 :: MLOAD_GENERAL :: DUP 1 ::
    (m_eq_const (.lit 0xffffffffffffffffffffffffffffffffffffffffffffffffffffffffffffffff) ++ (m_jumpi (.lab "remove_all_slots_end") ++
    DUP 1 :: (m_add_const (.lit 4) ++ MLOAD_GENERAL :: SWAP 1 :: DUP 1 :: MLOAD_GENERAL :: DUP 6 :: EQ :: ISZERO ::
    (m_jumpi (.lab "remove_all_slots_pop_and_end") ++ SWAP 2 :: SWAP 1 :: MSTORE_GENERAL :: (m_add_const (.lit 4) ++ (m_mstore_u256_max ++
    DUP 1 :: (m_jump (.lab "remove_all_slots_loop") ++ []))))))))

/-- `asm/mpt/linked_list/linked_list.asm:902`, label `remove_all_account_slots`. -/
def b_remove_all_account_slots : List I :=
  INPUT "linked_list::remove_address_slots" :: (m_get_valid_slot_ptr ++ DUP 1 :: MLOAD_GENERAL :: DUP 3 :: EQ :: (m_jumpi (.lab "panic") ++
    DUP 1 :: b_remove_all_slots_loop))

/-- `asm/mpt/linked_list/linked_list.asm:942`, label `remove_all_slots_end`. -/
def b_remove_all_slots_end : List I :=
  (m_pop4 ++ JUMP :: [])

/-- `asm/mpt/linked_list/linked_list.asm:940`, label `remove_all_slots_pop_and_end`. -/
def b_remove_all_slots_pop_and_end : List I :=
  POP :: b_remove_all_slots_end

/-- `asm/util/assertions.asm:3`, label `panic`. -/
def b_panic : List I :=
  PANIC :: []

/-- The labels of this part of the kernel and what follows them. -/
def linkedListCode : List (String × List I) :=
  [("store_initial_accounts", b_store_initial_accounts),
   ("loop_store_initial_accounts", b_loop_store_initial_accounts),
   ("store_initial_accounts_end_pop_key", b_store_initial_accounts_end_pop_key),
   ("store_initial_accounts_end", b_store_initial_accounts_end),
   ("insert_account_with_overwrite", b_insert_account_with_overwrite),
   ("account_found_with_overwrite", b_account_found_with_overwrite),
   ("insert_new_account", b_insert_new_account),
   ("search_account", b_search_account),
   ("account_found", b_account_found),
   ("account_not_found", b_account_not_found),
   ("remove_account", b_remove_account),
   ("store_initial_slots", b_store_initial_slots),
   ("loop_store_initial_slots", b_loop_store_initial_slots),
   ("store_initial_slots_end_pop_keys", b_store_initial_slots_end_pop_keys),
   ("store_initial_slots_end", b_store_initial_slots_end),
   ("insert_slot_with_value", b_insert_slot_with_value),
   ("insert_new_slot_with_value", b_insert_new_slot_with_value),
   ("next_node_ok_with_value", b_next_node_ok_with_value),
   ("slot_found_write_value", b_slot_found_write_value),
   ("insert_slot", b_insert_slot),
   ("slot_found_write", b_slot_found_write),
   ("insert_new_slot", b_insert_new_slot),
   ("next_node_ok", b_next_node_ok),
   ("search_slot", b_search_slot),
   ("slot_not_found", b_slot_not_found),
   ("slot_found_no_write", b_slot_found_no_write),
   ("remove_slot", b_remove_slot),
   ("remove_all_account_slots", b_remove_all_account_slots),
   ("remove_all_slots_loop", b_remove_all_slots_loop),
   ("remove_all_slots_pop_and_end", b_remove_all_slots_pop_and_end),
   ("remove_all_slots_end", b_remove_all_slots_end),
   ("panic", b_panic)]

end Verif.Kasm
