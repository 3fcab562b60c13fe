import Verif.Kasm.Code.Macros2

/-! Kernel code transcribed from `asm/journal/refund.asm`, `asm/journal/nonce_change.asm`, `asm/journal/code_change.asm`, `asm/journal/balance_transfer.asm`, `asm/journal/account_touched.asm`, `asm/journal/storage_change.asm`, `asm/journal/account_created.asm`, `asm/journal/log.asm`, `asm/journal/account_destroyed.asm`, `asm/journal/account_loaded.asm`, `asm/journal/storage_loaded.asm`: macros, and for every label the items from there on. -/

namespace Verif.Kasm


/-- `asm/journal/refund.asm:7`, label `revert_refund`. -/
def b_revert_refund : List I :=
  POP :: (m_journal_load_1 ++ (m_mload_global_metadata (.lit 0x50000001b) ++ SUB :: (m_mstore_global_metadata (.lit 0x50000001b) ++ JUMP :: [])))

/-- `asm/journal/nonce_change.asm:7`, label `revert_nonce_change`. -/
def b_revert_nonce_change : List I :=
  POP :: (m_journal_load_2 ++ /- %read_accounts_linked_list -/
    STK 1 [.e 0, .t (.lab "nonce_change@1.after")] /- (addr) -> (addr, nonce_change@1.after) -/ :: /- %addr_to_state_key -/
    /- %keccak256_word -/
    STK 1 [.t (.lit 0x700000000), .e 0, .t (.lit 20), .t (.lab "nonce_change@3.after_mstore"), .t (.lit 20), .t (.lit 20)] /- (word) -> (@SEGMENT_KERNEL_GENERAL, word, 20, nonce_change@3.after_mstore, 20, 20) -/ ::
    (m_jump (.lab "mstore_unpacking") ++ []))

/-- `asm/util/keccak.asm:43`, label `nonce_change@3.after_mstore`: that of `%keccak256_word`, expanded in `asm/journal/nonce_change.asm`. -/
def b_nonce_change_3_after_mstore : List I :=
  SUB :: KECCAK_GENERAL :: /- end %keccak256_word -/ /- end %addr_to_state_key -/ (m_jump (.lab "search_account") ++ [])

/-- `asm/mpt/linked_list/linked_list.asm:956`, label `nonce_change@1.after`: that of `%read_accounts_linked_list`, expanded in `asm/journal/nonce_change.asm`. -/
def b_nonce_change_1_after : List I :=
  /- end %read_accounts_linked_list -/ DUP 1 :: (m_assert_nonzero0 ++ (m_mstore_trie_data ++ JUMP :: []))

/-- `asm/journal/code_change.asm:7`, label `revert_code_change`. -/
def b_revert_code_change : List I :=
  POP :: (m_journal_load_2 ++ /- %read_accounts_linked_list -/
    STK 1 [.e 0, .t (.lab "code_change@1.after")] /- (addr) -> (addr, code_change@1.after) -/ :: /- %addr_to_state_key -/
    /- %keccak256_word -/
    STK 1 [.t (.lit 0x700000000), .e 0, .t (.lit 20), .t (.lab "code_change@3.after_mstore"), .t (.lit 20), .t (.lit 20)] /- (word) -> (@SEGMENT_KERNEL_GENERAL, word, 20, code_change@3.after_mstore, 20, 20) -/ ::
    (m_jump (.lab "mstore_unpacking") ++ []))

/-- `asm/util/keccak.asm:43`, label `code_change@3.after_mstore`: that of `%keccak256_word`, expanded in `asm/journal/code_change.asm`. -/
def b_code_change_3_after_mstore : List I :=
  SUB :: KECCAK_GENERAL :: /- end %keccak256_word -/ /- end %addr_to_state_key -/ (m_jump (.lab "search_account") ++ [])

/-- `asm/mpt/linked_list/linked_list.asm:956`, label `code_change@1.after`: that of `%read_accounts_linked_list`, expanded in `asm/journal/code_change.asm`. -/
def b_code_change_1_after : List I :=
  /- end %read_accounts_linked_list -/ DUP 1 :: (m_assert_nonzero0 ++ (m_add_const (.lit 3) ++ (m_mstore_trie_data ++ JUMP :: [])))

/-- `asm/journal/balance_transfer.asm:15`, label `revert_balance_transfer`. -/
def b_revert_balance_transfer : List I :=
  POP :: (m_journal_load_3 ++ SWAP 1 :: /- %transfer_eth -/
    STK 3 [.e 0, .e 1, .e 2, .t (.lab "balance_transfer@1.after")] /- (from, to, amount) -> (from, to, amount, balance_transfer@1.after) -/ ::
    (m_jump (.lab "transfer_eth") ++ []))

/-- `asm/core/transfer.asm:23`, label `balance_transfer@1.after`: that of `%transfer_eth`, expanded in `asm/journal/balance_transfer.asm`. -/
def b_balance_transfer_1_after : List I :=
  /- end %transfer_eth -/ (m_jumpi (.lab "panic") ++ JUMP :: [])

/-- `asm/journal/account_touched.asm:7`, label `revert_account_touched`. -/
def b_revert_account_touched : List I :=
  POP :: (m_journal_load_1 ++ DUP 1 :: (m_eq_const (.lit 3) ++ (m_jumpi (.lab "ripemd@account_touched") ++
    (m_jump (.lab "remove_touched_addresses") ++ []))))

/-- `asm/journal/account_touched.asm:17`, label `ripemd@account_touched`. -/
def b_ripemd_account_touched : List I :=
  POP :: JUMP :: []

/-- `asm/journal/storage_change.asm:7`, label `revert_storage_change`. -/
def b_revert_storage_change : List I :=
  POP :: (m_journal_load_3 ++ DUP 3 :: ISZERO :: (m_jumpi (.lab "delete") ++ /- %insert_slot_with_value -/ /- %addr_to_state_key -/
    /- %keccak256_word -/
    STK 1 [.t (.lit 0x700000000), .e 0, .t (.lit 20), .t (.lab "storage_change@3.after_mstore"), .t (.lit 20), .t (.lit 20)] /- (word) -> (@SEGMENT_KERNEL_GENERAL, word, 20, storage_change@3.after_mstore, 20, 20) -/ ::
    (m_jump (.lab "mstore_unpacking") ++ [])))

/-- `asm/util/keccak.asm:43`, label `storage_change@3.after_mstore`: that of `%keccak256_word`, expanded in `asm/journal/storage_change.asm`. -/
def b_storage_change_3_after_mstore : List I :=
  SUB :: KECCAK_GENERAL :: /- end %keccak256_word -/ /- end %addr_to_state_key -/ SWAP 1 :: /- %slot_to_storage_key -/ /- %keccak256_word -/
    STK 1 [.t (.lit 0x700000000), .e 0, .t (.lit 32), .t (.lab "storage_change@5.after_mstore"), .t (.lit 32), .t (.lit 32)] /- (word) -> (@SEGMENT_KERNEL_GENERAL, word, 32, storage_change@5.after_mstore, 32, 32) -/ ::
    (m_jump (.lab "mstore_unpacking") ++ [])

/-- `asm/util/keccak.asm:43`, label `storage_change@5.after_mstore`: that of `%keccak256_word`, expanded in `asm/journal/storage_change.asm`. -/
def b_storage_change_5_after_mstore : List I :=
  SUB :: KECCAK_GENERAL :: /- end %keccak256_word -/ /- end %slot_to_storage_key -/
    STK 3 [.e 1, .e 0, .e 2, .t (.lab "storage_change@1.after")] /- (slot_key, addr_key, value) -> (addr_key, slot_key, value, storage_change@1.after) -/ ::
    (m_jump (.lab "insert_slot_with_value") ++ [])

/-- `asm/mpt/linked_list/linked_list.asm:629`, label `storage_change@1.after`: that of `%insert_slot_with_value`, expanded in `asm/journal/storage_change.asm`. -/
def b_storage_change_1_after : List I :=
  /- end %insert_slot_with_value -/ JUMP :: []

/-- `asm/journal/storage_change.asm:17`, label `delete`. -/
def b_delete : List I :=
  SWAP 2 :: POP :: /- %slot_to_storage_key -/ /- %keccak256_word -/
    STK 1 [.t (.lit 0x700000000), .e 0, .t (.lit 32), .t (.lab "storage_change@7.after_mstore"), .t (.lit 32), .t (.lit 32)] /- (word) -> (@SEGMENT_KERNEL_GENERAL, word, 32, storage_change@7.after_mstore, 32, 32) -/ ::
    (m_jump (.lab "mstore_unpacking") ++ [])

/-- `asm/util/keccak.asm:43`, label `storage_change@7.after_mstore`: that of `%keccak256_word`, expanded in `asm/journal/storage_change.asm`. -/
def b_storage_change_7_after_mstore : List I :=
  SUB :: KECCAK_GENERAL :: /- end %keccak256_word -/ /- end %slot_to_storage_key -/ SWAP 1 :: /- %addr_to_state_key -/ /- %keccak256_word -/
    STK 1 [.t (.lit 0x700000000), .e 0, .t (.lit 20), .t (.lab "storage_change@9.after_mstore"), .t (.lit 20), .t (.lit 20)] /- (word) -> (@SEGMENT_KERNEL_GENERAL, word, 20, storage_change@9.after_mstore, 20, 20) -/ ::
    (m_jump (.lab "mstore_unpacking") ++ [])

/-- `asm/util/keccak.asm:43`, label `storage_change@9.after_mstore`: that of `%keccak256_word`, expanded in `asm/journal/storage_change.asm`. -/
def b_storage_change_9_after_mstore : List I :=
  SUB :: KECCAK_GENERAL :: /- end %keccak256_word -/ /- end %addr_to_state_key -/ (m_jump (.lab "remove_slot") ++ [])

/-- `asm/journal/account_created.asm:15`, label `revert_account_finish`. -/
def b_revert_account_finish : List I :=
  /- %delete_account -/ STK 1 [.e 0, .t (.lab "account_created@1.after")] /- (address) -> (address, account_created@1.after) -/ ::
    (m_jump (.lab "delete_account") ++ [])

/-- `asm/journal/account_created.asm:8`, label `revert_account_created`. -/
def b_revert_account_created : List I :=
  POP :: (m_journal_load_2 ++ (m_jumpi (.lab "decrement_created_contracts_len") ++ b_revert_account_finish))

/-- `asm/mpt/delete/delete.asm:39`, label `account_created@1.after`: that of `%delete_account`, expanded in `asm/journal/account_created.asm`. -/
def b_account_created_1_after : List I :=
  /- end %delete_account -/ JUMP :: []

/-- `asm/journal/account_created.asm:19`, label `decrement_created_contracts_len`. -/
def b_decrement_created_contracts_len : List I :=
  (m_mload_global_metadata (.lit 0x50000002c) ++ (m_decrement ++ (m_mstore_global_metadata (.lit 0x50000002c) ++
    (m_jump (.lab "revert_account_finish") ++ []))))

/-- `asm/journal/log.asm:7`, label `revert_log`. -/
def b_revert_log : List I :=
  POP :: PUSH 1 :: (m_mload_global_metadata (.lit 0x500000027) ++ SUB :: (m_mstore_global_metadata (.lit 0x500000027) ++ (m_journal_load_2 ++
    (m_mstore_global_metadata (.lit 0x500000028) ++ (m_mstore_global_metadata (.lit 0x500000029) ++ JUMP :: [])))))

/-- `asm/journal/account_destroyed.asm:7`, label `revert_account_destroyed`. -/
def b_revert_account_destroyed : List I :=
  POP :: (m_journal_load_3 ++ PUSHL "revert_account_destroyed_contd" :: DUP 2 :: (m_jump (.lab "remove_selfdestruct_list") ++ []))

/-- `asm/journal/account_destroyed.asm:14`, label `revert_account_destroyed_contd`. -/
def b_revert_account_destroyed_contd : List I :=
  SWAP 1 :: /- %read_accounts_linked_list -/
    STK 1 [.e 0, .t (.lab "account_destroyed@1.after")] /- (addr) -> (addr, account_destroyed@1.after) -/ :: /- %addr_to_state_key -/
    /- %keccak256_word -/
    STK 1 [.t (.lit 0x700000000), .e 0, .t (.lit 20), .t (.lab "account_destroyed@3.after_mstore"), .t (.lit 20), .t (.lit 20)] /- (word) -> (@SEGMENT_KERNEL_GENERAL, word, 20, account_destroyed@3.after_mstore, 20, 20) -/ ::
    (m_jump (.lab "mstore_unpacking") ++ [])

/-- `asm/util/keccak.asm:43`, label `account_destroyed@3.after_mstore`: that of `%keccak256_word`, expanded in `asm/journal/account_destroyed.asm`. -/
def b_account_destroyed_3_after_mstore : List I :=
  SUB :: KECCAK_GENERAL :: /- end %keccak256_word -/ /- end %addr_to_state_key -/ (m_jump (.lab "search_account") ++ [])

/-- `asm/mpt/linked_list/linked_list.asm:956`, label `account_destroyed@1.after`: that of `%read_accounts_linked_list`, expanded in `asm/journal/account_destroyed.asm`. -/
def b_account_destroyed_1_after : List I :=
  /- end %read_accounts_linked_list -/ DUP 1 :: (m_assert_nonzero0 ++ (m_add_const (.lit 1) ++ DUP 3 :: DUP 2 :: (m_mload_trie_data ++ SUB ::
    SWAP 1 :: (m_mstore_trie_data ++ /- %read_accounts_linked_list -/
    STK 1 [.e 0, .t (.lab "account_destroyed@4.after")] /- (addr) -> (addr, account_destroyed@4.after) -/ :: /- %addr_to_state_key -/
    /- %keccak256_word -/
    STK 1 [.t (.lit 0x700000000), .e 0, .t (.lit 20), .t (.lab "account_destroyed@6.after_mstore"), .t (.lit 20), .t (.lit 20)] /- (word) -> (@SEGMENT_KERNEL_GENERAL, word, 20, account_destroyed@6.after_mstore, 20, 20) -/ ::
    (m_jump (.lab "mstore_unpacking") ++ [])))))

/-- `asm/util/keccak.asm:43`, label `account_destroyed@6.after_mstore`: that of `%keccak256_word`, expanded in `asm/journal/account_destroyed.asm`. -/
def b_account_destroyed_6_after_mstore : List I :=
  SUB :: KECCAK_GENERAL :: /- end %keccak256_word -/ /- end %addr_to_state_key -/ (m_jump (.lab "search_account") ++ [])

/-- `asm/mpt/linked_list/linked_list.asm:956`, label `account_destroyed@4.after`: that of `%read_accounts_linked_list`, expanded in `asm/journal/account_destroyed.asm`. -/
def b_account_destroyed_4_after : List I :=
  /- end %read_accounts_linked_list -/ DUP 1 :: (m_assert_nonzero0 ++ (m_increment ++ (m_mstore_trie_data ++ JUMP :: [])))

/-- `asm/journal/account_loaded.asm:9`, label `revert_account_loaded`. -/
def b_revert_account_loaded : List I :=
  POP :: (m_journal_load_1 ++ DUP 1 :: (m_eq_const (.lit 3) ++ (m_jumpi (.lab "ripemd@account_loaded") ++
    (m_jump (.lab "remove_accessed_addresses") ++ []))))

/-- `asm/journal/account_loaded.asm:19`, label `ripemd@account_loaded`. -/
def b_ripemd_account_loaded : List I :=
  POP :: JUMP :: []

/-- `asm/journal/storage_loaded.asm:7`, label `revert_storage_loaded`. -/
def b_revert_storage_loaded : List I :=
  POP :: (m_journal_load_2 ++ (m_jump (.lab "remove_accessed_storage_keys") ++ []))

/-- The labels of this part of the kernel and what follows them. -/
def undoCode : List (String × List I) :=
  [("revert_refund", b_revert_refund),
   ("revert_nonce_change", b_revert_nonce_change),
   ("nonce_change@3.after_mstore", b_nonce_change_3_after_mstore),
   ("nonce_change@1.after", b_nonce_change_1_after),
   ("revert_code_change", b_revert_code_change),
   ("code_change@3.after_mstore", b_code_change_3_after_mstore),
   ("code_change@1.after", b_code_change_1_after),
   ("revert_balance_transfer", b_revert_balance_transfer),
   ("balance_transfer@1.after", b_balance_transfer_1_after),
   ("revert_account_touched", b_revert_account_touched),
   ("ripemd@account_touched", b_ripemd_account_touched),
   ("revert_storage_change", b_revert_storage_change),
   ("storage_change@3.after_mstore", b_storage_change_3_after_mstore),
   ("storage_change@5.after_mstore", b_storage_change_5_after_mstore),
   ("storage_change@1.after", b_storage_change_1_after),
   ("delete", b_delete),
   ("storage_change@7.after_mstore", b_storage_change_7_after_mstore),
   ("storage_change@9.after_mstore", b_storage_change_9_after_mstore),
   ("revert_account_created", b_revert_account_created),
   ("revert_account_finish", b_revert_account_finish),
   ("account_created@1.after", b_account_created_1_after),
   ("decrement_created_contracts_len", b_decrement_created_contracts_len),
   ("revert_log", b_revert_log),
   ("revert_account_destroyed", b_revert_account_destroyed),
   ("revert_account_destroyed_contd", b_revert_account_destroyed_contd),
   ("account_destroyed@3.after_mstore", b_account_destroyed_3_after_mstore),
   ("account_destroyed@1.after", b_account_destroyed_1_after),
   ("account_destroyed@6.after_mstore", b_account_destroyed_6_after_mstore),
   ("account_destroyed@4.after", b_account_destroyed_4_after),
   ("revert_account_loaded", b_revert_account_loaded),
   ("ripemd@account_loaded", b_ripemd_account_loaded),
   ("revert_storage_loaded", b_revert_storage_loaded)]

end Verif.Kasm
