import Verif.Kasm.Code.Macros2

/-! Kernel code transcribed from `asm/core/create.asm`: macros, and for every label the items from there on. -/

namespace Verif.Kasm


/-- `asm/core/touched_addresses.asm:4`, label `create@16.after`: that of `%insert_touched_addresses`, expanded in `asm/core/create.asm`. -/
def b_create_16_after : List I :=
  /- end %insert_touched_addresses -/ DUP 1 :: (m_append_created_contracts ++ DUP 1 :: /- %mpt_read_state_trie -/
    STK 1 [.e 0, .t (.lab "create@17.after")] /- (addr) -> (addr, create@17.after) -/ :: (m_jump (.lab "mpt_read_state_trie") ++ []))

/-- `asm/mpt/read.asm:16`, label `create@17.after`: that of `%mpt_read_state_trie`, expanded in `asm/core/create.asm`. -/
def b_create_17_after : List I :=
  /- end %mpt_read_state_trie -/ DUP 1 :: ISZERO :: (m_jumpi (.lab "create@15.add_account") ++ DUP 1 :: (m_mload_trie_data ++
    (m_jumpi (.lab "create@15.error_collision") ++ (m_add_const (.lit 3) ++ DUP 1 :: (m_mload_trie_data ++
    (m_eq_const (.lit 0xc5d2460186f7233c927e7db2dcc703c0e500b653ca82273b7bfad8045d85a470) ++ ISZERO ::
    (m_jumpi (.lab "create@15.error_collision") ++ (m_sub_const (.lit 2) ++ (m_mload_trie_data ++ (m_jump (.lab "create@15.do_insert") ++ []))))))))))

/-- `asm/core/create_contract_account.asm:34`, label `create@15.do_insert`: that of `%create_contract_account`, expanded in `asm/core/create.asm`. -/
def b_create_15_do_insert : List I :=
  (m_get_trie_data_size ++ PUSH 0 :: DUP 4 :: (m_journal_add_nonce_change ++ PUSH 1 :: (m_append_to_trie_data ++ SWAP 1 ::
    (m_append_to_trie_data ++ PUSH 0 :: (m_append_to_trie_data ++
    PUSH 0xc5d2460186f7233c927e7db2dcc703c0e500b653ca82273b7bfad8045d85a470 /- @EMPTY_STRING_HASH -/ :: (m_append_to_trie_data ++ SWAP 1 ::
    /- %addr_to_state_key -/ /- %keccak256_word -/
    STK 1 [.t (.lit 0x700000000), .e 0, .t (.lit 20), .t (.lab "create@19.after_mstore"), .t (.lit 20), .t (.lit 20)] /- (word) -> (@SEGMENT_KERNEL_GENERAL, word, 20, create@19.after_mstore, 20, 20) -/ ::
    (m_jump (.lab "mstore_unpacking") ++ [])))))))

/-- `asm/core/create_contract_account.asm:29`, label `create@15.add_account`: that of `%create_contract_account`, expanded in `asm/core/create.asm`. -/
def b_create_15_add_account : List I :=
  DUP 2 :: PUSH 1 :: (m_journal_add_account_created ++ b_create_15_do_insert)

/-- `asm/util/keccak.asm:43`, label `create@19.after_mstore`: that of `%keccak256_word`, expanded in `asm/core/create.asm`. -/
def b_create_19_after_mstore : List I :=
  SUB :: KECCAK_GENERAL :: /- end %keccak256_word -/ /- end %addr_to_state_key -/ /- %mpt_insert_state_trie -/
    STK 2 [.e 0, .e 1, .t (.lab "create@20.after")] /- (key, value_ptr) -> (key, value_ptr, create@20.after) -/ ::
    (m_jump (.lab "mpt_insert_state_trie") ++ [])

/-- `asm/mpt/insert/insert_trie_specific.asm:15`, label `create@20.after`: that of `%mpt_insert_state_trie`, expanded in `asm/core/create.asm`. -/
def b_create_20_after : List I :=
  /- end %mpt_insert_state_trie -/ PUSH 0 :: (m_jump (.lab "create@15.end") ++ [])

/-- `asm/core/create_contract_account.asm:63`, label `create@15.end`: that of `%create_contract_account`, expanded in `asm/core/create.asm`. -/
def b_create_15_end : List I :=
  /- end %create_contract_account -/ (m_jumpi (.lab "create_collision") ++ /- %enter_new_ctx -/ DUP 1 :: SET_CONTEXT :: (m_checkpoint ++
    (m_increment_call_depth ++ (m_mload_context_metadata (.lit 0x600000005) ++ GET_CONTEXT :: /- %jumpdest_analysis -/
    STK 2 [.e 0, .e 1, .t (.lab "create@22.after")] /- (ctx, code_len) -> (ctx, code_len, create@22.after) -/ ::
    (m_jump (.lab "jumpdest_analysis") ++ [])))))

/-- `asm/core/create_contract_account.asm:60`, label `create@15.error_collision`: that of `%create_contract_account`, expanded in `asm/core/create.asm`. -/
def b_create_15_error_collision : List I :=
  STK 2 [.t (.lit 1)] /- (existing_account_ptr, address) -> (1) -/ :: b_create_15_end

/-- The labels of this part of the kernel and what follows them. -/
def runConstructorCode : List (String × List I) :=
  [("create@16.after", b_create_16_after),
   ("create@17.after", b_create_17_after),
   ("create@15.add_account", b_create_15_add_account),
   ("create@15.do_insert", b_create_15_do_insert),
   ("create@19.after_mstore", b_create_19_after_mstore),
   ("create@20.after", b_create_20_after),
   ("create@15.error_collision", b_create_15_error_collision),
   ("create@15.end", b_create_15_end)]

end Verif.Kasm
