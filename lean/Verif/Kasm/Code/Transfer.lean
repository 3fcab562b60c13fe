import Verif.Kasm.Code.Macros2

/-! Kernel code transcribed from `asm/core/transfer.asm`, `asm/balance.asm`, `asm/core/nonce.asm`: macros, and for every label the items from there on. -/

namespace Verif.Kasm


/-- `asm/core/transfer.asm:4`, label `transfer_eth`. -/
def b_transfer_eth : List I :=
  STK 4 [.e 0, .e 2, .e 1, .e 2, .e 3] /- (from, to, amount, retdest) -> (from, amount, to, amount, retdest) -/ :: /- %deduct_eth -/
    STK 2 [.e 0, .e 1, .t (.lab "transfer@1.after")] /- (addr, amount) -> (addr, amount, transfer@1.after) -/ ::
    (m_jump (.lab "deduct_eth") ++ [])

/-- `asm/core/transfer.asm:60`, label `transfer@1.after`: that of `%deduct_eth`, expanded in `asm/core/transfer.asm`. -/
def b_transfer_1_after : List I :=
  /- end %deduct_eth -/ (m_jumpi (.lab "transfer_eth_failure") ++ /- %add_eth -/
    STK 2 [.e 0, .e 1, .t (.lab "transfer@2.after")] /- (addr, amount) -> (addr, amount, transfer@2.after) -/ ::
    (m_jump (.lab "add_eth") ++ []))

/-- `asm/core/transfer.asm:115`, label `transfer@2.after`: that of `%add_eth`, expanded in `asm/core/transfer.asm`. -/
def b_transfer_2_after : List I :=
  /- end %add_eth -/ STK 1 [.e 0, .t (.lit 0)] /- (retdest) -> (retdest, 0) -/ :: JUMP :: []

/-- `asm/core/transfer.asm:15`, label `transfer_eth_failure`. -/
def b_transfer_eth_failure : List I :=
  STK 3 [.e 2, .t (.lit 1)] /- (to, amount, retdest) -> (retdest, 1) -/ :: JUMP :: []

/-- `asm/core/transfer.asm:29`, label `deduct_eth`. -/
def b_deduct_eth : List I :=
  DUP 1 :: /- %insert_touched_addresses -/ STK 1 [.e 0, .t (.lab "transfer@3.after")] /- (addr) -> (addr, transfer@3.after) -/ ::
    (m_jump (.lab "insert_touched_addresses") ++ [])

/-- `asm/core/touched_addresses.asm:4`, label `transfer@3.after`: that of `%insert_touched_addresses`, expanded in `asm/core/transfer.asm`. -/
def b_transfer_3_after : List I :=
  /- end %insert_touched_addresses -/ /- %mpt_read_state_trie -/
    STK 1 [.e 0, .t (.lab "transfer@4.after")] /- (addr) -> (addr, transfer@4.after) -/ :: (m_jump (.lab "mpt_read_state_trie") ++ [])

/-- `asm/mpt/read.asm:16`, label `transfer@4.after`: that of `%mpt_read_state_trie`, expanded in `asm/core/transfer.asm`. -/
def b_transfer_4_after : List I :=
  /- end %mpt_read_state_trie -/ DUP 1 :: ISZERO :: (m_jumpi (.lab "deduct_eth_no_such_account") ++ (m_add_const (.lit 1) ++ DUP 1 ::
    (m_mload_trie_data ++ DUP 1 :: DUP 4 :: GT :: (m_jumpi (.lab "deduct_eth_insufficient_balance") ++
    STK 4 [.e 0, .e 2, .e 1, .e 3, .t (.lit 0)] /- (balance, balance_ptr, amount, retdest) -> (balance, amount, balance_ptr, retdest, 0) -/ ::
    SUB :: SWAP 1 :: (m_mstore_trie_data ++ JUMP :: [])))))

/-- `asm/core/transfer.asm:49`, label `deduct_eth_no_such_account`. -/
def b_deduct_eth_no_such_account : List I :=
  STK 3 [.e 2, .t (.lit 1)] /- (account_ptr, amount, retdest) -> (retdest, 1) -/ :: JUMP :: []

/-- `asm/core/transfer.asm:52`, label `deduct_eth_insufficient_balance`. -/
def b_deduct_eth_insufficient_balance : List I :=
  STK 4 [.e 3, .t (.lit 1)] /- (balance, balance_ptr, amount, retdest) -> (retdest, 1) -/ :: JUMP :: []

/-- `asm/core/transfer.asm:65`, label `add_eth`. -/
def b_add_eth : List I :=
  DUP 1 :: /- %insert_touched_addresses -/ STK 1 [.e 0, .t (.lab "transfer@5.after")] /- (addr) -> (addr, transfer@5.after) -/ ::
    (m_jump (.lab "insert_touched_addresses") ++ [])

/-- `asm/core/touched_addresses.asm:4`, label `transfer@5.after`: that of `%insert_touched_addresses`, expanded in `asm/core/transfer.asm`. -/
def b_transfer_5_after : List I :=
  /- end %insert_touched_addresses -/ DUP 2 :: ISZERO :: (m_jumpi (.lab "add_eth_zero_amount") ++ DUP 1 :: /- %mpt_read_state_trie -/
    STK 1 [.e 0, .t (.lab "transfer@6.after")] /- (addr) -> (addr, transfer@6.after) -/ :: (m_jump (.lab "mpt_read_state_trie") ++ []))

/-- `asm/mpt/read.asm:16`, label `transfer@6.after`: that of `%mpt_read_state_trie`, expanded in `asm/core/transfer.asm`. -/
def b_transfer_6_after : List I :=
  /- end %mpt_read_state_trie -/ DUP 1 :: ISZERO :: (m_jumpi (.lab "add_eth_new_account") ++ (m_add_const (.lit 1) ++ DUP 1 ::
    (m_mload_trie_data ++ STK 4 [.e 3, .e 0, .e 1] /- (balance, balance_ptr, addr, amount) -> (amount, balance, balance_ptr) -/ :: ADD ::
    SWAP 1 :: (m_mstore_trie_data ++ JUMP :: []))))

/-- `asm/core/transfer.asm:86`, label `add_eth_new_account`. -/
def b_add_eth_new_account : List I :=
  POP :: DUP 1 :: PUSH 0 :: (m_journal_add_account_created ++ (m_get_trie_data_size ++ SWAP 2 :: PUSH 0 :: (m_append_to_trie_data ++
    (m_append_to_trie_data ++ PUSH 0 :: (m_append_to_trie_data ++
    PUSH 0xc5d2460186f7233c927e7db2dcc703c0e500b653ca82273b7bfad8045d85a470 /- @EMPTY_STRING_HASH -/ :: (m_append_to_trie_data ++
    /- %addr_to_state_key -/ /- %keccak256_word -/
    STK 1 [.t (.lit 0x700000000), .e 0, .t (.lit 20), .t (.lab "transfer@8.after_mstore"), .t (.lit 20), .t (.lit 20)] /- (word) -> (@SEGMENT_KERNEL_GENERAL, word, 20, transfer@8.after_mstore, 20, 20) -/ ::
    (m_jump (.lab "mstore_unpacking") ++ [])))))))

/-- `asm/util/keccak.asm:43`, label `transfer@8.after_mstore`: that of `%keccak256_word`, expanded in `asm/core/transfer.asm`. -/
def b_transfer_8_after_mstore : List I :=
  SUB :: KECCAK_GENERAL :: /- end %keccak256_word -/ /- end %addr_to_state_key -/ (m_jump (.lab "mpt_insert_state_trie") ++ [])

/-- `asm/core/transfer.asm:107`, label `add_eth_zero_amount`. -/
def b_add_eth_zero_amount : List I :=
  (m_pop2 ++ JUMP :: [])

/-- `asm/balance.asm:1`, label `sys_balance`. -/
def b_sys_balance : List I :=
  SWAP 1 :: (m_u256_to_addr ++ SWAP 1 :: DUP 2 :: /- %insert_accessed_addresses -/
    STK 1 [.e 0, .t (.lab "balance@1.after")] /- (addr) -> (addr, balance@1.after) -/ :: (m_jump (.lab "insert_accessed_addresses") ++ []))

/-- `asm/core/access_lists.asm:64`, label `balance@1.after`: that of `%insert_accessed_addresses`, expanded in `asm/balance.asm`. -/
def b_balance_1_after : List I :=
  /- end %insert_accessed_addresses -/ PUSH 2500 /- @GAS_COLDACCOUNTACCESS_MINUS_WARMACCESS -/ :: MUL :: PUSH 100 /- @GAS_WARMACCESS -/ ::
    ADD :: (m_charge_gas ++ SWAP 1 :: /- %balance -/
    STK 1 [.e 0, .t (.lab "balance@2.after")] /- (address) -> (address, balance@2.after) -/ :: (m_jump (.lab "balance") ++ []))

/-- `asm/balance.asm:25`, label `balance@2.after`: that of `%balance`, expanded in `asm/balance.asm`. -/
def b_balance_2_after : List I :=
  /- end %balance -/ SWAP 1 :: EXIT_KERNEL :: []

/-- `asm/balance.asm:28`, label `balance`. -/
def b_balance : List I :=
  /- %mpt_read_state_trie -/ STK 1 [.e 0, .t (.lab "balance@3.after")] /- (addr) -> (addr, balance@3.after) -/ ::
    (m_jump (.lab "mpt_read_state_trie") ++ [])

/-- `asm/mpt/read.asm:16`, label `balance@3.after`: that of `%mpt_read_state_trie`, expanded in `asm/balance.asm`. -/
def b_balance_3_after : List I :=
  /- end %mpt_read_state_trie -/ DUP 1 :: ISZERO :: (m_jumpi (.lab "retzero@balance") ++ (m_add_const (.lit 1) ++ (m_mload_trie_data ++
    SWAP 1 :: JUMP :: [])))

/-- `asm/balance.asm:39`, label `retzero@balance`. -/
def b_retzero_balance : List I :=
  STK 2 [.e 1, .t (.lit 0)] /- (account_ptr, retdest) -> (retdest, 0) -/ :: JUMP :: []

/-- `asm/balance.asm:43`, label `sys_selfbalance`. -/
def b_sys_selfbalance : List I :=
  (m_charge_gas_const (.lit 5) ++ /- %selfbalance -/ PUSHL "balance@4.after" :: (m_address ++ (m_jump (.lab "balance") ++ [])))

/-- `asm/balance.asm:55`, label `balance@4.after`: that of `%selfbalance`, expanded in `asm/balance.asm`. -/
def b_balance_4_after : List I :=
  /- end %selfbalance -/ SWAP 1 :: EXIT_KERNEL :: []

/-- `asm/core/nonce.asm:4`, label `nonce`. -/
def b_nonce : List I :=
  /- %mpt_read_state_trie -/ STK 1 [.e 0, .t (.lab "nonce@1.after")] /- (addr) -> (addr, nonce@1.after) -/ ::
    (m_jump (.lab "mpt_read_state_trie") ++ [])

/-- `asm/mpt/read.asm:16`, label `nonce@1.after`: that of `%mpt_read_state_trie`, expanded in `asm/core/nonce.asm`. -/
def b_nonce_1_after : List I :=
  /- end %mpt_read_state_trie -/ (m_mload_trie_data ++ SWAP 1 :: JUMP :: [])

/-- `asm/core/nonce.asm:23`, label `increment_nonce`. -/
def b_increment_nonce : List I :=
  DUP 1 :: /- %mpt_read_state_trie -/ STK 1 [.e 0, .t (.lab "nonce@2.after")] /- (addr) -> (addr, nonce@2.after) -/ ::
    (m_jump (.lab "mpt_read_state_trie") ++ [])

/-- `asm/mpt/read.asm:16`, label `nonce@2.after`: that of `%mpt_read_state_trie`, expanded in `asm/core/nonce.asm`. -/
def b_nonce_2_after : List I :=
  /- end %mpt_read_state_trie -/ DUP 1 :: ISZERO :: (m_jumpi (.lab "increment_nonce_no_such_account") ++ DUP 1 :: (m_mload_trie_data ++
    DUP 1 :: DUP 4 :: (m_journal_add_nonce_change ++ (m_increment ++ SWAP 1 :: (m_mstore_trie_data ++ POP :: JUMP :: [])))))

/-- `asm/core/nonce.asm:41`, label `increment_nonce_no_such_account`. -/
def b_increment_nonce_no_such_account : List I :=
  PANIC :: []

/-- The labels of this part of the kernel and what follows them. -/
def transferCode : List (String × List I) :=
  [("transfer_eth", b_transfer_eth),
   ("transfer@1.after", b_transfer_1_after),
   ("transfer@2.after", b_transfer_2_after),
   ("transfer_eth_failure", b_transfer_eth_failure),
   ("deduct_eth", b_deduct_eth),
   ("transfer@3.after", b_transfer_3_after),
   ("transfer@4.after", b_transfer_4_after),
   ("deduct_eth_no_such_account", b_deduct_eth_no_such_account),
   ("deduct_eth_insufficient_balance", b_deduct_eth_insufficient_balance),
   ("add_eth", b_add_eth),
   ("transfer@5.after", b_transfer_5_after),
   ("transfer@6.after", b_transfer_6_after),
   ("add_eth_new_account", b_add_eth_new_account),
   ("transfer@8.after_mstore", b_transfer_8_after_mstore),
   ("add_eth_zero_amount", b_add_eth_zero_amount),
   ("sys_balance", b_sys_balance),
   ("balance@1.after", b_balance_1_after),
   ("balance@2.after", b_balance_2_after),
   ("balance", b_balance),
   ("balance@3.after", b_balance_3_after),
   ("retzero@balance", b_retzero_balance),
   ("sys_selfbalance", b_sys_selfbalance),
   ("balance@4.after", b_balance_4_after),
   ("nonce", b_nonce),
   ("nonce@1.after", b_nonce_1_after),
   ("increment_nonce", b_increment_nonce),
   ("nonce@2.after", b_nonce_2_after),
   ("increment_nonce_no_such_account", b_increment_nonce_no_such_account)]

end Verif.Kasm
