import Verif.Kasm.Code.Macros2

/-! Kernel code transcribed from `asm/mpt/storage/storage_write.asm`, `asm/mpt/storage/storage_read.asm`: macros, and for every label the items from there on. -/

namespace Verif.Kasm


/-- `asm/mpt/storage/storage_write.asm:6`, label `sys_sstore`. -/
def b_sys_sstore : List I :=
  (m_check_static ++ DUP 1 :: (m_leftover_gas ++ (m_le_const (.lit 2300) ++ (m_jumpi (.lab "fault_exception") ++
    STK 3 [.e 1, .e 0, .e 1, .e 2] /- (kexit_info, slot, value) -> (slot, kexit_info, slot, value) -/ :: /- %sload_current -/
    STK 1 [.e 0, .t (.lab "storage_write@1.after")] /- (slot) -> (slot, storage_write@1.after) -/ :: (m_jump (.lab "sload_current") ++ [])))))

/-- `asm/mpt/storage/storage_read.asm:4`, label `storage_write@1.after`: that of `%sload_current`, expanded in `asm/mpt/storage/storage_write.asm`. -/
def b_storage_write_1_after : List I :=
  /- end %sload_current -/ (m_address ++
    STK 5 [.e 0, .e 3, .e 1, .e 2, .e 3, .e 4] /- (addr, current_value, kexit_info, slot, value) -> (addr, slot, current_value, kexit_info, slot, value) -/ ::
    /- %insert_accessed_storage_keys -/
    STK 2 [.e 0, .e 1, .t (.lab "storage_write@2.after")] /- (addr, key) -> (addr, key, storage_write@2.after) -/ ::
    (m_jump (.lab "insert_accessed_storage_keys") ++ []))

/-- `asm/core/access_lists.asm:215`, label `storage_write@2.after`: that of `%insert_accessed_storage_keys`, expanded in `asm/mpt/storage/storage_write.asm`. -/
def b_storage_write_2_after : List I :=
  /- end %insert_accessed_storage_keys -/ (m_jumpi (.lab "sstore_cold_access") ++ MLOAD_GENERAL :: PUSH 0 ::
    (m_jump (.lab "sstore_after_cold_access_check") ++ []))

/-- `asm/mpt/storage/storage_write.asm:31`, label `sstore_after_cold_access_check`. -/
def b_sstore_after_cold_access_check : List I :=
  
    STK 6 [.e 5, .e 2, .e 2, .e 1, .e 0, .e 1, .e 2, .e 3, .e 4, .e 5] /- (gas, original_value, current_value, kexit_info, slot, value) -> (value, current_value, current_value, original_value, gas, original_value, current_value, kexit_info, slot, value) -/ ::
    EQ :: SWAP 2 :: EQ :: ISZERO :: ADD :: (m_jumpi (.lab "sstore_warm") ++ DUP 2 :: ISZERO :: (m_mul_const (.lit 20000) ++ ADD :: DUP 2 ::
    ISZERO :: ISZERO :: (m_mul_const (.lit 2900) ++ ADD :: (m_jump (.lab "sstore_charge_gas") ++ []))))

/-- `asm/mpt/storage/storage_write.asm:23`, label `sstore_cold_access`. -/
def b_sstore_cold_access : List I :=
  DUP 2 :: MSTORE_GENERAL :: DUP 1 :: PUSH 2100 /- @GAS_COLDSLOAD -/ :: b_sstore_after_cold_access_check

/-- `asm/mpt/storage/storage_write.asm:57`, label `sstore_refund`. -/
def b_sstore_refund : List I :=
  
    STK 5 [.e 1, .e 2, .e 1, .e 2, .e 3, .e 4, .e 0] /- (kexit_info, current_value, value, original_value, slot) -> (current_value, value, current_value, value, original_value, slot, kexit_info) -/ ::
    EQ :: (m_jumpi (.lab "sstore_no_refund") ++
    STK 5 [.e 0, .e 2, .e 0, .e 1, .e 2, .e 3, .e 4] /- (current_value, value, original_value, slot, kexit_info) -> (current_value, original_value, current_value, value, original_value, slot, kexit_info) -/ ::
    EQ :: (m_jumpi (.lab "sstore_refund_original") ++
    STK 5 [.e 2, .e 0, .e 1, .e 2, .e 3, .e 4] /- (current_value, value, original_value, slot, kexit_info) -> (original_value, current_value, value, original_value, slot, kexit_info) -/ ::
    ISZERO :: (m_jumpi (.lab "sstore_dirty_reset") ++
    STK 5 [.e 0, .e 0, .e 1, .e 2, .e 3, .e 4] /- (current_value, value, original_value, slot, kexit_info) -> (current_value, current_value, value, original_value, slot, kexit_info) -/ ::
    ISZERO :: (m_jumpi (.lab "sstore_dirty_clear1") ++
    STK 5 [.e 1, .e 0, .e 1, .e 2, .e 3, .e 4] /- (current_value, value, original_value, slot, kexit_info) -> (value, current_value, value, original_value, slot, kexit_info) -/ ::
    ISZERO :: (m_jumpi (.lab "sstore_dirty_clear2") ++ (m_jump (.lab "sstore_dirty_reset") ++ []))))))

/-- `asm/mpt/storage/storage_write.asm:53`, label `sstore_charge_gas`. -/
def b_sstore_charge_gas : List I :=
  
    STK 6 [.e 0, .e 3, .e 2, .e 5, .e 1, .e 4] /- (gas, original_value, current_value, kexit_info, slot, value) -> (gas, kexit_info, current_value, value, original_value, slot) -/ ::
    (m_charge_gas ++ b_sstore_refund)

/-- `asm/mpt/storage/storage_write.asm:49`, label `sstore_warm`. -/
def b_sstore_warm : List I :=
  (m_add_const (.lit 100) ++ b_sstore_charge_gas)

/-- `asm/mpt/storage/storage_write.asm:70`, label `sstore_dirty_clear1`. -/
def b_sstore_dirty_clear1 : List I :=
  PUSH 4800 /- @REFUND_SCLEAR -/ :: PUSH 0 :: SUB :: (m_refund_gas ++ (m_jump (.lab "sstore_dirty_reset") ++ []))

/-- `asm/mpt/storage/storage_write.asm:77`, label `sstore_dirty_reset`. -/
def b_sstore_dirty_reset : List I :=
  
    STK 5 [.e 2, .e 1, .e 0, .e 1, .e 2, .e 3, .e 4] /- (current_value, value, original_value, slot, kexit_info) -> (original_value, value, current_value, value, original_value, slot, kexit_info) -/ ::
    EQ :: (m_jumpi (.lab "sstore_dirty_reset2") ++ (m_jump (.lab "sstore_no_refund") ++ []))

/-- `asm/mpt/storage/storage_write.asm:74`, label `sstore_dirty_clear2`. -/
def b_sstore_dirty_clear2 : List I :=
  PUSH 4800 /- @REFUND_SCLEAR -/ :: (m_refund_gas ++ b_sstore_dirty_reset)

/-- `asm/mpt/storage/storage_write.asm:81`, label `sstore_dirty_reset2`. -/
def b_sstore_dirty_reset2 : List I :=
  
    STK 5 [.e 2, .e 0, .e 1, .e 2, .e 3, .e 4] /- (current_value, value, original_value, slot, kexit_info) -> (original_value, current_value, value, original_value, slot, kexit_info) -/ ::
    ISZERO :: (m_jumpi (.lab "sstore_dirty_reset_sset") ++ PUSH 100 /- @GAS_WARMACCESS -/ :: PUSH 2900 /- @GAS_SRESET -/ :: SUB ::
    (m_refund_gas ++ (m_jump (.lab "sstore_no_refund") ++ [])))

/-- `asm/mpt/storage/storage_write.asm:86`, label `sstore_dirty_reset_sset`. -/
def b_sstore_dirty_reset_sset : List I :=
  PUSH 100 /- @GAS_WARMACCESS -/ :: PUSH 20000 /- @GAS_SSET -/ :: SUB :: (m_refund_gas ++ (m_jump (.lab "sstore_no_refund") ++ []))

/-- `asm/mpt/storage/storage_write.asm:90`, label `sstore_refund_original`. -/
def b_sstore_refund_original : List I :=
  
    STK 5 [.e 1, .e 0, .e 1, .e 2, .e 3, .e 4] /- (current_value, value, original_value, slot, kexit_info) -> (value, current_value, value, original_value, slot, kexit_info) -/ ::
    ISZERO :: (m_jumpi (.lab "sstore_sclear") ++ (m_jump (.lab "sstore_no_refund") ++ []))

/-- `asm/mpt/storage/storage_write.asm:94`, label `sstore_sclear`. -/
def b_sstore_sclear : List I :=
  PUSH 4800 /- @REFUND_SCLEAR -/ :: (m_refund_gas ++ (m_jump (.lab "sstore_no_refund") ++ []))

/-- `asm/mpt/storage/storage_write.asm:100`, label `sstore_after_refund`. -/
def b_sstore_after_refund : List I :=
  
    STK 4 [.e 3, .e 1, .e 1, .e 2, .e 3, .e 0] /- (kexit_info, current_value, slot, value) -> (value, current_value, current_value, slot, value, kexit_info) -/ ::
    EQ :: (m_jumpi (.lab "sstore_noop") ++ DUP 2 :: (m_address ++ (m_journal_add_storage_change ++ DUP 2 :: ISZERO ::
    (m_jumpi (.lab "sstore_delete") ++ (m_address ++ /- %insert_slot_with_value -/ /- %addr_to_state_key -/ /- %keccak256_word -/
    STK 1 [.t (.lit 0x700000000), .e 0, .t (.lit 20), .t (.lab "storage_write@5.after_mstore"), .t (.lit 20), .t (.lit 20)] /- (word) -> (@SEGMENT_KERNEL_GENERAL, word, 20, storage_write@5.after_mstore, 20, 20) -/ ::
    (m_jump (.lab "mstore_unpacking") ++ []))))))

/-- `asm/mpt/storage/storage_write.asm:98`, label `sstore_no_refund`. -/
def b_sstore_no_refund : List I :=
  
    STK 5 [.e 4, .e 0, .e 3, .e 1] /- (current_value, value, original_value, slot, kexit_info) -> (kexit_info, current_value, slot, value) -/ :: b_sstore_after_refund

/-- `asm/util/keccak.asm:43`, label `storage_write@5.after_mstore`: that of `%keccak256_word`, expanded in `asm/mpt/storage/storage_write.asm`. -/
def b_storage_write_5_after_mstore : List I :=
  SUB :: KECCAK_GENERAL :: /- end %keccak256_word -/ /- end %addr_to_state_key -/ SWAP 1 :: /- %slot_to_storage_key -/ /- %keccak256_word -/
    STK 1 [.t (.lit 0x700000000), .e 0, .t (.lit 32), .t (.lab "storage_write@7.after_mstore"), .t (.lit 32), .t (.lit 32)] /- (word) -> (@SEGMENT_KERNEL_GENERAL, word, 32, storage_write@7.after_mstore, 32, 32) -/ ::
    (m_jump (.lab "mstore_unpacking") ++ [])

/-- `asm/util/keccak.asm:43`, label `storage_write@7.after_mstore`: that of `%keccak256_word`, expanded in `asm/mpt/storage/storage_write.asm`. -/
def b_storage_write_7_after_mstore : List I :=
  SUB :: KECCAK_GENERAL :: /- end %keccak256_word -/ /- end %slot_to_storage_key -/
    STK 3 [.e 1, .e 0, .e 2, .t (.lab "storage_write@3.after")] /- (slot_key, addr_key, value) -> (addr_key, slot_key, value, storage_write@3.after) -/ ::
    (m_jump (.lab "insert_slot_with_value") ++ [])

/-- `asm/mpt/linked_list/linked_list.asm:629`, label `storage_write@3.after`: that of `%insert_slot_with_value`, expanded in `asm/mpt/storage/storage_write.asm`. -/
def b_storage_write_3_after : List I :=
  /- end %insert_slot_with_value -/ EXIT_KERNEL :: []

/-- `asm/mpt/storage/storage_write.asm:121`, label `sstore_noop`. -/
def b_sstore_noop : List I :=
  (m_pop3 ++ EXIT_KERNEL :: [])

/-- `asm/mpt/storage/storage_write.asm:127`, label `sstore_delete`. -/
def b_sstore_delete : List I :=
  (m_address ++ /- %addr_to_state_key -/ /- %keccak256_word -/
    STK 1 [.t (.lit 0x700000000), .e 0, .t (.lit 20), .t (.lab "storage_write@9.after_mstore"), .t (.lit 20), .t (.lit 20)] /- (word) -> (@SEGMENT_KERNEL_GENERAL, word, 20, storage_write@9.after_mstore, 20, 20) -/ ::
    (m_jump (.lab "mstore_unpacking") ++ []))

/-- `asm/util/keccak.asm:43`, label `storage_write@9.after_mstore`: that of `%keccak256_word`, expanded in `asm/mpt/storage/storage_write.asm`. -/
def b_storage_write_9_after_mstore : List I :=
  SUB :: KECCAK_GENERAL :: /- end %keccak256_word -/ /- end %addr_to_state_key -/ SWAP 2 :: POP :: /- %slot_to_storage_key -/
    /- %keccak256_word -/
    STK 1 [.t (.lit 0x700000000), .e 0, .t (.lit 32), .t (.lab "storage_write@11.after_mstore"), .t (.lit 32), .t (.lit 32)] /- (word) -> (@SEGMENT_KERNEL_GENERAL, word, 32, storage_write@11.after_mstore, 32, 32) -/ ::
    (m_jump (.lab "mstore_unpacking") ++ [])

/-- `asm/util/keccak.asm:43`, label `storage_write@11.after_mstore`: that of `%keccak256_word`, expanded in `asm/mpt/storage/storage_write.asm`. -/
def b_storage_write_11_after_mstore : List I :=
  SUB :: KECCAK_GENERAL :: /- end %keccak256_word -/ /- end %slot_to_storage_key -/ /- %remove_slot -/
    STK 2 [.e 1, .e 0, .t (.lab "storage_write@12.after")] /- (key, addr_key) -> (addr_key, key, storage_write@12.after) -/ ::
    (m_jump (.lab "remove_slot") ++ [])

/-- `asm/mpt/linked_list/linked_list.asm:859`, label `storage_write@12.after`: that of `%remove_slot`, expanded in `asm/mpt/storage/storage_write.asm`. -/
def b_storage_write_12_after : List I :=
  /- end %remove_slot -/ EXIT_KERNEL :: []

/-- `asm/mpt/storage/storage_read.asm:7`, label `sload_current`. -/
def b_sload_current : List I :=
  /- %read_storage_linked_list -/ /- %slot_to_storage_key -/ /- %keccak256_word -/
    STK 1 [.t (.lit 0x700000000), .e 0, .t (.lit 32), .t (.lab "storage_read@3.after_mstore"), .t (.lit 32), .t (.lit 32)] /- (word) -> (@SEGMENT_KERNEL_GENERAL, word, 32, storage_read@3.after_mstore, 32, 32) -/ ::
    (m_jump (.lab "mstore_unpacking") ++ [])

/-- `asm/util/keccak.asm:43`, label `storage_read@3.after_mstore`: that of `%keccak256_word`, expanded in `asm/mpt/storage/storage_read.asm`. -/
def b_storage_read_3_after_mstore : List I :=
  SUB :: KECCAK_GENERAL :: /- end %keccak256_word -/ /- end %slot_to_storage_key -/
    STK 1 [.e 0, .t (.lit 0), .t (.lab "storage_read@1.after")] /- (storage_key) -> (storage_key, 0, storage_read@1.after) -/ ::
    (m_address ++ /- %addr_to_state_key -/ /- %keccak256_word -/
    STK 1 [.t (.lit 0x700000000), .e 0, .t (.lit 20), .t (.lab "storage_read@5.after_mstore"), .t (.lit 20), .t (.lit 20)] /- (word) -> (@SEGMENT_KERNEL_GENERAL, word, 20, storage_read@5.after_mstore, 20, 20) -/ ::
    (m_jump (.lab "mstore_unpacking") ++ []))

/-- `asm/util/keccak.asm:43`, label `storage_read@5.after_mstore`: that of `%keccak256_word`, expanded in `asm/mpt/storage/storage_read.asm`. -/
def b_storage_read_5_after_mstore : List I :=
  SUB :: KECCAK_GENERAL :: /- end %keccak256_word -/ /- end %addr_to_state_key -/ (m_jump (.lab "search_slot") ++ [])

/-- `asm/mpt/linked_list/linked_list.asm:968`, label `storage_read@1.after`: that of `%read_storage_linked_list`, expanded in `asm/mpt/storage/storage_read.asm`. -/
def b_storage_read_1_after : List I :=
  /- end %read_storage_linked_list -/ SWAP 1 :: JUMP :: []

/-- `asm/mpt/storage/storage_read.asm:17`, label `sys_sload`. -/
def b_sys_sload : List I :=
  SWAP 1 :: DUP 1 :: (m_address ++ /- %insert_accessed_storage_keys -/
    STK 2 [.e 0, .e 1, .t (.lab "storage_read@6.after")] /- (addr, key) -> (addr, key, storage_read@6.after) -/ ::
    (m_jump (.lab "insert_accessed_storage_keys") ++ []))

/-- `asm/core/access_lists.asm:215`, label `storage_read@6.after`: that of `%insert_accessed_storage_keys`, expanded in `asm/mpt/storage/storage_read.asm`. -/
def b_storage_read_6_after : List I :=
  /- end %insert_accessed_storage_keys -/ DUP 1 :: (m_mul_const (.lit 2000) ++ (m_add_const (.lit 100) ++
    STK 5 [.e 0, .e 4, .e 1, .e 2, .e 3] /- (gas, cold_access, value_ptr, slot, kexit_info) -> (gas, kexit_info, cold_access, value_ptr, slot) -/ ::
    (m_charge_gas ++
    STK 4 [.e 3, .e 1, .e 2, .e 0] /- (kexit_info, cold_access, value_ptr, slot) -> (slot, cold_access, value_ptr, kexit_info) -/ ::
    /- %sload_current -/ STK 1 [.e 0, .t (.lab "storage_read@7.after")] /- (slot) -> (slot, storage_read@7.after) -/ ::
    (m_jump (.lab "sload_current") ++ []))))

/-- `asm/mpt/storage/storage_read.asm:4`, label `storage_read@7.after`: that of `%sload_current`, expanded in `asm/mpt/storage/storage_read.asm`. -/
def b_storage_read_7_after : List I :=
  /- end %sload_current -/ SWAP 1 :: (m_jumpi (.lab "sload_cold_access") ++
    STK 3 [.e 2, .e 0] /- (value, value_ptr, kexit_info) -> (kexit_info, value) -/ :: EXIT_KERNEL :: [])

/-- `asm/mpt/storage/storage_read.asm:39`, label `sload_cold_access`. -/
def b_sload_cold_access : List I :=
  STK 3 [.e 0, .e 1, .e 2, .e 0] /- (value, value_ptr, kexit_info) -> (value, value_ptr, kexit_info, value) -/ :: MSTORE_GENERAL ::
    EXIT_KERNEL :: []

/-- The labels of this part of the kernel and what follows them. -/
def storageCode : List (String × List I) :=
  [("sys_sstore", b_sys_sstore),
   ("storage_write@1.after", b_storage_write_1_after),
   ("storage_write@2.after", b_storage_write_2_after),
   ("sstore_cold_access", b_sstore_cold_access),
   ("sstore_after_cold_access_check", b_sstore_after_cold_access_check),
   ("sstore_warm", b_sstore_warm),
   ("sstore_charge_gas", b_sstore_charge_gas),
   ("sstore_refund", b_sstore_refund),
   ("sstore_dirty_clear1", b_sstore_dirty_clear1),
   ("sstore_dirty_clear2", b_sstore_dirty_clear2),
   ("sstore_dirty_reset", b_sstore_dirty_reset),
   ("sstore_dirty_reset2", b_sstore_dirty_reset2),
   ("sstore_dirty_reset_sset", b_sstore_dirty_reset_sset),
   ("sstore_refund_original", b_sstore_refund_original),
   ("sstore_sclear", b_sstore_sclear),
   ("sstore_no_refund", b_sstore_no_refund),
   ("sstore_after_refund", b_sstore_after_refund),
   ("storage_write@5.after_mstore", b_storage_write_5_after_mstore),
   ("storage_write@7.after_mstore", b_storage_write_7_after_mstore),
   ("storage_write@3.after", b_storage_write_3_after),
   ("sstore_noop", b_sstore_noop),
   ("sstore_delete", b_sstore_delete),
   ("storage_write@9.after_mstore", b_storage_write_9_after_mstore),
   ("storage_write@11.after_mstore", b_storage_write_11_after_mstore),
   ("storage_write@12.after", b_storage_write_12_after),
   ("sload_current", b_sload_current),
   ("storage_read@3.after_mstore", b_storage_read_3_after_mstore),
   ("storage_read@5.after_mstore", b_storage_read_5_after_mstore),
   ("storage_read@1.after", b_storage_read_1_after),
   ("sys_sload", b_sys_sload),
   ("storage_read@6.after", b_storage_read_6_after),
   ("storage_read@7.after", b_storage_read_7_after),
   ("sload_cold_access", b_sload_cold_access)]

end Verif.Kasm
