import Verif.Kasm.Code.Macros2

/-! Kernel code transcribed from `asm/memory/transient_storage.asm`, `asm/journal/transient_storage_change.asm`: macros, and for every label the items from there on. -/

namespace Verif.Kasm


/-- `asm/memory/transient_storage.asm:57`, label `increment_and_loop`. -/
def b_increment_and_loop : List I :=
  (m_increment ++ (m_jump (.lab "search_transient_storage_loop") ++ []))

/-- `asm/memory/transient_storage.asm:34`, label `search_transient_storage_loop`. -/
def b_search_transient_storage_loop : List I :=
  STK 5 [.e 0, .e 1, .e 0, .e 1, .e 2, .e 3, .e 4] /- (i, len, addr, key, retdest) -> (i, len, i, len, addr, key, retdest) -/ :: EQ ::
    (m_jumpi (.lab "search_transient_storage_not_found") ++ DUP 1 :: MLOAD_GENERAL :: DUP 4 :: SUB ::
    (m_jumpi (.lab "increment_and_loop") ++ DUP 1 :: (m_increment ++ MLOAD_GENERAL :: DUP 5 :: EQ ::
    (m_jumpi (.lab "search_transient_storage_found") ++ b_increment_and_loop))))

/-- `asm/memory/transient_storage.asm:28`, label `search_transient_storage`. -/
def b_search_transient_storage : List I :=
  (m_mload_global_metadata (.lit 0x500000033) ++ PUSH 0x2400000000 /- @SEGMENT_TRANSIENT_STORAGE -/ :: b_search_transient_storage_loop)

/-- `asm/memory/transient_storage.asm:62`, label `search_transient_storage_not_found`. -/
def b_search_transient_storage_not_found : List I :=
  STK 5 [.e 4, .t (.lit 0), .e 0, .e 2, .t (.lit 0), .e 3] /- (i, len, addr, key, retdest) -> (retdest, 0, i, addr, 0, key) -/ :: JUMP :: []

/-- `asm/memory/transient_storage.asm:66`, label `search_transient_storage_found`. -/
def b_search_transient_storage_found : List I :=
  DUP 1 :: (m_add_const (.lit 2) ++ MLOAD_GENERAL ::
    STK 6 [.e 5, .t (.lit 1), .e 1, .e 3, .e 0, .e 4] /- (val, i, len, addr, key, retdest) -> (retdest, 1, i, addr, val, key) -/ :: JUMP :: [])

/-- `asm/memory/transient_storage.asm:79`, label `tload_current`. -/
def b_tload_current : List I :=
  (m_address ++ /- %search_transient_storage -/
    STK 2 [.e 0, .e 1, .t (.lab "transient_storage@1.after")] /- (addr, key) -> (addr, key, transient_storage@1.after) -/ ::
    (m_jump (.lab "search_transient_storage") ++ []))

/-- `asm/memory/transient_storage.asm:21`, label `transient_storage@1.after`: that of `%search_transient_storage`, expanded in `asm/memory/transient_storage.asm`. -/
def b_transient_storage_1_after : List I :=
  /- end %search_transient_storage -/ (m_jumpi (.lab "tload_found") ++
    STK 5 [.e 4, .t (.lit 0)] /- (pos, addr, val, slot, retdest) -> (retdest, 0) -/ :: JUMP :: [])

/-- `asm/memory/transient_storage.asm:88`, label `tload_found`. -/
def b_tload_found : List I :=
  STK 5 [.e 4, .e 2] /- (pos, addr, val, slot, retdest) -> (retdest, val) -/ :: JUMP :: []

/-- `asm/memory/transient_storage.asm:97`, label `sys_tload`. -/
def b_sys_tload : List I :=
  (m_charge_gas_const (.lit 100) ++ SWAP 1 :: /- %tload_current -/
    STK 1 [.e 0, .t (.lab "transient_storage@2.after")] /- (slot) -> (slot, transient_storage@2.after) -/ ::
    (m_jump (.lab "tload_current") ++ []))

/-- `asm/memory/transient_storage.asm:76`, label `transient_storage@2.after`: that of `%tload_current`, expanded in `asm/memory/transient_storage.asm`. -/
def b_transient_storage_2_after : List I :=
  /- end %tload_current -/ SWAP 1 :: EXIT_KERNEL :: []

/-- `asm/memory/transient_storage.asm:114`, label `sys_tstore`. -/
def b_sys_tstore : List I :=
  (m_check_static ++ (m_charge_gas_const (.lit 100) ++
    STK 3 [.e 1, .e 2, .e 0] /- (kexit_info, slot, value) -> (slot, value, kexit_info) -/ :: (m_address ++ /- %search_transient_storage -/
    STK 2 [.e 0, .e 1, .t (.lab "transient_storage@3.after")] /- (addr, key) -> (addr, key, transient_storage@3.after) -/ ::
    (m_jump (.lab "search_transient_storage") ++ []))))

/-- `asm/memory/transient_storage.asm:149`, label `add_to_journal`. -/
def b_add_to_journal : List I :=
  (m_journal_add_transient_storage_change ++ EXIT_KERNEL :: [])

/-- `asm/memory/transient_storage.asm:141`, label `sys_tstore_charge_gas`. -/
def b_sys_tstore_charge_gas : List I :=
  
    STK 5 [.e 3, .e 1, .e 0, .e 2, .e 1, .e 4] /- (addr, original_value, slot, value, kexit_info) -> (value, original_value, addr, slot, original_value, kexit_info) -/ ::
    EQ :: (m_jumpi (.lab "tstore_noop") ++ b_add_to_journal)

/-- `asm/memory/transient_storage.asm:21`, label `transient_storage@3.after`: that of `%search_transient_storage`, expanded in `asm/memory/transient_storage.asm`. -/
def b_transient_storage_3_after : List I :=
  /- end %search_transient_storage -/ POP :: DUP 1 :: DUP 3 :: MSTORE_GENERAL :: (m_increment ++ DUP 1 :: DUP 5 :: MSTORE_GENERAL ::
    (m_increment ++ DUP 1 :: DUP 6 :: MSTORE_GENERAL :: (m_mload_global_metadata (.lit 0x500000033) ++ DUP 2 :: GT ::
    (m_jumpi (.lab "new_transient_storage_len") ++ POP :: b_sys_tstore_charge_gas))))

/-- `asm/memory/transient_storage.asm:156`, label `new_transient_storage_len`. -/
def b_new_transient_storage_len : List I :=
  (m_increment ++ (m_mstore_global_metadata (.lit 0x500000033) ++ (m_jump (.lab "sys_tstore_charge_gas") ++ [])))

/-- `asm/memory/transient_storage.asm:165`, label `tstore_noop`. -/
def b_tstore_noop : List I :=
  (m_pop3 ++ EXIT_KERNEL :: [])

/-- `asm/journal/transient_storage_change.asm:7`, label `revert_transient_storage_change`. -/
def b_revert_transient_storage_change : List I :=
  POP :: (m_journal_load_3 ++ /- %search_transient_storage -/
    STK 2 [.e 0, .e 1, .t (.lab "transient_storage_change@1.after")] /- (addr, key) -> (addr, key, transient_storage_change@1.after) -/ ::
    (m_jump (.lab "search_transient_storage") ++ []))

/-- `asm/memory/transient_storage.asm:21`, label `transient_storage_change@1.after`: that of `%search_transient_storage`, expanded in `asm/journal/transient_storage_change.asm`. -/
def b_transient_storage_change_1_after : List I :=
  /- end %search_transient_storage -/ (m_assert_nonzero0 ++ (m_add_const (.lit 2) ++ DUP 5 :: MSTORE_GENERAL :: (m_pop4 ++ JUMP :: [])))

/-- The labels of this part of the kernel and what follows them. -/
def transientCode : List (String × List I) :=
  [("search_transient_storage", b_search_transient_storage),
   ("search_transient_storage_loop", b_search_transient_storage_loop),
   ("increment_and_loop", b_increment_and_loop),
   ("search_transient_storage_not_found", b_search_transient_storage_not_found),
   ("search_transient_storage_found", b_search_transient_storage_found),
   ("tload_current", b_tload_current),
   ("transient_storage@1.after", b_transient_storage_1_after),
   ("tload_found", b_tload_found),
   ("sys_tload", b_sys_tload),
   ("transient_storage@2.after", b_transient_storage_2_after),
   ("sys_tstore", b_sys_tstore),
   ("transient_storage@3.after", b_transient_storage_3_after),
   ("sys_tstore_charge_gas", b_sys_tstore_charge_gas),
   ("add_to_journal", b_add_to_journal),
   ("new_transient_storage_len", b_new_transient_storage_len),
   ("tstore_noop", b_tstore_noop),
   ("revert_transient_storage_change", b_revert_transient_storage_change),
   ("transient_storage_change@1.after", b_transient_storage_change_1_after)]

end Verif.Kasm
