import Verif.Kasm.Code.Macros2

/-! Kernel code transcribed from `asm/core/terminate.asm`: macros, and for every label the items from there on. -/

namespace Verif.Kasm


/-- `asm/core/terminate.asm:280`, label `terminate@11.contract_just_created_loop`: that of `%contract_just_created`, expanded in `asm/core/terminate.asm`. -/
def b_terminate_11_contract_just_created_loop : List I :=
  STK 3 [.e 0, .e 1, .e 0, .e 1, .e 2] /- (i, nb_created_contracts, addr) -> (i, nb_created_contracts, i, nb_created_contracts, addr) -/ ::
    EQ :: (m_jumpi (.lab "terminate@11.contract_just_created_false") ++ DUP 1 :: (m_mload_kernel (.lit 0x2500000000) ++ DUP 4 :: EQ ::
    (m_jumpi (.lab "terminate@11.contract_just_created_true") ++ (m_increment ++
    (m_jump (.lab "terminate@11.contract_just_created_loop") ++ [])))))

/-- `asm/mpt/read.asm:16`, label `terminate@10.after`: that of `%mpt_read_state_trie`, expanded in `asm/core/terminate.asm`. -/
def b_terminate_10_after : List I :=
  /- end %mpt_read_state_trie -/ (m_add_const (.lit 1) ++ (m_mstore_trie_data ++ DUP 2 :: /- %contract_just_created -/
    (m_mload_global_metadata (.lit 0x50000002c) ++ PUSH 0 :: b_terminate_11_contract_just_created_loop)))

/-- `asm/core/terminate.asm:292`, label `terminate@11.contract_just_created_true`: that of `%contract_just_created`, expanded in `asm/core/terminate.asm`. -/
def b_terminate_11_contract_just_created_true : List I :=
  (m_pop3 ++ PUSH 1 :: (m_jump (.lab "terminate@11.after") ++ []))

/-- `asm/core/terminate.asm:303`, label `terminate@11.after`: that of `%contract_just_created`, expanded in `asm/core/terminate.asm`. -/
def b_terminate_11_after : List I :=
  /- end %contract_just_created -/ (m_jumpi (.lab "sys_selfdestruct_just_created") ++
    STK 4 [.e 2, .e 0, .e 1, .e 2, .e 0, .e 3] /- (balance, address, recipient, kexit_info) -> (recipient, balance, address, recipient, balance, kexit_info) -/ ::
    /- %add_eth -/ STK 2 [.e 0, .e 1, .t (.lab "terminate@12.after")] /- (addr, amount) -> (addr, amount, terminate@12.after) -/ ::
    (m_jump (.lab "add_eth") ++ []))

/-- `asm/core/terminate.asm:298`, label `terminate@11.contract_just_created_false`: that of `%contract_just_created`, expanded in `asm/core/terminate.asm`. -/
def b_terminate_11_contract_just_created_false : List I :=
  (m_pop3 ++ PUSH 0 :: b_terminate_11_after)

/-- `asm/core/terminate.asm:121`, label `sys_selfdestruct_journal_add_after_check`. -/
def b_sys_selfdestruct_journal_add_after_check : List I :=
  (m_journal_add_account_destroyed ++ (m_jump (.lab "sys_selfdestruct_exit") ++ []))

/-- `asm/core/terminate.asm:111`, label `sys_selfdestruct_journal_add`. -/
def b_sys_selfdestruct_journal_add : List I :=
  DUP 3 :: ISZERO :: (m_jumpi (.lab "skip_journal_entry_if_nonexistent") ++ b_sys_selfdestruct_journal_add_after_check)

/-- `asm/core/transfer.asm:115`, label `terminate@12.after`: that of `%add_eth`, expanded in `asm/core/terminate.asm`. -/
def b_terminate_12_after : List I :=
  /- end %add_eth -/ b_sys_selfdestruct_journal_add

/-- `asm/core/terminate.asm:126`, label `skip_journal_entry_if_nonexistent`. -/
def b_skip_journal_entry_if_nonexistent : List I :=
  DUP 2 :: /- %is_non_existent -/ /- %mpt_read_state_trie -/
    STK 1 [.e 0, .t (.lab "terminate@14.after")] /- (addr) -> (addr, terminate@14.after) -/ :: (m_jump (.lab "mpt_read_state_trie") ++ [])

/-- `asm/mpt/read.asm:16`, label `terminate@14.after`: that of `%mpt_read_state_trie`, expanded in `asm/core/terminate.asm`. -/
def b_terminate_14_after : List I :=
  /- end %mpt_read_state_trie -/ ISZERO :: /- end %is_non_existent -/ (m_jumpi (.lab "skip_journal_entry") ++
    (m_jump (.lab "sys_selfdestruct_journal_add_after_check") ++ []))

/-- `asm/core/terminate.asm:141`, label `sys_selfdestruct_exit`. -/
def b_sys_selfdestruct_exit : List I :=
  (m_leftover_gas ++ PUSH 1 :: (m_jump (.lab "terminate_common") ++ []))

/-- `asm/core/terminate.asm:137`, label `skip_journal_entry`. -/
def b_skip_journal_entry : List I :=
  (m_pop3 ++ b_sys_selfdestruct_exit)

/-- `asm/core/terminate.asm:148`, label `sys_selfdestruct_just_created`. -/
def b_sys_selfdestruct_just_created : List I :=
  
    STK 4 [.e 1, .e 2, .e 0, .e 1, .e 2, .e 0, .e 3] /- (balance, address, recipient, kexit_info) -> (address, recipient, balance, address, recipient, balance, kexit_info) -/ ::
    EQ :: ISZERO :: MUL :: DUP 3 :: /- %add_eth -/
    STK 2 [.e 0, .e 1, .t (.lab "terminate@15.after")] /- (addr, amount) -> (addr, amount, terminate@15.after) -/ ::
    (m_jump (.lab "add_eth") ++ [])

/-- `asm/core/transfer.asm:115`, label `terminate@15.after`: that of `%add_eth`, expanded in `asm/core/terminate.asm`. -/
def b_terminate_15_after : List I :=
  /- end %add_eth -/ DUP 1 :: (m_insert_selfdestruct_list ++ (m_jump (.lab "sys_selfdestruct_journal_add") ++ []))

/-- The labels of this part of the kernel and what follows them. -/
def terminateCode : List (String × List I) :=
  [("terminate@10.after", b_terminate_10_after),
   ("terminate@11.contract_just_created_loop", b_terminate_11_contract_just_created_loop),
   ("terminate@11.contract_just_created_true", b_terminate_11_contract_just_created_true),
   ("terminate@11.contract_just_created_false", b_terminate_11_contract_just_created_false),
   ("terminate@11.after", b_terminate_11_after),
   ("terminate@12.after", b_terminate_12_after),
   ("sys_selfdestruct_journal_add", b_sys_selfdestruct_journal_add),
   ("sys_selfdestruct_journal_add_after_check", b_sys_selfdestruct_journal_add_after_check),
   ("skip_journal_entry_if_nonexistent", b_skip_journal_entry_if_nonexistent),
   ("terminate@14.after", b_terminate_14_after),
   ("skip_journal_entry", b_skip_journal_entry),
   ("sys_selfdestruct_exit", b_sys_selfdestruct_exit),
   ("sys_selfdestruct_just_created", b_sys_selfdestruct_just_created),
   ("terminate@15.after", b_terminate_15_after)]

end Verif.Kasm
