import Verif.Kasm.Code.Macros2

/-! Kernel code transcribed from `asm/core/call_gas.asm`: macros, and for every label the items from there on. -/

namespace Verif.Kasm


/-- `asm/core/call_gas.asm:28`, label `after_new_cost`. -/
def b_after_new_cost : List I :=
  
    STK 8 [.e 0, .e 3, .e 4, .e 5, .e 6, .e 7] /- (Cextra, is_call_or_staticcall, is_call_or_callcode, address, gas, kexit_info, value, retdest) -> (Cextra, address, gas, kexit_info, value, retdest) -/ ::
    DUP 4 :: (m_leftover_gas ++ DUP 2 :: DUP 2 :: LT :: DUP 5 :: DUP 2 :: MUL :: SWAP 1 :: (m_not_bit ++ DUP 4 :: DUP 4 :: SUB ::
    (m_all_but_one_64th ++ DUP 7 :: (m_min ++ MUL :: ADD ::
    STK 3 [.e 2, .e 0, .e 0] /- (Cgascap, leftover_gas, Cextra) -> (Cextra, Cgascap, Cgascap) -/ :: ADD ::
    STK 6 [.e 0, .e 4, .e 1, .e 2, .e 3, .e 5] /- (C_call, Cgascap, address, gas, kexit_info, value) -> (C_call, kexit_info, Cgascap, address, gas, value) -/ ::
    (m_charge_gas ++
    STK 5 [.e 1, .e 2, .e 3, .e 0, .e 4] /- (kexit_info, Cgascap, address, gas, value) -> (Cgascap, address, gas, kexit_info, value) -/ ::
    DUP 5 :: ISZERO :: (m_not_bit ++ (m_mul_const (.lit 2300) ++ ADD ::
    STK 6 [.e 5, .e 3, .e 0, .e 1, .e 4] /- (C_callgas, address, gas, kexit_info, value, retdest) -> (retdest, kexit_info, C_callgas, address, value) -/ ::
    JUMP :: [])))))))

/-- `asm/core/call_gas.asm:24`, label `after_xfer_cost`. -/
def b_after_xfer_cost : List I :=
  DUP 2 :: (m_jumpi (.lab "new_cost") ++ b_after_new_cost)

/-- `asm/core/call_gas.asm:18`, label `call_charge_gas_contd`. -/
def b_call_charge_gas_contd : List I :=
  PUSH 100 /- @GAS_WARMACCESS -/ :: DUP 3 :: (m_jumpi (.lab "xfer_cost") ++ b_after_xfer_cost)

/-- `asm/core/call_gas.asm:11`, label `call_charge_gas`. -/
def b_call_charge_gas : List I :=
  SWAP 2 :: (m_jumpi (.lab "charge_cold_access_gas") ++ b_call_charge_gas_contd)

/-- `asm/core/call_gas.asm:65`, label `xfer_cost`. -/
def b_xfer_cost : List I :=
  DUP 7 :: (m_jumpi (.lab "xfer_cost_nonzero") ++ (m_jump (.lab "after_xfer_cost") ++ []))

/-- `asm/core/call_gas.asm:72`, label `xfer_cost_nonzero`. -/
def b_xfer_cost_nonzero : List I :=
  SWAP 5 :: PUSH 9000 /- @GAS_CALLVALUE -/ :: (m_charge_gas ++ SWAP 5 :: (m_jump (.lab "after_xfer_cost") ++ []))

/-- `asm/core/call_gas.asm:84`, label `new_cost`. -/
def b_new_cost : List I :=
  DUP 7 :: (m_jumpi (.lab "new_cost_transfers_value") ++ (m_jump (.lab "after_new_cost") ++ []))

/-- `asm/core/call_gas.asm:91`, label `new_cost_transfers_value`. -/
def b_new_cost_transfers_value : List I :=
  DUP 4 :: /- %is_dead -/ DUP 1 :: /- %is_non_existent -/ /- %mpt_read_state_trie -/
    STK 1 [.e 0, .t (.lab "call_gas@3.after")] /- (addr) -> (addr, call_gas@3.after) -/ :: (m_jump (.lab "mpt_read_state_trie") ++ [])

/-- `asm/mpt/read.asm:16`, label `call_gas@3.after`: that of `%mpt_read_state_trie`, expanded in `asm/core/call_gas.asm`. -/
def b_call_gas_3_after : List I :=
  /- end %mpt_read_state_trie -/ ISZERO :: /- end %is_non_existent -/ SWAP 1 :: /- %is_empty -/ /- %mpt_read_state_trie -/
    STK 1 [.e 0, .t (.lab "call_gas@5.after")] /- (addr) -> (addr, call_gas@5.after) -/ :: (m_jump (.lab "mpt_read_state_trie") ++ [])

/-- `asm/mpt/read.asm:16`, label `call_gas@5.after`: that of `%mpt_read_state_trie`, expanded in `asm/core/call_gas.asm`. -/
def b_call_gas_5_after : List I :=
  /- end %mpt_read_state_trie -/ DUP 1 :: ISZERO :: (m_jumpi (.lab "call_gas@4.false") ++ DUP 1 :: (m_mload_trie_data ++ ISZERO ::
    (m_not_bit ++ (m_jumpi (.lab "call_gas@4.false") ++ (m_increment ++ DUP 1 :: (m_mload_trie_data ++ ISZERO :: (m_not_bit ++
    (m_jumpi (.lab "call_gas@4.false") ++ (m_add_const (.lit 2) ++ (m_mload_trie_data ++
    PUSH 0xc5d2460186f7233c927e7db2dcc703c0e500b653ca82273b7bfad8045d85a470 /- @EMPTY_STRING_HASH -/ :: EQ ::
    (m_jump (.lab "call_gas@4.after") ++ [])))))))))))

/-- `asm/core/util.asm:85`, label `call_gas@4.after`: that of `%is_empty`, expanded in `asm/core/call_gas.asm`. -/
def b_call_gas_4_after : List I :=
  /- end %is_empty -/ ADD :: /- end %is_dead -/ (m_jumpi (.lab "new_cost_nonzero") ++ (m_jump (.lab "after_new_cost") ++ []))

/-- `asm/core/util.asm:81`, label `call_gas@4.false`: that of `%is_empty`, expanded in `asm/core/call_gas.asm`. -/
def b_call_gas_4_false : List I :=
  POP :: PUSH 0 :: b_call_gas_4_after

/-- `asm/core/call_gas.asm:97`, label `new_cost_nonzero`. -/
def b_new_cost_nonzero : List I :=
  (m_add_const (.lit 25000) ++ (m_jump (.lab "after_new_cost") ++ []))

/-- `asm/core/call_gas.asm:102`, label `charge_cold_access_gas`. -/
def b_charge_cold_access_gas : List I :=
  SWAP 4 :: PUSH 2500 /- @GAS_COLDACCOUNTACCESS_MINUS_WARMACCESS -/ :: (m_charge_gas ++ SWAP 4 :: (m_jump (.lab "call_charge_gas_contd") ++ []))

/-- The labels of this part of the kernel and what follows them. -/
def callGasCode : List (String × List I) :=
  [("call_charge_gas", b_call_charge_gas),
   ("call_charge_gas_contd", b_call_charge_gas_contd),
   ("after_xfer_cost", b_after_xfer_cost),
   ("after_new_cost", b_after_new_cost),
   ("xfer_cost", b_xfer_cost),
   ("xfer_cost_nonzero", b_xfer_cost_nonzero),
   ("new_cost", b_new_cost),
   ("new_cost_transfers_value", b_new_cost_transfers_value),
   ("call_gas@3.after", b_call_gas_3_after),
   ("call_gas@5.after", b_call_gas_5_after),
   ("call_gas@4.false", b_call_gas_4_false),
   ("call_gas@4.after", b_call_gas_4_after),
   ("new_cost_nonzero", b_new_cost_nonzero),
   ("charge_cold_access_gas", b_charge_cold_access_gas)]

end Verif.Kasm
