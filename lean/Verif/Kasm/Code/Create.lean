import Verif.Kasm.Code.Macros2

/-! Kernel code transcribed from `asm/core/create.asm`: macros, and for every label the items from there on. -/

namespace Verif.Kasm


/-- `asm/core/create.asm:142`, label `after_constructor`. -/
def b_after_constructor : List I :=
  DUP 1 :: ISZERO :: (m_jumpi (.lab "after_constructor_failed") ++ SWAP 2 :: POP :: PUSH 0x400000000 /- @SEGMENT_RETURNDATA -/ ::
    GET_CONTEXT :: (m_build_address_no_offset ++ MLOAD_GENERAL :: (m_eq_const (.lit 239) ++ (m_jumpi (.lab "create_first_byte_ef") ++
    (m_returndatasize ++ DUP 1 :: (m_gt_const (.lit 24576) ++ (m_jumpi (.lab "create_code_too_large") ++ (m_mul_const (.lit 200) ++
    DUP 2 :: DUP 2 :: GT :: (m_jumpi (.lab "create_oog") ++ SWAP 1 :: SUB :: (m_pop_checkpoint ++ (m_returndatasize ++
    PUSH 0x400000000 /- @SEGMENT_RETURNDATA -/ :: GET_CONTEXT :: (m_build_address_no_offset ++ KECCAK_GENERAL ::
    /- %observe_new_contract -/ STK 1 [.e 0, .t (.lab "create@23.after")] /- (codehash) -> (codehash, create@23.after) -/ ::
    (m_jump (.lab "observe_new_contract") ++ [])))))))))))))

/-- `asm/core/create.asm:297`, label `create@23.after`: that of `%observe_new_contract`, expanded in `asm/core/create.asm`. -/
def b_create_23_after : List I :=
  /- end %observe_new_contract -/ DUP 4 :: /- %set_codehash -/
    STK 2 [.e 0, .e 1, .t (.lab "create@24.after")] /- (addr, codehash) -> (addr, codehash, create@24.after) -/ ::
    (m_jump (.lab "set_codehash") ++ [])

/-- `asm/core/create.asm:185`, label `after_constructor_contd`. -/
def b_after_constructor_contd : List I :=
  (m_shl_const (.lit 192) ++ SWAP 2 :: MUL :: SWAP 2 :: SUB :: EXIT_KERNEL :: [])

/-- `asm/core/create.asm:253`, label `create@24.after`: that of `%set_codehash`, expanded in `asm/core/create.asm`. -/
def b_create_24_after : List I :=
  /- end %set_codehash -/ (m_mstore_context_metadata2 (.lit 0x600000003) (.lit 0) ++ b_after_constructor_contd)

/-- `asm/core/create.asm:199`, label `after_constructor_failed`. -/
def b_after_constructor_failed : List I :=
  /- %revert_checkpoint -/ PUSHL "create@25.after" :: (m_jump (.lab "revert_checkpoint") ++ [])

/-- `asm/journal/revert.asm:90`, label `create@25.after`: that of `%revert_checkpoint`, expanded in `asm/core/create.asm`. -/
def b_create_25_after : List I :=
  /- end %revert_checkpoint -/
    STK 5 [.e 1, .e 0, .e 3, .e 4] /- (success, leftover_gas, new_ctx, address, kexit_info) -> (leftover_gas, success, address, kexit_info) -/ ::
    (m_jump (.lab "after_constructor_contd") ++ [])

/-- `asm/core/create.asm:204`, label `create_insufficient_balance`. -/
def b_create_insufficient_balance : List I :=
  (m_mstore_context_metadata2 (.lit 0x600000003) (.lit 0) ++
    STK 5 [.e 4, .t (.lit 0)] /- (address, value, code_offset, code_len, kexit_info) -> (kexit_info, 0) -/ :: EXIT_KERNEL :: [])

/-- `asm/core/create.asm:209`, label `nonce_overflow`. -/
def b_nonce_overflow : List I :=
  (m_mstore_context_metadata2 (.lit 0x600000003) (.lit 0) ++
    STK 6 [.e 5, .t (.lit 0)] /- (sender, address, value, code_offset, code_len, kexit_info) -> (kexit_info, 0) -/ :: EXIT_KERNEL :: [])

/-- `asm/core/create.asm:215`, label `create_collision`. -/
def b_create_collision : List I :=
  /- %revert_checkpoint -/ PUSHL "create@26.after" :: (m_jump (.lab "revert_checkpoint") ++ [])

/-- `asm/journal/revert.asm:90`, label `create@26.after`: that of `%revert_checkpoint`, expanded in `asm/core/create.asm`. -/
def b_create_26_after : List I :=
  /- end %revert_checkpoint -/ (m_mstore_context_metadata2 (.lit 0x600000003) (.lit 0) ++ /- %prune_context -/
    STK 1 [.e 0, .t (.lab "create@27.after")] /- (stale_ctx) -> (stale_ctx, create@27.after) -/ :: (m_jump (.lab "prune_context") ++ []))

/-- `asm/core/util.asm:158`, label `create@27.after`: that of `%prune_context`, expanded in `asm/core/create.asm`. -/
def b_create_27_after : List I :=
  /- end %prune_context -/ STK 2 [.e 1, .t (.lit 0)] /- (address, kexit_info) -> (kexit_info, 0) -/ :: EXIT_KERNEL :: []

/-- `asm/core/create.asm:226`, label `create_first_byte_ef`. -/
def b_create_first_byte_ef : List I :=
  /- %revert_checkpoint -/ PUSHL "create@28.after" :: (m_jump (.lab "revert_checkpoint") ++ [])

/-- `asm/journal/revert.asm:90`, label `create@28.after`: that of `%revert_checkpoint`, expanded in `asm/core/create.asm`. -/
def b_create_28_after : List I :=
  /- end %revert_checkpoint -/ STK 4 [.e 3, .t (.lit 0)] /- (leftover_gas, success, address, kexit_info) -> (kexit_info, 0) -/ ::
    EXIT_KERNEL :: []

/-- `asm/core/create.asm:232`, label `create_code_too_large`. -/
def b_create_code_too_large : List I :=
  /- %revert_checkpoint -/ PUSHL "create@29.after" :: (m_jump (.lab "revert_checkpoint") ++ [])

/-- `asm/journal/revert.asm:90`, label `create@29.after`: that of `%revert_checkpoint`, expanded in `asm/core/create.asm`. -/
def b_create_29_after : List I :=
  /- end %revert_checkpoint -/ STK 5 [.e 4, .t (.lit 0)] /- (code_size, leftover_gas, success, address, kexit_info) -> (kexit_info, 0) -/ ::
    EXIT_KERNEL :: []

/-- `asm/core/create.asm:238`, label `create_oog`. -/
def b_create_oog : List I :=
  /- %revert_checkpoint -/ PUSHL "create@30.after" :: (m_jump (.lab "revert_checkpoint") ++ [])

/-- `asm/journal/revert.asm:90`, label `create@30.after`: that of `%revert_checkpoint`, expanded in `asm/core/create.asm`. -/
def b_create_30_after : List I :=
  /- end %revert_checkpoint -/ (m_mstore_context_metadata2 (.lit 0x600000003) (.lit 0) ++
    STK 5 [.e 4, .t (.lit 0)] /- (code_size_cost, leftover_gas, success, address, kexit_info) -> (kexit_info, 0) -/ :: EXIT_KERNEL :: [])

/-- `asm/core/create.asm:244`, label `create_too_deep`. -/
def b_create_too_deep : List I :=
  (m_mstore_context_metadata2 (.lit 0x600000003) (.lit 0) ++
    STK 5 [.e 4, .t (.lit 0)] /- (address, value, code_offset, code_len, kexit_info) -> (kexit_info, 0) -/ :: EXIT_KERNEL :: [])

/-- `asm/core/create.asm:259`, label `set_codehash`. -/
def b_set_codehash : List I :=
  DUP 1 :: /- %insert_touched_addresses -/ STK 1 [.e 0, .t (.lab "create@31.after")] /- (addr) -> (addr, create@31.after) -/ ::
    (m_jump (.lab "insert_touched_addresses") ++ [])

/-- `asm/core/touched_addresses.asm:4`, label `create@31.after`: that of `%insert_touched_addresses`, expanded in `asm/core/create.asm`. -/
def b_create_31_after : List I :=
  /- end %insert_touched_addresses -/ DUP 1 :: /- %mpt_read_state_trie -/
    STK 1 [.e 0, .t (.lab "create@32.after")] /- (addr) -> (addr, create@32.after) -/ :: (m_jump (.lab "mpt_read_state_trie") ++ [])

/-- `asm/mpt/read.asm:16`, label `create@32.after`: that of `%mpt_read_state_trie`, expanded in `asm/core/create.asm`. -/
def b_create_32_after : List I :=
  /- end %mpt_read_state_trie -/ (m_add_const (.lit 3) ++ DUP 1 :: (m_mload_trie_data ++ DUP 3 :: (m_journal_add_code_change ++
    STK 3 [.e 0, .e 2] /- (codehash_ptr, addr, codehash) -> (codehash_ptr, codehash) -/ :: (m_mstore_trie_data ++ JUMP :: []))))

/-- `asm/core/create.asm:290`, label `observe_new_contract`. -/
def b_observe_new_contract : List I :=
  SWAP 1 :: JUMP :: []

/-- The labels of this part of the kernel and what follows them. -/
def createCode : List (String × List I) :=
  [("after_constructor", b_after_constructor),
   ("create@23.after", b_create_23_after),
   ("create@24.after", b_create_24_after),
   ("after_constructor_contd", b_after_constructor_contd),
   ("after_constructor_failed", b_after_constructor_failed),
   ("create@25.after", b_create_25_after),
   ("create_insufficient_balance", b_create_insufficient_balance),
   ("nonce_overflow", b_nonce_overflow),
   ("create_collision", b_create_collision),
   ("create@26.after", b_create_26_after),
   ("create@27.after", b_create_27_after),
   ("create_first_byte_ef", b_create_first_byte_ef),
   ("create@28.after", b_create_28_after),
   ("create_code_too_large", b_create_code_too_large),
   ("create@29.after", b_create_29_after),
   ("create_oog", b_create_oog),
   ("create@30.after", b_create_30_after),
   ("create_too_deep", b_create_too_deep),
   ("set_codehash", b_set_codehash),
   ("create@31.after", b_create_31_after),
   ("create@32.after", b_create_32_after),
   ("observe_new_contract", b_observe_new_contract)]

end Verif.Kasm
