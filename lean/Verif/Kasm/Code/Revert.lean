import Verif.Kasm.Code.Macros2

/-! Kernel code transcribed from `asm/journal/revert.asm`: macros, and for every label the items from there on. -/

namespace Verif.Kasm


/-- `asm/journal/revert.asm:31`, label `while_loop`. -/
def b_while_loop : List I :=
  DUP 2 :: DUP 2 :: EQ :: (m_jumpi (.lab "revert_batch_done") ++ /- %revert -/ (m_decrement ++
    STK 1 [.e 0, .t (.lab "revert@1.after"), .e 0] /- (journal_size_m_1) -> (journal_size_m_1, revert@1.after, journal_size_m_1) -/ ::
    (m_mload_journal ++ DUP 1 :: (m_mload_journal_data ++ DUP 1 :: (m_eq_const (.lit 0) ++ (m_jumpi (.lab "revert_account_loaded") ++
    DUP 1 :: (m_eq_const (.lit 1) ++ (m_jumpi (.lab "revert_account_destroyed") ++ DUP 1 :: (m_eq_const (.lit 2) ++
    (m_jumpi (.lab "revert_account_touched") ++ DUP 1 :: (m_eq_const (.lit 3) ++ (m_jumpi (.lab "revert_balance_transfer") ++ DUP 1 ::
    (m_eq_const (.lit 4) ++ (m_jumpi (.lab "revert_nonce_change") ++ DUP 1 :: (m_eq_const (.lit 5) ++
    (m_jumpi (.lab "revert_storage_change") ++ DUP 1 :: (m_eq_const (.lit 6) ++ (m_jumpi (.lab "revert_storage_loaded") ++ DUP 1 ::
    (m_eq_const (.lit 7) ++ (m_jumpi (.lab "revert_code_change") ++ DUP 1 :: (m_eq_const (.lit 8) ++ (m_jumpi (.lab "revert_refund") ++
    DUP 1 :: (m_eq_const (.lit 9) ++ (m_jumpi (.lab "revert_account_created") ++ DUP 1 :: (m_eq_const (.lit 10) ++
    (m_jumpi (.lab "revert_log") ++ DUP 1 :: (m_eq_const (.lit 11) ++ (m_jumpi (.lab "revert_transient_storage_change") ++ PANIC :: []))))))))))))))))))))))))))))

/-- `asm/journal/revert.asm:26`, label `revert_batch`. -/
def b_revert_batch : List I :=
  (m_journal_size ++ DUP 2 :: DUP 2 :: LT :: (m_jumpi (.lab "panic") ++ b_while_loop))

/-- `asm/journal/revert.asm:22`, label `revert@1.after`: that of `%revert`, expanded in `asm/journal/revert.asm`. -/
def b_revert_1_after : List I :=
  /- end %revert -/ (m_jump (.lab "while_loop") ++ [])

/-- `asm/journal/revert.asm:39`, label `revert_batch_done`. -/
def b_revert_batch_done : List I :=
  (m_mstore_global_metadata (.lit 0x50000001f) ++ POP :: JUMP :: [])

/-- `asm/journal/revert.asm:44`, label `revert_one_checkpoint`. -/
def b_revert_one_checkpoint : List I :=
  DUP 1 :: ISZERO :: (m_jumpi (.lab "first_checkpoint") ++ (m_decrement ++ DUP 1 :: (m_mload_kernel (.lit 0x1d00000000) ++
    (m_jump (.lab "do_revert") ++ []))))

/-- `asm/journal/revert.asm:59`, label `do_revert`. -/
def b_do_revert : List I :=
  
    STK 3 [.e 0, .t (.lab "after_revert"), .e 1, .e 2] /- (target_size, current_checkpoints_m_1, retdest) -> (target_size, after_revert, current_checkpoints_m_1, retdest) -/ ::
    (m_jump (.lab "revert_batch") ++ [])

/-- `asm/journal/revert.asm:53`, label `first_checkpoint`. -/
def b_first_checkpoint : List I :=
  (m_decrement ++ PUSH 0 :: b_do_revert)

/-- `asm/journal/revert.asm:62`, label `after_revert`. -/
def b_after_revert : List I :=
  SWAP 1 :: JUMP :: []

/-- `asm/journal/revert.asm:75`, label `while`. -/
def b_while : List I :=
  DUP 2 :: DUP 2 :: EQ :: (m_jumpi (.lab "revert_checkpoint_done") ++
    STK 1 [.e 0, .t (.lab "while")] /- (current_checkpoint) -> (current_checkpoint, while) -/ :: (m_jump (.lab "revert_one_checkpoint") ++ []))

/-- `asm/journal/revert.asm:67`, label `revert_checkpoint`. -/
def b_revert_checkpoint : List I :=
  PUSH 1 :: (m_mload_context_metadata (.lit 0x60000000d) ++ SUB :: (m_mload_current (.lit 0x1f00000000) ++ (m_current_checkpoint ++ DUP 2 ::
    DUP 2 :: LT :: (m_jumpi (.lab "panic") ++ b_while))))

/-- `asm/journal/revert.asm:80`, label `revert_checkpoint_done`. -/
def b_revert_checkpoint_done : List I :=
  POP :: (m_mstore_global_metadata (.lit 0x500000021) ++ (m_pop_checkpoint ++ JUMP :: []))

/-- The labels of this part of the kernel and what follows them. -/
def revertCode : List (String × List I) :=
  [("revert_batch", b_revert_batch),
   ("while_loop", b_while_loop),
   ("revert@1.after", b_revert_1_after),
   ("revert_batch_done", b_revert_batch_done),
   ("revert_one_checkpoint", b_revert_one_checkpoint),
   ("first_checkpoint", b_first_checkpoint),
   ("do_revert", b_do_revert),
   ("after_revert", b_after_revert),
   ("revert_checkpoint", b_revert_checkpoint),
   ("while", b_while),
   ("revert_checkpoint_done", b_revert_checkpoint_done)]

end Verif.Kasm
