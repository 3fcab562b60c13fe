import Verif.Kasm.Code.Macros2

/-! Kernel code transcribed from `asm/core/selfdestruct_list.asm`: macros, and for every label the items from there on. -/

namespace Verif.Kasm


/-- `asm/core/selfdestruct_list.asm:24`, label `remove_selfdestruct_list_loop`. -/
def b_remove_selfdestruct_list_loop : List I :=
  STK 4 [.e 0, .e 1, .e 0, .e 1, .e 2, .e 3] /- (i, len, addr, retdest) -> (i, len, i, len, addr, retdest) -/ :: EQ ::
    (m_jumpi (.lab "remove_selfdestruct_not_found") ++ DUP 1 :: MLOAD_GENERAL :: DUP 4 :: EQ ::
    (m_jumpi (.lab "remove_selfdestruct_list_found") ++ (m_increment ++ (m_jump (.lab "remove_selfdestruct_list_loop") ++ []))))

/-- `asm/core/selfdestruct_list.asm:18`, label `remove_selfdestruct_list`. -/
def b_remove_selfdestruct_list : List I :=
  (m_mload_global_metadata (.lit 0x50000001e) ++ PUSH 0x1600000000 /- @SEGMENT_SELFDESTRUCT_LIST -/ :: ADD ::
    PUSH 0x1600000000 /- @SEGMENT_SELFDESTRUCT_LIST -/ :: b_remove_selfdestruct_list_loop)

/-- `asm/core/selfdestruct_list.asm:37`, label `remove_selfdestruct_list_found`. -/
def b_remove_selfdestruct_list_found : List I :=
  STK 4 [.e 1, .t (.lit 1), .e 0, .e 3] /- (i, len, addr, retdest) -> (len, 1, i, retdest) -/ :: SUB ::
    PUSH 0x1600000000 /- @SEGMENT_SELFDESTRUCT_LIST -/ :: DUP 2 :: SUB :: (m_mstore_global_metadata (.lit 0x50000001e) ++ MLOAD_GENERAL ::
    MSTORE_GENERAL :: JUMP :: [])

/-- `asm/core/selfdestruct_list.asm:48`, label `remove_selfdestruct_not_found`. -/
def b_remove_selfdestruct_not_found : List I :=
  (m_pop3 ++ JUMP :: [])

/-- `asm/core/selfdestruct_list.asm:59`, label `delete_all_selfdestructed_addresses_loop`. -/
def b_delete_all_selfdestructed_addresses_loop : List I :=
  DUP 2 :: DUP 2 :: EQ :: (m_jumpi (.lab "delete_all_selfdestructed_addresses_done") ++ DUP 1 :: MLOAD_GENERAL :: DUP 1 ::
    /- %is_non_existent -/ /- %mpt_read_state_trie -/
    STK 1 [.e 0, .t (.lab "selfdestruct_list@2.after")] /- (addr) -> (addr, selfdestruct_list@2.after) -/ ::
    (m_jump (.lab "mpt_read_state_trie") ++ []))

/-- `asm/core/selfdestruct_list.asm:53`, label `delete_all_selfdestructed_addresses`. -/
def b_delete_all_selfdestructed_addresses : List I :=
  (m_mload_global_metadata (.lit 0x50000001e) ++ PUSH 0x1600000000 /- @SEGMENT_SELFDESTRUCT_LIST -/ :: ADD ::
    PUSH 0x1600000000 /- @SEGMENT_SELFDESTRUCT_LIST -/ :: b_delete_all_selfdestructed_addresses_loop)

/-- `asm/mpt/read.asm:16`, label `selfdestruct_list@2.after`: that of `%mpt_read_state_trie`, expanded in `asm/core/selfdestruct_list.asm`. -/
def b_selfdestruct_list_2_after : List I :=
  /- end %mpt_read_state_trie -/ ISZERO :: /- end %is_non_existent -/ ISZERO :: (m_jumpi (.lab "bingo@selfdestruct_list") ++ POP ::
    (m_increment ++ (m_jump (.lab "delete_all_selfdestructed_addresses_loop") ++ [])))

/-- `asm/core/selfdestruct_list.asm:69`, label `bingo@selfdestruct_list`. -/
def b_bingo_selfdestruct_list : List I :=
  /- %delete_account -/ STK 1 [.e 0, .t (.lab "selfdestruct_list@3.after")] /- (address) -> (address, selfdestruct_list@3.after) -/ ::
    (m_jump (.lab "delete_account") ++ [])

/-- `asm/mpt/delete/delete.asm:39`, label `selfdestruct_list@3.after`: that of `%delete_account`, expanded in `asm/core/selfdestruct_list.asm`. -/
def b_selfdestruct_list_3_after : List I :=
  /- end %delete_account -/ (m_increment ++ (m_jump (.lab "delete_all_selfdestructed_addresses_loop") ++ []))

/-- `asm/core/selfdestruct_list.asm:73`, label `delete_all_selfdestructed_addresses_done`. -/
def b_delete_all_selfdestructed_addresses_done : List I :=
  (m_pop2 ++ JUMP :: [])

/-- The labels of this part of the kernel and what follows them. -/
def selfdestructListCode : List (String × List I) :=
  [("remove_selfdestruct_list", b_remove_selfdestruct_list),
   ("remove_selfdestruct_list_loop", b_remove_selfdestruct_list_loop),
   ("remove_selfdestruct_list_found", b_remove_selfdestruct_list_found),
   ("remove_selfdestruct_not_found", b_remove_selfdestruct_not_found),
   ("delete_all_selfdestructed_addresses", b_delete_all_selfdestructed_addresses),
   ("delete_all_selfdestructed_addresses_loop", b_delete_all_selfdestructed_addresses_loop),
   ("selfdestruct_list@2.after", b_selfdestruct_list_2_after),
   ("bingo@selfdestruct_list", b_bingo_selfdestruct_list),
   ("selfdestruct_list@3.after", b_selfdestruct_list_3_after),
   ("delete_all_selfdestructed_addresses_done", b_delete_all_selfdestructed_addresses_done)]

end Verif.Kasm
