import Verif.Kasm.Code.Macros2

/-! Kernel code transcribed from `asm/mpt/delete/delete.asm`: macros, and for every label the items from there on. -/

namespace Verif.Kasm


/-- `asm/mpt/delete/delete.asm:26`, label `delete_account`. -/
def b_delete_account : List I :=
  /- %addr_to_state_key -/ /- %keccak256_word -/
    STK 1 [.t (.lit 0x700000000), .e 0, .t (.lit 20), .t (.lab "delete@2.after_mstore"), .t (.lit 20), .t (.lit 20)] /- (word) -> (@SEGMENT_KERNEL_GENERAL, word, 20, delete@2.after_mstore, 20, 20) -/ ::
    (m_jump (.lab "mstore_unpacking") ++ [])

/-- `asm/util/keccak.asm:43`, label `delete@2.after_mstore`: that of `%keccak256_word`, expanded in `asm/mpt/delete/delete.asm`. -/
def b_delete_2_after_mstore : List I :=
  SUB :: KECCAK_GENERAL :: /- end %keccak256_word -/ /- end %addr_to_state_key -/ DUP 1 :: /- %remove_account_from_linked_list -/
    PUSHL "delete@3.after" :: SWAP 1 :: (m_jump (.lab "remove_account") ++ [])

/-- `asm/mpt/linked_list/linked_list.asm:311`, label `delete@3.after`: that of `%remove_account_from_linked_list`, expanded in `asm/mpt/delete/delete.asm`. -/
def b_delete_3_after : List I :=
  /- end %remove_account_from_linked_list -/ /- %remove_all_account_slots -/
    STK 1 [.e 0, .t (.lab "delete@4.after")] /- (addr_key) -> (addr_key, delete@4.after) -/ :: (m_jump (.lab "remove_all_account_slots") ++ [])

/-- `asm/mpt/linked_list/linked_list.asm:949`, label `delete@4.after`: that of `%remove_all_account_slots`, expanded in `asm/mpt/delete/delete.asm`. -/
def b_delete_4_after : List I :=
  /- end %remove_all_account_slots -/ JUMP :: []

/-- The labels of this part of the kernel and what follows them. -/
def deleteAccountCode : List (String × List I) :=
  [("delete_account", b_delete_account),
   ("delete@2.after_mstore", b_delete_2_after_mstore),
   ("delete@3.after", b_delete_3_after),
   ("delete@4.after", b_delete_4_after)]

end Verif.Kasm
