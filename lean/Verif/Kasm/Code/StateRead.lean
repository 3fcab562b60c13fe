import Verif.Kasm.Code.Macros2

/-! Kernel code transcribed from `asm/mpt/read.asm`: macros, and for every label the items from there on. -/

namespace Verif.Kasm


/-- `asm/mpt/read.asm:4`, label `mpt_read_state_trie`. -/
def b_mpt_read_state_trie : List I :=
  /- %read_accounts_linked_list -/ STK 1 [.e 0, .t (.lab "read@1.after")] /- (addr) -> (addr, read@1.after) -/ :: /- %addr_to_state_key -/
    /- %keccak256_word -/
    STK 1 [.t (.lit 0x700000000), .e 0, .t (.lit 20), .t (.lab "read@3.after_mstore"), .t (.lit 20), .t (.lit 20)] /- (word) -> (@SEGMENT_KERNEL_GENERAL, word, 20, read@3.after_mstore, 20, 20) -/ ::
    (m_jump (.lab "mstore_unpacking") ++ [])

/-- `asm/util/keccak.asm:43`, label `read@3.after_mstore`: that of `%keccak256_word`, expanded in `asm/mpt/read.asm`. -/
def b_read_3_after_mstore : List I :=
  SUB :: KECCAK_GENERAL :: /- end %keccak256_word -/ /- end %addr_to_state_key -/ (m_jump (.lab "search_account") ++ [])

/-- `asm/mpt/linked_list/linked_list.asm:956`, label `read@1.after`: that of `%read_accounts_linked_list`, expanded in `asm/mpt/read.asm`. -/
def b_read_1_after : List I :=
  /- end %read_accounts_linked_list -/ SWAP 1 :: JUMP :: []

/-- The labels of this part of the kernel and what follows them. -/
def stateReadCode : List (String × List I) :=
  [("mpt_read_state_trie", b_mpt_read_state_trie),
   ("read@3.after_mstore", b_read_3_after_mstore),
   ("read@1.after", b_read_1_after)]

end Verif.Kasm
