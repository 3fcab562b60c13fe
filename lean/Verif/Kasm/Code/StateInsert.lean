import Verif.Kasm.Code.Macros2

/-! Kernel code transcribed from `asm/mpt/insert/insert_trie_specific.asm`: macros, and for every label the items from there on. -/

namespace Verif.Kasm


/-- `asm/mpt/insert/insert_trie_specific.asm:7`, label `mpt_insert_state_trie`. -/
def b_mpt_insert_state_trie : List I :=
  /- %insert_account_with_overwrite -/
    STK 2 [.e 0, .e 1, .t (.lab "insert_trie_specific@1.after")] /- (addr_key, ptr) -> (addr_key, ptr, insert_trie_specific@1.after) -/ ::
    (m_jump (.lab "insert_account_with_overwrite") ++ [])

/-- `asm/mpt/linked_list/linked_list.asm:136`, label `insert_trie_specific@1.after`: that of `%insert_account_with_overwrite`, expanded in `asm/mpt/insert/insert_trie_specific.asm`. -/
def b_insert_trie_specific_1_after : List I :=
  /- end %insert_account_with_overwrite -/ JUMP :: []

/-- The labels of this part of the kernel and what follows them. -/
def stateInsertCode : List (String × List I) :=
  [("mpt_insert_state_trie", b_mpt_insert_state_trie),
   ("insert_trie_specific@1.after", b_insert_trie_specific_1_after)]

end Verif.Kasm
