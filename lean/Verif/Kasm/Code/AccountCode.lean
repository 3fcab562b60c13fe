import Verif.Kasm.Code.Macros2

/-! Kernel code transcribed from `asm/account_code.asm`: macros, and for every label the items from there on. -/

namespace Verif.Kasm


/-- `asm/account_code.asm:25`, label `extcodehash`. -/
def b_extcodehash : List I :=
  /- %mpt_read_state_trie -/ STK 1 [.e 0, .t (.lab "account_code@8.after")] /- (addr) -> (addr, account_code@8.after) -/ ::
    (m_jump (.lab "mpt_read_state_trie") ++ [])

/-- `asm/mpt/read.asm:16`, label `account_code@8.after`: that of `%mpt_read_state_trie`, expanded in `asm/account_code.asm`. -/
def b_account_code_8_after : List I :=
  /- end %mpt_read_state_trie -/ DUP 1 :: ISZERO :: (m_jumpi (.lab "retzero@account_code") ++ (m_add_const (.lit 3) ++ (m_mload_trie_data ++
    SWAP 1 :: JUMP :: [])))

/-- `asm/account_code.asm:35`, label `retzero@account_code`. -/
def b_retzero_account_code : List I :=
  STK 2 [.e 1, .t (.lit 0)] /- (account_ptr, retdest) -> (retdest, 0) -/ :: JUMP :: []

/-- The labels of this part of the kernel and what follows them. -/
def accountCodeCode : List (String × List I) :=
  [("extcodehash", b_extcodehash),
   ("account_code@8.after", b_account_code_8_after),
   ("retzero@account_code", b_retzero_account_code)]

end Verif.Kasm
