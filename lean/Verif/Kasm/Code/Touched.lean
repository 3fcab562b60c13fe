import Verif.Kasm.Code.Macros2

/-! Kernel code transcribed from `asm/core/touched_addresses.asm`: macros, and for every label the items from there on. -/

namespace Verif.Kasm


/-- `asm/core/touched_addresses.asm:20`, label `insert_touched_addresses_loop`. -/
def b_insert_touched_addresses_loop : List I :=
  STK 4 [.e 0, .e 1, .e 0, .e 1, .e 2, .e 3] /- (i, len, addr, retdest) -> (i, len, i, len, addr, retdest) -/ :: EQ ::
    (m_jumpi (.lab "insert_address") ++ DUP 1 :: MLOAD_GENERAL :: DUP 4 :: EQ :: (m_jumpi (.lab "insert_touched_addresses_found") ++
    (m_increment ++ (m_jump (.lab "insert_touched_addresses_loop") ++ []))))

/-- `asm/core/touched_addresses.asm:14`, label `insert_touched_addresses`. -/
def b_insert_touched_addresses : List I :=
  (m_mload_global_metadata (.lit 0x500000022) ++ PUSH 0x1e00000000 /- @SEGMENT_TOUCHED_ADDRESSES -/ :: ADD ::
    PUSH 0x1e00000000 /- @SEGMENT_TOUCHED_ADDRESSES -/ :: b_insert_touched_addresses_loop)

/-- `asm/core/touched_addresses.asm:34`, label `insert_address`. -/
def b_insert_address : List I :=
  
    STK 4 [.e 0, .e 2, .e 1, .t (.lit 0x1e00000000), .e 3] /- (i, len, addr, retdest) -> (i, addr, len, @SEGMENT_TOUCHED_ADDRESSES, retdest) -/ ::
    DUP 2 :: (m_journal_add_account_touched ++ (m_swap_mstore ++ SUB :: (m_increment ++ (m_mstore_global_metadata (.lit 0x500000022) ++
    JUMP :: []))))

/-- `asm/core/touched_addresses.asm:44`, label `insert_touched_addresses_found`. -/
def b_insert_touched_addresses_found : List I :=
  STK 4 [.e 3] /- (i, len, addr, retdest) -> (retdest) -/ :: JUMP :: []

/-- `asm/core/touched_addresses.asm:56`, label `remove_touched_addresses_loop`. -/
def b_remove_touched_addresses_loop : List I :=
  STK 4 [.e 0, .e 1, .e 0, .e 1, .e 2, .e 3] /- (i, len, addr, retdest) -> (i, len, i, len, addr, retdest) -/ :: EQ ::
    (m_jumpi (.lab "panic") ++ DUP 1 :: MLOAD_GENERAL :: DUP 4 :: EQ :: (m_jumpi (.lab "remove_touched_addresses_found") ++ (m_increment ++
    (m_jump (.lab "remove_touched_addresses_loop") ++ []))))

/-- `asm/core/touched_addresses.asm:50`, label `remove_touched_addresses`. -/
def b_remove_touched_addresses : List I :=
  (m_mload_global_metadata (.lit 0x500000022) ++ PUSH 0x1e00000000 /- @SEGMENT_TOUCHED_ADDRESSES -/ :: ADD ::
    PUSH 0x1e00000000 /- @SEGMENT_TOUCHED_ADDRESSES -/ :: b_remove_touched_addresses_loop)

/-- `asm/core/touched_addresses.asm:69`, label `remove_touched_addresses_found`. -/
def b_remove_touched_addresses_found : List I :=
  STK 4 [.e 1, .t (.lit 1), .e 0, .e 3] /- (i, len, addr, retdest) -> (len, 1, i, retdest) -/ :: SUB ::
    PUSH 0x1e00000000 /- @SEGMENT_TOUCHED_ADDRESSES -/ :: DUP 2 :: SUB :: (m_mstore_global_metadata (.lit 0x500000022) ++ MLOAD_GENERAL ::
    MSTORE_GENERAL :: JUMP :: [])

/-- `asm/core/touched_addresses.asm:88`, label `delete_all_touched_addresses_loop`. -/
def b_delete_all_touched_addresses_loop : List I :=
  DUP 2 :: DUP 2 :: EQ :: (m_jumpi (.lab "delete_all_touched_addresses_done") ++ DUP 1 :: MLOAD_GENERAL :: DUP 1 :: /- %is_empty -/
    /- %mpt_read_state_trie -/ STK 1 [.e 0, .t (.lab "touched_addresses@2.after")] /- (addr) -> (addr, touched_addresses@2.after) -/ ::
    (m_jump (.lab "mpt_read_state_trie") ++ []))

/-- `asm/core/touched_addresses.asm:82`, label `delete_all_touched_addresses`. -/
def b_delete_all_touched_addresses : List I :=
  (m_mload_global_metadata (.lit 0x500000022) ++ PUSH 0x1e00000000 /- @SEGMENT_TOUCHED_ADDRESSES -/ :: ADD ::
    PUSH 0x1e00000000 /- @SEGMENT_TOUCHED_ADDRESSES -/ :: b_delete_all_touched_addresses_loop)

/-- `asm/mpt/read.asm:16`, label `touched_addresses@2.after`: that of `%mpt_read_state_trie`, expanded in `asm/core/touched_addresses.asm`. -/
def b_touched_addresses_2_after : List I :=
  /- end %mpt_read_state_trie -/ DUP 1 :: ISZERO :: (m_jumpi (.lab "touched_addresses@1.false") ++ DUP 1 :: (m_mload_trie_data ++ ISZERO ::
    (m_not_bit ++ (m_jumpi (.lab "touched_addresses@1.false") ++ (m_increment ++ DUP 1 :: (m_mload_trie_data ++ ISZERO :: (m_not_bit ++
    (m_jumpi (.lab "touched_addresses@1.false") ++ (m_add_const (.lit 2) ++ (m_mload_trie_data ++
    PUSH 0xc5d2460186f7233c927e7db2dcc703c0e500b653ca82273b7bfad8045d85a470 /- @EMPTY_STRING_HASH -/ :: EQ ::
    (m_jump (.lab "touched_addresses@1.after") ++ [])))))))))))

/-- `asm/core/util.asm:85`, label `touched_addresses@1.after`: that of `%is_empty`, expanded in `asm/core/touched_addresses.asm`. -/
def b_touched_addresses_1_after : List I :=
  /- end %is_empty -/ (m_jumpi (.lab "bingo@touched_addresses") ++ POP :: (m_increment ++
    (m_jump (.lab "delete_all_touched_addresses_loop") ++ [])))

/-- `asm/core/util.asm:81`, label `touched_addresses@1.false`: that of `%is_empty`, expanded in `asm/core/touched_addresses.asm`. -/
def b_touched_addresses_1_false : List I :=
  POP :: PUSH 0 :: b_touched_addresses_1_after

/-- `asm/core/touched_addresses.asm:98`, label `bingo@touched_addresses`. -/
def b_bingo_touched_addresses : List I :=
  /- %delete_account -/ STK 1 [.e 0, .t (.lab "touched_addresses@3.after")] /- (address) -> (address, touched_addresses@3.after) -/ ::
    (m_jump (.lab "delete_account") ++ [])

/-- `asm/mpt/delete/delete.asm:39`, label `touched_addresses@3.after`: that of `%delete_account`, expanded in `asm/core/touched_addresses.asm`. -/
def b_touched_addresses_3_after : List I :=
  /- end %delete_account -/ (m_increment ++ (m_jump (.lab "delete_all_touched_addresses_loop") ++ []))

/-- `asm/core/touched_addresses.asm:102`, label `delete_all_touched_addresses_done`. -/
def b_delete_all_touched_addresses_done : List I :=
  (m_pop2 ++ JUMP :: [])

/-- The labels of this part of the kernel and what follows them. -/
def touchedCode : List (String × List I) :=
  [("insert_touched_addresses", b_insert_touched_addresses),
   ("insert_touched_addresses_loop", b_insert_touched_addresses_loop),
   ("insert_address", b_insert_address),
   ("insert_touched_addresses_found", b_insert_touched_addresses_found),
   ("remove_touched_addresses", b_remove_touched_addresses),
   ("remove_touched_addresses_loop", b_remove_touched_addresses_loop),
   ("remove_touched_addresses_found", b_remove_touched_addresses_found),
   ("delete_all_touched_addresses", b_delete_all_touched_addresses),
   ("delete_all_touched_addresses_loop", b_delete_all_touched_addresses_loop),
   ("touched_addresses@2.after", b_touched_addresses_2_after),
   ("touched_addresses@1.false", b_touched_addresses_1_false),
   ("touched_addresses@1.after", b_touched_addresses_1_after),
   ("bingo@touched_addresses", b_bingo_touched_addresses),
   ("touched_addresses@3.after", b_touched_addresses_3_after),
   ("delete_all_touched_addresses_done", b_delete_all_touched_addresses_done)]

end Verif.Kasm
