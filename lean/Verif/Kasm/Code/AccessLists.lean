import Verif.Kasm.Code.Macros

/-! Kernel code transcribed from `asm/core/access_lists.asm`: macros, and for every label the items from there on. -/

namespace Verif.Kasm


/-- `asm/core/access_lists.asm:13`, label `init_access_lists`. -/
def b_init_access_lists : List I :=
  PUSH 0 :: (m_mstore_global_metadata (.lit 0x500000023) ++ PUSH 0x1400000000 /- @SEGMENT_ACCESSED_ADDRESSES -/ :: DUP 1 ::
    (m_mstore_u256_max ++ (m_increment ++ DUP 1 :: PUSH 0x1400000000 /- @SEGMENT_ACCESSED_ADDRESSES -/ :: MSTORE_GENERAL :: (m_increment ++
    (m_mstore_global_metadata (.lit 0x50000001c) ++ PUSH 0x1500000000 /- @SEGMENT_ACCESSED_STORAGE_KEYS -/ :: DUP 1 ::
    (m_mstore_u256_max ++ (m_add_const (.lit 3) ++ DUP 1 :: PUSH 0x1500000000 /- @SEGMENT_ACCESSED_STORAGE_KEYS -/ :: MSTORE_GENERAL ::
    (m_increment ++ (m_mstore_global_metadata (.lit 0x50000001d) ++ INPUT "access_lists::reset" :: POP :: JUMP :: [])))))))))

/-- `asm/core/access_lists.asm:94`, label `insert_accessed_addresses`. -/
def b_insert_accessed_addresses : List I :=
  INPUT "access_lists::address_insert" :: (m_get_valid_addr_ptr ++ DUP 1 :: MLOAD_GENERAL :: DUP 2 :: (m_eq_const (.lit 0x1400000000) ++
    DUP 2 :: DUP 5 :: GT :: ADD :: (m_jumpi (.lab "insert_new_address") ++ DUP 3 :: (m_assert_eq0 ++ (m_increment ++ MLOAD_GENERAL ::
    (m_jump_neq_const (.lit 0xffffffffffffffffffffffffffffffffffffffffffffffffffffffffffffffff) (.lab "address_found") ++ PANIC :: []))))))

/-- `asm/core/access_lists.asm:125`, label `address_found`. -/
def b_address_found : List I :=
  STK 2 [.e 1, .t (.lit 0)] /- (addr, retdest) -> (retdest, 0) -/ :: JUMP :: []

/-- `asm/core/access_lists.asm:130`, label `insert_new_address`. -/
def b_insert_new_address : List I :=
  POP :: (m_increment ++ (m_mload_global_metadata (.lit 0x50000001c) ++ DUP 2 :: MLOAD_GENERAL :: DUP 1 ::
    (m_eq_const (.lit 0xffffffffffffffffffffffffffffffffffffffffffffffffffffffffffffffff) ++ (m_assert_zero0 ++ DUP 1 :: MLOAD_GENERAL ::
    DUP 5 :: (m_assert_lt0 ++ SWAP 2 :: DUP 2 :: MSTORE_GENERAL :: DUP 1 :: DUP 4 :: MSTORE_GENERAL :: (m_increment ++ DUP 1 :: SWAP 2 ::
    MSTORE_GENERAL :: (m_increment ++ (m_mstore_global_metadata (.lit 0x50000001c) ++ (m_journal_add_account_loaded ++ PUSH 1 :: SWAP 1 ::
    JUMP :: [])))))))))

/-- `asm/core/access_lists.asm:182`, label `remove_accessed_addresses`. -/
def b_remove_accessed_addresses : List I :=
  INPUT "access_lists::address_remove" :: (m_get_valid_addr_ptr ++ (m_increment ++ DUP 1 :: MLOAD_GENERAL :: DUP 1 :: MLOAD_GENERAL ::
    DUP 4 :: (m_assert_eq0 ++ (m_increment ++ DUP 1 :: MLOAD_GENERAL :: SWAP 1 :: (m_mstore_u256_max ++ MSTORE_GENERAL :: POP :: JUMP :: [])))))

/-- `asm/core/access_lists.asm:238`, label `insert_accessed_storage_keys`. -/
def b_insert_accessed_storage_keys : List I :=
  INPUT "access_lists::storage_insert" :: (m_get_valid_storage_ptr ++ DUP 1 :: MLOAD_GENERAL :: DUP 1 :: DUP 4 :: GT :: DUP 3 ::
    (m_eq_const (.lit 0x1500000000) ++ ADD :: (m_jumpi (.lab "insert_storage_key") ++ DUP 3 :: (m_assert_eq0 ++ DUP 1 :: (m_increment ++
    MLOAD_GENERAL :: DUP 1 :: DUP 5 :: GT :: (m_jumpi (.lab "insert_storage_key") ++ DUP 4 :: (m_assert_eq0 ++ DUP 1 ::
    (m_add_const (.lit 3) ++ MLOAD_GENERAL ::
    (m_jump_neq_const (.lit 0xffffffffffffffffffffffffffffffffffffffffffffffffffffffffffffffff) (.lab "storage_key_found") ++ PANIC :: [])))))))))

/-- `asm/core/access_lists.asm:277`, label `storage_key_found`. -/
def b_storage_key_found : List I :=
  (m_add_const (.lit 2) ++ STK 4 [.e 3, .t (.lit 0), .e 0] /- (value_ptr, addr, key, retdest) -> (retdest, 0, value_ptr) -/ :: JUMP :: [])

/-- `asm/core/access_lists.asm:284`, label `insert_storage_key`. -/
def b_insert_storage_key : List I :=
  POP :: (m_add_const (.lit 3) ++ (m_mload_global_metadata (.lit 0x50000001d) ++ DUP 2 :: MLOAD_GENERAL :: DUP 1 ::
    (m_eq_const (.lit 0xffffffffffffffffffffffffffffffffffffffffffffffffffffffffffffffff) ++ (m_assert_zero0 ++ DUP 1 :: MLOAD_GENERAL ::
    DUP 5 :: DUP 2 :: DUP 2 :: LT :: SWAP 2 :: EQ :: DUP 3 :: (m_increment ++ MLOAD_GENERAL :: DUP 8 :: LT :: MUL :: ADD ::
    (m_assert_nonzero0 ++ SWAP 2 :: DUP 2 :: MSTORE_GENERAL :: DUP 1 :: DUP 4 :: MSTORE_GENERAL :: (m_increment ++ DUP 1 :: DUP 5 ::
    MSTORE_GENERAL :: (m_increment ++ DUP 1 :: (m_increment ++ DUP 1 :: SWAP 3 :: MSTORE_GENERAL :: SWAP 1 :: (m_increment ++
    (m_mstore_global_metadata (.lit 0x50000001d) ++
    STK 4 [.e 1, .e 2, .e 3, .t (.lit 1), .e 0] /- (value_ptr, addr, key, retdest) -> (addr, key, retdest, 1, value_ptr) -/ ::
    (m_journal_add_storage_loaded ++ JUMP :: []))))))))))))

/-- `asm/core/access_lists.asm:356`, label `remove_accessed_storage_keys`. -/
def b_remove_accessed_storage_keys : List I :=
  INPUT "access_lists::storage_remove" :: (m_get_valid_storage_ptr ++ (m_add_const (.lit 3) ++ DUP 1 :: MLOAD_GENERAL :: DUP 1 ::
    (m_increment ++ MLOAD_GENERAL :: DUP 5 :: EQ :: DUP 2 :: MLOAD_GENERAL :: DUP 5 :: EQ :: MUL :: (m_assert_nonzero0 ++
    (m_add_const (.lit 3) ++ DUP 1 :: MLOAD_GENERAL :: SWAP 1 :: (m_mstore_u256_max ++ MSTORE_GENERAL :: (m_pop2 ++ JUMP :: [])))))))

/-- The labels of this part of the kernel and what follows them. -/
def accessListsCode : List (String × List I) :=
  [("init_access_lists", b_init_access_lists),
   ("insert_accessed_addresses", b_insert_accessed_addresses),
   ("address_found", b_address_found),
   ("insert_new_address", b_insert_new_address),
   ("remove_accessed_addresses", b_remove_accessed_addresses),
   ("insert_accessed_storage_keys", b_insert_accessed_storage_keys),
   ("storage_key_found", b_storage_key_found),
   ("insert_storage_key", b_insert_storage_key),
   ("remove_accessed_storage_keys", b_remove_accessed_storage_keys)]

end Verif.Kasm
