import Verif.Kasm.Code.Macros2

/-! Kernel code transcribed from `asm/transactions/common_decoding.asm`: macros, and for every label the items from there on. -/

namespace Verif.Kasm


/-- `asm/transactions/common_decoding.asm:164`, label `decode_and_store_access_list`. -/
def b_decode_and_store_access_list : List I :=
  /- %decode_rlp_list_len -/ STK 1 [.e 0, .t (.lab "common_decoding@1.after")] /- (rlp_addr) -> (rlp_addr, common_decoding@1.after) -/ ::
    (m_jump (.lab "decode_rlp_list_len") ++ [])

/-- `asm/transactions/common_decoding.asm:173`, label `decode_and_store_access_list_loop`. -/
def b_decode_and_store_access_list_loop : List I :=
  DUP 2 :: DUP 2 :: EQ :: (m_jumpi (.lab "decode_and_store_access_list_finish") ++ /- %decode_rlp_list_len -/
    STK 1 [.e 0, .t (.lab "common_decoding@2.after")] /- (rlp_addr) -> (rlp_addr, common_decoding@2.after) -/ ::
    (m_jump (.lab "decode_rlp_list_len") ++ []))

/-- `asm/rlp/decode.asm:126`, label `common_decoding@1.after`: that of `%decode_rlp_list_len`, expanded in `asm/transactions/common_decoding.asm`. -/
def b_common_decoding_1_after : List I :=
  /- end %decode_rlp_list_len -/ SWAP 1 :: DUP 2 :: ADD :: SWAP 1 :: b_decode_and_store_access_list_loop

/-- `asm/rlp/decode.asm:126`, label `common_decoding@2.after`: that of `%decode_rlp_list_len`, expanded in `asm/transactions/common_decoding.asm`. -/
def b_common_decoding_2_after : List I :=
  /- end %decode_rlp_list_len -/ SWAP 1 :: POP :: /- %decode_rlp_scalar -/
    STK 1 [.e 0, .t (.lab "common_decoding@3.after")] /- (rlp_addr) -> (rlp_addr, common_decoding@3.after) -/ ::
    (m_jump (.lab "decode_rlp_scalar") ++ [])

/-- `asm/rlp/decode.asm:83`, label `common_decoding@3.after`: that of `%decode_rlp_scalar`, expanded in `asm/transactions/common_decoding.asm`. -/
def b_common_decoding_3_after : List I :=
  /- end %decode_rlp_scalar -/ SWAP 1 :: DUP 1 :: /- %insert_accessed_addresses_no_return -/ /- %insert_accessed_addresses -/
    STK 1 [.e 0, .t (.lab "common_decoding@5.after")] /- (addr) -> (addr, common_decoding@5.after) -/ ::
    (m_jump (.lab "insert_accessed_addresses") ++ [])

/-- `asm/core/access_lists.asm:64`, label `common_decoding@5.after`: that of `%insert_accessed_addresses`, expanded in `asm/transactions/common_decoding.asm`. -/
def b_common_decoding_5_after : List I :=
  /- end %insert_accessed_addresses -/ POP :: /- end %insert_accessed_addresses_no_return -/ (m_add_address_cost ++ SWAP 1 ::
    /- %decode_rlp_list_len -/ STK 1 [.e 0, .t (.lab "common_decoding@6.after")] /- (rlp_addr) -> (rlp_addr, common_decoding@6.after) -/ ::
    (m_jump (.lab "decode_rlp_list_len") ++ []))

/-- `asm/transactions/common_decoding.asm:197`, label `sk_loop`. -/
def b_sk_loop : List I :=
  DUP 2 :: DUP 2 :: EQ :: (m_jumpi (.lab "end_sk") ++ /- %decode_rlp_scalar -/
    STK 1 [.e 0, .t (.lab "common_decoding@7.after")] /- (rlp_addr) -> (rlp_addr, common_decoding@7.after) -/ ::
    (m_jump (.lab "decode_rlp_scalar") ++ []))

/-- `asm/rlp/decode.asm:126`, label `common_decoding@6.after`: that of `%decode_rlp_list_len`, expanded in `asm/transactions/common_decoding.asm`. -/
def b_common_decoding_6_after : List I :=
  /- end %decode_rlp_list_len -/ SWAP 1 :: DUP 2 :: ADD :: SWAP 1 :: b_sk_loop

/-- `asm/rlp/decode.asm:83`, label `common_decoding@7.after`: that of `%decode_rlp_scalar`, expanded in `asm/transactions/common_decoding.asm`. -/
def b_common_decoding_7_after : List I :=
  /- end %decode_rlp_scalar -/
    STK 5 [.e 3, .e 1, .t (.lab "sk_loop_contd"), .e 0, .e 2, .e 3, .e 4] /- (rlp_addr, key, sk_end_rlp_addr, addr, end_rlp_addr) -> (addr, key, sk_loop_contd, rlp_addr, sk_end_rlp_addr, addr, end_rlp_addr) -/ ::
    (m_jump (.lab "insert_accessed_storage_keys_with_original_value") ++ [])

/-- `asm/transactions/common_decoding.asm:204`, label `sk_loop_contd`. -/
def b_sk_loop_contd : List I :=
  (m_add_storage_key_cost ++ (m_jump (.lab "sk_loop") ++ []))

/-- `asm/transactions/common_decoding.asm:208`, label `end_sk`. -/
def b_end_sk : List I :=
  STK 4 [.e 0, .e 3] /- (rlp_addr, sk_end_rlp_addr, addr, end_rlp_addr) -> (rlp_addr, end_rlp_addr) -/ ::
    (m_jump (.lab "decode_and_store_access_list_loop") ++ [])

/-- `asm/transactions/common_decoding.asm:211`, label `decode_and_store_access_list_finish`. -/
def b_decode_and_store_access_list_finish : List I :=
  STK 3 [.e 2, .e 0] /- (rlp_addr, end_rlp_addr, retdest) -> (retdest, rlp_addr) -/ :: JUMP :: []

/-- `asm/transactions/common_decoding.asm:227`, label `insert_accessed_storage_keys_with_original_value`. -/
def b_insert_accessed_storage_keys_with_original_value : List I :=
  STK 3 [.e 1, .e 0, .t (.lab "after_read"), .e 0, .e 1, .e 2] /- (addr, key, retdest) -> (key, addr, after_read, addr, key, retdest) -/ ::
    (m_jump (.lab "sload_with_addr") ++ [])

/-- `asm/transactions/common_decoding.asm:230`, label `after_read`. -/
def b_after_read : List I :=
  STK 4 [.e 1, .e 2, .e 0, .e 3] /- (value, addr, key, retdest) -> (addr, key, value, retdest) -/ :: /- %insert_accessed_storage_keys -/
    STK 2 [.e 0, .e 1, .t (.lab "common_decoding@8.after")] /- (addr, key) -> (addr, key, common_decoding@8.after) -/ ::
    (m_jump (.lab "insert_accessed_storage_keys") ++ [])

/-- `asm/core/access_lists.asm:215`, label `common_decoding@8.after`: that of `%insert_accessed_storage_keys`, expanded in `asm/transactions/common_decoding.asm`. -/
def b_common_decoding_8_after : List I :=
  /- end %insert_accessed_storage_keys -/ SWAP 2 :: MSTORE_GENERAL :: POP :: JUMP :: []

/-- `asm/transactions/common_decoding.asm:241`, label `sload_with_addr`. -/
def b_sload_with_addr : List I :=
  /- %read_storage_linked_list_w_addr -/ /- %slot_to_storage_key -/ /- %keccak256_word -/
    STK 1 [.t (.lit 0x700000000), .e 0, .t (.lit 32), .t (.lab "common_decoding@11.after_mstore"), .t (.lit 32), .t (.lit 32)] /- (word) -> (@SEGMENT_KERNEL_GENERAL, word, 32, common_decoding@11.after_mstore, 32, 32) -/ ::
    (m_jump (.lab "mstore_unpacking") ++ [])

/-- `asm/util/keccak.asm:43`, label `common_decoding@11.after_mstore`: that of `%keccak256_word`, expanded in `asm/transactions/common_decoding.asm`. -/
def b_common_decoding_11_after_mstore : List I :=
  SUB :: KECCAK_GENERAL :: /- end %keccak256_word -/ /- end %slot_to_storage_key -/
    STK 2 [.e 1, .e 0, .t (.lit 0), .t (.lab "common_decoding@9.after")] /- (storage_key, address) -> (address, storage_key, 0, common_decoding@9.after) -/ ::
    /- %addr_to_state_key -/ /- %keccak256_word -/
    STK 1 [.t (.lit 0x700000000), .e 0, .t (.lit 20), .t (.lab "common_decoding@13.after_mstore"), .t (.lit 20), .t (.lit 20)] /- (word) -> (@SEGMENT_KERNEL_GENERAL, word, 20, common_decoding@13.after_mstore, 20, 20) -/ ::
    (m_jump (.lab "mstore_unpacking") ++ [])

/-- `asm/util/keccak.asm:43`, label `common_decoding@13.after_mstore`: that of `%keccak256_word`, expanded in `asm/transactions/common_decoding.asm`. -/
def b_common_decoding_13_after_mstore : List I :=
  SUB :: KECCAK_GENERAL :: /- end %keccak256_word -/ /- end %addr_to_state_key -/ (m_jump (.lab "search_slot") ++ [])

/-- `asm/mpt/linked_list/linked_list.asm:979`, label `common_decoding@9.after`: that of `%read_storage_linked_list_w_addr`, expanded in `asm/transactions/common_decoding.asm`. -/
def b_common_decoding_9_after : List I :=
  /- end %read_storage_linked_list_w_addr -/ SWAP 1 :: JUMP :: []

/-- `asm/transactions/common_decoding.asm:283`, label `decode_and_store_blob_versioned_hashes_loop`. -/
def b_decode_and_store_blob_versioned_hashes_loop : List I :=
  DUP 2 :: DUP 2 :: EQ :: (m_jumpi (.lab "decode_and_store_blob_versioned_hashes_finish") ++ /- %decode_rlp_scalar -/
    STK 1 [.e 0, .t (.lab "common_decoding@14.after")] /- (rlp_addr) -> (rlp_addr, common_decoding@14.after) -/ ::
    (m_jump (.lab "decode_rlp_scalar") ++ []))

/-- `asm/transactions/common_decoding.asm:272`, label `decode_and_store_blob_versioned_hashes`. -/
def b_decode_and_store_blob_versioned_hashes : List I :=
  DUP 1 :: (m_mstore_global_metadata (.lit 0x500000034) ++ DUP 2 :: ADD :: PUSH 0x2600000000 /- @SEGMENT_TXN_BLOB_VERSIONED_HASHES -/ ::
    SWAP 2 :: b_decode_and_store_blob_versioned_hashes_loop)

/-- `asm/rlp/decode.asm:83`, label `common_decoding@14.after`: that of `%decode_rlp_scalar`, expanded in `asm/transactions/common_decoding.asm`. -/
def b_common_decoding_14_after : List I :=
  /- end %decode_rlp_scalar -/ DUP 2 :: (m_shr_const (.lit 248) ++ (m_eq_const (.lit 1) ++ (m_assert_nonzero1 (.lab "invalid_txn_3") ++
    SWAP 3 :: DUP 1 :: SWAP 2 :: MSTORE_GENERAL :: (m_increment ++ SWAP 2 ::
    (m_jump (.lab "decode_and_store_blob_versioned_hashes_loop") ++ [])))))

/-- `asm/transactions/common_decoding.asm:306`, label `decode_and_store_blob_versioned_hashes_finish`. -/
def b_decode_and_store_blob_versioned_hashes_finish : List I :=
  STK 4 [.e 3, .e 0] /- (rlp_addr, end_rlp_addr, store_addr, retdest) -> (retdest, rlp_addr) -/ :: JUMP :: []

/-- The labels of this part of the kernel and what follows them. -/
def accessListCode : List (String × List I) :=
  [("decode_and_store_access_list", b_decode_and_store_access_list),
   ("common_decoding@1.after", b_common_decoding_1_after),
   ("decode_and_store_access_list_loop", b_decode_and_store_access_list_loop),
   ("common_decoding@2.after", b_common_decoding_2_after),
   ("common_decoding@3.after", b_common_decoding_3_after),
   ("common_decoding@5.after", b_common_decoding_5_after),
   ("common_decoding@6.after", b_common_decoding_6_after),
   ("sk_loop", b_sk_loop),
   ("common_decoding@7.after", b_common_decoding_7_after),
   ("sk_loop_contd", b_sk_loop_contd),
   ("end_sk", b_end_sk),
   ("decode_and_store_access_list_finish", b_decode_and_store_access_list_finish),
   ("insert_accessed_storage_keys_with_original_value", b_insert_accessed_storage_keys_with_original_value),
   ("after_read", b_after_read),
   ("common_decoding@8.after", b_common_decoding_8_after),
   ("sload_with_addr", b_sload_with_addr),
   ("common_decoding@11.after_mstore", b_common_decoding_11_after_mstore),
   ("common_decoding@13.after_mstore", b_common_decoding_13_after_mstore),
   ("common_decoding@9.after", b_common_decoding_9_after),
   ("decode_and_store_blob_versioned_hashes", b_decode_and_store_blob_versioned_hashes),
   ("decode_and_store_blob_versioned_hashes_loop", b_decode_and_store_blob_versioned_hashes_loop),
   ("common_decoding@14.after", b_common_decoding_14_after),
   ("decode_and_store_blob_versioned_hashes_finish", b_decode_and_store_blob_versioned_hashes_finish)]

end Verif.Kasm
