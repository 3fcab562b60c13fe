import Verif.Kasm.Code.Macros2

/-! Kernel code transcribed from `asm/core/create_receipt.asm`: macros, and for every label the items from there on. -/

namespace Verif.Kasm

/-- `asm/core/create_receipt.asm:246-258`. -/
def m_compute_cumulative_gas : List I :=
  DUP 2 :: (m_mload_txn_field (.lit 0x900000006) ++ DUP 2 :: DUP 2 :: LT :: (m_jumpi (.lab "panic") ++ SUB :: ADD :: SWAP 1 :: POP :: []))

/-- `asm/core/create_receipt.asm:26`, label `process_receipt_after_status`. -/
def b_process_receipt_after_status : List I :=
  PUSHL "process_receipt_after_bloom" :: (m_jump (.lab "logs_bloom") ++ [])

/-- `asm/core/create_receipt.asm:13`, label `process_receipt`. -/
def b_process_receipt : List I :=
  DUP 2 :: DUP 4 :: (m_compute_cumulative_gas ++ SWAP 3 :: POP :: SWAP 1 :: POP :: DUP 1 :: ISZERO :: (m_jumpi (.lab "failed_receipt") ++ b_process_receipt_after_status))

/-- `asm/core/create_receipt.asm:31`, label `process_receipt_after_bloom`. -/
def b_process_receipt_after_bloom : List I :=
  DUP 2 :: DUP 4 :: SWAP 2 :: PUSH 1 :: DUP 3 :: /- %rlp_scalar_len -/ DUP 1 :: (m_gt_const (.lit 127) ++
    (m_jumpi (.lab "create_receipt@1.medium") ++ STK 1 [.t (.lit 1)] /- (scalar) -> (1) -/ :: (m_jump (.lab "create_receipt@1.finish") ++ [])))

/-- `asm/rlp/encode.asm:236`, label `create_receipt@1.medium`: that of `%rlp_scalar_len`, expanded in `asm/core/create_receipt.asm`. -/
def b_create_receipt_1_medium : List I :=
  /- %num_bytes -/ STK 1 [.e 0, .t (.lab "create_receipt@2.after")] /- (x) -> (x, create_receipt@2.after) -/ :: (m_jump (.lab "num_bytes") ++ [])

/-- `asm/rlp/encode.asm:242`, label `create_receipt@1.finish`: that of `%rlp_scalar_len`, expanded in `asm/core/create_receipt.asm`. -/
def b_create_receipt_1_finish : List I :=
  /- end %rlp_scalar_len -/ ADD :: (m_add_const (.lit 259) ++ (m_mload_global_metadata (.lit 0x500000029) ++ /- %rlp_list_len -/ DUP 1 ::
    (m_gt_const (.lit 55) ++ (m_jumpi (.lab "create_receipt@3.large") ++ (m_increment ++ (m_jump (.lab "create_receipt@3.finish") ++ []))))))

/-- `asm/rlp/num_bytes.asm:25`, label `create_receipt@2.after`: that of `%num_bytes`, expanded in `asm/core/create_receipt.asm`. -/
def b_create_receipt_2_after : List I :=
  /- end %num_bytes -/ (m_increment ++ b_create_receipt_1_finish)

/-- `asm/rlp/encode.asm:256`, label `create_receipt@3.large`: that of `%rlp_list_len`, expanded in `asm/core/create_receipt.asm`. -/
def b_create_receipt_3_large : List I :=
  DUP 1 :: /- %num_bytes -/ STK 1 [.e 0, .t (.lab "create_receipt@4.after")] /- (x) -> (x, create_receipt@4.after) -/ ::
    (m_jump (.lab "num_bytes") ++ [])

/-- `asm/core/create_receipt.asm:66`, label `process_receipt_after_type`. -/
def b_process_receipt_after_type : List I :=
  SWAP 1 :: (m_append_to_trie_data ++ SWAP 1 :: (m_append_to_trie_data ++ SWAP 1 :: (m_append_to_trie_data ++ PUSH 256 ::
    PUSH 0x1700000000 /- @SEGMENT_TXN_BLOOM -/ :: (m_get_trie_data_size ++ PUSH 0xc00000000 /- @SEGMENT_TRIE_DATA -/ :: ADD ::
    /- %memcpy_bytes -/
    STK 3 [.e 0, .e 1, .e 2, .t (.lab "create_receipt@5.after")] /- (dst, src, count) -> (dst, src, count, create_receipt@5.after) -/ ::
    (m_jump (.lab "memcpy_bytes") ++ [])))))

/-- `asm/rlp/encode.asm:264`, label `create_receipt@3.finish`: that of `%rlp_list_len`, expanded in `asm/core/create_receipt.asm`. -/
def b_create_receipt_3_finish : List I :=
  /- end %rlp_list_len -/ ADD :: (m_get_trie_data_size ++ (m_mload_txn_field (.lit 0x900000000) ++ DUP 1 :: (m_eq_const (.lit 1) ++
    (m_jumpi (.lab "receipt_nonzero_type") ++ DUP 1 :: (m_eq_const (.lit 2) ++ (m_jumpi (.lab "receipt_nonzero_type") ++ DUP 1 ::
    (m_eq_const (.lit 3) ++ (m_jumpi (.lab "receipt_nonzero_type") ++ POP :: b_process_receipt_after_type))))))))

/-- `asm/rlp/num_bytes.asm:25`, label `create_receipt@4.after`: that of `%num_bytes`, expanded in `asm/core/create_receipt.asm`. -/
def b_create_receipt_4_after : List I :=
  /- end %num_bytes -/ (m_increment ++ ADD :: b_create_receipt_3_finish)

/-- `asm/core/create_receipt.asm:144`, label `process_receipt_topics_loop`. -/
def b_process_receipt_topics_loop : List I :=
  DUP 2 :: DUP 2 :: EQ :: (m_jumpi (.lab "process_receipt_topics_end") ++ DUP 3 :: DUP 2 :: ADD :: MLOAD_GENERAL :: (m_append_to_trie_data ++
    (m_increment ++ (m_jump (.lab "process_receipt_topics_loop") ++ []))))

/-- `asm/core/create_receipt.asm:108`, label `process_receipt_logs_loop`. -/
def b_process_receipt_logs_loop : List I :=
  DUP 2 :: DUP 2 :: EQ :: (m_jumpi (.lab "process_receipt_after_write") ++ DUP 1 :: (m_mload_kernel (.lit 0x1900000000) ++
    PUSH 0x1a00000000 /- @SEGMENT_LOGS_DATA -/ :: (m_build_kernel_address ++ DUP 1 :: MLOAD_GENERAL :: (m_append_to_trie_data ++
    (m_increment ++ DUP 1 :: MLOAD_GENERAL :: (m_append_to_trie_data ++ (m_increment ++ DUP 1 :: MLOAD_GENERAL :: DUP 1 ::
    (m_append_to_trie_data ++ SWAP 1 :: (m_increment ++ SWAP 1 :: PUSH 0 :: b_process_receipt_topics_loop)))))))))

/-- `asm/memory/memcpy.asm:105`, label `create_receipt@5.after`: that of `%memcpy_bytes`, expanded in `asm/core/create_receipt.asm`. -/
def b_create_receipt_5_after : List I :=
  /- end %memcpy_bytes -/ (m_get_trie_data_size ++ (m_add_const (.lit 256) ++ (m_set_trie_data_size ++
    (m_mload_global_metadata (.lit 0x500000029) ++ (m_append_to_trie_data ++ (m_mload_global_metadata (.lit 0x500000027) ++ DUP 1 ::
    (m_append_to_trie_data ++ PUSH 0 :: b_process_receipt_logs_loop)))))))

/-- `asm/core/create_receipt.asm:177`, label `process_receipt_data_loop`. -/
def b_process_receipt_data_loop : List I :=
  DUP 2 :: DUP 2 :: EQ :: (m_jumpi (.lab "process_receipt_data_end") ++ DUP 3 :: DUP 2 :: ADD :: MLOAD_GENERAL :: (m_append_to_trie_data ++
    (m_increment ++ (m_jump (.lab "process_receipt_data_loop") ++ []))))

/-- `asm/core/create_receipt.asm:161`, label `process_receipt_topics_end`. -/
def b_process_receipt_topics_end : List I :=
  POP :: ADD :: DUP 1 :: MLOAD_GENERAL :: DUP 1 :: (m_append_to_trie_data ++ SWAP 1 :: (m_increment ++ SWAP 1 :: PUSH 0 :: b_process_receipt_data_loop))

/-- `asm/core/create_receipt.asm:194`, label `process_receipt_data_end`. -/
def b_process_receipt_data_end : List I :=
  (m_pop3 ++ (m_increment ++ (m_jump (.lab "process_receipt_logs_loop") ++ [])))

/-- `asm/core/create_receipt.asm:200`, label `process_receipt_after_write`. -/
def b_process_receipt_after_write : List I :=
  (m_pop2 ++ SWAP 1 :: DUP 5 :: /- %mpt_insert_receipt_trie -/
    STK 3 [.e 0, .e 1, .e 2, .t (.lab "create_receipt@6.after")] /- (num_nibbles, key, value_ptr) -> (num_nibbles, key, value_ptr, create_receipt@6.after) -/ ::
    (m_jump (.lab "mpt_insert_receipt_trie") ++ []))

/-- `asm/mpt/insert/insert_trie_specific.asm:58`, label `create_receipt@6.after`: that of `%mpt_insert_receipt_trie`, expanded in `asm/core/create_receipt.asm`. -/
def b_create_receipt_6_after : List I :=
  /- end %mpt_insert_receipt_trie -/ PUSH 0x1700000000 /- @SEGMENT_TXN_BLOOM -/ :: (rep 8 (PUSH 0 :: SWAP 1 :: MSTORE_32BYTES 32 :: []) ++
    POP :: STK 4 [.e 3, .e 0] /- (new_cum_gas, txn_nb, num_nibbles, retdest) -> (retdest, new_cum_gas) -/ :: JUMP :: [])

/-- `asm/core/create_receipt.asm:225`, label `receipt_nonzero_type`. -/
def b_receipt_nonzero_type : List I :=
  (m_append_to_trie_data ++ (m_jump (.lab "process_receipt_after_type") ++ []))

/-- `asm/core/create_receipt.asm:230`, label `failed_receipt`. -/
def b_failed_receipt : List I :=
  PUSH 0 :: (m_mstore_global_metadata (.lit 0x500000027) ++ PUSH 0 :: (m_mstore_global_metadata (.lit 0x500000029) ++
    (m_jump (.lab "process_receipt_after_status") ++ [])))

/-- The labels of this part of the kernel and what follows them. -/
def receiptCode : List (String × List I) :=
  [("process_receipt", b_process_receipt),
   ("process_receipt_after_status", b_process_receipt_after_status),
   ("process_receipt_after_bloom", b_process_receipt_after_bloom),
   ("create_receipt@1.medium", b_create_receipt_1_medium),
   ("create_receipt@2.after", b_create_receipt_2_after),
   ("create_receipt@1.finish", b_create_receipt_1_finish),
   ("create_receipt@3.large", b_create_receipt_3_large),
   ("create_receipt@4.after", b_create_receipt_4_after),
   ("create_receipt@3.finish", b_create_receipt_3_finish),
   ("process_receipt_after_type", b_process_receipt_after_type),
   ("create_receipt@5.after", b_create_receipt_5_after),
   ("process_receipt_logs_loop", b_process_receipt_logs_loop),
   ("process_receipt_topics_loop", b_process_receipt_topics_loop),
   ("process_receipt_topics_end", b_process_receipt_topics_end),
   ("process_receipt_data_loop", b_process_receipt_data_loop),
   ("process_receipt_data_end", b_process_receipt_data_end),
   ("process_receipt_after_write", b_process_receipt_after_write),
   ("create_receipt@6.after", b_create_receipt_6_after),
   ("receipt_nonzero_type", b_receipt_nonzero_type),
   ("failed_receipt", b_failed_receipt)]

end Verif.Kasm
