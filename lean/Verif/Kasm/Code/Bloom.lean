import Verif.Kasm.Code.Macros2

/-! Kernel code transcribed from `asm/bloom_filter.asm`: macros, and for every label the items from there on. -/

namespace Verif.Kasm

/-- `asm/bloom_filter.asm:128-139`. -/
def m_bloom_byte_indices : List I :=
  (m_and_const (.lit 2047) ++ PUSH 2047 :: SUB :: DUP 1 :: (m_and_const (.lit 7) ++ SWAP 1 :: (m_shr_const (.lit 3) ++ [])))

/-- `asm/bloom_filter.asm:144-163`. -/
def m_bloom_write_bit : List I :=
  PUSH 0x1700000000 /- @SEGMENT_TXN_BLOOM -/ :: (m_build_kernel_address ++ PUSH 1 :: DUP 3 :: PUSH 7 :: SUB :: SHL :: SWAP 2 :: POP ::
    DUP 1 :: MLOAD_GENERAL :: DUP 3 :: OR :: MSTORE_GENERAL :: POP :: [])

/-- `asm/bloom_filter.asm:7`, label `add_to_bloom`. -/
def b_add_to_bloom : List I :=
  /- %compute_entry_hash -/ ISZERO :: (m_jumpi (.lab "bloom_filter@1.compute_entry_hash_address") ++ /- %keccak256_word -/
    STK 1 [.t (.lit 0x700000000), .e 0, .t (.lit 32), .t (.lab "bloom_filter@2.after_mstore"), .t (.lit 32), .t (.lit 32)] /- (word) -> (@SEGMENT_KERNEL_GENERAL, word, 32, bloom_filter@2.after_mstore, 32, 32) -/ ::
    (m_jump (.lab "mstore_unpacking") ++ []))

/-- `asm/util/keccak.asm:43`, label `bloom_filter@2.after_mstore`: that of `%keccak256_word`, expanded in `asm/bloom_filter.asm`. -/
def b_bloom_filter_2_after_mstore : List I :=
  SUB :: KECCAK_GENERAL :: /- end %keccak256_word -/ (m_jump (.lab "bloom_filter@1.after") ++ [])

/-- `asm/bloom_filter.asm:111`, label `bloom_filter@1.compute_entry_hash_address`: that of `%compute_entry_hash`, expanded in `asm/bloom_filter.asm`. -/
def b_bloom_filter_1_compute_entry_hash_address : List I :=
  /- %keccak256_word -/
    STK 1 [.t (.lit 0x700000000), .e 0, .t (.lit 20), .t (.lab "bloom_filter@3.after_mstore"), .t (.lit 20), .t (.lit 20)] /- (word) -> (@SEGMENT_KERNEL_GENERAL, word, 20, bloom_filter@3.after_mstore, 20, 20) -/ ::
    (m_jump (.lab "mstore_unpacking") ++ [])

/-- `asm/bloom_filter.asm:116`, label `bloom_filter@1.after`: that of `%compute_entry_hash`, expanded in `asm/bloom_filter.asm`. -/
def b_bloom_filter_1_after : List I :=
  /- end %compute_entry_hash -/ DUP 1 :: (m_shr_const (.lit 240) ++ (m_bloom_byte_indices ++ (m_bloom_write_bit ++ DUP 1 ::
    (m_shr_const (.lit 224) ++ (m_bloom_byte_indices ++ (m_bloom_write_bit ++ (m_shr_const (.lit 208) ++ (m_bloom_byte_indices ++
    (m_bloom_write_bit ++ JUMP :: [])))))))))

/-- `asm/util/keccak.asm:43`, label `bloom_filter@3.after_mstore`: that of `%keccak256_word`, expanded in `asm/bloom_filter.asm`. -/
def b_bloom_filter_3_after_mstore : List I :=
  SUB :: KECCAK_GENERAL :: /- end %keccak256_word -/ b_bloom_filter_1_after

/-- `asm/bloom_filter.asm:45`, label `logs_bloom_loop`. -/
def b_logs_bloom_loop : List I :=
  DUP 2 :: DUP 2 :: EQ :: (m_jumpi (.lab "logs_bloom_end") ++ DUP 1 :: (m_mload_kernel (.lit 0x1900000000) ++ (m_increment ++
    PUSH 0x1a00000000 /- @SEGMENT_LOGS_DATA -/ :: (m_build_kernel_address ++ DUP 1 :: MLOAD_GENERAL :: PUSH 0 :: /- %add_to_bloom -/
    STK 2 [.e 0, .e 1, .t (.lab "bloom_filter@4.after")] /- (is_topic, bloom_entry) -> (is_topic, bloom_entry, bloom_filter@4.after) -/ ::
    (m_jump (.lab "add_to_bloom") ++ [])))))

/-- `asm/bloom_filter.asm:39`, label `logs_bloom`. -/
def b_logs_bloom : List I :=
  (m_mload_global_metadata (.lit 0x500000027) ++ PUSH 0 :: b_logs_bloom_loop)

/-- `asm/bloom_filter.asm:75`, label `logs_bloom_topic_loop`. -/
def b_logs_bloom_topic_loop : List I :=
  DUP 3 :: DUP 2 :: EQ :: (m_jumpi (.lab "logs_bloom_topic_end") ++ DUP 2 :: DUP 2 :: ADD :: MLOAD_GENERAL :: PUSH 1 :: /- %add_to_bloom -/
    STK 2 [.e 0, .e 1, .t (.lab "bloom_filter@5.after")] /- (is_topic, bloom_entry) -> (is_topic, bloom_entry, bloom_filter@5.after) -/ ::
    (m_jump (.lab "add_to_bloom") ++ []))

/-- `asm/bloom_filter.asm:123`, label `bloom_filter@4.after`: that of `%add_to_bloom`, expanded in `asm/bloom_filter.asm`. -/
def b_bloom_filter_4_after : List I :=
  /- end %add_to_bloom -/ (m_increment ++ DUP 1 :: MLOAD_GENERAL :: SWAP 1 :: (m_increment ++ PUSH 0 :: b_logs_bloom_topic_loop))

/-- `asm/bloom_filter.asm:123`, label `bloom_filter@5.after`: that of `%add_to_bloom`, expanded in `asm/bloom_filter.asm`. -/
def b_bloom_filter_5_after : List I :=
  /- end %add_to_bloom -/ (m_increment ++ (m_jump (.lab "logs_bloom_topic_loop") ++ []))

/-- `asm/bloom_filter.asm:91`, label `logs_bloom_topic_end`. -/
def b_logs_bloom_topic_end : List I :=
  (m_pop3 ++ (m_increment ++ (m_jump (.lab "logs_bloom_loop") ++ [])))

/-- `asm/bloom_filter.asm:97`, label `logs_bloom_end`. -/
def b_logs_bloom_end : List I :=
  (m_pop2 ++ JUMP :: [])

/-- The labels of this part of the kernel and what follows them. -/
def bloomCode : List (String × List I) :=
  [("add_to_bloom", b_add_to_bloom),
   ("bloom_filter@2.after_mstore", b_bloom_filter_2_after_mstore),
   ("bloom_filter@1.compute_entry_hash_address", b_bloom_filter_1_compute_entry_hash_address),
   ("bloom_filter@3.after_mstore", b_bloom_filter_3_after_mstore),
   ("bloom_filter@1.after", b_bloom_filter_1_after),
   ("logs_bloom", b_logs_bloom),
   ("logs_bloom_loop", b_logs_bloom_loop),
   ("bloom_filter@4.after", b_bloom_filter_4_after),
   ("logs_bloom_topic_loop", b_logs_bloom_topic_loop),
   ("bloom_filter@5.after", b_bloom_filter_5_after),
   ("logs_bloom_topic_end", b_logs_bloom_topic_end),
   ("logs_bloom_end", b_logs_bloom_end)]

end Verif.Kasm
