import Verif.Kasm.Code.Macros2

/-! Kernel code transcribed from `asm/core/log.asm`: macros, and for every label the items from there on. -/

namespace Verif.Kasm

/-- `asm/journal/log.asm:3-5`. -/
def m_journal_add_log : List I :=
  (m_journal_add_2 (.lit 10) ++ [])

/-- `asm/core/log.asm:1`, label `sys_log0`. -/
def b_sys_log0 : List I :=
  (m_check_static ++ DUP 3 :: ISZERO :: (m_jumpi (.lab "log0_after_mem_gas") ++ DUP 3 :: DUP 3 :: (m_add_or_fault ++ DUP 1 ::
    (m_ensure_reasonable_offset ++ /- %update_mem_bytes -/ (m_num_bytes_to_num_words ++ /- %update_mem_words -/ (m_mem_words ++ DUP 2 ::
    DUP 2 :: GT :: (m_jumpi (.lab "log@2.no_update") ++ (m_memory_cost ++ SWAP 1 :: DUP 1 ::
    (m_mstore_context_metadata1 (.lit 0x60000000a) ++ (m_memory_cost ++ SUB :: (m_charge_gas ++ (m_jump (.lab "log@2.end") ++ []))))))))))))

/-- `asm/core/log.asm:10`, label `log0_after_mem_gas`. -/
def b_log0_after_mem_gas : List I :=
  DUP 3 :: (m_mul_const (.lit 8) ++ (m_add_const (.lit 375) ++ (m_charge_gas ++ (m_address ++ PUSH 0 ::
    STK 5 [.e 1, .e 0, .e 4, .e 3, .t (.lab "finish_sys_log"), .e 2] /- (zero, address, kexit_info, offset, size) -> (address, zero, size, offset, finish_sys_log, kexit_info) -/ ::
    (m_jump (.lab "log_n_entry") ++ [])))))

/-- `asm/memory/metadata.asm:392`, label `log@2.end`: that of `%update_mem_words`, expanded in `asm/core/log.asm`. -/
def b_log_2_end : List I :=
  /- end %update_mem_words -/ /- end %update_mem_bytes -/ b_log0_after_mem_gas

/-- `asm/memory/metadata.asm:389`, label `log@2.no_update`: that of `%update_mem_words`, expanded in `asm/core/log.asm`. -/
def b_log_2_no_update : List I :=
  (m_pop2 ++ b_log_2_end)

/-- `asm/core/log.asm:20`, label `sys_log1`. -/
def b_sys_log1 : List I :=
  (m_check_static ++ DUP 3 :: ISZERO :: (m_jumpi (.lab "log1_after_mem_gas") ++ DUP 3 :: DUP 3 :: (m_add_or_fault ++ DUP 1 ::
    (m_ensure_reasonable_offset ++ /- %update_mem_bytes -/ (m_num_bytes_to_num_words ++ /- %update_mem_words -/ (m_mem_words ++ DUP 2 ::
    DUP 2 :: GT :: (m_jumpi (.lab "log@4.no_update") ++ (m_memory_cost ++ SWAP 1 :: DUP 1 ::
    (m_mstore_context_metadata1 (.lit 0x60000000a) ++ (m_memory_cost ++ SUB :: (m_charge_gas ++ (m_jump (.lab "log@4.end") ++ []))))))))))))

/-- `asm/core/log.asm:29`, label `log1_after_mem_gas`. -/
def b_log1_after_mem_gas : List I :=
  DUP 3 :: (m_mul_const (.lit 8) ++ (m_add_const (.lit 375) ++ (m_add_const (.lit 375) ++ (m_charge_gas ++ (m_address ++ PUSH 1 ::
    STK 6 [.e 1, .e 0, .e 5, .e 4, .e 3, .t (.lab "finish_sys_log"), .e 2] /- (one, address, kexit_info, offset, size, topic) -> (address, one, topic, size, offset, finish_sys_log, kexit_info) -/ ::
    (m_jump (.lab "log_n_entry") ++ []))))))

/-- `asm/memory/metadata.asm:392`, label `log@4.end`: that of `%update_mem_words`, expanded in `asm/core/log.asm`. -/
def b_log_4_end : List I :=
  /- end %update_mem_words -/ /- end %update_mem_bytes -/ b_log1_after_mem_gas

/-- `asm/memory/metadata.asm:389`, label `log@4.no_update`: that of `%update_mem_words`, expanded in `asm/core/log.asm`. -/
def b_log_4_no_update : List I :=
  (m_pop2 ++ b_log_4_end)

/-- `asm/core/log.asm:39`, label `sys_log2`. -/
def b_sys_log2 : List I :=
  (m_check_static ++ DUP 3 :: ISZERO :: (m_jumpi (.lab "log2_after_mem_gas") ++ DUP 3 :: DUP 3 :: (m_add_or_fault ++ DUP 1 ::
    (m_ensure_reasonable_offset ++ /- %update_mem_bytes -/ (m_num_bytes_to_num_words ++ /- %update_mem_words -/ (m_mem_words ++ DUP 2 ::
    DUP 2 :: GT :: (m_jumpi (.lab "log@6.no_update") ++ (m_memory_cost ++ SWAP 1 :: DUP 1 ::
    (m_mstore_context_metadata1 (.lit 0x60000000a) ++ (m_memory_cost ++ SUB :: (m_charge_gas ++ (m_jump (.lab "log@6.end") ++ []))))))))))))

/-- `asm/core/log.asm:48`, label `log2_after_mem_gas`. -/
def b_log2_after_mem_gas : List I :=
  DUP 3 :: (m_mul_const (.lit 8) ++ (m_add_const (.lit 375) ++ (m_add_const (.lit 375) ++ (m_add_const (.lit 375) ++ (m_charge_gas ++
    (m_address ++ PUSH 2 ::
    STK 7 [.e 1, .e 0, .e 5, .e 6, .e 4, .e 3, .t (.lab "finish_sys_log"), .e 2] /- (two, address, kexit_info, offset, size, topic1, topic2) -> (address, two, topic1, topic2, size, offset, finish_sys_log, kexit_info) -/ ::
    (m_jump (.lab "log_n_entry") ++ [])))))))

/-- `asm/memory/metadata.asm:392`, label `log@6.end`: that of `%update_mem_words`, expanded in `asm/core/log.asm`. -/
def b_log_6_end : List I :=
  /- end %update_mem_words -/ /- end %update_mem_bytes -/ b_log2_after_mem_gas

/-- `asm/memory/metadata.asm:389`, label `log@6.no_update`: that of `%update_mem_words`, expanded in `asm/core/log.asm`. -/
def b_log_6_no_update : List I :=
  (m_pop2 ++ b_log_6_end)

/-- `asm/core/log.asm:58`, label `sys_log3`. -/
def b_sys_log3 : List I :=
  (m_check_static ++ DUP 3 :: ISZERO :: (m_jumpi (.lab "log3_after_mem_gas") ++ DUP 3 :: DUP 3 :: (m_add_or_fault ++ DUP 1 ::
    (m_ensure_reasonable_offset ++ /- %update_mem_bytes -/ (m_num_bytes_to_num_words ++ /- %update_mem_words -/ (m_mem_words ++ DUP 2 ::
    DUP 2 :: GT :: (m_jumpi (.lab "log@8.no_update") ++ (m_memory_cost ++ SWAP 1 :: DUP 1 ::
    (m_mstore_context_metadata1 (.lit 0x60000000a) ++ (m_memory_cost ++ SUB :: (m_charge_gas ++ (m_jump (.lab "log@8.end") ++ []))))))))))))

/-- `asm/core/log.asm:67`, label `log3_after_mem_gas`. -/
def b_log3_after_mem_gas : List I :=
  DUP 3 :: (m_mul_const (.lit 8) ++ (m_add_const (.lit 375) ++ (m_add_const (.lit 375) ++ (m_add_const (.lit 375) ++
    (m_add_const (.lit 375) ++ (m_charge_gas ++ (m_address ++ PUSH 3 ::
    STK 8 [.e 1, .e 0, .e 5, .e 6, .e 7, .e 4, .e 3, .t (.lab "finish_sys_log"), .e 2] /- (three, address, kexit_info, offset, size, topic1, topic2, topic3) -> (address, three, topic1, topic2, topic3, size, offset, finish_sys_log, kexit_info) -/ ::
    (m_jump (.lab "log_n_entry") ++ []))))))))

/-- `asm/memory/metadata.asm:392`, label `log@8.end`: that of `%update_mem_words`, expanded in `asm/core/log.asm`. -/
def b_log_8_end : List I :=
  /- end %update_mem_words -/ /- end %update_mem_bytes -/ b_log3_after_mem_gas

/-- `asm/memory/metadata.asm:389`, label `log@8.no_update`: that of `%update_mem_words`, expanded in `asm/core/log.asm`. -/
def b_log_8_no_update : List I :=
  (m_pop2 ++ b_log_8_end)

/-- `asm/core/log.asm:77`, label `sys_log4`. -/
def b_sys_log4 : List I :=
  (m_check_static ++ DUP 3 :: ISZERO :: (m_jumpi (.lab "log4_after_mem_gas") ++ DUP 3 :: DUP 3 :: (m_add_or_fault ++ DUP 1 ::
    (m_ensure_reasonable_offset ++ /- %update_mem_bytes -/ (m_num_bytes_to_num_words ++ /- %update_mem_words -/ (m_mem_words ++ DUP 2 ::
    DUP 2 :: GT :: (m_jumpi (.lab "log@10.no_update") ++ (m_memory_cost ++ SWAP 1 :: DUP 1 ::
    (m_mstore_context_metadata1 (.lit 0x60000000a) ++ (m_memory_cost ++ SUB :: (m_charge_gas ++ (m_jump (.lab "log@10.end") ++ []))))))))))))

/-- `asm/core/log.asm:86`, label `log4_after_mem_gas`. -/
def b_log4_after_mem_gas : List I :=
  DUP 3 :: (m_mul_const (.lit 8) ++ (m_add_const (.lit 375) ++ (m_add_const (.lit 375) ++ (m_add_const (.lit 375) ++
    (m_add_const (.lit 375) ++ (m_add_const (.lit 375) ++ (m_charge_gas ++ (m_address ++ PUSH 4 ::
    STK 9 [.e 1, .e 0, .e 5, .e 6, .e 7, .e 8, .e 4, .e 3, .t (.lab "finish_sys_log"), .e 2] /- (four, address, kexit_info, offset, size, topic1, topic2, topic3, topic4) -> (address, four, topic1, topic2, topic3, topic4, size, offset, finish_sys_log, kexit_info) -/ ::
    (m_jump (.lab "log_n_entry") ++ [])))))))))

/-- `asm/memory/metadata.asm:392`, label `log@10.end`: that of `%update_mem_words`, expanded in `asm/core/log.asm`. -/
def b_log_10_end : List I :=
  /- end %update_mem_words -/ /- end %update_mem_bytes -/ b_log4_after_mem_gas

/-- `asm/memory/metadata.asm:389`, label `log@10.no_update`: that of `%update_mem_words`, expanded in `asm/core/log.asm`. -/
def b_log_10_no_update : List I :=
  (m_pop2 ++ b_log_10_end)

/-- `asm/core/log.asm:96`, label `finish_sys_log`. -/
def b_finish_sys_log : List I :=
  EXIT_KERNEL :: []

/-- `asm/core/log.asm:100`, label `log_n_entry`. -/
def b_log_n_entry : List I :=
  (m_mload_global_metadata (.lit 0x500000027) ++ (m_mload_global_metadata (.lit 0x500000028) ++ DUP 1 :: DUP 3 ::
    (m_mstore_kernel1 (.lit 0x1900000000) ++ SWAP 1 :: (m_increment ++ (m_mstore_global_metadata (.lit 0x500000027) ++ (m_increment ++
    DUP 2 :: DUP 2 :: (m_mstore_kernel1 (.lit 0x1a00000000) ++ (m_increment ++ SWAP 1 :: POP :: DUP 2 :: DUP 2 ::
    (m_mstore_kernel1 (.lit 0x1a00000000) ++ (m_increment ++ DUP 2 :: ISZERO :: (m_jumpi (.lab "log_after_topics") ++ DUP 3 :: DUP 2 ::
    (m_mstore_kernel1 (.lit 0x1a00000000) ++ (m_increment ++
    STK 3 [.e 0, .e 1] /- (curr_topic_ptr, num_topics, topic1) -> (curr_topic_ptr, num_topics) -/ :: DUP 2 :: (m_eq_const (.lit 1) ++
    (m_jumpi (.lab "log_after_topics") ++ DUP 3 :: DUP 2 :: (m_mstore_kernel1 (.lit 0x1a00000000) ++ (m_increment ++
    STK 3 [.e 0, .e 1] /- (curr_topic_ptr, num_topics, topic2) -> (curr_topic_ptr, num_topics) -/ :: DUP 2 :: (m_eq_const (.lit 2) ++
    (m_jumpi (.lab "log_after_topics") ++ DUP 3 :: DUP 2 :: (m_mstore_kernel1 (.lit 0x1a00000000) ++ (m_increment ++
    STK 3 [.e 0, .e 1] /- (curr_topic_ptr, num_topics, topic3) -> (curr_topic_ptr, num_topics) -/ :: DUP 2 :: (m_eq_const (.lit 3) ++
    (m_jumpi (.lab "log_after_topics") ++ DUP 3 :: DUP 2 :: (m_mstore_kernel1 (.lit 0x1a00000000) ++ (m_increment ++
    STK 3 [.e 0, .e 1] /- (data_len_ptr, num_topics, topic4) -> (data_len_ptr, num_topics) -/ :: DUP 2 :: (m_eq_const (.lit 4) ++
    (m_jumpi (.lab "log_after_topics") ++ PANIC :: [])))))))))))))))))))))))))))

/-- `asm/core/log.asm:165`, label `log_after_topics`. -/
def b_log_after_topics : List I :=
  DUP 3 :: DUP 5 :: SWAP 1 :: /- %rlp_data_len -/
    STK 2 [.e 0, .e 1, .t (.lab "log@11.after")] /- (data_len, data_ptr) -> (data_len, data_ptr, log@11.after) -/ ::
    (m_jump (.lab "rlp_data_len") ++ [])

/-- `asm/core/log.asm:271`, label `log@11.after`: that of `%rlp_data_len`, expanded in `asm/core/log.asm`. -/
def b_log_11_after : List I :=
  /- end %rlp_data_len -/ DUP 3 :: (m_mul_const (.lit 33) ++ /- %rlp_list_len -/ DUP 1 :: (m_gt_const (.lit 55) ++
    (m_jumpi (.lab "log@12.large") ++ (m_increment ++ (m_jump (.lab "log@12.finish") ++ [])))))

/-- `asm/rlp/encode.asm:256`, label `log@12.large`: that of `%rlp_list_len`, expanded in `asm/core/log.asm`. -/
def b_log_12_large : List I :=
  DUP 1 :: /- %num_bytes -/ STK 1 [.e 0, .t (.lab "log@13.after")] /- (x) -> (x, log@13.after) -/ :: (m_jump (.lab "num_bytes") ++ [])

/-- `asm/rlp/encode.asm:264`, label `log@12.finish`: that of `%rlp_list_len`, expanded in `asm/core/log.asm`. -/
def b_log_12_finish : List I :=
  /- end %rlp_list_len -/ ADD :: (m_add_const (.lit 21) ++ (m_mload_global_metadata (.lit 0x500000028) ++ DUP 2 :: SWAP 1 ::
    (m_mstore_kernel1 (.lit 0x1a00000000) ++ /- %rlp_list_len -/ DUP 1 :: (m_gt_const (.lit 55) ++ (m_jumpi (.lab "log@14.large") ++
    (m_increment ++ (m_jump (.lab "log@14.finish") ++ [])))))))

/-- `asm/rlp/num_bytes.asm:25`, label `log@13.after`: that of `%num_bytes`, expanded in `asm/core/log.asm`. -/
def b_log_13_after : List I :=
  /- end %num_bytes -/ (m_increment ++ ADD :: b_log_12_finish)

/-- `asm/rlp/encode.asm:256`, label `log@14.large`: that of `%rlp_list_len`, expanded in `asm/core/log.asm`. -/
def b_log_14_large : List I :=
  DUP 1 :: /- %num_bytes -/ STK 1 [.e 0, .t (.lab "log@15.after")] /- (x) -> (x, log@15.after) -/ :: (m_jump (.lab "num_bytes") ++ [])

/-- `asm/core/log.asm:215`, label `store_log_data_loop`. -/
def b_store_log_data_loop : List I :=
  DUP 2 :: DUP 2 :: EQ :: (m_jumpi (.lab "store_log_data_loop_end") ++ DUP 3 :: MLOAD_GENERAL :: DUP 2 ::
    (m_mstore_kernel1 (.lit 0x1a00000000) ++ SWAP 2 :: (m_increment ++ SWAP 2 :: (m_increment ++ (m_jump (.lab "store_log_data_loop") ++ [])))))

/-- `asm/rlp/encode.asm:264`, label `log@14.finish`: that of `%rlp_list_len`, expanded in `asm/core/log.asm`. -/
def b_log_14_finish : List I :=
  /- end %rlp_list_len -/ (m_mload_global_metadata (.lit 0x500000029) ++ DUP 1 :: (m_mload_global_metadata (.lit 0x500000028) ++
    (m_journal_add_log ++ ADD :: (m_mstore_global_metadata (.lit 0x500000029) ++ DUP 3 :: DUP 2 :: (m_mstore_kernel1 (.lit 0x1a00000000) ++
    (m_increment ++ SWAP 1 :: POP :: DUP 1 :: SWAP 2 :: ADD :: SWAP 1 :: SWAP 2 :: PUSH 0x200000000 /- @SEGMENT_MAIN_MEMORY -/ ::
    GET_CONTEXT :: (m_build_address ++ SWAP 2 :: b_store_log_data_loop)))))))

/-- `asm/rlp/num_bytes.asm:25`, label `log@15.after`: that of `%num_bytes`, expanded in `asm/core/log.asm`. -/
def b_log_15_after : List I :=
  /- end %num_bytes -/ (m_increment ++ ADD :: b_log_14_finish)

/-- `asm/core/log.asm:233`, label `store_log_data_loop_end`. -/
def b_store_log_data_loop_end : List I :=
  POP :: (m_mstore_global_metadata (.lit 0x500000028) ++ POP :: JUMP :: [])

/-- `asm/core/log.asm:240`, label `rlp_data_len`. -/
def b_rlp_data_len : List I :=
  DUP 1 :: ISZERO :: (m_jumpi (.lab "data_single_byte") ++ DUP 1 :: PUSH 1 :: EQ :: (m_jumpi (.lab "one_byte_data") ++ /- %rlp_list_len -/
    DUP 1 :: (m_gt_const (.lit 55) ++ (m_jumpi (.lab "log@16.large") ++ (m_increment ++ (m_jump (.lab "log@16.finish") ++ []))))))

/-- `asm/rlp/encode.asm:256`, label `log@16.large`: that of `%rlp_list_len`, expanded in `asm/core/log.asm`. -/
def b_log_16_large : List I :=
  DUP 1 :: /- %num_bytes -/ STK 1 [.e 0, .t (.lab "log@17.after")] /- (x) -> (x, log@17.after) -/ :: (m_jump (.lab "num_bytes") ++ [])

/-- `asm/rlp/encode.asm:264`, label `log@16.finish`: that of `%rlp_list_len`, expanded in `asm/core/log.asm`. -/
def b_log_16_finish : List I :=
  /- end %rlp_list_len -/ SWAP 1 :: POP :: SWAP 1 :: JUMP :: []

/-- `asm/rlp/num_bytes.asm:25`, label `log@17.after`: that of `%num_bytes`, expanded in `asm/core/log.asm`. -/
def b_log_17_after : List I :=
  /- end %num_bytes -/ (m_increment ++ ADD :: b_log_16_finish)

/-- `asm/core/log.asm:250`, label `data_single_byte`. -/
def b_data_single_byte : List I :=
  (m_pop2 ++ PUSH 1 :: SWAP 1 :: JUMP :: [])

/-- `asm/core/log.asm:257`, label `one_byte_data`. -/
def b_one_byte_data : List I :=
  DUP 2 :: (m_mload_current (.lit 0x200000000) ++ (m_lt_const (.lit 128) ++ (m_jumpi (.lab "data_single_byte") ++ (m_pop2 ++ PUSH 2 ::
    SWAP 1 :: JUMP :: []))))

/-- The labels of this part of the kernel and what follows them. -/
def logCode : List (String × List I) :=
  [("sys_log0", b_sys_log0),
   ("log@2.no_update", b_log_2_no_update),
   ("log@2.end", b_log_2_end),
   ("log0_after_mem_gas", b_log0_after_mem_gas),
   ("sys_log1", b_sys_log1),
   ("log@4.no_update", b_log_4_no_update),
   ("log@4.end", b_log_4_end),
   ("log1_after_mem_gas", b_log1_after_mem_gas),
   ("sys_log2", b_sys_log2),
   ("log@6.no_update", b_log_6_no_update),
   ("log@6.end", b_log_6_end),
   ("log2_after_mem_gas", b_log2_after_mem_gas),
   ("sys_log3", b_sys_log3),
   ("log@8.no_update", b_log_8_no_update),
   ("log@8.end", b_log_8_end),
   ("log3_after_mem_gas", b_log3_after_mem_gas),
   ("sys_log4", b_sys_log4),
   ("log@10.no_update", b_log_10_no_update),
   ("log@10.end", b_log_10_end),
   ("log4_after_mem_gas", b_log4_after_mem_gas),
   ("finish_sys_log", b_finish_sys_log),
   ("log_n_entry", b_log_n_entry),
   ("log_after_topics", b_log_after_topics),
   ("log@11.after", b_log_11_after),
   ("log@12.large", b_log_12_large),
   ("log@13.after", b_log_13_after),
   ("log@12.finish", b_log_12_finish),
   ("log@14.large", b_log_14_large),
   ("log@15.after", b_log_15_after),
   ("log@14.finish", b_log_14_finish),
   ("store_log_data_loop", b_store_log_data_loop),
   ("store_log_data_loop_end", b_store_log_data_loop_end),
   ("rlp_data_len", b_rlp_data_len),
   ("log@16.large", b_log_16_large),
   ("log@17.after", b_log_17_after),
   ("log@16.finish", b_log_16_finish),
   ("data_single_byte", b_data_single_byte),
   ("one_byte_data", b_one_byte_data)]

end Verif.Kasm
