import Verif.Kasm.Code.Macros

/-! Kernel code transcribed from `asm/memory/syscalls.asm`, `asm/memory/metadata.asm`: macros, and for every label the items from there on. -/

namespace Verif.Kasm


/-- `asm/memory/syscalls.asm:1`, label `sys_mload`. -/
def b_sys_mload : List I :=
  DUP 2 :: (m_ensure_reasonable_offset ++ (m_charge_gas_const (.lit 3) ++ DUP 2 :: (m_add_const (.lit 32) ++ /- %update_mem_bytes -/
    (m_num_bytes_to_num_words ++ /- %update_mem_words -/ (m_mem_words ++ DUP 2 :: DUP 2 :: GT :: (m_jumpi (.lab "syscalls@2.no_update") ++
    (m_memory_cost ++ SWAP 1 :: DUP 1 :: (m_mstore_context_metadata1 (.lit 0x60000000a) ++ (m_memory_cost ++ SUB :: (m_charge_gas ++
    (m_jump (.lab "syscalls@2.end") ++ [])))))))))))

/-- `asm/memory/metadata.asm:392`, label `syscalls@2.end`: that of `%update_mem_words`, expanded in `asm/memory/syscalls.asm`. -/
def b_syscalls_2_end : List I :=
  /- end %update_mem_words -/ /- end %update_mem_bytes -/
    STK 2 [.e 1, .t (.lit 32), .e 0] /- (kexit_info, offset) -> (offset, 32, kexit_info) -/ ::
    PUSH 0x200000000 /- @SEGMENT_MAIN_MEMORY -/ :: GET_CONTEXT :: (m_build_address ++ MLOAD_32BYTES ::
    STK 2 [.e 1, .e 0] /- (value, kexit_info) -> (kexit_info, value) -/ :: EXIT_KERNEL :: [])

/-- `asm/memory/metadata.asm:389`, label `syscalls@2.no_update`: that of `%update_mem_words`, expanded in `asm/memory/syscalls.asm`. -/
def b_syscalls_2_no_update : List I :=
  (m_pop2 ++ b_syscalls_2_end)

/-- `asm/memory/syscalls.asm:20`, label `sys_mstore`. -/
def b_sys_mstore : List I :=
  DUP 2 :: (m_ensure_reasonable_offset ++ (m_charge_gas_const (.lit 3) ++ DUP 2 :: (m_add_const (.lit 32) ++ /- %update_mem_bytes -/
    (m_num_bytes_to_num_words ++ /- %update_mem_words -/ (m_mem_words ++ DUP 2 :: DUP 2 :: GT :: (m_jumpi (.lab "syscalls@4.no_update") ++
    (m_memory_cost ++ SWAP 1 :: DUP 1 :: (m_mstore_context_metadata1 (.lit 0x60000000a) ++ (m_memory_cost ++ SUB :: (m_charge_gas ++
    (m_jump (.lab "syscalls@4.end") ++ [])))))))))))

/-- `asm/memory/metadata.asm:392`, label `syscalls@4.end`: that of `%update_mem_words`, expanded in `asm/memory/syscalls.asm`. -/
def b_syscalls_4_end : List I :=
  /- end %update_mem_words -/ /- end %update_mem_bytes -/
    STK 3 [.e 1, .e 2, .e 0] /- (kexit_info, offset, value) -> (offset, value, kexit_info) -/ ::
    PUSH 0x200000000 /- @SEGMENT_MAIN_MEMORY -/ :: GET_CONTEXT :: (m_build_address ++ MSTORE_32BYTES 32 :: POP :: EXIT_KERNEL :: [])

/-- `asm/memory/metadata.asm:389`, label `syscalls@4.no_update`: that of `%update_mem_words`, expanded in `asm/memory/syscalls.asm`. -/
def b_syscalls_4_no_update : List I :=
  (m_pop2 ++ b_syscalls_4_end)

/-- `asm/memory/syscalls.asm:40`, label `sys_mstore8`. -/
def b_sys_mstore8 : List I :=
  DUP 2 :: (m_ensure_reasonable_offset ++ (m_charge_gas_const (.lit 3) ++ DUP 2 :: (m_increment ++ /- %update_mem_bytes -/
    (m_num_bytes_to_num_words ++ /- %update_mem_words -/ (m_mem_words ++ DUP 2 :: DUP 2 :: GT :: (m_jumpi (.lab "syscalls@6.no_update") ++
    (m_memory_cost ++ SWAP 1 :: DUP 1 :: (m_mstore_context_metadata1 (.lit 0x60000000a) ++ (m_memory_cost ++ SUB :: (m_charge_gas ++
    (m_jump (.lab "syscalls@6.end") ++ [])))))))))))

/-- `asm/memory/metadata.asm:392`, label `syscalls@6.end`: that of `%update_mem_words`, expanded in `asm/memory/syscalls.asm`. -/
def b_syscalls_6_end : List I :=
  /- end %update_mem_words -/ /- end %update_mem_bytes -/
    STK 3 [.e 2, .t (.lit 256), .e 1, .e 0] /- (kexit_info, offset, value) -> (value, 256, offset, kexit_info) -/ :: MOD :: SWAP 1 ::
    (m_mstore_current1 (.lit 0x200000000) ++ EXIT_KERNEL :: [])

/-- `asm/memory/metadata.asm:389`, label `syscalls@6.no_update`: that of `%update_mem_words`, expanded in `asm/memory/syscalls.asm`. -/
def b_syscalls_6_no_update : List I :=
  (m_pop2 ++ b_syscalls_6_end)

/-- `asm/memory/syscalls.asm:68`, label `sys_calldataload_after_mload_packing`. -/
def b_sys_calldataload_after_mload_packing : List I :=
  SWAP 1 :: EXIT_KERNEL :: PANIC :: []

/-- `asm/memory/syscalls.asm:56`, label `sys_calldataload`. -/
def b_sys_calldataload : List I :=
  (m_charge_gas_const (.lit 3) ++ (m_mload_context_metadata (.lit 0x600000002) ++
    STK 3 [.e 0, .e 2, .e 1, .e 2] /- (calldata_size, kexit_info, i) -> (calldata_size, i, kexit_info, i) -/ :: LT ::
    (m_jumpi (.lab "calldataload_large_offset") ++
    STK 2 [.t (.lit 0x300000000), .e 1, .t (.lit 32), .e 0] /- (kexit_info, i) -> (@SEGMENT_CALLDATA, i, 32, kexit_info) -/ ::
    GET_CONTEXT :: (m_build_address ++ MLOAD_32BYTES :: b_sys_calldataload_after_mload_packing))))

/-- `asm/memory/syscalls.asm:73`, label `calldataload_large_offset`. -/
def b_calldataload_large_offset : List I :=
  STK 2 [.e 0, .t (.lit 0)] /- (kexit_info, i) -> (kexit_info, 0) -/ :: EXIT_KERNEL :: []

/-- `asm/memory/syscalls.asm:121`, label `codecopy_within_bounds`. -/
def b_codecopy_within_bounds : List I :=
  POP :: GET_CONTEXT ::
    STK 7 [.e 2, .e 1, .e 5, .t (.lit 0x200000000), .e 4, .e 0, .e 6, .t (.lab "codecopy_after"), .e 2, .e 3] /- (context, segment, src_ctx, kexit_info, dest_offset, offset, size) -> (src_ctx, segment, offset, @SEGMENT_MAIN_MEMORY, dest_offset, context, size, codecopy_after, src_ctx, kexit_info) -/ ::
    (m_build_address ++ SWAP 3 :: (m_build_address ++ (m_jump (.lab "memcpy_bytes") ++ [])))

/-- `asm/memory/syscalls.asm:133`, label `wcopy_within_bounds`. -/
def b_wcopy_within_bounds : List I :=
  GET_CONTEXT ::
    STK 6 [.e 1, .e 4, .t (.lit 0x200000000), .e 3, .e 0, .e 5, .t (.lab "wcopy_after"), .e 2] /- (context, base_addr, kexit_info, dest_offset, offset, size) -> (base_addr, offset, @SEGMENT_MAIN_MEMORY, dest_offset, context, size, wcopy_after, kexit_info) -/ ::
    ADD :: SWAP 3 :: (m_build_address ++ (m_jump (.lab "memcpy_bytes") ++ []))

/-- `asm/memory/syscalls.asm:143`, label `wcopy_empty`. -/
def b_wcopy_empty : List I :=
  (m_charge_gas ++ STK 4 [.e 0] /- (kexit_info, dest_offset, offset, size) -> (kexit_info) -/ :: EXIT_KERNEL :: [])

/-- `asm/memory/syscalls.asm:150`, label `codecopy_large_offset`. -/
def b_codecopy_large_offset : List I :=
  POP :: GET_CONTEXT ::
    STK 6 [.e 0, .t (.lit 0x200000000), .e 3, .e 5, .t (.lab "codecopy_after"), .e 1, .e 2] /- (context, src_ctx, kexit_info, dest_offset, offset, size) -> (context, @SEGMENT_MAIN_MEMORY, dest_offset, size, codecopy_after, src_ctx, kexit_info) -/ ::
    (m_build_address ++ (m_jump (.lab "memset") ++ []))

/-- `asm/memory/syscalls.asm:161`, label `wcopy_large_offset`. -/
def b_wcopy_large_offset : List I :=
  GET_CONTEXT ::
    STK 5 [.e 0, .t (.lit 0x200000000), .e 2, .e 4, .t (.lab "wcopy_after"), .e 1] /- (context, kexit_info, dest_offset, offset, size) -> (context, @SEGMENT_MAIN_MEMORY, dest_offset, size, wcopy_after, kexit_info) -/ ::
    (m_build_address ++ (m_jump (.lab "memset") ++ []))

/-- `asm/memory/syscalls.asm:170`, label `codecopy_after`. -/
def b_codecopy_after : List I :=
  DUP 1 :: GET_CONTEXT :: EQ :: (m_jumpi (.lab "codecopy_no_prune") ++ /- %prune_context -/
    STK 1 [.e 0, .t (.lab "syscalls@7.after")] /- (stale_ctx) -> (stale_ctx, syscalls@7.after) -/ :: (m_jump (.lab "prune_context") ++ []))

/-- `asm/memory/syscalls.asm:183`, label `codecopy_no_prune`. -/
def b_codecopy_no_prune : List I :=
  POP :: EXIT_KERNEL :: []

/-- `asm/memory/syscalls.asm:188`, label `wcopy_after`. -/
def b_wcopy_after : List I :=
  EXIT_KERNEL :: []

/-- `asm/memory/syscalls.asm:194`, label `sys_calldatacopy`. -/
def b_sys_calldatacopy : List I :=
  /- %wcopy -/ (m_wcopy_charge_gas ++
    STK 4 [.e 1, .e 3, .e 0, .e 1, .e 2, .e 3] /- (kexit_info, dest_offset, offset, size) -> (dest_offset, size, kexit_info, dest_offset, offset, size) -/ ::
    (m_add_or_fault ++ DUP 1 :: (m_ensure_reasonable_offset ++ /- %update_mem_bytes -/ (m_num_bytes_to_num_words ++ /- %update_mem_words -/
    (m_mem_words ++ DUP 2 :: DUP 2 :: GT :: (m_jumpi (.lab "syscalls@10.no_update") ++ (m_memory_cost ++ SWAP 1 :: DUP 1 ::
    (m_mstore_context_metadata1 (.lit 0x60000000a) ++ (m_memory_cost ++ SUB :: (m_charge_gas ++ (m_jump (.lab "syscalls@10.end") ++ [])))))))))))

/-- `asm/memory/metadata.asm:392`, label `syscalls@10.end`: that of `%update_mem_words`, expanded in `asm/memory/syscalls.asm`. -/
def b_syscalls_10_end : List I :=
  /- end %update_mem_words -/ /- end %update_mem_bytes -/ (m_mload_context_metadata (.lit 0x600000002) ++ DUP 4 :: GT ::
    (m_jumpi (.lab "wcopy_large_offset") ++ DUP 4 :: DUP 4 :: (m_check_u32_add ++ GET_CONTEXT ::
    PUSH 0x300000000 /- @SEGMENT_CALLDATA -/ :: (m_build_address_no_offset ++ (m_jump (.lab "wcopy_within_bounds") ++ /- end %wcopy -/ [])))))

/-- `asm/memory/metadata.asm:389`, label `syscalls@10.no_update`: that of `%update_mem_words`, expanded in `asm/memory/syscalls.asm`. -/
def b_syscalls_10_no_update : List I :=
  (m_pop2 ++ b_syscalls_10_end)

/-- `asm/memory/syscalls.asm:199`, label `sys_returndatacopy`. -/
def b_sys_returndatacopy : List I :=
  DUP 4 :: DUP 4 :: (m_add_or_fault ++ (m_mload_context_metadata (.lit 0x600000003) ++ LT :: (m_jumpi (.lab "fault_exception") ++
    /- %wcopy -/ (m_wcopy_charge_gas ++
    STK 4 [.e 1, .e 3, .e 0, .e 1, .e 2, .e 3] /- (kexit_info, dest_offset, offset, size) -> (dest_offset, size, kexit_info, dest_offset, offset, size) -/ ::
    (m_add_or_fault ++ DUP 1 :: (m_ensure_reasonable_offset ++ /- %update_mem_bytes -/ (m_num_bytes_to_num_words ++ /- %update_mem_words -/
    (m_mem_words ++ DUP 2 :: DUP 2 :: GT :: (m_jumpi (.lab "syscalls@13.no_update") ++ (m_memory_cost ++ SWAP 1 :: DUP 1 ::
    (m_mstore_context_metadata1 (.lit 0x60000000a) ++ (m_memory_cost ++ SUB :: (m_charge_gas ++ (m_jump (.lab "syscalls@13.end") ++ []))))))))))))))

/-- `asm/memory/metadata.asm:392`, label `syscalls@13.end`: that of `%update_mem_words`, expanded in `asm/memory/syscalls.asm`. -/
def b_syscalls_13_end : List I :=
  /- end %update_mem_words -/ /- end %update_mem_bytes -/ (m_mload_context_metadata (.lit 0x600000003) ++ DUP 4 :: GT ::
    (m_jumpi (.lab "wcopy_large_offset") ++ DUP 4 :: DUP 4 :: (m_check_u32_add ++ GET_CONTEXT ::
    PUSH 0x400000000 /- @SEGMENT_RETURNDATA -/ :: (m_build_address_no_offset ++ (m_jump (.lab "wcopy_within_bounds") ++ /- end %wcopy -/ [])))))

/-- `asm/memory/metadata.asm:389`, label `syscalls@13.no_update`: that of `%update_mem_words`, expanded in `asm/memory/syscalls.asm`. -/
def b_syscalls_13_no_update : List I :=
  (m_pop2 ++ b_syscalls_13_end)

/-- `asm/memory/syscalls.asm:207`, label `sys_codecopy`. -/
def b_sys_codecopy : List I :=
  (m_wcopy_charge_gas ++
    STK 4 [.e 1, .e 3, .e 0, .e 1, .e 2, .e 3] /- (kexit_info, dest_offset, offset, size) -> (dest_offset, size, kexit_info, dest_offset, offset, size) -/ ::
    (m_add_or_fault ++ DUP 1 :: (m_ensure_reasonable_offset ++ /- %update_mem_bytes -/ (m_num_bytes_to_num_words ++ /- %update_mem_words -/
    (m_mem_words ++ DUP 2 :: DUP 2 :: GT :: (m_jumpi (.lab "syscalls@15.no_update") ++ (m_memory_cost ++ SWAP 1 :: DUP 1 ::
    (m_mstore_context_metadata1 (.lit 0x60000000a) ++ (m_memory_cost ++ SUB :: (m_charge_gas ++ (m_jump (.lab "syscalls@15.end") ++ [])))))))))))

/-- `asm/memory/metadata.asm:392`, label `syscalls@15.end`: that of `%update_mem_words`, expanded in `asm/memory/syscalls.asm`. -/
def b_syscalls_15_end : List I :=
  /- end %update_mem_words -/ /- end %update_mem_bytes -/ GET_CONTEXT :: (m_mload_context_metadata (.lit 0x600000005) ++
    (m_codecopy_after_checks (.lit 0) ++ []))

/-- `asm/memory/metadata.asm:389`, label `syscalls@15.no_update`: that of `%update_mem_words`, expanded in `asm/memory/syscalls.asm`. -/
def b_syscalls_15_no_update : List I :=
  (m_pop2 ++ b_syscalls_15_end)

/-- `asm/memory/syscalls.asm:267`, label `sys_mcopy`. -/
def b_sys_mcopy : List I :=
  (m_wcopy_charge_gas ++
    STK 4 [.e 1, .e 3, .e 0, .e 1, .e 2, .e 3] /- (kexit_info, dest_offset, offset, size) -> (dest_offset, size, kexit_info, dest_offset, offset, size) -/ ::
    (m_add_or_fault ++ DUP 1 :: (m_ensure_reasonable_offset ++ /- %update_mem_bytes -/ (m_num_bytes_to_num_words ++ /- %update_mem_words -/
    (m_mem_words ++ DUP 2 :: DUP 2 :: GT :: (m_jumpi (.lab "syscalls@20.no_update") ++ (m_memory_cost ++ SWAP 1 :: DUP 1 ::
    (m_mstore_context_metadata1 (.lit 0x60000000a) ++ (m_memory_cost ++ SUB :: (m_charge_gas ++ (m_jump (.lab "syscalls@20.end") ++ [])))))))))))

/-- `asm/memory/metadata.asm:392`, label `syscalls@20.end`: that of `%update_mem_words`, expanded in `asm/memory/syscalls.asm`. -/
def b_syscalls_20_end : List I :=
  /- end %update_mem_words -/ /- end %update_mem_bytes -/
    STK 4 [.e 2, .e 3, .e 0, .e 1, .e 2, .e 3] /- (kexit_info, dest_offset, offset, size) -> (offset, size, kexit_info, dest_offset, offset, size) -/ ::
    (m_add_or_fault ++ DUP 1 :: (m_ensure_reasonable_offset ++ /- %update_mem_bytes -/ (m_num_bytes_to_num_words ++ /- %update_mem_words -/
    (m_mem_words ++ DUP 2 :: DUP 2 :: GT :: (m_jumpi (.lab "syscalls@22.no_update") ++ (m_memory_cost ++ SWAP 1 :: DUP 1 ::
    (m_mstore_context_metadata1 (.lit 0x60000000a) ++ (m_memory_cost ++ SUB :: (m_charge_gas ++ (m_jump (.lab "syscalls@22.end") ++ []))))))))))

/-- `asm/memory/metadata.asm:389`, label `syscalls@20.no_update`: that of `%update_mem_words`, expanded in `asm/memory/syscalls.asm`. -/
def b_syscalls_20_no_update : List I :=
  (m_pop2 ++ b_syscalls_20_end)

/-- `asm/memory/metadata.asm:392`, label `syscalls@22.end`: that of `%update_mem_words`, expanded in `asm/memory/syscalls.asm`. -/
def b_syscalls_22_end : List I :=
  /- end %update_mem_words -/ /- end %update_mem_bytes -/ DUP 3 :: DUP 3 :: EQ :: (m_jumpi (.lab "mcopy_empty") ++ GET_CONTEXT ::
    PUSH 0x200000000 /- @SEGMENT_MAIN_MEMORY -/ :: (m_build_address_no_offset ++ DUP 4 :: DUP 4 :: LT ::
    (m_jumpi (.lab "wcopy_within_bounds") ++ DUP 5 :: PUSH 32 :: (m_min ++ DUP 5 :: DUP 7 :: ADD :: DUP 5 :: LT :: DUP 2 :: DUP 8 :: GT ::
    MUL :: (m_jumpi (.lab "mcopy_with_overlap") ++ POP :: (m_jump (.lab "wcopy_within_bounds") ++ []))))))

/-- `asm/memory/metadata.asm:389`, label `syscalls@22.no_update`: that of `%update_mem_words`, expanded in `asm/memory/syscalls.asm`. -/
def b_syscalls_22_no_update : List I :=
  (m_pop2 ++ b_syscalls_22_end)

/-- `asm/memory/syscalls.asm:322`, label `mcopy_with_overlap`. -/
def b_mcopy_with_overlap : List I :=
  DUP 1 :: DUP 7 :: DUP 7 :: ADD :: SUB :: SWAP 4 :: DUP 7 :: ADD :: SUB :: DUP 2 :: ADD :: SWAP 3 :: ADD ::
    STK 5 [.e 2, .e 0, .e 4, .t (.lab "wcopy_after"), .e 1] /- (SRC, kexit_info, DST, offset, size) -> (DST, SRC, size, wcopy_after, kexit_info) -/ ::
    (m_jump (.lab "memcpy_bytes_backwards") ++ [])

/-- `asm/memory/syscalls.asm:346`, label `mcopy_empty`. -/
def b_mcopy_empty : List I :=
  STK 4 [.e 0] /- (kexit_info, dest_offset, offset, size) -> (kexit_info) -/ :: EXIT_KERNEL :: []

/-- `asm/memory/metadata.asm:167`, label `sys_msize`. -/
def b_sys_msize : List I :=
  (m_charge_gas_const (.lit 2) ++ (m_msize ++ SWAP 1 :: EXIT_KERNEL :: []))

/-- The labels of this part of the kernel and what follows them. -/
def memSysCode : List (String × List I) :=
  [("sys_mload", b_sys_mload),
   ("syscalls@2.no_update", b_syscalls_2_no_update),
   ("syscalls@2.end", b_syscalls_2_end),
   ("sys_mstore", b_sys_mstore),
   ("syscalls@4.no_update", b_syscalls_4_no_update),
   ("syscalls@4.end", b_syscalls_4_end),
   ("sys_mstore8", b_sys_mstore8),
   ("syscalls@6.no_update", b_syscalls_6_no_update),
   ("syscalls@6.end", b_syscalls_6_end),
   ("sys_calldataload", b_sys_calldataload),
   ("sys_calldataload_after_mload_packing", b_sys_calldataload_after_mload_packing),
   ("calldataload_large_offset", b_calldataload_large_offset),
   ("codecopy_within_bounds", b_codecopy_within_bounds),
   ("wcopy_within_bounds", b_wcopy_within_bounds),
   ("wcopy_empty", b_wcopy_empty),
   ("codecopy_large_offset", b_codecopy_large_offset),
   ("wcopy_large_offset", b_wcopy_large_offset),
   ("codecopy_after", b_codecopy_after),
   ("codecopy_no_prune", b_codecopy_no_prune),
   ("wcopy_after", b_wcopy_after),
   ("sys_calldatacopy", b_sys_calldatacopy),
   ("syscalls@10.no_update", b_syscalls_10_no_update),
   ("syscalls@10.end", b_syscalls_10_end),
   ("sys_returndatacopy", b_sys_returndatacopy),
   ("syscalls@13.no_update", b_syscalls_13_no_update),
   ("syscalls@13.end", b_syscalls_13_end),
   ("sys_codecopy", b_sys_codecopy),
   ("syscalls@15.no_update", b_syscalls_15_no_update),
   ("syscalls@15.end", b_syscalls_15_end),
   ("sys_mcopy", b_sys_mcopy),
   ("syscalls@20.no_update", b_syscalls_20_no_update),
   ("syscalls@20.end", b_syscalls_20_end),
   ("syscalls@22.no_update", b_syscalls_22_no_update),
   ("syscalls@22.end", b_syscalls_22_end),
   ("mcopy_with_overlap", b_mcopy_with_overlap),
   ("mcopy_empty", b_mcopy_empty),
   ("sys_msize", b_sys_msize)]

end Verif.Kasm
