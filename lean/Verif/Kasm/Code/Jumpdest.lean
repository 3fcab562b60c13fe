import Verif.Kasm.Code.Macros

/-! Kernel code transcribed from `asm/core/jumpdest_analysis.asm`, `asm/core/exception.asm`: macros, and for every label the items from there on. -/

namespace Verif.Kasm


/-- `asm/core/jumpdest_analysis.asm:38`, label `continue`. -/
def b_continue : List I :=
  (m_add_const (.lab "code_bytes_to_skip") ++ (m_mload_kernel_code0 ++ ADD :: (m_jump (.lab "loop@jumpdest_analysis") ++ [])))

/-- `asm/core/jumpdest_analysis.asm:12`, label `loop@jumpdest_analysis`. -/
def b_loop_jumpdest_analysis : List I :=
  DUP 2 :: DUP 2 :: EQ :: (m_jumpi (.lab "proof_ok") ++ DUP 2 :: DUP 2 :: GT :: (m_jumpi (.lab "proof_not_ok") ++ DUP 1 :: MLOAD_GENERAL ::
    DUP 1 :: PUSH 91 :: SUB :: (m_jumpi (.lab "continue") ++
    STK 2 [.t (.lit 0xe00000000), .e 1, .e 0, .e 1] /- (JUMPDEST, i) -> (@SEGMENT_JUMPDEST_BITS, i, JUMPDEST, i) -/ :: ADD :: PUSH 1 ::
    MSTORE_GENERAL :: b_continue)))

/-- `asm/core/jumpdest_analysis.asm:5`, label `verify_path_and_write_jumpdest_table`. -/
def b_verify_path_and_write_jumpdest_table : List I :=
  SWAP 2 :: DUP 2 :: ADD :: SWAP 2 :: ADD :: b_loop_jumpdest_analysis

/-- `asm/core/jumpdest_analysis.asm:47`, label `proof_ok`. -/
def b_proof_ok : List I :=
  STK 2 [.t (.lit 0xe00000000), .e 1] /- (i, final_pos) -> (@SEGMENT_JUMPDEST_BITS, final_pos) -/ :: ADD :: PUSH 1 :: MSTORE_GENERAL ::
    JUMP :: []

/-- `asm/core/jumpdest_analysis.asm:55`, label `proof_not_ok`. -/
def b_proof_not_ok : List I :=
  (m_pop2 ++ JUMP :: [])

/-- `asm/core/jumpdest_analysis.asm:123`, label `write_table_if_jumpdest`. -/
def b_write_table_if_jumpdest : List I :=
  STK 3 [.e 2, .e 1, .e 1, .e 2, .e 0] /- (proof_prefix_addr, jumpdest, ctx) -> (ctx, jumpdest, jumpdest, ctx, proof_prefix_addr) -/ ::
    ADD :: MLOAD_GENERAL :: (m_jump_neq_const (.lit 91) (.lab "return") ++ SWAP 2 :: DUP 1 :: ISZERO ::
    (m_jumpi (.lab "verify_path_and_write_jumpdest_table") ++
    STK 2 [.e 1, .e 0, .t (.lit 32), .e 0, .e 1] /- (proof_prefix_addr, ctx) -> (ctx, proof_prefix_addr, 32, proof_prefix_addr, ctx) -/ ::
    ADD :: MLOAD_32BYTES :: DUP 1 :: (m_shl_const (.lit 1) ++ DUP 2 :: (m_shl_const (.lit 2) ++ AND :: DUP 2 :: NOT :: AND ::
    PUSH 0x8080808080808080808080808080808080808080808080808080808080808080 :: DUP 3 ::
    (m_and_const (.lit 0x1f1f1f1f1f1f1f1f1f1f1f1f1f1f1f1f1f1f1f1f1f1f1f1f1f1f1f1f1f1f1f1f) ++
    (m_add_const (.lit 0x102030405060708090a0b0c0d0e0f101112131415161718191a1b1c1d1e1f20) ++ (m_shl_const (.lit 2) ++ DUP 2 :: AND ::
    SWAP 2 :: AND :: AND :: (m_jumpi (.lab "panic") ++ POP :: (m_add_const (.lit 32) ++
    (m_jump (.lab "verify_path_and_write_jumpdest_table") ++ []))))))))))

/-- `asm/core/jumpdest_analysis.asm:200`, label `return`. -/
def b_return : List I :=
  (m_pop3 ++ JUMP :: [])

/-- `asm/core/jumpdest_analysis.asm:234`, label `jumpdest_analysis_end`. -/
def b_jumpdest_analysis_end : List I :=
  (m_pop2 ++ JUMP :: [])

/-- `asm/core/jumpdest_analysis.asm:224`, label `jumpdest_analysis`. -/
def b_jumpdest_analysis : List I :=
  INPUT "jumpdest_table::next_address" :: DUP 1 :: (m_jumpi (.lab "check_proof") ++ POP :: b_jumpdest_analysis_end)

/-- `asm/core/jumpdest_analysis.asm:237`, label `check_proof`. -/
def b_check_proof : List I :=
  DUP 3 :: DUP 2 :: (m_assert_le0 ++ (m_decrement ++ DUP 2 :: SWAP 1 :: INPUT "jumpdest_table::next_proof" :: /- %write_table_if_jumpdest -/
    STK 3 [.e 0, .e 1, .e 2, .t (.lab "jumpdest_analysis@1.after")] /- (proof_prefix_addr, jumpdest, ctx) -> (proof_prefix_addr, jumpdest, ctx, jumpdest_analysis@1.after) -/ ::
    (m_jump (.lab "write_table_if_jumpdest") ++ [])))

/-- `asm/core/jumpdest_analysis.asm:210`, label `jumpdest_analysis@1.after`: that of `%write_table_if_jumpdest`, expanded in `asm/core/jumpdest_analysis.asm`. -/
def b_jumpdest_analysis_1_after : List I :=
  /- end %write_table_if_jumpdest -/ (m_jump (.lab "jumpdest_analysis") ++ [])

/-- `asm/core/jumpdest_analysis.asm:263`, label `verify_non_jumpdest`. -/
def b_verify_non_jumpdest : List I :=
  GET_CONTEXT :: SWAP 1 :: INPUT "jumpdest_table::non_jumpdest_proof" :: DUP 2 :: DUP 2 :: (m_assert_le0 ++ /- %write_table_if_jumpdest -/
    STK 3 [.e 0, .e 1, .e 2, .t (.lab "jumpdest_analysis@2.after")] /- (proof_prefix_addr, jumpdest, ctx) -> (proof_prefix_addr, jumpdest, ctx, jumpdest_analysis@2.after) -/ ::
    (m_jump (.lab "write_table_if_jumpdest") ++ []))

/-- `asm/core/jumpdest_analysis.asm:210`, label `jumpdest_analysis@2.after`: that of `%write_table_if_jumpdest`, expanded in `asm/core/jumpdest_analysis.asm`. -/
def b_jumpdest_analysis_2_after : List I :=
  /- end %write_table_if_jumpdest -/ JUMP :: []

/-- `asm/core/exception.asm:126`, label `invalid_jump_jumpi_destination_common`. -/
def b_invalid_jump_jumpi_destination_common : List I :=
  PUSH 24576 /- @MAX_CODE_SIZE -/ :: DUP 2 :: GT :: (m_jumpi (.lab "fault_exception") ++ DUP 1 :: /- %verify_non_jumpdest -/
    STK 1 [.e 0, .t (.lab "exception@1.after")] /- (addr) -> (addr, exception@1.after) -/ :: (m_jump (.lab "verify_non_jumpdest") ++ []))

/-- `asm/core/jumpdest_analysis.asm:281`, label `exception@1.after`: that of `%verify_non_jumpdest`, expanded in `asm/core/exception.asm`. -/
def b_exception_1_after : List I :=
  /- end %verify_non_jumpdest -/ (m_mload_current (.lit 0xe00000000) ++ (m_jumpi (.lab "panic") ++ (m_jump (.lab "fault_exception") ++ [])))

/-- The labels of this part of the kernel and what follows them. -/
def jumpdestCode : List (String × List I) :=
  [("verify_path_and_write_jumpdest_table", b_verify_path_and_write_jumpdest_table),
   ("loop@jumpdest_analysis", b_loop_jumpdest_analysis),
   ("continue", b_continue),
   ("proof_ok", b_proof_ok),
   ("proof_not_ok", b_proof_not_ok),
   ("write_table_if_jumpdest", b_write_table_if_jumpdest),
   ("return", b_return),
   ("jumpdest_analysis", b_jumpdest_analysis),
   ("jumpdest_analysis_end", b_jumpdest_analysis_end),
   ("check_proof", b_check_proof),
   ("jumpdest_analysis@1.after", b_jumpdest_analysis_1_after),
   ("verify_non_jumpdest", b_verify_non_jumpdest),
   ("jumpdest_analysis@2.after", b_jumpdest_analysis_2_after),
   ("invalid_jump_jumpi_destination_common", b_invalid_jump_jumpi_destination_common),
   ("exception@1.after", b_exception_1_after)]

end Verif.Kasm
