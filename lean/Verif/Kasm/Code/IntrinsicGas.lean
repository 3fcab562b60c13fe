import Verif.Kasm.Code.Macros2

/-! Kernel code transcribed from `asm/core/intrinsic_gas.asm`: macros, and for every label the items from there on. -/

namespace Verif.Kasm


/-- `asm/core/intrinsic_gas.asm:7`, label `count_zeros_loop`. -/
def b_count_zeros_loop : List I :=
  DUP 1 :: (m_mload_txn_field (.lit 0x90000000a) ++ EQ :: (m_jumpi (.lab "count_zeros_finish") ++ DUP 1 ::
    (m_mload_kernel (.lit 0xa00000000) ++ ISZERO ::
    STK 3 [.e 0, .e 2, .e 1] /- (data_i_is_zero, i, zeros) -> (data_i_is_zero, zeros, i) -/ :: ADD :: SWAP 1 :: (m_increment ++
    (m_jump (.lab "count_zeros_loop") ++ [])))))

/-- `asm/core/intrinsic_gas.asm:1`, label `intrinsic_gas`. -/
def b_intrinsic_gas : List I :=
  PUSH 0 :: PUSH 0 :: b_count_zeros_loop

/-- `asm/core/intrinsic_gas.asm:29`, label `count_zeros_finish`. -/
def b_count_zeros_finish : List I :=
  POP :: DUP 1 :: (m_mload_txn_field (.lit 0x90000000a) ++ SUB :: (m_mul_const (.lit 16) ++ SWAP 1 :: (m_mul_const (.lit 4) ++ ADD ::
    (m_is_contract_creation ++ DUP 1 :: (m_mul_const (.lit 32000) ++ SWAP 1 :: DUP 1 :: (m_mload_txn_field (.lit 0x90000000a) ++
    (m_gt_const (.lit 49152) ++ MUL :: (m_assert_zero0 ++ (m_mload_txn_field (.lit 0x90000000a) ++ (m_num_bytes_to_num_words ++
    (m_mul_const (.lit 2) ++ MUL :: ADD :: PUSH 21000 /- @GAS_TRANSACTION -/ :: ADD :: ADD ::
    (m_mload_global_metadata (.lit 0x500000023) ++ ADD :: SWAP 1 :: JUMP :: []))))))))))))

/-- The labels of this part of the kernel and what follows them. -/
def intrinsicGasCode : List (String × List I) :=
  [("intrinsic_gas", b_intrinsic_gas),
   ("count_zeros_loop", b_count_zeros_loop),
   ("count_zeros_finish", b_count_zeros_finish)]

end Verif.Kasm
