import Verif.Kasm.Code.Macros2

/-! Kernel code transcribed from `asm/core/process_txn.asm`: macros, and for every label the items from there on. -/

namespace Verif.Kasm


/-- `asm/core/process_txn.asm:6`, label `process_normalized_txn`. -/
def b_process_normalized_txn : List I :=
  (m_compute_fees ++ /- %intrinsic_gas -/ PUSHL "process_txn@1.after" :: (m_jump (.lab "intrinsic_gas") ++ []))

/-- `asm/core/intrinsic_gas.asm:82`, label `process_txn@1.after`: that of `%intrinsic_gas`, expanded in `asm/core/process_txn.asm`. -/
def b_process_txn_1_after : List I :=
  /- end %intrinsic_gas -/ DUP 1 :: (m_mstore_txn_field (.lit 0x900000007) ++ (m_mload_txn_field (.lit 0x900000006) ++
    (m_assert_ge1 (.lab "invalid_txn") ++ (m_mload_txn_field (.lit 0x900000006) ++ (m_mload_global_metadata (.lit 0x500000011) ++
    (m_assert_ge1 (.lab "invalid_txn") ++ (m_mload_txn_field (.lit 0x90000000f) ++ DUP 1 :: /- %nonce -/
    STK 1 [.e 0, .t (.lab "process_txn@2.after")] /- (address) -> (address, process_txn@2.after) -/ :: (m_jump (.lab "nonce") ++ []))))))))

/-- `asm/core/nonce.asm:19`, label `process_txn@2.after`: that of `%nonce`, expanded in `asm/core/process_txn.asm`. -/
def b_process_txn_2_after : List I :=
  /- end %nonce -/ DUP 1 :: (m_eq_const (.lit 0xffffffffffffffff) ++ (m_assert_zero1 (.lab "invalid_txn_2") ++
    (m_mload_txn_field (.lit 0x900000003) ++ (m_assert_eq1 (.lab "invalid_txn_1") ++ DUP 1 :: /- %ext_code_empty -/ /- %extcodehash -/
    STK 1 [.e 0, .t (.lab "process_txn@4.after")] /- (address) -> (address, process_txn@4.after) -/ :: (m_jump (.lab "extcodehash") ++ [])))))

/-- `asm/account_code.asm:42`, label `process_txn@4.after`: that of `%extcodehash`, expanded in `asm/core/process_txn.asm`. -/
def b_process_txn_4_after : List I :=
  /- end %extcodehash -/ (m_eq_const (.lit 0xc5d2460186f7233c927e7db2dcc703c0e500b653ca82273b7bfad8045d85a470) ++ /- end %ext_code_empty -/
    (m_assert_nonzero1 (.lab "invalid_txn_1") ++ /- %balance -/
    STK 1 [.e 0, .t (.lab "process_txn@5.after")] /- (address) -> (address, process_txn@5.after) -/ :: (m_jump (.lab "balance") ++ [])))

/-- `asm/core/process_txn.asm:67`, label `buy_gas`. -/
def b_buy_gas : List I :=
  (m_mload_txn_field (.lit 0x900000010) ++ (m_mload_txn_field (.lit 0x900000006) ++ MUL :: (m_mload_txn_field (.lit 0x90000000f) ++
    /- %deduct_eth -/ STK 2 [.e 0, .e 1, .t (.lab "process_txn@6.after")] /- (addr, amount) -> (addr, amount, process_txn@6.after) -/ ::
    (m_jump (.lab "deduct_eth") ++ []))))

/-- `asm/balance.asm:25`, label `process_txn@5.after`: that of `%balance`, expanded in `asm/core/process_txn.asm`. -/
def b_process_txn_5_after : List I :=
  /- end %balance -/ (m_mload_txn_field (.lit 0x900000010) ++ (m_mload_txn_field (.lit 0x900000006) ++ MUL ::
    (m_mload_txn_field (.lit 0x900000009) ++ ADD :: (m_assert_le1 (.lab "invalid_txn") ++ (m_mload_txn_field (.lit 0x900000001) ++ DUP 1 ::
    (m_mload_txn_field (.lit 0x900000002) ++ MUL :: SWAP 1 :: (m_mload_global_metadata (.lit 0x500000012) ++ MUL ::
    (m_assert_eq1 (.lab "invalid_txn") ++ b_buy_gas))))))))

/-- `asm/core/process_txn.asm:84`, label `increment_sender_nonce`. -/
def b_increment_sender_nonce : List I :=
  (m_mload_txn_field (.lit 0x90000000f) ++ DUP 1 :: /- %increment_nonce -/
    STK 1 [.e 0, .t (.lab "process_txn@7.after")] /- (address) -> (address, process_txn@7.after) -/ :: (m_jump (.lab "increment_nonce") ++ []))

/-- `asm/core/transfer.asm:60`, label `process_txn@6.after`: that of `%deduct_eth`, expanded in `asm/core/process_txn.asm`. -/
def b_process_txn_6_after : List I :=
  /- end %deduct_eth -/ (m_jumpi (.lab "panic") ++ b_increment_sender_nonce)

/-- `asm/core/process_txn.asm:317`, label `process_message_txn_after_call_contd`. -/
def b_process_message_txn_after_call_contd : List I :=
  /- %pay_coinbase_and_refund_sender -/ DUP 1 :: (m_mload_txn_field (.lit 0x900000006) ++ SUB ::
    (m_mload_global_metadata (.lit 0x50000001b) ++ DUP 2 :: (m_div_const (.lit 5) ++ (m_min ++
    STK 3 [.e 2, .e 0, .e 0, .e 1] /- (refund, used_gas, leftover_gas) -> (leftover_gas, refund, refund, used_gas) -/ :: ADD :: SWAP 2 ::
    SUB :: (m_mload_txn_field (.lit 0x900000011) ++ MUL :: (m_mload_global_metadata (.lit 0x50000000c) ++ /- %add_eth -/
    STK 2 [.e 0, .e 1, .t (.lab "process_txn@65.after")] /- (addr, amount) -> (addr, amount, process_txn@65.after) -/ ::
    (m_jump (.lab "add_eth") ++ [])))))))

/-- `asm/core/transfer.asm:115`, label `process_txn@65.after`: that of `%add_eth`, expanded in `asm/core/process_txn.asm`. -/
def b_process_txn_65_after : List I :=
  /- end %add_eth -/ DUP 1 :: (m_mload_txn_field (.lit 0x900000010) ++ MUL :: (m_mload_txn_field (.lit 0x90000000f) ++ /- %add_eth -/
    STK 2 [.e 0, .e 1, .t (.lab "process_txn@66.after")] /- (addr, amount) -> (addr, amount, process_txn@66.after) -/ ::
    (m_jump (.lab "add_eth") ++ [])))

/-- `asm/core/transfer.asm:115`, label `process_txn@66.after`: that of `%add_eth`, expanded in `asm/core/process_txn.asm`. -/
def b_process_txn_66_after : List I :=
  /- end %add_eth -/ /- end %pay_coinbase_and_refund_sender -/ SWAP 4 :: POP :: /- %delete_all_touched_addresses -/
    STK 0 [.t (.lab "process_txn@67.after")] /- () -> (process_txn@67.after) -/ :: (m_jump (.lab "delete_all_touched_addresses") ++ [])

/-- `asm/core/process_txn.asm:517`, label `invalid_txn`. -/
def b_invalid_txn : List I :=
  POP :: (m_mload_txn_field (.lit 0x900000006) ++ PUSH 0 :: (m_jump (.lab "txn_loop_after") ++ []))

/-- `asm/core/process_txn.asm:523`, label `invalid_txn_1`. -/
def b_invalid_txn_1 : List I :=
  (m_pop2 ++ (m_mload_txn_field (.lit 0x900000006) ++ PUSH 0 :: (m_jump (.lab "txn_loop_after") ++ [])))

/-- `asm/core/process_txn.asm:529`, label `invalid_txn_2`. -/
def b_invalid_txn_2 : List I :=
  (m_pop3 ++ (m_mload_txn_field (.lit 0x900000006) ++ PUSH 0 :: (m_jump (.lab "txn_loop_after") ++ [])))

/-- `asm/core/process_txn.asm:535`, label `invalid_txn_3`. -/
def b_invalid_txn_3 : List I :=
  (m_pop4 ++ (m_mload_txn_field (.lit 0x900000006) ++ PUSH 0 :: (m_jump (.lab "txn_loop_after") ++ [])))

/-- The labels of this part of the kernel and what follows them. -/
def processTxnCode : List (String × List I) :=
  [("process_normalized_txn", b_process_normalized_txn),
   ("process_txn@1.after", b_process_txn_1_after),
   ("process_txn@2.after", b_process_txn_2_after),
   ("process_txn@4.after", b_process_txn_4_after),
   ("process_txn@5.after", b_process_txn_5_after),
   ("buy_gas", b_buy_gas),
   ("process_txn@6.after", b_process_txn_6_after),
   ("increment_sender_nonce", b_increment_sender_nonce),
   ("process_message_txn_after_call_contd", b_process_message_txn_after_call_contd),
   ("process_txn@65.after", b_process_txn_65_after),
   ("process_txn@66.after", b_process_txn_66_after),
   ("invalid_txn", b_invalid_txn),
   ("invalid_txn_1", b_invalid_txn_1),
   ("invalid_txn_2", b_invalid_txn_2),
   ("invalid_txn_3", b_invalid_txn_3)]

end Verif.Kasm
