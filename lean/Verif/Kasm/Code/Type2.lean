import Verif.Kasm.Code.Macros2

/-! Kernel code transcribed from `asm/transactions/type_2.asm`: macros, and for every label the items from there on. -/

namespace Verif.Kasm


/-- `asm/transactions/type_2.asm:10`, label `process_type_2_txn`. -/
def b_process_type_2_txn : List I :=
  PUSH 2 :: (m_mstore_txn_field (.lit 0x900000000) ++ (m_add_const (.lit 1) ++ /- %decode_rlp_list_len -/
    STK 1 [.e 0, .t (.lab "type_2@1.after")] /- (rlp_addr) -> (rlp_addr, type_2@1.after) -/ :: (m_jump (.lab "decode_rlp_list_len") ++ [])))

/-- `asm/rlp/decode.asm:126`, label `type_2@1.after`: that of `%decode_rlp_list_len`, expanded in `asm/transactions/type_2.asm`. -/
def b_type_2_1_after : List I :=
  /- end %decode_rlp_list_len -/ STK 2 [.e 0] /- (rlp_addr, len) -> (rlp_addr) -/ :: (m_store_chain_id_present_true ++ DUP 1 ::
    /- %decode_and_store_chain_id -/ /- %decode_rlp_scalar -/
    STK 1 [.e 0, .t (.lab "type_2@3.after")] /- (rlp_addr) -> (rlp_addr, type_2@3.after) -/ :: (m_jump (.lab "decode_rlp_scalar") ++ []))

/-- `asm/rlp/decode.asm:83`, label `type_2@3.after`: that of `%decode_rlp_scalar`, expanded in `asm/transactions/type_2.asm`. -/
def b_type_2_3_after : List I :=
  /- end %decode_rlp_scalar -/ STK 2 [.e 1, .e 0] /- (rlp_addr, chain_id) -> (chain_id, rlp_addr) -/ ::
    (m_mstore_txn_field (.lit 0x900000002) ++ /- end %decode_and_store_chain_id -/ /- %decode_and_store_nonce -/ /- %decode_rlp_scalar -/
    STK 1 [.e 0, .t (.lab "type_2@5.after")] /- (rlp_addr) -> (rlp_addr, type_2@5.after) -/ :: (m_jump (.lab "decode_rlp_scalar") ++ []))

/-- `asm/rlp/decode.asm:83`, label `type_2@5.after`: that of `%decode_rlp_scalar`, expanded in `asm/transactions/type_2.asm`. -/
def b_type_2_5_after : List I :=
  /- end %decode_rlp_scalar -/ STK 2 [.e 1, .e 0] /- (rlp_addr, nonce) -> (nonce, rlp_addr) -/ :: (m_mstore_txn_field (.lit 0x900000003) ++
    /- end %decode_and_store_nonce -/ /- %decode_and_store_max_priority_fee -/ /- %decode_rlp_scalar -/
    STK 1 [.e 0, .t (.lab "type_2@7.after")] /- (rlp_addr) -> (rlp_addr, type_2@7.after) -/ :: (m_jump (.lab "decode_rlp_scalar") ++ []))

/-- `asm/rlp/decode.asm:83`, label `type_2@7.after`: that of `%decode_rlp_scalar`, expanded in `asm/transactions/type_2.asm`. -/
def b_type_2_7_after : List I :=
  /- end %decode_rlp_scalar -/ STK 2 [.e 1, .e 0] /- (rlp_addr, gas_price) -> (gas_price, rlp_addr) -/ ::
    (m_mstore_txn_field (.lit 0x900000004) ++ /- end %decode_and_store_max_priority_fee -/ /- %decode_and_store_max_fee -/
    /- %decode_rlp_scalar -/ STK 1 [.e 0, .t (.lab "type_2@9.after")] /- (rlp_addr) -> (rlp_addr, type_2@9.after) -/ ::
    (m_jump (.lab "decode_rlp_scalar") ++ []))

/-- `asm/rlp/decode.asm:83`, label `type_2@9.after`: that of `%decode_rlp_scalar`, expanded in `asm/transactions/type_2.asm`. -/
def b_type_2_9_after : List I :=
  /- end %decode_rlp_scalar -/ STK 2 [.e 1, .e 0] /- (rlp_addr, gas_price) -> (gas_price, rlp_addr) -/ ::
    (m_mstore_txn_field (.lit 0x900000005) ++ /- end %decode_and_store_max_fee -/ /- %decode_and_store_gas_limit -/
    /- %decode_rlp_scalar -/ STK 1 [.e 0, .t (.lab "type_2@11.after")] /- (rlp_addr) -> (rlp_addr, type_2@11.after) -/ ::
    (m_jump (.lab "decode_rlp_scalar") ++ []))

/-- `asm/rlp/decode.asm:83`, label `type_2@11.after`: that of `%decode_rlp_scalar`, expanded in `asm/transactions/type_2.asm`. -/
def b_type_2_11_after : List I :=
  /- end %decode_rlp_scalar -/ STK 2 [.e 1, .e 0] /- (rlp_addr, gas_limit) -> (gas_limit, rlp_addr) -/ ::
    (m_mstore_txn_field (.lit 0x900000006) ++ /- end %decode_and_store_gas_limit -/ /- %decode_and_store_to -/ /- %decode_rlp_string_len -/
    STK 1 [.e 0, .t (.lab "type_2@13.after")] /- (rlp_addr) -> (rlp_addr, type_2@13.after) -/ :: (m_jump (.lab "decode_rlp_string_len") ++ []))

/-- `asm/rlp/decode.asm:58`, label `type_2@13.after`: that of `%decode_rlp_string_len`, expanded in `asm/transactions/type_2.asm`. -/
def b_type_2_13_after : List I :=
  /- end %decode_rlp_string_len -/ SWAP 1 :: DUP 1 :: ISZERO :: (m_jumpi (.lab "type_2@12.contract_creation") ++ DUP 1 ::
    (m_eq_const (.lit 20) ++ ISZERO :: (m_jumpi (.lab "invalid_txn") ++
    STK 2 [.e 1, .e 0, .t (.lab "type_2@12.with_scalar")] /- (len, rlp_addr) -> (rlp_addr, len, type_2@12.with_scalar) -/ ::
    (m_jump (.lab "decode_int_given_len") ++ []))))

/-- `asm/transactions/common_decoding.asm:76`, label `type_2@12.with_scalar`: that of `%decode_and_store_to`, expanded in `asm/transactions/type_2.asm`. -/
def b_type_2_12_with_scalar : List I :=
  SWAP 1 :: (m_mstore_txn_field (.lit 0x900000008) ++ (m_jump (.lab "type_2@12.end") ++ []))

/-- `asm/transactions/common_decoding.asm:87`, label `type_2@12.end`: that of `%decode_and_store_to`, expanded in `asm/transactions/type_2.asm`. -/
def b_type_2_12_end : List I :=
  /- end %decode_and_store_to -/ /- %decode_and_store_value -/ /- %decode_rlp_scalar -/
    STK 1 [.e 0, .t (.lab "type_2@15.after")] /- (rlp_addr) -> (rlp_addr, type_2@15.after) -/ :: (m_jump (.lab "decode_rlp_scalar") ++ [])

/-- `asm/transactions/common_decoding.asm:82`, label `type_2@12.contract_creation`: that of `%decode_and_store_to`, expanded in `asm/transactions/type_2.asm`. -/
def b_type_2_12_contract_creation : List I :=
  POP :: PUSH 1 :: (m_mstore_global_metadata (.lit 0x500000024) ++ b_type_2_12_end)

/-- `asm/rlp/decode.asm:83`, label `type_2@15.after`: that of `%decode_rlp_scalar`, expanded in `asm/transactions/type_2.asm`. -/
def b_type_2_15_after : List I :=
  /- end %decode_rlp_scalar -/ STK 2 [.e 1, .e 0] /- (rlp_addr, value) -> (value, rlp_addr) -/ :: (m_mstore_txn_field (.lit 0x900000009) ++
    /- end %decode_and_store_value -/ /- %decode_and_store_data -/ /- %decode_rlp_string_len -/
    STK 1 [.e 0, .t (.lab "type_2@17.after")] /- (rlp_addr) -> (rlp_addr, type_2@17.after) -/ :: (m_jump (.lab "decode_rlp_string_len") ++ []))

/-- `asm/rlp/decode.asm:58`, label `type_2@17.after`: that of `%decode_rlp_string_len`, expanded in `asm/transactions/type_2.asm`. -/
def b_type_2_17_after : List I :=
  /- end %decode_rlp_string_len -/
    STK 2 [.e 1, .e 0, .e 1, .e 0, .e 1] /- (rlp_addr, data_len) -> (data_len, rlp_addr, data_len, rlp_addr, data_len) -/ ::
    (m_mstore_txn_field (.lit 0x90000000a) ++ ADD ::
    STK 3 [.e 1, .e 2, .t (.lab "type_2@16.after"), .e 0] /- (new_rlp_addr, old_rlp_addr, data_len) -> (old_rlp_addr, data_len, type_2@16.after, new_rlp_addr) -/ ::
    GET_CONTEXT :: ADD :: PUSH 0xa00000000 /- @SEGMENT_TXN_DATA -/ :: GET_CONTEXT :: ADD :: (m_jump (.lab "memcpy_bytes") ++ []))

/-- `asm/transactions/common_decoding.asm:119`, label `type_2@16.after`: that of `%decode_and_store_data`, expanded in `asm/transactions/type_2.asm`. -/
def b_type_2_16_after : List I :=
  /- end %decode_and_store_data -/ /- %decode_and_store_access_list -/
    STK 1 [.e 0, .t (.lab "type_2@18.after")] /- (rlp_addr) -> (rlp_addr, type_2@18.after) -/ ::
    (m_jump (.lab "decode_and_store_access_list") ++ [])

/-- `asm/transactions/common_decoding.asm:127`, label `type_2@18.after`: that of `%decode_and_store_access_list`, expanded in `asm/transactions/type_2.asm`. -/
def b_type_2_18_after : List I :=
  /- end %decode_and_store_access_list -/ DUP 1 :: /- %decode_and_store_y_parity -/ /- %decode_rlp_scalar -/
    STK 1 [.e 0, .t (.lab "type_2@20.after")] /- (rlp_addr) -> (rlp_addr, type_2@20.after) -/ :: (m_jump (.lab "decode_rlp_scalar") ++ [])

/-- `asm/rlp/decode.asm:83`, label `type_2@20.after`: that of `%decode_rlp_scalar`, expanded in `asm/transactions/type_2.asm`. -/
def b_type_2_20_after : List I :=
  /- end %decode_rlp_scalar -/ STK 2 [.e 1, .e 0] /- (rlp_addr, y_parity) -> (y_parity, rlp_addr) -/ ::
    (m_mstore_txn_field (.lit 0x90000000c) ++ /- end %decode_and_store_y_parity -/ /- %decode_and_store_r -/ /- %decode_rlp_scalar -/
    STK 1 [.e 0, .t (.lab "type_2@22.after")] /- (rlp_addr) -> (rlp_addr, type_2@22.after) -/ :: (m_jump (.lab "decode_rlp_scalar") ++ []))

/-- `asm/rlp/decode.asm:83`, label `type_2@22.after`: that of `%decode_rlp_scalar`, expanded in `asm/transactions/type_2.asm`. -/
def b_type_2_22_after : List I :=
  /- end %decode_rlp_scalar -/ STK 2 [.e 1, .e 0] /- (rlp_addr, r) -> (r, rlp_addr) -/ :: (m_mstore_txn_field (.lit 0x90000000d) ++
    /- end %decode_and_store_r -/ /- %decode_and_store_s -/ /- %decode_rlp_scalar -/
    STK 1 [.e 0, .t (.lab "type_2@24.after")] /- (rlp_addr) -> (rlp_addr, type_2@24.after) -/ :: (m_jump (.lab "decode_rlp_scalar") ++ []))

/-- `asm/transactions/type_2.asm:56`, label `type_2_compute_signed_data`. -/
def b_type_2_compute_signed_data : List I :=
  /- %prepend_rlp_list_prefix -/
    STK 2 [.e 0, .e 1, .t (.lab "type_2@25.after")] /- (end_rlp_addr, start_rlp_addr) -> (end_rlp_addr, start_rlp_addr, type_2@25.after) -/ ::
    (m_jump (.lab "prepend_rlp_list_prefix") ++ [])

/-- `asm/rlp/decode.asm:83`, label `type_2@24.after`: that of `%decode_rlp_scalar`, expanded in `asm/transactions/type_2.asm`. -/
def b_type_2_24_after : List I :=
  /- end %decode_rlp_scalar -/ STK 2 [.e 1, .e 0] /- (rlp_addr, s) -> (s, rlp_addr) -/ :: DUP 1 :: (m_secp_scalar_half ++ (m_assert_gt0 ++
    (m_mstore_txn_field (.lit 0x90000000e) ++ /- end %decode_and_store_s -/ POP :: b_type_2_compute_signed_data)))

/-- `asm/rlp/encode.asm:221`, label `type_2@25.after`: that of `%prepend_rlp_list_prefix`, expanded in `asm/transactions/type_2.asm`. -/
def b_type_2_25_after : List I :=
  /- end %prepend_rlp_list_prefix -/ (m_decrement ++ STK 1 [.t (.lit 2), .e 0, .e 0] /- (rlp_addr) -> (2, rlp_addr, rlp_addr) -/ ::
    MSTORE_GENERAL :: SWAP 1 :: (m_increment ++ SWAP 1 :: KECCAK_GENERAL :: (m_mload_txn_field (.lit 0x90000000e) ++
    (m_mload_txn_field (.lit 0x90000000d) ++ (m_mload_txn_field (.lit 0x90000000c) ++ (m_add_const (.lit 27) ++
    PUSHL "store_origin@type_2" :: SWAP 4 :: (m_jump (.lab "ecrecover") ++ [])))))))

/-- `asm/transactions/type_2.asm:83`, label `store_origin@type_2`. -/
def b_store_origin_type_2 : List I :=
  DUP 1 :: (m_eq_const (.lit 0xffffffffffffffffffffffffffffffffffffffffffffffffffffffffffffffff) ++ (m_jumpi (.lab "panic") ++
    (m_mstore_txn_field (.lit 0x90000000f) ++ (m_jump (.lab "process_normalized_txn") ++ []))))

/-- The labels of this part of the kernel and what follows them. -/
def type2Code : List (String × List I) :=
  [("process_type_2_txn", b_process_type_2_txn),
   ("type_2@1.after", b_type_2_1_after),
   ("type_2@3.after", b_type_2_3_after),
   ("type_2@5.after", b_type_2_5_after),
   ("type_2@7.after", b_type_2_7_after),
   ("type_2@9.after", b_type_2_9_after),
   ("type_2@11.after", b_type_2_11_after),
   ("type_2@13.after", b_type_2_13_after),
   ("type_2@12.with_scalar", b_type_2_12_with_scalar),
   ("type_2@12.contract_creation", b_type_2_12_contract_creation),
   ("type_2@12.end", b_type_2_12_end),
   ("type_2@15.after", b_type_2_15_after),
   ("type_2@17.after", b_type_2_17_after),
   ("type_2@16.after", b_type_2_16_after),
   ("type_2@18.after", b_type_2_18_after),
   ("type_2@20.after", b_type_2_20_after),
   ("type_2@22.after", b_type_2_22_after),
   ("type_2@24.after", b_type_2_24_after),
   ("type_2_compute_signed_data", b_type_2_compute_signed_data),
   ("type_2@25.after", b_type_2_25_after),
   ("store_origin@type_2", b_store_origin_type_2)]

end Verif.Kasm
