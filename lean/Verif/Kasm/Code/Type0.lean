import Verif.Kasm.Code.Macros2

/-! Kernel code transcribed from `asm/transactions/type_0.asm`: macros, and for every label the items from there on. -/

namespace Verif.Kasm


/-- `asm/transactions/type_0.asm:14`, label `process_type_0_txn`. -/
def b_process_type_0_txn : List I :=
  PUSH 0 :: (m_mstore_txn_field (.lit 0x900000000) ++ /- %decode_rlp_list_len -/
    STK 1 [.e 0, .t (.lab "type_0@1.after")] /- (rlp_addr) -> (rlp_addr, type_0@1.after) -/ :: (m_jump (.lab "decode_rlp_list_len") ++ []))

/-- `asm/rlp/decode.asm:126`, label `type_0@1.after`: that of `%decode_rlp_list_len`, expanded in `asm/transactions/type_0.asm`. -/
def b_type_0_1_after : List I :=
  /- end %decode_rlp_list_len -/ STK 2 [.e 0] /- (rlp_addr, len) -> (rlp_addr) -/ :: DUP 1 :: /- %decode_and_store_nonce -/
    /- %decode_rlp_scalar -/ STK 1 [.e 0, .t (.lab "type_0@3.after")] /- (rlp_addr) -> (rlp_addr, type_0@3.after) -/ ::
    (m_jump (.lab "decode_rlp_scalar") ++ [])

/-- `asm/rlp/decode.asm:83`, label `type_0@3.after`: that of `%decode_rlp_scalar`, expanded in `asm/transactions/type_0.asm`. -/
def b_type_0_3_after : List I :=
  /- end %decode_rlp_scalar -/ STK 2 [.e 1, .e 0] /- (rlp_addr, nonce) -> (nonce, rlp_addr) -/ :: (m_mstore_txn_field (.lit 0x900000003) ++
    /- end %decode_and_store_nonce -/ /- %decode_and_store_gas_price_legacy -/ /- %decode_rlp_scalar -/
    STK 1 [.e 0, .t (.lab "type_0@5.after")] /- (rlp_addr) -> (rlp_addr, type_0@5.after) -/ :: (m_jump (.lab "decode_rlp_scalar") ++ []))

/-- `asm/rlp/decode.asm:83`, label `type_0@5.after`: that of `%decode_rlp_scalar`, expanded in `asm/transactions/type_0.asm`. -/
def b_type_0_5_after : List I :=
  /- end %decode_rlp_scalar -/ STK 2 [.e 1, .e 1, .e 0] /- (rlp_addr, gas_price) -> (gas_price, gas_price, rlp_addr) -/ ::
    (m_mstore_txn_field (.lit 0x900000004) ++ (m_mstore_txn_field (.lit 0x900000005) ++ /- end %decode_and_store_gas_price_legacy -/
    /- %decode_and_store_gas_limit -/ /- %decode_rlp_scalar -/
    STK 1 [.e 0, .t (.lab "type_0@7.after")] /- (rlp_addr) -> (rlp_addr, type_0@7.after) -/ :: (m_jump (.lab "decode_rlp_scalar") ++ [])))

/-- `asm/rlp/decode.asm:83`, label `type_0@7.after`: that of `%decode_rlp_scalar`, expanded in `asm/transactions/type_0.asm`. -/
def b_type_0_7_after : List I :=
  /- end %decode_rlp_scalar -/ STK 2 [.e 1, .e 0] /- (rlp_addr, gas_limit) -> (gas_limit, rlp_addr) -/ ::
    (m_mstore_txn_field (.lit 0x900000006) ++ /- end %decode_and_store_gas_limit -/ /- %decode_and_store_to -/ /- %decode_rlp_string_len -/
    STK 1 [.e 0, .t (.lab "type_0@9.after")] /- (rlp_addr) -> (rlp_addr, type_0@9.after) -/ :: (m_jump (.lab "decode_rlp_string_len") ++ []))

/-- `asm/rlp/decode.asm:58`, label `type_0@9.after`: that of `%decode_rlp_string_len`, expanded in `asm/transactions/type_0.asm`. -/
def b_type_0_9_after : List I :=
  /- end %decode_rlp_string_len -/ SWAP 1 :: DUP 1 :: ISZERO :: (m_jumpi (.lab "type_0@8.contract_creation") ++ DUP 1 ::
    (m_eq_const (.lit 20) ++ ISZERO :: (m_jumpi (.lab "invalid_txn") ++
    STK 2 [.e 1, .e 0, .t (.lab "type_0@8.with_scalar")] /- (len, rlp_addr) -> (rlp_addr, len, type_0@8.with_scalar) -/ ::
    (m_jump (.lab "decode_int_given_len") ++ []))))

/-- `asm/transactions/common_decoding.asm:76`, label `type_0@8.with_scalar`: that of `%decode_and_store_to`, expanded in `asm/transactions/type_0.asm`. -/
def b_type_0_8_with_scalar : List I :=
  SWAP 1 :: (m_mstore_txn_field (.lit 0x900000008) ++ (m_jump (.lab "type_0@8.end") ++ []))

/-- `asm/transactions/common_decoding.asm:87`, label `type_0@8.end`: that of `%decode_and_store_to`, expanded in `asm/transactions/type_0.asm`. -/
def b_type_0_8_end : List I :=
  /- end %decode_and_store_to -/ /- %decode_and_store_value -/ /- %decode_rlp_scalar -/
    STK 1 [.e 0, .t (.lab "type_0@11.after")] /- (rlp_addr) -> (rlp_addr, type_0@11.after) -/ :: (m_jump (.lab "decode_rlp_scalar") ++ [])

/-- `asm/transactions/common_decoding.asm:82`, label `type_0@8.contract_creation`: that of `%decode_and_store_to`, expanded in `asm/transactions/type_0.asm`. -/
def b_type_0_8_contract_creation : List I :=
  POP :: PUSH 1 :: (m_mstore_global_metadata (.lit 0x500000024) ++ b_type_0_8_end)

/-- `asm/rlp/decode.asm:83`, label `type_0@11.after`: that of `%decode_rlp_scalar`, expanded in `asm/transactions/type_0.asm`. -/
def b_type_0_11_after : List I :=
  /- end %decode_rlp_scalar -/ STK 2 [.e 1, .e 0] /- (rlp_addr, value) -> (value, rlp_addr) -/ :: (m_mstore_txn_field (.lit 0x900000009) ++
    /- end %decode_and_store_value -/ /- %decode_and_store_data -/ /- %decode_rlp_string_len -/
    STK 1 [.e 0, .t (.lab "type_0@13.after")] /- (rlp_addr) -> (rlp_addr, type_0@13.after) -/ :: (m_jump (.lab "decode_rlp_string_len") ++ []))

/-- `asm/rlp/decode.asm:58`, label `type_0@13.after`: that of `%decode_rlp_string_len`, expanded in `asm/transactions/type_0.asm`. -/
def b_type_0_13_after : List I :=
  /- end %decode_rlp_string_len -/
    STK 2 [.e 1, .e 0, .e 1, .e 0, .e 1] /- (rlp_addr, data_len) -> (data_len, rlp_addr, data_len, rlp_addr, data_len) -/ ::
    (m_mstore_txn_field (.lit 0x90000000a) ++ ADD ::
    STK 3 [.e 1, .e 2, .t (.lab "type_0@12.after"), .e 0] /- (new_rlp_addr, old_rlp_addr, data_len) -> (old_rlp_addr, data_len, type_0@12.after, new_rlp_addr) -/ ::
    GET_CONTEXT :: ADD :: PUSH 0xa00000000 /- @SEGMENT_TXN_DATA -/ :: GET_CONTEXT :: ADD :: (m_jump (.lab "memcpy_bytes") ++ []))

/-- `asm/transactions/common_decoding.asm:119`, label `type_0@12.after`: that of `%decode_and_store_data`, expanded in `asm/transactions/type_0.asm`. -/
def b_type_0_12_after : List I :=
  /- end %decode_and_store_data -/ DUP 1 :: /- %decode_rlp_scalar -/
    STK 1 [.e 0, .t (.lab "type_0@14.after")] /- (rlp_addr) -> (rlp_addr, type_0@14.after) -/ :: (m_jump (.lab "decode_rlp_scalar") ++ [])

/-- `asm/rlp/decode.asm:83`, label `type_0@14.after`: that of `%decode_rlp_scalar`, expanded in `asm/transactions/type_0.asm`. -/
def b_type_0_14_after : List I :=
  /- end %decode_rlp_scalar -/ SWAP 1 :: DUP 1 :: (m_gt_const (.lit 28) ++ (m_jumpi (.lab "process_v_new_style") ++ (m_sub_const (.lit 27) ++
    (m_mstore_txn_field (.lit 0x90000000c) ++ (m_jump (.lab "decode_r_and_s") ++ [])))))

/-- `asm/transactions/type_0.asm:79`, label `decode_r_and_s`. -/
def b_decode_r_and_s : List I :=
  /- %decode_and_store_r -/ /- %decode_rlp_scalar -/
    STK 1 [.e 0, .t (.lab "type_0@16.after")] /- (rlp_addr) -> (rlp_addr, type_0@16.after) -/ :: (m_jump (.lab "decode_rlp_scalar") ++ [])

/-- `asm/transactions/type_0.asm:59`, label `process_v_new_style`. -/
def b_process_v_new_style : List I :=
  STK 2 [.t (.lit 1), .e 0, .e 1] /- (v, rlp_addr) -> (1, v, rlp_addr) -/ :: (m_mstore_txn_field (.lit 0x900000001) ++
    (m_sub_const (.lit 35) ++ DUP 1 :: (m_div2 ++ (m_mstore_txn_field (.lit 0x900000002) ++ (m_mod_const (.lit 2) ++
    (m_mstore_txn_field (.lit 0x90000000c) ++ b_decode_r_and_s))))))

/-- `asm/rlp/decode.asm:83`, label `type_0@16.after`: that of `%decode_rlp_scalar`, expanded in `asm/transactions/type_0.asm`. -/
def b_type_0_16_after : List I :=
  /- end %decode_rlp_scalar -/ STK 2 [.e 1, .e 0] /- (rlp_addr, r) -> (r, rlp_addr) -/ :: (m_mstore_txn_field (.lit 0x90000000d) ++
    /- end %decode_and_store_r -/ /- %decode_and_store_s -/ /- %decode_rlp_scalar -/
    STK 1 [.e 0, .t (.lab "type_0@18.after")] /- (rlp_addr) -> (rlp_addr, type_0@18.after) -/ :: (m_jump (.lab "decode_rlp_scalar") ++ []))

/-- `asm/transactions/type_0.asm:87`, label `type_0_compute_signed_data`. -/
def b_type_0_compute_signed_data : List I :=
  (m_mload_txn_field (.lit 0x900000001) ++ ISZERO :: (m_jumpi (.lab "finish_rlp_list") ++ (m_mload_txn_field (.lit 0x900000002) ++
    /- %encode_rlp_scalar_swapped_inputs -/
    STK 2 [.e 1, .e 0, .t (.lab "type_0@19.after")] /- (scalar, rlp_addr) -> (rlp_addr, scalar, type_0@19.after) -/ ::
    (m_jump (.lab "encode_rlp_scalar") ++ []))))

/-- `asm/rlp/decode.asm:83`, label `type_0@18.after`: that of `%decode_rlp_scalar`, expanded in `asm/transactions/type_0.asm`. -/
def b_type_0_18_after : List I :=
  /- end %decode_rlp_scalar -/ STK 2 [.e 1, .e 0] /- (rlp_addr, s) -> (s, rlp_addr) -/ :: DUP 1 :: (m_secp_scalar_half ++ (m_assert_gt0 ++
    (m_mstore_txn_field (.lit 0x90000000e) ++ /- end %decode_and_store_s -/ POP :: b_type_0_compute_signed_data)))

/-- `asm/rlp/encode_rlp_scalar.asm:93`, label `type_0@19.after`: that of `%encode_rlp_scalar_swapped_inputs`, expanded in `asm/transactions/type_0.asm`. -/
def b_type_0_19_after : List I :=
  /- end %encode_rlp_scalar_swapped_inputs -/ PUSH 0 :: /- %encode_rlp_scalar_swapped_inputs -/
    STK 2 [.e 1, .e 0, .t (.lab "type_0@20.after")] /- (scalar, rlp_addr) -> (rlp_addr, scalar, type_0@20.after) -/ ::
    (m_jump (.lab "encode_rlp_scalar") ++ [])

/-- `asm/rlp/encode_rlp_scalar.asm:93`, label `type_0@20.after`: that of `%encode_rlp_scalar_swapped_inputs`, expanded in `asm/transactions/type_0.asm`. -/
def b_type_0_20_after : List I :=
  /- end %encode_rlp_scalar_swapped_inputs -/ PUSH 0 :: /- %encode_rlp_scalar_swapped_inputs -/
    STK 2 [.e 1, .e 0, .t (.lab "type_0@21.after")] /- (scalar, rlp_addr) -> (rlp_addr, scalar, type_0@21.after) -/ ::
    (m_jump (.lab "encode_rlp_scalar") ++ [])

/-- `asm/transactions/type_0.asm:113`, label `finish_rlp_list`. -/
def b_finish_rlp_list : List I :=
  /- %prepend_rlp_list_prefix -/
    STK 2 [.e 0, .e 1, .t (.lab "type_0@22.after")] /- (end_rlp_addr, start_rlp_addr) -> (end_rlp_addr, start_rlp_addr, type_0@22.after) -/ ::
    (m_jump (.lab "prepend_rlp_list_prefix") ++ [])

/-- `asm/rlp/encode_rlp_scalar.asm:93`, label `type_0@21.after`: that of `%encode_rlp_scalar_swapped_inputs`, expanded in `asm/transactions/type_0.asm`. -/
def b_type_0_21_after : List I :=
  /- end %encode_rlp_scalar_swapped_inputs -/ b_finish_rlp_list

/-- `asm/rlp/encode.asm:221`, label `type_0@22.after`: that of `%prepend_rlp_list_prefix`, expanded in `asm/transactions/type_0.asm`. -/
def b_type_0_22_after : List I :=
  /- end %prepend_rlp_list_prefix -/ KECCAK_GENERAL :: (m_mload_txn_field (.lit 0x90000000e) ++ (m_mload_txn_field (.lit 0x90000000d) ++
    (m_mload_txn_field (.lit 0x90000000c) ++ (m_add_const (.lit 27) ++ PUSHL "store_origin@type_0" :: SWAP 4 ::
    (m_jump (.lab "ecrecover") ++ [])))))

/-- `asm/transactions/type_0.asm:132`, label `store_origin@type_0`. -/
def b_store_origin_type_0 : List I :=
  DUP 1 :: (m_eq_const (.lit 0xffffffffffffffffffffffffffffffffffffffffffffffffffffffffffffffff) ++ (m_jumpi (.lab "panic") ++
    (m_mstore_txn_field (.lit 0x90000000f) ++ (m_jump (.lab "process_normalized_txn") ++ []))))

/-- The labels of this part of the kernel and what follows them. -/
def type0Code : List (String × List I) :=
  [("process_type_0_txn", b_process_type_0_txn),
   ("type_0@1.after", b_type_0_1_after),
   ("type_0@3.after", b_type_0_3_after),
   ("type_0@5.after", b_type_0_5_after),
   ("type_0@7.after", b_type_0_7_after),
   ("type_0@9.after", b_type_0_9_after),
   ("type_0@8.with_scalar", b_type_0_8_with_scalar),
   ("type_0@8.contract_creation", b_type_0_8_contract_creation),
   ("type_0@8.end", b_type_0_8_end),
   ("type_0@11.after", b_type_0_11_after),
   ("type_0@13.after", b_type_0_13_after),
   ("type_0@12.after", b_type_0_12_after),
   ("type_0@14.after", b_type_0_14_after),
   ("process_v_new_style", b_process_v_new_style),
   ("decode_r_and_s", b_decode_r_and_s),
   ("type_0@16.after", b_type_0_16_after),
   ("type_0@18.after", b_type_0_18_after),
   ("type_0_compute_signed_data", b_type_0_compute_signed_data),
   ("type_0@19.after", b_type_0_19_after),
   ("type_0@20.after", b_type_0_20_after),
   ("type_0@21.after", b_type_0_21_after),
   ("finish_rlp_list", b_finish_rlp_list),
   ("type_0@22.after", b_type_0_22_after),
   ("store_origin@type_0", b_store_origin_type_0)]

end Verif.Kasm
