import Verif.Kasm.Code.Macros2

/-! Kernel code transcribed from `asm/rlp/num_bytes.asm`, `asm/rlp/encode.asm`, `asm/rlp/encode_rlp_scalar.asm`, `asm/rlp/encode_rlp_string.asm`, `asm/rlp/decode.asm`, `asm/rlp/increment_bounded_rlp.asm`: macros, and for every label the items from there on. -/

namespace Verif.Kasm


/-- `asm/rlp/num_bytes.asm:3`, label `num_bytes`. -/
def b_num_bytes : List I :=
  DUP 1 :: ISZERO :: (m_jumpi (.lab "return_1") ++ (m_num_bits ++ (m_add_const (.lit 7) ++ (m_shr_const (.lit 3) ++ SWAP 1 :: JUMP :: []))))

/-- `asm/rlp/num_bytes.asm:16`, label `return_1`. -/
def b_return_1 : List I :=
  STK 2 [.e 1, .t (.lit 1)] /- (x, retdest) -> (retdest, 1) -/ :: JUMP :: []

/-- `asm/rlp/encode.asm:22`, label `encode_rlp_fixed`. -/
def b_encode_rlp_fixed : List I :=
  DUP 2 :: DUP 2 :: (m_add_const (.lit 128) ++ MSTORE_GENERAL :: SWAP 1 :: (m_increment ++
    STK 3 [.e 0, .e 2, .e 1, .t (.lab "encode_rlp_fixed_finish")] /- (rlp_addr, len, string) -> (rlp_addr, string, len, encode_rlp_fixed_finish) -/ ::
    (m_jump (.lab "mstore_unpacking") ++ [])))

/-- `asm/rlp/encode.asm:36`, label `encode_rlp_fixed_finish`. -/
def b_encode_rlp_fixed_finish : List I :=
  SWAP 1 :: JUMP :: []

/-- `asm/rlp/encode.asm:43`, label `doubly_encode_rlp_fixed`. -/
def b_doubly_encode_rlp_fixed : List I :=
  DUP 2 :: DUP 2 :: (m_add_const (.lit 129) ++ MSTORE_GENERAL :: DUP 2 :: (m_increment ++ DUP 2 :: (m_add_const (.lit 128) ++
    MSTORE_GENERAL :: SWAP 1 :: (m_add_const (.lit 2) ++
    STK 3 [.e 0, .e 2, .e 1, .t (.lab "encode_rlp_fixed_finish")] /- (rlp_addr, len, string) -> (rlp_addr, string, len, encode_rlp_fixed_finish) -/ ::
    (m_jump (.lab "mstore_unpacking") ++ [])))))

/-- `asm/rlp/encode.asm:72`, label `encode_rlp_multi_byte_string_prefix`. -/
def b_encode_rlp_multi_byte_string_prefix : List I :=
  DUP 2 :: (m_gt_const (.lit 55) ++ (m_jumpi (.lab "encode_rlp_multi_byte_string_prefix_large") ++ PUSH 128 :: DUP 2 :: SWAP 3 :: ADD ::
    MSTORE_GENERAL :: (m_increment ++ SWAP 1 :: JUMP :: [])))

/-- `asm/rlp/encode.asm:90`, label `encode_rlp_multi_byte_string_prefix_large`. -/
def b_encode_rlp_multi_byte_string_prefix_large : List I :=
  DUP 2 :: /- %num_bytes -/ STK 1 [.e 0, .t (.lab "encode@1.after")] /- (x) -> (x, encode@1.after) -/ :: (m_jump (.lab "num_bytes") ++ [])

/-- `asm/rlp/num_bytes.asm:25`, label `encode@1.after`: that of `%num_bytes`, expanded in `asm/rlp/encode.asm`. -/
def b_encode_1_after : List I :=
  /- end %num_bytes -/ SWAP 1 :: DUP 1 :: DUP 3 :: (m_add_const (.lit 183) ++ MSTORE_GENERAL :: (m_increment ++
    STK 3 [.e 0, .e 2, .e 1] /- (rlp_addr, len_of_len, str_len) -> (rlp_addr, str_len, len_of_len) -/ ::
    (m_jump (.lab "mstore_unpacking") ++ [])))

/-- `asm/rlp/encode.asm:118`, label `encode_rlp_list_prefix`. -/
def b_encode_rlp_list_prefix : List I :=
  DUP 2 :: (m_gt_const (.lit 55) ++ (m_jumpi (.lab "encode_rlp_list_prefix_large") ++ DUP 1 :: SWAP 2 :: (m_add_const (.lit 192) ++
    MSTORE_GENERAL :: (m_increment ++ SWAP 1 :: JUMP :: []))))

/-- `asm/rlp/encode.asm:133`, label `encode_rlp_list_prefix_large`. -/
def b_encode_rlp_list_prefix_large : List I :=
  DUP 2 :: /- %num_bytes -/ STK 1 [.e 0, .t (.lab "encode@2.after")] /- (x) -> (x, encode@2.after) -/ :: (m_jump (.lab "num_bytes") ++ [])

/-- `asm/rlp/num_bytes.asm:25`, label `encode@2.after`: that of `%num_bytes`, expanded in `asm/rlp/encode.asm`. -/
def b_encode_2_after : List I :=
  /- end %num_bytes -/ DUP 2 :: DUP 2 :: (m_add_const (.lit 247) ++ MSTORE_GENERAL :: SWAP 1 :: (m_increment ++
    STK 3 [.e 0, .e 2, .e 1, .t (.lab "encode_rlp_list_prefix_large_done_writing_len")] /- (rlp_addr, len_of_len, payload_len) -> (rlp_addr, payload_len, len_of_len, encode_rlp_list_prefix_large_done_writing_len) -/ ::
    (m_jump (.lab "mstore_unpacking") ++ [])))

/-- `asm/rlp/encode.asm:149`, label `encode_rlp_list_prefix_large_done_writing_len`. -/
def b_encode_rlp_list_prefix_large_done_writing_len : List I :=
  SWAP 1 :: JUMP :: []

/-- `asm/rlp/encode.asm:166`, label `prepend_rlp_list_prefix`. -/
def b_prepend_rlp_list_prefix : List I :=
  DUP 2 :: DUP 2 :: SUB :: DUP 1 :: (m_gt_const (.lit 55) ++ (m_jumpi (.lab "prepend_rlp_list_prefix_big") ++ PUSH 1 :: DUP 4 :: SUB ::
    DUP 2 :: (m_add_const (.lit 192) ++ MSTORE_GENERAL :: (m_increment ++ SWAP 2 :: (m_decrement ++
    STK 4 [.e 3, .e 0, .e 2] /- (prefix_start_rlp_addr, end_rlp_addr, rlp_len, retdest) -> (retdest, prefix_start_rlp_addr, rlp_len) -/ ::
    JUMP :: [])))))

/-- `asm/rlp/encode.asm:187`, label `prepend_rlp_list_prefix_big`. -/
def b_prepend_rlp_list_prefix_big : List I :=
  DUP 1 :: /- %num_bytes -/ STK 1 [.e 0, .t (.lab "encode@3.after")] /- (x) -> (x, encode@3.after) -/ :: (m_jump (.lab "num_bytes") ++ [])

/-- `asm/rlp/num_bytes.asm:25`, label `encode@3.after`: that of `%num_bytes`, expanded in `asm/rlp/encode.asm`. -/
def b_encode_3_after : List I :=
  /- end %num_bytes -/ DUP 1 :: PUSH 1 :: DUP 6 :: SUB :: SUB :: DUP 1 :: DUP 3 :: (m_add_const (.lit 247) ++ MSTORE_GENERAL :: DUP 1 ::
    (m_increment ++
    STK 7 [.e 0, .e 3, .e 2, .t (.lab "prepend_rlp_list_prefix_big_done_writing_len"), .e 1, .e 4, .e 6] /- (start_len_rlp_addr, prefix_start_rlp_addr, len_of_len, payload_len, end_rlp_addr, start_rlp_addr, retdest) -> (start_len_rlp_addr, payload_len, len_of_len, prepend_rlp_list_prefix_big_done_writing_len, prefix_start_rlp_addr, end_rlp_addr, retdest) -/ ::
    (m_jump (.lab "mstore_unpacking") ++ [])))

/-- `asm/rlp/encode.asm:207`, label `prepend_rlp_list_prefix_big_done_writing_len`. -/
def b_prepend_rlp_list_prefix_big_done_writing_len : List I :=
  
    STK 3 [.e 2, .e 1, .e 1] /- (start_rlp_addr, prefix_start_rlp_addr, end_rlp_addr) -> (end_rlp_addr, prefix_start_rlp_addr, prefix_start_rlp_addr) -/ ::
    SUB :: STK 3 [.e 2, .e 1, .e 0] /- (rlp_len, prefix_start_rlp_addr, retdest) -> (retdest, prefix_start_rlp_addr, rlp_len) -/ :: JUMP :: []

/-- `asm/rlp/encode_rlp_scalar.asm:4`, label `encode_rlp_scalar`. -/
def b_encode_rlp_scalar : List I :=
  DUP 2 :: (m_gt_const (.lit 127) ++ (m_jumpi (.lab "encode_rlp_scalar_medium") ++ DUP 2 :: (m_jumpi (.lab "encode_rlp_scalar_small") ++
    STK 2 [.t (.lit 128), .e 0, .e 0] /- (rlp_addr, scalar) -> (128, rlp_addr, rlp_addr) -/ :: MSTORE_GENERAL :: (m_increment ++ SWAP 1 ::
    JUMP :: []))))

/-- `asm/rlp/encode_rlp_scalar.asm:24`, label `encode_rlp_scalar_medium`. -/
def b_encode_rlp_scalar_medium : List I :=
  DUP 2 :: /- %num_bytes -/ STK 1 [.e 0, .t (.lab "encode_rlp_scalar@1.after")] /- (x) -> (x, encode_rlp_scalar@1.after) -/ ::
    (m_jump (.lab "num_bytes") ++ [])

/-- `asm/rlp/num_bytes.asm:25`, label `encode_rlp_scalar@1.after`: that of `%num_bytes`, expanded in `asm/rlp/encode_rlp_scalar.asm`. -/
def b_encode_rlp_scalar_1_after : List I :=
  /- end %num_bytes -/ (m_jump (.lab "encode_rlp_fixed") ++ [])

/-- `asm/rlp/encode_rlp_scalar.asm:38`, label `doubly_encode_rlp_scalar`. -/
def b_doubly_encode_rlp_scalar : List I :=
  DUP 2 :: (m_gt_const (.lit 127) ++ (m_jumpi (.lab "doubly_encode_rlp_scalar_medium") ++ DUP 2 ::
    (m_jumpi (.lab "encode_rlp_scalar_small") ++ STK 2 [.t (.lit 129), .e 0, .e 0] /- (rlp_addr, scalar) -> (129, rlp_addr, rlp_addr) -/ ::
    MSTORE_GENERAL :: (m_increment ++ DUP 1 :: PUSH 128 :: MSTORE_GENERAL :: (m_increment ++ SWAP 1 :: JUMP :: [])))))

/-- `asm/rlp/encode_rlp_scalar.asm:62`, label `doubly_encode_rlp_scalar_medium`. -/
def b_doubly_encode_rlp_scalar_medium : List I :=
  DUP 2 :: /- %num_bytes -/ STK 1 [.e 0, .t (.lab "encode_rlp_scalar@2.after")] /- (x) -> (x, encode_rlp_scalar@2.after) -/ ::
    (m_jump (.lab "num_bytes") ++ [])

/-- `asm/rlp/num_bytes.asm:25`, label `encode_rlp_scalar@2.after`: that of `%num_bytes`, expanded in `asm/rlp/encode_rlp_scalar.asm`. -/
def b_encode_rlp_scalar_2_after : List I :=
  /- end %num_bytes -/ (m_jump (.lab "doubly_encode_rlp_fixed") ++ [])

/-- `asm/rlp/encode_rlp_scalar.asm:77`, label `encode_rlp_scalar_small`. -/
def b_encode_rlp_scalar_small : List I :=
  STK 2 [.e 1, .e 0, .e 0] /- (rlp_addr, scalar) -> (scalar, rlp_addr, rlp_addr) -/ :: MSTORE_GENERAL :: (m_increment ++ SWAP 1 :: JUMP :: [])

/-- `asm/rlp/encode_rlp_string.asm:21`, label `encode_rlp_string_small`. -/
def b_encode_rlp_string_small : List I :=
  DUP 1 :: DUP 4 :: (m_add_const (.lit 128) ++ MSTORE_GENERAL :: (m_increment ++ DUP 3 :: DUP 2 :: ADD ::
    STK 5 [.e 1, .e 2, .e 3, .e 4, .e 0] /- (rlp_addr2, rlp_addr1, ADDR, len, retdest) -> (rlp_addr1, ADDR, len, retdest, rlp_addr2) -/ ::
    (m_jump (.lab "memcpy_bytes") ++ [])))

/-- `asm/rlp/encode_rlp_string.asm:4`, label `encode_rlp_string`. -/
def b_encode_rlp_string : List I :=
  DUP 3 :: (m_eq_const (.lit 1) ++ DUP 3 :: MLOAD_GENERAL :: (m_lt_const (.lit 128) ++ MUL ::
    (m_jumpi (.lab "encode_rlp_string_small_single_byte") ++ DUP 3 :: (m_gt_const (.lit 55) ++ (m_jumpi (.lab "encode_rlp_string_large") ++ b_encode_rlp_string_small)))))

/-- `asm/rlp/encode_rlp_string.asm:37`, label `encode_rlp_string_small_single_byte`. -/
def b_encode_rlp_string_small_single_byte : List I :=
  STK 3 [.e 1, .e 0] /- (rlp_addr, ADDR, len) -> (ADDR, rlp_addr) -/ :: MLOAD_GENERAL :: DUP 2 :: SWAP 1 :: MSTORE_GENERAL :: (m_increment ++
    SWAP 1 :: JUMP :: [])

/-- `asm/rlp/encode_rlp_string.asm:50`, label `encode_rlp_string_large`. -/
def b_encode_rlp_string_large : List I :=
  DUP 3 :: /- %num_bytes -/ STK 1 [.e 0, .t (.lab "encode_rlp_string@1.after")] /- (x) -> (x, encode_rlp_string@1.after) -/ ::
    (m_jump (.lab "num_bytes") ++ [])

/-- `asm/rlp/num_bytes.asm:25`, label `encode_rlp_string@1.after`: that of `%num_bytes`, expanded in `asm/rlp/encode_rlp_string.asm`. -/
def b_encode_rlp_string_1_after : List I :=
  /- end %num_bytes -/ SWAP 1 :: DUP 1 :: DUP 3 :: (m_add_const (.lit 183) ++ MSTORE_GENERAL :: (m_increment ++
    STK 4 [.e 0, .e 3, .e 1, .t (.lab "encode_rlp_string_large_after_writing_len"), .e 2, .e 3] /- (rlp_addr, len_of_len, ADDR, len) -> (rlp_addr, len, len_of_len, encode_rlp_string_large_after_writing_len, ADDR, len) -/ ::
    (m_jump (.lab "mstore_unpacking") ++ [])))

/-- `asm/rlp/encode_rlp_string.asm:67`, label `encode_rlp_string_large_after_writing_len`. -/
def b_encode_rlp_string_large_after_writing_len : List I :=
  DUP 3 :: DUP 2 :: ADD ::
    STK 5 [.e 1, .e 2, .e 3, .e 4, .e 0] /- (rlp_addr3, rlp_addr2, ADDR, len, retdest) -> (rlp_addr2, ADDR, len, retdest, rlp_addr3) -/ ::
    (m_jump (.lab "memcpy_bytes") ++ [])

/-- `asm/rlp/decode.asm:14`, label `decode_rlp_string_len`. -/
def b_decode_rlp_string_len : List I :=
  DUP 1 :: MLOAD_GENERAL :: DUP 1 :: (m_gt_const (.lit 183) ++ (m_jumpi (.lab "decode_rlp_string_len_large") ++ DUP 1 ::
    (m_gt_const (.lit 127) ++ (m_jumpi (.lab "decode_rlp_string_len_medium") ++
    STK 3 [.e 2, .e 1, .t (.lit 1)] /- (first_byte, rlp_addr, retdest) -> (retdest, rlp_addr, 1) -/ :: JUMP :: []))))

/-- `asm/rlp/decode.asm:33`, label `decode_rlp_string_len_medium`. -/
def b_decode_rlp_string_len_medium : List I :=
  (m_sub_const (.lit 128) ++ SWAP 1 :: (m_increment ++ STK 3 [.e 2, .e 0, .e 1] /- (rlp_addr, len, retdest) -> (retdest, rlp_addr, len) -/ ::
    JUMP :: []))

/-- `asm/rlp/decode.asm:44`, label `decode_rlp_string_len_large`. -/
def b_decode_rlp_string_len_large : List I :=
  (m_sub_const (.lit 183) ++ SWAP 1 :: (m_increment ++ (m_jump (.lab "decode_int_given_len") ++ [])))

/-- `asm/rlp/decode.asm:68`, label `decode_rlp_scalar`. -/
def b_decode_rlp_scalar : List I :=
  PUSHL "decode_int_given_len" :: SWAP 1 :: (m_jump (.lab "decode_rlp_string_len") ++ [])

/-- `asm/rlp/decode.asm:89`, label `decode_rlp_list_len`. -/
def b_decode_rlp_list_len : List I :=
  DUP 1 :: MLOAD_GENERAL :: SWAP 1 :: (m_increment ++ SWAP 1 :: DUP 1 :: (m_gt_const (.lit 247) ++
    (m_jumpi (.lab "decode_rlp_list_len_big") ++ (m_sub_const (.lit 192) ++
    STK 3 [.e 2, .e 1, .e 0] /- (len, rlp_addr, retdest) -> (retdest, rlp_addr, len) -/ :: JUMP :: []))))

/-- `asm/rlp/decode.asm:113`, label `decode_rlp_list_len_big`. -/
def b_decode_rlp_list_len_big : List I :=
  (m_sub_const (.lit 247) ++ SWAP 1 :: (m_jump (.lab "decode_int_given_len") ++ []))

/-- `asm/rlp/decode.asm:133`, label `decode_int_given_len`. -/
def b_decode_int_given_len : List I :=
  DUP 2 :: ISZERO :: (m_jumpi (.lab "empty_int") ++
    STK 3 [.e 0, .e 1, .e 0, .e 1, .e 2] /- (rlp_addr, len, retdest) -> (rlp_addr, len, rlp_addr, len, retdest) -/ :: ADD ::
    STK 4 [.e 1, .e 2, .e 0, .e 3] /- (rlp_addr_two, rlp_addr, len, retdest) -> (rlp_addr, len, rlp_addr_two, retdest) -/ ::
    MLOAD_32BYTES :: STK 3 [.e 2, .e 1, .e 0] /- (int, rlp_addr, retdest) -> (retdest, rlp_addr, int) -/ :: JUMP :: [])

/-- `asm/rlp/decode.asm:143`, label `empty_int`. -/
def b_empty_int : List I :=
  STK 3 [.e 2, .e 0, .t (.lit 0)] /- (rlp_addr, len, retdest) -> (retdest, rlp_addr, 0) -/ :: JUMP :: []

/-- `asm/rlp/increment_bounded_rlp.asm:4`, label `increment_bounded_rlp`. -/
def b_increment_bounded_rlp : List I :=
  DUP 1 :: (m_eq_const (.lit 128) ++ (m_jumpi (.lab "case_0x80") ++ DUP 1 :: (m_eq_const (.lit 127) ++ (m_jumpi (.lab "case_0x7f") ++
    DUP 1 :: (m_eq_const (.lit 33279) ++ (m_jumpi (.lab "case_0x81ff") ++ (m_increment ++
    STK 3 [.e 2, .e 0, .e 1] /- (next_rlp_index, next_num_nibbles, retdest) -> (retdest, next_rlp_index, next_num_nibbles) -/ :: JUMP :: [])))))))

/-- `asm/rlp/increment_bounded_rlp.asm:21`, label `case_0x80`. -/
def b_case_0x80 : List I :=
  STK 3 [.e 2, .t (.lit 1), .t (.lit 2)] /- (num_nibbles, rlp_index, retdest) -> (retdest, 1, 2) -/ :: JUMP :: []

/-- `asm/rlp/increment_bounded_rlp.asm:24`, label `case_0x7f`. -/
def b_case_0x7f : List I :=
  STK 3 [.e 2, .t (.lit 33152), .t (.lit 4)] /- (num_nibbles, rlp_index, retdest) -> (retdest, 33152, 4) -/ :: JUMP :: []

/-- `asm/rlp/increment_bounded_rlp.asm:28`, label `case_0x81ff`. -/
def b_case_0x81ff : List I :=
  STK 3 [.e 2, .t (.lit 0x820100), .t (.lit 6)] /- (num_nibbles, rlp_index, retdest) -> (retdest, 0x820100, 6) -/ :: JUMP :: []

/-- The labels of this part of the kernel and what follows them. -/
def rlpCode : List (String × List I) :=
  [("num_bytes", b_num_bytes),
   ("return_1", b_return_1),
   ("encode_rlp_fixed", b_encode_rlp_fixed),
   ("encode_rlp_fixed_finish", b_encode_rlp_fixed_finish),
   ("doubly_encode_rlp_fixed", b_doubly_encode_rlp_fixed),
   ("encode_rlp_multi_byte_string_prefix", b_encode_rlp_multi_byte_string_prefix),
   ("encode_rlp_multi_byte_string_prefix_large", b_encode_rlp_multi_byte_string_prefix_large),
   ("encode@1.after", b_encode_1_after),
   ("encode_rlp_list_prefix", b_encode_rlp_list_prefix),
   ("encode_rlp_list_prefix_large", b_encode_rlp_list_prefix_large),
   ("encode@2.after", b_encode_2_after),
   ("encode_rlp_list_prefix_large_done_writing_len", b_encode_rlp_list_prefix_large_done_writing_len),
   ("prepend_rlp_list_prefix", b_prepend_rlp_list_prefix),
   ("prepend_rlp_list_prefix_big", b_prepend_rlp_list_prefix_big),
   ("encode@3.after", b_encode_3_after),
   ("prepend_rlp_list_prefix_big_done_writing_len", b_prepend_rlp_list_prefix_big_done_writing_len),
   ("encode_rlp_scalar", b_encode_rlp_scalar),
   ("encode_rlp_scalar_medium", b_encode_rlp_scalar_medium),
   ("encode_rlp_scalar@1.after", b_encode_rlp_scalar_1_after),
   ("doubly_encode_rlp_scalar", b_doubly_encode_rlp_scalar),
   ("doubly_encode_rlp_scalar_medium", b_doubly_encode_rlp_scalar_medium),
   ("encode_rlp_scalar@2.after", b_encode_rlp_scalar_2_after),
   ("encode_rlp_scalar_small", b_encode_rlp_scalar_small),
   ("encode_rlp_string", b_encode_rlp_string),
   ("encode_rlp_string_small", b_encode_rlp_string_small),
   ("encode_rlp_string_small_single_byte", b_encode_rlp_string_small_single_byte),
   ("encode_rlp_string_large", b_encode_rlp_string_large),
   ("encode_rlp_string@1.after", b_encode_rlp_string_1_after),
   ("encode_rlp_string_large_after_writing_len", b_encode_rlp_string_large_after_writing_len),
   ("decode_rlp_string_len", b_decode_rlp_string_len),
   ("decode_rlp_string_len_medium", b_decode_rlp_string_len_medium),
   ("decode_rlp_string_len_large", b_decode_rlp_string_len_large),
   ("decode_rlp_scalar", b_decode_rlp_scalar),
   ("decode_rlp_list_len", b_decode_rlp_list_len),
   ("decode_rlp_list_len_big", b_decode_rlp_list_len_big),
   ("decode_int_given_len", b_decode_int_given_len),
   ("empty_int", b_empty_int),
   ("increment_bounded_rlp", b_increment_bounded_rlp),
   ("case_0x80", b_case_0x80),
   ("case_0x7f", b_case_0x7f),
   ("case_0x81ff", b_case_0x81ff)]

end Verif.Kasm
