import Verif.Kasm.Code.Macros2

/-! Kernel code transcribed from `asm/core/create_addresses.asm`: macros, and for every label the items from there on. -/

namespace Verif.Kasm


/-- `asm/core/create_addresses.asm:6`, label `get_create_address`. -/
def b_get_create_address : List I :=
  PUSH 0xb00000001 /- @INITIAL_RLP_ADDR -/ :: (m_add_const (.lit 9) ++
    STK 3 [.e 0, .e 1, .e 2, .e 0] /- (rlp_start, sender, nonce) -> (rlp_start, sender, nonce, rlp_start) -/ :: /- %encode_rlp_160 -/
    STK 2 [.t (.lit 20), .e 0, .e 1, .t (.lab "create_addresses@1.after")] /- (rlp_addr, string) -> (20, rlp_addr, string, create_addresses@1.after) -/ ::
    (m_jump (.lab "encode_rlp_fixed") ++ []))

/-- `asm/rlp/encode.asm:8`, label `create_addresses@1.after`: that of `%encode_rlp_160`, expanded in `asm/core/create_addresses.asm`. -/
def b_create_addresses_1_after : List I :=
  /- end %encode_rlp_160 -/ /- %encode_rlp_scalar -/
    STK 2 [.e 0, .e 1, .t (.lab "create_addresses@2.after")] /- (rlp_addr, scalar) -> (rlp_addr, scalar, create_addresses@2.after) -/ ::
    (m_jump (.lab "encode_rlp_scalar") ++ [])

/-- `asm/rlp/encode_rlp_scalar.asm:100`, label `create_addresses@2.after`: that of `%encode_rlp_scalar`, expanded in `asm/core/create_addresses.asm`. -/
def b_create_addresses_2_after : List I :=
  /- end %encode_rlp_scalar -/ /- %prepend_rlp_list_prefix -/
    STK 2 [.e 0, .e 1, .t (.lab "create_addresses@3.after")] /- (end_rlp_addr, start_rlp_addr) -> (end_rlp_addr, start_rlp_addr, create_addresses@3.after) -/ ::
    (m_jump (.lab "prepend_rlp_list_prefix") ++ [])

/-- `asm/rlp/encode.asm:221`, label `create_addresses@3.after`: that of `%prepend_rlp_list_prefix`, expanded in `asm/core/create_addresses.asm`. -/
def b_create_addresses_3_after : List I :=
  /- end %prepend_rlp_list_prefix -/ KECCAK_GENERAL :: (m_u256_to_addr ++ /- %observe_new_address -/
    STK 1 [.e 0, .t (.lab "create_addresses@4.after")] /- (address) -> (address, create_addresses@4.after) -/ ::
    (m_jump (.lab "observe_new_address") ++ []))

/-- `asm/core/create_addresses.asm:76`, label `create_addresses@4.after`: that of `%observe_new_address`, expanded in `asm/core/create_addresses.asm`. -/
def b_create_addresses_4_after : List I :=
  /- end %observe_new_address -/ SWAP 1 :: JUMP :: []

/-- `asm/core/create_addresses.asm:39`, label `get_create2_address`. -/
def b_get_create2_address : List I :=
  PUSH 0x700000000 /- @SEGMENT_KERNEL_GENERAL -/ :: DUP 1 :: PUSH 255 :: MSTORE_GENERAL :: (m_increment ++
    STK 5 [.e 0, .e 1, .e 3, .e 2, .e 4] /- (addr, sender, code_hash, salt, retdest) -> (addr, sender, salt, code_hash, retdest) -/ ::
    MSTORE_32BYTES 20 :: MSTORE_32BYTES 32 :: MSTORE_32BYTES 32 :: POP ::
    STK 1 [.t (.lit 0x700000000), .t (.lit 85), .e 0] /- (retdest) -> (@SEGMENT_KERNEL_GENERAL, 85, retdest) -/ :: KECCAK_GENERAL ::
    (m_u256_to_addr ++ /- %observe_new_address -/
    STK 1 [.e 0, .t (.lab "create_addresses@5.after")] /- (address) -> (address, create_addresses@5.after) -/ ::
    (m_jump (.lab "observe_new_address") ++ [])))

/-- `asm/core/create_addresses.asm:76`, label `create_addresses@5.after`: that of `%observe_new_address`, expanded in `asm/core/create_addresses.asm`. -/
def b_create_addresses_5_after : List I :=
  /- end %observe_new_address -/ SWAP 1 :: JUMP :: []

/-- `asm/core/create_addresses.asm:66`, label `observe_new_address`. -/
def b_observe_new_address : List I :=
  SWAP 1 :: JUMP :: []

/-- The labels of this part of the kernel and what follows them. -/
def createAddrCode : List (String × List I) :=
  [("get_create_address", b_get_create_address),
   ("create_addresses@1.after", b_create_addresses_1_after),
   ("create_addresses@2.after", b_create_addresses_2_after),
   ("create_addresses@3.after", b_create_addresses_3_after),
   ("create_addresses@4.after", b_create_addresses_4_after),
   ("get_create2_address", b_get_create2_address),
   ("create_addresses@5.after", b_create_addresses_5_after),
   ("observe_new_address", b_observe_new_address)]

end Verif.Kasm
