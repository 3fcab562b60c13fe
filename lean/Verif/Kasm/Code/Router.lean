import Verif.Kasm.Code.Macros2

/-! Kernel code transcribed from `asm/rlp/read_to_memory.asm`, `asm/transactions/router.asm`: macros, and for every label the items from there on. -/

namespace Verif.Kasm


/-- `asm/rlp/read_to_memory.asm:16`, label `read_rlp_to_memory_loop`. -/
def b_read_rlp_to_memory_loop : List I :=
  DUP 2 :: DUP 2 :: LT :: ISZERO :: (m_jumpi (.lab "read_rlp_to_memory_finish") ++ INPUT "rlp" :: SWAP 1 :: MSTORE_32BYTES 32 ::
    (m_jump (.lab "read_rlp_to_memory_loop") ++ []))

/-- `asm/rlp/read_to_memory.asm:7`, label `read_rlp_to_memory`. -/
def b_read_rlp_to_memory : List I :=
  INPUT "rlp" :: PUSH 0xb00000001 /- @INITIAL_RLP_ADDR -/ :: ADD :: PUSH 0xb00000001 /- @INITIAL_RLP_ADDR -/ :: b_read_rlp_to_memory_loop

/-- `asm/rlp/read_to_memory.asm:31`, label `read_rlp_to_memory_finish`. -/
def b_read_rlp_to_memory_finish : List I :=
  PUSH 0xb00000001 /- @INITIAL_RLP_ADDR -/ :: DUP 3 :: SUB :: STK 4 [.e 3, .e 0] /- (len, addr, final_addr, retdest) -> (retdest, len) -/ ::
    JUMP :: []

/-- `asm/transactions/router.asm:5`, label `route_txn`. -/
def b_route_txn : List I :=
  
    STK 2 [.t (.lab "update_txn_trie"), .e 0, .e 1, .t (.lab "read_txn_from_memory")] /- (txn_counter, num_nibbles) -> (update_txn_trie, txn_counter, num_nibbles, read_txn_from_memory) -/ ::
    (m_jump (.lab "read_rlp_to_memory") ++ [])

/-- `asm/transactions/router.asm:13`, label `read_txn_from_memory`. -/
def b_read_txn_from_memory : List I :=
  PUSH 0xb00000001 /- @INITIAL_RLP_ADDR -/ :: DUP 1 :: MLOAD_GENERAL :: (m_eq_const (.lit 1) ++ (m_jumpi (.lab "process_type_1_txn") ++
    DUP 1 :: MLOAD_GENERAL :: (m_eq_const (.lit 2) ++ (m_jumpi (.lab "process_type_2_txn") ++ DUP 1 :: MLOAD_GENERAL ::
    (m_eq_const (.lit 3) ++ (m_jumpi (.lab "process_type_3_txn") ++ (m_jump (.lab "process_type_0_txn") ++ [])))))))

/-- `asm/transactions/router.asm:51`, label `update_txn_trie`. -/
def b_update_txn_trie : List I :=
  (m_get_trie_data_size ++ SWAP 1 :: DUP 1 :: (m_append_to_trie_data ++ DUP 2 :: (m_increment ++
    STK 5 [.t (.lit 0xc00000000), .e 0, .t (.lit 0xb00000001), .e 1, .e 1, .e 0, .e 3, .e 4, .e 2] /- (rlp_start, txn_rlp_len, value_ptr, txn_counter, num_nibbles) -> (@SEGMENT_TRIE_DATA, rlp_start, @INITIAL_RLP_ADDR, txn_rlp_len, txn_rlp_len, rlp_start, txn_counter, num_nibbles, value_ptr) -/ ::
    (m_build_kernel_address ++ /- %memcpy_bytes -/
    STK 3 [.e 0, .e 1, .e 2, .t (.lab "router@1.after")] /- (dst, src, count) -> (dst, src, count, router@1.after) -/ ::
    (m_jump (.lab "memcpy_bytes") ++ [])))))

/-- `asm/memory/memcpy.asm:105`, label `router@1.after`: that of `%memcpy_bytes`, expanded in `asm/transactions/router.asm`. -/
def b_router_1_after : List I :=
  /- end %memcpy_bytes -/ ADD :: (m_set_trie_data_size ++ (m_jump (.lab "mpt_insert_txn_trie") ++ []))

/-- The labels of this part of the kernel and what follows them. -/
def routerCode : List (String × List I) :=
  [("read_rlp_to_memory", b_read_rlp_to_memory),
   ("read_rlp_to_memory_loop", b_read_rlp_to_memory_loop),
   ("read_rlp_to_memory_finish", b_read_rlp_to_memory_finish),
   ("route_txn", b_route_txn),
   ("read_txn_from_memory", b_read_txn_from_memory),
   ("update_txn_trie", b_update_txn_trie),
   ("router@1.after", b_router_1_after)]

end Verif.Kasm
