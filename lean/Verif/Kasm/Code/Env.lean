import Verif.Kasm.Code.Macros

/-! Kernel code transcribed from `asm/memory/metadata.asm`, `asm/core/gas.asm`, `asm/memory/txn_fields.asm`: macros, and for every label the items from there on. -/

namespace Verif.Kasm


/-- `asm/memory/metadata.asm:110`, label `sys_address`. -/
def b_sys_address : List I :=
  (m_charge_gas_const (.lit 2) ++ (m_address ++ SWAP 1 :: EXIT_KERNEL :: []))

/-- `asm/memory/metadata.asm:123`, label `sys_caller`. -/
def b_sys_caller : List I :=
  (m_charge_gas_const (.lit 2) ++ (m_caller ++ SWAP 1 :: EXIT_KERNEL :: []))

/-- `asm/memory/metadata.asm:140`, label `sys_codesize`. -/
def b_sys_codesize : List I :=
  (m_charge_gas_const (.lit 2) ++ (m_codesize ++ SWAP 1 :: EXIT_KERNEL :: []))

/-- `asm/memory/metadata.asm:149`, label `sys_callvalue`. -/
def b_sys_callvalue : List I :=
  (m_charge_gas_const (.lit 2) ++ (m_callvalue ++ SWAP 1 :: EXIT_KERNEL :: []))

/-- `asm/memory/metadata.asm:180`, label `sys_calldatasize`. -/
def b_sys_calldatasize : List I :=
  (m_charge_gas_const (.lit 2) ++ (m_calldatasize ++ SWAP 1 :: EXIT_KERNEL :: []))

/-- `asm/memory/metadata.asm:193`, label `sys_returndatasize`. -/
def b_sys_returndatasize : List I :=
  (m_charge_gas_const (.lit 2) ++ (m_returndatasize ++ SWAP 1 :: EXIT_KERNEL :: []))

/-- `asm/memory/metadata.asm:206`, label `sys_coinbase`. -/
def b_sys_coinbase : List I :=
  (m_charge_gas_const (.lit 2) ++ (m_coinbase ++ SWAP 1 :: EXIT_KERNEL :: []))

/-- `asm/memory/metadata.asm:219`, label `sys_timestamp`. -/
def b_sys_timestamp : List I :=
  (m_charge_gas_const (.lit 2) ++ (m_timestamp ++ SWAP 1 :: EXIT_KERNEL :: []))

/-- `asm/memory/metadata.asm:232`, label `sys_number`. -/
def b_sys_number : List I :=
  (m_charge_gas_const (.lit 2) ++ (m_blocknumber ++ SWAP 1 :: EXIT_KERNEL :: []))

/-- `asm/memory/metadata.asm:245`, label `sys_gaslimit`. -/
def b_sys_gaslimit : List I :=
  (m_charge_gas_const (.lit 2) ++ (m_blockgaslimit ++ SWAP 1 :: EXIT_KERNEL :: []))

/-- `asm/memory/metadata.asm:258`, label `sys_chainid`. -/
def b_sys_chainid : List I :=
  (m_charge_gas_const (.lit 2) ++ (m_blockchainid ++ SWAP 1 :: EXIT_KERNEL :: []))

/-- `asm/memory/metadata.asm:271`, label `sys_basefee`. -/
def b_sys_basefee : List I :=
  (m_charge_gas_const (.lit 2) ++ (m_basefee ++ SWAP 1 :: EXIT_KERNEL :: []))

/-- `asm/memory/metadata.asm:283`, label `sys_blobhash`. -/
def b_sys_blobhash : List I :=
  (m_charge_gas_const (.lit 3) ++ /- %blobhash -/ SWAP 1 :: (m_mload_global_metadata (.lit 0x500000034) ++ DUP 2 :: LT :: ISZERO ::
    (m_jumpi (.lab "metadata@1.index_too_big") ++ PUSH 0x2600000000 /- @SEGMENT_TXN_BLOB_VERSIONED_HASHES -/ :: (m_build_kernel_address ++
    MLOAD_GENERAL :: (m_jump (.lab "metadata@1.end") ++ [])))))

/-- `asm/memory/metadata.asm:312`, label `metadata@1.end`: that of `%blobhash`, expanded in `asm/memory/metadata.asm`. -/
def b_metadata_1_end : List I :=
  /- end %blobhash -/ SWAP 1 :: EXIT_KERNEL :: []

/-- `asm/memory/metadata.asm:306`, label `metadata@1.index_too_big`: that of `%blobhash`, expanded in `asm/memory/metadata.asm`. -/
def b_metadata_1_index_too_big : List I :=
  POP :: PUSH 0 :: b_metadata_1_end

/-- `asm/memory/metadata.asm:316`, label `sys_blobbasefee`. -/
def b_sys_blobbasefee : List I :=
  (m_charge_gas_const (.lit 2) ++ INPUT "blobbasefee" :: SWAP 1 :: EXIT_KERNEL :: [])

/-- `asm/memory/metadata.asm:326`, label `sys_blockhash`. -/
def b_sys_blockhash : List I :=
  (m_charge_gas_const (.lit 20) ++ SWAP 1 :: /- %blockhash -/
    STK 1 [.e 0, .t (.lab "metadata@2.after")] /- (block_number) -> (block_number, metadata@2.after) -/ :: (m_jump (.lab "blockhash") ++ []))

/-- `asm/memory/metadata.asm:360`, label `metadata@2.after`: that of `%blockhash`, expanded in `asm/memory/metadata.asm`. -/
def b_metadata_2_after : List I :=
  /- end %blockhash -/ SWAP 1 :: EXIT_KERNEL :: []

/-- `asm/memory/metadata.asm:336`, label `blockhash`. -/
def b_blockhash : List I :=
  (m_mload_global_metadata (.lit 0x50000000e) ++ DUP 2 ::
    (m_eq_const (.lit 0xffffffffffffffffffffffffffffffffffffffffffffffffffffffffffffffff) ++ (m_jumpi (.lab "zero_hash") ++ DUP 1 ::
    DUP 3 :: (m_increment ++ GT :: (m_jumpi (.lab "zero_hash") ++ DUP 2 :: PUSH 256 :: ADD :: DUP 2 :: GT :: (m_jumpi (.lab "zero_hash") ++
    SUB :: PUSH 256 :: SUB :: (m_mload_kernel (.lit 0x2000000000) ++ SWAP 1 :: JUMP :: [])))))))

/-- `asm/memory/metadata.asm:363`, label `zero_hash`. -/
def b_zero_hash : List I :=
  (m_pop2 ++ PUSH 0 :: SWAP 1 :: JUMP :: [])

/-- `asm/memory/metadata.asm:489`, label `sys_prevrandao`. -/
def b_sys_prevrandao : List I :=
  (m_charge_gas_const (.lit 2) ++ (m_mload_global_metadata (.lit 0x500000010) ++
    STK 2 [.e 1, .e 0] /- (random, kexit_info) -> (kexit_info, random) -/ :: EXIT_KERNEL :: []))

/-- `asm/core/gas.asm:1`, label `sys_gas`. -/
def b_sys_gas : List I :=
  (m_charge_gas_const (.lit 2) ++ DUP 1 :: (m_shr_const (.lit 192) ++ (m_ctx_gas_limit ++ SUB :: SWAP 1 :: EXIT_KERNEL :: [])))

/-- `asm/core/gas.asm:85`, label `sys_gasprice`. -/
def b_sys_gasprice : List I :=
  (m_charge_gas_const (.lit 2) ++ (m_mload_txn_field (.lit 0x900000010) ++ SWAP 1 :: EXIT_KERNEL :: []))

/-- `asm/memory/txn_fields.asm:32`, label `sys_origin`. -/
def b_sys_origin : List I :=
  (m_charge_gas_const (.lit 2) ++ (m_origin ++ SWAP 1 :: EXIT_KERNEL :: []))

/-- The labels of this part of the kernel and what follows them. -/
def envCode : List (String × List I) :=
  [("sys_address", b_sys_address),
   ("sys_caller", b_sys_caller),
   ("sys_codesize", b_sys_codesize),
   ("sys_callvalue", b_sys_callvalue),
   ("sys_calldatasize", b_sys_calldatasize),
   ("sys_returndatasize", b_sys_returndatasize),
   ("sys_coinbase", b_sys_coinbase),
   ("sys_timestamp", b_sys_timestamp),
   ("sys_number", b_sys_number),
   ("sys_gaslimit", b_sys_gaslimit),
   ("sys_chainid", b_sys_chainid),
   ("sys_basefee", b_sys_basefee),
   ("sys_blobhash", b_sys_blobhash),
   ("metadata@1.index_too_big", b_metadata_1_index_too_big),
   ("metadata@1.end", b_metadata_1_end),
   ("sys_blobbasefee", b_sys_blobbasefee),
   ("sys_blockhash", b_sys_blockhash),
   ("metadata@2.after", b_metadata_2_after),
   ("blockhash", b_blockhash),
   ("zero_hash", b_zero_hash),
   ("sys_prevrandao", b_sys_prevrandao),
   ("sys_gas", b_sys_gas),
   ("sys_gasprice", b_sys_gasprice),
   ("sys_origin", b_sys_origin)]

end Verif.Kasm
