import Verif.Kasm.Code.Macros

/-! Kernel code transcribed from `asm/memory/memcpy.asm`, `asm/memory/memset.asm`, `asm/memory/packing.asm`: macros, and for every label the items from there on. -/

namespace Verif.Kasm


/-- `asm/memory/memcpy.asm:2`, label `memcpy`. -/
def b_memcpy : List I :=
  DUP 3 :: ISZERO :: (m_jumpi (.lab "memcpy_finish") ++ DUP 1 :: DUP 3 :: MLOAD_GENERAL :: MSTORE_GENERAL :: (m_increment ++ SWAP 1 ::
    (m_increment ++ SWAP 1 :: PUSH 1 :: DUP 4 :: SUB :: SWAP 3 :: POP :: (m_jump (.lab "memcpy") ++ []))))

/-- `asm/memory/memcpy.asm:39`, label `memcpy_bytes`. -/
def b_memcpy_bytes : List I :=
  DUP 3 :: (m_lt_const (.lit 33) ++ (m_jumpi (.lab "memcpy_bytes_finish") ++ PUSH 32 :: DUP 3 :: MLOAD_32BYTES :: SWAP 1 ::
    MSTORE_32BYTES 32 :: SWAP 1 :: (m_add_const (.lit 32) ++ SWAP 1 :: PUSH 32 :: DUP 4 :: SUB :: SWAP 3 :: POP ::
    (m_jump (.lab "memcpy_bytes") ++ []))))

/-- `asm/memory/memcpy.asm:71`, label `memcpy_bytes_finish`. -/
def b_memcpy_bytes_finish : List I :=
  DUP 3 :: ISZERO :: (m_jumpi (.lab "memcpy_finish") ++ DUP 3 :: DUP 1 :: DUP 4 :: MLOAD_32BYTES :: DUP 3 :: /- %mstore_unpacking -/
    STK 3 [.e 0, .e 1, .e 2, .t (.lab "memcpy@1.after")] /- (addr, value, len) -> (addr, value, len, memcpy@1.after) -/ ::
    (m_jump (.lab "mstore_unpacking") ++ []))

/-- `asm/memory/memcpy.asm:96`, label `memcpy_finish`. -/
def b_memcpy_finish : List I :=
  (m_pop3 ++ JUMP :: [])

/-- `asm/memory/packing.asm:278`, label `memcpy@1.after`: that of `%mstore_unpacking`, expanded in `asm/memory/memcpy.asm`. -/
def b_memcpy_1_after : List I :=
  /- end %mstore_unpacking -/ POP :: b_memcpy_finish

/-- `asm/memory/memcpy.asm:110`, label `memcpy_bytes_backwards`. -/
def b_memcpy_bytes_backwards : List I :=
  DUP 3 :: (m_lt_const (.lit 33) ++ (m_jumpi (.lab "memcpy_bytes_finish") ++ PUSH 32 :: DUP 3 :: MLOAD_32BYTES :: SWAP 1 ::
    MSTORE_32BYTES 32 :: SWAP 2 :: (m_sub_const (.lit 32) ++ SWAP 2 :: DUP 3 :: PUSH 32 :: (m_min ++ DUP 1 :: (m_add_const (.lit 32) ++
    SWAP 3 :: SUB :: SWAP 2 :: SWAP 1 :: SUB :: (m_jump (.lab "memcpy_bytes_backwards") ++ []))))))

/-- `asm/memory/memset.asm:2`, label `memset`. -/
def b_memset : List I :=
  DUP 2 :: (m_lt_const (.lit 33) ++ (m_jumpi (.lab "memset_finish") ++ PUSH 0 :: SWAP 1 :: MSTORE_32BYTES 32 :: PUSH 32 :: DUP 3 :: SUB ::
    SWAP 2 :: POP :: (m_jump (.lab "memset") ++ [])))

/-- `asm/memory/memset.asm:24`, label `memset_finish`. -/
def b_memset_finish : List I :=
  DUP 2 :: ISZERO :: (m_jumpi (.lab "memset_bytes_empty") ++ PUSH 0 :: SWAP 1 :: /- %mstore_unpacking -/
    STK 3 [.e 0, .e 1, .e 2, .t (.lab "memset@1.after")] /- (addr, value, len) -> (addr, value, len, memset@1.after) -/ ::
    (m_jump (.lab "mstore_unpacking") ++ []))

/-- `asm/memory/packing.asm:278`, label `memset@1.after`: that of `%mstore_unpacking`, expanded in `asm/memory/memset.asm`. -/
def b_memset_1_after : List I :=
  /- end %mstore_unpacking -/ POP :: JUMP :: []

/-- `asm/memory/memset.asm:44`, label `memset_bytes_empty`. -/
def b_memset_bytes_empty : List I :=
  (m_pop2 ++ JUMP :: [])

/-- `asm/memory/packing.asm:25`, label `mstore_unpacking`. -/
def b_mstore_unpacking : List I :=
  DUP 3 :: ISZERO :: (m_jumpi (.lab "mstore_unpacking_empty") ++
    STK 4 [.e 2, .e 0, .e 1, .e 3] /- (addr, value, len, retdest) -> (len, addr, value, retdest) -/ :: PUSH 3 :: MUL ::
    PUSHL "mstore_unpacking_0" :: ADD :: JUMP :: [])

/-- `asm/memory/packing.asm:41`, label `mstore_unpacking_empty`. -/
def b_mstore_unpacking_empty : List I :=
  STK 4 [.e 3, .e 0] /- (addr, value, len, retdest) -> (retdest, addr) -/ :: JUMP :: []

/-- The labels of this part of the kernel and what follows them. -/
def copyCode : List (String × List I) :=
  [("memcpy", b_memcpy),
   ("memcpy_bytes", b_memcpy_bytes),
   ("memcpy_bytes_finish", b_memcpy_bytes_finish),
   ("memcpy@1.after", b_memcpy_1_after),
   ("memcpy_finish", b_memcpy_finish),
   ("memcpy_bytes_backwards", b_memcpy_bytes_backwards),
   ("memset", b_memset),
   ("memset_finish", b_memset_finish),
   ("memset@1.after", b_memset_1_after),
   ("memset_bytes_empty", b_memset_bytes_empty),
   ("mstore_unpacking", b_mstore_unpacking),
   ("mstore_unpacking_empty", b_mstore_unpacking_empty)]

end Verif.Kasm
