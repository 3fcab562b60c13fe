import Verif.Kasm.Code.Macros

/-! Kernel code transcribed from `asm/signed.asm`: macros, and for every label the items from there on. -/

namespace Verif.Kasm


/-- `asm/signed.asm:45`, label `sys_sdiv_same_sign`. -/
def b_sys_sdiv_same_sign : List I :=
  SWAP 1 :: JUMP :: []

/-- `asm/signed.asm:34`, label `sys_sdiv_nonneg_denom`. -/
def b_sys_sdiv_nonneg_denom : List I :=
  SWAP 2 :: DIV :: SWAP 2 :: EQ :: (m_jumpi (.lab "sys_sdiv_same_sign") ++ PUSH 0 :: SUB :: b_sys_sdiv_same_sign)

/-- `asm/signed.asm:20`, label `sys_sdiv_nonneg_num`. -/
def b_sys_sdiv_nonneg_num : List I :=
  SWAP 2 :: DUP 1 :: PUSH 0x8000000000000000000000000000000000000000000000000000000000000000 :: GT :: DUP 1 ::
    (m_jumpi (.lab "sys_sdiv_nonneg_denom") ++ SWAP 1 :: PUSH 0 :: SUB :: SWAP 1 :: b_sys_sdiv_nonneg_denom)

/-- `asm/signed.asm:6`, label `_sys_sdiv`. -/
def b__sys_sdiv : List I :=
  DUP 1 :: PUSH 0x8000000000000000000000000000000000000000000000000000000000000000 :: GT :: DUP 1 :: (m_jumpi (.lab "sys_sdiv_nonneg_num") ++
    SWAP 1 :: PUSH 0 :: SUB :: SWAP 1 :: b_sys_sdiv_nonneg_num)

/-- `asm/signed.asm:70`, label `sys_smod_pos_mod`. -/
def b_sys_smod_pos_mod : List I :=
  DUP 2 :: LT :: (m_jumpi (.lab "sys_smod_pos_x") ++ PUSH 0 :: SUB :: MOD :: PUSH 0 :: SUB :: SWAP 1 :: JUMP :: [])

/-- `asm/signed.asm:54`, label `_sys_smod`. -/
def b__sys_smod : List I :=
  PUSH 0x8000000000000000000000000000000000000000000000000000000000000000 :: DUP 1 :: DUP 4 :: LT :: (m_jumpi (.lab "sys_smod_pos_mod") ++
    SWAP 2 :: PUSH 0 :: SUB :: SWAP 2 :: b_sys_smod_pos_mod)

/-- `asm/signed.asm:87`, label `sys_smod_pos_x`. -/
def b_sys_smod_pos_x : List I :=
  MOD :: SWAP 1 :: JUMP :: []

/-- `asm/signed.asm:122`, label `_sys_sar`. -/
def b__sys_sar : List I :=
  PUSH 255 :: (m_min ++ PUSH 0x8000000000000000000000000000000000000000000000000000000000000000 :: DUP 1 :: DUP 3 :: SHR :: SWAP 3 :: ADD ::
    SWAP 1 :: SHR :: SUB :: SWAP 1 :: JUMP :: [])

/-- `asm/signed.asm:97`, label `_sys_signextend`. -/
def b__sys_signextend : List I :=
  PUSH 31 :: (m_min ++ (m_increment ++ (m_mul_const (.lit 8) ++ PUSH 256 :: SUB ::
    STK 3 [.e 0, .e 1, .e 0, .e 2] /- (bits, value, return_info) -> (bits, value, bits, return_info) -/ :: SHL :: SWAP 1 :: b__sys_sar)))

/-- `asm/signed.asm:163`, label `_sys_slt`. -/
def b__sys_slt : List I :=
  (m_add_const (.lit 0x8000000000000000000000000000000000000000000000000000000000000000) ++ SWAP 1 ::
    (m_add_const (.lit 0x8000000000000000000000000000000000000000000000000000000000000000) ++ GT :: SWAP 1 :: JUMP :: []))

/-- `asm/signed.asm:153`, label `_sys_sgt`. -/
def b__sys_sgt : List I :=
  SWAP 1 :: b__sys_slt

/-- `asm/signed.asm:185`, label `sys_sdiv`. -/
def b_sys_sdiv : List I :=
  (m_charge_gas_const (.lit 5) ++
    STK 3 [.t (.lab "_sys_sdiv"), .e 1, .e 2, .t (.lab "_syscall_return"), .e 0] /- (kernel_return, x, y) -> (_sys_sdiv, x, y, _syscall_return, kernel_return) -/ ::
    JUMP :: [])

/-- `asm/signed.asm:190`, label `sys_smod`. -/
def b_sys_smod : List I :=
  (m_charge_gas_const (.lit 5) ++
    STK 3 [.t (.lab "_sys_smod"), .e 1, .e 2, .t (.lab "_syscall_return"), .e 0] /- (kernel_return, x, y) -> (_sys_smod, x, y, _syscall_return, kernel_return) -/ ::
    JUMP :: [])

/-- `asm/signed.asm:195`, label `sys_signextend`. -/
def b_sys_signextend : List I :=
  (m_charge_gas_const (.lit 5) ++
    STK 3 [.t (.lab "_sys_signextend"), .e 1, .e 2, .t (.lab "_syscall_return"), .e 0] /- (kernel_return, x, y) -> (_sys_signextend, x, y, _syscall_return, kernel_return) -/ ::
    JUMP :: [])

/-- `asm/signed.asm:200`, label `sys_sar`. -/
def b_sys_sar : List I :=
  (m_charge_gas_const (.lit 3) ++
    STK 3 [.t (.lab "_sys_sar"), .e 1, .e 2, .t (.lab "_syscall_return"), .e 0] /- (kernel_return, x, y) -> (_sys_sar, x, y, _syscall_return, kernel_return) -/ ::
    JUMP :: [])

/-- `asm/signed.asm:205`, label `sys_slt`. -/
def b_sys_slt : List I :=
  (m_charge_gas_const (.lit 3) ++
    STK 3 [.t (.lab "_sys_slt"), .e 1, .e 2, .t (.lab "_syscall_return"), .e 0] /- (kernel_return, x, y) -> (_sys_slt, x, y, _syscall_return, kernel_return) -/ ::
    JUMP :: [])

/-- `asm/signed.asm:210`, label `sys_sgt`. -/
def b_sys_sgt : List I :=
  (m_charge_gas_const (.lit 3) ++
    STK 3 [.t (.lab "_sys_sgt"), .e 1, .e 2, .t (.lab "_syscall_return"), .e 0] /- (kernel_return, x, y) -> (_sys_sgt, x, y, _syscall_return, kernel_return) -/ ::
    JUMP :: [])

/-- `asm/signed.asm:215`, label `_syscall_return`. -/
def b__syscall_return : List I :=
  SWAP 1 :: EXIT_KERNEL :: []

/-- The labels of this part of the kernel and what follows them. -/
def signedCode : List (String × List I) :=
  [("_sys_sdiv", b__sys_sdiv),
   ("sys_sdiv_nonneg_num", b_sys_sdiv_nonneg_num),
   ("sys_sdiv_nonneg_denom", b_sys_sdiv_nonneg_denom),
   ("sys_sdiv_same_sign", b_sys_sdiv_same_sign),
   ("_sys_smod", b__sys_smod),
   ("sys_smod_pos_mod", b_sys_smod_pos_mod),
   ("sys_smod_pos_x", b_sys_smod_pos_x),
   ("_sys_signextend", b__sys_signextend),
   ("_sys_sar", b__sys_sar),
   ("_sys_sgt", b__sys_sgt),
   ("_sys_slt", b__sys_slt),
   ("sys_sdiv", b_sys_sdiv),
   ("sys_smod", b_sys_smod),
   ("sys_signextend", b_sys_signextend),
   ("sys_sar", b_sys_sar),
   ("sys_slt", b_sys_slt),
   ("sys_sgt", b_sys_sgt),
   ("_syscall_return", b__syscall_return)]

end Verif.Kasm
