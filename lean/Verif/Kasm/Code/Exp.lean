import Verif.Kasm.Code.Macros

/-! Kernel code transcribed from `asm/exp.asm`: macros, and for every label the items from there on. -/

namespace Verif.Kasm


/-- `asm/exp.asm:12`, label `exp`. -/
def b_exp : List I :=
  DUP 2 :: (m_jumpi (.lab "step_case") ++ POP :: POP :: PUSH 1 :: SWAP 1 :: JUMP :: [])

/-- `asm/exp.asm:28`, label `step_case`. -/
def b_step_case : List I :=
  PUSHL "recursion_return" :: PUSH 2 :: DUP 4 :: DIV :: DUP 3 :: (m_square ++ (m_jump (.lab "exp") ++ []))

/-- `asm/exp.asm:43`, label `recursion_return`. -/
def b_recursion_return : List I :=
  PUSH 2 :: DUP 4 :: MOD :: PUSH 1 :: DUP 4 :: SUB :: MUL :: PUSH 1 :: ADD :: MUL :: SWAP 3 :: SWAP 2 :: POP :: POP :: JUMP :: []

/-- `asm/exp.asm:75`, label `sys_exp`. -/
def b_sys_exp : List I :=
  STK 3 [.e 1, .e 2, .e 0] /- (return_info, x, e) -> (x, e, return_info) -/ :: PUSH 0 :: (m_jump (.lab "sys_exp_gas_loop_enter") ++ [])

/-- `asm/exp.asm:82`, label `sys_exp_gas_loop_enter`. -/
def b_sys_exp_gas_loop_enter : List I :=
  DUP 3 :: DUP 2 :: SHR :: (m_jumpi (.lab "sys_exp_gas_loop") ++ (m_shr_const (.lit 3) ++ (m_mul_const (.lit 50) ++ (m_add_const (.lit 10) ++
    STK 4 [.e 0, .e 3, .e 1, .e 2] /- (gas_cost, x, e, return_info) -> (gas_cost, return_info, x, e) -/ :: (m_charge_gas ++
    STK 3 [.e 1, .e 2, .t (.lab "sys_exp_return"), .e 0] /- (return_info, x, e) -> (x, e, sys_exp_return, return_info) -/ ::
    (m_jump (.lab "exp") ++ []))))))

/-- `asm/exp.asm:80`, label `sys_exp_gas_loop`. -/
def b_sys_exp_gas_loop : List I :=
  (m_add_const (.lit 8) ++ b_sys_exp_gas_loop_enter)

/-- `asm/exp.asm:99`, label `sys_exp_return`. -/
def b_sys_exp_return : List I :=
  SWAP 1 :: EXIT_KERNEL :: []

/-- The labels of this part of the kernel and what follows them. -/
def expCode : List (String × List I) :=
  [("exp", b_exp),
   ("step_case", b_step_case),
   ("recursion_return", b_recursion_return),
   ("sys_exp", b_sys_exp),
   ("sys_exp_gas_loop", b_sys_exp_gas_loop),
   ("sys_exp_gas_loop_enter", b_sys_exp_gas_loop_enter),
   ("sys_exp_return", b_sys_exp_return)]

end Verif.Kasm
