import Verif.Kasm.Code.Macros2

/-! Kernel code transcribed from `asm/core/call.asm`: macros, and for every label the items from there on. -/

namespace Verif.Kasm


/-- `asm/core/access_lists.asm:64`, label `call@7.after`: that of `%insert_accessed_addresses`, expanded in `asm/core/call.asm`. -/
def b_call_7_after : List I :=
  /- end %insert_accessed_addresses -/ /- %call_charge_gas -/
    STK 5 [.t (.lit 1), .t (.lit 1), .e 0, .e 1, .e 2, .e 3, .e 4, .t (.lab "call@8.after")] /- (cold_access, address, gas, kexit_info, value) -> (1, 1, cold_access, address, gas, kexit_info, value, call@8.after) -/ ::
    (m_jump (.lab "call_charge_gas") ++ [])

/-- `asm/core/call_gas.asm:5`, label `call@8.after`: that of `%call_charge_gas`, expanded in `asm/core/call.asm`. -/
def b_call_8_after : List I :=
  /- end %call_charge_gas -/ (m_check_depth ++ (m_checkpoint ++ DUP 3 :: /- %insert_touched_addresses -/
    STK 1 [.e 0, .t (.lab "call@9.after")] /- (addr) -> (addr, call@9.after) -/ :: (m_jump (.lab "insert_touched_addresses") ++ [])))

/-- `asm/core/access_lists.asm:64`, label `call@23.after`: that of `%insert_accessed_addresses`, expanded in `asm/core/call.asm`. -/
def b_call_23_after : List I :=
  /- end %insert_accessed_addresses -/ /- %call_charge_gas -/
    STK 5 [.t (.lit 1), .t (.lit 0), .e 0, .e 1, .e 2, .e 3, .e 4, .t (.lab "call@24.after")] /- (cold_access, address, gas, kexit_info, value) -> (1, 0, cold_access, address, gas, kexit_info, value, call@24.after) -/ ::
    (m_jump (.lab "call_charge_gas") ++ [])

/-- `asm/core/call_gas.asm:5`, label `call@24.after`: that of `%call_charge_gas`, expanded in `asm/core/call.asm`. -/
def b_call_24_after : List I :=
  /- end %call_charge_gas -/ (m_check_depth ++ (m_checkpoint ++ (m_address ++ /- %insert_touched_addresses -/
    STK 1 [.e 0, .t (.lab "call@25.after")] /- (addr) -> (addr, call@25.after) -/ :: (m_jump (.lab "insert_touched_addresses") ++ []))))

/-- `asm/core/access_lists.asm:64`, label `call@38.after`: that of `%insert_accessed_addresses`, expanded in `asm/core/call.asm`. -/
def b_call_38_after : List I :=
  /- end %insert_accessed_addresses -/
    STK 4 [.e 0, .e 1, .e 2, .e 3, .t (.lit 0)] /- (cold_access, address, gas, kexit_info) -> (cold_access, address, gas, kexit_info, 0) -/ ::
    /- %call_charge_gas -/
    STK 5 [.t (.lit 0), .t (.lit 1), .e 0, .e 1, .e 2, .e 3, .e 4, .t (.lab "call@39.after")] /- (cold_access, address, gas, kexit_info, value) -> (0, 1, cold_access, address, gas, kexit_info, value, call@39.after) -/ ::
    (m_jump (.lab "call_charge_gas") ++ [])

/-- `asm/core/call_gas.asm:5`, label `call@39.after`: that of `%call_charge_gas`, expanded in `asm/core/call.asm`. -/
def b_call_39_after : List I :=
  /- end %call_charge_gas -/ (m_check_depth ++ (m_checkpoint ++ DUP 3 :: /- %insert_touched_addresses -/
    STK 1 [.e 0, .t (.lab "call@40.after")] /- (addr) -> (addr, call@40.after) -/ :: (m_jump (.lab "insert_touched_addresses") ++ [])))

/-- `asm/core/access_lists.asm:64`, label `call@52.after`: that of `%insert_accessed_addresses`, expanded in `asm/core/call.asm`. -/
def b_call_52_after : List I :=
  /- end %insert_accessed_addresses -/
    STK 4 [.e 0, .e 1, .e 2, .e 3, .t (.lit 0)] /- (cold_access, address, gas, kexit_info) -> (cold_access, address, gas, kexit_info, 0) -/ ::
    /- %call_charge_gas -/
    STK 5 [.t (.lit 0), .t (.lit 0), .e 0, .e 1, .e 2, .e 3, .e 4, .t (.lab "call@53.after")] /- (cold_access, address, gas, kexit_info, value) -> (0, 0, cold_access, address, gas, kexit_info, value, call@53.after) -/ ::
    (m_jump (.lab "call_charge_gas") ++ [])

/-- `asm/core/call_gas.asm:5`, label `call@53.after`: that of `%call_charge_gas`, expanded in `asm/core/call.asm`. -/
def b_call_53_after : List I :=
  /- end %call_charge_gas -/ (m_check_depth ++ (m_checkpoint ++ (m_address ++ /- %insert_touched_addresses -/
    STK 1 [.e 0, .t (.lab "call@54.after")] /- (addr) -> (addr, call@54.after) -/ :: (m_jump (.lab "insert_touched_addresses") ++ []))))

/-- `asm/core/call.asm:265`, label `call_too_deep`. -/
def b_call_too_deep : List I :=
  
    STK 8 [.e 1, .e 0, .t (.lit 0)] /- (kexit_info, callgas, address, value, args_offset, args_size, ret_offset, ret_size) -> (callgas, kexit_info, 0) -/ ::
    (m_shl_const (.lit 192) ++ SWAP 1 :: SUB :: (m_mstore_context_metadata2 (.lit 0x600000003) (.lit 0) ++ EXIT_KERNEL :: []))

/-- The labels of this part of the kernel and what follows them. -/
def callCode : List (String × List I) :=
  [("call@7.after", b_call_7_after),
   ("call@8.after", b_call_8_after),
   ("call@23.after", b_call_23_after),
   ("call@24.after", b_call_24_after),
   ("call@38.after", b_call_38_after),
   ("call@39.after", b_call_39_after),
   ("call@52.after", b_call_52_after),
   ("call@53.after", b_call_53_after),
   ("call_too_deep", b_call_too_deep)]

end Verif.Kasm
