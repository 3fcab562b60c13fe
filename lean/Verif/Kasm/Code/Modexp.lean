import Verif.Kasm.Code.Macros

/-! Kernel code transcribed from `asm/bignum/modexp.asm`: macros, and for every label the items from there on. -/

namespace Verif.Kasm


/-- `asm/bignum/modexp.asm:10`, label `modexp_bignum`. -/
def b_modexp_bignum : List I :=
  PUSHL "modulus_zero_return" :: DUP 5 :: DUP 3 :: (m_jump (.lab "iszero_bignum") ++ [])

/-- `asm/bignum/modexp.asm:23`, label `modulus_zero_return`. -/
def b_modulus_zero_return : List I :=
  (m_jumpi (.lab "modulus_zero_or_one") ++ PUSHL "modulus_one_return" :: DUP 5 :: DUP 3 :: (m_jump (.lab "isone_bignum") ++ []))

/-- `asm/bignum/modexp.asm:35`, label `modulus_one_return`. -/
def b_modulus_one_return : List I :=
  (m_jumpi (.lab "modulus_zero_or_one") ++ PUSHL "b_zero_return" :: DUP 3 :: DUP 3 :: (m_jump (.lab "iszero_bignum") ++ []))

/-- `asm/bignum/modexp.asm:47`, label `b_zero_return`. -/
def b_b_zero_return : List I :=
  PUSHL "e_zero_return" :: DUP 5 :: DUP 4 :: (m_jump (.lab "iszero_bignum") ++ [])

/-- `asm/bignum/modexp.asm:56`, label `e_zero_return`. -/
def b_e_zero_return : List I :=
  MUL :: (m_jumpi (.lab "b_and_e_zero") ++ DUP 1 :: DUP 3 :: DUP 8 :: /- %memcpy_current_general -/
    (m_build_current_general_address_no_offset ++
    STK 4 [.e 0, .e 2, .e 0, .e 1, .e 3, .t (.lab "modexp@1.after")] /- (addr_no_offset, dst, src, len) -> (addr_no_offset, src, addr_no_offset, dst, len, modexp@1.after) -/ ::
    ADD :: SWAP 2 :: ADD :: (m_jump (.lab "memcpy") ++ [])))

/-- `asm/bignum/modexp.asm:77`, label `modexp_loop`. -/
def b_modexp_loop : List I :=
  DUP 3 :: (m_mload_current_general ++ (m_mod_const (.lit 2) ++ ISZERO :: (m_jumpi (.lab "modexp_y_0") ++ PUSHL "modexp_mul_return" ::
    DUP 10 :: DUP 10 :: DUP 10 :: DUP 14 :: DUP 9 :: DUP 12 :: DUP 12 :: DUP 9 :: (m_jump (.lab "modmul_bignum") ++ []))))

/-- `asm/bignum/util.asm:12`, label `modexp@1.after`: that of `%memcpy_current_general`, expanded in `asm/bignum/modexp.asm`. -/
def b_modexp_1_after : List I :=
  /- end %memcpy_current_general -/ PUSH 1 :: DUP 6 :: (m_mstore_current_general0 ++ b_modexp_loop)

/-- `asm/bignum/modexp.asm:103`, label `modexp_mul_return`. -/
def b_modexp_mul_return : List I :=
  DUP 1 :: DUP 11 :: DUP 7 :: /- %memcpy_current_general -/ (m_build_current_general_address_no_offset ++
    STK 4 [.e 0, .e 2, .e 0, .e 1, .e 3, .t (.lab "modexp@2.after")] /- (addr_no_offset, dst, src, len) -> (addr_no_offset, src, addr_no_offset, dst, len, modexp@2.after) -/ ::
    ADD :: SWAP 2 :: ADD :: (m_jump (.lab "memcpy") ++ []))

/-- `asm/bignum/util.asm:12`, label `modexp@2.after`: that of `%memcpy_current_general`, expanded in `asm/bignum/modexp.asm`. -/
def b_modexp_2_after : List I :=
  /- end %memcpy_current_general -/ DUP 1 :: (m_mul_const (.lit 8) ++ DUP 8 :: /- %clear_current_general -/
    (m_build_current_general_address ++ STK 2 [.e 0, .e 1, .t (.lab "modexp@3.after")] /- (DST, len) -> (DST, len, modexp@3.after) -/ ::
    (m_jump (.lab "memset") ++ [])))

/-- `asm/bignum/modexp.asm:122`, label `modexp_y_0`. -/
def b_modexp_y_0 : List I :=
  PUSHL "modexp_square_return" :: DUP 10 :: DUP 10 :: DUP 10 :: DUP 14 :: DUP 9 :: DUP 12 :: DUP 1 :: DUP 9 ::
    (m_jump (.lab "modmul_bignum") ++ [])

/-- `asm/bignum/util.asm:20`, label `modexp@3.after`: that of `%clear_current_general`, expanded in `asm/bignum/modexp.asm`. -/
def b_modexp_3_after : List I :=
  /- end %clear_current_general -/ b_modexp_y_0

/-- `asm/bignum/modexp.asm:139`, label `modexp_square_return`. -/
def b_modexp_square_return : List I :=
  DUP 1 :: DUP 11 :: DUP 8 :: /- %memcpy_current_general -/ (m_build_current_general_address_no_offset ++
    STK 4 [.e 0, .e 2, .e 0, .e 1, .e 3, .t (.lab "modexp@4.after")] /- (addr_no_offset, dst, src, len) -> (addr_no_offset, src, addr_no_offset, dst, len, modexp@4.after) -/ ::
    ADD :: SWAP 2 :: ADD :: (m_jump (.lab "memcpy") ++ []))

/-- `asm/bignum/util.asm:12`, label `modexp@4.after`: that of `%memcpy_current_general`, expanded in `asm/bignum/modexp.asm`. -/
def b_modexp_4_after : List I :=
  /- end %memcpy_current_general -/ DUP 1 :: (m_mul_const (.lit 8) ++ DUP 8 :: /- %clear_current_general -/
    (m_build_current_general_address ++ STK 2 [.e 0, .e 1, .t (.lab "modexp@5.after")] /- (DST, len) -> (DST, len, modexp@5.after) -/ ::
    (m_jump (.lab "memset") ++ [])))

/-- `asm/bignum/util.asm:20`, label `modexp@5.after`: that of `%clear_current_general`, expanded in `asm/bignum/modexp.asm`. -/
def b_modexp_5_after : List I :=
  /- end %clear_current_general -/ PUSHL "modexp_shr_return" :: DUP 4 :: DUP 3 :: (m_jump (.lab "shr_bignum") ++ [])

/-- `asm/bignum/modexp.asm:163`, label `modexp_shr_return`. -/
def b_modexp_shr_return : List I :=
  PUSHL "modexp_iszero_return" :: DUP 4 :: DUP 3 :: (m_jump (.lab "iszero_bignum") ++ [])

/-- `asm/bignum/modexp.asm:178`, label `modulus_zero_or_one`. -/
def b_modulus_zero_or_one : List I :=
  (m_pop10 ++ JUMP :: [])

/-- `asm/bignum/modexp.asm:172`, label `modexp_iszero_return`. -/
def b_modexp_iszero_return : List I :=
  ISZERO :: (m_jumpi (.lab "modexp_loop") ++ b_modulus_zero_or_one)

/-- `asm/bignum/modexp.asm:184`, label `b_and_e_zero`. -/
def b_b_and_e_zero : List I :=
  PUSH 1 :: DUP 6 :: (m_mstore_current_general0 ++ (m_pop10 ++ JUMP :: []))

/-- The labels of this part of the kernel and what follows them. -/
def modexpCode : List (String × List I) :=
  [("modexp_bignum", b_modexp_bignum),
   ("modulus_zero_return", b_modulus_zero_return),
   ("modulus_one_return", b_modulus_one_return),
   ("b_zero_return", b_b_zero_return),
   ("e_zero_return", b_e_zero_return),
   ("modexp@1.after", b_modexp_1_after),
   ("modexp_loop", b_modexp_loop),
   ("modexp_mul_return", b_modexp_mul_return),
   ("modexp@2.after", b_modexp_2_after),
   ("modexp@3.after", b_modexp_3_after),
   ("modexp_y_0", b_modexp_y_0),
   ("modexp_square_return", b_modexp_square_return),
   ("modexp@4.after", b_modexp_4_after),
   ("modexp@5.after", b_modexp_5_after),
   ("modexp_shr_return", b_modexp_shr_return),
   ("modexp_iszero_return", b_modexp_iszero_return),
   ("modulus_zero_or_one", b_modulus_zero_or_one),
   ("b_and_e_zero", b_b_and_e_zero)]

end Verif.Kasm
