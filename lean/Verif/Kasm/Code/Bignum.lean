import Verif.Kasm.Code.Macros

/-! Kernel code transcribed from `asm/bignum/add.asm`, `asm/bignum/addmul.asm`, `asm/bignum/cmp.asm`, `asm/bignum/iszero.asm`, `asm/bignum/isone.asm`, `asm/bignum/mul.asm`, `asm/bignum/shr.asm`, `asm/bignum/modmul.asm`: macros, and for every label the items from there on. -/

namespace Verif.Kasm


/-- `asm/bignum/add.asm:58`, label `add_end`. -/
def b_add_end : List I :=
  STK 5 [.e 0] /- (c, addr, i, a, b) -> (c) -/ :: SWAP 1 :: JUMP :: []

/-- `asm/bignum/add.asm:15`, label `add_loop`. -/
def b_add_loop : List I :=
  DUP 2 :: DUP 6 :: ADD :: MLOAD_GENERAL :: DUP 3 :: DUP 6 :: ADD :: MLOAD_GENERAL :: ADD :: ADD :: DUP 1 :: (m_shr_const (.lit 128) ++
    SWAP 1 :: (m_mod_const (.lit 0x100000000000000000000000000000000) ++ DUP 3 :: DUP 6 :: ADD :: (m_swap_mstore ++ SWAP 3 ::
    (m_increment ++ SWAP 3 :: SWAP 4 :: (m_increment ++ SWAP 4 :: SWAP 2 :: (m_decrement ++ SWAP 2 :: DUP 3 ::
    (m_jumpi (.lab "add_loop") ++ b_add_end)))))))

/-- `asm/bignum/add.asm:6`, label `add_bignum`. -/
def b_add_bignum : List I :=
  DUP 1 :: ISZERO :: (m_jumpi (.lab "len_zero@add") ++ (m_build_current_general_address_no_offset ++ PUSH 0 :: b_add_loop))

/-- `asm/bignum/add.asm:66`, label `len_zero@add`. -/
def b_len_zero_add : List I :=
  (m_pop3 ++ PUSH 0 :: SWAP 1 :: JUMP :: [])

/-- `asm/bignum/addmul.asm:101`, label `addmul_end`. -/
def b_addmul_end : List I :=
  STK 6 [.e 0] /- (c, addr, i, a, b, v) -> (c) -/ :: SWAP 1 :: JUMP :: []

/-- `asm/bignum/addmul.asm:14`, label `addmul_loop`. -/
def b_addmul_loop : List I :=
  DUP 2 :: DUP 6 :: ADD :: MLOAD_GENERAL :: DUP 7 :: MUL :: DUP 1 :: (m_shr_const (.lit 128) ++ SWAP 1 :: (m_shl_const (.lit 128) ++
    (m_shr_const (.lit 128) ++ DUP 4 :: DUP 7 :: ADD :: MLOAD_GENERAL :: DUP 1 :: SWAP 2 :: ADD :: (m_shl_const (.lit 128) ++
    (m_shr_const (.lit 128) ++ DUP 1 :: SWAP 2 :: GT :: SWAP 1 :: SWAP 2 :: ADD :: DUP 3 :: DUP 3 :: ADD :: (m_shl_const (.lit 128) ++
    (m_shr_const (.lit 128) ++ SWAP 2 :: DUP 3 :: LT :: STK 4 [.e 0, .e 1, .e 2] /- (vals:3, c) -> (vals) -/ :: ADD :: SWAP 1 :: DUP 3 ::
    DUP 6 :: ADD :: (m_swap_mstore ++ SWAP 2 :: (m_decrement ++ SWAP 3 :: (m_increment ++ SWAP 4 :: (m_increment ++
    STK 5 [.e 2, .e 1, .e 3, .e 4, .e 0] /- (b, addr, c, i, a) -> (c, addr, i, a, b) -/ :: DUP 3 :: (m_jumpi (.lab "addmul_loop") ++ b_addmul_end))))))))))))

/-- `asm/bignum/addmul.asm:5`, label `addmul_bignum`. -/
def b_addmul_bignum : List I :=
  DUP 1 :: ISZERO :: (m_jumpi (.lab "len_zero@addmul") ++ (m_build_current_general_address_no_offset ++ PUSH 0 :: b_addmul_loop))

/-- `asm/bignum/addmul.asm:109`, label `len_zero@addmul`. -/
def b_len_zero_addmul : List I :=
  (m_pop4 ++ PUSH 0 :: SWAP 1 :: JUMP :: [])

/-- `asm/bignum/cmp.asm:35`, label `ge_loop`. -/
def b_ge_loop : List I :=
  DUP 4 :: DUP 3 :: ADD :: MLOAD_GENERAL :: DUP 4 :: DUP 4 :: ADD :: MLOAD_GENERAL ::
    STK 2 [.e 0, .e 1, .e 0, .e 1] /- (vals:2) -> (vals, vals) -/ :: GT :: (m_jumpi (.lab "greater") ++ LT :: (m_jumpi (.lab "less") ++
    DUP 1 :: ISZERO :: (m_jumpi (.lab "equal") ++ (m_decrement ++ SWAP 2 :: (m_decrement ++ SWAP 3 :: (m_decrement ++
    STK 4 [.e 2, .e 1, .e 3, .e 0] /- (b, addr, i, a) -> (i, addr, a, b) -/ :: (m_jump (.lab "ge_loop") ++ [])))))))

/-- `asm/bignum/cmp.asm:6`, label `cmp_bignum`. -/
def b_cmp_bignum : List I :=
  (m_build_current_general_address_no_offset ++ DUP 2 :: ISZERO :: (m_jumpi (.lab "equal") ++ SWAP 2 :: PUSH 1 :: DUP 3 :: SUB :: ADD ::
    SWAP 3 :: PUSH 1 :: DUP 3 :: SUB :: ADD :: STK 4 [.e 1, .e 2, .e 3, .e 0] /- (b, l, addr, a) -> (l, addr, a, b) -/ :: (m_decrement ++ b_ge_loop)))

/-- `asm/bignum/cmp.asm:70`, label `equal`. -/
def b_equal : List I :=
  (m_pop4 ++ PUSH 0 :: SWAP 1 :: JUMP :: [])

/-- `asm/bignum/cmp.asm:78`, label `greater`. -/
def b_greater : List I :=
  (m_pop6 ++ PUSH 1 :: SWAP 1 :: JUMP :: [])

/-- `asm/bignum/cmp.asm:86`, label `less`. -/
def b_less : List I :=
  (m_pop4 ++ PUSH 0xffffffffffffffffffffffffffffffffffffffffffffffffffffffffffffffff :: SWAP 1 :: JUMP :: [])

/-- `asm/bignum/iszero.asm:16`, label `iszero_loop`. -/
def b_iszero_loop : List I :=
  DUP 1 :: (m_mload_current_general ++ (m_jumpi (.lab "neqzero") ++ (m_increment ++
    STK 2 [.e 0, .e 1, .e 0, .e 1] /- (vals:2) -> (vals, vals) -/ :: EQ :: (m_jumpi (.lab "eqzero@iszero") ++
    (m_jump (.lab "iszero_loop") ++ [])))))

/-- `asm/bignum/iszero.asm:4`, label `iszero_bignum`. -/
def b_iszero_bignum : List I :=
  DUP 1 :: ISZERO :: (m_jumpi (.lab "eqzero@iszero") ++ DUP 2 :: ADD :: SWAP 1 :: b_iszero_loop)

/-- `asm/bignum/iszero.asm:31`, label `neqzero`. -/
def b_neqzero : List I :=
  STK 3 [.e 2, .t (.lit 0)] /- (vals:2, retdest) -> (retdest, 0) -/ :: JUMP :: []

/-- `asm/bignum/iszero.asm:36`, label `eqzero@iszero`. -/
def b_eqzero_iszero : List I :=
  STK 3 [.e 2, .t (.lit 1)] /- (vals:2, retdest) -> (retdest, 1) -/ :: JUMP :: []

/-- `asm/bignum/isone.asm:4`, label `isone_bignum`. -/
def b_isone_bignum : List I :=
  DUP 1 :: ISZERO :: (m_jumpi (.lab "eqzero@isone") ++ DUP 2 :: (m_mload_current_general ++ (m_eq_const (.lit 1) ++
    (m_jumpi (.lab "starts_with_one") ++ STK 3 [.e 2, .t (.lit 0)] /- (vals:2, retdest) -> (retdest, 0) -/ :: JUMP :: []))))

/-- `asm/bignum/isone.asm:21`, label `eqzero@isone`. -/
def b_eqzero_isone : List I :=
  STK 3 [.e 2, .t (.lit 0)] /- (vals:2, retdest) -> (retdest, 0) -/ :: JUMP :: []

/-- `asm/bignum/isone.asm:27`, label `starts_with_one`. -/
def b_starts_with_one : List I :=
  (m_decrement ++ SWAP 1 :: (m_increment ++ SWAP 1 :: (m_jump (.lab "iszero_bignum") ++ [])))

/-- `asm/bignum/mul.asm:20`, label `mul_loop`. -/
def b_mul_loop : List I :=
  PUSHL "mul_addmul_return" :: DUP 6 :: DUP 4 :: ADD :: MLOAD_GENERAL :: DUP 6 :: DUP 9 :: DUP 7 :: (m_jump (.lab "addmul_bignum") ++ [])

/-- `asm/bignum/mul.asm:9`, label `mul_bignum`. -/
def b_mul_bignum : List I :=
  DUP 1 :: ISZERO :: (m_jumpi (.lab "len_zero@mul") ++ (m_build_current_general_address_no_offset ++ DUP 2 :: b_mul_loop))

/-- `asm/bignum/mul.asm:60`, label `mul_end`. -/
def b_mul_end : List I :=
  (m_pop6 ++ JUMP :: [])

/-- `asm/bignum/mul.asm:36`, label `mul_addmul_return`. -/
def b_mul_addmul_return : List I :=
  DUP 7 :: DUP 5 :: ADD :: DUP 4 :: ADD :: (m_swap_mstore ++ (m_decrement ++ SWAP 4 :: (m_increment ++ SWAP 4 :: SWAP 5 :: (m_increment ++
    SWAP 5 :: DUP 1 :: (m_jumpi (.lab "mul_loop") ++ b_mul_end)))))

/-- `asm/bignum/mul.asm:66`, label `len_zero@mul`. -/
def b_len_zero_mul : List I :=
  (m_pop4 ++ JUMP :: [])

/-- `asm/bignum/shr.asm:64`, label `shr_end`. -/
def b_shr_end : List I :=
  (m_pop4 ++ JUMP :: [])

/-- `asm/bignum/shr.asm:25`, label `shr_loop`. -/
def b_shr_loop : List I :=
  DUP 1 :: DUP 3 :: ADD :: MLOAD_GENERAL :: DUP 1 :: (m_shr_const (.lit 1) ++ SWAP 1 :: (m_mod_const (.lit 2) ++ SWAP 4 ::
    (m_shl_const (.lit 127) ++ ADD :: DUP 2 :: DUP 4 :: ADD :: (m_swap_mstore ++ PUSH 1 :: DUP 2 :: SUB :: SWAP 1 :: DUP 5 :: EQ ::
    ISZERO :: (m_jumpi (.lab "shr_loop") ++ b_shr_end)))))

/-- `asm/bignum/shr.asm:6`, label `shr_bignum`. -/
def b_shr_bignum : List I :=
  DUP 1 :: ISZERO :: (m_jumpi (.lab "len_zero@shr") ++ DUP 2 :: ADD :: (m_decrement ++ (m_build_current_general_address_no_offset ++
    STK 2 [.e 1, .e 0, .t (.lit 0)] /- (addr, e) -> (e, addr, 0) -/ :: b_shr_loop)))

/-- `asm/bignum/shr.asm:70`, label `len_zero@shr`. -/
def b_len_zero_shr : List I :=
  (m_pop2 ++ JUMP :: [])

/-- `asm/bignum/modmul.asm:28`, label `modmul_remainder_loop`. -/
def b_modmul_remainder_loop : List I :=
  INPUT "bignum_modmul" :: DUP 8 :: DUP 3 :: ADD :: DUP 4 :: ADD :: (m_swap_mstore ++ (m_increment ++ DUP 3 :: DUP 2 :: SUB ::
    (m_jumpi (.lab "modmul_remainder_loop") ++ (m_pop2 ++ PUSHL "modmul_return_1" :: DUP 6 :: DUP 6 :: DUP 4 ::
    (m_jump (.lab "cmp_bignum") ++ [])))))

/-- `asm/bignum/modmul.asm:15`, label `modmul_bignum`. -/
def b_modmul_bignum : List I :=
  DUP 1 :: ISZERO :: (m_jumpi (.lab "len_zero@modmul") ++ (m_build_current_general_address_no_offset ++ PUSH 0 :: b_modmul_remainder_loop))

/-- `asm/bignum/modmul.asm:81`, label `modmul_quotient_loop`. -/
def b_modmul_quotient_loop : List I :=
  INPUT "bignum_modmul" :: DUP 10 :: DUP 3 :: ADD :: DUP 4 :: ADD :: (m_swap_mstore ++ (m_increment ++ DUP 3 :: DUP 2 :: SUB ::
    (m_jumpi (.lab "modmul_quotient_loop") ++ (m_pop3 ++ PUSHL "modmul_return_2" ::
    STK 8 [.e 1, .e 6, .e 4, .e 7, .e 0, .e 1, .e 2, .e 3, .e 5, .e 7] /- (return, len, a, b, m, out, s1, s2) -> (len, s1, m, s2, return, len, a, b, out, s2) -/ ::
    (m_jump (.lab "mul_bignum") ++ [])))))

/-- `asm/bignum/modmul.asm:63`, label `modmul_return_1`. -/
def b_modmul_return_1 : List I :=
  PUSH 1 :: (m_assert_eq0 ++ DUP 1 :: (m_mul_const (.lit 2) ++ (m_build_current_general_address_no_offset ++ PUSH 0 :: b_modmul_quotient_loop)))

/-- `asm/bignum/modmul.asm:113`, label `modmul_return_2`. -/
def b_modmul_return_2 : List I :=
  PUSHL "modmul_return_3" ::
    STK 6 [.e 1, .e 5, .e 4, .e 0, .e 1, .e 2, .e 3, .e 5] /- (return, len, a, b, out, s2) -> (len, s2, out, return, len, a, b, s2) -/ ::
    (m_jump (.lab "add_bignum") ++ [])

/-- `asm/bignum/modmul.asm:122`, label `modmul_return_3`. -/
def b_modmul_return_3 : List I :=
  POP :: PUSHL "modmul_return_4" ::
    STK 6 [.e 1, .e 2, .e 3, .e 5, .e 0, .e 1, .e 4, .e 5] /- (return, len, a, b, s2, s3) -> (len, a, b, s3, return, len, s2, s3) -/ ::
    (m_jump (.lab "mul_bignum") ++ [])

/-- `asm/bignum/modmul.asm:143`, label `modmul_check_loop`. -/
def b_modmul_check_loop : List I :=
  STK 4 [.e 3, .e 2, .e 0, .e 0, .e 1, .e 2, .e 3] /- (addr, l, i, j) -> (j, i, addr, addr, l, i, j) -/ :: DUP 3 :: ADD :: MLOAD_GENERAL ::
    SWAP 2 :: ADD :: MLOAD_GENERAL :: (m_assert_eq0 ++ SWAP 1 :: (m_decrement ++ SWAP 2 :: (m_increment ++ SWAP 3 :: (m_increment ++
    STK 4 [.e 2, .e 1, .e 2, .e 3, .e 0] /- (j, addr, n, i) -> (n, addr, n, i, j) -/ :: (m_jumpi (.lab "modmul_check_loop") ++ (m_pop4 ++
    JUMP :: []))))))

/-- `asm/bignum/modmul.asm:135`, label `modmul_return_4`. -/
def b_modmul_return_4 : List I :=
  (m_build_current_general_address_no_offset ++ b_modmul_check_loop)

/-- `asm/bignum/modmul.asm:174`, label `len_zero@modmul`. -/
def b_len_zero_modmul : List I :=
  (m_pop8 ++ JUMP :: [])

/-- The labels of this part of the kernel and what follows them. -/
def bignumCode : List (String × List I) :=
  [("add_bignum", b_add_bignum),
   ("add_loop", b_add_loop),
   ("add_end", b_add_end),
   ("len_zero@add", b_len_zero_add),
   ("addmul_bignum", b_addmul_bignum),
   ("addmul_loop", b_addmul_loop),
   ("addmul_end", b_addmul_end),
   ("len_zero@addmul", b_len_zero_addmul),
   ("cmp_bignum", b_cmp_bignum),
   ("ge_loop", b_ge_loop),
   ("equal", b_equal),
   ("greater", b_greater),
   ("less", b_less),
   ("iszero_bignum", b_iszero_bignum),
   ("iszero_loop", b_iszero_loop),
   ("neqzero", b_neqzero),
   ("eqzero@iszero", b_eqzero_iszero),
   ("isone_bignum", b_isone_bignum),
   ("eqzero@isone", b_eqzero_isone),
   ("starts_with_one", b_starts_with_one),
   ("mul_bignum", b_mul_bignum),
   ("mul_loop", b_mul_loop),
   ("mul_addmul_return", b_mul_addmul_return),
   ("mul_end", b_mul_end),
   ("len_zero@mul", b_len_zero_mul),
   ("shr_bignum", b_shr_bignum),
   ("shr_loop", b_shr_loop),
   ("shr_end", b_shr_end),
   ("len_zero@shr", b_len_zero_shr),
   ("modmul_bignum", b_modmul_bignum),
   ("modmul_remainder_loop", b_modmul_remainder_loop),
   ("modmul_return_1", b_modmul_return_1),
   ("modmul_quotient_loop", b_modmul_quotient_loop),
   ("modmul_return_2", b_modmul_return_2),
   ("modmul_return_3", b_modmul_return_3),
   ("modmul_return_4", b_modmul_return_4),
   ("modmul_check_loop", b_modmul_check_loop),
   ("len_zero@modmul", b_len_zero_modmul)]

end Verif.Kasm
