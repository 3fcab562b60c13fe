import Verif.Stark.Arith.Table
import Verif.Stark.Counter
import Verif.Stark.Logic

/-! Generation of the arithmetic table. `evm_arithmetization/src/arithmetic/{mod,addcy,mul,modular,divmod,byte,shift,utils}.rs`
and `generate_trace` in `arithmetic_stark.rs`. Signed 64-bit integers are modelled by the integers; conversions to 16 and 32 bits
are modelled as they are. A failed assertion is `none`. Property C98. -/

namespace Verif.Stark.Arith

open Finset

/-! ### Helpers -/

/-- `lv[start..start + n].copy_from_slice(&v)`. -/
def setReg (row : Row F) (start n : ℕ) (v : Limbs F) : Row F := fun c => if start ≤ c ∧ c < start + n then v (c - start) else row c

/-- `lv[col] = v`. -/
def setCol (row : Row F) (col : ℕ) (v : F) : Row F := fun c => if c = col then v else row c

/-- `u256_to_array`. `utils.rs:337-345`. -/
def u256Limbs (x : ℕ) : Limbs F := fun i => ((x / base ^ i % base : ℕ) : F)

/-- `u256_to_array(&mut lv[start..], x)`. -/
def setU256 (row : Row F) (start x : ℕ) : Row F := setReg row start nLimbs (u256Limbs x)

/-- `pol_remove_root_2exp` with exponent 16 on `n` coefficients; `>>` rounds down. `utils.rs:278-302`. -/
def removeRoot (n : ℕ) (a : Limbs ℤ) : Limbs ℤ
  | 0 => -(a 0 / 65536)
  | i + 1 => if i + 1 < n - 1 then (removeRoot n a i - a (i + 1)) / 65536 else 0

/-- `F::from_canonical_u16(c as u16)`. -/
def lo16 (c : ℤ) : F := ((c % 65536 : ℤ) : F)

/-- `F::from_canonical_u16((c >> 16) as u16)`. -/
def hi16 (c : ℤ) : F := ((c / 65536 % 65536 : ℤ) : F)

/-! ### ADD, SUB, LT, GT -/

/-- `overflowing_add` and `overflowing_sub` of 256 bits. -/
def overflowingAdd (a b : ℕ) : ℕ × ℕ := ((a + b) % 2 ^ 256, if a + b < 2 ^ 256 then 0 else 1)
def overflowingSub (a b : ℕ) : ℕ × ℕ := ((a + 2 ^ 256 - b) % 2 ^ 256, if a < b then 1 else 0)

/-- `addcy::generate`. `addcy.rs:31-64`; the panic for other filters is `none`. -/
def genAddcy (lv : Row F) (filter left right : ℕ) : Option (Row F) :=
  let lv := setU256 (setU256 (setU256 lv INPUT_REGISTER_0 left) INPUT_REGISTER_1 right) INPUT_REGISTER_2 0
  if filter = IS_ADD then
    let r := overflowingAdd left right
    some (setU256 (setU256 lv AUX_INPUT_REGISTER_0 r.2) OUTPUT_REGISTER r.1)
  else if filter = IS_SUB then
    let r := overflowingSub left right
    some (setU256 (setU256 lv AUX_INPUT_REGISTER_0 r.2) OUTPUT_REGISTER r.1)
  else if filter = IS_LT then
    let r := overflowingSub left right
    some (setU256 (setU256 lv AUX_INPUT_REGISTER_0 r.1) OUTPUT_REGISTER r.2)
  else if filter = IS_GT then
    let r := overflowingSub right left
    some (setU256 (setU256 lv AUX_INPUT_REGISTER_0 r.1) OUTPUT_REGISTER r.2)
  else none

/-! ### MUL -/

/-- The carry `cy` at the start of round `col` of the long multiplication. `mul.rs:81-85`. -/
def mulCy (prod : Limbs ℤ) : ℕ → ℤ
  | 0 => 0
  | col + 1 => (prod col + mulCy prod col) / 65536

/-- `output_limbs`. `mul.rs:86`. -/
def mulOut (prod : Limbs ℤ) : Limbs ℤ := fun col => (prod col + mulCy prod col) % 65536

/-- `aux_limbs` with their offset. `mul.rs:96-102`. -/
def mulAuxLimbs (prod : Limbs ℤ) : Limbs ℤ := fun i =>
  (if i = nLimbs - 1 then -mulCy prod nLimbs else removeRoot nLimbs (fun j => prod j - mulOut prod j) i) + auxMax

/-- `generate_mul`. `mul.rs:72-109`. -/
def genMulLimbs (lv : Row F) (left right : Limbs ℤ) : Row F :=
  let prod := polMulLo left right
  let lv := setReg lv OUTPUT_REGISTER nLimbs (fun i => (mulOut prod i : F))
  let lv := setReg lv AUX_INPUT_REGISTER_0 nLimbs (fun i => lo16 (mulAuxLimbs prod i))
  setReg lv AUX_INPUT_REGISTER_1 nLimbs (fun i => hi16 (mulAuxLimbs prod i))

/-- `mul::generate`. `mul.rs:111-122`. -/
def genMul (lv : Row F) (left right : ℕ) : Row F :=
  let lv := setU256 (setU256 (setU256 lv INPUT_REGISTER_0 left) INPUT_REGISTER_1 right) INPUT_REGISTER_2 0
  genMulLimbs lv (limbs lv INPUT_REGISTER_0) (limbs lv INPUT_REGISTER_1)

/-! ### The modular operations -/

/-- The carry `cy` at the start of round `i` of `columns_to_bigint`; the division rounds towards zero. `modular.rs:161-166`. -/
def bigCy (limbs : Limbs ℤ) : ℕ → ℤ
  | 0 => 0
  | i + 1 => (bigCy limbs i + limbs (2 * i) + 65536 * limbs (2 * i + 1)).tdiv (2 ^ 32)

/-- The digits pushed for `t`: `t as u32` if positive, `-t as u32` if negative. `modular.rs:164-165, 175-176`. -/
def posDigit (t : ℤ) : ℤ := if 0 < t then t % 2 ^ 32 else 0
def negDigit (t : ℤ) : ℤ := if t < 0 then -t % 2 ^ 32 else 0

/-- The digit of round `i`, and the last one, of either sign. -/
def bigDigits (f : ℤ → ℤ) (half : ℕ) (limbs : Limbs ℤ) (i : ℕ) : ℤ :=
  if i < half then f (bigCy limbs i + limbs (2 * i) + 65536 * limbs (2 * i + 1)) else f (bigCy limbs half)

/-- `columns_to_bigint` of an even number `2 half` of limbs; the branch for an odd number is not used. `modular.rs:156-181`. -/
def columnsToBigint (half : ℕ) (limbs : Limbs ℤ) : ℤ :=
  ∑ i ∈ range (half + 1), bigDigits posDigit half limbs i * (2 ^ 32) ^ i - ∑ i ∈ range (half + 1), bigDigits negDigit half limbs i * (2 ^ 32) ^ i

/-- `bigint_to_columns`: the limbs of the digits of 32 bits, all negated for a negative number. `modular.rs:192-205`. -/
def bigintToColumns (n : ℕ) (x : ℤ) : Option (Limbs ℤ) :=
  if x.natAbs < 2 ^ (16 * n) then
    some (fun k =>
      let d := x.natAbs / 2 ^ (32 * (k / 2)) % 2 ^ 32
      let v : ℤ := if k % 2 = 0 then ((d % 65536 : ℕ) : ℤ) else ((d / 65536 : ℕ) : ℤ)
      if x < 0 then -v else v)
  else none

/-- What `generate_modular_op` computes with integers. -/
structure ModularOut where
  /-- `mod_is_zero`. -/
  isZero : ℤ
  /-- `output_limbs`. -/
  out : Limbs ℤ
  /-- `quot_limbs` as returned. -/
  quo : Limbs ℤ
  /-- `out_aux_red`. -/
  red : Limbs ℤ
  /-- `aux_limbs` with their offset. -/
  aux : Limbs ℤ

/-- `generate_modular_op`, up to the writes to the next row. `modular.rs:211-295, 304-328`. -/
def modularLimbs (filter : ℕ) (polInput modulusLimbs : Limbs ℤ) : Option ModularOut := do
  let modulus := columnsToBigint 8 modulusLimbs
  let constrPoly := zeroExtend (2 * nLimbs - 1) polInput
  let isDiv : Bool := filter = IS_DIV || filter = IS_SHR
  let modulus' := if modulus = 0 then (if isDiv then 2 ^ 256 else 1) else modulus
  let modulusLimbs' : Limbs ℤ := if modulus = 0 && !isDiv then (fun i => if i = 0 then 1 else modulusLimbs i) else modulusLimbs
  let isZero : ℤ := if modulus = 0 then 1 else 0
  let input := columnsToBigint 16 constrPoly
  let output := if input.tmod modulus' < 0 then input.tmod modulus' + modulus' else input.tmod modulus'
  let outputLimbs ← bigintToColumns nLimbs output
  let quot := (input - output).tdiv modulus'
  let quotLimbs ← bigintToColumns (2 * nLimbs) quot
  let red ← bigintToColumns nLimbs (2 ^ 256 - modulus' + output)
  let poly := polSub (2 * nLimbs) (polSub nLimbs constrPoly outputLimbs) (polMul (2 * nLimbs) nLimbs quotLimbs modulusLimbs')
  let aux : Limbs ℤ := fun i => removeRoot (2 * nLimbs) poly i + auxMax
  let quo : Limbs ℤ := if filter = IS_SUBMOD ∨ filter = IS_SUBFP254 then
      (fun i => if i < nLimbs then (if quot < 0 then quotLimbs i + 65535 else quotLimbs i)
        else if i = nLimbs then (if quot < 0 then 1 else 0) else quotLimbs i)
    else quotLimbs
  some ⟨isZero, outputLimbs, quo, red, aux⟩

/-- The writes of `generate_modular_op` to the next row. `modular.rs:297-302, 330-332`. -/
def modularNext (lv nv : Row F) (m : ModularOut) : Row F :=
  let nv := setReg nv MODULAR_AUX_INPUT_LO (2 * nLimbs - 1) (fun i => lo16 (m.aux i))
  let nv := setReg nv MODULAR_AUX_INPUT_HI (2 * nLimbs - 1) (fun i => hi16 (m.aux i))
  let nv := setCol nv MODULAR_MOD_IS_ZERO (m.isZero : F)
  let nv := setReg nv MODULAR_OUT_AUX_RED nLimbs (fun i => (m.red i : F))
  setCol nv MODULAR_DIV_DENOM_IS_ZERO ((m.isZero : F) * (lv IS_DIV + lv IS_SHR))

/-- The coefficients of the operation on the inputs. `modular.rs:371-376`, `utils.rs:51-60, 77-86, 128-139`. -/
def polInput (filter : ℕ) (a b : Limbs ℤ) : Option (Limbs ℤ) :=
  if filter = IS_ADDMOD ∨ filter = IS_ADDFP254 then some (zeroExtend nLimbs (fun i => a i + b i))
  else if filter = IS_SUBMOD ∨ filter = IS_SUBFP254 then some (zeroExtend nLimbs (fun i => a i - b i))
  else if filter = IS_MULMOD ∨ filter = IS_MULFP254 then some (polMul nLimbs nLimbs a b)
  else none

/-- `modular::generate`. `modular.rs:343-380`. -/
def genModular (lv nv : Row F) (filter in0 in1 modulus : ℕ) : Option (Row F × Row F) := do
  let lv := setU256 (setU256 (setU256 lv INPUT_REGISTER_0 in0) INPUT_REGISTER_1 in1) INPUT_REGISTER_2 modulus
  let pol ← polInput filter (limbs lv INPUT_REGISTER_0) (limbs lv INPUT_REGISTER_1)
  let m ← modularLimbs filter pol (limbs lv INPUT_REGISTER_2)
  let nv := modularNext lv nv m
  let lv := setReg lv OUTPUT_REGISTER nLimbs (fun i => (m.out i : F))
  some (setReg lv MODULAR_QUO_INPUT (2 * nLimbs) (fun i => (m.quo i : F)), nv)

/-- `generate_divmod`. `divmod.rs:24-66`. -/
def genDivmodLimbs (lv nv : Row F) (filter input modulus : ℕ) : Option (Row F × Row F) := do
  let m ← modularLimbs filter (zeroExtend nLimbs (limbs lv input)) (limbs lv modulus)
  let nv := modularNext lv nv m
  let lv := setReg lv MODULAR_QUO_INPUT (2 * nLimbs) (fun _ => 0)
  if filter = IS_DIV ∨ filter = IS_SHR then some (setReg lv AUX_INPUT_REGISTER_0 nLimbs (fun i => (m.out i : F)), nv)
  else if filter = IS_MOD then some (setReg lv AUX_INPUT_REGISTER_0 nLimbs (fun i => (m.quo i : F)), nv)
  else none

/-- `divmod::generate`. `divmod.rs:68-83`. -/
def genDivmod (lv nv : Row F) (filter in0 in1 result : ℕ) : Option (Row F × Row F) :=
  let lv := setU256 (setU256 (setU256 lv INPUT_REGISTER_0 in0) INPUT_REGISTER_1 in1) OUTPUT_REGISTER result
  genDivmodLimbs lv nv filter INPUT_REGISTER_0 INPUT_REGISTER_1

/-- The inputs and outputs of `shift::generate`. `shift.rs:53-68`. -/
def shiftInputs (lv : Row F) (shift input result : ℕ) : Row F :=
  let lv := setU256 (setU256 (setU256 lv INPUT_REGISTER_0 shift) INPUT_REGISTER_1 input) OUTPUT_REGISTER result
  setU256 lv INPUT_REGISTER_2 (if shift > 255 then 0 else 1 * 2 ^ shift)

/-- `shift::generate` for SHL. `shift.rs:41-79`. -/
def genShl (lv : Row F) (shift input result : ℕ) : Row F :=
  let lv := shiftInputs lv shift input result
  genMulLimbs lv (limbs lv INPUT_REGISTER_1) (limbs lv INPUT_REGISTER_2)

/-- `shift::generate` for SHR. `shift.rs:41-79`. -/
def genShr (lv nv : Row F) (shift input result : ℕ) : Option (Row F × Row F) :=
  genDivmodLimbs (shiftInputs lv shift input result) nv IS_SHR INPUT_REGISTER_1 INPUT_REGISTER_2

/-! ### BYTE -/

/-- `lv.copy_within(src..src + len, dest)`. -/
def copyWithin (lv : Row F) (src len dest : ℕ) : Row F := setReg lv dest len (fun i => lv (src + i))

/-- `set_idx_decomp`. `byte.rs:101-107`. -/
def setIdxDecomp (lv : Row F) (idx : ℕ) : Row F :=
  let lv := setReg lv AUX_INPUT_REGISTER_0 5 (fun i => if idx.testBit i then 1 else 0)
  setCol lv BYTE_IDX_DECOMP_HI ((idx % 65536 / 32 : ℕ) : F)

/-- The inverse of the sum of the high limbs, or one. `byte.rs:114-121`. -/
def hiLimbSumInv (s : F) : ℕ := (if s = 0 then (1 : F) else s⁻¹).val

/-- One round of the loop that builds the tree. `byte.rs:156-171`. -/
def treeLevel (lv : Row F) (idx i src dest : ℕ) : Row F :=
  copyWithin lv (src + (if idx.testBit (i + 1) then 0 else 1) * 2 ^ i) (2 ^ i) dest

/-- `byte::generate`; the loop over the levels 3, 2, 1, 0 is written out. `byte.rs:109-199`. -/
def genByte (lv : Row F) (idx val : ℕ) : Row F :=
  let lv := setIdxDecomp (setU256 (setU256 lv INPUT_REGISTER_0 idx) INPUT_REGISTER_1 val) idx
  let hiSum := hiLimbSum lv
  let inv := hiLimbSumInv hiSum
  let lv := setCol lv BYTE_IDX_HI_LIMB_SUM_INV_0 ((inv % 65536 : ℕ) : F)
  let lv := setCol lv BYTE_IDX_HI_LIMB_SUM_INV_1 ((inv / 2 ^ 16 % 65536 : ℕ) : F)
  let lv := setCol lv BYTE_IDX_HI_LIMB_SUM_INV_2 ((inv / 2 ^ 32 % 65536 : ℕ) : F)
  let lv := setCol lv BYTE_IDX_HI_LIMB_SUM_INV_3 ((inv / 2 ^ 48 % 65536 : ℕ) : F)
  let lv := setCol lv BYTE_IDX_IS_LARGE (if hiSum = 0 then 0 else 1)
  let lv := treeLevel lv idx 3 INPUT_REGISTER_1 AUX_INPUT_REGISTER_1
  let lv := treeLevel lv idx 2 AUX_INPUT_REGISTER_1 (AUX_INPUT_REGISTER_1 + 8)
  let lv := treeLevel lv idx 1 (AUX_INPUT_REGISTER_1 + 8) (AUX_INPUT_REGISTER_1 + 12)
  let lv := treeLevel lv idx 0 (AUX_INPUT_REGISTER_1 + 12) (AUX_INPUT_REGISTER_1 + 14)
  let t := (lv (AUX_INPUT_REGISTER_1 + 14)).val
  let lo := t % 256
  let hi := t / 256
  let lv := setCol lv BYTE_LAST_LIMB_LO ((lo * 256 : ℕ) : F)
  let lv := setCol lv BYTE_LAST_LIMB_HI ((hi : ℕ) : F)
  let output := if idx.testBit 0 then lo else hi
  let lv := setCol lv (AUX_INPUT_REGISTER_1 + 15) ((output : ℕ) : F)
  setU256 lv OUTPUT_REGISTER (if idx < 32 then output else 0)

/-! ### Operations -/

/-- `BinaryOperator`. `mod.rs:29-43`. -/
inductive BinaryOp
  | add | mul | sub | div | mod | lt | gt | addFp254 | mulFp254 | subFp254 | byte | shl | shr
  deriving DecidableEq

/-- `BN_BASE`. `extension_tower.rs:25-30`. -/
def bnBase : ℕ := 0x3c208c16d87cfd47 + 0x97816a916871ca8d * 2 ^ 64 + 0xb85045b68181585d * 2 ^ 128 + 0x30644e72e131a029 * 2 ^ 192

/-- `addmod`, `mulmod`. `util.rs:138-146, 148-156`. -/
def addmod (x y m : ℕ) : ℕ := if m = 0 then m else (x + y) % m
def mulmod (x y m : ℕ) : ℕ := if m = 0 then m else x * y % m

/-- The loop `while x < y { x += &m; }` of `submod`. `util.rs:165-167`. -/
def raise (x y m : ℕ) (hm : 0 < m) : ℕ := if x < y then raise (x + m) y m hm else x
termination_by y - x

/-- `submod`. `util.rs:158-169`. -/
def submod (x y m : ℕ) : ℕ := if h : m = 0 then m else (raise x y m (Nat.pos_of_ne_zero h) - y) % m

/-- `BinaryOperator::result`. `mod.rs:47-93`. -/
def BinaryOp.result (op : BinaryOp) (a b : ℕ) : ℕ :=
  match op with
  | .add => (overflowingAdd a b).1
  | .mul => a * b % 2 ^ 256
  | .shl => if a < 256 then b * 2 ^ a % 2 ^ 256 else 0
  | .sub => (overflowingSub a b).1
  | .div => if b = 0 then 0 else a / b
  | .shr => if a < 256 then b / 2 ^ a else 0
  | .mod => if b = 0 then 0 else a % b
  | .lt => if a < b then 1 else 0
  | .gt => if a > b then 1 else 0
  | .addFp254 => addmod a b bnBase
  | .mulFp254 => mulmod a b bnBase
  | .subFp254 => submod a b bnBase
  | .byte => if a ≥ 32 then 0 else b / 256 ^ (31 - a) % 256

/-- `BinaryOperator::row_filter`. `mod.rs:97-113`. -/
def BinaryOp.rowFilter : BinaryOp → ℕ
  | .add => IS_ADD | .mul => IS_MUL | .sub => IS_SUB | .div => IS_DIV | .mod => IS_MOD | .lt => IS_LT | .gt => IS_GT
  | .addFp254 => IS_ADDFP254 | .mulFp254 => IS_MULFP254 | .subFp254 => IS_SUBFP254 | .byte => IS_BYTE | .shl => IS_SHL | .shr => IS_SHR

/-- `TernaryOperator`. `mod.rs:119-123`. -/
inductive TernaryOp
  | addMod | mulMod | subMod
  deriving DecidableEq

/-- `TernaryOperator::result`. `mod.rs:128-134`. -/
def TernaryOp.result (op : TernaryOp) (a b c : ℕ) : ℕ :=
  match op with
  | .addMod => addmod a b c
  | .mulMod => mulmod a b c
  | .subMod => submod a b c

/-- `TernaryOperator::row_filter`. `mod.rs:138-144`. -/
def TernaryOp.rowFilter : TernaryOp → ℕ
  | .addMod => IS_ADDMOD | .mulMod => IS_MULMOD | .subMod => IS_SUBMOD

/-- `Operation`. `mod.rs:151-172`. -/
inductive Operation
  | binary (op : BinaryOp) (in0 in1 result : ℕ)
  | ternary (op : TernaryOp) (in0 in1 in2 result : ℕ)
  | rangeCheck (in0 in1 in2 opcode result : ℕ)

/-- `Operation::binary`, `Operation::ternary`. `mod.rs:190-198, 201-215`. -/
def Operation.mkBinary (op : BinaryOp) (in0 in1 : ℕ) : Operation := .binary op in0 in1 (op.result in0 in1)
def Operation.mkTernary (op : TernaryOp) (in0 in1 in2 : ℕ) : Operation := .ternary op in0 in1 in2 (op.result in0 in1 in2)

/-- A row of zeros with one flag. -/
def flagRow (f : ℕ) : Row F := fun c => if c = f then 1 else 0

/-- `ternary_op_to_rows`. `mod.rs:281-296`. -/
def ternaryRows (filter in0 in1 in2 : ℕ) : Option (List (Row F)) := do
  let r ← genModular (flagRow filter) (fun _ => 0) filter in0 in1 in2
  some [r.1, r.2]

/-- `binary_op_to_rows`. `mod.rs:300-341`. -/
def binaryRows (op : BinaryOp) (in0 in1 result : ℕ) : Option (List (Row F)) :=
  let row := flagRow op.rowFilter
  match op with
  | .add | .sub | .lt | .gt => do some [← genAddcy row op.rowFilter in0 in1]
  | .mul => some [genMul row in0 in1]
  | .shl => some [genShl row in0 in1 result]
  | .div | .mod => do
    let r ← genDivmod row (fun _ => 0) op.rowFilter in0 in1 result
    some [r.1, r.2]
  | .shr => do
    let r ← genShr row (fun _ => 0) in0 in1 result
    some [r.1, r.2]
  | .addFp254 | .mulFp254 | .subFp254 => ternaryRows op.rowFilter in0 in1 bnBase
  | .byte => some [genByte row in0 in1]

/-- `range_check_to_rows`; `as_u64` fails on more than 64 bits. `mod.rs:343-359`. -/
def rangeCheckRows (in0 in1 in2 opcode result : ℕ) : Option (List (Row F)) :=
  if opcode < 2 ^ 64 then
    some [setU256 (setU256 (setU256 (setU256 (setCol (flagRow IS_RANGE_CHECK) OPCODE_COL (opcode : F)) INPUT_REGISTER_0 in0) INPUT_REGISTER_1 in1)
      INPUT_REGISTER_2 in2) OUTPUT_REGISTER result]
  else none

/-- `Operation::to_rows`. `mod.rs:253-276`. -/
def Operation.toRows : Operation → Option (List (Row F))
  | .binary op a b r => binaryRows op a b r
  | .ternary op a b c _ => ternaryRows op.rowFilter a b c
  | .rangeCheck a b c o r => rangeCheckRows a b c o r

/-- The rows of all operations. `arithmetic_stark.rs:169-176`. -/
def opRows : List Operation → Option (List (Row F))
  | [] => some []
  | op :: ops => do
    let r ← op.toRows
    let rs ← opRows ops
    some (r ++ rs)

/-- The height of the table. `arithmetic_stark.rs:181-182`. -/
def genHeight (rows : ℕ) : ℕ := max (Logic.nextPow rows) 65536

/-- Padding with rows of zeros. `arithmetic_stark.rs:182-184`. -/
def padRow (rows : List (Row F)) (i : ℕ) : Row F := rows.getD i (fun _ => 0)

/-- The columns looked up in the range counter. `arithmetic_stark.rs:320-327`. -/
def rangeLooking (T : ℕ → Row F) : List Looking :=
  (List.range NUM_SHARED_COLS).map (fun c => ⟨fun i => T i (START_SHARED_COLS + c), fun _ => 1⟩)

/-- `RC_FREQUENCIES`. `columns.rs:117`. -/
abbrev RC_FREQUENCIES : ℕ := 115

/-- The table: the counter and the frequencies are filled in; the loop over all cells that adds one to the frequency of each value is written
as the number of its occurrences. `generate_range_checks`, `arithmetic_stark.rs:130-156`. -/
def genTable (n : ℕ) (rows : List (Row F)) (i : ℕ) : Row F := fun c =>
  if c = RANGE_COUNTER then ((if i < 65536 then i else 65536 - 1 : ℕ) : F)
  else if c = RC_FREQUENCIES then (if i < 65536 then (occurrences n (rangeLooking (padRow rows)) i : F) else 0)
  else padRow rows i c

/-- The assertion that all shared cells are below `RANGE_MAX`. `arithmetic_stark.rs:147-152`. -/
def cellsInRange (rows : List (Row F)) : Bool :=
  rows.all (fun r => (List.range NUM_SHARED_COLS).all (fun c => decide ((r (START_SHARED_COLS + c)).val < 65536)))

/-- `ArithmeticStark::generate_trace`: the height and the rows. `arithmetic_stark.rs:158-190`. -/
def generateTrace (ops : List Operation) : Option (ℕ × (ℕ → Row F)) := do
  let rows ← opRows ops
  if cellsInRange rows then some (genHeight rows.length, genTable (genHeight rows.length) rows) else none

end Verif.Stark.Arith
