import Verif.Stark.Consumer

/-! The columns of the arithmetic table. `evm_arithmetization/src/arithmetic/columns.rs`. -/

namespace Verif.Stark.Arith

/-- `LIMB_BITS` (`columns.rs:5`) as the base `2^16`. -/
abbrev base : ℕ := 65536
/-- `N_LIMBS`. `columns.rs:23`. -/
abbrev nLimbs : ℕ := 16

/-- `columns.rs:25-44`. -/
abbrev IS_ADD : ℕ := 0
abbrev IS_MUL : ℕ := 1
abbrev IS_SUB : ℕ := 2
abbrev IS_DIV : ℕ := 3
abbrev IS_MOD : ℕ := 4
abbrev IS_ADDMOD : ℕ := 5
abbrev IS_MULMOD : ℕ := 6
abbrev IS_ADDFP254 : ℕ := 7
abbrev IS_MULFP254 : ℕ := 8
abbrev IS_SUBFP254 : ℕ := 9
abbrev IS_SUBMOD : ℕ := 10
abbrev IS_LT : ℕ := 11
abbrev IS_GT : ℕ := 12
abbrev IS_BYTE : ℕ := 13
abbrev IS_SHL : ℕ := 14
abbrev IS_SHR : ℕ := 15
abbrev IS_RANGE_CHECK : ℕ := 16
abbrev OPCODE_COL : ℕ := 17
abbrev START_SHARED_COLS : ℕ := 18

/-- `op_flags`: the first and one past the last. `columns.rs:46-48`. -/
abbrev N_FLAGS : ℕ := 17

/-- `NUM_SHARED_COLS`. `columns.rs:58`. -/
abbrev NUM_SHARED_COLS : ℕ := 96

/-- The first columns of the registers. `columns.rs:61-78`. -/
abbrev INPUT_REGISTER_0 : ℕ := 18
abbrev INPUT_REGISTER_1 : ℕ := 34
abbrev INPUT_REGISTER_2 : ℕ := 50
abbrev OUTPUT_REGISTER : ℕ := 66
abbrev AUX_INPUT_REGISTER_0 : ℕ := 82
abbrev AUX_INPUT_REGISTER_1 : ℕ := 98

/-- `MODULAR_QUO_INPUT` (32 columns). `columns.rs:75-76, 104`. -/
abbrev MODULAR_QUO_INPUT : ℕ := 82
/-- `MODULAR_OUT_AUX_RED`: `AUX_REGISTER_0`. `columns.rs:81, 105`. -/
abbrev MODULAR_OUT_AUX_RED : ℕ := 18
/-- `MODULAR_MOD_IS_ZERO`: the first column of `AUX_REGISTER_1`. `columns.rs:82, 107`. -/
abbrev MODULAR_MOD_IS_ZERO : ℕ := 34
/-- `MODULAR_AUX_INPUT_LO` (31 columns). `columns.rs:108`. -/
abbrev MODULAR_AUX_INPUT_LO : ℕ := 35
/-- `MODULAR_AUX_INPUT_HI` (31 columns): `AUX_REGISTER_2`. `columns.rs:83, 109`. -/
abbrev MODULAR_AUX_INPUT_HI : ℕ := 66
/-- `MODULAR_DIV_DENOM_IS_ZERO`: one past `AUX_REGISTER_2`. `columns.rs:83, 112`. -/
abbrev MODULAR_DIV_DENOM_IS_ZERO : ℕ := 97

/-- `AUX_COEFF_ABS_MAX`. `columns.rs:88`. -/
abbrev auxMax : ℕ := 1048576

/-- `RANGE_COUNTER`. `columns.rs:115`. -/
abbrev RANGE_COUNTER : ℕ := 114

/-- The values of a register, or the coefficients of a polynomial: arrays of fixed length in the code. -/
abbrev Limbs (R : Type) : Type := ℕ → R

/-- `read_value`: the columns from `start` on. `utils.rs:306-308`. -/
def reg {R : Type} (lv : Row R) (start : ℕ) : Limbs R := fun i => lv (start + i)

/-- The number whose limbs of sixteen bits are the values of the columns from `start` on, least significant first.
(Specification; the inverse of `u256_to_array`, `utils.rs:337-345`.) -/
def num (lv : Row F) (start : ℕ) : ℕ := ∑ i ∈ Finset.range nLimbs, (lv (start + i)).val * base ^ i

/-- All columns that are looked up in the range counter hold values of sixteen bits. (Specification.) -/
def Ranged (lv : Row F) : Prop := ∀ c, START_SHARED_COLS ≤ c → c < START_SHARED_COLS + NUM_SHARED_COLS → (lv c).val < base

end Verif.Stark.Arith
