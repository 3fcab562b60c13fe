import Verif.Stark.Consumer
import Verif.Stark.Keccak.Spec

/-! The Keccak permutation table: columns, constraints, exported rows and trace generation.
`evm_arithmetization/src/keccak/{columns,constants,logic,round_flags,keccak_stark}.rs`. -/

namespace Verif.Stark.Keccak

open Finset

variable {R : Type} [CommRing R]

/-- `RC`. `constants.rs:1-26`. -/
def RC : List ℕ := [
  0x0000000000000001, 0x0000000000008082, 0x800000000000808A, 0x8000000080008000,
  0x000000000000808B, 0x0000000080000001, 0x8000000080008081, 0x8000000000008009,
  0x000000000000008A, 0x0000000000000088, 0x0000000080008009, 0x000000008000000A,
  0x000000008000808B, 0x800000000000008B, 0x8000000000008089, 0x8000000000008003,
  0x8000000000008002, 0x8000000000000080, 0x000000000000800A, 0x800000008000000A,
  0x8000000080008081, 0x8000000000008080, 0x0000000080000001, 0x8000000080008008]

/-- `RC_BITS`. `constants.rs:28-149`. -/
def RC_BITS : List (List ℕ) := [
  [1, 0, 0, 0, 0, 0, 0, 0, 0, 0, 0, 0, 0, 0, 0, 0, 0, 0, 0, 0, 0, 0, 0, 0, 0, 0, 0, 0, 0, 0, 0, 0, 0, 0, 0, 0, 0, 0, 0, 0, 0, 0, 0, 0, 0, 0, 0, 0, 0, 0, 0, 0, 0, 0, 0, 0, 0, 0, 0, 0, 0, 0, 0, 0],
  [0, 1, 0, 0, 0, 0, 0, 1, 0, 0, 0, 0, 0, 0, 0, 1, 0, 0, 0, 0, 0, 0, 0, 0, 0, 0, 0, 0, 0, 0, 0, 0, 0, 0, 0, 0, 0, 0, 0, 0, 0, 0, 0, 0, 0, 0, 0, 0, 0, 0, 0, 0, 0, 0, 0, 0, 0, 0, 0, 0, 0, 0, 0, 0],
  [0, 1, 0, 1, 0, 0, 0, 1, 0, 0, 0, 0, 0, 0, 0, 1, 0, 0, 0, 0, 0, 0, 0, 0, 0, 0, 0, 0, 0, 0, 0, 0, 0, 0, 0, 0, 0, 0, 0, 0, 0, 0, 0, 0, 0, 0, 0, 0, 0, 0, 0, 0, 0, 0, 0, 0, 0, 0, 0, 0, 0, 0, 0, 1],
  [0, 0, 0, 0, 0, 0, 0, 0, 0, 0, 0, 0, 0, 0, 0, 1, 0, 0, 0, 0, 0, 0, 0, 0, 0, 0, 0, 0, 0, 0, 0, 1, 0, 0, 0, 0, 0, 0, 0, 0, 0, 0, 0, 0, 0, 0, 0, 0, 0, 0, 0, 0, 0, 0, 0, 0, 0, 0, 0, 0, 0, 0, 0, 1],
  [1, 1, 0, 1, 0, 0, 0, 1, 0, 0, 0, 0, 0, 0, 0, 1, 0, 0, 0, 0, 0, 0, 0, 0, 0, 0, 0, 0, 0, 0, 0, 0, 0, 0, 0, 0, 0, 0, 0, 0, 0, 0, 0, 0, 0, 0, 0, 0, 0, 0, 0, 0, 0, 0, 0, 0, 0, 0, 0, 0, 0, 0, 0, 0],
  [1, 0, 0, 0, 0, 0, 0, 0, 0, 0, 0, 0, 0, 0, 0, 0, 0, 0, 0, 0, 0, 0, 0, 0, 0, 0, 0, 0, 0, 0, 0, 1, 0, 0, 0, 0, 0, 0, 0, 0, 0, 0, 0, 0, 0, 0, 0, 0, 0, 0, 0, 0, 0, 0, 0, 0, 0, 0, 0, 0, 0, 0, 0, 0],
  [1, 0, 0, 0, 0, 0, 0, 1, 0, 0, 0, 0, 0, 0, 0, 1, 0, 0, 0, 0, 0, 0, 0, 0, 0, 0, 0, 0, 0, 0, 0, 1, 0, 0, 0, 0, 0, 0, 0, 0, 0, 0, 0, 0, 0, 0, 0, 0, 0, 0, 0, 0, 0, 0, 0, 0, 0, 0, 0, 0, 0, 0, 0, 1],
  [1, 0, 0, 1, 0, 0, 0, 0, 0, 0, 0, 0, 0, 0, 0, 1, 0, 0, 0, 0, 0, 0, 0, 0, 0, 0, 0, 0, 0, 0, 0, 0, 0, 0, 0, 0, 0, 0, 0, 0, 0, 0, 0, 0, 0, 0, 0, 0, 0, 0, 0, 0, 0, 0, 0, 0, 0, 0, 0, 0, 0, 0, 0, 1],
  [0, 1, 0, 1, 0, 0, 0, 1, 0, 0, 0, 0, 0, 0, 0, 0, 0, 0, 0, 0, 0, 0, 0, 0, 0, 0, 0, 0, 0, 0, 0, 0, 0, 0, 0, 0, 0, 0, 0, 0, 0, 0, 0, 0, 0, 0, 0, 0, 0, 0, 0, 0, 0, 0, 0, 0, 0, 0, 0, 0, 0, 0, 0, 0],
  [0, 0, 0, 1, 0, 0, 0, 1, 0, 0, 0, 0, 0, 0, 0, 0, 0, 0, 0, 0, 0, 0, 0, 0, 0, 0, 0, 0, 0, 0, 0, 0, 0, 0, 0, 0, 0, 0, 0, 0, 0, 0, 0, 0, 0, 0, 0, 0, 0, 0, 0, 0, 0, 0, 0, 0, 0, 0, 0, 0, 0, 0, 0, 0],
  [1, 0, 0, 1, 0, 0, 0, 0, 0, 0, 0, 0, 0, 0, 0, 1, 0, 0, 0, 0, 0, 0, 0, 0, 0, 0, 0, 0, 0, 0, 0, 1, 0, 0, 0, 0, 0, 0, 0, 0, 0, 0, 0, 0, 0, 0, 0, 0, 0, 0, 0, 0, 0, 0, 0, 0, 0, 0, 0, 0, 0, 0, 0, 0],
  [0, 1, 0, 1, 0, 0, 0, 0, 0, 0, 0, 0, 0, 0, 0, 0, 0, 0, 0, 0, 0, 0, 0, 0, 0, 0, 0, 0, 0, 0, 0, 1, 0, 0, 0, 0, 0, 0, 0, 0, 0, 0, 0, 0, 0, 0, 0, 0, 0, 0, 0, 0, 0, 0, 0, 0, 0, 0, 0, 0, 0, 0, 0, 0],
  [1, 1, 0, 1, 0, 0, 0, 1, 0, 0, 0, 0, 0, 0, 0, 1, 0, 0, 0, 0, 0, 0, 0, 0, 0, 0, 0, 0, 0, 0, 0, 1, 0, 0, 0, 0, 0, 0, 0, 0, 0, 0, 0, 0, 0, 0, 0, 0, 0, 0, 0, 0, 0, 0, 0, 0, 0, 0, 0, 0, 0, 0, 0, 0],
  [1, 1, 0, 1, 0, 0, 0, 1, 0, 0, 0, 0, 0, 0, 0, 0, 0, 0, 0, 0, 0, 0, 0, 0, 0, 0, 0, 0, 0, 0, 0, 0, 0, 0, 0, 0, 0, 0, 0, 0, 0, 0, 0, 0, 0, 0, 0, 0, 0, 0, 0, 0, 0, 0, 0, 0, 0, 0, 0, 0, 0, 0, 0, 1],
  [1, 0, 0, 1, 0, 0, 0, 1, 0, 0, 0, 0, 0, 0, 0, 1, 0, 0, 0, 0, 0, 0, 0, 0, 0, 0, 0, 0, 0, 0, 0, 0, 0, 0, 0, 0, 0, 0, 0, 0, 0, 0, 0, 0, 0, 0, 0, 0, 0, 0, 0, 0, 0, 0, 0, 0, 0, 0, 0, 0, 0, 0, 0, 1],
  [1, 1, 0, 0, 0, 0, 0, 0, 0, 0, 0, 0, 0, 0, 0, 1, 0, 0, 0, 0, 0, 0, 0, 0, 0, 0, 0, 0, 0, 0, 0, 0, 0, 0, 0, 0, 0, 0, 0, 0, 0, 0, 0, 0, 0, 0, 0, 0, 0, 0, 0, 0, 0, 0, 0, 0, 0, 0, 0, 0, 0, 0, 0, 1],
  [0, 1, 0, 0, 0, 0, 0, 0, 0, 0, 0, 0, 0, 0, 0, 1, 0, 0, 0, 0, 0, 0, 0, 0, 0, 0, 0, 0, 0, 0, 0, 0, 0, 0, 0, 0, 0, 0, 0, 0, 0, 0, 0, 0, 0, 0, 0, 0, 0, 0, 0, 0, 0, 0, 0, 0, 0, 0, 0, 0, 0, 0, 0, 1],
  [0, 0, 0, 0, 0, 0, 0, 1, 0, 0, 0, 0, 0, 0, 0, 0, 0, 0, 0, 0, 0, 0, 0, 0, 0, 0, 0, 0, 0, 0, 0, 0, 0, 0, 0, 0, 0, 0, 0, 0, 0, 0, 0, 0, 0, 0, 0, 0, 0, 0, 0, 0, 0, 0, 0, 0, 0, 0, 0, 0, 0, 0, 0, 1],
  [0, 1, 0, 1, 0, 0, 0, 0, 0, 0, 0, 0, 0, 0, 0, 1, 0, 0, 0, 0, 0, 0, 0, 0, 0, 0, 0, 0, 0, 0, 0, 0, 0, 0, 0, 0, 0, 0, 0, 0, 0, 0, 0, 0, 0, 0, 0, 0, 0, 0, 0, 0, 0, 0, 0, 0, 0, 0, 0, 0, 0, 0, 0, 0],
  [0, 1, 0, 1, 0, 0, 0, 0, 0, 0, 0, 0, 0, 0, 0, 0, 0, 0, 0, 0, 0, 0, 0, 0, 0, 0, 0, 0, 0, 0, 0, 1, 0, 0, 0, 0, 0, 0, 0, 0, 0, 0, 0, 0, 0, 0, 0, 0, 0, 0, 0, 0, 0, 0, 0, 0, 0, 0, 0, 0, 0, 0, 0, 1],
  [1, 0, 0, 0, 0, 0, 0, 1, 0, 0, 0, 0, 0, 0, 0, 1, 0, 0, 0, 0, 0, 0, 0, 0, 0, 0, 0, 0, 0, 0, 0, 1, 0, 0, 0, 0, 0, 0, 0, 0, 0, 0, 0, 0, 0, 0, 0, 0, 0, 0, 0, 0, 0, 0, 0, 0, 0, 0, 0, 0, 0, 0, 0, 1],
  [0, 0, 0, 0, 0, 0, 0, 1, 0, 0, 0, 0, 0, 0, 0, 1, 0, 0, 0, 0, 0, 0, 0, 0, 0, 0, 0, 0, 0, 0, 0, 0, 0, 0, 0, 0, 0, 0, 0, 0, 0, 0, 0, 0, 0, 0, 0, 0, 0, 0, 0, 0, 0, 0, 0, 0, 0, 0, 0, 0, 0, 0, 0, 1],
  [1, 0, 0, 0, 0, 0, 0, 0, 0, 0, 0, 0, 0, 0, 0, 0, 0, 0, 0, 0, 0, 0, 0, 0, 0, 0, 0, 0, 0, 0, 0, 1, 0, 0, 0, 0, 0, 0, 0, 0, 0, 0, 0, 0, 0, 0, 0, 0, 0, 0, 0, 0, 0, 0, 0, 0, 0, 0, 0, 0, 0, 0, 0, 0],
  [0, 0, 0, 1, 0, 0, 0, 0, 0, 0, 0, 0, 0, 0, 0, 1, 0, 0, 0, 0, 0, 0, 0, 0, 0, 0, 0, 0, 0, 0, 0, 1, 0, 0, 0, 0, 0, 0, 0, 0, 0, 0, 0, 0, 0, 0, 0, 0, 0, 0, 0, 0, 0, 0, 0, 0, 0, 0, 0, 0, 0, 0, 0, 1]]

/-- `rc_value_bit`. `constants.rs:151-153`. -/
def rcValueBit (round z : ℕ) : ℕ := (RC_BITS.getD round []).getD z 0

/-- `rc_value`. `constants.rs:155-157`. -/
def rcValue (round : ℕ) : ℕ := RC.getD round 0

/-! ### Columns -/

/-- `NUM_ROUNDS`. `keccak_stark.rs:32`. -/
abbrev NUM_ROUNDS : ℕ := 24

/-- `TIMESTAMP`; the columns before it are the round flags, `reg_step`. `columns.rs:7-10, 53`. -/
abbrev TIMESTAMP : ℕ := 24

/-- `R`, the rotation offsets. `columns.rs:43-49`. -/
def ROT : List (List ℕ) := [[0, 36, 3, 41, 18], [1, 44, 10, 45, 2], [62, 6, 43, 15, 61], [28, 55, 25, 21, 56], [27, 20, 39, 8, 14]]

def rot (a b : ℕ) : ℕ := (ROT.getD a []).getD b 0

/-- `reg_a`: the low limb of a lane of the round's input, followed by the high limb. `columns.rs:56-60`. -/
def regA (x y : ℕ) : ℕ := 25 + (x * 5 + y) * 2

/-- `reg_c`. `columns.rs:64-68`. -/
def regC (x z : ℕ) : ℕ := 75 + x * 64 + z

/-- `reg_c_prime`. `columns.rs:72-76`. -/
def regC' (x z : ℕ) : ℕ := 395 + x * 64 + z

/-- `reg_a_prime`. `columns.rs:83-88`. -/
def regA' (x y z : ℕ) : ℕ := 715 + x * 64 * 5 + y * 64 + z

/-- `reg_b`. `columns.rs:90-104`. -/
def regB (x y z : ℕ) : ℕ := regA' ((x + 3 * y) % 5) x ((z + 64 - rot ((x + 3 * y) % 5) x) % 64)

/-- `reg_a_prime_prime`. `columns.rs:108-112`. -/
def regA'' (x y : ℕ) : ℕ := 2315 + x * 2 * 5 + y * 2

/-- `reg_a_prime_prime_0_0_bit`. `columns.rs:115-118`. -/
def regBit (i : ℕ) : ℕ := 2365 + i

/-- `REG_A_PRIME_PRIME_PRIME_0_0_LO`. `columns.rs:120`. -/
abbrev A3_LO : ℕ := 2429

/-- `reg_a_prime_prime_prime`: the low limb of a lane of the round's output. `columns.rs:124-132`. -/
def regA3 (x y : ℕ) : ℕ := if x = 0 ∧ y = 0 then A3_LO else regA'' x y

/-- `reg_input_limb`. `columns.rs:15-26`. -/
def regInputLimb (i : ℕ) : ℕ := regA (i / 2 % 5) (i / 2 / 5) + i % 2

/-- `reg_output_limb`. `columns.rs:31-41`. -/
def regOutputLimb (i : ℕ) : ℕ := regA3 (i / 2 % 5) (i / 2 / 5) + i % 2

/-! ### Constraints -/

/-- `xor_gen`. `logic.rs:16-18`. -/
def xorGen (x y : R) : R := x + y - x * (2 * y)

/-- `xor3_gen`. `logic.rs:21-23`. -/
def xor3Gen (x y z : R) : R := xorGen x (xorGen y z)

/-- `andn_gen`. `logic.rs:54-56`. -/
def andnGen (x y : R) : R := (1 - x) * y

/-- `(s..s + 32).rev().fold(0, |acc, z| 2 acc + f(z))`. For instance `keccak_stark.rs:318-323`. -/
def fold32 (f : ℕ → R) (s : ℕ) : R := (List.range 32).foldr (fun z acc => 2 * acc + f (s + z)) 0

/-- The sum of the round flags. `keccak_stark.rs:284-286`, `round_flags.rs:28-30`. -/
def sumFlags (lv : Row R) : R := ((List.range NUM_ROUNDS).map (fun i => lv i)).sum

/-- `eval_round_flags`. `round_flags.rs:14-56`. -/
def evalRoundFlags (lv nv : Row R) : List (Constr R) :=
  let any := sumFlags lv
  let nextAny := sumFlags nv
  let pad := (nextAny - 1) * any * (lv (NUM_ROUNDS - 1) - 1)
  (List.range NUM_ROUNDS).map (fun i => ⟨.always, lv i * (lv i - 1)⟩) ++
  [⟨.first, any * (lv 0 - 1)⟩] ++
  (List.range (NUM_ROUNDS - 1)).map (fun i => ⟨.first, any * lv (i + 1)⟩) ++
  (List.range NUM_ROUNDS).map (fun i => ⟨.transition, nextAny * (nv ((i + 1) % NUM_ROUNDS) - lv i) + pad⟩) ++
  [⟨.transition, nextAny * (any - 1)⟩]

/-- The coordinates of the lanes in the order of the loops, `x` outside. -/
def lanesXY : List (ℕ × ℕ) := (List.range 5).flatMap (fun x => (List.range 5).map (fun y => (x, y)))

/-- The pairs `x < 5`, `z < 64` in the order of the loops. -/
def bitsXZ : List (ℕ × ℕ) := (List.range 5).flatMap (fun x => (List.range 64).map (fun z => (x, z)))

/-- The bit of the round constant of the flagged round. `keccak_stark.rs:391-397`. -/
def rcBitSel (lv : Row R) (i : ℕ) : R := ((List.range NUM_ROUNDS).map (fun r => lv r * (rcValueBit r i : R))).sum

/-- A bit of the round's input, recovered from A', C and C'. `keccak_stark.rs:311-317`. -/
def inBit (lv : Row R) (x y z : ℕ) : R := xor3Gen (lv (regA' x y z)) (lv (regC x z)) (lv (regC' x z))

/-- A bit of A''. `keccak_stark.rs:349-357`. -/
def chiBit (lv : Row R) (x y z : ℕ) : R :=
  xorGen (lv (regB x y z)) (andnGen (lv (regB ((x + 1) % 5) y z)) (lv (regB ((x + 2) % 5) y z)))

/-- `KeccakStark::eval_packed_generic`. `keccak_stark.rs:266-426`. No constraint says that the columns C, C', A' and the bits of
A''[0, 0] hold bits. -/
def evalKeccak (lv nv : Row R) : List (Constr R) :=
  evalRoundFlags lv nv ++
  [⟨.always, sumFlags lv * (1 - lv (NUM_ROUNDS - 1)) * (nv TIMESTAMP - lv TIMESTAMP)⟩] ++
  bitsXZ.map (fun p => ⟨.always, lv (regC' p.1 p.2) -
    xor3Gen (lv (regC p.1 p.2)) (lv (regC ((p.1 + 4) % 5) p.2)) (lv (regC ((p.1 + 1) % 5) ((p.2 + 63) % 64)))⟩) ++
  lanesXY.flatMap (fun p => [⟨.always, fold32 (inBit lv p.1 p.2) 0 - lv (regA p.1 p.2)⟩,
    ⟨.always, fold32 (inBit lv p.1 p.2) 32 - lv (regA p.1 p.2 + 1)⟩]) ++
  bitsXZ.map (fun p =>
    let diff := ((List.range 5).map (fun i => lv (regA' p.1 i p.2))).sum - lv (regC' p.1 p.2)
    ⟨.always, diff * (diff - 2) * (diff - 4)⟩) ++
  lanesXY.flatMap (fun p => [⟨.always, fold32 (chiBit lv p.1 p.2) 0 - lv (regA'' p.1 p.2)⟩,
    ⟨.always, fold32 (chiBit lv p.1 p.2) 32 - lv (regA'' p.1 p.2 + 1)⟩]) ++
  [⟨.always, fold32 (fun i => lv (regBit i)) 0 - lv (regA'' 0 0)⟩,
   ⟨.always, fold32 (fun i => lv (regBit i)) 32 - lv (regA'' 0 0 + 1)⟩,
   ⟨.always, fold32 (fun i => xorGen (lv (regBit i)) (rcBitSel lv i)) 0 - lv (regA3 0 0)⟩,
   ⟨.always, fold32 (fun i => xorGen (lv (regBit i)) (rcBitSel lv i)) 32 - lv (regA3 0 0 + 1)⟩] ++
  lanesXY.flatMap (fun p =>
    [⟨.transition, (1 - lv (NUM_ROUNDS - 1)) * (lv (regA3 p.1 p.2) - nv (regA p.1 p.2))⟩,
     ⟨.transition, (1 - lv (NUM_ROUNDS - 1)) * (lv (regA3 p.1 p.2 + 1) - nv (regA p.1 p.2 + 1))⟩])

/-! ### What the table exports -/

/-- The limbs of an input at the given time: the data of the looked-up rows for the sponge table's inputs. `ctl_data_inputs`,
`ctl_filter_inputs`, `keccak_stark.rs:38-42, 52-54`. -/
def ExportsInput (n : ℕ) (T : ℕ → Row F) (limbs : ℕ → F) (time : F) : Prop :=
  ∃ i < n, T i 0 = 1 ∧ T i TIMESTAMP = time ∧ ∀ k < 50, T i (regInputLimb k) = limbs k

/-- The same for the outputs. `ctl_data_outputs`, `ctl_filter_outputs`, `keccak_stark.rs:45-49, 57-59`. -/
def ExportsOutput (n : ℕ) (T : ℕ → Row F) (limbs : ℕ → F) (time : F) : Prop :=
  ∃ i < n, T i (NUM_ROUNDS - 1) = 1 ∧ T i TIMESTAMP = time ∧ ∀ k < 50, T i (regOutputLimb k) = limbs k

end Verif.Stark.Keccak
