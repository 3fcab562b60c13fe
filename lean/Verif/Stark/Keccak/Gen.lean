import Verif.Stark.Keccak.Sound
import Verif.Stark.Logic

/-! Generation of the Keccak table: the generated rows satisfy the constraints and carry the permutation. -/

namespace Verif.Stark.Keccak

open Finset

/-- The cells of a row, by the names of `columns.rs`. -/
structure Cells where
  step : ℕ → F
  ts : F
  a : ℕ → ℕ → ℕ → F
  c : ℕ → ℕ → F
  c' : ℕ → ℕ → F
  a' : ℕ → ℕ → ℕ → F
  a2 : ℕ → ℕ → ℕ → F
  bit : ℕ → F
  a3 : ℕ → F

/-- The row with the given cells. The layout of `columns.rs:7-134`. -/
def Cells.row (K : Cells) : Row F := fun j =>
  if j < 24 then K.step j
  else if j < 25 then K.ts
  else if j < 75 then K.a ((j - 25) / 2 / 5) ((j - 25) / 2 % 5) ((j - 25) % 2)
  else if j < 395 then K.c ((j - 75) / 64) ((j - 75) % 64)
  else if j < 715 then K.c' ((j - 395) / 64) ((j - 395) % 64)
  else if j < 2315 then K.a' ((j - 715) / 64 / 5) ((j - 715) / 64 % 5) ((j - 715) % 64)
  else if j < 2365 then K.a2 ((j - 2315) / 2 / 5) ((j - 2315) / 2 % 5) ((j - 2315) % 2)
  else if j < 2429 then K.bit (j - 2365)
  else K.a3 (j - 2429)

variable {K : Cells}

theorem row_step {j : ℕ} (h : j < 24) : K.row j = K.step j := by rw [Cells.row, if_pos h]

theorem row_ts : K.row TIMESTAMP = K.ts := rfl

theorem row_a {x y h : ℕ} (hx : x < 5) (hy : y < 5) (hh : h < 2) : K.row (regA x y + h) = K.a x y h := by
  unfold regA
  rw [Cells.row, if_neg (by omega), if_neg (by omega), if_pos (by omega), show (25 + (x * 5 + y) * 2 + h - 25) / 2 / 5 = x by omega,
    show (25 + (x * 5 + y) * 2 + h - 25) / 2 % 5 = y by omega, show (25 + (x * 5 + y) * 2 + h - 25) % 2 = h by omega]

theorem row_a0 {x y : ℕ} (hx : x < 5) (hy : y < 5) : K.row (regA x y) = K.a x y 0 := row_a (h := 0) hx hy (by decide)

theorem row_c {x z : ℕ} (hx : x < 5) (hz : z < 64) : K.row (regC x z) = K.c x z := by
  unfold regC
  rw [Cells.row, if_neg (by omega), if_neg (by omega), if_neg (by omega), if_pos (by omega), show (75 + x * 64 + z - 75) / 64 = x by omega,
    show (75 + x * 64 + z - 75) % 64 = z by omega]

theorem row_c' {x z : ℕ} (hx : x < 5) (hz : z < 64) : K.row (regC' x z) = K.c' x z := by
  unfold regC'
  rw [Cells.row, if_neg (by omega), if_neg (by omega), if_neg (by omega), if_neg (by omega), if_pos (by omega),
    show (395 + x * 64 + z - 395) / 64 = x by omega, show (395 + x * 64 + z - 395) % 64 = z by omega]

theorem row_a' {x y z : ℕ} (hx : x < 5) (hy : y < 5) (hz : z < 64) : K.row (regA' x y z) = K.a' x y z := by
  unfold regA'
  rw [Cells.row, if_neg (by omega), if_neg (by omega), if_neg (by omega), if_neg (by omega), if_neg (by omega), if_pos (by omega),
    show (715 + x * 64 * 5 + y * 64 + z - 715) / 64 / 5 = x by omega, show (715 + x * 64 * 5 + y * 64 + z - 715) / 64 % 5 = y by omega,
    show (715 + x * 64 * 5 + y * 64 + z - 715) % 64 = z by omega]

theorem row_a2 {x y h : ℕ} (hx : x < 5) (hy : y < 5) (hh : h < 2) : K.row (regA'' x y + h) = K.a2 x y h := by
  unfold regA''
  rw [Cells.row, if_neg (by omega), if_neg (by omega), if_neg (by omega), if_neg (by omega), if_neg (by omega), if_neg (by omega), if_pos (by omega),
    show (2315 + x * 2 * 5 + y * 2 + h - 2315) / 2 / 5 = x by omega, show (2315 + x * 2 * 5 + y * 2 + h - 2315) / 2 % 5 = y by omega,
    show (2315 + x * 2 * 5 + y * 2 + h - 2315) % 2 = h by omega]

theorem row_a20 {x y : ℕ} (hx : x < 5) (hy : y < 5) : K.row (regA'' x y) = K.a2 x y 0 := row_a2 (h := 0) hx hy (by decide)

theorem row_bit {i : ℕ} (hi : i < 64) : K.row (regBit i) = K.bit i := by
  unfold regBit
  rw [Cells.row, if_neg (by omega), if_neg (by omega), if_neg (by omega), if_neg (by omega), if_neg (by omega), if_neg (by omega), if_neg (by omega),
    if_pos (by omega), Nat.add_sub_cancel_left]

theorem row_b {x y z : ℕ} (hx : x < 5) : K.row (regB x y z) = K.a' ((x + 3 * y) % 5) x ((z + 64 - rot ((x + 3 * y) % 5) x) % 64) :=
  row_a' (by omega) hx (by omega)

/-- The limbs of the output. -/
def Cells.out (K : Cells) (x y h : ℕ) : F := if x = 0 ∧ y = 0 then K.a3 h else K.a2 x y h

theorem row_a3 {x y h : ℕ} (hx : x < 5) (hy : y < 5) (hh : h < 2) : K.row (regA3 x y + h) = K.out x y h := by
  unfold regA3 Cells.out
  by_cases h0 : x = 0 ∧ y = 0
  · rw [if_pos h0, if_pos h0, show A3_LO = 2429 from rfl, Cells.row, if_neg (by omega), if_neg (by omega), if_neg (by omega), if_neg (by omega),
      if_neg (by omega), if_neg (by omega), if_neg (by omega), if_neg (by omega), Nat.add_sub_cancel_left]
  · rw [if_neg h0, if_neg h0, row_a2 hx hy hh]

theorem row_a30 {x y : ℕ} (hx : x < 5) (hy : y < 5) : K.row (regA3 x y) = K.out x y 0 := row_a3 (h := 0) hx hy (by decide)

/-- The bits of the input according to the cells. -/
def Cells.inB (K : Cells) (x y z : ℕ) : F := xor3Gen (K.a' x y z) (K.c x z) (K.c' x z)

def Cells.b (K : Cells) (x y z : ℕ) : F := K.a' ((x + 3 * y) % 5) x ((z + 64 - rot ((x + 3 * y) % 5) x) % 64)

def Cells.chiB (K : Cells) (x y z : ℕ) : F := xorGen (K.b x y z) (andnGen (K.b ((x + 1) % 5) y z) (K.b ((x + 2) % 5) y z))

/-- The round constant selected by the flags. -/
def Cells.rc (K : Cells) (z : ℕ) : F := ((List.range NUM_ROUNDS).map (fun r => K.step r * (rcValueBit r z : F))).sum

/-- What the constraints of a row say about its cells. -/
structure CellsOk (K : Cells) : Prop where
  flags : ∀ j < 24, K.step j * (K.step j - 1) = 0
  cPrime : ∀ x < 5, ∀ z < 64, K.c' x z = xor3Gen (K.c x z) (K.c ((x + 4) % 5) z) (K.c ((x + 1) % 5) ((z + 63) % 64))
  input : ∀ x < 5, ∀ y < 5, ∀ h < 2, fold32 (K.inB x y) (32 * h) = K.a x y h
  diff : ∀ x < 5, ∀ z < 64, (K.a' x 0 z + (K.a' x 1 z + (K.a' x 2 z + (K.a' x 3 z + (K.a' x 4 z + 0)))) - K.c' x z) *
    (K.a' x 0 z + (K.a' x 1 z + (K.a' x 2 z + (K.a' x 3 z + (K.a' x 4 z + 0)))) - K.c' x z - 2) *
    (K.a' x 0 z + (K.a' x 1 z + (K.a' x 2 z + (K.a' x 3 z + (K.a' x 4 z + 0)))) - K.c' x z - 4) = 0
  chi : ∀ x < 5, ∀ y < 5, ∀ h < 2, fold32 (K.chiB x y) (32 * h) = K.a2 x y h
  bits : ∀ h < 2, fold32 K.bit (32 * h) = K.a2 0 0 h
  iota : ∀ h < 2, fold32 (fun i => xorGen (K.bit i) (K.rc i)) (32 * h) = K.a3 h

theorem two_cases {p : ℕ → Prop} (h : ∀ j < 2, p j) : p 0 ∧ p 1 := ⟨h 0 (by decide), h 1 (by decide)⟩

theorem CellsOk.row (h : CellsOk K) : RowOk K.row where
  flags j hj := by rw [row_step hj]; exact h.flags j hj
  cPrime x hx z hz := by
    rw [row_c' hx hz, row_c hx hz, row_c (by omega) hz, row_c (by omega) (by omega), h.cPrime x hx z hz, sub_self]
  input x hx y hy := by
    have e : ∀ s ≤ 32, fold32 (inBit K.row x y) s = fold32 (K.inB x y) s := fun s hs => fold32_congr (fun z hz => by
      rw [inBit, row_a' hx hy (by omega), row_c hx (by omega), row_c' hx (by omega)]; rfl)
    rw [e 0 (by decide), e 32 le_rfl, row_a0 hx hy, row_a hx hy (by decide), ← h.input x hx y hy 0 (by decide), ← h.input x hx y hy 1 (by decide)]
    exact ⟨sub_self _, sub_self _⟩
  diff x hx z hz := by
    have e : (List.range 5).map (fun i => K.row (regA' x i z)) =
      [K.row (regA' x 0 z), K.row (regA' x 1 z), K.row (regA' x 2 z), K.row (regA' x 3 z), K.row (regA' x 4 z)] := rfl
    rw [e, row_a' hx (by decide) hz, row_a' hx (by decide) hz, row_a' hx (by decide) hz, row_a' hx (by decide) hz, row_a' hx (by decide) hz, row_c' hx hz]
    simp only [List.sum_cons, List.sum_nil]
    exact h.diff x hx z hz
  chi x hx y hy := by
    have e : ∀ s, fold32 (chiBit K.row x y) s = fold32 (K.chiB x y) s := fun s => fold32_congr (fun z hz => by
      rw [chiBit, row_b hx, row_b (by omega), row_b (by omega)]; rfl)
    rw [e, e, row_a20 hx hy, row_a2 hx hy (by decide), ← h.chi x hx y hy 0 (by decide), ← h.chi x hx y hy 1 (by decide)]
    exact ⟨sub_self _, sub_self _⟩
  bits := by
    have e : ∀ s ≤ 32, fold32 (fun i => K.row (regBit i)) s = fold32 K.bit s := fun s hs => fold32_congr (fun z hz => row_bit (by omega))
    rw [e 0 (by decide), e 32 le_rfl, row_a20 (by decide) (by decide), row_a2 (by decide) (by decide) (by decide), ← h.bits 0 (by decide),
      ← h.bits 1 (by decide)]
    exact ⟨sub_self _, sub_self _⟩
  iota := by
    have er : ∀ i, rcBitSel K.row i = K.rc i := by
      intro i
      unfold rcBitSel Cells.rc
      exact congrArg List.sum (List.map_congr_left (fun r hr => by rw [row_step (List.mem_range.1 hr)]))
    have e : ∀ s ≤ 32, fold32 (fun i => xorGen (K.row (regBit i)) (rcBitSel K.row i)) s = fold32 (fun i => xorGen (K.bit i) (K.rc i)) s :=
      fun s hs => fold32_congr (fun z hz => by rw [row_bit (by omega), er])
    rw [e 0 (by decide), e 32 le_rfl, row_a30 (by decide) (by decide), row_a3 (by decide) (by decide) (by decide)]
    unfold Cells.out
    rw [if_pos ⟨rfl, rfl⟩, if_pos ⟨rfl, rfl⟩, ← h.iota 0 (by decide), ← h.iota 1 (by decide)]
    exact ⟨sub_self _, sub_self _⟩

/-- The flags of round `k`. -/
def stepOf (k j : ℕ) : F := if j = k then 1 else 0

theorem stepIs_row {k : ℕ} (hk : k < 24) (h : K.step = stepOf k) : StepIs K.row k :=
  ⟨hk, by rw [row_step hk, h, stepOf, if_pos rfl], fun j hj hne => by rw [row_step hj, h, stepOf, if_neg hne]⟩

theorem stepOf_bit (k j : ℕ) : stepOf k j * (stepOf k j - 1) = 0 := by
  unfold stepOf; split <;> simp

/-- The flags and the limbs of successive rows. -/
theorem nextOk_step {lv nv : Row F} {k : ℕ} (hk : k < 23) (hs : StepIs lv k) (hn : StepIs nv (k + 1))
    (hl : ∀ x < 5, ∀ y < 5, lv (regA3 x y) = nv (regA x y) ∧ lv (regA3 x y + 1) = nv (regA x y + 1)) : NextOk lv nv where
  flags j hj := by
    rw [hs.sum, hn.sum, sub_self, zero_mul, zero_mul, add_zero, one_mul]
    by_cases hjk : j = k
    · subst hjk
      rw [Nat.mod_eq_of_lt (by omega), hn.2.1, hs.2.1, sub_self]
    · rw [hs.2.2 j hj hjk, hn.2.2 ((j + 1) % 24) (by omega) (by omega), sub_zero]
  pad := by rw [hs.sum, sub_self, mul_zero]
  link x hx y hy := by rw [(hl x hx y hy).1, (hl x hx y hy).2, sub_self, sub_self, mul_zero]; exact ⟨rfl, rfl⟩

theorem nextOk_last {lv nv : Row F} (hs : StepIs lv 23) (hn : StepIs nv 0 ∨ Pad nv) : NextOk lv nv where
  flags j hj := by
    rw [hs.2.1, sub_self, mul_zero, add_zero]
    rcases hn with hn | hn
    · by_cases hjk : j = 23
      · subst hjk
        rw [show (23 + 1) % 24 = 0 from rfl, hn.2.1, hs.2.1, sub_self, mul_zero]
      · rw [hs.2.2 j hj hjk, hn.2.2 ((j + 1) % 24) (by omega) (by omega), sub_zero, mul_zero]
    · rw [hn.sum, zero_mul]
  pad := by rw [hs.sum, sub_self, mul_zero]
  link x hx y hy := by rw [hs.2.1, sub_self, zero_mul, zero_mul]; exact ⟨rfl, rfl⟩

/-- A padding row. `keccak_stark.rs:85-87`. -/
def zeroRow : Row F := fun _ => 0

theorem zero_pad : Pad zeroRow := fun _ _ => rfl

theorem fold32_zero {f : ℕ → F} (h : ∀ z, f z = 0) (s : ℕ) : fold32 f s = 0 := by
  rw [fold32_eq]; exact sum_eq_zero (fun z _ => by rw [h, mul_zero])

theorem zeroRow_ok : RowOk zeroRow where
  flags _ _ := by simp [zeroRow]
  cPrime _ _ _ _ := by simp [zeroRow, xor3Gen, xorGen]
  input x _ y _ := by
    have : ∀ z, inBit zeroRow x y z = 0 := fun z => by simp [inBit, zeroRow, xor3Gen, xorGen]
    rw [fold32_zero this, fold32_zero this]; simp [zeroRow]
  diff x _ z _ := by
    have : ((List.range 5).map (fun i => zeroRow (regA' x i z))).sum = 0 := by simp [zeroRow]
    rw [this]; simp [zeroRow]
  chi x _ y _ := by
    have : ∀ z, chiBit zeroRow x y z = 0 := fun z => by simp [chiBit, zeroRow, xorGen, andnGen]
    rw [fold32_zero this, fold32_zero this]; simp [zeroRow]
  bits := by
    have : ∀ z, zeroRow (regBit z) = 0 := fun z => rfl
    rw [fold32_zero this, fold32_zero this]; simp [zeroRow]
  iota := by
    have : ∀ z, xorGen (zeroRow (regBit z)) (rcBitSel zeroRow z) = 0 := fun z => by
      have : rcBitSel zeroRow z = 0 := by simp [rcBitSel, zeroRow]
      rw [this]; simp [xorGen, zeroRow]
    rw [fold32_zero this, fold32_zero this]; simp [zeroRow]

theorem nextOk_pad : NextOk zeroRow zeroRow where
  flags j _ := by rw [zero_pad.sum]; simp
  pad := by rw [zero_pad.sum]; simp
  link _ _ _ _ := by simp [zeroRow]

/-! ### Generation of a round -/

/-- A bit of a limb: `(a_limb >> bit_in_limb) & 1`. `keccak_stark.rs:145-151`. -/
def aBit (a : ℕ → ℕ → ℕ → ℕ) (x y z : ℕ) : Bool := (a x y (z / 32) % 2 ^ 32).testBit (z % 32)

/-- `C[x, z]`. `keccak_stark.rs:142-155`; `xor` of bits, `logic.rs:8-13`. -/
def genC (a : ℕ → ℕ → ℕ → ℕ) (x z : ℕ) : Bool := aBit a x 0 z ^^ aBit a x 1 z ^^ aBit a x 2 z ^^ aBit a x 3 z ^^ aBit a x 4 z

/-- `C'[x, z]`. `keccak_stark.rs:157-166`. -/
def genC' (a : ℕ → ℕ → ℕ → ℕ) (x z : ℕ) : Bool := genC a x z ^^ genC a ((x + 4) % 5) z ^^ genC a ((x + 1) % 5) ((z + 63) % 64)

/-- `A'[x, y, z]`. `keccak_stark.rs:168-185`. -/
def genA' (a : ℕ → ℕ → ℕ → ℕ) (x y z : ℕ) : Bool := aBit a x y z ^^ genC a x z ^^ genC' a x z

/-- The value of the column `reg_b`. -/
def genB (a : ℕ → ℕ → ℕ → ℕ) (x y z : ℕ) : Bool := genA' a ((x + 3 * y) % 5) x ((z + 64 - rot ((x + 3 * y) % 5) x) % 64)

/-- `get_bit` of A''. `keccak_stark.rs:191-196`; `andn`, `logic.rs:46-52`. -/
def genChi (a : ℕ → ℕ → ℕ → ℕ) (x y z : ℕ) : Bool := genB a x y z ^^ (!genB a ((x + 1) % 5) y z && genB a ((x + 2) % 5) y z)

/-- The limbs of `A''[x, y]`. The code folds the bits in the field; the sum stays below `2^32`. `keccak_stark.rs:198-209`. -/
def genA2 (a : ℕ → ℕ → ℕ → ℕ) (x y h : ℕ) : ℕ := Spec.laneOf (fun z => genChi a x y (32 * h + z)) 32

/-- `val_lo | (val_hi << 32)` of `A''[0, 0]`. `keccak_stark.rs:213-215`. -/
def genVal (a : ℕ → ℕ → ℕ → ℕ) : ℕ := genA2 a 0 0 0 ||| (genA2 a 0 0 1 <<< 32)

/-- The limbs of `A'''[0, 0]`. `keccak_stark.rs:227-233`. -/
def genA3 (a : ℕ → ℕ → ℕ → ℕ) (round h : ℕ) : ℕ :=
  genA2 a 0 0 h ^^^ (if h = 0 then rcValue round &&& (1 <<< 32 - 1) else rcValue round >>> 32)

/-- `generate_trace_row_for_round` on a row whose columns A hold the limbs `a`. `keccak_stark.rs:139-234`. -/
def genCells (a : ℕ → ℕ → ℕ → ℕ) (round : ℕ) (ts : F) : Cells where
  step := stepOf round
  ts := ts
  a x y h := (a x y h : F)
  c x z := b2f (genC a x z)
  c' x z := b2f (genC' a x z)
  a' x y z := b2f (genA' a x y z)
  a2 x y h := (genA2 a x y h : F)
  bit i := (((genVal a >>> i) &&& 1 : ℕ) : F)
  a3 h := (genA3 a round h : F)

/-- `copy_output_to_input`: the limbs of the next round's input. `keccak_stark.rs:126-137`. -/
def nextLimbs (a : ℕ → ℕ → ℕ → ℕ) (round : ℕ) : ℕ → ℕ → ℕ → ℕ := fun x y h => if x = 0 ∧ y = 0 then genA3 a round h else genA2 a x y h

/-- The limbs of the input of each round. `keccak_stark.rs:104-121`. -/
def roundLimbs (a : ℕ → ℕ → ℕ → ℕ) : ℕ → ℕ → ℕ → ℕ → ℕ
  | 0 => a
  | r + 1 => nextLimbs (roundLimbs a r) r

/-- The limbs of a permutation's input. `keccak_stark.rs:105-113`. -/
def inputLimbs (input : List ℕ) : ℕ → ℕ → ℕ → ℕ := fun x y h =>
  let v := input.getD (y * 5 + x) 0
  if h = 0 then v &&& 0xFFFFFFFF else v >>> 32

/-- A row of `generate_trace_rows_for_perm`. `keccak_stark.rs:91-124`. -/
def permCells (p : List ℕ × ℕ) (r : ℕ) : Cells := genCells (roundLimbs (inputLimbs p.1) r) r (p.2 : F)

/-- The height of the table. `keccak_stark.rs:75-77`. -/
def height (inputs : List (List ℕ × ℕ)) (minRows : ℕ) : ℕ := Logic.nextPow (max (inputs.length * NUM_ROUNDS) minRows)

/-- `generate_trace_rows`. `keccak_stark.rs:70-89`. -/
def traceRow (inputs : List (List ℕ × ℕ)) (i : ℕ) : Row F :=
  match inputs[i / 24]? with
  | some p => (permCells p (i % 24)).row
  | none => zeroRow

/-! ### The generated rows satisfy the constraints -/

/-- The limbs of a state in memory order. -/
def LimbsOf (a : ℕ → ℕ → ℕ → ℕ) : Prop := ∀ x < 5, ∀ y < 5, ∀ h < 2, a x y h < 2 ^ 32

theorem b2f_toNat (b : Bool) : (b.toNat : F) = b2f b := by cases b <;> simp [b2f]

theorem laneOf_testBit {v : ℕ} (h : v < 2 ^ 32) : Spec.laneOf (fun z => v.testBit z) 32 = v := by
  refine Nat.eq_of_testBit_eq (fun z => ?_)
  by_cases hz : z < 32
  · rw [Spec.testBit_laneOf _ _ _ hz]
  · have h1 : v < 2 ^ z := lt_of_lt_of_le h (Nat.pow_le_pow_right (by decide) (by omega))
    have h2 : Spec.laneOf (fun z => v.testBit z) 32 < 2 ^ z := lt_of_lt_of_le (Spec.laneOf_lt _ _) (Nat.pow_le_pow_right (by decide) (by omega))
    rw [Nat.testBit_lt_two_pow h1, Nat.testBit_lt_two_pow h2]

/-- The state with the given limbs. -/
def limbState (a : ℕ → ℕ → ℕ → ℕ) : Spec.State := fun x y z => aBit a x y z

theorem laneOf_aBit {a : ℕ → ℕ → ℕ → ℕ} (ha : LimbsOf a) {x y h : ℕ} (hx : x < 5) (hy : y < 5) (hh : h < 2) :
    Spec.laneOf (fun z => aBit a x y (32 * h + z)) 32 = a x y h := by
  have e : ∀ n ≤ 32, Spec.laneOf (fun z => aBit a x y (32 * h + z)) n = Spec.laneOf (fun z => (a x y h).testBit z) n := by
    intro n hn
    induction n with
    | zero => rfl
    | succ n ih =>
      rw [Spec.laneOf, Spec.laneOf, ih (by omega), aBit, show (32 * h + n) / 32 = h by omega, show (32 * h + n) % 32 = n by omega,
        Nat.mod_eq_of_lt (ha x hx y hy h hh)]
  rw [e 32 le_rfl, laneOf_testBit (ha x hx y hy h hh)]

theorem genVal_testBit (a : ℕ → ℕ → ℕ → ℕ) {z : ℕ} (hz : z < 64) : (genVal a).testBit z = genChi a 0 0 z := by
  have h0 : ∀ h, genA2 a 0 0 h < 2 ^ 32 := fun h => Spec.laneOf_lt _ _
  rw [genVal, Nat.testBit_or, Nat.testBit_shiftLeft]
  by_cases h : z < 32
  · rw [decide_eq_false (by omega : ¬ z ≥ 32), Bool.false_and, Bool.or_false, genA2, Spec.testBit_laneOf _ _ _ h]; simp
  · have h1 : genA2 a 0 0 0 < 2 ^ z := lt_of_lt_of_le (h0 0) (Nat.pow_le_pow_right (by decide) (by omega))
    rw [Nat.testBit_lt_two_pow h1, decide_eq_true (by omega : z ≥ 32), Bool.true_and, Bool.false_or, genA2, Spec.testBit_laneOf _ _ _ (by omega),
      show 32 * 1 + (z - 32) = z by omega]

theorem rc_bits : ∀ r < 24, ∀ h < 2, ∀ z < 32,
    (if h = 0 then rcValue r &&& (1 <<< 32 - 1) else rcValue r >>> 32).testBit z = Spec.rcBit r (32 * h + z) := by decide +kernel

theorem rc_limb_lt : ∀ r < 24, ∀ h < 2, (if h = 0 then rcValue r &&& (1 <<< 32 - 1) else rcValue r >>> 32) < 2 ^ 32 := by decide +kernel

theorem genA3_eq (a : ℕ → ℕ → ℕ → ℕ) {r h : ℕ} (hr : r < 24) (hh : h < 2) :
    genA3 a r h = Spec.laneOf (fun z => genChi a 0 0 (32 * h + z) ^^ Spec.rcBit r (32 * h + z)) 32 := by
  have hl : genA3 a r h < 2 ^ 32 := Nat.xor_lt_two_pow (Spec.laneOf_lt _ _) (rc_limb_lt r hr h hh)
  refine Nat.eq_of_testBit_eq (fun z => ?_)
  by_cases hz : z < 32
  · rw [Spec.testBit_laneOf _ _ _ hz, genA3, Nat.testBit_xor, rc_bits r hr h hh z hz, genA2, Spec.testBit_laneOf _ _ _ hz]
  · have h1 : genA3 a r h < 2 ^ z := lt_of_lt_of_le hl (Nat.pow_le_pow_right (by decide) (by omega))
    rw [Nat.testBit_lt_two_pow h1, Nat.testBit_lt_two_pow (lt_of_lt_of_le (Spec.laneOf_lt _ _) (Nat.pow_le_pow_right (by decide) (by omega)))]

theorem rc_sum {k : ℕ} (hk : k < 24) (hs : K.step = stepOf k) {z : ℕ} (hz : z < 64) : K.rc z = b2f (Spec.rcBit k z) := by
  have h := rcBitSel_eq (stepIs_row hk hs) hz
  rw [← h]
  unfold rcBitSel Cells.rc
  exact congrArg List.sum (List.map_congr_left (fun r hr => by rw [row_step (List.mem_range.1 hr)]))

theorem diff_of_xor5 (a b c d e : Bool) : (b2f a + (b2f b + (b2f c + (b2f d + (b2f e + 0)))) - b2f (a ^^ b ^^ c ^^ d ^^ e)) *
    (b2f a + (b2f b + (b2f c + (b2f d + (b2f e + 0)))) - b2f (a ^^ b ^^ c ^^ d ^^ e) - 2) *
    (b2f a + (b2f b + (b2f c + (b2f d + (b2f e + 0)))) - b2f (a ^^ b ^^ c ^^ d ^^ e) - 4) = 0 := by
  revert a b c d e
  decide +kernel

theorem bit_gen (a : ℕ → ℕ → ℕ → ℕ) (r : ℕ) (ts : F) {i : ℕ} (hi : i < 64) : (genCells a r ts).bit i = b2f (genChi a 0 0 i) := by
  show (((genVal a >>> i) &&& 1 : ℕ) : F) = _
  rw [← b2f_toNat, ← genVal_testBit a hi]
  congr 1
  rw [Nat.and_one_is_mod, Nat.shiftRight_eq_div_pow, Nat.testBit_eq_decide_div_mod_eq]
  have := Nat.mod_two_eq_zero_or_one (genVal a / 2 ^ i)
  rcases this with h | h <;> rw [h] <;> rfl

theorem genCells_ok {a : ℕ → ℕ → ℕ → ℕ} (ha : LimbsOf a) {r : ℕ} (hr : r < 24) (ts : F) : CellsOk (genCells a r ts) where
  flags j _ := stepOf_bit r j
  cPrime x _ z _ := by
    show b2f (genC' a x z) = xor3Gen (b2f _) (b2f _) (b2f _)
    rw [xor3Gen_b2f, genC', Bool.xor_assoc]
  input x hx y hy h hh := by
    have e : ∀ z, (genCells a r ts).inB x y z = b2f (aBit a x y z) := by
      intro z
      show xor3Gen (b2f _) (b2f _) (b2f _) = _
      rw [xor3Gen_b2f, genA']
      congr 1
      generalize aBit a x y z = p
      generalize genC a x z = q
      generalize genC' a x z = s
      revert p q s; decide
    rw [fold32_congr (g := fun z => b2f (aBit a x y z)) (fun z _ => e _), fold32_b2f, laneOf_aBit ha hx hy hh]
    rfl
  diff x _ z _ := by
    have e : genC' a x z = (genA' a x 0 z ^^ genA' a x 1 z ^^ genA' a x 2 z ^^ genA' a x 3 z ^^ genA' a x 4 z) := by
      unfold genA'
      have hc : genC a x z = (aBit a x 0 z ^^ aBit a x 1 z ^^ aBit a x 2 z ^^ aBit a x 3 z ^^ aBit a x 4 z) := rfl
      revert hc
      generalize aBit a x 0 z = a0
      generalize aBit a x 1 z = a1
      generalize aBit a x 2 z = a2
      generalize aBit a x 3 z = a3
      generalize aBit a x 4 z = a4
      generalize genC a x z = c
      generalize genC' a x z = c'
      revert a0 a1 a2 a3 a4 c c'
      decide
    show (b2f _ + (b2f _ + (b2f _ + (b2f _ + (b2f _ + 0)))) - b2f (genC' a x z)) * (b2f _ + (b2f _ + (b2f _ + (b2f _ + (b2f _ + 0)))) - b2f (genC' a x z) - 2) *
      (b2f _ + (b2f _ + (b2f _ + (b2f _ + (b2f _ + 0)))) - b2f (genC' a x z) - 4) = 0
    rw [e]
    exact diff_of_xor5 _ _ _ _ _
  chi x _ y _ h _ := by
    have e : ∀ z, (genCells a r ts).chiB x y z = b2f (genChi a x y z) := by
      intro z
      show xorGen (b2f _) (andnGen (b2f _) (b2f _)) = _
      rw [andnGen_b2f, xorGen_b2f]; rfl
    rw [fold32_congr (g := fun z => b2f (genChi a x y z)) (fun z _ => e _), fold32_b2f]; rfl
  bits h hh := by
    rw [fold32_congr (g := fun i => b2f (genChi a 0 0 i)) (fun z hz => bit_gen a r ts (by omega)), fold32_b2f]; rfl
  iota h hh := by
    have e : ∀ z < 32, xorGen ((genCells a r ts).bit (32 * h + z)) ((genCells a r ts).rc (32 * h + z)) =
        b2f (genChi a 0 0 (32 * h + z) ^^ Spec.rcBit r (32 * h + z)) := by
      intro z hz
      rw [bit_gen a r ts (by omega), rc_sum hr rfl (by omega), xorGen_b2f]
    rw [fold32_congr (g := fun z => b2f (genChi a 0 0 z ^^ Spec.rcBit r z)) e, fold32_b2f]
    exact congrArg Nat.cast (genA3_eq a hr hh).symm

theorem nextLimbs_lt (a : ℕ → ℕ → ℕ → ℕ) {r : ℕ} (hr : r < 24) : LimbsOf (nextLimbs a r) := by
  intro x _ y _ h hh
  unfold nextLimbs
  split
  · rw [genA3_eq a hr hh]; exact Spec.laneOf_lt _ _
  · exact Spec.laneOf_lt _ _

theorem inputLimbs_lt {l : List ℕ} (h : ∀ v ∈ l, v < 2 ^ 64) : LimbsOf (inputLimbs l) := by
  intro x _ y _ j _
  have hv : l.getD (y * 5 + x) 0 < 2 ^ 64 := by
    rw [List.getD_eq_getElem?_getD]
    rcases hx : l[y * 5 + x]? with _ | v
    · exact Nat.two_pow_pos 64
    · exact h v (List.mem_of_getElem? hx)
  unfold inputLimbs
  simp only
  split
  · exact lt_of_le_of_lt Nat.and_le_right (by decide)
  · rw [Nat.shiftRight_eq_div_pow]; omega

theorem roundLimbs_lt {a : ℕ → ℕ → ℕ → ℕ} (ha : LimbsOf a) : ∀ r ≤ 24, LimbsOf (roundLimbs a r)
  | 0, _ => ha
  | r + 1, h => nextLimbs_lt _ (by omega)

/-- The limbs of the next round are those of the round of the specification. -/
theorem limbState_next {a : ℕ → ℕ → ℕ → ℕ} {r : ℕ} (hr : r < 24) : Spec.Same (limbState (nextLimbs a r)) (Spec.round r (limbState a)) := by
  have hb : ∀ x < 5, ∀ y < 5, ∀ z, genB a x y z = Spec.pi (Spec.rho (Spec.theta (limbState a))) x y z := by
    intro x hx y _ z
    unfold genB Spec.pi Spec.rho
    rw [rot_eq _ (by omega) _ hx]
    generalize (z + 64 - Spec.rhoOffset ((x + 3 * y) % 5) x % 64) % 64 = z'
    generalize (x + 3 * y) % 5 = x'
    unfold Spec.theta genA' genC' Spec.parity limbState genC
    generalize aBit a x' x z' = p
    generalize (aBit a x' 0 z' ^^ aBit a x' 1 z' ^^ aBit a x' 2 z' ^^ aBit a x' 3 z' ^^ aBit a x' 4 z') = q
    generalize (aBit a ((x' + 4) % 5) 0 z' ^^ aBit a ((x' + 4) % 5) 1 z' ^^ aBit a ((x' + 4) % 5) 2 z' ^^ aBit a ((x' + 4) % 5) 3 z' ^^
      aBit a ((x' + 4) % 5) 4 z') = s
    generalize (aBit a ((x' + 1) % 5) 0 ((z' + 63) % 64) ^^ aBit a ((x' + 1) % 5) 1 ((z' + 63) % 64) ^^ aBit a ((x' + 1) % 5) 2 ((z' + 63) % 64) ^^
      aBit a ((x' + 1) % 5) 3 ((z' + 63) % 64) ^^ aBit a ((x' + 1) % 5) 4 ((z' + 63) % 64)) = t
    revert p q s t
    decide
  have hc : ∀ x < 5, ∀ y < 5, ∀ z, genChi a x y z = Spec.chi (Spec.pi (Spec.rho (Spec.theta (limbState a)))) x y z := by
    intro x hx y hy z
    rw [genChi, hb x hx y hy, hb _ (by omega) y hy, hb _ (by omega) y hy, Spec.chi]
  intro x hx y hy z hz
  show aBit (nextLimbs a r) x y z = _
  rw [aBit, Nat.mod_eq_of_lt (nextLimbs_lt a hr x hx y hy (z / 32) (by omega)), nextLimbs, Spec.round, Spec.iota]
  split
  · rename_i h0
    obtain ⟨rfl, rfl⟩ := h0
    rw [genA3_eq a hr (by omega), Spec.testBit_laneOf _ _ _ (by omega), show 32 * (z / 32) + z % 32 = z by omega, hc 0 hx 0 hy]
  · rw [genA2, Spec.testBit_laneOf _ _ _ (by omega), show 32 * (z / 32) + z % 32 = z by omega, hc x hx y hy]

theorem limbState_rounds (a : ℕ → ℕ → ℕ → ℕ) : ∀ r ≤ 24, Spec.Same (limbState (roundLimbs a r)) (Spec.rounds r (limbState a))
  | 0, _ => fun _ _ _ _ _ _ => rfl
  | r + 1, h => (limbState_next (by omega)).trans (Spec.round_congr r (limbState_rounds a r (by omega)))

theorem out_next (a : ℕ → ℕ → ℕ → ℕ) (r : ℕ) (ts : F) (x y h : ℕ) : (genCells a r ts).out x y h = (nextLimbs a r x y h : F) := by
  unfold Cells.out nextLimbs
  split <;> rfl

theorem limb_limbState {a : ℕ → ℕ → ℕ → ℕ} (ha : LimbsOf a) {x y h : ℕ} (hx : x < 5) (hy : y < 5) (hh : h < 2) :
    limb (limbState a) x y h = (a x y h : F) := by
  rw [limb]
  exact congrArg Nat.cast (laneOf_aBit ha hx hy hh)

/-- The inputs are pairs of twenty-five words and a time. -/
def Words (inputs : List (List ℕ × ℕ)) : Prop := ∀ p ∈ inputs, ∀ v ∈ p.1, v < 2 ^ 64

theorem le_height (inputs : List (List ℕ × ℕ)) (m : ℕ) : inputs.length * 24 ≤ height inputs m :=
  le_trans (le_max_left _ m) (Nat.le_pow_clog (by decide) _)

theorem traceRow_some {inputs : List (List ℕ × ℕ)} {i : ℕ} {p : List ℕ × ℕ} (h : inputs[i / 24]? = some p) :
    traceRow inputs i = (permCells p (i % 24)).row := by rw [traceRow, h]

theorem traceRow_none {inputs : List (List ℕ × ℕ)} {i : ℕ} (h : inputs[i / 24]? = none) : traceRow inputs i = zeroRow := by rw [traceRow, h]

theorem permCells_ok {inputs : List (List ℕ × ℕ)} (hw : Words inputs) {p : List ℕ × ℕ} (hp : p ∈ inputs) {r : ℕ} (hr : r < 24) : CellsOk (permCells p r) :=
  genCells_ok (roundLimbs_lt (inputLimbs_lt (hw p hp)) r (by omega)) hr _

theorem permCells_step (p : List ℕ × ℕ) {r : ℕ} (hr : r < 24) : StepIs (permCells p r).row r := stepIs_row hr rfl

theorem gen_next {inputs : List (List ℕ × ℕ)} (i : ℕ) : NextOk (traceRow inputs i) (traceRow inputs (i + 1)) := by
  rcases h : inputs[i / 24]? with _ | p
  · have h' : inputs[(i + 1) / 24]? = none := by
      rw [List.getElem?_eq_none_iff] at h ⊢; omega
    rw [traceRow_none h, traceRow_none h']
    exact nextOk_pad
  · rw [traceRow_some h]
    by_cases h23 : i % 24 = 23
    · rw [h23]
      refine nextOk_last (permCells_step p (by decide)) ?_
      rcases h' : inputs[(i + 1) / 24]? with _ | q
      · rw [traceRow_none h']; exact .inr zero_pad
      · rw [traceRow_some h', show (i + 1) % 24 = 0 by omega]; exact .inl (permCells_step q (by decide))
    · have hd : (i + 1) / 24 = i / 24 := by omega
      have h' : inputs[(i + 1) / 24]? = some p := by rw [hd, h]
      rw [traceRow_some h', show (i + 1) % 24 = i % 24 + 1 by omega]
      refine nextOk_step (by omega) (permCells_step p (by omega)) (permCells_step p (by omega)) (fun x hx y hy => ?_)
      rw [row_a30 hx hy, row_a3 hx hy (by decide), row_a0 hx hy, row_a hx hy (by decide)]
      unfold permCells
      rw [out_next, out_next]
      exact ⟨rfl, rfl⟩

theorem gen_row {inputs : List (List ℕ × ℕ)} (hw : Words inputs) (i : ℕ) : RowOk (traceRow inputs i) := by
  rcases h : inputs[i / 24]? with _ | p
  · rw [traceRow_none h]; exact zeroRow_ok
  · rw [traceRow_some h]
    exact (permCells_ok hw (List.mem_of_getElem? h) (by omega)).row

theorem gen_first (inputs : List (List ℕ × ℕ)) : FirstOk (traceRow inputs 0) := by
  rcases h : inputs[0 / 24]? with _ | p
  · rw [traceRow_none h]; exact ⟨by rw [zero_pad.sum, zero_mul], fun j _ => by rw [zero_pad.sum, zero_mul]⟩
  · rw [traceRow_some h]
    have hs := permCells_step p (r := 0) (by decide)
    exact ⟨by rw [show 0 % 24 = 0 from rfl, hs.2.1, sub_self, mul_zero], fun j hj => by
      rw [show 0 % 24 = 0 from rfl, hs.2.2 (j + 1) (by omega) (by omega), mul_zero]⟩

theorem gen_time (inputs : List (List ℕ × ℕ)) {n : ℕ} (hn : inputs.length * 24 ≤ n) {i : ℕ} (hi : i < n) :
    sumFlags (traceRow inputs i) * (1 - traceRow inputs i 23) * (traceRow inputs ((i + 1) % n) TIMESTAMP - traceRow inputs i TIMESTAMP) = 0 := by
  rcases h : inputs[i / 24]? with _ | p
  · rw [traceRow_none h, zero_pad.sum, zero_mul, zero_mul]
  · rw [traceRow_some h]
    by_cases h23 : i % 24 = 23
    · rw [h23, (permCells_step p (r := 23) (by decide)).2.1, sub_self, mul_zero, zero_mul]
    · have hl := (List.getElem?_eq_some_iff.1 h).1
      have h' : inputs[(i + 1) / 24]? = some p := by rw [show (i + 1) / 24 = i / 24 by omega, h]
      rw [Nat.mod_eq_of_lt (show i + 1 < n by omega), traceRow_some h', row_ts, row_ts]
      unfold permCells genCells
      rw [sub_self, mul_zero]

/-- The generated table satisfies the constraints. -/
theorem gen_sat {inputs : List (List ℕ × ℕ)} (hw : Words inputs) {n : ℕ} (hn : inputs.length * 24 ≤ n) : Satisfies evalKeccak n (traceRow inputs) := by
  refine sat_iff.2 (fun i hi => ⟨gen_row hw i, ?_, ?_, gen_time inputs hn hi⟩)
  · rintro rfl; exact gen_first inputs
  · intro h
    rw [Nat.mod_eq_of_lt (by omega)]
    exact gen_next i

/-- The state with the given words. -/
def wordState (l : List ℕ) : Spec.State := fun x y z => (l.getD (5 * y + x) 0).testBit z

theorem limbState_input {l : List ℕ} (h : ∀ v ∈ l, v < 2 ^ 64) : Spec.Same (limbState (inputLimbs l)) (wordState l) := by
  intro x hx y hy z hz
  show aBit (inputLimbs l) x y z = _
  rw [aBit, Nat.mod_eq_of_lt (inputLimbs_lt h x hx y hy (z / 32) (by omega)), inputLimbs, wordState, show y * 5 + x = 5 * y + x by omega]
  split
  · rw [Nat.testBit_and, show (0xFFFFFFFF : ℕ) = 2 ^ 32 - 1 from rfl, Nat.testBit_two_pow_sub_one, decide_eq_true (by omega : z % 32 < 32), Bool.and_true,
      show z % 32 = z by omega]
  · rw [Nat.testBit_shiftRight, show 32 + z % 32 = z by omega]

end Verif.Stark.Keccak
