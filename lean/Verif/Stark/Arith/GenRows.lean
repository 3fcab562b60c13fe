import Verif.Stark.Arith.GenModular

/-! The rows generated for each operation satisfy the constraints and hold its operands and its result. -/

namespace Verif.Stark.Arith

open Finset

/-! ### Cells -/

theorem setReg_reg (row : Row F) {s n i : ℕ} (v : Limbs F) (h : i < n) : setReg row s n v (s + i) = v i := by
  unfold setReg; rw [if_pos (by omega), Nat.add_sub_cancel_left]

theorem setReg_ne (row : Row F) {s n c : ℕ} (v : Limbs F) (h : c < s ∨ s + n ≤ c) : setReg row s n v c = row c := by
  unfold setReg; rw [if_neg (by omega)]

theorem setCol_eq (row : Row F) (c : ℕ) (v : F) : setCol row c v c = v := by unfold setCol; rw [if_pos rfl]

theorem setCol_ne (row : Row F) {c d : ℕ} (v : F) (h : d ≠ c) : setCol row c v d = row d := by unfold setCol; rw [if_neg h]

theorem u256Limbs_val (x i : ℕ) : (u256Limbs x i).val = x / 65536 ^ i % 65536 := by
  unfold u256Limbs
  rw [ZMod.val_natCast, Nat.mod_eq_of_lt]
  exact (Nat.mod_lt _ (by decide)).trans (by decide)

theorem u256Limbs_lt (x i : ℕ) : (u256Limbs x i).val < 65536 := by rw [u256Limbs_val]; exact Nat.mod_lt _ (by decide)

theorem u256_colLimb (x i : ℕ) : u256Limbs x i = ((colLimb (x : ℤ) i : ℤ) : F) := by
  unfold u256Limbs colLimb
  rw [if_neg (by omega), Int.natAbs_natCast, Int.cast_natCast]

/-- A register that was written with a number holds it. -/
theorem num_u256 {row : Row F} {s x : ℕ} (h : ∀ i < nLimbs, row (s + i) = u256Limbs x i) (hx : x < 2 ^ 256) : num row s = x := by
  unfold num
  rw [sum_congr rfl (fun i hi => by rw [h i (mem_range.1 hi), u256Limbs_val]), digits_sum]
  exact Nat.mod_eq_of_lt (hx.trans_eq (by norm_num))

theorem limbs_u256 {row : Row F} {s x : ℕ} (h : ∀ i < nLimbs, row (s + i) = u256Limbs x i) :
    ∀ i < nLimbs, limbs row s i = colLimb (x : ℤ) i := by
  intro i hi
  unfold limbs colLimb
  rw [h i hi, u256Limbs_val, if_neg (by omega), Int.natAbs_natCast]

theorem ev_colLimb_nat {x : ℕ} (h : x < 2 ^ 256) : ev (65536 : ℤ) nLimbs (colLimb (x : ℤ)) = x :=
  ev_colLimb (by rw [Int.natAbs_natCast]; exact h.trans_eq (by norm_num))

/-- The words of a register that holds a number. -/
theorem words_of_num {row : Row F} (hr : Ranged row) {s a : ℕ} (hs : InShared s) (h : num row s = a) : Words row s a := by
  have hs' := hs
  obtain ⟨hs1, hs2⟩ := hs
  have hlt : a < 2 ^ 256 := h ▸ num_lt hr hs1 hs2
  have hd : ∀ i < nLimbs, (row (s + i)).val = a / 65536 ^ i % 65536 := by
    intro i hi
    rw [← h]
    exact (digit_sum (B := 65536) (by decide) i nLimbs (fun i => (row (s + i)).val)
      (fun j hj => hr (s + j) (by omega) (by omega)) hi).symm
  refine ⟨hlt, fun k hk => ?_⟩
  have h1 := hd (2 * k) (by simp only [nLimbs]; omega)
  have h2 := hd (2 * k + 1) (by simp only [nLimbs]; omega)
  unfold ctlWord
  have e : a / 2 ^ (32 * k) % 2 ^ 32 = a / 65536 ^ (2 * k) % 65536 + 65536 * (a / 65536 ^ (2 * k + 1) % 65536) := by
    rw [show (2 : ℕ) ^ (32 * k) = 65536 ^ (2 * k) by rw [pow_mul, pow_mul]; norm_num, show (2 : ℕ) ^ 32 = 65536 * 65536 by norm_num, Nat.mod_mul,
      Nat.div_div_eq_div_mul, ← pow_succ]
  rw [e, ← h1, ← h2]
  push_cast
  rw [ZMod.natCast_zmod_val]
  congr 2
  rw [show s + 2 * k + 1 = s + (2 * k + 1) by ring, ZMod.natCast_zmod_val]

/-! ### Rows -/

/-- The flags of a row, and that its cells are in range. -/
structure RowOk (fl row : Row F) : Prop where
  flags : ∀ g < 18, row g = fl g
  ranged : Ranged row

theorem RowOk.setReg {fl row : Row F} (h : RowOk fl row) {s n : ℕ} {v : Limbs F} (hs : 18 ≤ s) (hv : ∀ i < n, (v i).val < 65536) :
    RowOk fl (setReg row s n v) := by
  constructor
  · intro g hg; rw [setReg_ne _ _ (by omega)]; exact h.flags g hg
  · intro c h1 h2
    unfold Arith.setReg
    split
    · exact hv _ (by omega)
    · exact h.ranged c h1 h2

theorem RowOk.setU256 {fl row : Row F} (h : RowOk fl row) {s : ℕ} (x : ℕ) (hs : 18 ≤ s) : RowOk fl (setU256 row s x) :=
  h.setReg hs (fun i _ => u256Limbs_lt x i)

theorem RowOk.setCol {fl row : Row F} (h : RowOk fl row) {c : ℕ} {v : F} (hc : 18 ≤ c) (hv : v.val < 65536) : RowOk fl (setCol row c v) := by
  constructor
  · intro g hg; rw [setCol_ne _ _ (by omega)]; exact h.flags g hg
  · intro d h1 h2
    unfold Arith.setCol
    split
    · exact hv
    · exact h.ranged d h1 h2

theorem ranged_flag {f : ℕ} (hf : f < 18) : Ranged (flagRow f) := by
  intro c h1 _
  unfold flagRow
  rw [if_neg (by simp only [START_SHARED_COLS] at h1; omega)]; simp

theorem RowOk.flag {f : ℕ} (hf : f < 18) : RowOk (flagRow f) (flagRow f) := ⟨fun _ _ => rfl, ranged_flag hf⟩

theorem RowOk.zero : RowOk (fun _ => 0) (fun _ => 0) := ⟨fun _ _ => rfl, fun c _ _ => by simp⟩

/-- A row of the finished table: the generated one, except for the range counter and the frequencies. -/
def Agrees (lv row : Row F) : Prop := ∀ c < 114, lv c = row c

theorem RowOk.agrees {fl row lv : Row F} (h : RowOk fl row) (ha : Agrees lv row) : RowOk fl lv := by
  constructor
  · intro g hg; rw [ha g (by omega)]; exact h.flags g hg
  · intro c h1 h2
    rw [ha c (by simp only [START_SHARED_COLS, NUM_SHARED_COLS] at h2; omega)]; exact h.ranged c h1 h2

/-- What a row shows to the CPU table. -/
structure Shows (row : Row F) (in0 in1 in2 out : ℕ) : Prop where
  in0 : num row INPUT_REGISTER_0 = in0
  in1 : num row INPUT_REGISTER_1 = in1
  in2 : num row INPUT_REGISTER_2 = in2
  out : num row OUTPUT_REGISTER = out

/-- Only the constraints of the operation whose flag is set remain. -/
theorem ops_of_part {lv nv : Row F} {f : ℕ} (hfl : ∀ g < 18, lv g = flagRow f g) (h : ∀ p ∈ parts lv nv, f ∈ p.1 → AllZero p.2) : AllZero (evalOps lv nv) := by
  intro c hc
  rw [evalOps_eq, List.mem_flatMap] at hc
  obtain ⟨p, hp, hc⟩ := hc
  by_cases hf : f ∈ p.1
  · exact h p hp hf c hc
  · refine part_zero hp (fun g hg => ?_) c hc
    rw [hfl g (by have := part_flags hp g hg; simp only [N_FLAGS] at this; omega)]
    unfold flagRow
    rw [if_neg]; rintro rfl; exact hf hg

theorem holds_of_part {lv nv : Row F} {f : ℕ} (hfl : ∀ g < 18, lv g = flagRow f g) (h : ∀ p ∈ parts lv nv, f ∈ p.1 → Holds p.2) : Holds (evalOps lv nv) := by
  intro c hc hon
  rw [evalOps_eq, List.mem_flatMap] at hc
  obtain ⟨p, hp, hc⟩ := hc
  by_cases hf : f ∈ p.1
  · exact h p hp hf c hc hon
  · refine part_zero hp (fun g hg => ?_) c hc
    rw [hfl g (by have := part_flags hp g hg; simp only [N_FLAGS] at this; omega)]
    unfold flagRow
    rw [if_neg]; rintro rfl; exact hf hg

theorem AllZero.holds {cs : List (Constr F)} (h : AllZero cs) : Holds cs := fun c hc _ => h c hc

theorem flagRow_self (f : ℕ) : flagRow f f = 1 := if_pos rfl

/-- The constraints on the flags. -/
theorem flags_one {lv : Row F} {f : ℕ} (hf : f < 17) (hfl : ∀ g < 17, lv g = flagRow f g) (ho : (1 - lv IS_RANGE_CHECK) * lv OPCODE_COL = 0) :
    AllZero (evalFlags lv) := by
  unfold evalFlags
  refine AllZero.append (.map fun i hi => ?_) ?_
  · rw [hfl i hi]; unfold flagRow; split <;> ring
  · intro c hc
    simp only [List.mem_cons, List.not_mem_nil, or_false] at hc
    rcases hc with rfl | rfl
    · have : ((List.range N_FLAGS).map lv).sum = 1 := by
        rw [sum_range_map, sum_congr rfl (fun g hg => hfl g (mem_range.1 hg))]
        unfold flagRow
        rw [sum_ite_eq' (range N_FLAGS) f (fun _ => (1 : F)), if_pos (mem_range.2 hf)]
      simp only [this]; ring
    · exact ho

/-- A generated row of an operation that takes one row. -/
structure OneRow (f : ℕ) (row : Row F) (a b c out : ℕ) : Prop where
  ok : RowOk (flagRow f) row
  sat : ∀ lv, Agrees lv row → ∀ nv, AllZero (evalOps lv nv)
  shows : Shows row a b c out

/-- The generated rows of an operation that takes two rows. -/
structure TwoRows (f : ℕ) (row next : Row F) (a b c out : ℕ) : Prop where
  ok : RowOk (flagRow f) row
  nextOk : RowOk (fun _ => 0) next
  sat : ∀ lv nv, Agrees lv row → Agrees nv next → Holds (evalOps lv nv)
  shows : Shows row a b c out

/-! ### ADD, SUB, LT, GT -/

theorem overflowingSub_lt (a b : ℕ) : (overflowingSub a b).1 < 2 ^ 256 ∧ (overflowingSub a b).2 ≤ 1 := by
  unfold overflowingSub
  refine ⟨Nat.mod_lt _ (by norm_num), ?_⟩
  dsimp only
  split <;> norm_num

/-- Unfolds the numbers of the columns. -/
macro "regs" : tactic => `(tactic| simp only [INPUT_REGISTER_0, INPUT_REGISTER_1, INPUT_REGISTER_2, OUTPUT_REGISTER, AUX_INPUT_REGISTER_0,
  AUX_INPUT_REGISTER_1, MODULAR_QUO_INPUT, MODULAR_OUT_AUX_RED, MODULAR_MOD_IS_ZERO, MODULAR_AUX_INPUT_LO, MODULAR_AUX_INPUT_HI,
  MODULAR_DIV_DENOM_IS_ZERO])

/-- The constraints of an addition of four registers. -/
theorem addcy_row {lv : Row F} {x y z g X Y Z G : ℕ} (hx : ∀ i < nLimbs, lv (x + i) = u256Limbs X i) (hy : ∀ i < nLimbs, lv (y + i) = u256Limbs Y i)
    (hz : ∀ i < nLimbs, lv (z + i) = u256Limbs Z i) (hg : ∀ i < nLimbs, lv (g + i) = u256Limbs G i)
    (bX : X < 2 ^ 256) (bY : Y < 2 ^ 256) (bZ : Z < 2 ^ 256) (bG : G ≤ 1) (h : X + Y = Z + G * 2 ^ 256) :
    AllZero (evalAddcy 1 (reg lv x) (reg lv y) (reg lv z) (reg lv g) false) := by
  refine addcy_of_sum (X := colLimb X) (Y := colLimb Y) (Z := colLimb Z) (cy := G) (fun i hi => ?_) (fun i hi => ?_) (fun i hi => ?_)
    (fun i _ => colLimb_nonneg (by omega) i) (fun i _ => colLimb_nonneg (by omega) i) (fun i _ => colLimb_nonneg (by omega) i) ?_ ?_ (fun i h0 hi => ?_)
  · rw [reg, hx i hi, u256_colLimb]
  · rw [reg, hy i hi, u256_colLimb]
  · rw [reg, hz i hi, u256_colLimb]
  · rw [ev_colLimb_nat bX, ev_colLimb_nat bY, ev_colLimb_nat bZ, show nLimbs = 16 from rfl, pow_256]
    exact_mod_cast h
  · rw [reg, hg 0 (by decide)]
    unfold u256Limbs
    rw [pow_zero, Nat.div_one, Nat.mod_eq_of_lt (by simp only [base]; omega), Int.cast_natCast]
  · rw [reg, hg i hi]
    unfold u256Limbs
    rw [Nat.div_eq_of_lt]
    · simp
    · have : base ^ 1 ≤ base ^ i := Nat.pow_le_pow_right (by decide) h0
      simp only [base] at this ⊢
      omega

/-- Reads the cells of a generated row. -/
macro "cells" : tactic => `(tactic| simp (disch := omega) only [setU256, setReg_reg, setReg_ne, setCol_eq, setCol_ne, nLimbs, INPUT_REGISTER_0,
  INPUT_REGISTER_1, INPUT_REGISTER_2, OUTPUT_REGISTER, AUX_INPUT_REGISTER_0, AUX_INPUT_REGISTER_1, MODULAR_QUO_INPUT, MODULAR_OUT_AUX_RED,
  MODULAR_MOD_IS_ZERO, MODULAR_AUX_INPUT_LO, MODULAR_AUX_INPUT_HI, MODULAR_DIV_DENOM_IS_ZERO, Nat.reduceMul, Nat.reduceSub, Nat.reduceAdd])

theorem genAddcy_regs {lv row : Row F} {left right aux out : ℕ} (ha : Agrees row (setU256 (setU256 (setU256 (setU256 (setU256 lv INPUT_REGISTER_0 left)
    INPUT_REGISTER_1 right) INPUT_REGISTER_2 0) AUX_INPUT_REGISTER_0 aux) OUTPUT_REGISTER out)) :
    (∀ i < nLimbs, row (INPUT_REGISTER_0 + i) = u256Limbs left i) ∧ (∀ i < nLimbs, row (INPUT_REGISTER_1 + i) = u256Limbs right i) ∧
    (∀ i < nLimbs, row (INPUT_REGISTER_2 + i) = u256Limbs 0 i) ∧ (∀ i < nLimbs, row (AUX_INPUT_REGISTER_0 + i) = u256Limbs aux i) ∧
    (∀ i < nLimbs, row (OUTPUT_REGISTER + i) = u256Limbs out i) := by
  simp only [nLimbs]
  refine ⟨fun i hi => ?_, fun i hi => ?_, fun i hi => ?_, fun i hi => ?_, fun i hi => ?_⟩ <;> rw [ha _ (by regs; omega)] <;> cells

theorem agrees_self (row : Row F) : Agrees row row := fun _ _ => rfl

theorem genAddcy_row {f a b aux out : ℕ} (hf : f < 18) (ha : a < 2 ^ 256) (hb : b < 2 ^ 256) (ho : out < 2 ^ 256)
    (h : ∀ lv : Row F, (∀ g < 18, lv g = flagRow f g) → (∀ i < nLimbs, lv (INPUT_REGISTER_0 + i) = u256Limbs a i) →
      (∀ i < nLimbs, lv (INPUT_REGISTER_1 + i) = u256Limbs b i) → (∀ i < nLimbs, lv (AUX_INPUT_REGISTER_0 + i) = u256Limbs aux i) →
      (∀ i < nLimbs, lv (OUTPUT_REGISTER + i) = u256Limbs out i) → ∀ nv, AllZero (evalOps lv nv)) :
    OneRow f (setU256 (setU256 (setU256 (setU256 (setU256 (flagRow f) INPUT_REGISTER_0 a) INPUT_REGISTER_1 b) INPUT_REGISTER_2 0)
      AUX_INPUT_REGISTER_0 aux) OUTPUT_REGISTER out) a b 0 out := by
  have ok : RowOk (flagRow f) (setU256 (setU256 (setU256 (setU256 (setU256 (flagRow f) INPUT_REGISTER_0 a) INPUT_REGISTER_1 b) INPUT_REGISTER_2 0)
      AUX_INPUT_REGISTER_0 aux) OUTPUT_REGISTER out) :=
    (((((RowOk.flag hf).setU256 _ (by decide)).setU256 _ (by decide)).setU256 _ (by decide)).setU256 _ (by decide)).setU256 _ (by decide)
  refine ⟨ok, fun lv hlv nv => ?_, ?_⟩
  · obtain ⟨h0, h1, -, h3, h4⟩ := genAddcy_regs hlv
    exact h lv (ok.agrees hlv).flags h0 h1 h3 h4 nv
  · obtain ⟨h0, h1, h2, -, h4⟩ := genAddcy_regs (agrees_self _)
    exact ⟨num_u256 h0 ha, num_u256 h1 hb, num_u256 h2 (by norm_num), num_u256 h4 ho⟩

theorem sub_sum {a b : ℕ} (ha : a < 2 ^ 256) (hb : b < 2 ^ 256) : b + (overflowingSub a b).1 = a + (overflowingSub a b).2 * 2 ^ 256 := by
  unfold overflowingSub
  dsimp only
  split
  · rw [Nat.mod_eq_of_lt (by omega)]; omega
  · rw [show a + 2 ^ 256 - b = a - b + 2 ^ 256 by omega, Nat.add_mod_right, Nat.mod_eq_of_lt (by omega)]; omega

theorem add_gen {a b : ℕ} (ha : a < 2 ^ 256) (hb : b < 2 ^ 256) :
    ∃ row, genAddcy (flagRow IS_ADD) IS_ADD a b = some row ∧ OneRow IS_ADD row a b 0 (BinaryOp.add.result a b) := by
  have h1 : (overflowingAdd a b).1 < 2 ^ 256 := Nat.mod_lt _ (by norm_num)
  have h2 : (overflowingAdd a b).2 ≤ 1 := by unfold overflowingAdd; dsimp only; split <;> omega
  have hs : a + b = (overflowingAdd a b).1 + (overflowingAdd a b).2 * 2 ^ 256 := by
    unfold overflowingAdd
    dsimp only
    split
    · rw [Nat.mod_eq_of_lt (by omega)]; omega
    · rw [Nat.mod_eq_sub_mod (by omega), Nat.mod_eq_of_lt (by omega)]; omega
  refine ⟨_, rfl, genAddcy_row (by decide) ha hb h1 ?_⟩
  intro lv hfl r0 r1 r3 r4 nv
  refine ops_of_part hfl (fun p hp hf => ?_)
  simp only [parts, List.mem_cons, List.not_mem_nil, or_false] at hp
  rcases hp with rfl | rfl | rfl | rfl | rfl | rfl | rfl | rfl | rfl | rfl | rfl <;> dsimp only at hf ⊢ <;> first | exact absurd hf (by decide) | skip
  simp only [hfl IS_ADD (by decide), flagRow_self]
  exact addcy_row r0 r1 r4 r3 ha hb h1 h2 hs

theorem sub_gen {a b : ℕ} (ha : a < 2 ^ 256) (hb : b < 2 ^ 256) :
    ∃ row, genAddcy (flagRow IS_SUB) IS_SUB a b = some row ∧ OneRow IS_SUB row a b 0 (BinaryOp.sub.result a b) := by
  have h1 := overflowingSub_lt a b
  refine ⟨_, rfl, genAddcy_row (by decide) ha hb h1.1 ?_⟩
  intro lv hfl r0 r1 r3 r4 nv
  refine ops_of_part hfl (fun p hp hf => ?_)
  simp only [parts, List.mem_cons, List.not_mem_nil, or_false] at hp
  rcases hp with rfl | rfl | rfl | rfl | rfl | rfl | rfl | rfl | rfl | rfl | rfl <;> dsimp only at hf ⊢ <;> first | exact absurd hf (by decide) | skip
  simp only [hfl IS_SUB (by decide), flagRow_self]
  exact addcy_row r1 r4 r0 r3 hb h1.1 ha h1.2 (sub_sum ha hb)

theorem lt_gen {a b : ℕ} (ha : a < 2 ^ 256) (hb : b < 2 ^ 256) :
    ∃ row, genAddcy (flagRow IS_LT) IS_LT a b = some row ∧ OneRow IS_LT row a b 0 (BinaryOp.lt.result a b) := by
  have h1 := overflowingSub_lt a b
  refine ⟨_, rfl, genAddcy_row (by decide) ha hb (h1.2.trans_lt (by norm_num)) ?_⟩
  intro lv hfl r0 r1 r3 r4 nv
  refine ops_of_part hfl (fun p hp hf => ?_)
  simp only [parts, List.mem_cons, List.not_mem_nil, or_false] at hp
  rcases hp with rfl | rfl | rfl | rfl | rfl | rfl | rfl | rfl | rfl | rfl | rfl <;> dsimp only at hf ⊢ <;> first | exact absurd hf (by decide) | skip
  simp only [hfl IS_LT (by decide), flagRow_self]
  exact addcy_row r1 r3 r0 r4 hb h1.1 ha h1.2 (sub_sum ha hb)

theorem gt_gen {a b : ℕ} (ha : a < 2 ^ 256) (hb : b < 2 ^ 256) :
    ∃ row, genAddcy (flagRow IS_GT) IS_GT a b = some row ∧ OneRow IS_GT row a b 0 (BinaryOp.gt.result a b) := by
  have h1 := overflowingSub_lt b a
  refine ⟨_, rfl, genAddcy_row (by decide) ha hb (h1.2.trans_lt (by norm_num)) ?_⟩
  intro lv hfl r0 r1 r3 r4 nv
  refine ops_of_part hfl (fun p hp hf => ?_)
  simp only [parts, List.mem_cons, List.not_mem_nil, or_false] at hp
  rcases hp with rfl | rfl | rfl | rfl | rfl | rfl | rfl | rfl | rfl | rfl | rfl <;> dsimp only at hf ⊢ <;> first | exact absurd hf (by decide) | skip
  simp only [hfl IS_GT (by decide), flagRow_self]
  exact addcy_row r0 r3 r1 r4 ha h1.1 hb h1.2 (sub_sum hb ha)

/-! ### MUL and SHL -/

theorem mulOut_bound (prod : Limbs ℤ) (i : ℕ) : 0 ≤ mulOut prod i ∧ mulOut prod i < 65536 := by unfold mulOut; omega

theorem int_val_lt {x : ℤ} (h : 0 ≤ x ∧ x < 65536) : ((x : ℤ) : F).val < 65536 := by
  exact val_int h.1 h.2 (by decide)

theorem RowOk.mul {fl row : Row F} (h : RowOk fl row) (x y : Limbs ℤ) : RowOk fl (genMulLimbs row x y) :=
  ((h.setReg (by decide) (fun i _ => int_val_lt (mulOut_bound _ i))).setReg (by decide) (fun i _ => lo16_lt _)).setReg (by decide) (fun i _ => hi16_lt _)

theorem genMul_complete {row lv : Row F} (hr : Ranged row) {x y : ℕ} (hx : x = 18 ∨ x = 34) (hy : y = 34 ∨ y = 50)
    (ha : Agrees lv (genMulLimbs row (limbs row x) (limbs row y))) : AllZero (evalMulWith lv 1 (reg lv x) (reg lv y)) := by
  have hxs : InShared x := by rcases hx with rfl | rfl <;> exact ⟨by decide, by decide⟩
  have hys : InShared y := by rcases hy with rfl | rfl <;> exact ⟨by decide, by decide⟩
  refine mul_complete (X := limbs row x) (Y := limbs row y) (fun i hi => ?_) (fun i hi => ?_) (limbs_ok hr hxs) (limbs_ok hr hys) ?_ ?_ ?_
  · rw [← limbs_cast]
    simp only [nLimbs] at hi
    unfold reg
    rw [ha _ (by omega)]
    unfold genMulLimbs
    rcases hx with rfl | rfl <;> cells
  · rw [← limbs_cast]
    simp only [nLimbs] at hi
    unfold reg
    rw [ha _ (by omega)]
    unfold genMulLimbs
    rcases hy with rfl | rfl <;> cells
  all_goals
    simp only [nLimbs]
    intro i hi
    rw [ha _ (by regs; omega)]
    unfold genMulLimbs
    cells

theorem num_congr {row row' : Row F} {s : ℕ} (h : ∀ i < nLimbs, row (s + i) = row' (s + i)) : num row s = num row' s := by
  unfold num; exact sum_congr rfl (fun i hi => by rw [h i (mem_range.1 hi)])

theorem mul_gen {a b : ℕ} (ha : a < 2 ^ 256) (hb : b < 2 ^ 256) : OneRow IS_MUL (genMul (flagRow IS_MUL) a b) a b 0 (BinaryOp.mul.result a b) := by
  have ok0 : RowOk (flagRow IS_MUL) (setU256 (setU256 (setU256 (flagRow IS_MUL) INPUT_REGISTER_0 a) INPUT_REGISTER_1 b) INPUT_REGISTER_2 0) :=
    ((((RowOk.flag (by decide)).setU256 _ (by decide)).setU256 _ (by decide)).setU256 _ (by decide))
  have ok : RowOk (flagRow IS_MUL) (genMul (flagRow IS_MUL) a b) := ok0.mul _ _
  have sat : ∀ lv, Agrees lv (genMul (flagRow IS_MUL) a b) → AllZero (evalMulWith lv 1 (reg lv INPUT_REGISTER_0) (reg lv INPUT_REGISTER_1)) := by
    intro lv hlv
    exact genMul_complete ok0.ranged (.inl rfl) (.inl rfl) hlv
  have h0 : num (genMul (flagRow IS_MUL) a b) INPUT_REGISTER_0 = a := num_u256 (by simp only [nLimbs]; intro i hi; unfold genMul genMulLimbs; cells) ha
  have h1 : num (genMul (flagRow IS_MUL) a b) INPUT_REGISTER_1 = b := num_u256 (by simp only [nLimbs]; intro i hi; unfold genMul genMulLimbs; cells) hb
  have h2 : num (genMul (flagRow IS_MUL) a b) INPUT_REGISTER_2 = 0 := num_u256 (by simp only [nLimbs]; intro i hi; unfold genMul genMulLimbs; cells) (by norm_num)
  refine ⟨ok, fun lv hlv nv => ?_, h0, h1, h2, ?_⟩
  · have hfl := (ok.agrees hlv).flags
    refine ops_of_part hfl (fun p hp hf => ?_)
    simp only [parts, List.mem_cons, List.not_mem_nil, or_false] at hp
    rcases hp with rfl | rfl | rfl | rfl | rfl | rfl | rfl | rfl | rfl | rfl | rfl <;> dsimp only at hf ⊢ <;> first | exact absurd hf (by decide) | skip
    unfold evalMul
    simp only [hfl IS_MUL (by decide), flagRow_self]
    exact sat lv hlv
  · rw [mulWith_sound ok.ranged (by decide) (by decide) (sat _ (agrees_self _)), h0, h1]; rfl

/-- What SHL and SHR show as their third input. -/
def shiftBy (s : ℕ) : ℕ := if s < 256 then 2 ^ s else 0

theorem shiftBy_lt (s : ℕ) : shiftBy s < 2 ^ 256 := by
  unfold shiftBy
  split
  · exact Nat.pow_lt_pow_right (by decide) (by assumption)
  · norm_num

theorem shiftInputs_eq (lv : Row F) (s x r : ℕ) : shiftInputs lv s x r = setU256 (setU256 (setU256 (setU256 lv INPUT_REGISTER_0 s) INPUT_REGISTER_1 x)
    OUTPUT_REGISTER r) INPUT_REGISTER_2 (shiftBy s) := by
  unfold shiftInputs shiftBy
  by_cases h : s < 256
  · rw [if_pos h, if_neg (by omega), one_mul]
  · rw [if_neg h, if_pos (by omega)]

theorem shl_gen {a b : ℕ} (ha : a < 2 ^ 256) (hb : b < 2 ^ 256) (r : ℕ) :
    OneRow IS_SHL (genShl (flagRow IS_SHL) a b r) a b (shiftBy a) (BinaryOp.shl.result a b) := by
  have ok0 : RowOk (flagRow IS_SHL) (shiftInputs (flagRow IS_SHL) a b r) := by
    rw [shiftInputs_eq]
    exact ((((RowOk.flag (by decide)).setU256 _ (by decide)).setU256 _ (by decide)).setU256 _ (by decide)).setU256 _ (by decide)
  have ok : RowOk (flagRow IS_SHL) (genShl (flagRow IS_SHL) a b r) := ok0.mul _ _
  have sat : ∀ lv, Agrees lv (genShl (flagRow IS_SHL) a b r) → AllZero (evalMulWith lv 1 (reg lv INPUT_REGISTER_1) (reg lv INPUT_REGISTER_2)) := by
    intro lv hlv
    exact genMul_complete ok0.ranged (.inr rfl) (.inr rfl) hlv
  have h0 : num (genShl (flagRow IS_SHL) a b r) INPUT_REGISTER_0 = a :=
    num_u256 (by simp only [nLimbs]; intro i hi; unfold genShl genMulLimbs; rw [shiftInputs_eq]; cells) ha
  have h1 : num (genShl (flagRow IS_SHL) a b r) INPUT_REGISTER_1 = b :=
    num_u256 (by simp only [nLimbs]; intro i hi; unfold genShl genMulLimbs; rw [shiftInputs_eq]; cells) hb
  have h2 : num (genShl (flagRow IS_SHL) a b r) INPUT_REGISTER_2 = shiftBy a :=
    num_u256 (by simp only [nLimbs]; intro i hi; unfold genShl genMulLimbs; rw [shiftInputs_eq]; cells) (shiftBy_lt a)
  refine ⟨ok, fun lv hlv nv => ?_, h0, h1, h2, ?_⟩
  · have hfl := (ok.agrees hlv).flags
    refine ops_of_part hfl (fun p hp hf => ?_)
    simp only [parts, List.mem_cons, List.not_mem_nil, or_false] at hp
    rcases hp with rfl | rfl | rfl | rfl | rfl | rfl | rfl | rfl | rfl | rfl | rfl <;> dsimp only at hf ⊢ <;> first | exact absurd hf (by decide) | skip
    simp only [hfl IS_SHL (by decide), flagRow_self]
    exact sat lv hlv
  · rw [mulWith_sound ok.ranged (by decide) (by decide) (sat _ (agrees_self _)), h1, h2]
    unfold shiftBy BinaryOp.result
    dsimp only
    split <;> simp

end Verif.Stark.Arith
