import Verif.Stark.Arith.GenRows

/-! The row generated for BYTE. -/

namespace Verif.Stark.Arith

open Finset

theorem nat_val {k : ℕ} (h : k < 65536) : ((k : ℕ) : F).val = k := by
  rw [ZMod.val_natCast, Nat.mod_eq_of_lt (h.trans (by decide))]

theorem nat_val_lt {k : ℕ} (h : k < 65536) : ((k : ℕ) : F).val < 65536 := by rw [nat_val h]; exact h

theorem sel_bit (b : Bool) (x y : F) : sel (if b then (1 : F) else 0) x y = if b then x else y := by
  cases b
  · simp [sel_zero]
  · simp [sel_one]

/-- The offset in a level of the tree. -/
def off (idx k : ℕ) : ℕ := if idx.testBit k then 0 else 1

theorem bits_sum (n : ℕ) : n % 32 = (if n.testBit 0 then 1 else 0) * 1 + (if n.testBit 1 then 1 else 0) * 2 + (if n.testBit 2 then 1 else 0) * 4 +
    (if n.testBit 3 then 1 else 0) * 8 + (if n.testBit 4 then 1 else 0) * 16 := by
  have h : ∀ k, (if n.testBit k then 1 else 0) = n / 2 ^ k % 2 := by
    intro k
    rw [Nat.testBit_eq_decide_div_mod_eq]
    simp only [decide_eq_true_eq]
    split <;> omega
  rw [h, h, h, h, h]
  norm_num
  omega

/-- The sum of the high limbs of the index vanishes only for an index below 32. -/
theorem hiSum_zero {lv : Row F} {idx : ℕ} (hi : idx < 2 ^ 256) (hidx : ∀ i < nLimbs, lv (INPUT_REGISTER_0 + i) = u256Limbs idx i)
    (hhi : lv BYTE_IDX_DECOMP_HI = ((idx % 65536 / 32 : ℕ) : F)) : hiLimbSum lv = 0 ↔ idx < 32 := by
  have hs : hiLimbSum lv = ((idx % 65536 / 32 + ∑ i ∈ range 15, idx / 65536 ^ (i + 1) % 65536 : ℕ) : F) := by
    unfold hiLimbSum
    rw [hhi, sum_range_map]
    push_cast
    congr 1
    refine sum_congr rfl (fun i hi => ?_)
    have := mem_range.1 hi
    rw [reg, hidx (i + 1) (by simp only [nLimbs] at *; omega)]
    unfold u256Limbs
    push_cast
    rfl
  have hb : ∑ i ∈ range 15, idx / 65536 ^ (i + 1) % 65536 ≤ 15 * 65536 := by
    refine (sum_le_card_nsmul _ _ 65536 (fun i _ => (Nat.mod_lt _ (by decide)).le)).trans (by simp)
  rw [hs]
  constructor
  · intro h
    have h0 : idx % 65536 / 32 + ∑ i ∈ range 15, idx / 65536 ^ (i + 1) % 65536 = 0 :=
      lift_nat (b := 0) (by rw [h]; simp) (by
        have : (65536 + 15 * 65536 : ℕ) < P := by decide
        omega) (by decide)
    have h1 : ∀ i ∈ range 15, idx / 65536 ^ (i + 1) % 65536 = 0 := (sum_eq_zero_iff).1 (by omega)
    have h2 := digits_sum idx 16
    rw [Nat.mod_eq_of_lt (hi.trans_eq (by norm_num)), sum_range_succ', sum_eq_zero (fun i hi => by rw [h1 i hi, zero_mul])] at h2
    simp only [pow_zero, Nat.div_one, mul_one, zero_add] at h2
    omega
  · intro h
    rw [Nat.mod_eq_of_lt (by omega), Nat.div_eq_of_lt h, zero_add, sum_eq_zero, Nat.cast_zero]
    intro i _
    rw [Nat.div_eq_of_lt, Nat.zero_mod]
    have : (65536 : ℕ) ^ 1 ≤ 65536 ^ (i + 1) := Nat.pow_le_pow_right (by decide) (by omega)
    omega

/-- The inverse in limbs. -/
theorem inv_limbs {n : ℕ} (h : n < 2 ^ 64) : n % 65536 + n / 2 ^ 16 % 65536 * 65536 + n / 2 ^ 32 % 65536 * 4294967296 + n / 2 ^ 48 % 65536 * 281474976710656 = n := by
  omega

theorem byte_complete {lv : Row F} {idx t out inv : ℕ} (hi : idx < 2 ^ 256) (ht : t < 65536) (hf : lv IS_BYTE = 1)
    (hidx : ∀ i < nLimbs, lv (INPUT_REGISTER_0 + i) = u256Limbs idx i)
    (hdec : ∀ i < 5, lv (AUX_INPUT_REGISTER_0 + i) = if idx.testBit i then 1 else 0)
    (hhi : lv BYTE_IDX_DECOMP_HI = ((idx % 65536 / 32 : ℕ) : F))
    (t3 : ∀ i < 8, lv (AUX_INPUT_REGISTER_1 + i) = lv (INPUT_REGISTER_1 + off idx 4 * 8 + i))
    (t2 : ∀ i < 4, lv (AUX_INPUT_REGISTER_1 + 8 + i) = lv (AUX_INPUT_REGISTER_1 + off idx 3 * 4 + i))
    (t1 : ∀ i < 2, lv (AUX_INPUT_REGISTER_1 + 12 + i) = lv (AUX_INPUT_REGISTER_1 + 8 + off idx 2 * 2 + i))
    (t0 : lv (AUX_INPUT_REGISTER_1 + 14) = lv (AUX_INPUT_REGISTER_1 + 12 + off idx 1))
    (htv : lv (AUX_INPUT_REGISTER_1 + 14) = (t : F))
    (hlo : lv BYTE_LAST_LIMB_LO = ((t % 256 * 256 : ℕ) : F)) (hhi' : lv BYTE_LAST_LIMB_HI = ((t / 256 : ℕ) : F))
    (ho : out = if idx.testBit 0 then t % 256 else t / 256) (h15 : lv (AUX_INPUT_REGISTER_1 + 15) = (out : F))
    (hinv : inv = hiLimbSumInv (hiLimbSum lv))
    (i0 : lv BYTE_IDX_HI_LIMB_SUM_INV_0 = ((inv % 65536 : ℕ) : F)) (i1 : lv BYTE_IDX_HI_LIMB_SUM_INV_1 = ((inv / 2 ^ 16 % 65536 : ℕ) : F))
    (i2 : lv BYTE_IDX_HI_LIMB_SUM_INV_2 = ((inv / 2 ^ 32 % 65536 : ℕ) : F)) (i3 : lv BYTE_IDX_HI_LIMB_SUM_INV_3 = ((inv / 2 ^ 48 % 65536 : ℕ) : F))
    (hl : lv BYTE_IDX_IS_LARGE = if hiLimbSum lv = 0 then 0 else 1)
    (hout : ∀ i < nLimbs, lv (OUTPUT_REGISTER + i) = u256Limbs (if idx < 32 then out else 0) i) : AllZero (evalByte lv) := by
  have hz := hiSum_zero hi hidx hhi
  have hlimb : sel (lv (AUX_INPUT_REGISTER_0 + 1)) (lv (AUX_INPUT_REGISTER_1 + 12)) (lv (AUX_INPUT_REGISTER_1 + 13)) = (t : F) := by
    rw [hdec 1 (by decide), sel_bit, ← htv, t0]
    unfold off
    split <;> rfl
  have hout_lt : out < 256 := by
    rw [ho]
    split <;> omega
  have hinv_eq : lv BYTE_IDX_HI_LIMB_SUM_INV_0 + lv BYTE_IDX_HI_LIMB_SUM_INV_1 * 65536 + lv BYTE_IDX_HI_LIMB_SUM_INV_2 * 4294967296 +
      lv BYTE_IDX_HI_LIMB_SUM_INV_3 * 281474976710656 = (inv : F) := by
    have hlt : inv < 2 ^ 64 := by
      rw [hinv]; unfold hiLimbSumInv
      exact (ZMod.val_lt _).trans (by decide)
    rw [i0, i1, i2, i3]
    conv_rhs => rw [← inv_limbs hlt]
    push_cast
    ring
  have hinv' : (inv : F) = if hiLimbSum lv = 0 then 1 else (hiLimbSum lv)⁻¹ := by
    rw [hinv]; unfold hiLimbSumInv; exact ZMod.natCast_zmod_val _
  unfold evalByte
  dsimp only
  rw [hf]
  refine AllZero.append (AllZero.append (AllZero.append (AllZero.append (AllZero.append (AllZero.append (.map fun i hi => ?_) ?_) (.map fun i hi => ?_))
    (.map fun i hi => ?_)) (.map fun i hi => ?_)) ?_) (.map fun i hi => ?_)
  · rw [reg, hdec i hi]; split <;> ring
  · intro c hc
    simp only [List.mem_singleton] at hc
    subst hc
    dsimp only
    have e : u256Limbs idx 0 = (((idx % 32 : ℕ) : F) + ((idx % 65536 / 32 : ℕ) : F) * 32) := by
      unfold u256Limbs
      have : idx / base ^ 0 % base = idx % 32 + idx % 65536 / 32 * 32 := by simp only [pow_zero, Nat.div_one, base]; omega
      rw [this]; push_cast; rfl
    simp only [reg]
    rw [hidx 0 (by decide), hdec 0 (by decide), hdec 1 (by decide), hdec 2 (by decide), hdec 3 (by decide), hdec 4 (by decide),
      show AUX_INPUT_REGISTER_0 + 5 = BYTE_IDX_DECOMP_HI from rfl, hhi, e, bits_sum]
    push_cast
    ring
  · simp only [reg]
    rw [t3 i hi, hdec 4 (by decide), sel_bit]
    unfold off
    split
    · ring
    · rw [one_mul, show INPUT_REGISTER_1 + 1 * 8 + i = INPUT_REGISTER_1 + (i + 8) by ring]; ring
  · simp only [reg]
    rw [show AUX_INPUT_REGISTER_1 + (i + 8) = AUX_INPUT_REGISTER_1 + 8 + i by ring, t2 i hi, hdec 3 (by decide), sel_bit]
    unfold off
    split
    · ring
    · rw [one_mul, show AUX_INPUT_REGISTER_1 + 1 * 4 + i = AUX_INPUT_REGISTER_1 + (i + 4) by ring]; ring
  · simp only [reg]
    rw [show AUX_INPUT_REGISTER_1 + (i + 12) = AUX_INPUT_REGISTER_1 + 12 + i by ring, t1 i hi, hdec 2 (by decide), sel_bit]
    unfold off
    split
    · rw [show AUX_INPUT_REGISTER_1 + 8 + 0 * 2 + i = AUX_INPUT_REGISTER_1 + (i + 8) by ring]; ring
    · rw [one_mul, show AUX_INPUT_REGISTER_1 + 8 + 1 * 2 + i = AUX_INPUT_REGISTER_1 + (i + 10) by ring]; ring
  · intro c hc
    simp only [List.mem_cons, List.not_mem_nil, or_false] at hc
    simp only [reg] at hc
    rw [hlimb, hinv_eq, hinv', hl, hlo, hhi', h15, htv, hdec 0 (by decide), hout 0 (by decide)] at hc
    have htF : (t : F) = ((t % 256 : ℕ) : F) + 256 * ((t / 256 : ℕ) : F) := by
      conv_lhs => rw [← Nat.mod_add_div t 256]
      push_cast; rfl
    rcases hc with rfl | rfl | rfl | rfl | rfl | rfl | rfl <;> dsimp only
    · ring
    · rw [htF]; push_cast; ring
    · rw [ho]; split <;> push_cast <;> ring
    · split <;> ring
    · split
      · rename_i h; rw [h]; ring
      · ring
    · split
      · rename_i h; rw [h]; ring
      · rename_i h; rw [mul_inv_cancel₀ h]; ring
    · unfold u256Limbs
      by_cases h : idx < 32
      · rw [if_pos h, if_pos (hz.2 h), pow_zero, Nat.div_one, Nat.mod_eq_of_lt (by simp only [base]; omega)]; ring
      · rw [if_neg h, if_neg (fun h' => h (hz.1 h'))]; simp
  · simp only [reg]
    rw [hout (i + 1) (by simp only [nLimbs] at *; omega)]
    unfold u256Limbs
    rw [Nat.div_eq_of_lt]
    · simp
    · have : base ^ 1 ≤ base ^ (i + 1) := Nat.pow_le_pow_right (by decide) (by omega)
      simp only [base] at this ⊢
      split <;> omega

theorem RowOk.copy {fl row : Row F} (h : RowOk fl row) {src len dest : ℕ} (h1 : 18 ≤ src) (h2 : src + len ≤ 114) (hd : 18 ≤ dest) :
    RowOk fl (copyWithin row src len dest) :=
  h.setReg hd (fun i hi => h.ranged _ (by simp only [START_SHARED_COLS]; omega) (by simp only [START_SHARED_COLS, NUM_SHARED_COLS]; omega))

theorem off_le (idx k : ℕ) : off idx k ≤ 1 := by unfold off; split <;> omega

theorem RowOk.level {fl row : Row F} (h : RowOk fl row) {idx k src dest : ℕ} (h1 : 18 ≤ src) (h2 : src + 2 * 2 ^ k ≤ 114) (hd : 18 ≤ dest) :
    RowOk fl (treeLevel row idx k src dest) := by
  unfold treeLevel
  have := off_le idx (k + 1)
  have e : (if idx.testBit (k + 1) then 0 else 1) = off idx (k + 1) := rfl
  rw [e]
  have : off idx (k + 1) * 2 ^ k ≤ 1 * 2 ^ k := Nat.mul_le_mul_right _ this
  exact h.copy (by omega) (by omega) hd

/-! The row in stages. -/

def byteA (idx val : ℕ) : Row F := setIdxDecomp (setU256 (setU256 (flagRow IS_BYTE) INPUT_REGISTER_0 idx) INPUT_REGISTER_1 val) idx

def byteB (idx val : ℕ) : Row F :=
  let lv := byteA idx val
  let inv := hiLimbSumInv (hiLimbSum (byteA idx val))
  let lv := setCol lv 91 ((inv % 65536 : ℕ) : F)
  let lv := setCol lv 92 ((inv / 2 ^ 16 % 65536 : ℕ) : F)
  let lv := setCol lv 93 ((inv / 2 ^ 32 % 65536 : ℕ) : F)
  let lv := setCol lv 94 ((inv / 2 ^ 48 % 65536 : ℕ) : F)
  setCol lv 90 (if hiLimbSum (byteA idx val) = 0 then 0 else 1)

def byteC (idx val : ℕ) : Row F := setReg (byteB idx val) 98 8 (fun i => byteB idx val (34 + off idx 4 * 8 + i))
def byteD (idx val : ℕ) : Row F := setReg (byteC idx val) 106 4 (fun i => byteC idx val (98 + off idx 3 * 4 + i))
def byteE (idx val : ℕ) : Row F := setReg (byteD idx val) 110 2 (fun i => byteD idx val (106 + off idx 2 * 2 + i))
def byteG (idx val : ℕ) : Row F := setReg (byteE idx val) 112 1 (fun i => byteE idx val (110 + off idx 1 * 1 + i))

/-- The limb and the byte selected. -/
def byteT (idx val : ℕ) : ℕ := (byteG idx val 112).val
def byteO (idx val : ℕ) : ℕ := if idx.testBit 0 then byteT idx val % 256 else byteT idx val / 256

def byteH (idx val : ℕ) : Row F := setCol (setCol (setCol (byteG idx val) 88 ((byteT idx val % 256 * 256 : ℕ) : F)) 89 ((byteT idx val / 256 : ℕ) : F)) 113
  ((byteO idx val : ℕ) : F)

theorem genByte_eq (idx val : ℕ) : genByte (flagRow IS_BYTE) idx val = setU256 (byteH idx val) 66 (if idx < 32 then byteO idx val else 0) := rfl

theorem byteA_ok (idx val : ℕ) : RowOk (flagRow IS_BYTE) (byteA idx val) := by
  have h1 : (1 : F).val < 65536 := by decide +kernel
  refine ((((RowOk.flag (by decide)).setU256 _ (by decide)).setU256 _ (by decide)).setReg (by decide) (fun i _ => ?_)).setCol (by decide) (nat_val_lt (by omega))
  split
  · exact h1
  · simp

theorem byteB_ok (idx val : ℕ) : RowOk (flagRow IS_BYTE) (byteB idx val) := by
  have h1 : (1 : F).val < 65536 := by decide +kernel
  refine (((((byteA_ok idx val).setCol (by decide) (nat_val_lt (Nat.mod_lt _ (by decide)))).setCol (by decide) (nat_val_lt (Nat.mod_lt _ (by decide)))).setCol
    (by decide) (nat_val_lt (Nat.mod_lt _ (by decide)))).setCol (by decide) (nat_val_lt (Nat.mod_lt _ (by decide)))).setCol (by decide) ?_
  split
  · simp
  · exact h1

theorem byteG_ok (idx val : ℕ) : RowOk (flagRow IS_BYTE) (byteG idx val) := by
  have hc : RowOk (flagRow IS_BYTE) (byteC idx val) := (byteB_ok idx val).level (idx := idx) (k := 3) (src := 34) (by decide) (by decide) (by decide)
  have hd : RowOk (flagRow IS_BYTE) (byteD idx val) := hc.level (idx := idx) (k := 2) (src := 98) (by decide) (by decide) (by decide)
  have he : RowOk (flagRow IS_BYTE) (byteE idx val) := hd.level (idx := idx) (k := 1) (src := 106) (by decide) (by decide) (by decide)
  exact he.level (idx := idx) (k := 0) (src := 110) (by decide) (by decide) (by decide)

theorem byteT_lt (idx val : ℕ) : byteT idx val < 65536 := (byteG_ok idx val).ranged 112 (by decide) (by decide)

theorem byteO_lt (idx val : ℕ) : byteO idx val < 256 := by
  have := byteT_lt idx val
  unfold byteO; split <;> omega

theorem genByte_ok (idx val : ℕ) : RowOk (flagRow IS_BYTE) (genByte (flagRow IS_BYTE) idx val) := by
  rw [genByte_eq]
  have h1 := byteT_lt idx val
  have h2 := byteO_lt idx val
  exact ((((byteG_ok idx val).setCol (by decide) (nat_val_lt (by omega))).setCol (by decide) (nat_val_lt (by omega))).setCol (by decide)
    (nat_val_lt (by omega))).setU256 _ (by decide)

theorem reg_offset {row : Row F} {s n c : ℕ} (v : Limbs F) (h1 : s ≤ c) (h2 : c < s + n) : setReg row s n v c = v (c - s) := by
  unfold setReg; rw [if_pos ⟨h1, h2⟩]

/-- Cells that the later stages do not write. -/
theorem byte_keepA {idx val c : ℕ} (h : c < 66 ∨ (82 ≤ c ∧ c < 88)) : genByte (flagRow IS_BYTE) idx val c = byteA idx val c := by
  rw [genByte_eq]
  unfold byteH byteG byteE byteD byteC byteB
  cells

theorem byte_keepB {idx val c : ℕ} (h : c < 66 ∨ (82 ≤ c ∧ c < 88) ∨ (90 ≤ c ∧ c < 98)) : genByte (flagRow IS_BYTE) idx val c = byteB idx val c := by
  rw [genByte_eq]
  unfold byteH byteG byteE byteD byteC
  cells

theorem byte_keepC {idx val c : ℕ} (h : 98 ≤ c ∧ c < 106) : genByte (flagRow IS_BYTE) idx val c = byteC idx val c := by
  rw [genByte_eq]
  unfold byteH byteG byteE byteD
  cells

theorem byte_keepD {idx val c : ℕ} (h : 98 ≤ c ∧ c < 110) : genByte (flagRow IS_BYTE) idx val c = byteD idx val c := by
  rw [genByte_eq]
  unfold byteH byteG byteE
  cells

theorem byte_keepE {idx val c : ℕ} (h : 98 ≤ c ∧ c < 112) : genByte (flagRow IS_BYTE) idx val c = byteE idx val c := by
  rw [genByte_eq]
  unfold byteH byteG
  cells

theorem byte_keepG {idx val c : ℕ} (h : 98 ≤ c ∧ c < 113) : genByte (flagRow IS_BYTE) idx val c = byteG idx val c := by
  rw [genByte_eq]
  unfold byteH
  cells

theorem byteA_cells (idx val : ℕ) : (∀ i < nLimbs, byteA idx val (INPUT_REGISTER_0 + i) = u256Limbs idx i) ∧
    (∀ i < nLimbs, byteA idx val (INPUT_REGISTER_1 + i) = u256Limbs val i) ∧ (∀ i < nLimbs, byteA idx val (INPUT_REGISTER_2 + i) = u256Limbs 0 i) ∧
    (∀ i < 5, byteA idx val (AUX_INPUT_REGISTER_0 + i) = if idx.testBit i then 1 else 0) ∧ byteA idx val 87 = ((idx % 65536 / 32 : ℕ) : F) := by
  simp only [nLimbs]
  refine ⟨fun i hi => ?_, fun i hi => ?_, fun i hi => ?_, fun i hi => ?_, ?_⟩ <;> unfold byteA setIdxDecomp BYTE_IDX_DECOMP_HI <;> cells
  unfold flagRow u256Limbs
  rw [if_neg (by simp only [IS_BYTE]; omega)]
  simp

theorem hiSum_congr {a b : Row F} (h : ∀ c < 114, c < 66 ∨ (82 ≤ c ∧ c < 88) → a c = b c) : hiLimbSum a = hiLimbSum b := by
  unfold hiLimbSum
  rw [h _ (by decide) (by decide), sum_range_map, sum_range_map]
  congr 1
  refine sum_congr rfl (fun i hi => ?_)
  have := mem_range.1 hi
  simp only [nLimbs] at this
  unfold reg
  exact h _ (by regs; omega) (by regs; omega)

theorem byte_sat {idx val : ℕ} (hi : idx < 2 ^ 256) {lv : Row F} (ha : Agrees lv (genByte (flagRow IS_BYTE) idx val)) : AllZero (evalByte lv) := by
  obtain ⟨a1, -, -, a3, a4⟩ := byteA_cells idx val
  have kA : ∀ c, c < 66 ∨ (82 ≤ c ∧ c < 88) → lv c = byteA idx val c := fun c h => by rw [ha c (by omega), byte_keepA h]
  have kB : ∀ c, c < 66 ∨ (82 ≤ c ∧ c < 88) ∨ (90 ≤ c ∧ c < 98) → lv c = byteB idx val c := fun c h => by rw [ha c (by omega), byte_keepB h]
  have kC : ∀ c, 98 ≤ c ∧ c < 106 → lv c = byteC idx val c := fun c h => by rw [ha c (by omega), byte_keepC h]
  have kD : ∀ c, 98 ≤ c ∧ c < 110 → lv c = byteD idx val c := fun c h => by rw [ha c (by omega), byte_keepD h]
  have kE : ∀ c, 98 ≤ c ∧ c < 112 → lv c = byteE idx val c := fun c h => by rw [ha c (by omega), byte_keepE h]
  have kG : ∀ c, 98 ≤ c ∧ c < 113 → lv c = byteG idx val c := fun c h => by rw [ha c (by omega), byte_keepG h]
  have hsum : hiLimbSum lv = hiLimbSum (byteA idx val) := hiSum_congr (fun c _ h => kA c h)
  have o1 := off_le idx 1
  have o2 := off_le idx 2
  have o3 := off_le idx 3
  have o4 := off_le idx 4
  refine byte_complete (idx := idx) (t := byteT idx val) (out := byteO idx val) (inv := hiLimbSumInv (hiLimbSum (byteA idx val))) hi (byteT_lt idx val)
    ?_ (fun i hi => ?_) (fun i hi => ?_) ?_ (fun i hi => ?_) (fun i hi => ?_) (fun i hi => ?_) ?_ ?_ ?_ ?_ rfl ?_ (by rw [hsum]) ?_ ?_ ?_ ?_ ?_ (fun i hi => ?_)
  · rw [kA _ (by decide), (byteA_ok idx val).flags _ (by decide)]; exact flagRow_self _
  · rw [kA _ (by simp only [nLimbs] at hi; regs; omega), a1 i hi]
  · rw [kA _ (by regs; omega), a3 i hi]
  · rw [kA _ (by decide)]; exact a4
  · rw [kC _ (by regs; omega), kB _ (by regs; omega)]
    unfold byteC
    cells
  · rw [kD _ (by regs; omega), kC _ (by regs; omega)]
    unfold byteD
    cells
  · rw [kE _ (by regs; omega), kD _ (by regs; omega)]
    unfold byteE
    cells
  · rw [kG _ (by regs; omega), kE _ (by regs; omega)]
    unfold byteG
    rw [reg_offset _ (by regs; omega) (by regs; omega)]
    congr 1
    simp only [AUX_INPUT_REGISTER_1]
    omega
  · rw [kG _ (by regs; omega)]
    unfold byteT
    exact (ZMod.natCast_zmod_val _).symm
  · rw [ha _ (by decide), genByte_eq]
    unfold byteH BYTE_LAST_LIMB_LO
    cells
  · rw [ha _ (by decide), genByte_eq]
    unfold byteH BYTE_LAST_LIMB_HI
    cells
  · rw [ha _ (by decide), genByte_eq]
    unfold byteH
    cells
  · rw [kB _ (by decide)]; unfold byteB BYTE_IDX_HI_LIMB_SUM_INV_0; cells
  · rw [kB _ (by decide)]; unfold byteB BYTE_IDX_HI_LIMB_SUM_INV_1; cells
  · rw [kB _ (by decide)]; unfold byteB BYTE_IDX_HI_LIMB_SUM_INV_2; cells
  · rw [kB _ (by decide)]; unfold byteB BYTE_IDX_HI_LIMB_SUM_INV_3; cells
  · rw [kB _ (by decide), hsum]; unfold byteB BYTE_IDX_IS_LARGE; cells
  · simp only [nLimbs] at hi
    rw [ha _ (by regs; omega), genByte_eq]
    cells

theorem byte_gen {a b : ℕ} (ha : a < 2 ^ 256) (hb : b < 2 ^ 256) :
    OneRow IS_BYTE (genByte (flagRow IS_BYTE) a b) a b 0 (BinaryOp.byte.result a b) := by
  have ok := genByte_ok a b
  obtain ⟨a1, a2, a3, -, -⟩ := byteA_cells a b
  have h0 : num (genByte (flagRow IS_BYTE) a b) INPUT_REGISTER_0 = a :=
    num_u256 (fun i hi => by rw [byte_keepA (by simp only [nLimbs] at hi; regs; omega), a1 i hi]) ha
  have h1 : num (genByte (flagRow IS_BYTE) a b) INPUT_REGISTER_1 = b :=
    num_u256 (fun i hi => by rw [byte_keepA (by simp only [nLimbs] at hi; regs; omega), a2 i hi]) hb
  have h2 : num (genByte (flagRow IS_BYTE) a b) INPUT_REGISTER_2 = 0 :=
    num_u256 (fun i hi => by rw [byte_keepA (by simp only [nLimbs] at hi; regs; omega), a3 i hi]) (by norm_num)
  refine ⟨ok, fun lv hlv nv => ?_, h0, h1, h2, ?_⟩
  · have hfl := (ok.agrees hlv).flags
    refine ops_of_part hfl (fun p hp hf => ?_)
    simp only [parts, List.mem_cons, List.not_mem_nil, or_false] at hp
    rcases hp with rfl | rfl | rfl | rfl | rfl | rfl | rfl | rfl | rfl | rfl | rfl <;> dsimp only at hf ⊢ <;> first | exact absurd hf (by decide) | skip
    exact byte_sat ha hlv
  · rw [byte_row ok.ranged (by rw [ok.flags _ (by decide)]; exact flagRow_self _) (byte_sat ha (agrees_self _)).holds, h0, h1]
    unfold byteSpec BinaryOp.result
    dsimp only
    by_cases h : a < 32
    · rw [if_pos h, if_neg (by omega)]
    · rw [if_neg h, if_pos (by omega)]

end Verif.Stark.Arith
