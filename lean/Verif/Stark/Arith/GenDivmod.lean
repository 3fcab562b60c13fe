import Verif.Stark.Arith.GenRows

/-! The rows generated for DIV, MOD and SHR. -/

namespace Verif.Stark.Arith

open Finset

theorem ev_M {M : Limbs ℤ} (bM : ∀ i < nLimbs, 0 ≤ M i ∧ M i < 65536) : 0 ≤ ev (65536 : ℤ) nLimbs M ∧ ev (65536 : ℤ) nLimbs M < 2 ^ 256 := by
  obtain ⟨m0, m1⟩ := ev_lt (n := nLimbs) (a := M) bM
  simp only [base, Nat.cast_ofNat] at m0 m1
  rw [show nLimbs = 16 from rfl, pow_256] at m1
  exact ⟨m0, m1⟩

theorem usedModulus_pos {D : Bool} {m : ℤ} (h0 : 0 ≤ m) (h1 : m < 2 ^ 256) : 1 ≤ usedModulus D m ∧ usedModulus D m ≤ 2 ^ 256 := by
  unfold usedModulus
  split
  · split <;> norm_num
  · omega

theorem isZero_cases {D sub : Bool} {I M : Limbs ℤ} {r : ModularOut} {o q : ℤ} (g : ModGood D sub I M r o q) : r.isZero = 0 ∨ r.isZero = 1 := by
  rw [g.isZero]; unfold zeroBit; split
  · exact .inr rfl
  · exact .inl rfl

/-- The second row is in range and has no flags. -/
theorem modularNext_ok {row : Row F} {D sub : Bool} {I M : Limbs ℤ} {r : ModularOut} {o q : ℤ} (g : ModGood D sub I M r o q)
    (bM : ∀ i < nLimbs, 0 ≤ M i ∧ M i < 65536) (hdiv : row IS_DIV + row IS_SHR = if D then 1 else 0) :
    RowOk (fun _ => 0) (modularNext row (fun _ => 0) r) := by
  obtain ⟨m0, m1⟩ := ev_M bM
  have hu := usedModulus_pos (D := D) m0 m1
  have h1 : (1 : F).val < 65536 := by decide +kernel
  have hz : ((r.isZero : ℤ) : F).val < 65536 := by
    rcases isZero_cases g with h | h <;> rw [h] <;> simp [h1]
  refine ((((RowOk.zero.setReg (by decide) (fun i _ => lo16_lt _)).setReg (by decide) (fun i _ => hi16_lt _)).setCol (by decide) hz).setReg
    (by decide) (fun i _ => ?_)).setCol (by decide) ?_
  · rw [g.red]
    have := g.o_nonneg
    exact int_val_lt (colLimb_nonneg (by omega) i)
  · rw [hdiv]
    split
    · rw [mul_one]; exact hz
    · rw [mul_zero]; simp

theorem next_cells {row nv : Row F} {r : ModularOut} (ha : Agrees nv (modularNext row (fun _ => 0) r)) :
    (∀ i < 2 * nLimbs - 1, nv (MODULAR_AUX_INPUT_LO + i) = lo16 (r.aux i)) ∧ (∀ i < 2 * nLimbs - 1, nv (MODULAR_AUX_INPUT_HI + i) = hi16 (r.aux i)) ∧
    nv MODULAR_MOD_IS_ZERO = (r.isZero : F) ∧ (∀ i < nLimbs, nv (MODULAR_OUT_AUX_RED + i) = (r.red i : F)) ∧
    nv MODULAR_DIV_DENOM_IS_ZERO = (r.isZero : F) * (row IS_DIV + row IS_SHR) := by
  simp only [nLimbs]
  refine ⟨fun i hi => ?_, fun i hi => ?_, ?_, fun i hi => ?_, ?_⟩ <;> rw [ha _ (by regs; omega)] <;> unfold modularNext <;> cells

/-- What the generated limbs of a row satisfy. -/
theorem limbs_same {row lv : Row F} {s : ℕ} (h : ∀ i < nLimbs, lv (s + i) = row (s + i)) : ∀ i < nLimbs, reg lv s i = (limbs row s i : F) := by
  intro i hi
  rw [← limbs_cast]; exact h i hi

/-- The division itself does not fail. -/
theorem divmod_limbs {row : Row F} (hr : Ranged row) {f n d : ℕ} (hf : f = IS_DIV ∨ f = IS_MOD ∨ f = IS_SHR) (hn : InShared n) (hd : InShared d) :
    ∃ r o q, modularLimbs f (zeroExtend nLimbs (limbs row n)) (limbs row d) = some r ∧
      ModGood (f = IS_DIV || f = IS_SHR) false (zeroExtend nLimbs (limbs row n)) (limbs row d) r o q := by
  have bn := limbs_ok hr hn
  have e : ev (65536 : ℤ) (2 * nLimbs - 1) (zeroExtend nLimbs (limbs row n)) = num row n := by
    rw [ev_zeroExtend _ (by decide), ev_num]
  have hlt : num row n < 2 ^ 256 := num_lt hr hn.1 hn.2
  obtain ⟨r, o, q, h1, h2⟩ := modularLimbs_good (filter := f) (I := zeroExtend nLimbs (limbs row n)) (M := limbs row d) (limbs_ok hr hd)
    (.inr (fun i hi => by
      unfold zeroExtend
      split
      · rename_i h; have := bn i h; rw [abs_le]; omega
      · simp))
    (by rw [e]; have : (0 : ℤ) < 2 ^ 256 := by norm_num
        omega)
    (by rw [e]
        have h2 : (num row n : ℤ) < 2 ^ 256 := by exact_mod_cast hlt
        exact h2.trans (pow_lt_pow_right₀ (by norm_num) (by norm_num)))
    (fun _ => by rw [e]; exact ⟨by omega, by exact_mod_cast hlt⟩)
  refine ⟨r, o, q, h1, ?_⟩
  rcases hf with rfl | rfl | rfl <;> exact h2

theorem divmod_q {row : Row F} (hr : Ranged row) {n d : ℕ} (hn : InShared n) (hd : InShared d) {D : Bool} {r : ModularOut} {o q : ℤ}
    (g : ModGood D false (zeroExtend nLimbs (limbs row n)) (limbs row d) r o q) : 0 ≤ q ∧ q < 2 ^ 256 ∧ 0 ≤ o ∧ o < 2 ^ 256 ∧
      (num row n : ℤ) = o + q * usedModulus D (num row d) ∧ o < usedModulus D (num row d) := by
  have e : ev (65536 : ℤ) (2 * nLimbs - 1) (zeroExtend nLimbs (limbs row n)) = num row n := by
    rw [ev_zeroExtend _ (by decide), ev_num]
  have hlt : (num row n : ℤ) < 2 ^ 256 := by exact_mod_cast num_lt hr hn.1 hn.2
  have hld : (num row d : ℤ) < 2 ^ 256 := by exact_mod_cast num_lt hr hd.1 hd.2
  have hu := usedModulus_pos (D := D) (m := num row d) (by omega) hld
  have h1 := g.eq
  have h2 := g.o_nonneg
  have h3 := g.o_lt
  rw [e, ev_num] at h1
  rw [ev_num] at h3
  set u := usedModulus D (num row d) with hu'
  have hq0 : 0 ≤ q := by
    by_contra hc
    have : q * u ≤ -1 * u := mul_le_mul_of_nonneg_right (by omega) (by omega)
    omega
  have hq1 : q ≤ q * u := by
    have : q * 1 ≤ q * u := mul_le_mul_of_nonneg_left (by omega) hq0
    omega
  exact ⟨hq0, by omega, h2, by omega, h1, h3⟩

/-- The constraints of a division. -/
theorem helper_complete {row lv nv : Row F} (hr : Ranged row) {n d quo rem : ℕ} (hn : InShared n) (hd : InShared d) {D : Bool} {r : ModularOut} {o q : ℤ}
    (g : ModGood D false (zeroExtend nLimbs (limbs row n)) (limbs row d) r o q) (hdiv : row IS_DIV + row IS_SHR = if D then 1 else 0)
    (hfl : lv IS_DIV + lv IS_SHR = row IS_DIV + row IS_SHR) (hnum : ∀ i < nLimbs, lv (n + i) = row (n + i)) (hden : ∀ i < nLimbs, lv (d + i) = row (d + i))
    (hquo : ∀ i < nLimbs, lv (quo + i) = (colLimb q i : F)) (hrem : ∀ i < nLimbs, lv (rem + i) = (colLimb o i : F))
    (ha : Agrees nv (modularNext row (fun _ => 0) r)) : Holds (evalDivmodHelper lv nv 1 n d quo rem) := by
  obtain ⟨q0, q1, -⟩ := divmod_q hr hn hd g
  obtain ⟨c1, c2, c3, c4, c5⟩ := next_cells ha
  have hq : q.natAbs < 65536 ^ nLimbs := by
    have : (65536 : ℤ) ^ nLimbs = 2 ^ 256 := pow_256
    zify; rw [abs_of_nonneg q0]; omega
  obtain ⟨h1, h2⟩ := modular_complete (lv := lv) (nv := nv) (output := reg lv rem) (modulus := reg lv d) (quot := zeroExtend nLimbs (reg lv quo))
    g (limbs_ok hr hd) (by rw [hfl, hdiv]) hrem (limbs_same hden) (fun i _ => by
      unfold zeroExtend
      split
      · rename_i h; exact hquo i h
      · rename_i h; rw [colLimb_high hq (by omega), Int.cast_zero]) c1 c2 c3 c4 (by rw [c5, hfl])
  unfold evalDivmodHelper
  rw [Holds.append, Holds.append, Holds.map (.inr rfl)]
  refine ⟨⟨?_, h1.holds⟩, fun i hi => ?_⟩
  · intro c hc hon
    simp only [List.mem_singleton] at hc
    subst hc
    rcases hon with h | h <;> cases h
  · rw [one_mul]
    have e : zeroExtend (2 * nLimbs - 1) (zeroExtend nLimbs (limbs row n)) i = zeroExtend nLimbs (limbs row n) i := by
      generalize hm : (2 * nLimbs - 1) = m
      have : nLimbs ≤ m := by rw [← hm]; decide
      unfold zeroExtend
      by_cases h : i < nLimbs
      · rw [if_pos (by omega)]
      · simp only [if_neg h, ite_self]
    unfold polSub
    rw [h2 i hi, e]
    unfold zeroExtend
    split
    · rename_i h; rw [limbs_same hnum i h, sub_self]
    · simp

theorem div_flags {f : ℕ} : flagRow f IS_DIV + flagRow f IS_SHR = if (f = IS_DIV || f = IS_SHR : Bool) then 1 else 0 := by
  unfold flagRow
  by_cases h1 : f = IS_DIV
  · subst h1; simp
  · by_cases h2 : f = IS_SHR
    · subst h2; simp
    · rw [if_neg (fun h => h1 h.symm), if_neg (fun h => h2 h.symm)]; simp [h1, h2]

theorem nat_lt_256 {x : ℤ} (h0 : 0 ≤ x) (h1 : x < 2 ^ 256) : ∃ k : ℕ, x = k ∧ k < 2 ^ 256 := by
  obtain ⟨k, rfl⟩ := Int.eq_ofNat_of_zero_le h0
  exact ⟨k, rfl, by exact_mod_cast h1⟩

/-- DIV and SHR: the rows of a division whose quotient is `result`. -/
theorem div_rows {f n d : ℕ} (hf : f = IS_DIV ∨ f = IS_SHR) {row : Row F} (ok : RowOk (flagRow f) row) (hn : n = 18 ∨ n = 34) (hd : d = 34 ∨ d = 50)
    {result : ℕ} (hres : ∀ i < nLimbs, row (OUTPUT_REGISTER + i) = u256Limbs result i)
    (hq : result = if num row d = 0 then 0 else num row n / num row d) :
    ∃ lv nv, genDivmodLimbs row (fun _ => 0) f n d = some (lv, nv) ∧ RowOk (flagRow f) lv ∧ RowOk (fun _ => 0) nv ∧
      (∀ c < 82, lv c = row c) ∧ (∀ l m, Agrees l lv → Agrees m nv → Holds (evalDivmodHelper l m 1 n d OUTPUT_REGISTER AUX_INPUT_REGISTER_0)) := by
  have hns : InShared n := by rcases hn with rfl | rfl <;> exact ⟨by decide, by decide⟩
  have hds : InShared d := by rcases hd with rfl | rfl <;> exact ⟨by decide, by decide⟩
  obtain ⟨r, o, q, h1, g⟩ := divmod_limbs ok.ranged (f := f) (by rcases hf with rfl | rfl <;> simp) hns hds
  obtain ⟨q0, q1, o0, o1, e1, e2⟩ := divmod_q ok.ranged hns hds g
  have hD : (f = IS_DIV || f = IS_SHR : Bool) = true := by rcases hf with rfl | rfl <;> rfl
  have hdiv : row IS_DIV + row IS_SHR = if (f = IS_DIV || f = IS_SHR : Bool) then 1 else 0 := by
    rw [ok.flags _ (by decide), ok.flags _ (by decide), div_flags]
  have hqr : q = result := by
    rw [hD] at e1 e2
    unfold usedModulus at e1 e2
    rw [hq]
    have hlt : (num row n : ℤ) < 2 ^ 256 := by exact_mod_cast num_lt ok.ranged hns.1 hns.2
    by_cases h : num row d = 0
    · rw [if_pos h]
      simp only [h, Nat.cast_zero, if_true] at e1 e2
      omega
    · rw [if_neg h]
      rw [if_neg (by exact_mod_cast h)] at e1 e2
      push_cast
      rw [e1, Int.add_mul_ediv_right _ _ (by omega), Int.ediv_eq_zero_of_lt o0 e2, zero_add]
  refine ⟨setReg (setReg row MODULAR_QUO_INPUT (2 * nLimbs) (fun _ => 0)) AUX_INPUT_REGISTER_0 nLimbs (fun i => (r.out i : F)),
    modularNext row (fun _ => 0) r, ?_, ?_, modularNext_ok g (limbs_ok ok.ranged hds) hdiv, ?_, ?_⟩
  · unfold genDivmodLimbs
    rw [h1]
    simp only [Option.bind_eq_bind, Option.bind_some]
    rw [if_pos hf]
  · refine (ok.setReg (by decide) (fun i _ => by simp)).setReg (by decide) (fun i _ => ?_)
    rw [g.out]; exact int_val_lt (colLimb_nonneg o0 i)
  · intro c hc
    cells
  · intro l m hl hm
    have hcell : ∀ c < 82, l c = row c := by
      intro c hc; rw [hl c (by omega)]; cells
    refine helper_complete (row := row) ok.ranged hns hds g hdiv (by rw [hcell _ (by decide), hcell _ (by decide)]) (fun i hi => ?_) (fun i hi => ?_)
      (fun i hi => ?_) (fun i hi => ?_) hm
    · simp only [nLimbs] at hi; exact hcell _ (by omega)
    · simp only [nLimbs] at hi; exact hcell _ (by omega)
    · rw [hcell _ (by simp only [nLimbs] at hi; regs; omega), hres i hi, hqr, u256_colLimb]
    · simp only [nLimbs] at hi
      rw [hl _ (by regs; omega)]
      cells
      rw [g.out]

/-- The numbers a row of DIV or MOD shows. -/
theorem divmod_shows {f a b r : ℕ} (ha : a < 2 ^ 256) (hb : b < 2 ^ 256) (hr : r < 2 ^ 256) (hf : f < 18) {lv : Row F}
    (h : ∀ c < 82, lv c = setU256 (setU256 (setU256 (flagRow f) INPUT_REGISTER_0 a) INPUT_REGISTER_1 b) OUTPUT_REGISTER r c) : Shows lv a b 0 r := by
  simp only [INPUT_REGISTER_0, INPUT_REGISTER_1, OUTPUT_REGISTER] at h
  refine ⟨num_u256 ?_ ha, num_u256 ?_ hb, num_u256 ?_ (by norm_num), num_u256 ?_ hr⟩ <;> simp only [nLimbs] <;> intro i hi <;>
    rw [h _ (by regs; omega)] <;> cells
  unfold flagRow u256Limbs
  rw [if_neg (by omega)]
  simp

theorem div_gen {a b : ℕ} (ha : a < 2 ^ 256) (hb : b < 2 ^ 256) : ∃ lv nv,
    genDivmod (flagRow IS_DIV) (fun _ => 0) IS_DIV a b (BinaryOp.div.result a b) = some (lv, nv) ∧ TwoRows IS_DIV lv nv a b 0 (BinaryOp.div.result a b) := by
  have ok0 : RowOk (flagRow IS_DIV) (setU256 (setU256 (setU256 (flagRow IS_DIV) INPUT_REGISTER_0 a) INPUT_REGISTER_1 b) OUTPUT_REGISTER
      (BinaryOp.div.result a b)) := ((((RowOk.flag (by decide)).setU256 _ (by decide)).setU256 _ (by decide)).setU256 _ (by decide))
  have hr : BinaryOp.div.result a b < 2 ^ 256 := by
    unfold BinaryOp.result; dsimp only
    split
    · norm_num
    · exact (Nat.div_le_self _ _).trans_lt ha
  have h0 := divmod_shows (f := IS_DIV) ha hb hr (by decide) (fun c _ => rfl)
  obtain ⟨lv, nv, h1, h2, h3, h4, h5⟩ := div_rows (f := IS_DIV) (.inl rfl) ok0 (n := INPUT_REGISTER_0) (.inl rfl) (d := INPUT_REGISTER_1) (.inl rfl)
    (result := BinaryOp.div.result a b) (by simp only [nLimbs]; intro i hi; cells) (by rw [h0.in0, h0.in1]; rfl)
  refine ⟨lv, nv, h1, h2, h3, fun l m hl hm => ?_, divmod_shows ha hb hr (by decide) h4⟩
  have hfl := (h2.agrees hl).flags
  refine holds_of_part hfl (fun p hp hf => ?_)
  simp only [parts, List.mem_cons, List.not_mem_nil, or_false] at hp
  rcases hp with rfl | rfl | rfl | rfl | rfl | rfl | rfl | rfl | rfl | rfl | rfl <;> dsimp only at hf ⊢ <;> first | exact absurd hf (by decide) | skip
  simp only [hfl IS_DIV (by decide), flagRow_self]
  exact h5 l m hl hm

theorem shr_gen {a b : ℕ} (ha : a < 2 ^ 256) (hb : b < 2 ^ 256) : ∃ lv nv,
    genShr (flagRow IS_SHR) (fun _ => 0) a b (BinaryOp.shr.result a b) = some (lv, nv) ∧ TwoRows IS_SHR lv nv a b (shiftBy a) (BinaryOp.shr.result a b) := by
  have ok0 : RowOk (flagRow IS_SHR) (shiftInputs (flagRow IS_SHR) a b (BinaryOp.shr.result a b)) := by
    rw [shiftInputs_eq]
    exact ((((RowOk.flag (by decide)).setU256 _ (by decide)).setU256 _ (by decide)).setU256 _ (by decide)).setU256 _ (by decide)
  have hr : BinaryOp.shr.result a b < 2 ^ 256 := by
    unfold BinaryOp.result; dsimp only
    split
    · exact (Nat.div_le_self _ _).trans_lt hb
    · norm_num
  have hsh : ∀ lv : Row F, (∀ c < 82, lv c = shiftInputs (flagRow IS_SHR) a b (BinaryOp.shr.result a b) c) → Shows lv a b (shiftBy a) (BinaryOp.shr.result a b) := by
    intro lv h
    rw [shiftInputs_eq] at h
    refine ⟨num_u256 ?_ ha, num_u256 ?_ hb, num_u256 ?_ (shiftBy_lt a), num_u256 ?_ hr⟩ <;> simp only [nLimbs] <;> intro i hi <;>
      rw [h _ (by regs; omega)] <;> cells
  have h0 := hsh _ (fun c _ => rfl)
  obtain ⟨lv, nv, h1, h2, h3, h4, h5⟩ := div_rows (f := IS_SHR) (.inr rfl) ok0 (n := INPUT_REGISTER_1) (.inr rfl) (d := INPUT_REGISTER_2) (.inr rfl)
    (result := BinaryOp.shr.result a b) (by rw [shiftInputs_eq]; simp only [nLimbs]; intro i hi; cells) (by
      rw [h0.in1, h0.in2]
      unfold BinaryOp.result shiftBy
      dsimp only
      by_cases h : a < 256
      · simp only [if_pos h]
        rw [if_neg (by positivity)]
      · simp only [if_neg h, if_true])
  refine ⟨lv, nv, h1, h2, h3, fun l m hl hm => ?_, hsh lv h4⟩
  have hfl := (h2.agrees hl).flags
  refine holds_of_part hfl (fun p hp hf => ?_)
  simp only [parts, List.mem_cons, List.not_mem_nil, or_false] at hp
  rcases hp with rfl | rfl | rfl | rfl | rfl | rfl | rfl | rfl | rfl | rfl | rfl <;> dsimp only at hf ⊢ <;> first | exact absurd hf (by decide) | skip
  simp only [hfl IS_SHR (by decide), flagRow_self]
  exact h5 l m hl hm

theorem mod_gen {a b : ℕ} (ha : a < 2 ^ 256) (hb : b < 2 ^ 256) : ∃ lv nv,
    genDivmod (flagRow IS_MOD) (fun _ => 0) IS_MOD a b (BinaryOp.mod.result a b) = some (lv, nv) ∧ TwoRows IS_MOD lv nv a b 0 (BinaryOp.mod.result a b) := by
  have ok0 : RowOk (flagRow IS_MOD) (setU256 (setU256 (setU256 (flagRow IS_MOD) INPUT_REGISTER_0 a) INPUT_REGISTER_1 b) OUTPUT_REGISTER
      (BinaryOp.mod.result a b)) := ((((RowOk.flag (by decide)).setU256 _ (by decide)).setU256 _ (by decide)).setU256 _ (by decide))
  have hr : BinaryOp.mod.result a b < 2 ^ 256 := by
    unfold BinaryOp.result; dsimp only
    split
    · norm_num
    · exact (Nat.mod_le _ _).trans_lt ha
  have h0 := divmod_shows (f := IS_MOD) ha hb hr (by decide) (fun c _ => rfl)
  have hns : InShared INPUT_REGISTER_0 := ⟨by decide, by decide⟩
  have hds : InShared INPUT_REGISTER_1 := ⟨by decide, by decide⟩
  generalize hrow : setU256 (setU256 (setU256 (flagRow IS_MOD) INPUT_REGISTER_0 a) INPUT_REGISTER_1 b) OUTPUT_REGISTER (BinaryOp.mod.result a b) = row at ok0 h0
  have hres : ∀ i < nLimbs, row (OUTPUT_REGISTER + i) = u256Limbs (BinaryOp.mod.result a b) i := by
    rw [← hrow]; simp only [nLimbs]; intro i hi; cells
  obtain ⟨r, o, q, h1, g⟩ := divmod_limbs ok0.ranged (f := IS_MOD) (.inr (.inl rfl)) hns hds
  have g' : ModGood false false (zeroExtend nLimbs (limbs row INPUT_REGISTER_0)) (limbs row INPUT_REGISTER_1) r o q := g
  obtain ⟨q0, q1, o0, o1, e1, e2⟩ := divmod_q ok0.ranged hns hds g'
  have hdiv : row IS_DIV + row IS_SHR = if false then 1 else 0 := by
    rw [ok0.flags _ (by decide), ok0.flags _ (by decide), div_flags]; rfl
  have hor : o = BinaryOp.mod.result a b := by
    rw [h0.in0, h0.in1] at e1
    rw [h0.in1] at e2
    unfold usedModulus at e1 e2
    unfold BinaryOp.result
    dsimp only
    by_cases h : b = 0
    · rw [if_pos h]
      simp only [h, Nat.cast_zero, if_true, Bool.false_eq_true, if_false] at e1 e2
      omega
    · rw [if_neg h]
      rw [if_neg (by exact_mod_cast h)] at e1 e2
      push_cast
      exact emod_of e1 o0 e2
  have ok : RowOk (flagRow IS_MOD) (setReg (setReg row MODULAR_QUO_INPUT (2 * nLimbs) (fun _ => 0)) AUX_INPUT_REGISTER_0 nLimbs (fun i => (r.quo i : F))) := by
    refine (ok0.setReg (by decide) (fun i _ => by simp)).setReg (by decide) (fun i _ => ?_)
    rw [g'.quo]
    exact int_val_lt (colLimb_nonneg q0 i)
  have hlow : ∀ c < 82, setReg (setReg row MODULAR_QUO_INPUT (2 * nLimbs) (fun _ => 0)) AUX_INPUT_REGISTER_0 nLimbs (fun i => (r.quo i : F)) c = row c := by
    intro c hc; cells
  refine ⟨_, modularNext row (fun _ => 0) r, ?_, ok, modularNext_ok g' (limbs_ok ok0.ranged hds) hdiv, ?_, ?_⟩
  · unfold genDivmod genDivmodLimbs
    simp only [hrow, h1, Option.bind_eq_bind, Option.bind_some]
    rw [if_neg (by decide), if_pos trivial]
  · intro l m hl hm
    have hfl := (ok.agrees hl).flags
    refine holds_of_part hfl (fun p hp hf => ?_)
    simp only [parts, List.mem_cons, List.not_mem_nil, or_false] at hp
    rcases hp with rfl | rfl | rfl | rfl | rfl | rfl | rfl | rfl | rfl | rfl | rfl <;> dsimp only at hf ⊢ <;> first | exact absurd hf (by decide) | skip
    simp only [hfl IS_MOD (by decide), flagRow_self]
    have hcell : ∀ c < 82, l c = row c := by
      intro c hc; rw [hl c (by omega)]; exact hlow c hc
    refine helper_complete (row := row) ok0.ranged hns hds g' hdiv (by rw [hcell _ (by decide), hcell _ (by decide)]) (fun i hi => ?_) (fun i hi => ?_)
      (fun i hi => ?_) (fun i hi => ?_) hm
    · simp only [nLimbs] at hi; exact hcell _ (by regs; omega)
    · simp only [nLimbs] at hi; exact hcell _ (by regs; omega)
    · simp only [nLimbs] at hi
      rw [hl _ (by regs; omega)]
      cells
      rw [g'.quo]; rfl
    · rw [hcell _ (by simp only [nLimbs] at hi; regs; omega), hres i hi, hor, u256_colLimb]
  · exact divmod_shows (f := IS_MOD) ha hb hr (by decide) (fun c hc => by rw [hlow c hc, hrow])

end Verif.Stark.Arith
