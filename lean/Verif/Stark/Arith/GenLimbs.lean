import Verif.Stark.Arith.Gen
import Verif.Stark.Arith.Concrete

/-! The limbs the generation of the arithmetic table computes satisfy the constraints. -/

namespace Verif.Stark.Arith

open Finset

/-! ### Splitting into halves -/

theorem lo_hi {c : ℤ} (h0 : 0 ≤ c) (h1 : c < 4294967296) : lo16 c + hi16 c * 65536 = (c : F) := by
  unfold lo16 hi16
  have : c = c % 65536 + c / 65536 % 65536 * 65536 := by omega
  conv_rhs => rw [this]
  push_cast; rfl

theorem val_int {c : ℤ} {b : ℕ} (h0 : 0 ≤ c) (h1 : c < b) (hb : b ≤ P) : ((c : ℤ) : F).val < b := by
  obtain ⟨m, rfl⟩ := Int.eq_ofNat_of_zero_le h0
  rw [Int.cast_natCast, ZMod.val_natCast, Nat.mod_eq_of_lt (by omega)]
  omega

theorem base_le_P : 65536 ≤ P := by decide

theorem lo16_lt (c : ℤ) : (lo16 c).val < 65536 := val_int (by omega) (by push_cast; omega) base_le_P

theorem hi16_lt (c : ℤ) : (hi16 c).val < 65536 := val_int (by omega) (by push_cast; omega) base_le_P

/-! ### Addition with carry -/

theorem carry_eq {x y z : Limbs F} {X Y Z c : Limbs ℤ} {n : ℕ}
    (hx : ∀ i < n, x i = (X i : F)) (hy : ∀ i < n, y i = (Y i : F)) (hz : ∀ i < n, z i = (Z i : F))
    (h0 : c 0 = 0) (hc : ∀ i < n, c i + X i + Y i - Z i = 65536 * c (i + 1)) : ∀ i ≤ n, carry x y z i = (c i : F) := by
  intro i
  induction i with
  | zero => intro _; rw [h0]; simp [carry]
  | succ i ih =>
    intro hi
    rw [carry, ih (by omega), hx i (by omega), hy i (by omega), hz i (by omega)]
    have : (c i : F) + (X i : F) + (Y i : F) - (Z i : F) = ((65536 * c (i + 1) : ℤ) : F) := by
      rw [← hc i (by omega)]; push_cast; rfl
    rw [this]; push_cast
    linear_combination (c (i + 1) : F) * inv_base

/-- The constraints of the addition hold for limbs with the right carries. -/
theorem addcy_complete {x y z g : Limbs F} {X Y Z c : Limbs ℤ} {two : Bool}
    (hx : ∀ i < nLimbs, x i = (X i : F)) (hy : ∀ i < nLimbs, y i = (Y i : F)) (hz : ∀ i < nLimbs, z i = (Z i : F))
    (h0 : c 0 = 0) (hc : ∀ i < nLimbs, c i + X i + Y i - Z i = 65536 * c (i + 1)) (hb : ∀ i ≤ nLimbs, c i = 0 ∨ c i = 1)
    (hg : g 0 = (c nLimbs : F)) (hg' : ∀ i, 0 < i → i < nLimbs → g i = 0) : AllZero (evalAddcy 1 x y z g two) := by
  have hcy := carry_eq hx hy hz h0 hc
  have hbit : ∀ i ≤ nLimbs, (c i : F) = 0 ∨ (c i : F) = 1 := by
    intro i hi; rcases hb i hi with h | h <;> rw [h] <;> simp
  unfold evalAddcy
  refine (((AllZero.map fun i hi => ?_).append ?_).append ?_).append (.map fun i hi => ?_)
  · have : carry x y z i + x i + y i - z i = 65536 * (c (i + 1) : F) := by
      rw [hcy i (by omega), hx i hi, hy i hi, hz i hi]
      have : (c i : F) + (X i : F) + (Y i : F) - (Z i : F) = ((65536 * c (i + 1) : ℤ) : F) := by
        rw [← hc i hi]; push_cast; rfl
      rw [this]; push_cast; rfl
    rw [this]
    rcases hbit (i + 1) (by omega) with h | h <;> rw [h] <;> ring
  · cases two
    · intro k hk
      simp only [Bool.false_eq_true, if_false, List.mem_singleton] at hk
      rw [hk]
      dsimp only
      rw [hg]
      rcases hbit nLimbs le_rfl with h | h <;> rw [h] <;> ring
    · intro k hk; simp at hk
  · intro k hk
    rw [List.mem_singleton] at hk
    rw [hk]
    dsimp only
    rw [hcy nLimbs le_rfl, hg]; ring
  · rw [hg' (i + 1) (by omega) (by omega)]; ring

/-- The carries of a sum. -/
theorem carries_exist {X Y Z : Limbs ℤ} {n : ℕ} {cy : ℤ} (hX : ∀ i < n, 0 ≤ X i ∧ X i < 65536) (hY : ∀ i < n, 0 ≤ Y i ∧ Y i < 65536)
    (hZ : ∀ i < n, 0 ≤ Z i ∧ Z i < 65536) (h : ev (65536 : ℤ) n X + ev (65536 : ℤ) n Y = ev (65536 : ℤ) n Z + cy * 65536 ^ n) :
    ∃ c : Limbs ℤ, c 0 = 0 ∧ (∀ i < n, c i + X i + Y i - Z i = 65536 * c (i + 1)) ∧ (∀ i ≤ n, c i = 0 ∨ c i = 1) ∧ c n = cy := by
  have hd : ∀ i ≤ n, ∃ k : ℤ, ev (65536 : ℤ) i X + ev (65536 : ℤ) i Y - ev (65536 : ℤ) i Z = 65536 ^ i * k := by
    intro i hi
    obtain ⟨m, rfl⟩ := Nat.exists_eq_add_of_le hi
    rw [ev_split, ev_split, ev_split, pow_add] at h
    exact ⟨cy * 65536 ^ m + ev 65536 m (fun j => Z (i + j)) - ev 65536 m (fun j => X (i + j)) - ev 65536 m (fun j => Y (i + j)),
      by linear_combination h⟩
  choose! k hk using hd
  have hb : ∀ i ≤ n, k i = 0 ∨ k i = 1 := by
    intro i hi
    have e := hk i hi
    have h1 := ev_lt (n := i) (a := X) (fun j hj => hX j (by omega))
    have h2 := ev_lt (n := i) (a := Y) (fun j hj => hY j (by omega))
    have h3 := ev_lt (n := i) (a := Z) (fun j hj => hZ j (by omega))
    simp only [base, Nat.cast_ofNat] at h1 h2 h3
    have hp : (0 : ℤ) < 65536 ^ i := by positivity
    have l1 : (65536 : ℤ) ^ i * k i < 65536 ^ i * 2 := by linarith
    have l2 : (65536 : ℤ) ^ i * (-1) < 65536 ^ i * k i := by linarith
    have l1 := lt_of_mul_lt_mul_left l1 hp.le
    have l2 := lt_of_mul_lt_mul_left l2 hp.le
    omega
  refine ⟨k, ?_, fun i hi => ?_, hb, ?_⟩
  · have := hk 0 (by omega); simp [ev] at this; omega
  · have e0 := hk i (by omega)
    have e1 := hk (i + 1) (by omega)
    rw [ev_succ, ev_succ, ev_succ, pow_succ] at e1
    have hp : (65536 : ℤ) ^ i ≠ 0 := by positivity
    have : (65536 : ℤ) ^ i * (k i + X i + Y i - Z i) = 65536 ^ i * (65536 * k (i + 1)) := by linear_combination e1 - e0
    exact mul_left_cancel₀ hp this
  · have e := hk n le_rfl
    have hp : (65536 : ℤ) ^ n ≠ 0 := by positivity
    have : (65536 : ℤ) ^ n * k n = 65536 ^ n * cy := by linear_combination h - e
    exact mul_left_cancel₀ hp this

/-- The constraints of the addition hold for registers that add up. -/
theorem addcy_of_sum {x y z g : Limbs F} {X Y Z : Limbs ℤ} {two : Bool} {cy : ℤ}
    (hx : ∀ i < nLimbs, x i = (X i : F)) (hy : ∀ i < nLimbs, y i = (Y i : F)) (hz : ∀ i < nLimbs, z i = (Z i : F))
    (hX : ∀ i < nLimbs, 0 ≤ X i ∧ X i < 65536) (hY : ∀ i < nLimbs, 0 ≤ Y i ∧ Y i < 65536) (hZ : ∀ i < nLimbs, 0 ≤ Z i ∧ Z i < 65536)
    (h : ev (65536 : ℤ) nLimbs X + ev (65536 : ℤ) nLimbs Y = ev (65536 : ℤ) nLimbs Z + cy * 65536 ^ nLimbs)
    (hg : g 0 = (cy : F)) (hg' : ∀ i, 0 < i → i < nLimbs → g i = 0) : AllZero (evalAddcy 1 x y z g two) := by
  obtain ⟨c, h0, hc, hb, hn⟩ := carries_exist hX hY hZ h
  exact addcy_complete hx hy hz h0 hc hb (by rw [hn]; exact hg) hg'

/-! ### Products -/

theorem abs_polMul_le' {n m : ℕ} {a b : Limbs ℤ} {A B : ℤ} (ha : ∀ i < n, |a i| ≤ A) (hb : ∀ i < m, |b i| ≤ B)
    (hA : 0 ≤ A) (hB : 0 ≤ B) (k : ℕ) : |polMul n m a b k| ≤ m * (A * B) := by
  rw [polMul_eq, sum_comm]
  refine (abs_sum_le_sum_abs _ _).trans ?_
  refine (sum_le_card_nsmul _ _ (A * B) (fun j hj => ?_)).trans (by simp)
  by_cases h : j ≤ k ∧ k - j < n
  · rw [sum_eq_single (k - j)]
    · rw [if_pos (by omega), abs_mul]
      exact mul_le_mul (ha _ h.2) (hb j (mem_range.1 hj)) (abs_nonneg _) hA
    · intro i _ hi; rw [if_neg (by omega)]
    · intro hh; rw [mem_range] at hh; omega
  · rw [sum_eq_zero, abs_zero]
    · exact mul_nonneg hA hB
    · intro i hi; rw [mem_range] at hi; rw [if_neg (by omega)]

theorem polMul_nonneg {n m : ℕ} {a b : Limbs ℤ} (ha : ∀ i < n, 0 ≤ a i) (hb : ∀ i < m, 0 ≤ b i) (k : ℕ) : 0 ≤ polMul n m a b k := by
  rw [polMul_eq]
  refine sum_nonneg (fun i hi => sum_nonneg (fun j hj => ?_))
  split
  · exact mul_nonneg (ha i (mem_range.1 hi)) (hb j (mem_range.1 hj))
  · exact le_rfl

theorem polMul_neg (n m : ℕ) (a b : Limbs ℤ) (k : ℕ) : polMul n m (fun i => -a i) b k = -polMul n m a b k := by
  rw [polMul_eq, polMul_eq, ← sum_neg_distrib]
  refine sum_congr rfl (fun i _ => ?_)
  rw [← sum_neg_distrib]
  refine sum_congr rfl (fun j _ => ?_)
  split <;> ring

/-- Coefficients that are not negative vanish above the value. -/
theorem coeff_zero {n t : ℕ} {a : Limbs ℤ} (ha : ∀ i < n, 0 ≤ a i) (h : ev (65536 : ℤ) n a < 65536 ^ t) : ∀ i < n, t ≤ i → a i = 0 := by
  intro i hi hti
  have h1 : a i * 65536 ^ i ≤ ev (65536 : ℤ) n a := by
    unfold ev
    exact single_le_sum (f := fun i => a i * (65536 : ℤ) ^ i) (fun j hj => mul_nonneg (ha j (mem_range.1 hj)) (by positivity)) (mem_range.2 hi)
  by_contra h0
  have h2 : 1 ≤ a i := by have := ha i hi; omega
  have h3 : (65536 : ℤ) ^ t ≤ 65536 ^ i := pow_le_pow_right₀ (by norm_num) hti
  have h4 : (0 : ℤ) < 65536 ^ i := by positivity
  nlinarith

/-! ### Removing the root -/

theorem removeRoot_spec {n : ℕ} {a : Limbs ℤ} (h : ev (65536 : ℤ) n a = 0) :
    ∀ i, i + 1 < n → removeRoot n a i * 65536 ^ (i + 1) = -ev (65536 : ℤ) (i + 1) a := by
  have hd : ∀ i ≤ n, ∃ k : ℤ, -ev (65536 : ℤ) i a = 65536 ^ i * k := by
    intro i hi
    obtain ⟨m, rfl⟩ := Nat.exists_eq_add_of_le hi
    rw [ev_split] at h
    exact ⟨ev 65536 m (fun j => a (i + j)), by linear_combination -h⟩
  intro i
  induction i with
  | zero =>
    intro hi
    obtain ⟨k, hk⟩ := hd 1 (by omega)
    rw [zero_add]
    have e : ev (65536 : ℤ) 1 a = a 0 := by simp [ev]
    rw [e] at hk ⊢
    rw [pow_one] at hk ⊢
    unfold removeRoot
    omega
  | succ i ih =>
    intro hi
    obtain ⟨k, hk⟩ := hd (i + 2) (by omega)
    have ih := ih (by omega)
    have hp : (65536 : ℤ) ^ (i + 1) ≠ 0 := by positivity
    have e : removeRoot n a i - a (i + 1) = 65536 * k := by
      refine mul_left_cancel₀ hp ?_
      rw [ev_succ] at hk
      rw [show i + 2 = i + 1 + 1 by ring, pow_succ] at hk
      linear_combination ih + hk
    rw [removeRoot, if_pos (by omega), e, Int.mul_ediv_cancel_left _ (by norm_num), hk]
    ring

/-- Multiplied by `x - 2^16` the quotient gives the polynomial again. -/
theorem removeRoot_adjoin {n : ℕ} (hn : 2 ≤ n) {a : Limbs ℤ} (h : ev (65536 : ℤ) n a = 0) :
    ∀ i < n, polAdjoinRoot (removeRoot n a) 65536 i = a i := by
  have hs := removeRoot_spec h
  intro i hi
  unfold polAdjoinRoot
  split
  · rename_i h0; subst h0
    have := hs 0 (by omega)
    simp [ev] at this
    linarith
  · rename_i h0
    obtain ⟨j, rfl⟩ : ∃ j, i = j + 1 := ⟨i - 1, by omega⟩
    have h1 := hs j (by omega)
    rw [Nat.add_sub_cancel]
    have hp : (65536 : ℤ) ^ (j + 1) ≠ 0 := by positivity
    refine mul_right_cancel₀ hp ?_
    rcases Nat.lt_or_ge (j + 2) n with hlt | hge
    · have h2 := hs (j + 1) (by omega)
      rw [ev_succ, pow_succ] at h2
      linear_combination h1 - h2
    · obtain rfl : n = j + 2 := by omega
      rw [removeRoot, if_neg (by omega)]
      rw [show j + 2 = j + 1 + 1 by ring, ev_succ] at h
      linear_combination h1 - h

/-- The quotient is small. -/
theorem removeRoot_bound {n : ℕ} (hn : 2 ≤ n) {a : Limbs ℤ} {K B : ℤ} (h : ev (65536 : ℤ) n a = 0) (ha : ∀ i < n, |a i| ≤ B) (hB : 0 ≤ B)
    (hK : B ≤ 65535 * K) : ∀ i, |removeRoot n a i| ≤ K := by
  have hadj := removeRoot_adjoin hn h
  intro i
  induction i with
  | zero =>
    have e := hadj 0 (by omega)
    unfold polAdjoinRoot at e
    rw [if_pos rfl] at e
    have := ha 0 (by omega)
    rw [abs_le] at this ⊢
    omega
  | succ i ih =>
    rw [removeRoot]
    split
    · rename_i hi
      have e := hadj (i + 1) (by omega)
      unfold polAdjoinRoot at e
      rw [if_neg (by omega), Nat.add_sub_cancel, removeRoot, if_pos hi] at e
      have := ha (i + 1) (by omega)
      rw [abs_le] at this ih ⊢
      omega
    · rw [abs_zero]; omega

/-! ### MUL -/

theorem polMulLo_bound {a b : Limbs ℤ} (ha : ∀ i < nLimbs, 0 ≤ a i ∧ a i < 65536) (hb : ∀ i < nLimbs, 0 ≤ b i ∧ b i < 65536) {k : ℕ} (hk : k < nLimbs) :
    0 ≤ polMulLo a b k ∧ polMulLo a b k ≤ 16 * (65535 * 65535) := by
  rw [polMulLo_eq_polMul hk]
  refine ⟨polMul_nonneg (fun i hi => (ha i hi).1) (fun i hi => (hb i hi).1) k, ?_⟩
  have := abs_polMul_le' (n := nLimbs) (m := nLimbs) (a := a) (b := b) (A := 65535) (B := 65535)
    (fun i hi => by have := ha i hi; rw [abs_le]; constructor <;> omega) (fun i hi => by have := hb i hi; rw [abs_le]; constructor <;> omega)
    (by norm_num) (by norm_num) k
  rw [abs_le] at this
  exact this.2

theorem mulCy_bound {prod : Limbs ℤ} (h : ∀ i < nLimbs, 0 ≤ prod i ∧ prod i ≤ 16 * (65535 * 65535)) :
    ∀ i ≤ nLimbs, 0 ≤ mulCy prod i ∧ mulCy prod i ≤ 1048560 := by
  intro i
  induction i with
  | zero => intro _; simp [mulCy]
  | succ i ih =>
    intro hi
    have := ih (by omega)
    have := h i (by omega)
    rw [mulCy]
    omega

theorem mul_root {prod : Limbs ℤ} : ∀ i < nLimbs - 1, removeRoot nLimbs (fun j => prod j - mulOut prod j) i = -mulCy prod (i + 1) := by
  intro i
  induction i with
  | zero => intro _; simp only [removeRoot, mulOut, mulCy]; omega
  | succ i ih =>
    intro hi
    have e : mulCy prod (i + 1 + 1) = (prod (i + 1) + mulCy prod (i + 1)) / 65536 := rfl
    rw [removeRoot, if_pos hi, ih (by omega), e]
    simp only [mulOut]
    generalize mulCy prod (i + 1) = c
    omega

theorem mulAuxLimbs_eq {prod : Limbs ℤ} {i : ℕ} (hi : i < nLimbs) : mulAuxLimbs prod i = auxMax - mulCy prod (i + 1) := by
  unfold mulAuxLimbs
  split
  · rename_i h; subst h; simp only [nLimbs, Nat.reduceSub, Nat.reduceAdd]; ring
  · rw [mul_root i (by omega)]; ring

/-- The constraints of the multiplication hold for the generated output and carries. -/
theorem mul_complete {lv : Row F} {x y : Limbs F} {X Y : Limbs ℤ}
    (hx : ∀ i < nLimbs, x i = (X i : F)) (hy : ∀ i < nLimbs, y i = (Y i : F))
    (bX : ∀ i < nLimbs, 0 ≤ X i ∧ X i < 65536) (bY : ∀ i < nLimbs, 0 ≤ Y i ∧ Y i < 65536)
    (ho : ∀ i < nLimbs, lv (OUTPUT_REGISTER + i) = (mulOut (polMulLo X Y) i : F))
    (hl : ∀ i < nLimbs, lv (AUX_INPUT_REGISTER_0 + i) = lo16 (mulAuxLimbs (polMulLo X Y) i))
    (hh : ∀ i < nLimbs, lv (AUX_INPUT_REGISTER_1 + i) = hi16 (mulAuxLimbs (polMulLo X Y) i)) :
    AllZero (evalMulWith lv 1 x y) := by
  have hb := mulCy_bound (prod := polMulLo X Y) (fun i hi => polMulLo_bound bX bY hi)
  have haux : ∀ i < nLimbs, mulAux lv i = ((-mulCy (polMulLo X Y) (i + 1) : ℤ) : F) := by
    intro i hi
    have h1 := hb (i + 1) (by omega)
    have h2 := mulAuxLimbs_eq (prod := polMulLo X Y) hi
    have h3 := lo_hi (c := mulAuxLimbs (polMulLo X Y) i) (by rw [h2]; push_cast; omega) (by rw [h2]; push_cast; omega)
    unfold mulAux
    rw [hl i hi, hh i hi]
    have h4 : ((mulAuxLimbs (polMulLo X Y) i : ℤ) : F) = ((auxMax - mulCy (polMulLo X Y) (i + 1) : ℤ) : F) := by rw [h2]
    push_cast at h4 ⊢
    linear_combination h3 + h4
  have hprod : ∀ i < nLimbs, polMulLo x y i = ((polMulLo X Y i : ℤ) : F) := by
    intro i hi
    have := map_polMulLo (Int.castRingHom F) X Y i
    rw [← eq_intCast (Int.castRingHom F), ← this, polMulLo_eq, polMulLo_eq]
    refine sum_congr rfl (fun j hj => ?_)
    rw [mem_range] at hj
    rw [hx j (by omega), hy (i - j) (by omega)]; rfl
  unfold evalMulWith
  refine .map fun i hi => ?_
  simp only [polSub, hi, if_true, one_mul]
  rw [hprod i hi, reg, ho i hi]
  have hdiv : polMulLo X Y i + mulCy (polMulLo X Y) i = mulOut (polMulLo X Y) i + 65536 * mulCy (polMulLo X Y) (i + 1) := by
    rw [mulCy, mulOut]; omega
  have hdivF : ((polMulLo X Y i : ℤ) : F) + (mulCy (polMulLo X Y) i : F) = (mulOut (polMulLo X Y) i : F) + 65536 * (mulCy (polMulLo X Y) (i + 1) : F) := by
    exact_mod_cast congrArg (Int.cast : ℤ → F) hdiv
  unfold polAdjoinRoot
  split
  · rename_i h0; subst h0
    rw [haux 0 (by omega)]
    have e : mulCy (polMulLo X Y) 0 = 0 := rfl
    rw [e] at hdivF
    push_cast at hdivF ⊢
    linear_combination hdivF
  · rename_i h0
    obtain ⟨j, rfl⟩ : ∃ j, i = j + 1 := ⟨i - 1, by omega⟩
    rw [Nat.add_sub_cancel, haux j (by omega), haux (j + 1) hi]
    push_cast
    linear_combination hdivF

/-! ### Conversions -/

theorem digit_diff {t : ℤ} : posDigit t - negDigit t = t.tmod (2 ^ 32) := by
  unfold posDigit negDigit
  rcases lt_trichotomy t 0 with h | h | h
  · rw [if_neg (by omega), if_pos h]
    obtain ⟨n, rfl⟩ : ∃ n : ℤ, t = -n := ⟨-t, by ring⟩
    rw [Int.neg_tmod, Int.tmod_eq_emod_of_nonneg (by omega)]; simp
  · subst h; simp
  · rw [if_pos h, if_neg (by omega), Int.tmod_eq_emod_of_nonneg h.le]; ring

theorem bigCy_bound {a : Limbs ℤ} {half : ℕ} (h : ∀ i < 2 * half, |a i| ≤ 137438953472) : ∀ i ≤ half, |bigCy a i| ≤ 4194304 := by
  intro i
  induction i with
  | zero => intro _; simp [bigCy]
  | succ i ih =>
    intro hi
    have h0 := ih (by omega)
    have h1 := h (2 * i) (by omega)
    have h2 := h (2 * i + 1) (by omega)
    rw [abs_le] at h0 h1 h2 ⊢
    rw [bigCy]
    have h3 : -9007336698085376 ≤ bigCy a i + a (2 * i) + 65536 * a (2 * i + 1) ∧ bigCy a i + a (2 * i) + 65536 * a (2 * i + 1) ≤ 9007336698085376 := by
      constructor <;> omega
    generalize bigCy a i + a (2 * i) + 65536 * a (2 * i + 1) = t at *
    rcases le_or_gt 0 t with h0 | h0
    · rw [Int.tdiv_eq_ediv_of_nonneg h0]; omega
    · obtain ⟨n, rfl⟩ : ∃ n : ℤ, t = -n := ⟨-t, by ring⟩
      rw [Int.neg_tdiv, Int.tdiv_eq_ediv_of_nonneg (by omega)]; omega

theorem columnsToBigint_eq {a : Limbs ℤ} {half : ℕ} (h : ∀ i < 2 * half, |a i| ≤ 137438953472) :
    columnsToBigint half a = ev (65536 : ℤ) (2 * half) a := by
  have hcy := bigCy_bound h half le_rfl
  have hsum : ∀ k ≤ half, ∑ i ∈ range k, (bigCy a i + a (2 * i) + 65536 * a (2 * i + 1)).tmod (2 ^ 32) * (2 ^ 32) ^ i + bigCy a k * (2 ^ 32) ^ k =
      ev (65536 : ℤ) (2 * k) a := by
    intro k
    induction k with
    | zero => intro _; simp [bigCy, ev]
    | succ k ih =>
      intro hk
      have ih := ih (by omega)
      rw [sum_range_succ, show 2 * (k + 1) = 2 * k + 1 + 1 by ring, ev_succ, ev_succ, ← ih, bigCy]
      have e := Int.tmod_add_mul_tdiv (bigCy a k + a (2 * k) + 65536 * a (2 * k + 1)) (2 ^ 32)
      have p1 : (65536 : ℤ) ^ (2 * k) = (2 ^ 32) ^ k := by rw [pow_mul]; norm_num
      rw [pow_succ (65536 : ℤ) (2 * k), p1, pow_succ ((2 : ℤ) ^ 32) k]
      linear_combination (2 ^ 32) ^ k * e
  unfold columnsToBigint
  rw [← sum_sub_distrib, sum_range_succ, ← hsum half le_rfl]
  congr 1
  · refine sum_congr rfl (fun i hi => ?_)
    rw [mem_range] at hi
    simp only [bigDigits, hi, if_true]
    rw [← sub_mul, digit_diff]
  · simp only [bigDigits, lt_irrefl, if_false]
    rw [← sub_mul, digit_diff]
    congr 1
    rw [abs_le] at hcy
    rcases le_or_gt 0 (bigCy a half) with h0 | h0
    · rw [Int.tmod_eq_of_lt h0 (by omega)]
    · have := Int.neg_tmod (-bigCy a half) (2 ^ 32)
      rw [neg_neg] at this
      rw [this, Int.tmod_eq_of_lt (by omega) (by omega), neg_neg]

end Verif.Stark.Arith
