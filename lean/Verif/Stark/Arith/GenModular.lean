import Verif.Stark.Arith.GenLimbs

/-! The generated output, quotient and carries of the modular operations satisfy the constraints. -/

namespace Verif.Stark.Arith

open Finset

/-! ### The limbs of an integer -/

/-- The limbs of an integer, all of its sign. -/
def colLimb (x : ℤ) (k : ℕ) : ℤ := if x < 0 then -((x.natAbs / 65536 ^ k % 65536 : ℕ) : ℤ) else ((x.natAbs / 65536 ^ k % 65536 : ℕ) : ℤ)

theorem digits_sum (a : ℕ) : ∀ m, ∑ k ∈ range m, (a / 65536 ^ k % 65536) * 65536 ^ k = a % 65536 ^ m := by
  intro m
  induction m with
  | zero => simp [Nat.mod_one]
  | succ m ih => rw [sum_range_succ, ih, pow_succ 65536 m, Nat.mod_mul, mul_comm (a / _ % _)]

theorem ev_colLimb {x : ℤ} {n : ℕ} (h : x.natAbs < 65536 ^ n) : ev (65536 : ℤ) n (colLimb x) = x := by
  have hd : ((x.natAbs : ℕ) : ℤ) = ∑ k ∈ range n, ((x.natAbs / 65536 ^ k % 65536 : ℕ) : ℤ) * 65536 ^ k := by
    have := digits_sum x.natAbs n
    rw [Nat.mod_eq_of_lt h] at this
    exact_mod_cast this.symm
  unfold ev colLimb
  rcases lt_or_ge x 0 with h0 | h0
  · simp only [if_pos h0]
    have : ∀ k, -((x.natAbs / 65536 ^ k % 65536 : ℕ) : ℤ) * 65536 ^ k = -(((x.natAbs / 65536 ^ k % 65536 : ℕ) : ℤ) * 65536 ^ k) := fun k => by ring
    rw [sum_congr rfl (fun k _ => this k), sum_neg_distrib, ← hd]; omega
  · simp only [if_neg (not_lt.2 h0)]
    rw [← hd]; omega

theorem colLimb_nonneg {x : ℤ} (h : 0 ≤ x) (k : ℕ) : 0 ≤ colLimb x k ∧ colLimb x k < 65536 := by
  unfold colLimb
  rw [if_neg (by omega)]
  have := Nat.mod_lt (x.natAbs / 65536 ^ k) (show 65536 > 0 by decide)
  omega

theorem colLimb_neg {x : ℤ} (h : x < 0) (k : ℕ) : -65536 < colLimb x k ∧ colLimb x k ≤ 0 := by
  unfold colLimb
  rw [if_pos h]
  have := Nat.mod_lt (x.natAbs / 65536 ^ k) (show 65536 > 0 by decide)
  omega

theorem colLimb_abs (x : ℤ) (k : ℕ) : |colLimb x k| ≤ 65535 := by
  rw [abs_le]
  rcases lt_or_ge x 0 with h | h
  · have := colLimb_neg h k; omega
  · have := colLimb_nonneg h k; omega

theorem colLimb_high {x : ℤ} {n k : ℕ} (h : x.natAbs < 65536 ^ n) (hk : n ≤ k) : colLimb x k = 0 := by
  unfold colLimb
  rw [Nat.div_eq_of_lt (h.trans_le (Nat.pow_le_pow_right (by norm_num) hk))]
  simp

theorem bigint_some {n : ℕ} {x : ℤ} (h : x.natAbs < 65536 ^ n) : bigintToColumns n x = some (colLimb x) := by
  unfold bigintToColumns
  have e : (2 : ℕ) ^ (16 * n) = 65536 ^ n := by rw [pow_mul]; norm_num
  rw [if_pos (by rw [e]; exact h)]
  congr 1
  funext k
  have hv : (if k % 2 = 0 then ((x.natAbs / 2 ^ (32 * (k / 2)) % 2 ^ 32 % 65536 : ℕ) : ℤ) else ((x.natAbs / 2 ^ (32 * (k / 2)) % 2 ^ 32 / 65536 : ℕ) : ℤ)) =
      ((x.natAbs / 65536 ^ k % 65536 : ℕ) : ℤ) := by
    have e2 : (2 : ℕ) ^ (32 * (k / 2)) = 65536 ^ (2 * (k / 2)) := by rw [pow_mul, pow_mul]; norm_num
    rw [e2]
    split
    · rename_i hk
      rw [show 2 * (k / 2) = k by omega, show (2 : ℕ) ^ 32 = 65536 * 65536 by norm_num, Nat.mod_mul_right_mod]
    · rename_i hk
      rw [show (2 : ℕ) ^ 32 = 65536 * 65536 by norm_num, Nat.mod_mul_right_div_self, Nat.div_div_eq_div_mul, ← pow_succ,
        show 2 * (k / 2) + 1 = k by omega]
  dsimp only
  rw [hv]
  rfl

/-! ### What is generated -/

/-- The modulus that is used. -/
def usedModulus (D : Bool) (m : ℤ) : ℤ := if m = 0 then (if D then 2 ^ 256 else 1) else m

/-- `mod_is_zero`. -/
def zeroBit (m : ℤ) : ℤ := if m = 0 then 1 else 0

/-- What the limbs generated for the input `I` and the modulus `M` satisfy. -/
structure ModGood (D sub : Bool) (I M : Limbs ℤ) (r : ModularOut) (o q : ℤ) : Prop where
  isZero : r.isZero = zeroBit (ev (65536 : ℤ) nLimbs M)
  eq : ev (65536 : ℤ) (2 * nLimbs - 1) I = o + q * usedModulus D (ev (65536 : ℤ) nLimbs M)
  o_nonneg : 0 ≤ o
  o_lt : o < usedModulus D (ev (65536 : ℤ) nLimbs M)
  out : r.out = colLimb o
  red : r.red = colLimb (2 ^ 256 - usedModulus D (ev (65536 : ℤ) nLimbs M) + o)
  quo : r.quo = if sub then (fun i => if i < nLimbs then (if q < 0 then colLimb q i + 65535 else colLimb q i)
      else if i = nLimbs then (if q < 0 then 1 else 0) else colLimb q i) else colLimb q
  high : ∀ i < nLimbs - 1, polMul (2 * nLimbs) nLimbs (colLimb q) (addAt M 0 (zeroBit (ev (65536 : ℤ) nLimbs M))) (2 * nLimbs + i) = 0
  root : ∀ i < 2 * nLimbs, polAdjoinRoot (fun j => r.aux j - auxMax) 65536 i = zeroExtend (2 * nLimbs - 1) I i - zeroExtend nLimbs (colLimb o) i -
    polMul (2 * nLimbs) nLimbs (colLimb q) (addAt M 0 (zeroBit (ev (65536 : ℤ) nLimbs M))) i
  aux : ∀ i, auxMax - 1048562 ≤ r.aux i ∧ r.aux i ≤ auxMax + 1048562
  last : r.aux (2 * nLimbs - 1) = auxMax

theorem polMul_congr {n m : ℕ} {a b c d : Limbs ℤ} (h1 : ∀ i < n, a i = c i) (h2 : ∀ i < m, b i = d i) (k : ℕ) :
    polMul n m a b k = polMul n m c d k := by
  rw [polMul_eq, polMul_eq]
  refine sum_congr rfl (fun i hi => sum_congr rfl (fun j hj => ?_))
  rw [h1 i (mem_range.1 hi), h2 j (mem_range.1 hj)]

theorem polMul_zero_left {n m : ℕ} {a b : Limbs ℤ} (h : ∀ i < n, a i = 0) (k : ℕ) : polMul n m a b k = 0 := by
  rw [polMul_eq]
  refine sum_eq_zero (fun i hi => sum_eq_zero (fun j _ => ?_))
  rw [h i (mem_range.1 hi)]; simp

theorem pow_256 : (65536 : ℤ) ^ 16 = 2 ^ 256 := by norm_num
theorem pow_512 : (65536 : ℤ) ^ 32 = 2 ^ 512 := by rw [show (65536 : ℤ) = 2 ^ 16 by norm_num, ← pow_mul]

/-- The product of quotient and modulus has no high coefficients. -/
theorem high_zero {q : ℤ} {N : Limbs ℤ} (bN : ∀ i < nLimbs, 0 ≤ N i) (hq : q.natAbs < 65536 ^ (2 * nLimbs))
    (h : |q * ev (65536 : ℤ) nLimbs N| < 65536 ^ 32) :
    (∀ i < nLimbs - 1, polMul (2 * nLimbs) nLimbs (colLimb q) N (2 * nLimbs + i) = 0) ∧
      ev (65536 : ℤ) (2 * nLimbs) (polMul (2 * nLimbs) nLimbs (colLimb q) N) = q * ev (65536 : ℤ) nLimbs N := by
  have hev : ev (65536 : ℤ) 47 (polMul (2 * nLimbs) nLimbs (colLimb q) N) = q * ev (65536 : ℤ) nLimbs N := by
    rw [ev_polMul _ (by decide), ev_colLimb hq]
  have hhi : ∀ i < 47, 32 ≤ i → polMul (2 * nLimbs) nLimbs (colLimb q) N i = 0 := by
    rcases lt_or_ge q 0 with h0 | h0
    · have h1 : ∀ i < 47, 32 ≤ i → polMul (2 * nLimbs) nLimbs (fun i => -colLimb q i) N i = 0 := by
        refine coeff_zero (fun i _ => polMul_nonneg (fun j _ => by have := colLimb_neg h0 j; omega) bN i) ?_
        rw [ev_congr _ (fun i _ => polMul_neg _ _ _ _ i)]
        have e : ∀ a : Limbs ℤ, ev (65536 : ℤ) 47 (fun i => -a i) = -ev (65536 : ℤ) 47 a := by
          intro a; unfold ev; rw [← sum_neg_distrib]; exact sum_congr rfl (fun i _ => by ring)
        rw [e, hev]
        exact (neg_le_abs _).trans_lt h
      intro i hi h32
      have := h1 i hi h32
      rw [polMul_neg] at this
      omega
    · refine coeff_zero (fun i _ => polMul_nonneg (fun j _ => (colLimb_nonneg h0 j).1) bN i) ?_
      rw [hev]
      exact (le_abs_self _).trans_lt h
  refine ⟨fun i hi => hhi _ (by simp only [nLimbs] at *; omega) (by simp only [nLimbs]; omega), ?_⟩
  rw [← hev, show (47 : ℕ) = 2 * nLimbs + 15 from rfl, ev_split]
  have : ev (65536 : ℤ) 15 (fun i => polMul (2 * nLimbs) nLimbs (colLimb q) N (2 * nLimbs + i)) = 0 := by
    unfold ev
    exact sum_eq_zero (fun i hi => by beta_reduce; rw [hhi _ (by rw [mem_range] at hi; simp only [nLimbs]; omega) (by simp only [nLimbs]; omega), zero_mul])
  rw [this, mul_zero, add_zero]


theorem addAt_nonneg {M : Limbs ℤ} {n : ℕ} (h : ∀ i < n, 0 ≤ M i) {z : ℤ} (hz : 0 ≤ z) : ∀ i < n, 0 ≤ addAt M 0 z i := by
  intro i hi
  rw [addAt_eq]
  have := h i hi
  split <;> omega

/-- The generation of a modular operation does not fail, and what it gives satisfies the equations the constraints are about. -/
theorem modularLimbs_good {filter : ℕ} {I M : Limbs ℤ} (bM : ∀ i < nLimbs, 0 ≤ M i ∧ M i < 65536)
    (bI : (∀ i < 2 * nLimbs - 1, 0 ≤ I i ∧ I i ≤ 16 * (65535 * 65535)) ∨ (∀ i < 2 * nLimbs - 1, |I i| ≤ 65535))
    (h1 : -2 ^ 256 < ev (65536 : ℤ) (2 * nLimbs - 1) I) (h2 : ev (65536 : ℤ) (2 * nLimbs - 1) I < 2 ^ 512)
    (hD : (filter = IS_DIV || filter = IS_SHR) = true → 0 ≤ ev (65536 : ℤ) (2 * nLimbs - 1) I ∧ ev (65536 : ℤ) (2 * nLimbs - 1) I < 2 ^ 256) :
    ∃ r o q, modularLimbs filter I M = some r ∧
      ModGood (filter = IS_DIV || filter = IS_SHR) (filter = IS_SUBMOD || filter = IS_SUBFP254) I M r o q := by
  obtain ⟨m0, m1⟩ := ev_lt (n := nLimbs) (a := M) bM
  simp only [base, Nat.cast_ofNat] at m0 m1
  rw [show nLimbs = 16 from rfl, pow_256] at m1
  have e1 : columnsToBigint 8 M = ev (65536 : ℤ) nLimbs M :=
    columnsToBigint_eq (fun i hi => by have := bM i (by simp only [nLimbs]; omega); rw [abs_le]; constructor <;> omega)
  have e2 : columnsToBigint 16 (zeroExtend (2 * nLimbs - 1) I) = ev (65536 : ℤ) (2 * nLimbs - 1) I := by
    rw [columnsToBigint_eq, ev_zeroExtend _ (by decide)]
    intro i _
    unfold zeroExtend
    split
    · rename_i hi
      rcases bI with b | b
      · have := b i hi; rw [abs_le]; constructor <;> omega
      · have := b i hi; omega
    · norm_num
  generalize hD' : (filter = IS_DIV || filter = IS_SHR) = D at *
  generalize hx : ev (65536 : ℤ) (2 * nLimbs - 1) I = x at *
  generalize hm : ev (65536 : ℤ) nLimbs M = m at *
  -- the modulus
  have hM0 : m = 0 → ∀ i < nLimbs, M i = 0 := by
    intro h0 i hi
    exact coeff_zero (fun j hj => (bM j hj).1) (t := 0) (by rw [hm, h0]; norm_num) i hi (Nat.zero_le _)
  have hu : 0 < usedModulus D m ∧ usedModulus D m ≤ 2 ^ 256 := by
    unfold usedModulus
    split
    · split <;> norm_num
    · omega
  -- output and quotient
  have ho : (if x.tmod (usedModulus D m) < 0 then x.tmod (usedModulus D m) + usedModulus D m else x.tmod (usedModulus D m)) = x % usedModulus D m := by
    have h3 := Int.tmod_eq_emod (a := x) (b := usedModulus D m)
    have h4 := Int.emod_nonneg x hu.1.ne'
    have h5 := Int.emod_lt_of_pos x hu.1
    generalize x % usedModulus D m = o at *
    rw [h3]
    by_cases hc : 0 ≤ x ∨ usedModulus D m ∣ x
    · rw [if_pos hc]; split <;> omega
    · rw [if_neg hc]; split <;> omega
  have hq : (x - x % usedModulus D m).tdiv (usedModulus D m) = x / usedModulus D m := by
    have : x - x % usedModulus D m = usedModulus D m * (x / usedModulus D m) := by
      have := Int.emod_add_mul_ediv x (usedModulus D m); omega
    rw [this, Int.mul_tdiv_cancel_left _ hu.1.ne']
  have hdm := Int.emod_add_mul_ediv x (usedModulus D m)
  have ho0 := Int.emod_nonneg x hu.1.ne'
  have ho1 := Int.emod_lt_of_pos x hu.1
  generalize hxo : x % usedModulus D m = o at *
  generalize hxq : x / usedModulus D m = q at *
  have hq0 : 0 ≤ x → 0 ≤ q := fun h => by rw [← hxq]; exact Int.ediv_nonneg h hu.1.le
  have hqu : |usedModulus D m * q| < 65536 ^ 32 := by
    rw [pow_512, abs_lt]; constructor <;> omega
  have hqle : |q| ≤ |usedModulus D m * q| := by
    rw [abs_mul, abs_of_pos hu.1]; exact le_mul_of_one_le_left (abs_nonneg _) (by omega)
  have hqn : q.natAbs < 65536 ^ (2 * nLimbs) := by
    have := hqle.trans_lt hqu
    rw [Int.abs_eq_natAbs] at this
    exact_mod_cast this
  have hon : o.natAbs < 65536 ^ nLimbs := by
    have e : (65536 : ℕ) ^ nLimbs = 2 ^ 256 := by norm_num
    rw [e]; omega
  have hrn : (2 ^ 256 - usedModulus D m + o).natAbs < 65536 ^ nLimbs := by
    have e : (65536 : ℕ) ^ nLimbs = 2 ^ 256 := by norm_num
    rw [e]; omega
  -- the modulus limbs that are used
  have hDq : m = 0 → D = true → q = 0 := by
    intro h0 hd
    obtain ⟨a, b⟩ := hD hd
    rw [← hxq]
    unfold usedModulus
    rw [if_pos h0, if_pos hd]
    exact Int.ediv_eq_zero_of_lt a b
  have hprod : ∀ k, polMul (2 * nLimbs) nLimbs (colLimb q) (if m = 0 && !D then (fun i => if i = 0 then 1 else M i) else M) k =
      polMul (2 * nLimbs) nLimbs (colLimb q) (addAt M 0 (zeroBit m)) k := by
    intro k
    by_cases h0 : m = 0
    · cases hd : D
      · refine polMul_congr (fun _ _ => rfl) (fun i hi => ?_) k
        rw [addAt_eq]
        simp only [h0, zeroBit]
        have := hM0 h0 i hi
        by_cases hi0 : i = 0
        · subst hi0; simp [this]
        · simp [hi0, Ne.symm hi0]
      · have : ∀ i < 2 * nLimbs, colLimb q i = 0 := fun i _ => by rw [hDq h0 hd]; simp [colLimb]
        rw [polMul_zero_left this, polMul_zero_left this]
    · refine polMul_congr (fun _ _ => rfl) (fun i hi => ?_) k
      rw [addAt_eq]
      simp [h0, zeroBit]
  have hevN : ev (65536 : ℤ) nLimbs (addAt M 0 (zeroBit m)) = m + zeroBit m := by rw [ev_addAt _ (by decide), hm]
  have hqN : q * (m + zeroBit m) = usedModulus D m * q := by
    by_cases h0 : m = 0
    · cases hd : D
      · simp [usedModulus, zeroBit, h0]
      · rw [hDq h0 hd]; simp
    · simp [usedModulus, zeroBit, h0, mul_comm]
  have bN : ∀ i < nLimbs, 0 ≤ addAt M 0 (zeroBit m) i := addAt_nonneg (fun i hi => (bM i hi).1) (by unfold zeroBit; split <;> norm_num)
  have bN' : ∀ i < nLimbs, |addAt M 0 (zeroBit m) i| ≤ 65535 := by
    intro i hi
    rw [abs_of_nonneg (bN i hi), addAt_eq]
    have := bM i hi
    unfold zeroBit
    by_cases h0 : m = 0
    · rw [hM0 h0 i hi, if_pos h0]; split <;> omega
    · rw [if_neg h0]; split <;> omega
  obtain ⟨hhigh, hev⟩ := high_zero bN hqn (by rw [hevN, hqN]; exact hqu)
  rw [hevN, hqN] at hev
  -- the polynomial that is zero at the base
  have hpoly : ∀ i < 2 * nLimbs, polSub (2 * nLimbs) (polSub nLimbs (zeroExtend (2 * nLimbs - 1) I) (colLimb o))
      (polMul (2 * nLimbs) nLimbs (colLimb q) (if m = 0 && !D then (fun i => if i = 0 then 1 else M i) else M)) i =
      zeroExtend (2 * nLimbs - 1) I i - zeroExtend nLimbs (colLimb o) i - polMul (2 * nLimbs) nLimbs (colLimb q) (addAt M 0 (zeroBit m)) i := by
    intro i hi
    have e : polSub nLimbs (zeroExtend (2 * nLimbs - 1) I) (colLimb o) i = zeroExtend (2 * nLimbs - 1) I i - zeroExtend nLimbs (colLimb o) i := by
      generalize zeroExtend (2 * nLimbs - 1) I = J
      unfold polSub zeroExtend
      by_cases h : i < nLimbs
      · rw [if_pos h, if_pos h]
      · rw [if_neg h, if_neg h, sub_zero]
    rw [polSub, if_pos hi, hprod, e]
  have hzero : ev (65536 : ℤ) (2 * nLimbs) (polSub (2 * nLimbs) (polSub nLimbs (zeroExtend (2 * nLimbs - 1) I) (colLimb o))
      (polMul (2 * nLimbs) nLimbs (colLimb q) (if m = 0 && !D then (fun i => if i = 0 then 1 else M i) else M))) = 0 := by
    rw [ev_congr _ hpoly, ev_sub, ev_sub, ev_zeroExtend _ (by decide), ev_zeroExtend _ (by decide), hx, ev_colLimb hon, hev]
    omega
  have hbound : ∀ i < 2 * nLimbs, |polSub (2 * nLimbs) (polSub nLimbs (zeroExtend (2 * nLimbs - 1) I) (colLimb o))
      (polMul (2 * nLimbs) nLimbs (colLimb q) (if m = 0 && !D then (fun i => if i = 0 then 1 else M i) else M)) i| ≤ 65535 * 1048562 := by
    intro i hi
    rw [hpoly i hi]
    have b1 := abs_polMul_le' (n := 2 * nLimbs) (m := nLimbs) (a := colLimb q) (A := 65535) (B := 65535) (fun j _ => colLimb_abs q j) bN' (by norm_num) (by norm_num) i
    have b2 : 0 ≤ zeroExtend nLimbs (colLimb o) i ∧ zeroExtend nLimbs (colLimb o) i ≤ 65535 := by
      unfold zeroExtend
      split
      · have := colLimb_nonneg ho0 i; omega
      · omega
    push_cast at b1
    rw [abs_le] at b1 ⊢
    rcases bI with b | b
    · have b3 : 0 ≤ zeroExtend (2 * nLimbs - 1) I i ∧ zeroExtend (2 * nLimbs - 1) I i ≤ 16 * (65535 * 65535) := by
        unfold zeroExtend
        split
        · rename_i h; exact b i h
        · omega
      have hx0 : 0 ≤ x := by
        rw [← hx]; unfold ev
        exact sum_nonneg (fun j hj => mul_nonneg (b j (mem_range.1 hj)).1 (by positivity))
      have b4 := polMul_nonneg (n := 2 * nLimbs) (a := colLimb q) (fun j _ => (colLimb_nonneg (hq0 hx0) j).1) bN i
      constructor <;> omega
    · have b3 : -65535 ≤ zeroExtend (2 * nLimbs - 1) I i ∧ zeroExtend (2 * nLimbs - 1) I i ≤ 65535 := by
        unfold zeroExtend
        split
        · rename_i h; exact abs_le.1 (b i h)
        · omega
      constructor <;> omega
  have hroot := removeRoot_adjoin (by decide) hzero
  have hrb := removeRoot_bound (K := 1048562) (by decide) hzero hbound (by norm_num) le_rfl
  refine ⟨⟨zeroBit m, colLimb o, if filter = IS_SUBMOD ∨ filter = IS_SUBFP254 then
      (fun i => if i < nLimbs then (if q < 0 then colLimb q i + 65535 else colLimb q i)
        else if i = nLimbs then (if q < 0 then 1 else 0) else colLimb q i) else colLimb q, colLimb (2 ^ 256 - usedModulus D m + o),
      fun i => removeRoot (2 * nLimbs) (polSub (2 * nLimbs) (polSub nLimbs (zeroExtend (2 * nLimbs - 1) I) (colLimb o))
        (polMul (2 * nLimbs) nLimbs (colLimb q) (if m = 0 && !D then (fun i => if i = 0 then 1 else M i) else M))) i + auxMax⟩, o, q, ?_, ?_⟩
  · unfold modularLimbs
    dsimp only
    have eu : (if m = 0 then (if D = true then 2 ^ 256 else 1) else m) = usedModulus D m := rfl
    rw [hD', e1, e2, eu, ho, hq, bigint_some hon, bigint_some hqn, bigint_some hrn]
    rfl
  · constructor
    · rw [hm]
    · rw [hx, hm]; linarith
    · exact ho0
    · rw [hm]; exact ho1
    · rfl
    · rw [hm]
    · simp only [Bool.or_eq_true, decide_eq_true_eq]
    · rw [hm]; exact hhigh
    · intro i hi
      rw [hm, ← hpoly i hi, ← hroot i hi]
      refine congrArg (fun f => polAdjoinRoot f (65536 : ℤ) i) (funext fun j => ?_)
      exact add_sub_cancel_right _ _
    · intro i
      have := hrb i
      rw [abs_le] at this
      dsimp only
      omega
    · show removeRoot _ _ (30 + 1) + (auxMax : ℤ) = auxMax
      rw [removeRoot, if_neg (by decide), zero_add]

/-! ### The constraints -/

theorem polMul_cast {n m : ℕ} {a b : Limbs F} {A B : Limbs ℤ} (ha : ∀ i < n, a i = (A i : F)) (hb : ∀ i < m, b i = (B i : F)) (k : ℕ) :
    polMul n m a b k = ((polMul n m A B k : ℤ) : F) := by
  rw [polMul_eq, polMul_eq, Int.cast_sum]
  refine sum_congr rfl (fun i hi => ?_)
  rw [Int.cast_sum]
  refine sum_congr rfl (fun j hj => ?_)
  rw [ha i (mem_range.1 hi), hb j (mem_range.1 hj)]
  split <;> push_cast <;> rfl

theorem modular_complete {lv nv : Row F} {D sub : Bool} {I M : Limbs ℤ} {r : ModularOut} {o q : ℤ} (g : ModGood D sub I M r o q)
    (bM : ∀ i < nLimbs, 0 ≤ M i ∧ M i < 65536) (hdiv : lv IS_DIV + lv IS_SHR = if D then 1 else 0) {output modulus quot : Limbs F}
    (hout : ∀ i < nLimbs, output i = (colLimb o i : F)) (hmod : ∀ i < nLimbs, modulus i = (M i : F))
    (hquo : ∀ i < 2 * nLimbs, quot i = (colLimb q i : F))
    (nlo : ∀ i < 2 * nLimbs - 1, nv (MODULAR_AUX_INPUT_LO + i) = lo16 (r.aux i))
    (nhi : ∀ i < 2 * nLimbs - 1, nv (MODULAR_AUX_INPUT_HI + i) = hi16 (r.aux i))
    (nz : nv MODULAR_MOD_IS_ZERO = (r.isZero : F)) (nred : ∀ i < nLimbs, nv (MODULAR_OUT_AUX_RED + i) = (r.red i : F))
    (nd : nv MODULAR_DIV_DENOM_IS_ZERO = (r.isZero : F) * (lv IS_DIV + lv IS_SHR)) :
    AllZero (modularConstrPoly lv nv 1 output modulus quot).1 ∧
      ∀ i < 2 * nLimbs, (modularConstrPoly lv nv 1 output modulus quot).2 i = ((zeroExtend (2 * nLimbs - 1) I i : ℤ) : F) := by
  obtain ⟨m0, m1⟩ := ev_lt (n := nLimbs) (a := M) bM
  simp only [base, Nat.cast_ofNat] at m0 m1
  rw [show nLimbs = 16 from rfl, pow_256] at m1
  obtain ⟨gz, geq, go0, go1, gout, gred, -, ghigh, groot, gaux, glast⟩ := g
  rw [gz] at nz nd
  generalize hm : ev (65536 : ℤ) nLimbs M = m at *
  have hM0 : m = 0 → ∀ i < nLimbs, M i = 0 := by
    intro h0 i hi
    exact coeff_zero (fun j hj => (bM j hj).1) (t := 0) (by rw [hm, h0]; norm_num) i hi (Nat.zero_le _)
  have hu : 0 < usedModulus D m ∧ usedModulus D m ≤ 2 ^ 256 := by
    unfold usedModulus
    split
    · split <;> norm_num
    · omega
  have hmod' : ∀ i < nLimbs, addAt modulus 0 (nv MODULAR_MOD_IS_ZERO) i = ((addAt M 0 (zeroBit m) i : ℤ) : F) := addAt_cast hmod nz
  have hprod := polMul_cast (n := 2 * nLimbs) (m := nLimbs) hquo hmod'
  have hred : ∀ i < nLimbs, reg nv MODULAR_OUT_AUX_RED i = ((colLimb (2 ^ 256 - usedModulus D m + o) i : ℤ) : F) := by
    intro i hi; rw [reg, nred i hi, gred]
  have hrn : (2 ^ 256 - usedModulus D m + o).natAbs < 65536 ^ nLimbs := by
    have e : (65536 : ℕ) ^ nLimbs = 2 ^ 256 := by norm_num
    rw [e]; omega
  have hon : o.natAbs < 65536 ^ nLimbs := by
    have e : (65536 : ℕ) ^ nLimbs = 2 ^ 256 := by norm_num
    rw [e]; omega
  have hz01 : zeroBit m = 0 ∨ zeroBit m = 1 := by unfold zeroBit; split <;> simp
  constructor
  · unfold modularConstrPoly
    dsimp only
    refine ((AllZero.append ?_ ?_).append (.map fun i hi => ?_))
    · intro c hc
      simp only [List.mem_cons, List.not_mem_nil, or_false] at hc
      rcases hc with rfl | rfl | rfl
      · dsimp only
        rw [nz]; rcases hz01 with h | h <;> rw [h] <;> simp
      · dsimp only
        by_cases h0 : m = 0
        · have : ((List.range nLimbs).map modulus).sum = 0 := by
            rw [sum_range_map]
            exact sum_eq_zero (fun i hi => by rw [hmod i (mem_range.1 hi), hM0 h0 i (mem_range.1 hi)]; simp)
          rw [this]; ring
        · rw [nz]; unfold zeroBit; rw [if_neg h0]; simp
      · dsimp only
        rw [nz, nd]; ring
    · unfold checkReduced
      dsimp only
      have hout' : ∀ i < nLimbs, addAt output 0 (nv MODULAR_DIV_DENOM_IS_ZERO) i =
          ((addAt (colLimb o) 0 (zeroBit m * (if D then 1 else 0)) i : ℤ) : F) := by
        refine addAt_cast hout ?_
        rw [nd, hdiv]; split <;> simp
      by_cases hs : m = 0 ∧ D = true
      · obtain ⟨h0, hd⟩ := hs
        have hu' : usedModulus D m = 2 ^ 256 := by unfold usedModulus; rw [if_pos h0, if_pos hd]
        rw [hu', sub_self, zero_add] at hred
        refine addcy_complete (c := fun _ => 0) hmod' hred hout' rfl (fun i hi => ?_) (fun _ _ => .inl rfl) ?_ (fun i hi _ => if_neg (by omega))
        · rw [addAt_eq, addAt_eq, hM0 h0 i hi]
          simp only [zeroBit, h0, hd, if_true]
          ring
        · rw [if_pos rfl, nz, hdiv, if_pos hd]; simp [zeroBit, h0]
      · have hzD : zeroBit m * (if D = true then 1 else 0) = 0 := by
          unfold zeroBit
          by_cases h0 : m = 0
          · rw [if_neg (fun h => hs ⟨h0, h⟩), mul_zero]
          · rw [if_neg h0, zero_mul]
        rw [hzD] at hout'
        have hN : m + zeroBit m = usedModulus D m := by
          unfold zeroBit usedModulus
          by_cases h0 : m = 0
          · rw [if_pos h0, if_pos h0, if_neg (fun h => hs ⟨h0, h⟩), h0, zero_add]
          · rw [if_neg h0, if_neg h0, add_zero]
        refine addcy_of_sum (cy := 1) hmod' hred hout' (fun i hi => ?_) (fun i _ => colLimb_nonneg (by omega) i)
          (fun i _ => ?_) ?_ ?_ (fun i hi _ => if_neg (by omega))
        · rw [addAt_eq]
          have := bM i hi
          by_cases h0 : m = 0
          · rw [hM0 h0 i hi]; split <;> omega
          · have : zeroBit m = 0 := by unfold zeroBit; rw [if_neg h0]
            rw [this]; split <;> omega
        · rw [addAt_eq]
          have := colLimb_nonneg go0 i
          split <;> omega
        · rw [ev_addAt _ (by decide), ev_addAt _ (by decide), hm, ev_colLimb hrn, ev_colLimb hon, hN, show nLimbs = 16 from rfl, pow_256]; ring
        · rw [if_pos rfl, nz, hdiv]
          have : ((zeroBit m : ℤ) : F) * (if D = true then 1 else 0) = ((zeroBit m * (if D = true then 1 else 0) : ℤ) : F) := by split <;> simp
          rw [this, hzD]; simp
    · rw [hprod, ghigh i hi]; simp
  · intro i hi
    unfold modularConstrPoly
    dsimp only
    have haux : ∀ j < 2 * nLimbs, modularAux nv j = ((r.aux j - auxMax : ℤ) : F) := by
      intro j hj
      unfold modularAux
      have hb := gaux j
      split
      · rename_i h
        rw [nlo j h, nhi j h]
        have := lo_hi (c := r.aux j) (by push_cast at hb; omega) (by push_cast at hb; omega)
        push_cast
        linear_combination this
      · obtain rfl : j = 2 * nLimbs - 1 := by omega
        rw [glast]; simp
    have hadj : polAdjoinRoot (modularAux nv) 65536 i = ((polAdjoinRoot (fun j => r.aux j - auxMax) 65536 i : ℤ) : F) := by
      unfold polAdjoinRoot
      split
      · rw [haux 0 (by decide)]; push_cast; ring
      · rw [haux (i - 1) (by omega), haux i hi]; push_cast; ring
    rw [polAdd, if_pos hi, hadj, groot i hi]
    have e : polAdd nLimbs (polMul (2 * nLimbs) nLimbs quot (addAt modulus 0 (nv MODULAR_MOD_IS_ZERO))) output i =
        ((polMul (2 * nLimbs) nLimbs (colLimb q) (addAt M 0 (zeroBit m)) i + zeroExtend nLimbs (colLimb o) i : ℤ) : F) := by
      unfold polAdd zeroExtend
      by_cases h : i < nLimbs
      · rw [if_pos h, if_pos h, hprod, hout i h]; push_cast; rfl
      · rw [if_neg h, if_neg h, hprod, add_zero]
    rw [e]
    push_cast
    ring

end Verif.Stark.Arith
