import Verif.Stark.Arith.Columns
import Mathlib.Tactic.Abel

/-! Polynomials given by their coefficients. `evm_arithmetization/src/arithmetic/utils.rs`. -/

namespace Verif.Stark.Arith

open Finset

variable {R S : Type} [CommRing R] [CommRing S]

/-- `pol_add_assign`, and `pol_add` with the zeros it appends. The arrays are functions here, zero beyond the `n` values of
the shorter one. `utils.rs:28-36, 51-60`. -/
def polAdd (n : ℕ) (a b : Limbs R) : Limbs R := fun i => if i < n then a i + b i else a i

/-- `pol_sub_assign`: the `n` values of the second array are subtracted. `utils.rs:102-110`. -/
def polSub (n : ℕ) (a b : Limbs R) : Limbs R := fun i => if i < n then a i - b i else a i

/-- The first `n` values, then zeros: `pol_zero` and a copy, `pol_extend`. `utils.rs:14-25, 219-228`. -/
def zeroExtend (n : ℕ) (a : Limbs R) : Limbs R := fun i => if i < n then a i else 0

/-- `res[k] += v`. -/
def addAt (res : Limbs R) (k : ℕ) (v : R) : Limbs R := fun i => if i = k then res i + v else res i

/-- `pol_mul_wide` and `pol_mul_wide2`: the product of `n` by `m` coefficients. `utils.rs:128-139, 158-169`. -/
def polMul (n m : ℕ) (a b : Limbs R) : Limbs R :=
  (List.range n).foldl (fun res i => (List.range m).foldl (fun res j => addAt res (i + j) (a i * b j)) res) (fun _ => 0)

/-- `pol_mul_lo`: the coefficients of the product below the length. `utils.rs:187-200`. -/
def polMulLo (a b : Limbs R) : Limbs R := fun deg =>
  (List.range (deg + 1)).foldl (fun acc i => acc + a i * b (deg - i)) 0

/-- `pol_adjoin_root`: `(x - root) a(x)`. `utils.rs:232-247`. -/
def polAdjoinRoot (a : Limbs R) (root : R) : Limbs R := fun i => if i = 0 then -root * a 0 else a (i - 1) - root * a i

/-! ### Facts -/

theorem addAt_eq (res : Limbs R) (k : ℕ) (v : R) (i : ℕ) : addAt res k v i = res i + if k = i then v else 0 := by
  unfold addAt
  by_cases h : i = k
  · simp [h]
  · simp [h, Ne.symm h]

theorem foldl_addAt {m : ℕ} (res : Limbs R) (pos : ℕ → ℕ) (v : ℕ → R) (k : ℕ) :
    (List.range m).foldl (fun res j => addAt res (pos j) (v j)) res k = res k + ∑ j ∈ range m, if pos j = k then v j else 0 := by
  induction m with
  | zero => simp
  | succ m ih =>
    rw [List.range_succ, List.foldl_append, sum_range_succ, List.foldl_cons, List.foldl_nil, addAt_eq, ih]
    abel

theorem polMul_eq (n m : ℕ) (a b : Limbs R) (k : ℕ) :
    polMul n m a b k = ∑ i ∈ range n, ∑ j ∈ range m, if i + j = k then a i * b j else 0 := by
  unfold polMul
  induction n with
  | zero => simp
  | succ n ih =>
    rw [List.range_succ, List.foldl_append, sum_range_succ, List.foldl_cons, List.foldl_nil, foldl_addAt, ih]

theorem polMulLo_eq (a b : Limbs R) (k : ℕ) : polMulLo a b k = ∑ i ∈ range (k + 1), a i * b (k - i) := by
  unfold polMulLo
  have : ∀ n, (List.range n).foldl (fun acc i => acc + a i * b (k - i)) 0 = ∑ i ∈ range n, a i * b (k - i) := by
    intro n
    induction n with
    | zero => simp
    | succ n ih => rw [List.range_succ, List.foldl_append, sum_range_succ, List.foldl_cons, List.foldl_nil, ih]
  exact this _

theorem polMulLo_eq_polMul {n k : ℕ} (hk : k < n) (a b : Limbs R) : polMulLo a b k = polMul n n a b k := by
  rw [polMulLo_eq, polMul_eq]
  have h1 : ∀ i ∈ range n, (∑ j ∈ range n, if i + j = k then a i * b j else 0) = if i ∈ range (k + 1) then a i * b (k - i) else 0 := by
    intro i _
    by_cases hi : i ≤ k
    · rw [if_pos (by simp; omega), sum_eq_single (k - i)]
      · rw [if_pos (by omega)]
      · intro j _ hj; rw [if_neg (by omega)]
      · intro h; simp at h; omega
    · rw [if_neg (by simp; omega)]
      exact sum_eq_zero (fun j _ => by rw [if_neg (by omega)])
  rw [sum_congr rfl h1, ← sum_filter]
  congr 1
  ext i; simp; omega

/-- The value at `x` of the polynomial with the first `n` coefficients. (Specification.) -/
def ev (x : R) (n : ℕ) (a : Limbs R) : R := ∑ i ∈ range n, a i * x ^ i

theorem ev_succ (x : R) (n : ℕ) (a : Limbs R) : ev x (n + 1) a = ev x n a + a n * x ^ n := sum_range_succ _ _

theorem ev_congr (x : R) {n : ℕ} {a b : Limbs R} (h : ∀ i < n, a i = b i) : ev x n a = ev x n b :=
  sum_congr rfl (fun i hi => by rw [h i (mem_range.1 hi)])

theorem ev_add (x : R) (n : ℕ) (a b : Limbs R) : ev x n (fun i => a i + b i) = ev x n a + ev x n b := by
  unfold ev; rw [← sum_add_distrib]; exact sum_congr rfl (fun i _ => by ring)

theorem ev_sub (x : R) (n : ℕ) (a b : Limbs R) : ev x n (fun i => a i - b i) = ev x n a - ev x n b := by
  unfold ev; rw [← sum_sub_distrib]; exact sum_congr rfl (fun i _ => by ring)

theorem ev_zeroExtend (x : R) {n m : ℕ} (h : n ≤ m) (a : Limbs R) : ev x m (zeroExtend n a) = ev x n a := by
  unfold ev zeroExtend
  rw [← sum_subset (range_subset_range.2 h) (f := fun i => (if i < n then a i else 0) * x ^ i)]
  · exact sum_congr rfl (fun i hi => by rw [if_pos (mem_range.1 hi)])
  · intro i _ hi; rw [if_neg (by simpa using hi), zero_mul]

theorem ev_polMul (x : R) {n m l : ℕ} (hl : n + m ≤ l + 1) (a b : Limbs R) : ev x l (polMul n m a b) = ev x n a * ev x m b := by
  unfold ev
  rw [sum_mul_sum]
  have : ∀ k ∈ range l, polMul n m a b k * x ^ k = ∑ i ∈ range n, ∑ j ∈ range m, if i + j = k then a i * x ^ i * (b j * x ^ j) else 0 := by
    intro k _
    rw [polMul_eq, sum_mul]
    refine sum_congr rfl (fun i _ => ?_)
    rw [sum_mul]
    refine sum_congr rfl (fun j _ => ?_)
    split
    · rename_i h; rw [← h, pow_add]; ring
    · simp
  rw [sum_congr rfl this, sum_comm]
  refine sum_congr rfl (fun i hi => ?_)
  rw [sum_comm]
  refine sum_congr rfl (fun j hj => ?_)
  rw [sum_eq_single (i + j)]
  · simp
  · intro k _ hk; rw [if_neg (Ne.symm hk)]
  · intro h; simp at h hi hj; omega

theorem ev_split (x : R) (n m : ℕ) (a : Limbs R) : ev x (n + m) a = ev x n a + x ^ n * ev x m (fun i => a (n + i)) := by
  unfold ev
  rw [sum_range_add, mul_sum]
  congr 1
  exact sum_congr rfl (fun i _ => by rw [pow_add]; ring)

/-- The low half of the product is the product up to a multiple of `x ^ n`. -/
theorem ev_polMulLo (x : R) (n : ℕ) (a b : Limbs R) : ∃ q, ev x n a * ev x n b = ev x n (polMulLo a b) + x ^ n * q := by
  refine ⟨ev x n (fun i => polMul n n a b (n + i)), ?_⟩
  rw [← ev_polMul x (Nat.le_succ (n + n)), ev_split]
  congr 1
  exact ev_congr x (fun i hi => (polMulLo_eq_polMul hi a b).symm)

theorem ev_adjoin (x : R) (n : ℕ) (a : Limbs R) : ev x (n + 1) (polAdjoinRoot a x) = -(x ^ (n + 1) * a n) := by
  induction n with
  | zero => simp [ev, polAdjoinRoot]
  | succ n ih =>
    rw [ev_succ, ih]
    simp only [polAdjoinRoot, Nat.succ_ne_zero, if_false, Nat.add_sub_cancel]
    ring

/-! ### Passing through a ring homomorphism -/

theorem map_polMul (f : R →+* S) (n m : ℕ) (a b : Limbs R) (k : ℕ) :
    polMul n m (fun i => f (a i)) (fun i => f (b i)) k = f (polMul n m a b k) := by
  rw [polMul_eq, polMul_eq, map_sum]
  refine sum_congr rfl (fun i _ => ?_)
  rw [map_sum]
  refine sum_congr rfl (fun j _ => ?_)
  split <;> simp

theorem map_polMulLo (f : R →+* S) (a b : Limbs R) (k : ℕ) :
    polMulLo (fun i => f (a i)) (fun i => f (b i)) k = f (polMulLo a b k) := by
  rw [polMulLo_eq, polMulLo_eq, map_sum]
  exact sum_congr rfl (fun i _ => by simp)

theorem map_adjoin (f : R →+* S) (a : Limbs R) (x : R) (k : ℕ) :
    polAdjoinRoot (fun i => f (a i)) (f x) k = f (polAdjoinRoot a x k) := by
  unfold polAdjoinRoot; split <;> simp

/-! ### Bounds over the integers -/

theorem abs_polMul_le {n m : ℕ} {a b : Limbs ℤ} {A B : ℤ} (ha : ∀ i < n, |a i| ≤ A) (hb : ∀ i < m, |b i| ≤ B)
    (hA : 0 ≤ A) (hB : 0 ≤ B) (k : ℕ) : |polMul n m a b k| ≤ n * m * (A * B) := by
  rw [polMul_eq]
  refine (abs_sum_le_sum_abs _ _).trans ?_
  have : ∀ i ∈ range n, |∑ j ∈ range m, if i + j = k then a i * b j else 0| ≤ m * (A * B) := by
    intro i hi
    refine (abs_sum_le_sum_abs _ _).trans ?_
    refine (sum_le_card_nsmul _ _ (A * B) (fun j hj => ?_)).trans (by simp)
    split
    · rw [abs_mul]; exact mul_le_mul (ha i (mem_range.1 hi)) (hb j (mem_range.1 hj)) (abs_nonneg _) hA
    · simp; exact mul_nonneg hA hB
  refine (sum_le_card_nsmul _ _ _ this).trans (le_of_eq ?_)
  simp [mul_assoc]

/-- Numbers with limbs below the base are below its power. -/
theorem ev_lt {n : ℕ} {a : Limbs ℤ} (h : ∀ i < n, 0 ≤ a i ∧ a i < base) : 0 ≤ ev (base : ℤ) n a ∧ ev (base : ℤ) n a < base ^ n := by
  induction n with
  | zero => simp [ev]
  | succ n ih =>
    obtain ⟨h1, h2⟩ := ih (fun i hi => h i (by omega))
    obtain ⟨h3, h4⟩ := h n (by omega)
    rw [ev_succ, pow_succ]
    have hp : (0 : ℤ) < base ^ n := by positivity
    constructor
    · positivity
    · nlinarith

end Verif.Stark.Arith
