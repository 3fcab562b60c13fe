import Verif.Stark.Arith.Poly

/-! ADD, SUB, LT and GT. `evm_arithmetization/src/arithmetic/addcy.rs`. -/

namespace Verif.Stark.Arith

open Finset

variable {R : Type} [CommRing R]

/-- The carry into limb `i`: the variable `cy` at the start of round `i` of the loop. The factor is
`GOLDILOCKS_INVERSE_65536`. `addcy.rs:67, 122-136`. -/
def carry (x y z : Limbs R) : ℕ → R
  | 0 => 0
  | i + 1 => (carry x y z i + x i + y i - z i) * 18446462594437939201

/-- `eval_packed_generic_addcy`: `x + y = z + cy * 2^256`. `addcy.rs:98-151`. -/
def evalAddcy (filter : R) (x y z givenCy : Limbs R) (isTwoRowOp : Bool) : List (Constr R) :=
  let on := if isTwoRowOp then When.transition else When.always
  (List.range nLimbs).map (fun i =>
    let t := carry x y z i + x i + y i - z i
    ⟨on, filter * t * (65536 - t)⟩) ++
  (if isTwoRowOp then [] else [⟨on, filter * givenCy 0 * (givenCy 0 - 1)⟩]) ++
  [⟨on, filter * (carry x y z nLimbs - givenCy 0)⟩] ++
  (List.range (nLimbs - 1)).map (fun i => ⟨on, filter * givenCy (i + 1)⟩)

/-- `addcy::eval_packed_generic`. `addcy.rs:153-172`. -/
def evalAddSubLtGt (lv : Row R) : List (Constr R) :=
  let in0 := reg lv INPUT_REGISTER_0
  let in1 := reg lv INPUT_REGISTER_1
  let out := reg lv OUTPUT_REGISTER
  let aux := reg lv AUX_INPUT_REGISTER_0
  evalAddcy (lv IS_ADD) in0 in1 out aux false ++
  evalAddcy (lv IS_SUB) in1 out in0 aux false ++
  evalAddcy (lv IS_LT) in1 aux in0 out false ++
  evalAddcy (lv IS_GT) in0 aux in1 out false

/-! ### Soundness -/

theorem inv_base : (65536 : F) * 18446462594437939201 = 1 := by decide +kernel

/-- What satisfied carry constraints mean over the integers: the carries are bits and the addition is right up to each limb. -/
theorem carry_sound {x y z : Limbs F} {X Y Z : Limbs ℤ} {n : ℕ}
    (hx : ∀ i < n, x i = (X i : F)) (hy : ∀ i < n, y i = (Y i : F)) (hz : ∀ i < n, z i = (Z i : F))
    (bx : ∀ i < n, 0 ≤ X i ∧ X i ≤ 65536) (bY : ∀ i < n, 0 ≤ Y i ∧ Y i ≤ 65536) (bz : ∀ i < n, 0 ≤ Z i ∧ Z i ≤ 65536)
    (h : ∀ i < n, (carry x y z i + x i + y i - z i) * (65536 - (carry x y z i + x i + y i - z i)) = 0) :
    ∃ c : ℤ, (c = 0 ∨ c = 1) ∧ carry x y z n = (c : F) ∧ ev (base : ℤ) n X + ev (base : ℤ) n Y = ev (base : ℤ) n Z + c * base ^ n := by
  induction n with
  | zero => exact ⟨0, .inl rfl, by simp [carry], by simp [ev]⟩
  | succ n ih =>
    obtain ⟨c, hc, hcy, hs⟩ := ih (fun i hi => hx i (by omega)) (fun i hi => hy i (by omega)) (fun i hi => hz i (by omega))
      (fun i hi => bx i (by omega)) (fun i hi => bY i (by omega)) (fun i hi => bz i (by omega)) (fun i hi => h i (by omega))
    obtain ⟨x1, x2⟩ := bx n (by omega)
    obtain ⟨y1, y2⟩ := bY n (by omega)
    obtain ⟨z1, z2⟩ := bz n (by omega)
    have ht : carry x y z n + x n + y n - z n = ((c + X n + Y n - Z n : ℤ) : F) := by
      rw [hcy, hx n (by omega), hy n (by omega), hz n (by omega)]; push_cast; ring
    have hn := h n (by omega)
    rw [ht] at hn
    rw [ev_succ, ev_succ, ev_succ]
    have hP : (P : ℤ) = 18446744069414584321 := rfl
    rcases mul_eq_zero.1 hn with h0 | h0
    · have : c + X n + Y n - Z n = 0 := lift_zero h0 (by rw [abs_lt]; constructor <;> rcases hc with rfl | rfl <;> omega)
      refine ⟨0, .inl rfl, by rw [carry, ht, this]; simp, ?_⟩
      linear_combination hs + (base : ℤ) ^ n * this
    · have h0 : ((65536 - (c + X n + Y n - Z n) : ℤ) : F) = 0 := by rw [← h0]; push_cast; rfl
      have : 65536 - (c + X n + Y n - Z n) = 0 := lift_zero h0 (by rw [abs_lt]; constructor <;> rcases hc with rfl | rfl <;> omega)
      refine ⟨1, .inr rfl, ?_, ?_⟩
      · rw [carry, ht]
        have : c + X n + Y n - Z n = 65536 := by omega
        rw [this]; push_cast; exact inv_base
      · linear_combination hs - (base : ℤ) ^ n * this

/-- The addition with carry, once the filter is one and all its constraints hold. -/
theorem addcy_sound {x y z g : Limbs F} {X Y Z : Limbs ℤ} {two : Bool}
    (hx : ∀ i < nLimbs, x i = (X i : F)) (hy : ∀ i < nLimbs, y i = (Y i : F)) (hz : ∀ i < nLimbs, z i = (Z i : F))
    (bx : ∀ i < nLimbs, 0 ≤ X i ∧ X i ≤ 65536) (bY : ∀ i < nLimbs, 0 ≤ Y i ∧ Y i ≤ 65536) (bz : ∀ i < nLimbs, 0 ≤ Z i ∧ Z i ≤ 65536)
    (h : ∀ c ∈ evalAddcy 1 x y z g two, c.val = 0) :
    ∃ c : ℤ, (c = 0 ∨ c = 1) ∧ g 0 = (c : F) ∧ (∀ i, 0 < i → i < nLimbs → g i = 0) ∧
      ev (base : ℤ) nLimbs X + ev (base : ℤ) nLimbs Y = ev (base : ℤ) nLimbs Z + c * base ^ nLimbs := by
  have hl : ∀ i < nLimbs, (carry x y z i + x i + y i - z i) * (65536 - (carry x y z i + x i + y i - z i)) = 0 := by
    intro i hi
    have := h ⟨if two then .transition else .always, 1 * (carry x y z i + x i + y i - z i) * (65536 - (carry x y z i + x i + y i - z i))⟩
      (by simp only [evalAddcy, List.mem_append, List.mem_map]; exact .inl (.inl (.inl ⟨i, List.mem_range.2 hi, rfl⟩)))
    simpa using this
  obtain ⟨c, hc, hcy, hs⟩ := carry_sound hx hy hz bx bY bz hl
  have hg := h ⟨if two then .transition else .always, 1 * (carry x y z nLimbs - g 0)⟩ (by simp [evalAddcy])
  have hg0 : g 0 = carry x y z nLimbs := by
    have : carry x y z nLimbs - g 0 = 0 := by simpa using hg
    exact (sub_eq_zero.1 this).symm
  refine ⟨c, hc, hg0.trans hcy, fun i hi hi' => ?_, hs⟩
  obtain ⟨j, rfl⟩ : ∃ j, i = j + 1 := ⟨i - 1, by omega⟩
  have := h ⟨if two then .transition else .always, 1 * g (j + 1)⟩
    (by simp only [evalAddcy, List.mem_append, List.mem_map]; exact .inr ⟨j, List.mem_range.2 (by omega), rfl⟩)
  simpa using this

/-- The integer limbs of a register. -/
def limbs (lv : Row F) (start : ℕ) : Limbs ℤ := fun i => ((lv (start + i)).val : ℤ)

theorem limbs_cast (lv : Row F) (start i : ℕ) : reg lv start i = (limbs lv start i : F) := by
  rw [limbs, cast_val, reg]

theorem limbs_bound {lv : Row F} (hr : Ranged lv) {start i : ℕ} (h1 : START_SHARED_COLS ≤ start + i)
    (h2 : start + i < START_SHARED_COLS + NUM_SHARED_COLS) : 0 ≤ limbs lv start i ∧ limbs lv start i < base := by
  have := hr (start + i) h1 h2
  exact ⟨Int.natCast_nonneg _, by unfold limbs; exact_mod_cast this⟩

theorem ev_limbs (lv : Row F) (start : ℕ) : ev (base : ℤ) nLimbs (limbs lv start) = (num lv start : ℤ) := by
  unfold ev limbs num; push_cast; rfl

theorem num_lt {lv : Row F} (hr : Ranged lv) {start : ℕ} (h1 : START_SHARED_COLS ≤ start) (h2 : start + nLimbs ≤ START_SHARED_COLS + NUM_SHARED_COLS) :
    num lv start < 2 ^ 256 := by
  have := (ev_lt (n := nLimbs) (a := limbs lv start) (fun i hi => limbs_bound hr (by omega) (by omega))).2
  rw [ev_limbs] at this
  have e : ((base : ℕ) : ℤ) ^ nLimbs = ((2 ^ 256 : ℕ) : ℤ) := by norm_num
  rw [e] at this
  exact_mod_cast this

/-- A register whose limbs but the first are zero. -/
theorem num_of_bit {lv : Row F} {start : ℕ} {c : ℤ} (hc : c = 0 ∨ c = 1) (h0 : lv start = (c : F))
    (h : ∀ i, 0 < i → i < nLimbs → lv (start + i) = 0) : (num lv start : ℤ) = c := by
  have h00 : (lv start).val = c := by
    rw [h0]; rcases hc with rfl | rfl
    · simp
    · have : ((1 : ℤ) : F).val = 1 := by decide +kernel
      rw [this]; rfl
  have : num lv start = (lv start).val := by
    unfold num
    rw [sum_eq_single 0]
    · simp
    · intro i hi hne; rw [h i (by omega) (mem_range.1 hi)]; simp
    · simp
  rw [this, h00]

theorem addcy_regs {lv : Row F} (hr : Ranged lv) {x y z g : ℕ}
    (hx : START_SHARED_COLS ≤ x ∧ x + nLimbs ≤ START_SHARED_COLS + NUM_SHARED_COLS)
    (hy : START_SHARED_COLS ≤ y ∧ y + nLimbs ≤ START_SHARED_COLS + NUM_SHARED_COLS)
    (hz : START_SHARED_COLS ≤ z ∧ z + nLimbs ≤ START_SHARED_COLS + NUM_SHARED_COLS)
    (h : ∀ c ∈ evalAddcy 1 (reg lv x) (reg lv y) (reg lv z) (reg lv g) false, c.val = 0) :
    (num lv g = 0 ∧ num lv x + num lv y = num lv z) ∨ (num lv g = 1 ∧ num lv x + num lv y = num lv z + 2 ^ 256) := by
  have hb : ∀ s, START_SHARED_COLS ≤ s ∧ s + nLimbs ≤ START_SHARED_COLS + NUM_SHARED_COLS → ∀ i < nLimbs, 0 ≤ limbs lv s i ∧ limbs lv s i ≤ 65536 := by
    intro s hs i hi
    have := limbs_bound hr (start := s) (i := i) (by omega) (by omega)
    exact ⟨this.1, this.2.le⟩
  obtain ⟨c, hc, h0, h1, hs⟩ := addcy_sound (fun i _ => limbs_cast lv x i) (fun i _ => limbs_cast lv y i) (fun i _ => limbs_cast lv z i)
    (hb x hx) (hb y hy) (hb z hz) h
  rw [ev_limbs, ev_limbs, ev_limbs] at hs
  have hg := num_of_bit (lv := lv) (start := g) hc h0 h1
  have e : ((base : ℕ) : ℤ) ^ nLimbs = ((2 ^ 256 : ℕ) : ℤ) := by norm_num
  rw [e] at hs
  rcases hc with rfl | rfl
  · left; constructor <;> omega
  · right; constructor <;> omega

section
variable {lv : Row F} (hr : Ranged lv) (h : ∀ c ∈ evalAddSubLtGt lv, c.val = 0)
include hr h

theorem add_row (hf : lv IS_ADD = 1) : num lv OUTPUT_REGISTER = (num lv INPUT_REGISTER_0 + num lv INPUT_REGISTER_1) % 2 ^ 256 := by
  have := addcy_regs (x := INPUT_REGISTER_0) (y := INPUT_REGISTER_1) (z := OUTPUT_REGISTER) (g := AUX_INPUT_REGISTER_0) hr
    (by decide) (by decide) (by decide)
    (fun c hc => h c (by unfold evalAddSubLtGt; rw [hf]; simp only [List.mem_append]; exact .inl (.inl (.inl hc))))
  have hz := num_lt (start := OUTPUT_REGISTER) hr (by decide) (by decide)
  omega

theorem sub_row (hf : lv IS_SUB = 1) :
    num lv OUTPUT_REGISTER = (num lv INPUT_REGISTER_0 + 2 ^ 256 - num lv INPUT_REGISTER_1) % 2 ^ 256 := by
  have := addcy_regs (x := INPUT_REGISTER_1) (y := OUTPUT_REGISTER) (z := INPUT_REGISTER_0) (g := AUX_INPUT_REGISTER_0) hr
    (by decide) (by decide) (by decide)
    (fun c hc => h c (by unfold evalAddSubLtGt; rw [hf]; simp only [List.mem_append]; exact .inl (.inl (.inr hc))))
  have hz := num_lt (start := OUTPUT_REGISTER) hr (by decide) (by decide)
  have h0 := num_lt (start := INPUT_REGISTER_0) hr (by decide) (by decide)
  have h1 := num_lt (start := INPUT_REGISTER_1) hr (by decide) (by decide)
  omega

theorem lt_row (hf : lv IS_LT = 1) :
    num lv OUTPUT_REGISTER = if num lv INPUT_REGISTER_0 < num lv INPUT_REGISTER_1 then 1 else 0 := by
  have := addcy_regs (x := INPUT_REGISTER_1) (y := AUX_INPUT_REGISTER_0) (z := INPUT_REGISTER_0) (g := OUTPUT_REGISTER) hr
    (by decide) (by decide) (by decide)
    (fun c hc => h c (by unfold evalAddSubLtGt; rw [hf]; simp only [List.mem_append]; exact .inl (.inr hc)))
  have hz := num_lt (start := AUX_INPUT_REGISTER_0) hr (by decide) (by decide)
  have h0 := num_lt (start := INPUT_REGISTER_0) hr (by decide) (by decide)
  have h1 := num_lt (start := INPUT_REGISTER_1) hr (by decide) (by decide)
  split <;> omega

theorem gt_row (hf : lv IS_GT = 1) :
    num lv OUTPUT_REGISTER = if num lv INPUT_REGISTER_1 < num lv INPUT_REGISTER_0 then 1 else 0 := by
  have := addcy_regs (x := INPUT_REGISTER_0) (y := AUX_INPUT_REGISTER_0) (z := INPUT_REGISTER_1) (g := OUTPUT_REGISTER) hr
    (by decide) (by decide) (by decide)
    (fun c hc => h c (by unfold evalAddSubLtGt; rw [hf]; simp only [List.mem_append]; exact .inr hc))
  have hz := num_lt (start := AUX_INPUT_REGISTER_0) hr (by decide) (by decide)
  have h0 := num_lt (start := INPUT_REGISTER_0) hr (by decide) (by decide)
  have h1 := num_lt (start := INPUT_REGISTER_1) hr (by decide) (by decide)
  split <;> omega

end

end Verif.Stark.Arith
