import Verif.Stark.Arith.Addcy

/-! MUL. `evm_arithmetization/src/arithmetic/mul.rs`. -/

namespace Verif.Stark.Arith

open Finset

variable {R : Type} [CommRing R]

/-- The carries `s(x)`: `MUL_AUX_INPUT_LO + 2^16 MUL_AUX_INPUT_HI - 2^20`. `mul.rs:134-144`, `columns.rs:93-94`. -/
def mulAux (lv : Row R) : Limbs R := fun i => lv (AUX_INPUT_REGISTER_0 + i) + (lv (AUX_INPUT_REGISTER_1 + i) * 65536 - 1048576)

/-- `eval_packed_generic_mul`. `mul.rs:124-175`. -/
def evalMulWith (lv : Row R) (filter : R) (left right : Limbs R) : List (Constr R) :=
  let constrPoly := polSub nLimbs (polSub nLimbs (polMulLo left right) (reg lv OUTPUT_REGISTER)) (polAdjoinRoot (mulAux lv) 65536)
  (List.range nLimbs).map (fun i => ⟨.always, filter * constrPoly i⟩)

/-- `mul::eval_packed_generic`. `mul.rs:177-186`. -/
def evalMul (lv : Row R) : List (Constr R) :=
  evalMulWith lv (lv IS_MUL) (reg lv INPUT_REGISTER_0) (reg lv INPUT_REGISTER_1)

/-! ### Soundness -/

theorem castF_eq (a : Limbs ℤ) (b : Limbs F) (h : ∀ i, b i = (a i : F)) : b = fun i => Int.castRingHom F (a i) := funext h

theorem mulWith_sound {lv : Row F} (hr : Ranged lv) {x y : ℕ}
    (hx : START_SHARED_COLS ≤ x ∧ x + nLimbs ≤ START_SHARED_COLS + NUM_SHARED_COLS)
    (hy : START_SHARED_COLS ≤ y ∧ y + nLimbs ≤ START_SHARED_COLS + NUM_SHARED_COLS)
    (h : ∀ c ∈ evalMulWith lv 1 (reg lv x) (reg lv y), c.val = 0) :
    num lv OUTPUT_REGISTER = num lv x * num lv y % 2 ^ 256 := by
  have hb : ∀ s, START_SHARED_COLS ≤ s ∧ s + nLimbs ≤ START_SHARED_COLS + NUM_SHARED_COLS → ∀ i < nLimbs, 0 ≤ limbs lv s i ∧ limbs lv s i < 65536 := by
    intro s hs i hi
    exact limbs_bound hr (start := s) (i := i) (by omega) (by omega)
  let A : Limbs ℤ := fun i => limbs lv AUX_INPUT_REGISTER_0 i + (limbs lv AUX_INPUT_REGISTER_1 i * 65536 - 1048576)
  have hA : mulAux lv = fun i => Int.castRingHom F (A i) := by
    refine castF_eq A _ (fun i => ?_)
    have e0 := limbs_cast lv AUX_INPUT_REGISTER_0 i
    have e1 := limbs_cast lv AUX_INPUT_REGISTER_1 i
    unfold reg at e0 e1
    simp only [A, mulAux, e0, e1]; push_cast; rfl
  have hAb : ∀ i < nLimbs, |A i| ≤ 4294967296 := by
    intro i hi
    have h1 := hb AUX_INPUT_REGISTER_0 (by decide) i hi
    have h2 := hb AUX_INPUT_REGISTER_1 (by decide) i hi
    rw [abs_le]; constructor <;> simp only [A] <;> omega
  let C : Limbs ℤ := fun i => polMulLo (limbs lv x) (limbs lv y) i - limbs lv OUTPUT_REGISTER i - polAdjoinRoot A 65536 i
  have hP : (P : ℤ) = 18446744069414584321 := rfl
  have hC : ∀ i < nLimbs, C i = 0 := by
    intro i hi
    have hc := h ⟨.always, 1 * polSub nLimbs (polSub nLimbs (polMulLo (reg lv x) (reg lv y)) (reg lv OUTPUT_REGISTER)) (polAdjoinRoot (mulAux lv) 65536) i⟩
      (by unfold evalMulWith; exact List.mem_map.2 ⟨i, List.mem_range.2 hi, rfl⟩)
    refine lift_zero ?_ ?_
    · rw [← hc]
      simp only [polSub, hi, if_true, one_mul]
      rw [castF_eq _ _ (limbs_cast lv x), castF_eq _ _ (limbs_cast lv y), map_polMulLo, hA]
      have e : (65536 : F) = Int.castRingHom F 65536 := by simp
      rw [e, map_adjoin, limbs_cast]
      simp only [C, eq_intCast]; push_cast; rfl
    · have h1 : |polMulLo (limbs lv x) (limbs lv y) i| ≤ 16 * 16 * (65536 * 65536) := by
        rw [polMulLo_eq_polMul hi]
        refine abs_polMul_le (n := nLimbs) (m := nLimbs) ?_ ?_ (by norm_num) (by norm_num) i
        · intro j hj; have := hb x hx j hj; rw [abs_le]; constructor <;> omega
        · intro j hj; have := hb y hy j hj; rw [abs_le]; constructor <;> omega
      have h2 := hb OUTPUT_REGISTER (by decide) i hi
      have h3 : |polAdjoinRoot A 65536 i| ≤ 4294967296 + 65536 * 4294967296 := by
        unfold polAdjoinRoot
        have a1 := hAb i hi
        have a2 := hAb (i - 1) (by omega)
        rw [abs_le] at a1 a2 ⊢
        split
        · rename_i h0; subst h0; constructor <;> omega
        · constructor <;> omega
      rw [abs_le] at h1 h3
      rw [abs_lt]
      simp only [C]
      constructor <;> omega
  have hev : ev (65536 : ℤ) nLimbs C = 0 := by
    rw [ev_congr (b := fun _ => 0) _ hC]; simp [ev]
  simp only [C] at hev
  rw [ev_sub, ev_sub, show nLimbs = 15 + 1 from rfl, ev_adjoin] at hev
  obtain ⟨q, hq⟩ := ev_polMulLo (65536 : ℤ) 16 (limbs lv x) (limbs lv y)
  have e := fun s => ev_limbs lv s
  simp only [base, nLimbs, Nat.cast_ofNat] at e
  rw [e, e] at hq
  simp only [Nat.reduceAdd] at hev
  rw [e] at hev
  have hlt := num_lt (start := OUTPUT_REGISTER) hr (by decide) (by decide)
  have key : (num lv x * num lv y : ℤ) = num lv OUTPUT_REGISTER + 2 ^ 256 * (q - A 15) := by
    have e2 : (65536 : ℤ) ^ 16 = 2 ^ 256 := by norm_num
    rw [e2] at hq hev
    linear_combination hq + hev
  rw [← Nat.cast_mul] at key
  generalize num lv x * num lv y = m at key ⊢
  generalize q - A 15 = t at key
  omega

theorem mul_row {lv : Row F} (hr : Ranged lv) (h : ∀ c ∈ evalMul lv, c.val = 0) (hf : lv IS_MUL = 1) :
    num lv OUTPUT_REGISTER = num lv INPUT_REGISTER_0 * num lv INPUT_REGISTER_1 % 2 ^ 256 :=
  mulWith_sound hr (by decide) (by decide) (fun c hc => h c (by unfold evalMul; rw [hf]; exact hc))

end Verif.Stark.Arith
