import Verif.Stark.Arith.Modular

/-! What the constraints of the two row operations say of the registers. -/

namespace Verif.Stark.Arith

open Finset

/-- The flag is set and no other is. -/
def Only (lv : Row F) (f : ℕ) : Prop := lv f = 1 ∧ ∀ g < N_FLAGS, g ≠ f → lv g = 0

/-- A register within the range checked columns. -/
def InShared (start : ℕ) : Prop := START_SHARED_COLS ≤ start ∧ start + nLimbs ≤ START_SHARED_COLS + NUM_SHARED_COLS

theorem limbs_ok {lv : Row F} (hr : Ranged lv) {s : ℕ} (hs : InShared s) : ∀ i < nLimbs, 0 ≤ limbs lv s i ∧ limbs lv s i < 65536 := by
  intro i hi
  obtain ⟨h1, h2⟩ := hs
  exact limbs_bound hr (start := s) (i := i) (by omega) (by omega)

theorem ev_num (lv : Row F) (s : ℕ) : ev (65536 : ℤ) nLimbs (limbs lv s) = (num lv s : ℤ) := ev_limbs lv s

theorem zeroExtend_cast {a : Limbs F} {A : Limbs ℤ} {n m : ℕ} (h : ∀ i < n, a i = (A i : F)) :
    ∀ i < m, zeroExtend n a i = ((zeroExtend n A i : ℤ) : F) := by
  intro i _
  unfold zeroExtend
  split
  · rename_i hi; exact h i hi
  · rw [Int.cast_zero]

theorem polSub_zero {n m : ℕ} {a b : Limbs F} (h : ∀ i < m, polSub n a b i = 0) : ∀ i < m, a i = zeroExtend n b i := by
  intro i hi
  have := h i hi
  unfold polSub at this
  unfold zeroExtend
  split
  · rename_i h1; rw [if_pos h1] at this; exact sub_eq_zero.1 this
  · rename_i h1; rw [if_neg h1] at this; exact this

theorem divmodHelper_sound {lv nv : Row F} (hlv : Ranged lv) (hnv : Ranged nv) {n den quo rem : ℕ} {d : ℤ}
    (hdiv : lv IS_DIV + lv IS_SHR = (d : F)) (hn : InShared n) (hden : InShared den) (hq : InShared quo) (hrem : InShared rem)
    (h : Holds (evalDivmodHelper lv nv 1 n den quo rem)) :
    ∃ z : ℤ, (z = 0 ∨ z = 1) ∧ (z = 1 → num lv den = 0) ∧ (num lv n : ℤ) = num lv rem + num lv quo * (num lv den + z) ∧
      (z * d = 0 → (num lv rem : ℤ) < num lv den + z) := by
  unfold evalDivmodHelper at h
  rw [Holds.append, Holds.append, Holds.map (.inr rfl)] at h
  obtain ⟨⟨-, h1⟩, h2⟩ := h
  simp only [one_mul] at h2
  have hp := polSub_zero h2
  have bq := limbs_ok hlv hq
  have bn := limbs_ok hlv hn
  obtain ⟨z, hz, h3, h4, h5⟩ := modular_sound (O := limbs lv rem) (M := limbs lv den) (Q := zeroExtend nLimbs (limbs lv quo))
    (I := zeroExtend nLimbs (limbs lv n)) hnv hdiv (fun i _ => limbs_cast lv rem i) (fun i _ => limbs_cast lv den i)
    (zeroExtend_cast (fun i _ => limbs_cast lv quo i)) (zeroExtend_cast (fun i _ => limbs_cast lv n i))
    (limbs_ok hlv hrem) (limbs_ok hlv hden)
    (fun i _ => by
      unfold zeroExtend
      split
      · rename_i hi; have := bq i hi; rw [abs_le]; constructor <;> omega
      · norm_num)
    (fun i _ => by
      unfold zeroExtend
      split
      · rename_i hi; have := bn i hi; rw [abs_le]; constructor <;> omega
      · norm_num) h1 hp
  rw [ev_zeroExtend _ (by decide), ev_zeroExtend _ (by decide), ev_num, ev_num, ev_num, ev_num] at h4
  rw [ev_num] at h3
  rw [ev_num, ev_num] at h5
  exact ⟨z, hz, fun h => by exact_mod_cast h3 h, h4, h5⟩

theorem emod_of {n r q m : ℤ} (h : n = r + q * m) (h0 : 0 ≤ r) (h1 : r < m) : r = n % m := by
  rw [h, Int.add_mul_emod_self_right, Int.emod_eq_of_lt h0 h1]

theorem mod_of {z : ℤ} {x r q m : ℕ} (hz : z = 0 ∨ z = 1) (h1 : z = 1 → m = 0) (h2 : (x : ℤ) = r + q * (m + z)) (h3 : (r : ℤ) < m + z) :
    r = if m = 0 then 0 else x % m := by
  split
  · rename_i h0; subst h0
    rcases hz with rfl | rfl <;> push_cast at h3 <;> omega
  · rename_i h0
    have hz0 : z = 0 := hz.resolve_right (fun h => h0 (h1 h))
    subst hz0
    rw [add_zero] at h2 h3
    have := emod_of h2 (Int.natCast_nonneg _) h3
    exact_mod_cast this

theorem mod_sound {lv nv : Row F} (hlv : Ranged lv) (hnv : Ranged nv) {n den quo rem : ℕ}
    (hdiv : lv IS_DIV + lv IS_SHR = 0) (hn : InShared n) (hden : InShared den) (hq : InShared quo) (hrem : InShared rem)
    (h : Holds (evalDivmodHelper lv nv 1 n den quo rem)) :
    num lv rem = if num lv den = 0 then 0 else num lv n % num lv den := by
  obtain ⟨z, hz, h1, h2, h3⟩ := divmodHelper_sound (d := 0) hlv hnv (by rw [hdiv]; simp) hn hden hq hrem h
  exact mod_of hz h1 h2 (h3 (by simp))

/-- The remainder register of MOD. -/
theorem mod_row {lv nv : Row F} (hlv : Ranged lv) (hnv : Ranged nv) (hf : Only lv IS_MOD) (h : Holds (evalDivmod lv nv)) :
    num lv OUTPUT_REGISTER = if num lv INPUT_REGISTER_1 = 0 then 0 else num lv INPUT_REGISTER_0 % num lv INPUT_REGISTER_1 := by
  unfold evalDivmod at h
  rw [Holds.append, hf.1] at h
  exact mod_sound hlv hnv (by rw [hf.2 IS_DIV (by decide) (by decide), hf.2 IS_SHR (by decide) (by decide), add_zero])
    (by unfold InShared; decide) (by unfold InShared; decide) (by unfold InShared; decide) (by unfold InShared; decide) h.2

/-- What a division whose denominator is not zero or zero says. -/
theorem div_sound {lv nv : Row F} (hlv : Ranged lv) (hnv : Ranged nv) {n den quo rem : ℕ}
    (hdiv : lv IS_DIV + lv IS_SHR = 1) (hn : InShared n) (hden : InShared den) (hq : InShared quo) (hrem : InShared rem)
    (h : Holds (evalDivmodHelper lv nv 1 n den quo rem)) :
    (num lv den ≠ 0 → num lv quo = num lv n / num lv den) ∧ num lv quo ≤ num lv n := by
  obtain ⟨z, hz, h1, h2, h3⟩ := divmodHelper_sound (d := 1) hlv hnv (by rw [hdiv]; simp) hn hden hq hrem h
  rw [mul_one] at h3
  by_cases h0 : num lv den = 0
  · refine ⟨fun h => absurd h0 h, ?_⟩
    rw [h0] at h2 h3
    rcases hz with rfl | rfl
    · have := h3 rfl; push_cast at this; omega
    · push_cast at h2; omega
  · have hz0 : z = 0 := hz.resolve_right (fun h => h0 (h1 h))
    subst hz0
    rw [add_zero] at h2 h3
    have h3 := h3 rfl
    have hnat : num lv n = num lv rem + num lv quo * num lv den := by exact_mod_cast h2
    have hlt : num lv rem < num lv den := by exact_mod_cast h3
    have hq : num lv quo = num lv n / num lv den := by
      rw [hnat, Nat.add_mul_div_right _ _ (by omega), Nat.div_eq_of_lt hlt, zero_add]
    exact ⟨fun _ => hq, by rw [hq]; exact Nat.div_le_self _ _⟩

/-- DIV: the quotient, unless the denominator is zero; then only that the output is at most the numerator. -/
theorem div_row {lv nv : Row F} (hlv : Ranged lv) (hnv : Ranged nv) (hf : Only lv IS_DIV) (h : Holds (evalDivmod lv nv)) :
    (num lv INPUT_REGISTER_1 ≠ 0 → num lv OUTPUT_REGISTER = num lv INPUT_REGISTER_0 / num lv INPUT_REGISTER_1) ∧
      num lv OUTPUT_REGISTER ≤ num lv INPUT_REGISTER_0 := by
  unfold evalDivmod at h
  rw [Holds.append, hf.1] at h
  exact div_sound hlv hnv (by rw [hf.1, hf.2 IS_SHR (by decide) (by decide), add_zero])
    (by unfold InShared; decide) (by unfold InShared; decide) (by unfold InShared; decide) (by unfold InShared; decide) h.1

theorem shr_row {lv nv : Row F} (hlv : Ranged lv) (hnv : Ranged nv) (hf : Only lv IS_SHR) (h : Holds (evalShift lv nv)) :
    (num lv INPUT_REGISTER_2 ≠ 0 → num lv OUTPUT_REGISTER = num lv INPUT_REGISTER_1 / num lv INPUT_REGISTER_2) ∧
      num lv OUTPUT_REGISTER ≤ num lv INPUT_REGISTER_1 := by
  unfold evalShift at h
  rw [Holds.append, hf.1] at h
  exact div_sound hlv hnv (by rw [hf.1, hf.2 IS_DIV (by decide) (by decide), zero_add])
    (by unfold InShared; decide) (by unfold InShared; decide) (by unfold InShared; decide) (by unfold InShared; decide) h.2

theorem shl_row {lv nv : Row F} (hlv : Ranged lv) (hf : Only lv IS_SHL) (h : Holds (evalShift lv nv)) :
    num lv OUTPUT_REGISTER = num lv INPUT_REGISTER_1 * num lv INPUT_REGISTER_2 % 2 ^ 256 := by
  unfold evalShift at h
  rw [Holds.append, hf.1] at h
  refine mulWith_sound hlv (by decide) (by decide) (fun c hc => h.1 c hc ?_)
  unfold evalMulWith at hc
  obtain ⟨i, -, rfl⟩ := List.mem_map.1 hc
  exact .inl rfl

/-- The remainder of an integer by the modulus register, zero for a zero modulus. (Specification.) -/
def modSpec (x : ℤ) (m : ℕ) : ℤ := if m = 0 then 0 else x % (m : ℤ)

theorem modSpec_of {z x r q : ℤ} {m : ℕ} (hz : z = 0 ∨ z = 1) (h1 : z = 1 → m = 0) (h2 : x = r + q * (m + z)) (h3 : r < m + z) (h0 : 0 ≤ r) :
    r = modSpec x m := by
  unfold modSpec
  split
  · rename_i hm; subst hm
    rcases hz with rfl | rfl <;> push_cast at h3 <;> omega
  · rename_i hm
    have hz0 : z = 0 := hz.resolve_right (fun h => hm (h1 h))
    subst hz0
    rw [add_zero] at h2 h3
    exact emod_of h2 h0 h3

/-- The quotient registers of the modular operations. -/
theorem quo_ok {lv : Row F} (hr : Ranged lv) : ∀ i < 2 * nLimbs, 0 ≤ limbs lv MODULAR_QUO_INPUT i ∧ limbs lv MODULAR_QUO_INPUT i < 65536 := by
  intro i hi
  refine limbs_bound hr ?_ ?_ <;> simp only [START_SHARED_COLS, NUM_SHARED_COLS, MODULAR_QUO_INPUT, nLimbs] at * <;> omega

theorem modular_reg {lv nv : Row F} (hlv : Ranged lv) (hnv : Ranged nv) (hdiv : lv IS_DIV + lv IS_SHR = 0) {quot : Limbs F} {Q : Limbs ℤ}
    (hQ : ∀ i < 2 * nLimbs, quot i = (Q i : F)) (bQ : ∀ i < 2 * nLimbs, |Q i| ≤ 65536)
    {input : Limbs F} {I : Limbs ℤ} (hI : ∀ i < 2 * nLimbs - 1, input i = (I i : F)) (bI : ∀ i < 2 * nLimbs - 1, |I i| ≤ 1099511627776)
    (h : Holds (modularConstrPoly lv nv 1 (reg lv OUTPUT_REGISTER) (reg lv INPUT_REGISTER_2) quot).1)
    (hp : ∀ i < 2 * nLimbs, polSub (2 * nLimbs - 1)
      (modularConstrPoly lv nv 1 (reg lv OUTPUT_REGISTER) (reg lv INPUT_REGISTER_2) quot).2 input i = 0) :
    (num lv OUTPUT_REGISTER : ℤ) = modSpec (ev (65536 : ℤ) (2 * nLimbs - 1) I) (num lv INPUT_REGISTER_2) := by
  obtain ⟨z, hz, h3, h4, h5⟩ := modular_sound (O := limbs lv OUTPUT_REGISTER) (M := limbs lv INPUT_REGISTER_2) (Q := Q)
    (I := zeroExtend (2 * nLimbs - 1) I) hnv (by rw [hdiv, Int.cast_zero]) (fun i _ => limbs_cast lv _ i) (fun i _ => limbs_cast lv _ i)
    hQ (zeroExtend_cast hI) (limbs_ok hlv (by unfold InShared; decide)) (limbs_ok hlv (by unfold InShared; decide)) bQ
    (fun i _ => by
      unfold zeroExtend
      split
      · rename_i hi; exact bI i hi
      · norm_num) h (polSub_zero hp)
  rw [ev_zeroExtend _ (by decide), ev_num, ev_num] at h4
  rw [ev_num] at h3
  rw [ev_num, ev_num] at h5
  exact modSpec_of hz (fun h => by exact_mod_cast h3 h) h4 (h5 (by simp)) (Int.natCast_nonneg _)

section
variable {lv nv : Row F} (hlv : Ranged lv) (hnv : Ranged nv) (h : Holds (evalModular lv nv))
include hlv hnv h

theorem addmod_sound (ha : lv IS_ADDMOD + lv IS_ADDFP254 = 1) (hm : lv IS_MULMOD + lv IS_MULFP254 = 0) (hdiv : lv IS_DIV + lv IS_SHR = 0) :
    (num lv OUTPUT_REGISTER : ℤ) = modSpec (num lv INPUT_REGISTER_0 + num lv INPUT_REGISTER_1) (num lv INPUT_REGISTER_2) := by
  unfold evalModular at h
  simp only [ha, hm, add_zero] at h
  rw [Holds.append, Holds.append, Holds.append, Holds.append, Holds.append] at h
  obtain ⟨⟨⟨⟨-, h1⟩, h2⟩, -⟩, -⟩ := h
  rw [Holds.map (.inr rfl)] at h2
  simp only [one_mul] at h2
  have b0 := limbs_ok hlv (s := INPUT_REGISTER_0) (by unfold InShared; decide)
  have b1 := limbs_ok hlv (s := INPUT_REGISTER_1) (by unfold InShared; decide)
  have := modular_reg (I := zeroExtend nLimbs (fun i => limbs lv INPUT_REGISTER_0 i + limbs lv INPUT_REGISTER_1 i)) hlv hnv hdiv
    (fun i _ => limbs_cast lv MODULAR_QUO_INPUT i) (fun i hi => by have := quo_ok hlv i hi; rw [abs_le]; constructor <;> omega)
    (zeroExtend_cast (fun i _ => by rw [limbs_cast, limbs_cast, Int.cast_add]))
    (fun i _ => by
      unfold zeroExtend
      split
      · rename_i hi; have := b0 i hi; have := b1 i hi; rw [abs_le]; dsimp only; constructor <;> omega
      · norm_num) h1 h2
  rw [ev_zeroExtend _ (by decide), ev_add, ev_num, ev_num] at this
  exact this

theorem mulmod_sound (hm : lv IS_MULMOD + lv IS_MULFP254 = 1) (ha : lv IS_ADDMOD + lv IS_ADDFP254 = 0) (hdiv : lv IS_DIV + lv IS_SHR = 0) :
    (num lv OUTPUT_REGISTER : ℤ) = modSpec (num lv INPUT_REGISTER_0 * num lv INPUT_REGISTER_1) (num lv INPUT_REGISTER_2) := by
  unfold evalModular at h
  simp only [ha, hm, zero_add] at h
  rw [Holds.append, Holds.append, Holds.append, Holds.append, Holds.append] at h
  obtain ⟨⟨⟨⟨-, h1⟩, -⟩, -⟩, h2⟩ := h
  rw [Holds.map (.inr rfl)] at h2
  simp only [one_mul] at h2
  have b0 := limbs_ok hlv (s := INPUT_REGISTER_0) (by unfold InShared; decide)
  have b1 := limbs_ok hlv (s := INPUT_REGISTER_1) (by unfold InShared; decide)
  have := modular_reg (I := polMul nLimbs nLimbs (limbs lv INPUT_REGISTER_0) (limbs lv INPUT_REGISTER_1)) hlv hnv hdiv
    (fun i _ => limbs_cast lv MODULAR_QUO_INPUT i) (fun i hi => by have := quo_ok hlv i hi; rw [abs_le]; constructor <;> omega)
    (fun i _ => by
      rw [castF_eq _ _ (limbs_cast lv INPUT_REGISTER_0), castF_eq _ _ (limbs_cast lv INPUT_REGISTER_1), map_polMul]; rfl)
    (fun i _ => by
      refine (abs_polMul_le (A := 65536) (B := 65536) (fun j hj => ?_) (fun j hj => ?_) (by norm_num) (by norm_num) i).trans (by norm_num)
      · have := b0 j hj; rw [abs_le]; constructor <;> omega
      · have := b1 j hj; rw [abs_le]; constructor <;> omega) h1 h2
  rw [ev_polMul _ (by decide), ev_num, ev_num] at this
  exact this

theorem submod_sound (hs : lv IS_SUBMOD + lv IS_SUBFP254 = 1) (hdiv : lv IS_DIV + lv IS_SHR = 0) :
    (num lv OUTPUT_REGISTER : ℤ) = modSpec ((num lv INPUT_REGISTER_0 : ℤ) - num lv INPUT_REGISTER_1) (num lv INPUT_REGISTER_2) := by
  unfold evalModular at h
  simp only [hs] at h
  rw [Holds.append, Holds.append, Holds.append, Holds.append, Holds.append] at h
  obtain ⟨⟨⟨⟨⟨-, h0⟩, -⟩, -⟩, h2⟩, -⟩ := h
  rw [Holds.map (.inr rfl)] at h2
  simp only [one_mul, submodConstrPoly] at h2 h0
  rw [List.cons_append, ← List.singleton_append, Holds.append, Holds.append, Holds.map (.inl rfl)] at h0
  obtain ⟨hsg, hhi, h1⟩ := h0
  have hsg := hsg _ (List.mem_singleton_self _) (.inl rfl)
  simp only at hsg
  obtain ⟨s, hs01, hsf⟩ := bit_of (x := reg lv MODULAR_QUO_INPUT nLimbs) (by linear_combination hsg)
  have b0 := limbs_ok hlv (s := INPUT_REGISTER_0) (by unfold InShared; decide)
  have b1 := limbs_ok hlv (s := INPUT_REGISTER_1) (by unfold InShared; decide)
  have := modular_reg (I := zeroExtend nLimbs (fun i => limbs lv INPUT_REGISTER_0 i - limbs lv INPUT_REGISTER_1 i))
    (Q := fun i => if i < nLimbs then limbs lv MODULAR_QUO_INPUT i - 65535 * s else 0) hlv hnv hdiv
    (quot := subQuot (reg lv MODULAR_QUO_INPUT))
    (fun i hi => by
      by_cases hi16 : i < nLimbs
      · simp only [if_pos hi16]
        unfold subQuot
        rw [if_pos hi16, hsf, limbs_cast]; push_cast; rfl
      · simp only [if_neg hi16]
        have := hhi (i - nLimbs) (by omega)
        rw [show nLimbs + (i - nLimbs) = i by omega] at this
        rw [this, Int.cast_zero])
    (fun i hi => by
      split
      · have := quo_ok hlv i hi; rw [abs_le]; rcases hs01 with rfl | rfl <;> constructor <;> omega
      · norm_num)
    (zeroExtend_cast (fun i _ => by rw [limbs_cast, limbs_cast, Int.cast_sub]))
    (fun i _ => by
      unfold zeroExtend
      split
      · rename_i hi; have := b0 i hi; have := b1 i hi; rw [abs_le]; dsimp only; constructor <;> omega
      · norm_num) h1 h2
  rw [ev_zeroExtend _ (by decide), ev_sub, ev_num, ev_num] at this
  exact this

omit hlv hnv in
/-- The modulus of the FP254 operations. -/
theorem fp254_modulus (hb : lv IS_ADDFP254 + lv IS_MULFP254 + lv IS_SUBFP254 = 1) :
    num lv INPUT_REGISTER_2 = 21888242871839275222246405745257275088696311157297823662689037894645226208583 := by
  unfold evalModular at h
  simp only [hb] at h
  rw [Holds.append, Holds.append, Holds.append, Holds.append, Holds.append, Holds.append] at h
  obtain ⟨⟨⟨⟨⟨⟨-, h1⟩, -⟩, -⟩, -⟩, -⟩, -⟩ := h
  rw [Holds.map (.inr rfl)] at h1
  have hl : ∀ i < nLimbs, (lv (INPUT_REGISTER_2 + i)).val = bn254Limbs.getD i 0 := by
    intro i hi
    have h2 := h1 i hi
    rw [one_mul] at h2
    have h2 : reg lv INPUT_REGISTER_2 i = ((bn254Limbs.getD i 0 : ℕ) : F) := sub_eq_zero.1 h2
    unfold reg at h2
    rw [h2, ZMod.val_natCast, Nat.mod_eq_of_lt]
    have : ∀ i < nLimbs, bn254Limbs.getD i 0 < P := by decide +kernel
    exact this i hi
  unfold num
  rw [sum_congr rfl (fun i hi => by rw [hl i (mem_range.1 hi)])]
  decide +kernel

end

end Verif.Stark.Arith
