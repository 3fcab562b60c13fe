import Verif.Stark.Arith.Table

/-! What a row of an accepted arithmetic table says, operation by operation. -/

namespace Verif.Stark.Arith

open Finset

theorem modSpec_nat {x m r : ℕ} (h : (r : ℤ) = modSpec x m) : r = if m = 0 then 0 else x % m := by
  unfold modSpec at h
  split at h <;> rename_i hm
  · rw [if_pos hm]; exact_mod_cast h
  · rw [if_neg hm]; exact_mod_cast h

section
variable {n : ℕ} {T : ℕ → Row F} (h : Accepted n T) (hn : n < P) {i : ℕ} (hi : i < n)
include h hn hi

omit hn in
theorem addcy_zero_at : ∀ c ∈ evalAddSubLtGt (T i), c.val = 0 := by
  refine always_at h hi (fun c hc => ?_) (fun c hc => ?_)
  · simp only [evalArith, List.mem_append]; exact .inl (.inl (.inl (.inl (.inr hc))))
  · have hon : ∀ {f : F} {x y z g : Limbs F}, c ∈ evalAddcy f x y z g false → c.on = .always := by
      intro f x y z g hc
      simp only [evalAddcy, List.mem_append, List.mem_map, List.mem_singleton, Bool.false_eq_true, if_false] at hc
      rcases hc with ((⟨i, -, rfl⟩ | rfl) | rfl) | ⟨i, -, rfl⟩ <;> rfl
    simp only [evalAddSubLtGt, List.mem_append] at hc
    rcases hc with ((hc | hc) | hc) | hc <;> exact hon hc

/-- C35: ADD. -/
theorem C35_add (hf : T i IS_ADD = 1) :
    num (T i) OUTPUT_REGISTER = (num (T i) INPUT_REGISTER_0 + num (T i) INPUT_REGISTER_1) % 2 ^ 256 :=
  add_row (ranged h hn i hi) (addcy_zero_at h hi) hf

/-- C35: SUB. -/
theorem C35_sub (hf : T i IS_SUB = 1) :
    num (T i) OUTPUT_REGISTER = (num (T i) INPUT_REGISTER_0 + 2 ^ 256 - num (T i) INPUT_REGISTER_1) % 2 ^ 256 :=
  sub_row (ranged h hn i hi) (addcy_zero_at h hi) hf

/-- C35: LT. -/
theorem C35_lt (hf : T i IS_LT = 1) :
    num (T i) OUTPUT_REGISTER = if num (T i) INPUT_REGISTER_0 < num (T i) INPUT_REGISTER_1 then 1 else 0 :=
  lt_row (ranged h hn i hi) (addcy_zero_at h hi) hf

/-- C35: GT. -/
theorem C35_gt (hf : T i IS_GT = 1) :
    num (T i) OUTPUT_REGISTER = if num (T i) INPUT_REGISTER_1 < num (T i) INPUT_REGISTER_0 then 1 else 0 :=
  gt_row (ranged h hn i hi) (addcy_zero_at h hi) hf

/-- C36: MUL. -/
theorem C36_mul (hf : T i IS_MUL = 1) :
    num (T i) OUTPUT_REGISTER = num (T i) INPUT_REGISTER_0 * num (T i) INPUT_REGISTER_1 % 2 ^ 256 := by
  refine mul_row (ranged h hn i hi) (always_at h hi (fun c hc => ?_) (fun c hc => ?_)) hf
  · simp only [evalArith, List.mem_append]; exact .inl (.inl (.inl (.inl (.inl (.inr hc)))))
  · unfold evalMul evalMulWith at hc
    obtain ⟨i, -, rfl⟩ := List.mem_map.1 hc; rfl

theorem divmod_at (hf : T i IS_DIV = 1 ∨ T i IS_MOD = 1) : i + 1 < n ∧ Ranged (T (i + 1)) ∧ Holds (evalDivmod (T i) (T (i + 1))) := by
  have hlt : i + 1 < n := by
    refine not_last h hi (v := 1) one_ne_zero ?_
    simp only [evalArith, evalDivmod, evalDivmodHelper, List.mem_append]
    rcases hf with hf | hf
    · exact .inl (.inl (.inl (.inr (.inl (.inl (.inl (by rw [hf]; exact List.mem_singleton_self _)))))))
    · exact .inl (.inl (.inl (.inr (.inr (.inl (.inl (by rw [hf]; exact List.mem_singleton_self _)))))))
  refine ⟨hlt, ranged h hn _ hlt, fun c hc => holds_mid h hlt c ?_⟩
  simp only [evalArith, List.mem_append]; exact .inl (.inl (.inl (.inr hc)))

/-- C37: MOD, also by zero. -/
theorem C37_mod (hf : T i IS_MOD = 1) : num (T i) OUTPUT_REGISTER =
    if num (T i) INPUT_REGISTER_1 = 0 then 0 else num (T i) INPUT_REGISTER_0 % num (T i) INPUT_REGISTER_1 := by
  obtain ⟨-, hr, hh⟩ := divmod_at h hn hi (.inr hf)
  exact mod_row (ranged h hn i hi) hr (flags_only h hi (by decide) hf) hh

/-- C37 in part: DIV by a number other than zero. The full statement is `C37_div_statement`; it fails for the divisor zero,
`C37_div_violated`. -/
theorem C37_div_partial (hf : T i IS_DIV = 1) (h0 : num (T i) INPUT_REGISTER_1 ≠ 0) :
    num (T i) OUTPUT_REGISTER = num (T i) INPUT_REGISTER_0 / num (T i) INPUT_REGISTER_1 := by
  obtain ⟨-, hr, hh⟩ := divmod_at h hn hi (.inl hf)
  exact (div_row (ranged h hn i hi) hr (flags_only h hi (by decide) hf) hh).1 h0

/-- What remains for the divisor zero: the output is at most the dividend. -/
theorem C37_div_by_zero (hf : T i IS_DIV = 1) : num (T i) OUTPUT_REGISTER ≤ num (T i) INPUT_REGISTER_0 := by
  obtain ⟨-, hr, hh⟩ := divmod_at h hn hi (.inl hf)
  exact (div_row (ranged h hn i hi) hr (flags_only h hi (by decide) hf) hh).2

theorem modular_at {f : ℕ} (hf : T i f = 1)
    (hmem : f = IS_ADDMOD ∨ f = IS_MULMOD ∨ f = IS_SUBMOD ∨ f = IS_ADDFP254 ∨ f = IS_MULFP254 ∨ f = IS_SUBFP254) :
    Only (T i) f ∧ Ranged (T (i + 1)) ∧ Holds (evalModular (T i) (T (i + 1))) := by
  have hlt17 : f < N_FLAGS := by rcases hmem with rfl | rfl | rfl | rfl | rfl | rfl <;> decide
  have ho := flags_only h hi hlt17 hf
  have hlt : i + 1 < n := by
    refine not_last h hi (v := T i IS_ADDMOD + T i IS_SUBMOD + T i IS_MULMOD + (T i IS_ADDFP254 + T i IS_MULFP254 + T i IS_SUBFP254)) ?_ ?_
    · have e : ∀ g < N_FLAGS, T i g = if g = f then 1 else 0 := by
        intro g hg
        split
        · rename_i e; rw [e]; exact hf
        · rename_i e; exact ho.2 g hg e
      rw [e IS_ADDMOD (by decide), e IS_SUBMOD (by decide), e IS_MULMOD (by decide), e IS_ADDFP254 (by decide), e IS_MULFP254 (by decide),
        e IS_SUBFP254 (by decide)]
      rcases hmem with rfl | rfl | rfl | rfl | rfl | rfl <;> decide +kernel
    · simp only [evalArith, evalModular, List.mem_append]
      exact .inl (.inl (.inr (.inl (.inl (.inl (.inl (.inl (.inl (List.mem_singleton_self _)))))))))
  refine ⟨ho, ranged h hn _ hlt, fun c hc => holds_mid h hlt c ?_⟩
  simp only [evalArith, List.mem_append]; exact .inl (.inl (.inr hc))

/-- C38: ADDMOD, also with modulus zero. -/
theorem C38_addmod (hf : T i IS_ADDMOD = 1) : num (T i) OUTPUT_REGISTER = if num (T i) INPUT_REGISTER_2 = 0 then 0
    else (num (T i) INPUT_REGISTER_0 + num (T i) INPUT_REGISTER_1) % num (T i) INPUT_REGISTER_2 := by
  obtain ⟨ho, hr, hh⟩ := modular_at h hn hi hf (by simp)
  have z : ∀ g < N_FLAGS, g ≠ IS_ADDMOD → T i g = 0 := ho.2
  have := addmod_sound (ranged h hn i hi) hr hh (by rw [hf, z IS_ADDFP254 (by decide) (by decide), add_zero])
    (by rw [z IS_MULMOD (by decide) (by decide), z IS_MULFP254 (by decide) (by decide), add_zero])
    (by rw [z IS_DIV (by decide) (by decide), z IS_SHR (by decide) (by decide), add_zero])
  exact modSpec_nat (by exact_mod_cast this)

/-- C38: MULMOD, also with modulus zero. -/
theorem C38_mulmod (hf : T i IS_MULMOD = 1) : num (T i) OUTPUT_REGISTER = if num (T i) INPUT_REGISTER_2 = 0 then 0
    else (num (T i) INPUT_REGISTER_0 * num (T i) INPUT_REGISTER_1) % num (T i) INPUT_REGISTER_2 := by
  obtain ⟨ho, hr, hh⟩ := modular_at h hn hi hf (by simp)
  have z : ∀ g < N_FLAGS, g ≠ IS_MULMOD → T i g = 0 := ho.2
  have := mulmod_sound (ranged h hn i hi) hr hh (by rw [hf, z IS_MULFP254 (by decide) (by decide), add_zero])
    (by rw [z IS_ADDMOD (by decide) (by decide), z IS_ADDFP254 (by decide) (by decide), add_zero])
    (by rw [z IS_DIV (by decide) (by decide), z IS_SHR (by decide) (by decide), add_zero])
  exact modSpec_nat (by exact_mod_cast this)

/-- C38: SUBMOD, also with modulus zero; the remainder is that of the difference as an integer, which may be negative. -/
theorem C38_submod (hf : T i IS_SUBMOD = 1) : (num (T i) OUTPUT_REGISTER : ℤ) = if num (T i) INPUT_REGISTER_2 = 0 then 0
    else ((num (T i) INPUT_REGISTER_0 : ℤ) - num (T i) INPUT_REGISTER_1) % num (T i) INPUT_REGISTER_2 := by
  obtain ⟨ho, hr, hh⟩ := modular_at h hn hi hf (by simp)
  have z : ∀ g < N_FLAGS, g ≠ IS_SUBMOD → T i g = 0 := ho.2
  exact submod_sound (ranged h hn i hi) hr hh (by rw [hf, z IS_SUBFP254 (by decide) (by decide), add_zero])
    (by rw [z IS_DIV (by decide) (by decide), z IS_SHR (by decide) (by decide), add_zero])

/-- The order of the base field of BN254. (Specification: EIP-196.) -/
def bn254Base : ℕ := 21888242871839275222246405745257275088696311157297823662689037894645226208583

/-- C38: ADDFP254. -/
theorem C38_addfp254 (hf : T i IS_ADDFP254 = 1) :
    num (T i) OUTPUT_REGISTER = (num (T i) INPUT_REGISTER_0 + num (T i) INPUT_REGISTER_1) % bn254Base := by
  obtain ⟨ho, hr, hh⟩ := modular_at h hn hi hf (by simp)
  have z : ∀ g < N_FLAGS, g ≠ IS_ADDFP254 → T i g = 0 := ho.2
  have hm := fp254_modulus hh (by rw [hf, z IS_MULFP254 (by decide) (by decide), z IS_SUBFP254 (by decide) (by decide), add_zero, add_zero])
  have := addmod_sound (ranged h hn i hi) hr hh (by rw [hf, z IS_ADDMOD (by decide) (by decide), zero_add])
    (by rw [z IS_MULMOD (by decide) (by decide), z IS_MULFP254 (by decide) (by decide), add_zero])
    (by rw [z IS_DIV (by decide) (by decide), z IS_SHR (by decide) (by decide), add_zero])
  rw [hm] at this
  exact (modSpec_nat (by exact_mod_cast this)).trans (if_neg (by decide))

/-- C38: MULFP254. -/
theorem C38_mulfp254 (hf : T i IS_MULFP254 = 1) :
    num (T i) OUTPUT_REGISTER = (num (T i) INPUT_REGISTER_0 * num (T i) INPUT_REGISTER_1) % bn254Base := by
  obtain ⟨ho, hr, hh⟩ := modular_at h hn hi hf (by simp)
  have z : ∀ g < N_FLAGS, g ≠ IS_MULFP254 → T i g = 0 := ho.2
  have hm := fp254_modulus hh (by rw [hf, z IS_ADDFP254 (by decide) (by decide), z IS_SUBFP254 (by decide) (by decide), zero_add, add_zero])
  have := mulmod_sound (ranged h hn i hi) hr hh (by rw [hf, z IS_MULMOD (by decide) (by decide), zero_add])
    (by rw [z IS_ADDMOD (by decide) (by decide), z IS_ADDFP254 (by decide) (by decide), add_zero])
    (by rw [z IS_DIV (by decide) (by decide), z IS_SHR (by decide) (by decide), add_zero])
  rw [hm] at this
  exact (modSpec_nat (by exact_mod_cast this)).trans (if_neg (by decide))

/-- C38: SUBFP254. -/
theorem C38_subfp254 (hf : T i IS_SUBFP254 = 1) :
    (num (T i) OUTPUT_REGISTER : ℤ) = ((num (T i) INPUT_REGISTER_0 : ℤ) - num (T i) INPUT_REGISTER_1) % (bn254Base : ℤ) := by
  obtain ⟨ho, hr, hh⟩ := modular_at h hn hi hf (by simp)
  have z : ∀ g < N_FLAGS, g ≠ IS_SUBFP254 → T i g = 0 := ho.2
  have hm := fp254_modulus hh (by rw [hf, z IS_ADDFP254 (by decide) (by decide), z IS_MULFP254 (by decide) (by decide), zero_add, zero_add])
  have := submod_sound (ranged h hn i hi) hr hh (by rw [hf, z IS_SUBMOD (by decide) (by decide), zero_add])
    (by rw [z IS_DIV (by decide) (by decide), z IS_SHR (by decide) (by decide), add_zero])
  rw [hm] at this
  exact this.trans (if_neg (by decide))

/-- C39: BYTE. -/
theorem C39_byte (hf : T i IS_BYTE = 1) :
    num (T i) OUTPUT_REGISTER = if num (T i) INPUT_REGISTER_0 < 32
      then num (T i) INPUT_REGISTER_1 / 256 ^ (31 - num (T i) INPUT_REGISTER_0) % 256 else 0 := by
  refine byte_row (ranged h hn i hi) hf (fun c hc _ => ?_)
  refine always_at h hi (cs := evalByte (T i)) (fun c hc => ?_) (fun c hc => ?_) c hc
  · simp only [evalArith, List.mem_append]; exact .inl (.inr hc)
  · simp only [evalByte, List.mem_append, List.mem_map, List.mem_cons, List.not_mem_nil, or_false] at hc
    rcases hc with (((((⟨_, -, rfl⟩ | rfl) | ⟨_, -, rfl⟩) | ⟨_, -, rfl⟩) | ⟨_, -, rfl⟩) | rfl | rfl | rfl | rfl | rfl | rfl | rfl) | ⟨_, -, rfl⟩ <;> rfl

theorem shl_raw (hf : T i IS_SHL = 1) :
    num (T i) OUTPUT_REGISTER = num (T i) INPUT_REGISTER_1 * num (T i) INPUT_REGISTER_2 % 2 ^ 256 := by
  have hz : ∀ c ∈ evalMulWith (T i) (T i IS_SHL) (reg (T i) INPUT_REGISTER_1) (reg (T i) INPUT_REGISTER_2), c.val = 0 := by
    refine always_at h hi (fun c hc => ?_) (fun c hc => ?_)
    · simp only [evalArith, evalShift, List.mem_append]; exact .inr (.inl hc)
    · unfold evalMulWith at hc
      obtain ⟨i, -, rfl⟩ := List.mem_map.1 hc; rfl
  rw [hf] at hz
  exact mulWith_sound (ranged h hn i hi) (by decide) (by decide) hz

theorem shr_raw (hf : T i IS_SHR = 1) :
    (num (T i) INPUT_REGISTER_2 ≠ 0 → num (T i) OUTPUT_REGISTER = num (T i) INPUT_REGISTER_1 / num (T i) INPUT_REGISTER_2) ∧
      num (T i) OUTPUT_REGISTER ≤ num (T i) INPUT_REGISTER_1 := by
  have hlt : i + 1 < n := by
    refine not_last h hi (v := 1) one_ne_zero ?_
    simp only [evalArith, evalShift, evalDivmodHelper, List.mem_append]
    exact .inr (.inr (.inl (.inl (by rw [hf]; exact List.mem_singleton_self _))))
  refine shr_row (ranged h hn i hi) (ranged h hn _ hlt) (flags_only h hi (by decide) hf) (fun c hc => holds_mid h hlt c ?_)
  simp only [evalArith, List.mem_append]; exact .inr hc

/-- C40: SHL by `s` bits, given that the third register holds `2^s`, or zero for a shift by 256 or more. -/
theorem C40_shl {s : ℕ} (hf : T i IS_SHL = 1) (hs : num (T i) INPUT_REGISTER_2 = if s < 256 then 2 ^ s else 0) :
    num (T i) OUTPUT_REGISTER = if s < 256 then num (T i) INPUT_REGISTER_1 * 2 ^ s % 2 ^ 256 else 0 := by
  rw [shl_raw h hn hi hf, hs]
  split
  · rfl
  · rw [mul_zero, Nat.zero_mod]

/-- C40 in part: SHR by fewer than 256 bits, given that the third register holds the power of two. The full statement is
`C40_shr_statement`; it fails for longer shifts, `C40_shr_violated`. -/
theorem C40_shr_partial {s : ℕ} (hf : T i IS_SHR = 1) (hs : num (T i) INPUT_REGISTER_2 = 2 ^ s) :
    num (T i) OUTPUT_REGISTER = num (T i) INPUT_REGISTER_1 / 2 ^ s := by
  rw [← hs]
  exact (shr_raw h hn hi hf).1 (by rw [hs]; exact (Nat.two_pow_pos s).ne')

/-- What remains for longer shifts: the output is at most the input. -/
theorem C40_shr_long (hf : T i IS_SHR = 1) : num (T i) OUTPUT_REGISTER ≤ num (T i) INPUT_REGISTER_1 := (shr_raw h hn hi hf).2

end

/-- C37 in full for DIV: also for the divisor zero the output is that of the EVM, zero (`a / 0 = 0` in Lean too). -/
def C37_div_statement : Prop := ∀ (n : ℕ) (T : ℕ → Row F), Accepted n T → n < P → ∀ i < n, T i IS_DIV = 1 →
  num (T i) OUTPUT_REGISTER = num (T i) INPUT_REGISTER_0 / num (T i) INPUT_REGISTER_1

/-- C40 in full for SHR. -/
def C40_shr_statement : Prop := ∀ (n : ℕ) (T : ℕ → Row F), Accepted n T → n < P → ∀ i < n, ∀ s, T i IS_SHR = 1 →
  num (T i) INPUT_REGISTER_2 = (if s < 256 then 2 ^ s else 0) →
  num (T i) OUTPUT_REGISTER = if s < 256 then num (T i) INPUT_REGISTER_1 / 2 ^ s else 0

end Verif.Stark.Arith
