import Mathlib.Data.ZMod.Basic
import Mathlib.NumberTheory.LucasPrimality
import Mathlib.Algebra.Field.ZMod
import Mathlib.Tactic.NormNum.Prime

/-! The Goldilocks field of the STARK tables. -/

namespace Verif.Stark

/-- The order of the base field: `2^64 - 2^32 + 1`. `evm_arithmetization/src/arithmetic/addcy.rs:67` ("mod (2^64 - 2^32 + 1)"). -/
abbrev P : ℕ := 18446744069414584321

/-- The base field. -/
abbrev F : Type := ZMod P

def powMod (b e m : ℕ) : ℕ → ℕ
  | 0 => 1 % m
  | fuel + 1 => if e = 0 then 1 % m else
      let h := powMod b (e / 2) m fuel
      if e % 2 = 0 then h * h % m else h * h % m * b % m

theorem powMod_eq (b m : ℕ) (fuel e : ℕ) (h : e < 2 ^ fuel) : powMod b e m fuel = b ^ e % m := by
  induction fuel generalizing e with
  | zero => simp at h; simp [powMod, h]
  | succ f ih =>
    by_cases he : e = 0
    · simp [powMod, he]
    · have h2 : e / 2 < 2 ^ f := by omega
      simp only [powMod, he, if_false, ih _ h2]
      have e2 : e = e / 2 + e / 2 + e % 2 := by omega
      by_cases hm : e % 2 = 0
      · rw [if_pos hm]; conv_rhs => rw [e2, hm, add_zero, pow_add]
        simp [Nat.mul_mod]
      · rw [if_neg hm]; have : e % 2 = 1 := by omega
        conv_rhs => rw [e2, this, pow_succ, pow_add]
        simp [Nat.mul_mod]

theorem zpow_cast (e : ℕ) (h : e < 2 ^ 64) : (7 : F) ^ e = ((powMod 7 e P 64 : ℕ) : F) := by
  rw [powMod_eq _ _ _ _ h]
  simp

theorem prime_P : Nat.Prime P := by
  apply lucas_primality P (7 : F)
  · rw [zpow_cast _ (by decide)]
    have : powMod 7 (P - 1) P 64 = 1 := by decide +kernel
    rw [this]; simp
  · intro q hq hd
    have hf : P - 1 = 2 ^ 32 * (3 * (5 * (17 * (257 * 65537)))) := by decide +kernel
    rw [hf] at hd
    have key : q = 2 ∨ q = 3 ∨ q = 5 ∨ q = 17 ∨ q = 257 ∨ q = 65537 := by
      rcases (Nat.Prime.dvd_mul hq).1 hd with h | h
      · exact .inl ((Nat.prime_dvd_prime_iff_eq hq Nat.prime_two).1 (hq.dvd_of_dvd_pow h))
      · rcases (Nat.Prime.dvd_mul hq).1 h with h | h
        · exact .inr (.inl ((Nat.prime_dvd_prime_iff_eq hq (by norm_num)).1 h))
        · rcases (Nat.Prime.dvd_mul hq).1 h with h | h
          · exact .inr (.inr (.inl ((Nat.prime_dvd_prime_iff_eq hq (by norm_num)).1 h)))
          · rcases (Nat.Prime.dvd_mul hq).1 h with h | h
            · exact .inr (.inr (.inr (.inl ((Nat.prime_dvd_prime_iff_eq hq (by norm_num)).1 h))))
            · rcases (Nat.Prime.dvd_mul hq).1 h with h | h
              · exact .inr (.inr (.inr (.inr (.inl ((Nat.prime_dvd_prime_iff_eq hq (by norm_num)).1 h)))))
              · exact .inr (.inr (.inr (.inr (.inr ((Nat.prime_dvd_prime_iff_eq hq (by norm_num)).1 h)))))
    have ne : ∀ e, e < 2 ^ 64 → powMod 7 e P 64 ≠ 1 → (7 : F) ^ e ≠ 1 := by
      intro e he hne h1
      rw [zpow_cast _ he] at h1
      have h1' : ((powMod 7 e P 64 : ℕ) : F) = ((1 : ℕ) : F) := by simpa using h1
      rw [ZMod.natCast_eq_natCast_iff'] at h1'
      rw [powMod_eq _ _ _ _ he] at h1' hne
      rw [Nat.mod_mod] at h1'
      exact hne (h1'.trans (by decide))
    rcases key with rfl | rfl | rfl | rfl | rfl | rfl <;>
      exact ne _ (by decide +kernel) (by decide +kernel)

instance : Fact (Nat.Prime P) := ⟨prime_P⟩

example : (65536 : F) * 18446462594437939201 = 1 := by decide +kernel

end Verif.Stark
