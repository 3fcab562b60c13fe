import Verif.Kasm.Rules

/-! The check that `write_table_if_jumpdest` makes on 32 bytes at once
(`asm/core/jumpdest_analysis.asm:145-195`). -/

namespace Verif.Kasm

/-- Digit `m`, in base 256. -/
def dig (x m : Nat) : Nat := x / 256 ^ m % 256

theorem dig_lt (x m : Nat) : dig x m < 256 := Nat.mod_lt _ (by decide)

theorem beVal_snoc (l : List Nat) (b : Nat) : beVal (l ++ [b]) = beVal l * 256 + b := by
  simp [beVal]

theorem snoc_rec {α : Type} {p : List α → Prop} (l : List α) (nil : p [])
    (append_singleton : ∀ l a, p l → p (l ++ [a])) : p l := by
  rw [← List.reverse_reverse l]
  induction l.reverse with
  | nil => exact nil
  | cons a r ih => rw [List.reverse_cons]; exact append_singleton _ _ ih

/-- The digits of a big-endian number are its bytes. -/
theorem dig_beVal (l : List Nat) (hl : ∀ b ∈ l, b < 256) (m : Nat) (hm : m < l.length) :
    dig (beVal l) m = l.getD (l.length - 1 - m) 0 := by
  induction l using snoc_rec generalizing m with
  | nil => simp at hm
  | append_singleton l b ih =>
    have hb : b < 256 := hl b (by simp)
    rw [beVal_snoc]
    cases m with
    | zero =>
      have : (beVal l * 256 + b) / 256 ^ 0 % 256 = b := by simp; omega
      simp only [dig, this]
      simp
    | succ m =>
      have e : (beVal l * 256 + b) / 256 ^ (m + 1) = beVal l / 256 ^ m := by
        rw [Nat.pow_succ', ← Nat.div_div_eq_div_mul]
        congr 1; omega
      have := ih (fun b hb => hl b (by simp [hb])) m (by simp at hm; omega)
      simp only [dig] at this ⊢
      rw [e, this]
      simp only [List.length_append, List.length_singleton] at hm ⊢
      rw [List.getD_eq_getElem?_getD, List.getD_eq_getElem?_getD, List.getElem?_append_left (by omega)]
      congr 2; omega

theorem dig_bytesAt (w : World) (a n : Nat) (h : n < 32) :
    dig (beVal (bytesAt w a 32)) (31 - n) = w.mem (a + n) % 256 := by
  rw [dig_beVal]
  · simp only [bytesAt, List.length_map, List.length_range]
    have : 32 - 1 - (31 - n) = n := by omega
    rw [this, List.getD_eq_getElem?_getD]
    simp [h]
  · intro b hb
    simp only [bytesAt, List.mem_map, List.mem_range] at hb
    obtain ⟨i, _, rfl⟩ := hb
    exact Nat.mod_lt _ (by decide)
  · simp [bytesAt]; omega

theorem beVal_lt (l : List Nat) (hl : ∀ b ∈ l, b < 256) : beVal l < 256 ^ l.length := by
  induction l using snoc_rec with
  | nil => simp [beVal]
  | append_singleton l b ih =>
    have hb : b < 256 := hl b (by simp)
    have := ih (fun b hb => hl b (by simp [hb]))
    rw [beVal_snoc]; simp only [List.length_append, List.length_singleton, Nat.pow_succ]
    omega

theorem beVal_bytesAt_lt (w : World) (a : Nat) : beVal (bytesAt w a 32) < 2 ^ 256 := by
  have := beVal_lt (bytesAt w a 32) (by
    intro b hb
    simp only [bytesAt, List.mem_map, List.mem_range] at hb
    obtain ⟨i, _, rfl⟩ := hb
    exact Nat.mod_lt _ (by decide))
  simp only [bytesAt, List.length_map, List.length_range] at this
  simp only [bytesAt]
  omega

/-- Adding digit by digit when no carry is needed. -/
theorem low_add (a b m : Nat) (h : ∀ j < m, dig a j + dig b j < 256) :
    a % 256 ^ m + b % 256 ^ m < 256 ^ m ∨ m = 0 := by
  induction m with
  | zero => simp
  | succ m ih =>
    left
    have e : ∀ x, x % 256 ^ (m + 1) = x % 256 ^ m + 256 ^ m * dig x m := by
      intro x; rw [dig, Nat.mod_pow_succ]
    have hp : 0 < 256 ^ m := Nat.pow_pos (by decide)
    have h1 : a % 256 ^ m + b % 256 ^ m < 256 ^ m := by
      rcases ih (fun j hj => h j (by omega)) with h | rfl
      · exact h
      · simp [Nat.mod_one]
    have h2 := h m (by omega)
    rw [e a, e b, Nat.pow_succ]
    generalize 256 ^ m = p at *
    have h3 : p * dig a m + p * dig b m ≤ p * 255 := by
      rw [← Nat.mul_add]; exact Nat.mul_le_mul (Nat.le_refl _) (by omega)
    omega

theorem dig_add (a b m : Nat) (h : ∀ j ≤ m, dig a j + dig b j < 256) :
    dig (a + b) m = dig a m + dig b m := by
  have hm := h m (Nat.le_refl _)
  have hp : 0 < 256 ^ m := Nat.pow_pos (by decide)
  have h1 : a % 256 ^ m + b % 256 ^ m < 256 ^ m := by
    rcases low_add a b m (fun j hj => h j (by omega)) with h | rfl
    · exact h
    · simp [Nat.mod_one]
  have e : (a + b) / 256 ^ m = a / 256 ^ m + b / 256 ^ m := by
    conv => lhs; rw [← Nat.div_add_mod a (256 ^ m), ← Nat.div_add_mod b (256 ^ m)]
    rw [show 256 ^ m * (a / 256 ^ m) + a % 256 ^ m + (256 ^ m * (b / 256 ^ m) + b % 256 ^ m)
      = 256 ^ m * (a / 256 ^ m + b / 256 ^ m) + (a % 256 ^ m + b % 256 ^ m) by
        rw [Nat.mul_add]; omega]
    rw [Nat.mul_add_div hp, Nat.div_eq_of_lt h1]; rfl
  simp only [dig] at hm ⊢
  rw [e]; omega

theorem testBit_dig (x m k : Nat) (hk : k < 8) : (dig x m).testBit k = x.testBit (8 * m + k) := by
  simp only [dig]
  rw [show (256 : Nat) = 2 ^ 8 by rfl, Nat.testBit_mod_two_pow, ← Nat.pow_mul,
    Nat.testBit_div_two_pow]
  simp [hk, Nat.add_comm]

def mask80 : Nat := 0x8080808080808080808080808080808080808080808080808080808080808080
def mask1f : Nat := 0x1f1f1f1f1f1f1f1f1f1f1f1f1f1f1f1f1f1f1f1f1f1f1f1f1f1f1f1f1f1f1f1f
def limits : Nat := 0x102030405060708090a0b0c0d0e0f101112131415161718191a1b1c1d1e1f20

theorem dig_and (x y m : Nat) : dig (x &&& y) m = dig x m &&& dig y m := by
  apply Nat.eq_of_testBit_eq
  intro i
  by_cases h : i < 8
  · rw [testBit_dig _ _ _ h, Nat.testBit_and, Nat.testBit_and, testBit_dig _ _ _ h, testBit_dig _ _ _ h]
  · have : ∀ z, (dig z m).testBit i = false := fun z =>
      Nat.testBit_lt_two_pow (Nat.lt_of_lt_of_le (dig_lt z m) (by
        show 2 ^ 8 ≤ 2 ^ i
        exact Nat.pow_le_pow_right (by decide) (by omega)))
    simp [this]

theorem dig_mask80 : ∀ m < 32, dig mask80 m = 0x80 := by decide +kernel
theorem dig_mask1f : ∀ m < 32, dig mask1f m = 0x1f := by decide +kernel
theorem dig_limits : ∀ m < 32, dig limits m = 32 - m := by decide +kernel

/-- The word that the code computes from the 32 bytes. -/
def packed (v : Nat) : Nat :=
  wand (wand (wand (wnot v) (wand (wshl 2 v) (wshl 1 v))) mask80)
    (wand mask80 (wshl 2 (wadd limits (wand mask1f v))))

theorem testBit_wshl (s x i : Nat) (hs : s ≤ 255) :
    (wshl s x).testBit i = (decide (i < 256) && decide (s ≤ i) && x.testBit (i - s)) := by
  simp only [wshl, if_neg (show ¬ 255 < s by omega)]
  rw [Nat.testBit_mod_two_pow, Nat.testBit_mul_two_pow]
  simp [Bool.and_assoc]

theorem testBit_wnot (x i : Nat) (hx : x < 2 ^ 256) :
    (wnot x).testBit i = (decide (i < 256) && !x.testBit i) := by
  have := Nat.testBit_two_pow_sub_succ hx i
  rw [show wnot x = 2 ^ 256 - (x + 1) by simp only [wnot]; omega, this]

theorem testBit_mask80 (i : Nat) : mask80.testBit i = decide (i < 256 ∧ i % 8 = 7) := by
  by_cases h : i < 256
  · have : ∀ i < 256, mask80.testBit i = decide (i < 256 ∧ i % 8 = 7) := by decide +kernel
    exact this i h
  · have : mask80.testBit i = false := Nat.testBit_lt_two_pow (Nat.lt_of_lt_of_le
      (show mask80 < 2 ^ 256 by decide) (Nat.pow_le_pow_right (by decide) (by omega)))
    simp [this, h]

/-- An instruction that begins with byte `b` has this many bytes: `PUSHk` is followed by `k` bytes
of data. -/
def instrLen (b : Nat) : Nat := if 0x60 ≤ b ∧ b ≤ 0x7f then b - 0x5f + 1 else 1

theorem instrLen_pos (b : Nat) : 1 ≤ instrLen b := by simp only [instrLen]; split <;> omega
theorem instrLen_le (b : Nat) : instrLen b ≤ 33 := by simp only [instrLen]; split <;> omega

theorem forbidden : ∀ m < 32, ∀ b < 256,
    (b.testBit 5 && b.testBit 6 && !b.testBit 7 && ((31 &&& b) + (32 - m)).testBit 5) = true ↔
      32 < 31 - m + instrLen b := by decide +kernel

/-- The computed word is zero exactly if no instruction in the 32 bytes would reach past them. -/
theorem packed_eq_zero (v : Nat) (hv : v < 2 ^ 256) :
    packed v = 0 ↔ ∀ m < 32, 31 - m + instrLen (dig v m) ≤ 32 := by
  have hs : ∀ m < 32, dig (wadd limits (wand mask1f v)) m = (31 &&& dig v m) + (32 - m) := by
    intro m hm
    have hlt : limits + (mask1f &&& v) < 2 ^ 256 := by
      have : mask1f &&& v ≤ mask1f := Nat.and_le_left
      have h1 : limits + mask1f < 2 ^ 256 := by decide
      omega
    rw [wand, wadd, Nat.mod_eq_of_lt hlt, dig_add, dig_limits m hm, dig_and, dig_mask1f m hm]
    · omega
    · intro j hj
      have : 31 &&& dig v j ≤ 31 := Nat.and_le_left
      rw [dig_and, dig_limits j (by omega), dig_mask1f j (by omega)]; omega
  have hb : ∀ m < 32, (packed v).testBit (8 * m + 7) = decide (32 < 31 - m + instrLen (dig v m)) := by
    intro m hm
    have h1 := forbidden m hm (dig v m) (dig_lt v m)
    rw [← hs m hm, testBit_dig _ _ _ (by omega), testBit_dig _ _ _ (by omega),
      testBit_dig _ _ _ (by omega), testBit_dig _ _ _ (by omega)] at h1
    rw [packed]
    simp only [wand, Nat.testBit_and, testBit_wshl _ _ _ (by decide : (1:Nat) ≤ 255),
      testBit_wshl _ _ _ (by decide : (2:Nat) ≤ 255), testBit_wnot _ _ hv, testBit_mask80]
    rw [show 8 * m + 7 - 1 = 8 * m + 6 by omega, show 8 * m + 7 - 2 = 8 * m + 5 by omega]
    have e1 : decide (8 * m + 7 < 256) = true := by simp; omega
    have e2 : decide (8 * m + 7 < 256 ∧ (8 * m + 7) % 8 = 7) = true := by simp; omega
    have e3 : decide (2 ≤ 8 * m + 7) = true := by simp
    have e4 : decide (1 ≤ 8 * m + 7) = true := by simp
    rw [e1, e2, e3, e4, Bool.eq_iff_iff]
    simp only [Bool.true_and, Bool.and_true]
    rw [decide_eq_true_iff, ← h1]
    simp only [wand, Bool.and_eq_true]
    constructor <;> (intro h; simp only [h, and_self])
  constructor
  · intro h0 m hm
    have := hb m hm
    rw [h0] at this
    simp at this; omega
  · intro h
    apply Nat.eq_of_testBit_eq
    intro i
    rw [Nat.zero_testBit]
    by_cases hi : i < 256 ∧ i % 8 = 7
    · have e : i = 8 * (i / 8) + 7 := by omega
      rw [e, hb (i / 8) (by omega)]
      have := h (i / 8) (by omega)
      simp; omega
    · have : mask80.testBit i = false := by rw [testBit_mask80]; simpa using hi
      rw [packed]; simp only [wand, Nat.testBit_and, this]; simp

end Verif.Kasm
