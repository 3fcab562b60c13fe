import Verif.Nibbles.Model
/-! Packed strings represent lists of nibbles. -/
namespace Verif.Nibbles
set_option exponentiation.threshold 400
open Verif.Mpt (Bytes Key Nib)

/-- The number whose base-16 digits are `k`, most significant first. -/
def val (k : Key) : Nat := k.foldl (fun a d => a * 16 + d.val) 0

/-- The packed form of a sequence. -/
def rep (k : Key) : Nibbles := ⟨k.length, val k⟩

theorem foldl_val (k : Key) (a : Nat) :
    k.foldl (fun a d => a * 16 + d.val) a = a * 16 ^ k.length + val k := by
  unfold val
  induction k generalizing a with
  | nil => simp
  | cons d k ih =>
    simp only [List.foldl_cons, List.length_cons]
    rw [ih, ih (0 * 16 + d.val), Nat.pow_succ]
    simp only [Nat.add_mul, Nat.zero_mul, Nat.zero_add]
    rw [Nat.mul_assoc, Nat.mul_comm 16, ← Nat.add_assoc]

theorem val_append (a b : Key) : val (a ++ b) = val a * 16 ^ b.length + val b := by
  unfold val
  rw [List.foldl_append, foldl_val, val]

theorem val_cons (d : Nib) (k : Key) : val (d :: k) = d.val * 16 ^ k.length + val k := by
  have := val_append [d] k
  simpa [val] using this

@[simp] theorem val_nil : val [] = 0 := rfl
@[simp] theorem val_single (d : Nib) : val [d] = d.val := by simp [val]

theorem val_lt (k : Key) : val k < 16 ^ k.length := by
  induction k with
  | nil => simp
  | cons d k ih =>
    rw [val_cons, List.length_cons, Nat.pow_succ]
    have : d.val * 16 ^ k.length ≤ 15 * 16 ^ k.length := Nat.mul_le_mul_right _ (by omega)
    omega

theorem val_div (a b : Key) : val (a ++ b) / 16 ^ b.length = val a := by
  rw [val_append, Nat.mul_comm, Nat.mul_add_div (Nat.pow_pos (by omega)),
    Nat.div_eq_of_lt (val_lt b), Nat.add_zero]

theorem val_mod (a b : Key) : val (a ++ b) % 16 ^ b.length = val b := by
  rw [val_append, Nat.mul_comm, Nat.mul_add_mod, Nat.mod_eq_of_lt (val_lt b)]

theorem val_inj {a b : Key} (hl : a.length = b.length) (h : val a = val b) : a = b := by
  induction a generalizing b with
  | nil => cases b <;> simp_all
  | cons x a ih =>
    cases b with
    | nil => simp at hl
    | cons y b =>
      simp only [List.length_cons, Nat.add_right_cancel_iff] at hl
      rw [val_cons, val_cons, hl] at h
      have ha := val_lt a
      have hb := val_lt b
      rw [hl] at ha
      have hpos : 0 < 16 ^ b.length := Nat.pow_pos (by omega)
      have h1 : x.val = y.val := by
        have e1 : (x.val * 16 ^ b.length + val a) / 16 ^ b.length = x.val := by
          rw [Nat.mul_comm, Nat.mul_add_div hpos, Nat.div_eq_of_lt ha, Nat.add_zero]
        have e2 : (y.val * 16 ^ b.length + val b) / 16 ^ b.length = y.val := by
          rw [Nat.mul_comm, Nat.mul_add_div hpos, Nat.div_eq_of_lt hb, Nat.add_zero]
        rw [← e1, h, e2]
      rw [h1] at h
      rw [Fin.ext h1, ih hl (by omega)]

theorem rep_inj {a b : Key} (h : rep a = rep b) : a = b := by
  simp only [rep, Nibbles.mk.injEq] at h
  exact val_inj h.1 h.2

/-- Every packed value within its count is the packed form of a sequence. -/
theorem exists_rep (n x : Nat) (h : x < 16 ^ n) : ∃ k : Key, k.length = n ∧ val k = x := by
  induction n generalizing x with
  | zero => exact ⟨[], rfl, by simp at h; simp [h]⟩
  | succ n ih =>
    obtain ⟨k, h1, h2⟩ := ih (x / 16) (by
      rw [Nat.pow_succ] at h
      exact Nat.div_lt_of_lt_mul (by omega))
    refine ⟨k ++ [⟨x % 16, by omega⟩], by simp [h1], ?_⟩
    rw [val_append, h2]
    simp
    omega

/-! ## Bit facts -/

theorem and_shl_mask (x n s : Nat) : x &&& ((2 ^ n - 1) <<< s) = (x / 2 ^ s % 2 ^ n) * 2 ^ s := by
  rw [← Nat.shiftLeft_eq]
  apply Nat.eq_of_testBit_eq
  intro i
  simp only [Nat.testBit_and, Nat.testBit_shiftLeft, Nat.testBit_two_pow_sub_one,
    Nat.testBit_mod_two_pow, Nat.testBit_div_two_pow]
  by_cases h : s ≤ i
  · have : i - s + s = i := by omega
    simp [h, this, Bool.and_comm]
  · simp [h]

theorem and_shl_mask_shr (x n s : Nat) : (x &&& ((2 ^ n - 1) <<< s)) >>> s = x / 2 ^ s % 2 ^ n := by
  rw [and_shl_mask, Nat.shiftRight_eq_div_pow, Nat.mul_div_cancel _ (Nat.pow_pos (by omega))]

theorem and_not (x y : Nat) (hy : y < 2 ^ 320) (i : Nat) :
    (x &&& not y).testBit i = (x.testBit i && decide (i < 320) && !y.testBit i) := by
  have : not y = 2 ^ 320 - (y + 1) := by unfold not; omega
  rw [this, Nat.testBit_and, Nat.testBit_two_pow_sub_succ hy, Bool.and_assoc]

/-- Clearing the top `n` of `s + n` bits. -/
theorem and_not_shl_mask {x n s : Nat} (hx : x < 2 ^ (s + n)) (hs : s + n ≤ 320) :
    x &&& not ((2 ^ n - 1) <<< s) = x % 2 ^ s := by
  have hlt : (2 ^ n - 1) <<< s < 2 ^ 320 := by
    rw [Nat.shiftLeft_eq]
    calc (2 ^ n - 1) * 2 ^ s < 2 ^ n * 2 ^ s :=
          Nat.mul_lt_mul_of_pos_right (by have := Nat.two_pow_pos n; omega) (Nat.two_pow_pos s)
      _ = 2 ^ (n + s) := (Nat.pow_add _ _ _).symm
      _ ≤ 2 ^ 320 := Nat.pow_le_pow_right (by omega) (by omega)
  apply Nat.eq_of_testBit_eq
  intro i
  rw [and_not _ _ hlt]
  simp only [Nat.testBit_shiftLeft, Nat.testBit_two_pow_sub_one, Nat.testBit_mod_two_pow]
  by_cases h1 : i < s
  · have : ¬ s ≤ i := by omega
    have h3 : i < 320 := by omega
    simp [h1, this, h3]
  · by_cases h2 : i < s + n
    · have : i - s < n := by omega
      have h3 : s ≤ i := by omega
      simp [h1, this, h3]
    · have : x.testBit i = false := Nat.testBit_lt_two_pow
        (Nat.lt_of_lt_of_le hx (Nat.pow_le_pow_right (by omega) (by omega)))
      simp [this]

theorem and_not_mask_shr {x n : Nat} (hx : x < 2 ^ 320) (hn : n < 320) :
    (x &&& not (2 ^ n - 1)) >>> n = x / 2 ^ n := by
  have hlt : 2 ^ n - 1 < 2 ^ 320 := by
    have : 2 ^ n < 2 ^ 320 := Nat.pow_lt_pow_right (by omega) hn
    omega
  apply Nat.eq_of_testBit_eq
  intro i
  rw [Nat.testBit_shiftRight, and_not _ _ hlt, Nat.testBit_two_pow_sub_one, Nat.testBit_div_two_pow]
  have h1 : ¬ n + i < n := by omega
  by_cases h2 : n + i < 320
  · simp [h1, h2, Nat.add_comm]
  · have : x.testBit (n + i) = false := Nat.testBit_lt_two_pow
        (Nat.lt_of_lt_of_le hx (Nat.pow_le_pow_right (by omega) (by omega)))
    rw [Nat.add_comm i n, this]
    simp

theorem shl_or {a b s : Nat} (hb : b < 2 ^ s) (ha : a * 2 ^ s < 2 ^ 320) :
    shl a s ||| b = a * 2 ^ s + b := by
  unfold shl
  rw [Nat.shiftLeft_eq, Nat.mod_eq_of_lt ha, Nat.mul_comm, ← Nat.two_pow_add_eq_or_of_lt hb]

theorem maskOnes_eq {n : Nat} (h : n < 320) : maskOnes n = 2 ^ n - 1 := by
  unfold maskOnes shl
  rw [Nat.one_shiftLeft, Nat.mod_eq_of_lt (Nat.pow_lt_pow_right (by omega) h)]

theorem shl_mask_eq {n s : Nat} (h : n + s ≤ 320) : shl (2 ^ n - 1) s = (2 ^ n - 1) <<< s := by
  unfold shl
  apply Nat.mod_eq_of_lt
  rw [Nat.shiftLeft_eq]
  calc (2 ^ n - 1) * 2 ^ s < 2 ^ n * 2 ^ s :=
        Nat.mul_lt_mul_of_pos_right (by have := Nat.two_pow_pos n; omega) (Nat.two_pow_pos s)
    _ = 2 ^ (n + s) := (Nat.pow_add _ _ _).symm
    _ ≤ 2 ^ 320 := Nat.pow_le_pow_right (by omega) (by omega)

theorem pow16 (n : Nat) : (16 : Nat) ^ n = 2 ^ (n * 4) := by
  rw [Nat.mul_comm, Nat.pow_mul]

theorem val_lt2 (k : Key) : val k < 2 ^ (k.length * 4) := by rw [← pow16]; exact val_lt k

theorem val_lt320 {k : Key} (h : k.length ≤ 80) : val k < 2 ^ 320 :=
  Nat.lt_of_lt_of_le (val_lt2 k) (Nat.pow_le_pow_right (by omega) (by omega))

/-! ## The operations -/

theorem truncFront_rep {k : Key} (hk : k.length ≤ 79) (n : Nat) :
    truncFront (rep k) n = rep (k.drop n) := by
  have hm : minTruncate (rep k) n = min n k.length := by
    unfold minTruncate rep; simp only; split <;> omega
  obtain ⟨a, b, rfl, ha⟩ : ∃ a b, k = a ++ b ∧ a.length = min n k.length :=
    ⟨k.take n, k.drop n, (List.take_append_drop n k).symm, by simp⟩
  have hd : (a ++ b).drop n = b := by
    by_cases h : n ≤ (a ++ b).length
    · rw [List.drop_append_of_le_length (by omega), List.drop_eq_nil_of_le (by omega)]; rfl
    · have hb : b = [] := List.eq_nil_of_length_eq_zero (by simp at ha h; omega)
      subst hb
      rw [List.drop_eq_nil_of_le (by omega)]
  rw [hd]
  unfold truncFront
  simp only [hm, ← ha]
  simp only [List.length_append] at hk
  have e : (a ++ b).length - a.length = b.length := by simp
  simp only [rep, e]
  rw [maskOnes_eq (by omega), shl_mask_eq (by omega), and_not_shl_mask (by
    have := val_lt2 (a ++ b)
    rw [List.length_append, Nat.add_mul, Nat.add_comm] at this
    exact this) (by omega), ← pow16, val_mod]

theorem truncBack_rep {k : Key} (hk : k.length ≤ 79) (n : Nat) :
    truncBack (rep k) n = rep (k.take (k.length - n)) := by
  have hm : minTruncate (rep k) n = min n k.length := by
    unfold minTruncate rep; simp only; split <;> omega
  obtain ⟨a, b, hab, ha, hb⟩ : ∃ a b, k = a ++ b ∧ a = k.take (k.length - n) ∧
      b.length = min n k.length :=
    ⟨k.take (k.length - n), k.drop (k.length - n), (List.take_append_drop _ k).symm, rfl, by
      simp; omega⟩
  rw [← ha]
  unfold truncBack
  simp only [hm, ← hb]
  subst hab
  simp only [List.length_append] at hk
  have e : (a ++ b).length - b.length = a.length := by simp
  simp only [rep, e]
  rw [maskOnes_eq (by omega), and_not_mask_shr (val_lt320 (by simp; omega)) (by omega), ← pow16,
    val_div]

theorem getRange_rep {k : Key} (hk : k.length ≤ 79) (s e : Nat) :
    getRange (rep k) s e =
      if s ≤ e ∧ e ≤ k.length then some (rep ((k.drop s).take (e - s))) else none := by
  unfold getRange
  have hc : (rep k).count = k.length := rfl
  rw [hc]
  split
  · rename_i h
    obtain ⟨a, b, c, rfl, ha, hb⟩ : ∃ a b c, k = a ++ b ++ c ∧ a.length = s ∧ b.length = e - s := by
      refine ⟨k.take s, (k.drop s).take (e - s), k.drop e, ?_, by simp; omega, by simp; omega⟩
      have h1 : k.drop e = (k.drop s).drop (e - s) := by
        rw [List.drop_drop]; congr 1; omega
      rw [h1, List.append_assoc, List.take_append_drop, List.take_append_drop]
    have hd : ((a ++ b ++ c).drop s).take (e - s) = b := by
      rw [List.append_assoc, ← hb, ← ha, List.drop_left, List.take_left]
    simp only [List.length_append] at hk h
    have h1 : (a ++ b ++ c).length - e = c.length := by simp; omega
    rw [hd]
    simp only [h1, ← hb, rep]
    rw [maskOnes_eq (by omega), shl_mask_eq (by omega), and_shl_mask_shr, ← pow16, ← pow16, val_div,
      val_mod]
  · rfl

theorem getNibble_rep (k : Key) (i : Nat) : getNibble (rep k) i = k[i]?.map (·.val) := by
  unfold getNibble
  have hc : (rep k).count = k.length := rfl
  rw [hc]
  split
  · rename_i h
    obtain ⟨a, d, b, rfl, ha⟩ : ∃ a d b, k = a ++ d :: b ∧ a.length = i :=
      ⟨k.take i, k[i], k.drop (i + 1), by simp, by simp; omega⟩
    have h1 : (a ++ d :: b).length - i - 1 = b.length := by simp; omega
    have h2 : (a ++ d :: b)[i]? = some d := by simp [← ha]
    rw [h2]
    simp only [h1, rep, Option.map_some, Option.some.injEq, byte]
    have hv : val (a ++ d :: b) / 16 ^ b.length % 16 = d.val := by
      have e1 : a ++ d :: b = (a ++ [d]) ++ b := by simp
      rw [e1, val_div, val_append]
      simp
    have h256 : (256 : Nat) ^ (b.length / 2) = 16 ^ (2 * (b.length / 2)) := by
      rw [Nat.pow_mul]
    rw [h256]
    split
    · rename_i he
      have e2 : 2 * (b.length / 2) = b.length := by omega
      rw [e2]
      have := Nat.and_two_pow_sub_one_eq_mod (val (a ++ d :: b) / 16 ^ b.length % 256) 4
      rw [show (0b00001111 : Nat) = 2 ^ 4 - 1 from rfl, this]
      rw [show (2 : Nat) ^ 4 = 16 from rfl]
      omega
    · rename_i he
      have e2 : b.length = 2 * (b.length / 2) + 1 := by omega
      rw [show (0b11110000 : Nat) = (2 ^ 4 - 1) <<< 4 from rfl, and_shl_mask_shr]
      rw [e2, Nat.pow_succ, ← Nat.div_div_eq_div_mul] at hv
      rw [show (2 : Nat) ^ 4 = 16 from rfl]
      omega
  · rename_i h
    rw [List.getElem?_eq_none (by omega)]
    rfl

theorem pushBack_val {k : Key} (hk : k.length < 80) (d : Nib) :
    shl (val k) 4 ||| d.val = val (k ++ [d]) := by
  rw [shl_or (by omega)]
  · rw [val_append]; simp
  · have := val_lt2 (k ++ [d])
    rw [val_append] at this
    have h2 : 2 ^ ((k ++ [d]).length * 4) ≤ 2 ^ 320 :=
      Nat.pow_le_pow_right (by omega) (by simp; omega)
    simp only [val_single, List.length_singleton, Nat.pow_one] at this
    omega

theorem append_val {a b : Key} (h : a.length + b.length ≤ 80) :
    shl (val a) (b.length * 4) ||| val b = val (a ++ b) := by
  have hv := val_append a b
  have hl := val_lt2 (a ++ b)
  have h2 : 2 ^ ((a ++ b).length * 4) ≤ 2 ^ 320 :=
    Nat.pow_le_pow_right (by omega) (by simp; omega)
  rw [shl_or (val_lt2 b), ← pow16, hv]
  rw [pow16] at hv
  omega

theorem splitAt_rep {k : Key} (hk : k.length ≤ 79) (i : Nat) :
    splitAt (rep k) i =
      if i ≤ k.length then some (rep (k.take i), rep (k.drop i)) else none := by
  unfold splitAt
  have hc : (rep k).count = k.length := rfl
  rw [hc]
  split
  · rename_i h
    obtain ⟨a, b, rfl, ha⟩ : ∃ a b, k = a ++ b ∧ a.length = i :=
      ⟨k.take i, k.drop i, (List.take_append_drop i k).symm, by simp; omega⟩
    subst ha
    have e : (a ++ b).length - a.length = b.length := by simp
    simp only [List.length_append] at hk
    simp only [rep, e, List.take_left, List.drop_left]
    rw [maskOnes_eq (by omega), and_not_mask_shr (val_lt320 (by simp; omega)) (by omega),
      Nat.and_two_pow_sub_one_eq_mod, ← pow16, val_div, val_mod]
  · rfl

theorem splitPrefix_rep {k : Key} (hk : k.length ≤ 79) (i : Nat) :
    splitPrefix (rep k) i = if i ≤ k.length then some (rep (k.take i)) else none := by
  have := getRange_rep hk 0 i
  simp only [getRange, Nat.zero_le, true_and, Nat.sub_zero, List.drop_zero] at this
  exact this

theorem splitPostfix_rep {k : Key} (hk : k.length ≤ 79) (i : Nat) :
    splitPostfix (rep k) i = if i ≤ k.length then some (rep (k.drop i)) else none := by
  have := splitAt_rep hk i
  unfold splitAt at this
  unfold splitPostfix
  have hc : (rep k).count = k.length := rfl
  rw [hc] at this ⊢
  by_cases h : i ≤ k.length
  · simp only [h, if_true, Option.some.injEq, Prod.mk.injEq] at this ⊢
    exact this.2
  · simp only [h, if_false]

theorem revLoop_spec (x : Nat) (fuel : Nat) : ∀ (k lo : Key), k.length = fuel → x = val (k ++ lo) →
    k.length + lo.length ≤ 79 →
    revLoop x fuel lo.length ((2 ^ 4 - 1) <<< (lo.length * 4)) (val lo.reverse)
      = val (k ++ lo).reverse := by
  induction fuel with
  | zero =>
    intro k lo h _ _
    have : k = [] := List.eq_nil_of_length_eq_zero h
    subst this; rfl
  | succ fuel ih =>
    intro k lo h hx hl
    obtain ⟨k', d, rfl⟩ : ∃ k' d, k = k' ++ [d] := by
      have hne : k ≠ [] := by intro h0; simp [h0] at h
      exact ⟨k.dropLast, k.getLast hne, (List.dropLast_concat_getLast hne).symm⟩
    simp only [List.length_append, List.length_cons, List.length_nil] at h hl
    unfold revLoop
    simp only
    have h1 : (x &&& (2 ^ 4 - 1) <<< (lo.length * 4)) >>> (lo.length * 4) = d.val := by
      rw [and_shl_mask_shr, ← pow16, hx, val_div, val_append]
      simp
    have h2 : shl ((2 ^ 4 - 1) <<< (lo.length * 4)) 4 = (2 ^ 4 - 1) <<< ((d :: lo).length * 4) := by
      have : ((2 ^ 4 - 1) <<< (lo.length * 4)) <<< 4 = (2 ^ 4 - 1) <<< ((d :: lo).length * 4) := by
        rw [← Nat.shiftLeft_add]; congr 1; simp; omega
      unfold shl
      rw [this]
      apply Nat.mod_eq_of_lt
      rw [Nat.shiftLeft_eq]
      calc (2 ^ 4 - 1) * 2 ^ ((d :: lo).length * 4) < 2 ^ 4 * 2 ^ ((d :: lo).length * 4) :=
            Nat.mul_lt_mul_of_pos_right (by omega) (Nat.two_pow_pos _)
        _ = 2 ^ (4 + (d :: lo).length * 4) := (Nat.pow_add _ _ _).symm
        _ ≤ 2 ^ 320 := Nat.pow_le_pow_right (by omega) (by simp; omega)
    rw [h1, h2, pushBack_val (by simp; omega)]
    have e : lo.reverse ++ [d] = (d :: lo).reverse := by simp
    rw [e]
    have := ih k' (d :: lo) (by omega) (by rw [hx]; simp) (by simp; omega)
    rw [List.append_assoc, List.singleton_append]
    exact this

theorem revLoop_full {k : Key} (hk : k.length ≤ 79) :
    revLoop (val k) k.length 0 0xf 0 = val k.reverse := by
  have := revLoop_spec (val k) k.length k [] rfl (by simp) (by simpa using hk)
  simpa using this

/-- Even at the capacity of 80 nibbles the last mask may overflow but is not used. -/
theorem reverse_rep {k : Key} (hk : k.length ≤ 79) : reverse (rep k) = rep k.reverse := by
  unfold reverse rep
  simp only [revLoop_full hk, List.length_reverse]

theorem diffLoop_spec (x y : Nat) (n : Nat) : ∀ (a b : Key) (i hx hy : Nat), a.length = n →
    b.length = n → x = hx * 16 ^ n + val a → y = hy * 16 ^ n + val b →
    ∀ mask, (n ≠ 0 → mask = (2 ^ 4 - 1) <<< ((n - 1) * 4)) →
    diffLoop x y n i mask = i + Mpt.diffIdx a b := by
  induction n with
  | zero =>
    intro a b i hx hy ha hb _ _ mask _
    have : a = [] := List.eq_nil_of_length_eq_zero ha
    subst this
    simp [diffLoop, Mpt.diffIdx]
  | succ n ih =>
    intro a b i hx hy ha hb h1 h2 mask hm
    cases a with
    | nil => simp at ha
    | cons c a =>
    cases b with
    | nil => simp at hb
    | cons d b =>
      simp only [List.length_cons, Nat.add_right_cancel_iff] at ha hb
      have hm := hm (by omega)
      have e : n + 1 - 1 = n := by omega
      rw [e] at hm
      have key : ∀ (x h : Nat) (c : Nib) (a : Key), a.length = n → x = h * 16 ^ (n + 1) + val (c :: a) →
          x = (h * 16 + c.val) * 16 ^ n + val a ∧
          x &&& ((2 ^ 4 - 1) <<< (n * 4)) = c.val * 2 ^ (n * 4) := by
        intro x h c a ha hx
        have hx' : x = (h * 16 + c.val) * 16 ^ n + val a := by
          rw [hx, val_cons, ha, Nat.pow_succ, Nat.add_mul, Nat.mul_assoc, Nat.mul_comm 16,
            Nat.add_assoc]
        refine ⟨hx', ?_⟩
        rw [and_shl_mask, ← pow16, hx']
        have hlt := val_lt a
        rw [ha] at hlt
        rw [Nat.mul_comm (h * 16 + c.val), Nat.mul_add_div (Nat.pow_pos (by omega)),
          Nat.div_eq_of_lt hlt]
        congr 1
        omega
      obtain ⟨x1, x2⟩ := key x hx c a ha h1
      obtain ⟨y1, y2⟩ := key y hy d b hb h2
      unfold diffLoop
      rw [hm, x2, y2]
      by_cases hcd : c = d
      · subst hcd
        simp only [ne_eq, not_true_eq_false, if_false, Mpt.diffIdx, if_true]
        rw [ih a b (i + 1) _ _ ha hb x1 y1 _ (fun hn => ?_)]
        · omega
        · have h4 : n * 4 = (n - 1) * 4 + 4 := by omega
          rw [h4, Nat.shiftLeft_add, Nat.shiftLeft_shiftRight]
      · have : c.val * 2 ^ (n * 4) ≠ d.val * 2 ^ (n * 4) := by
          intro he
          exact hcd (Fin.ext (Nat.eq_of_mul_eq_mul_right (Nat.two_pow_pos _) he))
        simp [this, Mpt.diffIdx, hcd]

theorem diffEqual_rep {a b : Key} (ha : a.length ≤ 79) (h : a.length = b.length) :
    diffEqual (rep a) (rep b) = some (Mpt.diffIdx a b) := by
  unfold diffEqual
  simp only [rep, h, ne_eq, not_true_eq_false, if_false]
  split
  · rename_i h0
    have : b = [] := List.eq_nil_of_length_eq_zero h0
    subst this
    have : a = [] := List.eq_nil_of_length_eq_zero h
    subst this
    rfl
  · rename_i h0
    have := diffLoop_spec (val a) (val b) b.length a b 0 0 0 h rfl (by simp) (by simp)
      (shl 0xf ((b.length - 1) * 4)) (fun _ => by
        exact shl_mask_eq (n := 4) (by omega))
    rw [this]
    simp

theorem diffIdx_take (a b : Key) : Mpt.diffIdx (a.take (min a.length b.length))
    (b.take (min a.length b.length)) = Mpt.diffIdx a b := by
  induction a generalizing b with
  | nil => simp [Mpt.diffIdx]
  | cons x a ih =>
    cases b with
    | nil => simp [Mpt.diffIdx]
    | cons y b =>
      simp only [List.length_cons, Nat.add_min_add_right, List.take_succ_cons, Mpt.diffIdx, ih]

theorem diffIdx_rep {a b : Key} (ha : a.length ≤ 79) (hb : b.length ≤ 79) :
    diffIdx (rep a) (rep b) = some (Mpt.diffIdx a b) := by
  unfold diffIdx
  have h1 : (rep a).count = a.length := rfl
  have h2 : (rep b).count = b.length := rfl
  simp only [h1, h2]
  rw [getRange_rep ha, getRange_rep hb, if_pos ⟨by omega, by omega⟩, if_pos ⟨by omega, by omega⟩]
  simp only [Option.bind_some, List.drop_zero, Nat.sub_zero]
  rw [diffEqual_rep (by simp; omega) (by simp), diffIdx_take]

theorem ident_rep (a b : Key) : ident (rep a) (rep b) = Mpt.ident a b := by
  unfold ident
  have h1 : (rep a).count = a.length := rfl
  have h2 : (rep b).count = b.length := rfl
  simp only [h1, h2, getNibble_rep]
  clear h1 h2
  induction a generalizing b with
  | nil => simp [Mpt.ident]
  | cons x a ih =>
    cases b with
    | nil => simp [Mpt.ident]
    | cons y b =>
      simp only [List.length_cons, Nat.add_min_add_right, List.range_succ_eq_map, List.all_cons,
        List.getElem?_cons_zero, Option.map_some, List.all_map, Mpt.ident]
      have h : ((fun i => (Option.map (fun x : Nib => x.val) (x :: a)[i]? ==
          Option.map (fun x : Nib => x.val) (y :: b)[i]?)) ∘ Nat.succ)
          = fun i => (Option.map (fun x : Nib => x.val) a[i]? ==
          Option.map (fun x : Nib => x.val) b[i]?) := by
        funext i; simp [Function.comp]
      rw [h, ih]
      congr 1
      by_cases hxy : x = y
      · simp [hxy]
      · have : ¬ x.val = y.val := fun h => hxy (Fin.ext h)
        rw [beq_eq_false_iff_ne.2 hxy]
        simpa using this

end Verif.Nibbles
