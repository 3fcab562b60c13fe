import Verif.Recursion.Values

/-!
# Integers and hashes as field elements (`evm_arithmetization/src/util.rs:37-57`, `100-125`, `213-248`)
-/
namespace Verif.Recursion

open Verif.Stark (F P)

/-- `U256`. -/
abbrev U256 : Type := BitVec 256
/-- `H256`: 32 bytes. -/
abbrev H256 : Type := Fin 32 → BitVec 8
/-- `H160`: 20 bytes. -/
abbrev H160 : Type := Fin 20 → BitVec 8

/-! ## The functions -/

/-- `u256_to_u32` (`util.rs:39-45`). -/
def u256ToU32 (n : U256) : Option F := if n.toNat < 2 ^ 32 then some (n.toNat : F) else none

/-- `u256_to_u64` (`util.rs:49-58`). -/
def u256ToU64 (n : U256) : Option (Limbs 2) :=
  if n.toNat < 2 ^ 64 then some fun i => ((n.toNat / 2 ^ (32 * i.val) % 2 ^ 32 : ℕ) : F) else none

/-- `u256_limbs` (`util.rs:100-112`): four words of 64 bits, least significant first, each as low and high half. -/
def u256Limbs (n : U256) : Limbs 8 := fun i =>
  let word := n.toNat / 2 ^ (64 * (i.val / 2)) % 2 ^ 64
  if i.val % 2 = 0 then ((word % 2 ^ 32 : ℕ) : F) else ((word / 2 ^ 32 % 2 ^ 32 : ℕ) : F)

/-- `h256_limbs` (`util.rs:115-126`): the bytes are reversed and read four at a time in little-endian order. -/
def h256Limbs (h : H256) : Limbs 8 := fun i =>
  let b (j : ℕ) (hj : j < 4) : ℕ := (h ⟨31 - (4 * i + j), by omega⟩).toNat
  ((b 0 (by omega) + 256 * b 1 (by omega) + 256 ^ 2 * b 2 (by omega) + 256 ^ 3 * b 3 (by omega) : ℕ) : F)

/-- `H256::into_uint`, `h2u` (`util.rs:213-215`): big-endian reading. -/
def h2u (h : H256) : U256 := .ofNat 256 (∑ k : Fin 32, (h k).toNat * 256 ^ (31 - k.val))

/-- `U256::from_big_endian` on the 20 bytes of an address (`recursive_verifier.rs:1072-1075`). -/
def addressToU256 (a : H160) : U256 := .ofNat 256 (∑ k : Fin 20, (a k).toNat * 256 ^ (19 - k.val))

/-- `get_h256` (`util.rs:228-237`): the limbs, cut to 32 bits, from the last to the first, each as four big-endian bytes. -/
def getH256 (l : Limbs 8) : H256 := fun k =>
  .ofNat 8 ((l ⟨7 - k / 4, by omega⟩).val % 2 ^ 32 / 256 ^ (3 - k.val % 4))

/-- `get_h160` (`util.rs:217-226`). -/
def getH160 (l : Limbs 5) : H160 := fun k =>
  .ofNat 8 ((l ⟨4 - k / 4, by omega⟩).val % 2 ^ 32 / 256 ^ (3 - k.val % 4))

/-- A word of 64 bits from two limbs: `lo + (hi << 32)`, in `get_u256` and in `BlockMetadata::from_public_inputs`
(`proof.rs:428-464`). With overflow checks the addition panics where this wraps around. -/
def word64 (lo hi : F) : ℕ := (lo.val + hi.val * 2 ^ 32 % 2 ^ 64) % 2 ^ 64

/-- `get_u256` (`util.rs:239-248`). Where the code takes any representative of the upper limb, this takes the canonical one. -/
def getU256 (l : Limbs 8) : U256 :=
  .ofNat 256 (word64 (l 0) (l 1) + word64 (l 2) (l 3) * 2 ^ 64 + word64 (l 4) (l 5) * 2 ^ 128 + word64 (l 6) (l 7) * 2 ^ 192)

/-! ## Digits -/

/-- The `k`-th byte of a number. -/
def byteOf (n k : ℕ) : ℕ := n / 256 ^ k % 256

theorem val_cast {n : ℕ} (h : n < 2 ^ 64 - 2 ^ 32 + 1) : ((n : F)).val = n :=
  ZMod.val_natCast_of_lt (by unfold P; omega)

theorem u256Limbs_eq (n : U256) (i : Fin 8) : u256Limbs n i = ((n.toNat / 2 ^ (32 * i.val) % 2 ^ 32 : ℕ) : F) := by
  unfold u256Limbs
  have h := n.isLt
  generalize n.toNat = m at *
  have e : ∀ q : ℕ, q % 2 ^ 64 % 2 ^ 32 = q % 2 ^ 32 := fun q => by omega
  have e' : ∀ q : ℕ, q % 2 ^ 64 / 2 ^ 32 % 2 ^ 32 = q / 2 ^ 32 % 2 ^ 32 := fun q => by omega
  dsimp only
  split
  · next h0 => rw [e]; congr 4; omega
  · next h0 => rw [e', Nat.div_div_eq_div_mul, ← pow_add]; congr 4; omega

theorem u256Limbs_val (n : U256) (i : Fin 8) : (u256Limbs n i).val = n.toNat / 2 ^ (32 * i.val) % 2 ^ 32 := by
  rw [u256Limbs_eq, val_cast]
  exact (Nat.mod_lt _ (by decide)).trans (by decide)

/-- A number below `256 ^ m` is determined by its bytes. -/
theorem eq_of_bytes {a b : ℕ} (m : ℕ) (ha : a < 256 ^ m) (hb : b < 256 ^ m) (h : ∀ k < m, byteOf a k = byteOf b k) : a = b := by
  induction m generalizing a b with
  | zero => simp at ha hb; omega
  | succ m ih =>
    have h0 := h 0 (by omega)
    simp only [byteOf, pow_zero, Nat.div_one] at h0
    have := ih (a := a / 256) (b := b / 256) (by rw [pow_succ] at ha; omega) (by rw [pow_succ] at hb; omega) fun k hk => by
      have := h (k + 1) (by omega)
      simpa only [byteOf, pow_succ, Nat.mul_comm, ← Nat.div_div_eq_div_mul] using this
    omega

/-- The bytes of a sum of bytes. -/
theorem byteOf_sum (m : ℕ) (g : ℕ → ℕ) (hg : ∀ k, g k < 256) : ∀ k < m, byteOf (∑ i ∈ Finset.range m, g i * 256 ^ i) k = g k := by
  induction m generalizing g with
  | zero => intro k hk; omega
  | succ m ih =>
    intro k hk
    have e : (∑ i ∈ Finset.range (m + 1), g i * 256 ^ i) = 256 * (∑ i ∈ Finset.range m, g (i + 1) * 256 ^ i) + g 0 := by
      rw [Finset.sum_range_succ', Finset.mul_sum]
      simp only [pow_zero, mul_one]
      congr 1
      exact Finset.sum_congr rfl fun i _ => by ring
    rw [e]
    cases k with
    | zero => have := hg 0; simp only [byteOf, pow_zero, Nat.div_one]; omega
    | succ k =>
      have := ih (fun i => g (i + 1)) (fun i => hg _) k (by omega)
      have h0 := hg 0
      simp only [byteOf] at this ⊢
      rw [pow_succ, Nat.mul_comm (256 ^ k), ← Nat.div_div_eq_div_mul, show ∀ s : ℕ, (256 * s + g 0) / 256 = s from fun s => by omega]
      exact this

theorem sum_bytes_lt (m : ℕ) (g : ℕ → ℕ) (hg : ∀ k, g k < 256) : (∑ i ∈ Finset.range m, g i * 256 ^ i) < 256 ^ m := by
  induction m with
  | zero => simp
  | succ m ih =>
    rw [Finset.sum_range_succ, pow_succ]
    have := hg m
    calc _ < 256 ^ m + g m * 256 ^ m := by omega
      _ = (g m + 1) * 256 ^ m := by ring
      _ ≤ 256 * 256 ^ m := Nat.mul_le_mul_right _ (by omega)
      _ = _ := by ring

/-- Bytes of a 32-bit limb. -/
theorem byteOf_limb (n i j : ℕ) (hj : j < 4) : byteOf (n / 2 ^ (32 * i) % 2 ^ 32) j = byteOf n (4 * i + j) := by
  have e : n / 256 ^ (4 * i + j) = n / 2 ^ (32 * i) / 256 ^ j := by
    rw [Nat.div_div_eq_div_mul]
    congr 1
    rw [show (256 : ℕ) = 2 ^ 8 by rfl, ← pow_mul, ← pow_mul, ← pow_add]
    congr 1
    ring
  unfold byteOf
  rw [e]
  generalize n / 2 ^ (32 * i) = q
  have : j = 0 ∨ j = 1 ∨ j = 2 ∨ j = 3 := by omega
  rcases this with rfl | rfl | rfl | rfl <;> norm_num <;> omega

/-! ## Round trips -/

/-- Little-endian view of 32 bytes. -/
def H256.le (h : H256) (k : ℕ) : ℕ := if hk : k < 32 then (h ⟨31 - k, by omega⟩).toNat else 0

theorem H256.le_lt (h : H256) (k : ℕ) : h.le k < 256 := by
  unfold H256.le
  split
  · exact (h _).isLt
  · decide

theorem h2u_toNat (h : H256) : (h2u h).toNat = ∑ k ∈ Finset.range 32, h.le k * 256 ^ k := by
  have e : (∑ k : Fin 32, (h k).toNat * 256 ^ (31 - k.val)) = ∑ k ∈ Finset.range 32, h.le k * 256 ^ k := by
    rw [← Finset.sum_range_reflect, ← Fin.sum_univ_eq_sum_range (fun j => h.le (32 - 1 - j) * 256 ^ (32 - 1 - j)) 32]
    refine Finset.sum_congr rfl fun k _ => ?_
    have : h.le (32 - 1 - k.val) = (h k).toNat := by
      unfold H256.le
      rw [dif_pos (by omega)]
      congr 2
      exact Fin.ext (by simp; omega)
    rw [this]
  have hlt := sum_bytes_lt 32 h.le h.le_lt
  rw [h2u, e, BitVec.toNat_ofNat, Nat.mod_eq_of_lt]
  exact hlt.trans_eq (by norm_num)

theorem byteOf_h2u (h : H256) (k : Fin 32) : byteOf (h2u h).toNat (31 - k.val) = (h k).toNat := by
  rw [h2u_toNat, byteOf_sum 32 _ h.le_lt _ (by omega)]
  unfold H256.le
  rw [dif_pos (by omega)]
  congr 2
  exact Fin.ext (by simp; omega)

/-- The limbs of a hash are the limbs of the number it spells. -/
theorem h256Limbs_eq (h : H256) : h256Limbs h = u256Limbs (h2u h) := by
  funext i
  rw [u256Limbs_eq]
  unfold h256Limbs
  dsimp only
  congr 1
  have hb : ∀ j (hj : j < 4), (h ⟨31 - (4 * i + j), by omega⟩).toNat = byteOf (h2u h).toNat (4 * i + j) := by
    intro j hj
    rw [← byteOf_h2u]
    congr 1
    simp only
    omega
  rw [hb 0 (by omega), hb 1 (by omega), hb 2 (by omega), hb 3 (by omega)]
  rw [← byteOf_limb _ _ _ (show 0 < 4 by omega), ← byteOf_limb _ _ _ (show 1 < 4 by omega), ← byteOf_limb _ _ _ (show 2 < 4 by omega),
    ← byteOf_limb _ _ _ (show 3 < 4 by omega)]
  have hlt : (h2u h).toNat / 2 ^ (32 * i.val) % 2 ^ 32 < 2 ^ 32 := Nat.mod_lt _ (by decide)
  generalize (h2u h).toNat / 2 ^ (32 * i.val) % 2 ^ 32 = q at *
  simp only [byteOf]
  norm_num at *
  omega

/-- `get_h256` inverts `u256_limbs` of the number a hash spells. -/
theorem getH256_h2u (h : H256) : getH256 (u256Limbs (h2u h)) = h := by
  funext k
  unfold getH256
  rw [u256Limbs_val]
  simp only [Nat.mod_mod]
  apply BitVec.eq_of_toNat_eq
  rw [BitVec.toNat_ofNat]
  have := byteOf_limb (h2u h).toNat (7 - k.val / 4) (3 - k.val % 4) (by omega)
  rw [show 4 * (7 - k.val / 4) + (3 - k.val % 4) = 31 - k.val by omega, byteOf_h2u] at this
  exact this

theorem getH256_limbs (h : H256) : getH256 (h256Limbs h) = h := by rw [h256Limbs_eq, getH256_h2u]

theorem h2u_getH256 (n : U256) : h2u (getH256 (u256Limbs n)) = n := by
  apply BitVec.eq_of_toNat_eq
  refine eq_of_bytes 32 ((BitVec.isLt _).trans_eq (by norm_num)) ((BitVec.isLt _).trans_eq (by norm_num)) fun k hk => ?_
  have := byteOf_h2u (getH256 (u256Limbs n)) ⟨31 - k, by omega⟩
  simp only at this
  rw [show 31 - (31 - k) = k by omega] at this
  rw [this]
  unfold getH256
  rw [u256Limbs_val, BitVec.toNat_ofNat]
  simp only [Nat.mod_mod]
  have h2 := byteOf_limb n.toNat (7 - (31 - k) / 4) (3 - (31 - k) % 4) (by omega)
  rw [show 4 * (7 - (31 - k) / 4) + (3 - (31 - k) % 4) = k by omega] at h2
  exact h2

theorem word64_limbs (n : U256) (i : ℕ) (h : 2 * i + 1 < 8) :
    word64 (u256Limbs n ⟨2 * i, by omega⟩) (u256Limbs n ⟨2 * i + 1, h⟩) = n.toNat / 2 ^ (64 * i) % 2 ^ 64 := by
  unfold word64
  rw [u256Limbs_val, u256Limbs_val]
  simp only
  rw [show 32 * (2 * i + 1) = 64 * i + 32 by ring, show 32 * (2 * i) = 64 * i by ring, pow_add, ← Nat.div_div_eq_div_mul]
  generalize n.toNat / 2 ^ (64 * i) = q
  omega

/-- `get_u256` inverts `u256_limbs`. -/
theorem getU256_limbs (n : U256) : getU256 (u256Limbs n) = n := by
  apply BitVec.eq_of_toNat_eq
  unfold getU256
  rw [show (0 : Fin 8) = ⟨2 * 0, by omega⟩ by rfl, show (1 : Fin 8) = ⟨2 * 0 + 1, by omega⟩ by rfl,
    show (2 : Fin 8) = ⟨2 * 1, by omega⟩ by rfl, show (3 : Fin 8) = ⟨2 * 1 + 1, by omega⟩ by rfl,
    show (4 : Fin 8) = ⟨2 * 2, by omega⟩ by rfl, show (5 : Fin 8) = ⟨2 * 2 + 1, by omega⟩ by rfl,
    show (6 : Fin 8) = ⟨2 * 3, by omega⟩ by rfl, show (7 : Fin 8) = ⟨2 * 3 + 1, by omega⟩ by rfl]
  rw [word64_limbs, word64_limbs, word64_limbs, word64_limbs, BitVec.toNat_ofNat]
  have := n.isLt
  generalize n.toNat = m at *
  norm_num at *
  omega

/-- Little-endian view of 20 bytes. -/
def H160.le (a : H160) (k : ℕ) : ℕ := if hk : k < 20 then (a ⟨19 - k, by omega⟩).toNat else 0

theorem H160.le_lt (a : H160) (k : ℕ) : a.le k < 256 := by
  unfold H160.le
  split
  · exact (a _).isLt
  · decide

theorem address_toNat (a : H160) : (addressToU256 a).toNat = ∑ k ∈ Finset.range 20, a.le k * 256 ^ k := by
  have e : (∑ k : Fin 20, (a k).toNat * 256 ^ (19 - k.val)) = ∑ k ∈ Finset.range 20, a.le k * 256 ^ k := by
    rw [← Finset.sum_range_reflect, ← Fin.sum_univ_eq_sum_range (fun j => a.le (20 - 1 - j) * 256 ^ (20 - 1 - j)) 20]
    refine Finset.sum_congr rfl fun k _ => ?_
    have : a.le (20 - 1 - k.val) = (a k).toNat := by
      unfold H160.le
      rw [dif_pos (by omega)]
      congr 2
      exact Fin.ext (by simp; omega)
    rw [this]
  have hlt := sum_bytes_lt 20 a.le a.le_lt
  rw [addressToU256, e, BitVec.toNat_ofNat, Nat.mod_eq_of_lt]
  exact hlt.trans (by norm_num)

theorem address_lt (a : H160) : (addressToU256 a).toNat < 2 ^ 160 := by
  rw [address_toNat]; exact (sum_bytes_lt 20 a.le a.le_lt).trans_eq (by norm_num)

theorem byteOf_address (a : H160) (k : Fin 20) : byteOf (addressToU256 a).toNat (19 - k.val) = (a k).toNat := by
  rw [address_toNat, byteOf_sum 20 _ a.le_lt _ (by omega)]
  unfold H160.le
  rw [dif_pos (by omega)]
  congr 2
  exact Fin.ext (by simp; omega)

/-- The five limbs of an address (`recursive_verifier.rs:1072-1075`). -/
def addressLimbs (a : H160) : Limbs 5 := fun i => u256Limbs (addressToU256 a) ⟨i, by omega⟩

theorem getH160_limbs (a : H160) : getH160 (addressLimbs a) = a := by
  funext k
  unfold getH160 addressLimbs
  rw [u256Limbs_val]
  simp only [Nat.mod_mod]
  apply BitVec.eq_of_toNat_eq
  rw [BitVec.toNat_ofNat]
  have := byteOf_limb (addressToU256 a).toNat (4 - k.val / 4) (3 - k.val % 4) (by omega)
  rw [show 4 * (4 - k.val / 4) + (3 - k.val % 4) = 19 - k.val by omega, byteOf_address] at this
  exact this

theorem u256ToU32_val {n : U256} {x : F} (h : u256ToU32 n = some x) : n.toNat < 2 ^ 32 ∧ x = (n.toNat : F) ∧ BitVec.ofNat 256 x.val = n := by
  unfold u256ToU32 at h
  split at h
  · next hlt =>
    cases h
    refine ⟨hlt, rfl, ?_⟩
    rw [val_cast (hlt.trans (by decide))]
    exact BitVec.ofNat_toNat 256 n |>.trans (by simp)
  · cases h

theorem u256ToU64_val {n : U256} {x : Limbs 2} (h : u256ToU64 n = some x) :
    n.toNat < 2 ^ 64 ∧ (x = fun i : Fin 2 => u256Limbs n ⟨i, by omega⟩) ∧ BitVec.ofNat 256 (word64 (x 0) (x 1)) = n := by
  unfold u256ToU64 at h
  split at h
  · next hlt =>
    cases h
    have e : (fun i : Fin 2 => ((n.toNat / 2 ^ (32 * i.val) % 2 ^ 32 : ℕ) : F)) = fun i : Fin 2 => u256Limbs n ⟨i, by omega⟩ := by
      funext i; rw [u256Limbs_eq]
    refine ⟨hlt, e, ?_⟩
    rw [e]
    have := word64_limbs n 0 (by omega)
    simp only [mul_zero, pow_zero, Nat.div_one, zero_add] at this
    apply BitVec.eq_of_toNat_eq
    rw [BitVec.toNat_ofNat]
    show word64 (u256Limbs n ⟨0, _⟩) (u256Limbs n ⟨1, _⟩) % 2 ^ 256 = _
    rw [this]
    omega
  · cases h

end Verif.Recursion
