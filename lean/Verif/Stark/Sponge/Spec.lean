import Verif.Stark.Keccak.Kat

/-! Keccak-256 on bytes, after FIPS 202 (sponge construction, section 4, with the rate of 1088 bits) and the Keccak submission (padding `10*1`
without the two suffix bits of SHA-3). Core Lean only. -/

namespace Verif.Stark.Sponge.Spec

open Verif.Stark.Keccak.Spec (State laneOf keccakF Same lanes ofLanes)

/-- The state with the given 200 bytes. FIPS 202, 3.1.2 and B.1: bit `z` of the lane `(x, y)` is bit `64 (5 y + x) + z` of the string, and bit `j`
of a byte is its `j`-th least significant bit. -/
def ofBytes (s : Nat → Nat) : State := fun x y z => (s (8 * (5 * y + x) + z / 8)).testBit (z % 8)

/-- The bytes of a state. -/
def toBytes (A : State) : Nat → Nat := fun i => laneOf (fun b => A (i / 8 % 5) (i / 8 / 5) (8 * (i % 8) + b)) 8

/-- The permutation on bytes. -/
def permute (s : Nat → Nat) : Nat → Nat := toBytes (keccakF (ofBytes s))

/-- A block of 136 bytes is added to the first 136 bytes of the state. -/
def xorBlock (s b : Nat → Nat) : Nat → Nat := fun i => if i < 136 then s i ^^^ b i else s i

/-- The state after absorbing the first `k` of the blocks `blk 0`, `blk 1`, … FIPS 202, algorithm 8. -/
def sponge (blk : Nat → Nat → Nat) : Nat → Nat → Nat
  | 0 => fun _ => 0
  | k + 1 => permute (xorBlock (sponge blk k) (blk k))

/-- `pad10*1` for blocks of 136 bytes: a bit 1, as few bits 0 as possible and a bit 1. FIPS 202, algorithm 9. -/
def pad (m : List Nat) : List Nat :=
  if m.length % 136 = 135 then m ++ [0x81] else m ++ [0x01] ++ List.replicate (134 - m.length % 136) 0 ++ [0x80]

/-- The `k`-th block of a string. -/
def blockOf (s : List Nat) (k i : Nat) : Nat := s.getD (136 * k + i) 0

/-- Keccak-256 of a string of bytes. -/
def keccak256 (m : List Nat) : List Nat := (List.range 32).map (sponge (blockOf (pad m)) ((pad m).length / 136))

theorem pad_length (m : List Nat) : (pad m).length = 136 * (m.length / 136 + 1) := by
  unfold pad
  split <;> simp <;> omega

theorem laneOf_congr {f g : Nat → Bool} {n : Nat} (h : ∀ z < n, f z = g z) : laneOf f n = laneOf g n := by
  induction n with
  | zero => rfl
  | succ n ih => rw [laneOf, laneOf, ih (fun z hz => h z (by omega)), h n (by omega)]

theorem toBytes_congr {A B : State} (h : Same A B) {i : Nat} (hi : i < 200) : toBytes A i = toBytes B i :=
  laneOf_congr (fun b _ => h _ (by omega) _ (by omega) _ (by omega))

theorem permute_congr {s t : Nat → Nat} (h : ∀ i < 200, s i = t i) {i : Nat} (hi : i < 200) : permute s i = permute t i := by
  refine toBytes_congr (Keccak.Spec.rounds_congr 24 (fun x _ y _ z _ => ?_)) hi
  unfold ofBytes
  rw [h _ (by omega)]

theorem toBytes_lt (A : State) (i : Nat) : toBytes A i < 256 := Keccak.Spec.laneOf_lt _ 8

theorem toBytes_ofBytes {s : Nat → Nat} {i : Nat} (h : s i < 256) : toBytes (ofBytes s) i = s i := by
  refine Nat.eq_of_testBit_eq (fun j => ?_)
  by_cases hj : j < 8
  · rw [toBytes, Keccak.Spec.testBit_laneOf _ _ _ hj, ofBytes, show 8 * (5 * (i / 8 / 5) + i / 8 % 5) + (8 * (i % 8) + j) / 8 = i by omega,
      show (8 * (i % 8) + j) % 8 = j by omega]
  · have hp : 2 ^ 8 ≤ 2 ^ j := Nat.pow_le_pow_right (by decide) (by omega)
    rw [Nat.testBit_lt_two_pow (Nat.lt_of_lt_of_le (toBytes_lt _ _) hp), Nat.testBit_lt_two_pow (Nat.lt_of_lt_of_le h hp)]

theorem same_ofBytes_toBytes (A : State) : Same (ofBytes (toBytes A)) A := by
  intro x hx y hy z hz
  rw [ofBytes, toBytes, Keccak.Spec.testBit_laneOf _ _ _ (by omega), show (8 * (5 * y + x) + z / 8) / 8 % 5 = x by omega,
    show (8 * (5 * y + x) + z / 8) / 8 / 5 = y by omega, show 8 * ((8 * (5 * y + x) + z / 8) % 8) + z % 8 = z by omega]

theorem xorBlock_lt {s b : Nat → Nat} (hs : ∀ i < 200, s i < 256) (hb : ∀ i < 136, b i < 256) : ∀ i < 200, xorBlock s b i < 256 := by
  intro i hi
  unfold xorBlock
  split
  · exact Nat.xor_lt_two_pow (n := 8) (hs i hi) (hb i (by assumption))
  · exact hs i hi

theorem sponge_lt (blk : Nat → Nat → Nat) (k i : Nat) : sponge blk k i < 256 := by
  cases k with
  | zero => exact Nat.zero_lt_succ _
  | succ k => exact toBytes_lt _ _

theorem sponge_congr {a b : Nat → Nat → Nat} {k : Nat} (h : ∀ j < k, ∀ i < 136, a j i = b j i) {i : Nat} (hi : i < 200) : sponge a k i = sponge b k i := by
  induction k generalizing i with
  | zero => rfl
  | succ k ih =>
    refine permute_congr (fun i hi => ?_) hi
    unfold xorBlock
    rw [ih (fun j hj => h j (by omega)) hi]
    split
    · rw [h k (by omega) i (by assumption)]
    · rfl

/-! ### Known value -/

/-- The lanes of the bytes of a state. -/
theorem lanes_toBytes (A : State) (k : Nat) (hk : k < 25) (j : Nat) (hj : j < 8) : toBytes A (8 * k + j) = (lanes A).getD k 0 / 256 ^ j % 256 := by
  have e : (lanes A).getD k 0 = laneOf (A (k % 5) (k / 5)) 64 := by
    rw [lanes, List.getD_eq_getElem?_getD, List.getElem?_map, List.getElem?_range hk]
    rfl
  rw [e]
  refine Nat.eq_of_testBit_eq (fun b => ?_)
  rw [show (256 : Nat) ^ j = 2 ^ (8 * j) by rw [Nat.pow_mul], show 256 = 2 ^ 8 from rfl, Nat.testBit_mod_two_pow, Nat.testBit_div_two_pow]
  by_cases hb : b < 8
  · rw [toBytes, Keccak.Spec.testBit_laneOf _ _ _ hb, Keccak.Spec.testBit_laneOf _ _ _ (by omega), show (8 * k + j) / 8 = k by omega,
      show 8 * ((8 * k + j) % 8) + b = b + 8 * j by omega]
    simp [hb]
  · have hp : 2 ^ 8 ≤ 2 ^ b := Nat.pow_le_pow_right (by decide) (by omega)
    rw [Nat.testBit_lt_two_pow (Nat.lt_of_lt_of_le (toBytes_lt _ _) hp)]
    simp [hb]

/-- The Keccak-256 hash of the empty string is `c5d2460186f7233c927e7db2dcc703c0e500b653ca82273b7bfad8045d85a470`. -/
theorem keccak256_empty : keccak256 [] = [0xc5, 0xd2, 0x46, 0x01, 0x86, 0xf7, 0x23, 0x3c, 0x92, 0x7e, 0x7d, 0xb2, 0xdc, 0xc7, 0x03, 0xc0,
    0xe5, 0x00, 0xb6, 0x53, 0xca, 0x82, 0x27, 0x3b, 0x7b, 0xfa, 0xd8, 0x04, 0x5d, 0x85, 0xa4, 0x70] := by
  have hstate : Same (ofBytes (xorBlock (sponge (blockOf (pad [])) 0) (blockOf (pad []) 0))) (ofLanes Keccak.Spec.kat0) := by
    have : ∀ x < 5, ∀ y < 5, ∀ z < 64, ofBytes (xorBlock (fun _ => 0) (blockOf (pad []) 0)) x y z = ofLanes Keccak.Spec.kat0 x y z := by decide +kernel
    exact this
  have h1 : keccak256 [] = (List.range 32).map (fun i => Keccak.Spec.kat24.getD (i / 8) 0 / 256 ^ (i % 8) % 256) := by
    unfold keccak256
    rw [pad_length]
    refine List.map_congr_left (fun i hi => ?_)
    have hi := List.mem_range.1 hi
    have hl : lanes (keccakF (ofBytes (xorBlock (sponge (blockOf (pad [])) 0) (blockOf (pad []) 0)))) = lanes (keccakF (ofLanes Keccak.Spec.kat0)) :=
      Keccak.Spec.lanes_congr (Keccak.Spec.rounds_congr 24 hstate)
    rw [← Keccak.Spec.kat, ← hl]
    show toBytes _ i = _
    have := lanes_toBytes (keccakF (ofBytes (xorBlock (sponge (blockOf (pad [])) 0) (blockOf (pad []) 0)))) (i / 8) (by omega) (i % 8) (by omega)
    rw [show 8 * (i / 8) + i % 8 = i by omega] at this
    exact this
  rw [h1]
  decide +kernel

end Verif.Stark.Sponge.Spec
