import Verif.Wire.Parse
import Verif.Nibbles.Encode
/-!
# A CBOR reader (RFC 8949) that meets the hypothesis of C60

`ciborium` is an external crate and is not modelled; these are the integers (major type 0) and the byte strings of
definite length (major type 2) of the standard.
-/
namespace Verif.Wire
open Mpt (Key Bytes Nib H256)
open Nibbles (toBE)

/-- The head of a data item. RFC 8949, section 3. -/
def head (major n : Nat) : Bytes :=
  if n < 24 then [UInt8.ofNat (32 * major + n)]
  else if n < 2 ^ 8 then UInt8.ofNat (32 * major + 24) :: toBE 1 n
  else if n < 2 ^ 16 then UInt8.ofNat (32 * major + 25) :: toBE 2 n
  else if n < 2 ^ 32 then UInt8.ofNat (32 * major + 26) :: toBE 4 n
  else UInt8.ofNat (32 * major + 27) :: toBE 8 n

/-- Reads the head of a data item. -/
def readHead (major : Nat) : Bytes → Option (Nat × Bytes)
  | [] => none
  | h :: r =>
    if h.toNat / 32 = major then
      let v := h.toNat % 32
      if v < 24 then some (v, r)
      else if v < 28 then
        let w := 2 ^ (v - 24)
        if r.length < w then none else some (Rlp.beVal (r.take w), r.drop w)
      else none
    else none

def Cbor.rfc : Cbor where
  uint := readHead 0
  bytes b := do
    let (n, r) ← readHead 2 b
    if r.length < n then none else return (r.take n, r.drop n)

def CborEnc.rfc : CborEnc where
  uint := head 0
  bytes b := head 2 b.length ++ b

theorem readHead_head (major n : Nat) (hm : major < 8) (hn : n < 2 ^ 64) (r : Bytes) :
    readHead major (head major n ++ r) = some (n, r) := by
  have key : ∀ v w : Nat, 24 ≤ v → v < 28 → w = 2 ^ (v - 24) → n < 256 ^ w →
      readHead major (UInt8.ofNat (32 * major + v) :: (toBE w n ++ r)) = some (n, r) := by
    intro v w h1 h2 hw h3
    have e := toNat_ofNat8 (n := 32 * major + v) (by omega)
    have hl : (toBE w n).length = w := Nibbles.toBE_length w n
    simp only [readHead, e]
    rw [if_pos (by omega), show (32 * major + v) % 32 = v by omega, if_neg (by omega), if_pos h2, ← hw, if_neg (by
      rw [List.length_append, hl]; omega), List.take_append_of_le_length (by omega), List.take_of_length_le (by omega),
      List.drop_append_of_le_length (by omega), List.drop_of_length_le (by omega), Nibbles.beVal_toBE,
      Nat.mod_eq_of_lt h3]
    rfl
  unfold head
  split
  · rename_i h
    have e := toNat_ofNat8 (n := 32 * major + n) (by omega)
    simp only [List.singleton_append, readHead, e]
    rw [if_pos (by omega), show (32 * major + n) % 32 = n by omega, if_pos h]
  split
  · exact key 24 1 (by omega) (by omega) rfl (by omega)
  split
  · exact key 25 2 (by omega) (by omega) rfl (by omega)
  split
  · exact key 26 4 (by omega) (by omega) rfl (by omega)
  · exact key 27 8 (by omega) (by omega) rfl (by omega)

/-- The hypothesis of C60 is met. -/
theorem reads_rfc : Reads Cbor.rfc CborEnc.rfc where
  uint n r h := readHead_head 0 n (by omega) h r
  bytes b r h := by
    simp only [Cbor.rfc, CborEnc.rfc, List.append_assoc]
    rw [readHead_head 2 _ (by omega) h]
    simp

/-- A witness with every kind of instruction. -/
def demo : List Instr :=
  [.hash ⟨List.replicate 32 7, rfl⟩, .code [1, 2], .leaf [1, 2, 3] [9], .ext [4], .branch 5,
    .acctLeaf [1, 2, 3, 4] (some 300) (some 70000) true true, .acctLeaf [5] none none false false,
    .smtLeaf (.storage [1]) [2] [3], .smtLeaf .balance [2] [3], .emptyRoot, .newTrie]

def demoBytes : Bytes :=
  [3] ++ List.replicate 32 7 ++ [4, 0x42, 1, 2] ++ [0, 0x43, 1, 0x12, 0x30, 0x41, 9] ++ [1, 0x41, 4] ++ [2, 5] ++
    [5, 0x43, 2, 0x12, 0x34, 15, 0x19, 1, 0x2c, 0x44, 0, 1, 0x11, 0x70, 0x18, 99] ++ [5, 0x42, 3, 0x50, 0] ++
    [7, 3, 0x41, 2, 0x41, 1, 0x41, 3] ++ [7, 0, 0x41, 2, 0x41, 3] ++ [6] ++ [0xBB]

/-- The byte form of the demo, in the specification. -/
theorem demo_enc : EncList CborEnc.rfc demo demoBytes := by
  have s : ∀ b : Bytes, b ≠ [] → b.length < 2 ^ 64 → Str b := fun b h1 h2 => ⟨h1, h2⟩
  have c := fun {i l b c} (h1 : Enc CborEnc.rfc i b) (h2 : EncList CborEnc.rfc l c) => EncList.cons h1 h2
  have cast : ∀ {l l' b b'}, EncList CborEnc.rfc l b → l = l' → b = b' → EncList CborEnc.rfc l' b' := by
    intro l l' b b' h h1 h2; subst h1; subst h2; exact h
  refine cast (c (.hash (h := ⟨List.replicate 32 7, rfl⟩)) (c (.code (s [1, 2] (by simp) (by decide)))
    (c (.leaf (.packed [1, 2, 3] false (by simp)) (by decide) (s [9] (by simp) (by decide)))
    (c (.ext (.single 4) (by decide)) (c (.branch (m := 5) (by decide))
    (c (.acct (k := [1, 2, 3, 4]) (kb := [2, 0x12, 0x34]) (nonce := some 300) (balance := some [0, 1, 0x11, 0x70])
      (codeLen := some 99) (st := true)
      (.packed [1, 2, 3, 4] true (by simp)) (by decide) (by simp) (by simp) (by simp))
    (c (.acct (k := [5]) (kb := [3, 0x50]) (nonce := none) (balance := none) (codeLen := none) (st := false)
      (.packed [5] true (by simp)) (by decide) (by simp) (by simp) (by simp))
    (c (.smt (ty := .storage [1]) (s [2] (by simp) (by decide)) (s [3] (by simp) (by decide)) (fun t ht => by cases ht; exact s _ (by simp) (by decide)))
    (c (.smt (ty := .balance) (s [2] (by simp) (by decide)) (s [3] (by simp) (by decide)) (by simp))
    (c .emptyRoot (c .newTrie .nil))))))))))) ?_ ?_ <;> decide +kernel

/-- C60, concretely. -/
example : parse Cbor.rfc (1 :: demoBytes) = some demo :=
  C60_parse_roundtrip reads_rfc demo_enc (by decide) 1 (Or.inr rfl)

end Verif.Wire
