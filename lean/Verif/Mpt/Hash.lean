import Verif.Mpt.Spec
import Verif.Rlp.Lemmas
/-!
# Node encoding and hashing (`mpt_trie/src/trie_hashing.rs`)

`keccak` is a parameter.  The encoding of a node is computed without any hash cache here (as in
`StandardTrie`); the caching of `HashedPartialTrie` is modelled in `Cache.lean`.
-/
namespace Verif.Mpt
open Rlp (SizeOk Item)

/-- Two nibbles per byte, big-endian. -/
def pack : Key → Bytes
  | a :: b :: k => UInt8.ofNat (16 * a.val + b.val) :: pack k
  | _ => []

/-- `Nibbles::to_hex_prefix_encoding`. `mpt_trie/src/nibbles.rs:807-831`, on the sequence of nibbles
(`Verif/Nibbles` relates it to the packed computation). The flag nibble is
`odd_bit | (term_bit << 1)`; for an even count it is followed by a zero nibble. -/
def hexPrefix (k : Key) (isLeaf : Bool) : Bytes :=
  let term := if isLeaf then 2 else 0
  if k.length % 2 = 0 then UInt8.ofNat (16 * term) :: pack k
  else
    match k with
    | a :: k => UInt8.ofNat (16 * (term + 1) + a.val) :: pack k
    | [] => []

/-- `EncodedNode`. `mpt_trie/src/trie_hashing.rs:13-18`. -/
inductive Enc where
  | raw (b : Bytes)
  | hashed (h : H256)
deriving DecidableEq

/-- `hash_bytes_if_large_enough`. `mpt_trie/src/trie_hashing.rs:78-83`. -/
def hashIfLarge (keccak : Bytes → H256) (b : Bytes) : Enc :=
  if 32 ≤ b.length then .hashed (keccak b) else .raw b

/-- `append_to_stream`: the bytes appended for a child. `mpt_trie/src/trie_hashing.rs:85-90`. -/
def Enc.item : Enc → Bytes
  | .raw b => b
  | .hashed h => Rlp.str h.bytes

/-- `rlp_encode_and_hash_node`. `mpt_trie/src/trie_hashing.rs:36-76`. -/
def enc (keccak : Bytes → H256) : Node → Enc
  | .empty => .raw [0x80]
  | .hash h => .hashed h
  | .branch c v =>
    hashIfLarge keccak (Rlp.listOf
      (((List.finRange 16).map (fun i => (enc keccak (c i)).item)).flatten ++ Rlp.str v))
  | .ext n c =>
    hashIfLarge keccak (Rlp.listOf (Rlp.str (hexPrefix n false) ++ (enc keccak c).item))
  | .leaf n v => hashIfLarge keccak (Rlp.listOf (Rlp.str (hexPrefix n true) ++ Rlp.str v))

/-- `hash_trie`. `mpt_trie/src/trie_hashing.rs:31-34`. -/
def rootHash (keccak : Bytes → H256) (t : Node) : H256 :=
  match enc keccak t with
  | .raw b => keccak b
  | .hashed h => h

/-! ## Specification: the strings fed to the hash function -/

/-- The bytes of the encoded node before the decision to hash (`none` for a hash node). -/
def bytesOf (keccak : Bytes → H256) : Node → Option Bytes
  | .empty => some [0x80]
  | .hash _ => none
  | .branch c v => some (Rlp.listOf
      (((List.finRange 16).map (fun i => (enc keccak (c i)).item)).flatten ++ Rlp.str v))
  | .ext n c => some (Rlp.listOf (Rlp.str (hexPrefix n false) ++ (enc keccak c).item))
  | .leaf n v => some (Rlp.listOf (Rlp.str (hexPrefix n true) ++ Rlp.str v))

/-- `t'` is `t` or a node below it. -/
inductive Sub : Node → Node → Prop
  | refl (t) : Sub t t
  | branch {t c v i} : Sub t (c i) → Sub t (.branch c v)
  | ext {t n c} : Sub t c → Sub t (.ext n c)

/-- `b` is the encoding of some node of `t`, hence the only kind of string hashed for `t`. -/
def Hashes (keccak : Bytes → H256) (t : Node) (b : Bytes) : Prop :=
  ∃ t', Sub t' t ∧ bytesOf keccak t' = some b

/-- keccak does not collide on the node encodings of the two tries. -/
def NoCollision (keccak : Bytes → H256) (t t' : Node) : Prop :=
  ∀ a b, (Hashes keccak t a ∨ Hashes keccak t' a) → (Hashes keccak t b ∨ Hashes keccak t' b) →
    keccak a = keccak b → a = b

/-- Keys fit in a `Nibbles` and values are shorter than 2^60 bytes. -/
def Small : Node → Prop
  | .branch c v => v.length < 2 ^ 60 ∧ ∀ i, Small (c i)
  | .ext n c => n.length ≤ 64 ∧ Small c
  | .leaf n v => n.length ≤ 64 ∧ v.length < 2 ^ 60
  | _ => True

/-- Two partial tries agree wherever both are not hashed out. -/
inductive Agree (keccak : Bytes → H256) : Node → Node → Prop
  | hashL {t h} : enc keccak t = .hashed h → Agree keccak (.hash h) t
  | hashR {t h} : enc keccak t = .hashed h → Agree keccak t (.hash h)
  | empty : Agree keccak .empty .empty
  | leaf (n v) : Agree keccak (.leaf n v) (.leaf n v)
  | ext (n) {c d} : Agree keccak c d → Agree keccak (.ext n c) (.ext n d)
  | branch (v) {c d} : (∀ i, Agree keccak (c i) (d i)) → Agree keccak (.branch c v) (.branch d v)

end Verif.Mpt
