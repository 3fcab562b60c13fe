import Verif.Mpt.Hash
/-!
# Packed nibble strings (`mpt_trie/src/nibbles.rs`)

`NibblesIntern` is a 320-bit unsigned integer (`construct_uint!`, 5 × u64); it is modelled by a `Nat`
below `2^320` with the operations of the `uint` crate (left shift drops the high bits, `!` flips 320
bits).  Panics (assertions, `usize` underflow in a debug build, slice indices) are `none`.
Simplification: the overflow panic of `create_mask_of_1s(320)` is not modelled (the theorems are about
strings of at most 79 nibbles, all constructors but `NibblesIntern::to_nibbles` give at most 66).
-/
namespace Verif.Nibbles
open Verif.Mpt (Bytes)

/-- `<<` of a 320-bit integer. -/
def shl (x s : Nat) : Nat := (x <<< s) % 2 ^ 320
/-- `!` of a 320-bit integer. -/
def not (x : Nat) : Nat := 2 ^ 320 - 1 - x
/-- `create_mask_of_1s`. `mpt_trie/src/utils.rs:74-76`. -/
def maskOnes (amt : Nat) : Nat := shl 1 amt - 1

/-- `Nibbles`. `mpt_trie/src/nibbles.rs:300-306`. -/
structure Nibbles where
  count : Nat
  packed : Nat
deriving DecidableEq

/-- `new`. `nibbles.rs:369-374`. -/
def new : Nibbles := ⟨0, 0⟩

/-- Big-endian value of bytes: `NibblesIntern::from_big_endian`. -/
def fromBE (bs : Bytes) : Nat := Rlp.beVal bs

/-- `to_big_endian` into a buffer of `n` bytes. -/
def toBE : Nat → Nat → Bytes
  | 0, _ => []
  | n + 1, x => toBE n (x / 256) ++ [UInt8.ofNat (x % 256)]

/-- `from_bytes_be`. `nibbles.rs:381-383`. -/
def fromBytesBe (bs : Bytes) : Option Nibbles :=
  if bs.isEmpty then none
  else if bs.length > 33 then none
  else some ⟨bs.length * 2, fromBE bs⟩

/-- `from_nibble`. `nibbles.rs:416-423`. -/
def fromNibble (n : Nat) : Option Nibbles := if n ≤ 0xf then some ⟨1, n⟩ else none

/-- `U320::byte(i)`. -/
def byte (x i : Nat) : Nat := x / 256 ^ i % 256

/-- `get_nibble`. `nibbles.rs:429-438`. -/
def getNibble (k : Nibbles) (idx : Nat) : Option Nat :=
  if idx < k.count then
    let nibIdx := k.count - idx - 1
    let b := byte k.packed (nibIdx / 2)
    some (if nibIdx % 2 = 0 then b &&& 0b00001111 else (b &&& 0b11110000) >>> 4)
  else none

/-- `get_min_truncate_amount_to_prevent_over_truncating`. `nibbles.rs:616-621`. -/
def minTruncate (k : Nibbles) (n : Nat) : Nat := if k.count ≥ n then n else k.count

/-- `truncate_n_nibbles_front(_mut)`. `nibbles.rs:571-576,593-601`. -/
def truncFront (k : Nibbles) (n : Nat) : Nibbles :=
  let n := minTruncate k n
  let maskShift := (k.count - n) * 4
  ⟨k.count - n, k.packed &&& not (shl (maskOnes (n * 4)) maskShift)⟩

/-- `truncate_n_nibbles_back(_mut)`. `nibbles.rs:582-587,607-615`. -/
def truncBack (k : Nibbles) (n : Nat) : Nibbles :=
  let n := minTruncate k n
  ⟨k.count - n, (k.packed &&& not (maskOnes (n * 4))) >>> (n * 4)⟩

/-- `get_nibble_range`. `nibbles.rs:553-564`. -/
def getRange (k : Nibbles) (start stop : Nat) : Option Nibbles :=
  if start ≤ stop ∧ stop ≤ k.count then
    let cnt := stop - start
    let s := (k.count - stop) * 4
    let mask := shl (maskOnes (cnt * 4)) s
    some ⟨cnt, (k.packed &&& mask) >>> s⟩
  else none

/-- `pop_next_nibble_front`. `nibbles.rs:444-449`. -/
def popFront (k : Nibbles) : Option (Nat × Nibbles) :=
  (getNibble k 0).map (fun n => (n, truncFront k 1))

/-- `pop_next_nibble_back`. `nibbles.rs:455-460`. -/
def popBack (k : Nibbles) : Option (Nat × Nibbles) :=
  if k.count = 0 then none else (getNibble k (k.count - 1)).map (fun n => (n, truncBack k 1))

/-- `get_next_nibbles`. `nibbles.rs:465-467`. -/
def getNext (k : Nibbles) (n : Nat) : Option Nibbles := getRange k 0 n

/-- `pop_nibbles_front`. `nibbles.rs:473-478`. -/
def popNibblesFront (k : Nibbles) (n : Nat) : Option (Nibbles × Nibbles) :=
  (getRange k 0 n).map (fun r => (r, truncFront k n))

/-- The loop of `reverse`. `nibbles.rs:722-729`. -/
def revLoop (x : Nat) : Nat → Nat → Nat → Nat → Nat
  | 0, _, _, rev => rev
  | fuel + 1, i, mask, rev =>
    let rev := shl rev 4
    let nib := (x &&& mask) >>> (i * 4)
    revLoop x fuel (i + 1) (shl mask 4) (rev ||| nib)

/-- `reverse`. `nibbles.rs:717-734`. -/
def reverse (k : Nibbles) : Nibbles := ⟨k.count, revLoop k.packed k.count 0 0xf 0⟩

/-- `pop_nibbles_back`. `nibbles.rs:484-491`. -/
def popNibblesBack (k : Nibbles) (n : Nat) : Option (Nibbles × Nibbles) :=
  if n ≤ k.count then
    (getRange k (k.count - n) k.count).map (fun r => (reverse r, truncBack k n))
  else none

/-- `nibble_append_safety_asserts`. `nibbles.rs:949-956`. -/
def appendOk (k : Nibbles) (n : Nat) : Bool := k.count < 64 && n < 16

/-- `push_nibble_front`. `nibbles.rs:498-505`. -/
def pushFront (k : Nibbles) (n : Nat) : Option Nibbles :=
  if appendOk k n then some ⟨k.count + 1, k.packed ||| shl n (4 * k.count)⟩ else none

/-- `push_nibble_back`. `nibbles.rs:512-517`. -/
def pushBack (k : Nibbles) (n : Nat) : Option Nibbles :=
  if appendOk k n then some ⟨k.count + 1, shl k.packed 4 ||| n⟩ else none

/-- `push_nibbles_front`. `nibbles.rs:524-532`. -/
def pushNibblesFront (k n : Nibbles) : Option Nibbles :=
  if k.count + n.count ≤ 64 then
    some ⟨k.count + n.count, k.packed ||| shl n.packed (4 * k.count)⟩
  else none

/-- `push_nibbles_back`. `nibbles.rs:539-547`. -/
def pushNibblesBack (k n : Nibbles) : Option Nibbles :=
  if k.count + n.count ≤ 64 then
    some ⟨k.count + n.count, shl k.packed (4 * n.count) ||| n.packed⟩
  else none

/-- `is_empty`. `nibbles.rs:625-627`. -/
def isEmpty (k : Nibbles) : Bool := k.count == 0

/-- `nibbles_are_identical_up_to_smallest_count`. `nibbles.rs:631-634`. -/
def ident (a b : Nibbles) : Bool :=
  (List.range (min a.count b.count)).all (fun i => getNibble a i == getNibble b i)

/-- `split_at_idx`. `nibbles.rs:641-658`. -/
def splitAt (k : Nibbles) (idx : Nat) : Option (Nibbles × Nibbles) :=
  if idx ≤ k.count then
    let postCount := k.count - idx
    let postMask := maskOnes (postCount * 4)
    let preMask := not postMask
    some (⟨idx, (k.packed &&& preMask) >>> (postCount * 4)⟩, ⟨postCount, k.packed &&& postMask⟩)
  else none

/-- `split_at_idx_prefix`. `nibbles.rs:664-672`. -/
def splitPrefix (k : Nibbles) (idx : Nat) : Option Nibbles :=
  if idx ≤ k.count then
    let s := (k.count - idx) * 4
    some ⟨idx, (k.packed &&& shl (maskOnes (idx * 4)) s) >>> s⟩
  else none

/-- `split_at_idx_postfix`. `nibbles.rs:678-686`. -/
def splitPostfix (k : Nibbles) (idx : Nat) : Option Nibbles :=
  if idx ≤ k.count then some ⟨k.count - idx, k.packed &&& maskOnes ((k.count - idx) * 4)⟩ else none

/-- `merge_nibble`. `nibbles.rs:692-699`. -/
def mergeNibble (k : Nibbles) (n : Nat) : Option Nibbles :=
  if appendOk k n then some ⟨k.count + 1, shl k.packed 4 ||| n⟩ else none

/-- `merge_nibbles`. `nibbles.rs:705-713`. -/
def mergeNibbles (k post : Nibbles) : Option Nibbles :=
  if k.count + post.count ≤ 64 then
    some ⟨k.count + post.count, shl k.packed (post.count * 4) ||| post.packed⟩
  else none

/-- The loop of `find_nibble_idx_that_differs_between_nibbles_equal_lengths`. `nibbles.rs:771-779`. -/
def diffLoop (x y : Nat) : Nat → Nat → Nat → Nat
  | 0, i, _ => i
  | fuel + 1, i, mask =>
    if x &&& mask ≠ y &&& mask then i else diffLoop x y fuel (i + 1) (mask >>> 4)

/-- `find_nibble_idx_that_differs_between_nibbles_equal_lengths`. `nibbles.rs:756-779`. -/
def diffEqual (a b : Nibbles) : Option Nat :=
  if a.count ≠ b.count then none
  else if a.count = 0 then some 0
  else some (diffLoop a.packed b.packed a.count 0 (shl 0xf ((a.count - 1) * 4)))

/-- `find_nibble_idx_that_differs_between_nibbles_different_lengths`. `nibbles.rs:739-749`. -/
def diffIdx (a b : Nibbles) : Option Nat :=
  let m := min a.count b.count
  (getRange a 0 m).bind (fun x => (getRange b 0 m).bind (fun y => diffEqual x y))

/-- `min_bytes`. `nibbles.rs:898-900`. -/
def minBytes (k : Nibbles) : Nat := (k.count + 1) / 2

/-- `bytes_be` (slicing a 40 byte buffer panics if more are needed). `nibbles.rs:908-913`. -/
def bytesBe (k : Nibbles) : Option Bytes :=
  if minBytes k ≤ 40 then some ((toBE 40 k.packed).drop (40 - minBytes k)) else none

/-- `from_h256_be`. `nibbles.rs:916-918,920-925`. -/
def fromH256Be (h : Mpt.H256) : Nibbles := ⟨64, fromBE h.bytes⟩

/-- `impl From<Nibbles> for H256` (`from_slice` panics unless given 32 bytes). `nibbles.rs:230-241`. -/
def toH256 (k : Nibbles) : Option Bytes :=
  (bytesBe k).bind (fun b =>
    let b := List.replicate (32 - b.length) 0 ++ b
    if b.length = 32 then some b else none)

/-- `impl TryFrom<&Nibbles> for U256`: `none` is the overflow error. `nibbles.rs:190-228`. -/
def toU256 (k : Nibbles) : Option Nat :=
  if k.packed / 2 ^ 256 ≠ 0 then none else some (k.packed % 2 ^ 256)

/-- Number of significant bits. -/
def bits (x : Nat) : Nat := if x = 0 then 0 else Nat.log2 x + 1

/-- `get_num_nibbles_in_key`. `nibbles.rs:903-905`. -/
def numNibbles (x : Nat) : Nat := (bits x + 3) / 4

/-- `to_nibbles` of an integer (`size_bits - leading_zeros` is the number of significant bits).
`nibbles.rs:164-177`. -/
def ofNat (x : Nat) : Nibbles := ⟨(bits x + 3) / 4, x⟩

/-- `to_nibbles_byte_padded`. `nibbles.rs:64-72`. -/
def ofNatPadded (x : Nat) : Nibbles := ⟨((ofNat x).count + 1) / 2 * 2, (ofNat x).packed⟩

/-- `to_hex_prefix_encoding`. `nibbles.rs:807-831`. The flag byte index underflows / is out of range
for more than 81 nibbles. -/
def toHexPrefix (k : Nibbles) (isLeaf : Bool) : Option Bytes :=
  let numBytes := (k.count + 1 + 1) / 2
  if numBytes ≤ 41 then
    let flagIdx := 41 - numBytes
    let odd := if k.count % 2 = 0 then 0 else 1
    let term := if isLeaf then 1 else 0
    let flags := UInt8.ofNat ((odd ||| (term <<< 1)) <<< 4)
    let bytes := 0 :: toBE 40 k.packed
    some ((bytes.modify flagIdx (· ||| flags)).drop flagIdx)
  else none

/-- `FromHexPrefixError`. `nibbles.rs:89-97`, and a panic. -/
inductive HexPrefixError where
  | tooLong | invalidFlags | panic
deriving DecidableEq

/-- The second half of `from_hex_prefix_encoding`: write the odd nibble, the bytes and the leaf
terminator to `nibbles_raw` (a list of the bytes written so far, padded with zeros to 40), and read
back `(count + 1) / 2` bytes. `nibbles.rs:860-883`. -/
def readHexPrefix (b0 : UInt8) (rest : Bytes) (isLeaf : Bool) (count : Nat) : Nibbles :=
  let raw := (if count % 2 = 1 then [b0 &&& 0b1111] else []) ++ rest.take 32
    ++ (if isLeaf then [16] else [])
  ⟨count, fromBE ((raw ++ List.replicate (40 - raw.length) 0).take ((count + 1) / 2))⟩

/-- `from_hex_prefix_encoding`. `nibbles.rs:834-884`. -/
def fromHexPrefix (bs : Bytes) : Except HexPrefixError Nibbles :=
  if bs.length > 33 then .error .tooLong
  else
    match bs with
    | [] => .error .panic
    | b0 :: rest =>
      match ((b0 &&& 0b11110000) >>> 4).toNat with
      | 0 => .ok (readHexPrefix b0 rest false (bs.length * 2 - 2))
      | 1 => .ok (readHexPrefix b0 rest false (bs.length * 2 - 1))
      | 2 => .ok (readHexPrefix b0 rest true (bs.length * 2))
      | 3 => .ok (readHexPrefix b0 rest true (bs.length * 2 + 1))
      | _ => .error .invalidFlags

/-! ## Text -/

/-- Lower-case hex digit (`hex::encode`). -/
def hexDigit (n : Nat) : Char :=
  if n < 10 then Char.ofNat (48 + n) else Char.ofNat (87 + n)

/-- `hex::encode`. -/
def hexEncode (bs : Bytes) : List Char :=
  bs.flatMap (fun b => [hexDigit (b.toNat / 16), hexDigit (b.toNat % 16)])

/-- `as_hex_str`, `LowerHex`, `Display`. `nibbles.rs:785-804,350-354`. -/
def toHexStr (k : Nibbles) : Option (List Char) :=
  if minBytes k ≤ 40 then
    let raw := hexEncode ((toBE 40 k.packed).drop (40 - minBytes k))
    some ('0' :: 'x' :: if k.count % 2 = 0 then raw else raw.drop 1)
  else none

/-- Value of a hex digit of either case. -/
def hexVal (c : Char) : Option Nat :=
  if '0' ≤ c ∧ c ≤ '9' then some (c.toNat - 48)
  else if 'a' ≤ c ∧ c ≤ 'f' then some (c.toNat - 87)
  else if 'A' ≤ c ∧ c ≤ 'F' then some (c.toNat - 55)
  else none

/-- Value of a string of hex digits. -/
def hexNum : Nat → List Char → Option Nat
  | a, [] => some a
  | a, c :: cs => (hexVal c).bind (fun d => hexNum (16 * a + d) cs)

/-- `s.strip_prefix("0x").unwrap_or(s)`. -/
def strip0x : List Char → List Char
  | '0' :: 'x' :: s => s
  | s => s

/-- `NibblesIntern::from_str` of the `uint` crate: optional `0x`, at most 80 digits. -/
def uintFromStr (s : List Char) : Option Nat :=
  let s := strip0x s
  if s.length > 80 then none else hexNum 0 s

/-- `Nibbles::from_str`. `nibbles.rs:338-350`. -/
def fromStr (s : List Char) : Option Nibbles :=
  let stripped := strip0x s
  let leading := (stripped.takeWhile (· == '0')).length
  (uintFromStr s).map (fun packed => ⟨leading + numNibbles packed, packed⟩)

end Verif.Nibbles
