/-!
# RLP encoding, as produced by `rlp::RlpStream`

The `rlp` crate is an external dependency of `mpt_trie/src/trie_hashing.rs`; this file models the
parts of its behaviour that the code uses (`append` of a byte string, `new_list(n)` followed by
`n` appends, `append_raw`, `append_empty_data`).
-/
namespace Verif.Rlp

abbrev Bytes := List UInt8

/-- Minimal big-endian bytes of a number (no leading zeros; `[]` for 0). -/
def beBytes (n : Nat) : Bytes :=
  if _h : n = 0 then [] else beBytes (n / 256) ++ [UInt8.ofNat (n % 256)]
termination_by n
decreasing_by omega

/-- Value of big-endian bytes. -/
def beVal (bs : Bytes) : Nat := bs.foldl (fun a b => a * 256 + b.toNat) 0

/-- Length header: `base + len` for short payloads, otherwise `base + 55 + |len|` and `len`. -/
def header (base : Nat) (len : Nat) : Bytes :=
  if len ≤ 55 then [UInt8.ofNat (base + len)]
  else UInt8.ofNat (base + 55 + (beBytes len).length) :: beBytes len

/-- Encoding of a byte string (`RlpStream::append(&bytes)`, `append_empty_data` for `[]`). -/
def str (s : Bytes) : Bytes :=
  match s with
  | [b] => if b.toNat < 0x80 then [b] else header 0x80 1 ++ [b]
  | s => header 0x80 s.length ++ s

/-- Encoding of a list, given the concatenation of its already encoded items. -/
def listOf (payload : Bytes) : Bytes := header 0xc0 payload.length ++ payload

/-- Split the first item off a byte string: (is it a list, its payload, the rest). -/
def split (bs : Bytes) : Option (Bool × Bytes × Bytes) :=
  match bs with
  | [] => none
  | b :: bs =>
    let t := b.toNat
    if t < 0x80 then some (false, [b], bs)
    else if t < 0xb8 then some (false, bs.take (t - 0x80), bs.drop (t - 0x80))
    else if t < 0xc0 then
      let l := beVal (bs.take (t - 0xb7))
      let bs := bs.drop (t - 0xb7)
      some (false, bs.take l, bs.drop l)
    else if t < 0xf8 then some (true, bs.take (t - 0xc0), bs.drop (t - 0xc0))
    else
      let l := beVal (bs.take (t - 0xf7))
      let bs := bs.drop (t - 0xf7)
      some (true, bs.take l, bs.drop l)

end Verif.Rlp
