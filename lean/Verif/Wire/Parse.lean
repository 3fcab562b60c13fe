import Verif.World.Type1
/-!
# The witness byte format (`trace_decoder/src/wire.rs`) (C27, C60)

`none` is a parse error or a panic.  The CBOR reader (crate `ciborium`) is a parameter `Cbor`; the theorems assume
of it that it inverts the encoding of integers and byte strings, and `Cbor.rfc` shows that such readers exist.
-/
namespace Verif.Wire
open Mpt (Key Bytes Nib H256)
open World (U256)

/-! ## Model -/

/-- `SmtLeafType`. `trace_decoder/src/wire.rs:90-96`. -/
inductive SmtLeafType where
  | balance
  | nonce
  | code
  | storage (slot : Bytes)
  | codeLength
deriving DecidableEq

/-- `Instruction`, `SmtLeaf`. `trace_decoder/src/wire.rs:49-80, 83-87`. `NonEmpty` is the predicate `Instr.Ok` below. -/
inductive Instr where
  | leaf (key : Key) (value : Bytes)
  | ext (key : Key)
  | branch (mask : Nat)
  | hash (h : H256)
  | code (c : Bytes)
  | acctLeaf (key : Key) (nonce : Option Nat) (balance : Option U256) (hasCode hasStorage : Bool)
  | smtLeaf (ty : SmtLeafType) (address value : Bytes)
  | emptyRoot
  | newTrie
deriving DecidableEq

/-- `ciborium::from_reader` at `u64` and at `Vec<u8>`: the value and the rest of the input. -/
structure Cbor where
  uint : Bytes → Option (Nat × Bytes)
  bytes : Bytes → Option (Bytes × Bytes)

/-- `both.left(), both.right()` of `U4x2`. `trace_decoder/src/wire.rs:257-262`. -/
def nibs (b : UInt8) : Key := [⟨b.toNat / 16, by have := b.toNat_lt; omega⟩, ⟨b.toNat % 16, Nat.mod_lt _ (by omega)⟩]

/-- `U4::new`. -/
def u4 (n : Nat) : Option Nib := if h : n < 16 then some ⟨n, h⟩ else none

/-- `left.rotate_right(4)`: the nibbles swapped. -/
def swapNibs (b : UInt8) : Nat := b.toNat % 16 * 16 + b.toNat / 16

/-- `decode_key`. `trace_decoder/src/wire.rs:233-291`. Bits other than `ODD` and `TERMINATED` in the first byte are an
error; `TERMINATED` is ignored. -/
def decodeKey : Bytes → Option Key
  | [] => none
  | [only] => do return [← u4 only.toNat]
  | flags :: rest =>
    if 4 ≤ flags.toNat then none
    else
      match rest.getLast? with
      | none => none
      | some last =>
        if flags.toNat % 2 = 1 then do
          let n ← u4 (swapNibs last)
          return rest.dropLast.flatMap nibs ++ [n]
        else some (rest.dropLast.flatMap nibs ++ nibs last)

section
variable (C : Cbor)

/-- `cbor::<NonEmpty<Vec<u8>>>`. -/
def bytes1 (b : Bytes) : Option (Bytes × Bytes) := do
  let (v, b) ← C.bytes b
  if v = [] then none else return (v, b)

/-- `key`. `trace_decoder/src/wire.rs:208-210`. -/
def parseKey (b : Bytes) : Option (Key × Bytes) := do
  let (v, b) ← bytes1 C b
  return (← decodeKey v, b)

/-- `U256::from_big_endian`: panics on more than 32 bytes. -/
def fromBigEndian (b : Bytes) : Option U256 :=
  if b.length ≤ 32 then some (BitVec.ofNat 256 (Rlp.beVal b)) else none

/-- An optional field. -/
def optional {α} (present : Bool) (p : Bytes → Option (α × Bytes)) (b : Bytes) : Option (Option α × Bytes) :=
  if present then do
    let (x, b) ← p b
    return (some x, b)
  else some (none, b)

/-- The balance field. `trace_decoder/src/wire.rs:151-162`. -/
def parseBalance (b : Bytes) : Option (U256 × Bytes) := do
  let (v, b) ← C.bytes b
  return (← fromBigEndian v, b)

/-- `account_leaf`. `trace_decoder/src/wire.rs:137-185`. -/
def parseAcct (b : Bytes) : Option (Instr × Bytes) := do
  let (key, b) ← parseKey C b
  match b with
  | [] => none
  | flags :: b =>
    if 16 ≤ flags.toNat then none
    else do
      let (nonce, b) ← optional (flags.toNat.testBit 2) C.uint b
      let (balance, b) ← optional (flags.toNat.testBit 3) (parseBalance C) b
      let (_, b) ← optional (flags.toNat.testBit 0) C.uint b
      return (.acctLeaf key nonce balance (flags.toNat.testBit 0) (flags.toNat.testBit 1), b)

/-- The type of a sparse Merkle tree leaf. `trace_decoder/src/wire.rs:184-194`. -/
def parseSmtType (ty : Nat) (b : Bytes) : Option (SmtLeafType × Bytes) :=
  match ty with
  | 0 => some (.balance, b)
  | 1 => some (.nonce, b)
  | 2 => some (.code, b)
  | 3 => do
    let (slot, b) ← bytes1 C b
    return (.storage slot, b)
  | 4 => some (.codeLength, b)
  | _ => none

/-- `smt_leaf`. `trace_decoder/src/wire.rs:187-206`. The address is read before the type is looked at. -/
def parseSmt (b : Bytes) : Option (Instr × Bytes) :=
  match b with
  | [] => none
  | ty :: b => do
    let (address, b) ← bytes1 C b
    let (ty, b) ← parseSmtType C ty.toNat b
    let (value, b) ← bytes1 C b
    return (.smtLeaf ty address value, b)

/-- `array::<32>`. `trace_decoder/src/wire.rs:272-276`. -/
def parseHash (b : Bytes) : Option (H256 × Bytes) :=
  if h : (b.take 32).length = 32 then some (⟨b.take 32, h⟩, b.drop 32) else none

/-- `instruction`. `trace_decoder/src/wire.rs:101-131`. -/
def parseInstr (b : Bytes) : Option (Instr × Bytes) :=
  match b with
  | [] => none
  | op :: b =>
    match op.toNat with
    | 0 => do
      let (k, b) ← parseKey C b
      let (v, b) ← bytes1 C b
      return (.leaf k v, b)
    | 1 => do
      let (k, b) ← parseKey C b
      return (.ext k, b)
    | 2 => do
      let (m, b) ← C.uint b
      return (.branch m, b)
    | 3 => do
      let (h, b) ← parseHash b
      return (.hash h, b)
    | 4 => do
      let (c, b) ← bytes1 C b
      return (.code c, b)
    | 5 => parseAcct C b
    | 6 => some (.emptyRoot, b)
    | 7 => parseSmt C b
    | 0xBB => some (.newTrie, b)
    | _ => none

/-- `repeat_till(1.., instruction, eof)`. The test that the input got shorter is not in the code: readers only
advance. `trace_decoder/src/wire.rs:31-34`. -/
def parseLoop (b : Bytes) : Option (List Instr) :=
  match parseInstr C b with
  | none => none
  | some (i, r) =>
    if r = [] then some [i]
    else if _h : r.length < b.length then do return i :: (← parseLoop r)
    else none
termination_by b.length

/-- `parse`. `trace_decoder/src/wire.rs:28-39`. -/
def parse (b : Bytes) : Option (List Instr) :=
  match b with
  | [] => none
  | header :: b => if header.toNat ≤ 1 then parseLoop C b else none

end

/-! ## Specification of the format -/

/-- Nibbles in pairs, the last one in the high half of its byte if it is alone. -/
def packKey : Key → Bytes
  | [] => []
  | [a] => [UInt8.ofNat (16 * a.val)]
  | a :: b :: k => UInt8.ofNat (16 * a.val + b.val) :: packKey k

/-- The encodings of a key: a lone nibble as it is, or a byte of flags and the packed nibbles. -/
inductive KeyEnc : Key → Bytes → Prop
  | single (n : Nib) : KeyEnc [n] [UInt8.ofNat n.val]
  | packed (k : Key) (terminated : Bool) : k ≠ [] →
      KeyEnc k (UInt8.ofNat (k.length % 2 + if terminated then 2 else 0) :: packKey k)

/-- An encoding of integers and byte strings. -/
structure CborEnc where
  uint : Nat → Bytes
  bytes : Bytes → Bytes

/-- The reader inverts the encoding, whatever follows, and it only advances. -/
structure Reads (C : Cbor) (E : CborEnc) : Prop where
  uint : ∀ n r, n < 2 ^ 64 → C.uint (E.uint n ++ r) = some (n, r)
  bytes : ∀ b r, b.length < 2 ^ 64 → C.bytes (E.bytes b ++ r) = some (b, r)

/-- A byte string the format can carry. -/
def Str (b : Bytes) : Prop := b ≠ [] ∧ b.length < 2 ^ 64

/-- A field that may be absent. -/
def optBytes {α} (f : α → Bytes) : Option α → Bytes
  | none => []
  | some x => f x

/-- The byte forms of an instruction: opcode and fields. The length of the code of an account is not part of the
instruction and may be anything; a balance may have leading zeros. -/
inductive Enc (E : CborEnc) : Instr → Bytes → Prop
  | leaf {k kb v} : KeyEnc k kb → kb.length < 2 ^ 64 → Str v → Enc E (.leaf k v) (0 :: (E.bytes kb ++ E.bytes v))
  | ext {k kb} : KeyEnc k kb → kb.length < 2 ^ 64 → Enc E (.ext k) (1 :: E.bytes kb)
  | branch {m} : m < 2 ^ 64 → Enc E (.branch m) (2 :: E.uint m)
  | hash {h : H256} : Enc E (.hash h) (3 :: h.bytes)
  | code {c} : Str c → Enc E (.code c) (4 :: E.bytes c)
  | acct {k kb} {nonce : Option Nat} {balance : Option (Bytes)} {codeLen : Option Nat} {st : Bool} :
      KeyEnc k kb → kb.length < 2 ^ 64 → (∀ n, nonce = some n → n < 2 ^ 64) → (∀ b, balance = some b → b.length ≤ 32) →
      (∀ n, codeLen = some n → n < 2 ^ 64) →
      Enc E (.acctLeaf k nonce (balance.map (fun b => BitVec.ofNat 256 (Rlp.beVal b))) codeLen.isSome st)
        (5 :: (E.bytes kb ++ UInt8.ofNat (codeLen.isSome.toNat + 2 * st.toNat + 4 * nonce.isSome.toNat + 8 * balance.isSome.toNat) ::
          (optBytes E.uint nonce ++ (optBytes E.bytes balance ++ optBytes E.uint codeLen))))
  | smt {ty : SmtLeafType} {a v} : Str a → Str v → (∀ s, ty = .storage s → Str s) →
      Enc E (.smtLeaf ty a v) (7 :: (match ty with | .balance => 0 | .nonce => 1 | .code => 2 | .storage _ => 3 | .codeLength => 4) ::
        (E.bytes a ++ ((match ty with | .storage s => E.bytes s | _ => []) ++ E.bytes v)))
  | emptyRoot : Enc E .emptyRoot [6]
  | newTrie : Enc E .newTrie [0xBB]

/-- The byte forms of a sequence of instructions. -/
inductive EncList (E : CborEnc) : List Instr → Bytes → Prop
  | nil : EncList E [] []
  | cons {i l b c} : Enc E i b → EncList E l c → EncList E (i :: l) (b ++ c)

/-! ## C27: keys -/

theorem toNat_ofNat8 {n : Nat} (h : n < 256) : (UInt8.ofNat n).toNat = n := by
  rw [UInt8.toNat_ofNat']; omega

theorem nibs_pack (a b : Nib) : nibs (UInt8.ofNat (16 * a.val + b.val)) = [a, b] := by
  have ha := a.isLt; have hb := b.isLt
  have e := toNat_ofNat8 (n := 16 * a.val + b.val) (by omega)
  simp only [nibs, e, List.cons.injEq, Fin.ext_iff, and_true]
  omega

/-- Packed keys of even length unpack; of odd length, the last byte holds the last nibble. -/
theorem packKey_even : ∀ (k : Key), k.length % 2 = 0 → (packKey k).flatMap nibs = k
  | [], _ => rfl
  | [a], h => by simp at h
  | a :: b :: k, h => by
    rw [packKey, List.flatMap_cons, nibs_pack, packKey_even k (by simp at h; omega)]
    rfl

theorem packKey_odd : ∀ (k : Key), k.length % 2 = 1 → ∃ (k' : Key) (n : Nib), k = k' ++ [n] ∧ k'.length % 2 = 0 ∧
    packKey k = packKey k' ++ [UInt8.ofNat (16 * n.val)]
  | [], h => by simp at h
  | [a], _ => ⟨[], a, rfl, rfl, rfl⟩
  | a :: b :: k, h => by
    obtain ⟨k', n, rfl, h2, h3⟩ := packKey_odd k (by simp at h; omega)
    exact ⟨a :: b :: k', n, rfl, by simp; omega, by simp [packKey, h3]⟩

theorem swapNibs_high (n : Nib) : u4 (swapNibs (UInt8.ofNat (16 * n.val))) = some n := by
  have := n.isLt
  have e := toNat_ofNat8 (n := 16 * n.val) (by omega)
  have : swapNibs (UInt8.ofNat (16 * n.val)) = n.val := by unfold swapNibs; rw [e]; omega
  rw [this]; simp [u4]

/-- Decoding a flag byte followed by at least one byte. -/
theorem decodeKey_cons (f x : UInt8) (l : Bytes) : decodeKey (f :: (l ++ [x])) =
    if 4 ≤ f.toNat then none
    else if f.toNat % 2 = 1 then (u4 (swapNibs x)).map (fun n => l.flatMap nibs ++ [n])
    else some (l.flatMap nibs ++ nibs x) := by
  have hne : l ++ [x] ≠ [] := by simp
  obtain ⟨y, ys, he⟩ := List.exists_cons_of_ne_nil hne
  have hg : (y :: ys).getLast? = some x := by rw [← he]; simp
  have hd : (y :: ys).dropLast = l := by rw [← he]; simp
  rw [he, decodeKey]
  · rw [hg, hd]
    simp only [Option.map_eq_bind]
    rfl
  · simp

/-- **C27** (keys). Decoding a compact key inverts both encodings of it. -/
theorem C27_key_roundtrip {k : Key} {b : Bytes} (h : KeyEnc k b) : decodeKey b = some k := by
  cases h with
  | single n =>
    have e := toNat_ofNat8 (n := n.val) (by have := n.isLt; omega)
    show (do return [← u4 (UInt8.ofNat n.val).toNat]) = _
    rw [e]
    simp [u4]
  | packed _ t hk =>
    have ef : (UInt8.ofNat (k.length % 2 + if t then 2 else 0)).toNat = k.length % 2 + if t then 2 else 0 :=
      toNat_ofNat8 (by split <;> omega)
    rcases Nat.mod_two_eq_zero_or_one k.length with hl | hl
    · have hp : packKey k ≠ [] := by
        match k, hk, hl with
        | [a], _, h => simp at h
        | a :: b :: k, _, _ => simp [packKey]
      have hs := List.dropLast_concat_getLast hp
      rw [← hs, decodeKey_cons, ef, hl]
      have h4 : ¬ 4 ≤ 0 + (if t then 2 else 0) := by split <;> omega
      have h2 : ¬ (0 + if t then 2 else 0) % 2 = 1 := by split <;> omega
      rw [if_neg h4, if_neg h2]
      have := packKey_even k hl
      rw [← hs] at this
      simpa using this
    · obtain ⟨k', n, rfl, h2, h3⟩ := packKey_odd k hl
      rw [h3, decodeKey_cons, ef, hl]
      have h4 : ¬ 4 ≤ 1 + (if t then 2 else 0) := by split <;> omega
      have h5 : (1 + if t then 2 else 0) % 2 = 1 := by split <;> omega
      rw [if_neg h4, if_pos h5, swapNibs_high, packKey_even k' h2]
      rfl

theorem packKey_nibs_append (l : Bytes) (k : Key) : packKey (l.flatMap nibs ++ k) = l ++ packKey k := by
  induction l with
  | nil => rfl
  | cons b l ih =>
    rw [List.flatMap_cons]
    show UInt8.ofNat (16 * (b.toNat / 16) + b.toNat % 16) :: packKey (l.flatMap nibs ++ k) = _
    rw [ih, show 16 * (b.toNat / 16) + b.toNat % 16 = b.toNat by omega]
    simp

theorem flatMap_nibs_length (l : Bytes) : (l.flatMap nibs).length = 2 * l.length := by
  induction l with
  | nil => rfl
  | cons b l ih => rw [List.flatMap_cons, List.length_append, ih]; simp [nibs]; omega

/-- **C27** (keys). Nothing but the encodings of a key decodes to it: every other byte string is rejected. -/
theorem C27_key_exact {k : Key} {b : Bytes} (h : decodeKey b = some k) : KeyEnc k b := by
  match b, h with
  | [], h => cases h
  | [x], h =>
    change (do return [← u4 x.toNat]) = some k at h
    unfold u4 at h
    split at h
    · rename_i hx
      cases h
      have := KeyEnc.single ⟨x.toNat, hx⟩
      simpa using this
    · cases h
  | f :: x :: l, h =>
    have hs := List.dropLast_concat_getLast (l := x :: l) (by simp)
    rw [← hs] at h ⊢
    generalize (x :: l).getLast _ = x at h ⊢
    generalize List.dropLast _ = l at h ⊢
    rw [decodeKey_cons] at h
    split at h
    · cases h
    rename_i h4
    have hf : f = UInt8.ofNat (f.toNat % 2 + if f.toNat / 2 = 1 then 2 else 0) := by
      have : f.toNat % 2 + (if f.toNat / 2 = 1 then 2 else 0) = f.toNat := by split <;> omega
      rw [this]; simp
    split at h
    · rename_i ho
      unfold u4 at h
      split at h
      · rename_i hx
        cases h
        have := KeyEnc.packed (l.flatMap nibs ++ [⟨swapNibs x, hx⟩]) (decide (f.toNat / 2 = 1)) (by simp)
        rw [packKey_nibs_append, List.length_append, flatMap_nibs_length] at this
        have e1 : (2 * l.length + [(⟨swapNibs x, hx⟩ : Nib)].length) % 2 = f.toNat % 2 := by simp; omega
        have e2 : packKey [(⟨swapNibs x, hx⟩ : Nib)] = [x] := by
          unfold swapNibs at hx
          simp only [packKey, swapNibs]
          rw [show 16 * (x.toNat % 16 * 16 + x.toNat / 16) = x.toNat by omega]
          simp
        rw [e1, e2] at this
        simp only [decide_eq_true_eq] at this
        rw [← hf] at this
        exact this
      · cases h
    · rename_i ho
      cases h
      have := KeyEnc.packed (l.flatMap nibs ++ nibs x) (decide (f.toNat / 2 = 1)) (by simp [nibs])
      rw [packKey_nibs_append, List.length_append, flatMap_nibs_length] at this
      have e1 : (2 * l.length + (nibs x).length) % 2 = f.toNat % 2 := by simp [nibs]; omega
      have e2 : packKey (nibs x) = [x] := by
        have := packKey_nibs_append [x] []
        simpa [packKey] using this
      rw [e1, e2] at this
      simp only [decide_eq_true_eq] at this
      rw [← hf] at this
      exact this

/-! ## C60: the whole stream -/

section
variable {C : Cbor} {E : CborEnc}

theorem bytes1_enc (hr : Reads C E) {b r : Bytes} (h : Str b) : bytes1 C (E.bytes b ++ r) = some (b, r) := by
  simp [bytes1, hr.bytes _ _ h.2, h.1]

theorem keyEnc_ne {k : Key} {b : Bytes} (h : KeyEnc k b) : b ≠ [] := by cases h <;> simp

theorem parseKey_enc (hr : Reads C E) {k : Key} {kb r : Bytes} (h : KeyEnc k kb) (hl : kb.length < 2 ^ 64) :
    parseKey C (E.bytes kb ++ r) = some (k, r) := by
  simp [parseKey, bytes1_enc hr ⟨keyEnc_ne h, hl⟩, C27_key_roundtrip h]

theorem optional_enc {α} {p : Bytes → Option (α × Bytes)} {f : α → Bytes} {o : Option α} {r : Bytes}
    (h : ∀ x, o = some x → p (f x ++ r) = some (x, r)) : optional o.isSome p (optBytes f o ++ r) = some (o, r) := by
  cases o with
  | none => rfl
  | some x => simp [optional, optBytes, h x rfl]

theorem flags_bits (a b c d : Bool) : (UInt8.ofNat (a.toNat + 2 * b.toNat + 4 * c.toNat + 8 * d.toNat)).toNat < 16 ∧
    (UInt8.ofNat (a.toNat + 2 * b.toNat + 4 * c.toNat + 8 * d.toNat)).toNat.testBit 0 = a ∧
    (UInt8.ofNat (a.toNat + 2 * b.toNat + 4 * c.toNat + 8 * d.toNat)).toNat.testBit 1 = b ∧
    (UInt8.ofNat (a.toNat + 2 * b.toNat + 4 * c.toNat + 8 * d.toNat)).toNat.testBit 2 = c ∧
    (UInt8.ofNat (a.toNat + 2 * b.toNat + 4 * c.toNat + 8 * d.toNat)).toNat.testBit 3 = d := by
  cases a <;> cases b <;> cases c <;> cases d <;> decide

theorem parseInstr_enc (hr : Reads C E) {i : Instr} {b : Bytes} (h : Enc E i b) (r : Bytes) :
    parseInstr C (b ++ r) = some (i, r) := by
  cases h with
  | leaf hk hl hv =>
    simp only [List.cons_append, List.append_assoc]
    simp [parseInstr, parseKey_enc hr hk hl, bytes1_enc hr hv]
  | ext hk hl =>
    simp [parseInstr, parseKey_enc hr hk hl]
  | branch hm => simp [parseInstr, hr.uint _ _ hm]
  | @hash h =>
    simp [parseInstr, parseHash, h.len]
  | code hc => simp [parseInstr, bytes1_enc hr hc]
  | @acct k kb nonce balance codeLen st hk hl h1 h2 h3 =>
    obtain ⟨f0, f1, f2, f3, f4⟩ := flags_bits codeLen.isSome st nonce.isSome balance.isSome
    simp only [List.cons_append, List.append_assoc]
    show parseAcct C _ = _
    unfold parseAcct
    rw [parseKey_enc hr hk hl]
    simp only [Option.bind_eq_bind, Option.bind_some]
    rw [if_neg (by omega), f1, f2, f3, f4]
    rw [optional_enc (fun x hx => hr.uint x _ (h1 x hx))]
    simp only [Option.bind_some]
    have hb : optional balance.isSome (parseBalance C) (optBytes E.bytes balance ++ (optBytes E.uint codeLen ++ r)) =
        some (balance.map (fun b => BitVec.ofNat 256 (Rlp.beVal b)), optBytes E.uint codeLen ++ r) := by
      cases balance with
      | none => rfl
      | some x =>
        have hx := h2 x rfl
        have : parseBalance C (E.bytes x ++ (optBytes E.uint codeLen ++ r)) =
            some (BitVec.ofNat 256 (Rlp.beVal x), optBytes E.uint codeLen ++ r) := by
          simp [parseBalance, hr.bytes _ _ (show x.length < 2 ^ 64 by omega), fromBigEndian, hx]
        show (do let (x, b) ← parseBalance C (E.bytes x ++ (optBytes E.uint codeLen ++ r)); return (some x, b)) = _
        rw [this]
        rfl
    rw [hb]
    simp only [Option.bind_some]
    rw [optional_enc (fun x hx => hr.uint x _ (h3 x hx))]
    rfl
  | @smt ty a v ha hv hs =>
    simp only [List.cons_append, List.append_assoc]
    have hp : ∀ b, parseInstr C (7 :: b) = parseSmt C b := fun _ => rfl
    rw [hp]
    cases ty with
    | storage s =>
      simp [parseSmt, parseSmtType, bytes1_enc hr ha, bytes1_enc hr hv, bytes1_enc hr (hs s rfl)]
    | _ => simp [parseSmt, parseSmtType, bytes1_enc hr ha, bytes1_enc hr hv]
  | emptyRoot => rfl
  | newTrie => rfl

theorem enc_pos {i : Instr} {b : Bytes} (h : Enc E i b) : 0 < b.length := by cases h <;> simp

theorem parseLoop_enc (hr : Reads C E) {l : List Instr} {b : Bytes} (h : EncList E l b) (hl : l ≠ []) :
    parseLoop C b = some l := by
  induction h with
  | nil => exact absurd rfl hl
  | @cons i l b c h1 h2 ih =>
    rw [parseLoop, parseInstr_enc hr h1]
    simp only
    cases h2 with
    | nil => simp
    | @cons i' l' b' c' h3 h4 =>
      have hp := enc_pos h3
      have hp1 := enc_pos h1
      have hne : b' ++ c' ≠ [] := by
        intro h; have h' := congrArg List.length h; rw [List.length_append] at h'; simp only [List.length_nil] at h'; omega
      rw [if_neg hne, dif_pos (by simp only [List.length_append]; omega), ih (by simp)]
      rfl

/-- Specification: the fields of an instruction that must not be empty are not. -/
def Instr.Ok : Instr → Prop
  | .leaf k v => k ≠ [] ∧ v ≠ []
  | .ext k => k ≠ []
  | .code c => c ≠ []
  | .acctLeaf k _ _ _ _ => k ≠ []
  | .smtLeaf ty a v => a ≠ [] ∧ v ≠ [] ∧ ∀ s, ty = .storage s → s ≠ []
  | _ => True

theorem bytes1_ok {b r v : Bytes} (h : bytes1 C b = some (v, r)) : v ≠ [] := by
  simp only [bytes1, Option.bind_eq_bind, Option.bind_eq_some_iff] at h
  obtain ⟨⟨x, y⟩, -, h⟩ := h
  simp only at h
  split at h
  · cases h
  · cases h; assumption

theorem parseKey_ok {b r : Bytes} {k : Key} (h : parseKey C b = some (k, r)) : k ≠ [] := by
  simp only [parseKey, Option.bind_eq_bind, Option.bind_eq_some_iff] at h
  obtain ⟨⟨x, y⟩, -, k', h1, h⟩ := h
  cases h
  cases C27_key_exact h1 with
  | single => simp
  | packed _ _ h => exact h

theorem parseInstr_ok {b r : Bytes} {i : Instr} (h : parseInstr C b = some (i, r)) : i.Ok := by
  unfold parseInstr at h
  split at h
  · cases h
  split at h
  · simp only [Option.bind_eq_bind, Option.bind_eq_some_iff] at h
    obtain ⟨⟨k, b1⟩, h1, ⟨v, b2⟩, h2, h⟩ := h
    cases h; exact ⟨parseKey_ok h1, bytes1_ok h2⟩
  · simp only [Option.bind_eq_bind, Option.bind_eq_some_iff] at h
    obtain ⟨⟨k, b1⟩, h1, h⟩ := h
    cases h; exact parseKey_ok h1
  · simp only [Option.bind_eq_bind, Option.bind_eq_some_iff] at h
    obtain ⟨⟨k, b1⟩, h1, h⟩ := h
    cases h; trivial
  · simp only [Option.bind_eq_bind, Option.bind_eq_some_iff] at h
    obtain ⟨⟨k, b1⟩, h1, h⟩ := h
    cases h; trivial
  · simp only [Option.bind_eq_bind, Option.bind_eq_some_iff] at h
    obtain ⟨⟨k, b1⟩, h1, h⟩ := h
    cases h; exact bytes1_ok h1
  · simp only [parseAcct, Option.bind_eq_bind, Option.bind_eq_some_iff] at h
    obtain ⟨⟨k, b1⟩, h1, h⟩ := h
    simp only at h
    split at h
    · cases h
    split at h
    · cases h
    simp only [Option.bind_eq_some_iff] at h
    obtain ⟨⟨_, _⟩, -, ⟨_, _⟩, -, ⟨_, _⟩, -, h⟩ := h
    cases h; exact parseKey_ok h1
  · cases h; trivial
  · unfold parseSmt at h
    split at h
    · cases h
    simp only [Option.bind_eq_bind, Option.bind_eq_some_iff] at h
    obtain ⟨⟨a, b1⟩, h1, ⟨ty, b2⟩, h2, ⟨v, b3⟩, h3, h⟩ := h
    cases h
    refine ⟨bytes1_ok h1, bytes1_ok h3, ?_⟩
    rintro s rfl
    unfold parseSmtType at h2
    split at h2
    any_goals (cases h2; done)
    simp only [Option.bind_eq_bind, Option.bind_eq_some_iff] at h2
    obtain ⟨⟨s', b4⟩, h4, h2⟩ := h2
    cases h2
    exact bytes1_ok h4
  · cases h; trivial
  · cases h

/-- **C60**. No accepted stream has an instruction with an empty key, value, code, address or slot. -/
theorem C60_nonempty {b : Bytes} {l : List Instr} (h : parse C b = some l) : ∀ i ∈ l, i.Ok := by
  have key : ∀ (n : Nat) (b : Bytes) (l : List Instr), b.length ≤ n → parseLoop C b = some l → ∀ i ∈ l, i.Ok := by
    intro n
    induction n with
    | zero =>
      intro b l hb h
      have : b = [] := List.length_eq_zero_iff.1 (by omega)
      subst this
      rw [parseLoop] at h
      simp [parseInstr] at h
    | succ n ih =>
      intro b l hb h
      rw [parseLoop] at h
      split at h
      · cases h
      rename_i i r hi
      split at h
      · cases h
        intro j hj
        cases List.mem_singleton.1 hj
        exact parseInstr_ok hi
      split at h
      · simp only [Option.bind_eq_bind, Option.bind_eq_some_iff] at h
        obtain ⟨l', h1, h⟩ := h
        cases h
        intro j hj
        rcases List.mem_cons.1 hj with rfl | hj
        · exact parseInstr_ok hi
        · exact ih r l' (by omega) h1 j hj
      · cases h
  match b, h with
  | header :: b, h =>
    simp only [parse] at h
    split at h
    · exact key _ b l (Nat.le_refl _) h
    · cases h

/-- **C60**. Every non-empty sequence of instructions is read back from its byte form, after either header byte, for
every CBOR reader that inverts the encoding. -/
theorem C60_parse_roundtrip (hr : Reads C E) {l : List Instr} {b : Bytes} (h : EncList E l b) (hl : l ≠ [])
    (header : UInt8) (hh : header = 0 ∨ header = 1) : parse C (header :: b) = some l := by
  rcases hh with rfl | rfl <;> exact parseLoop_enc hr h hl

theorem parseLoop_ne (b : Bytes) : parseLoop C b ≠ some [] := by
  rw [parseLoop]
  split
  · simp
  · rename_i i r _
    split
    · simp
    · split
      · cases parseLoop C r <;> simp
      · simp

/-- **C60**. The empty input, another header byte, an input without instructions and an unknown opcode are rejected;
the result is never empty. -/
theorem C60_rejects : parse C [] = none ∧ (∀ h b, 1 < h.toNat → parse C (h :: b) = none) ∧ (∀ h, parse C [h] = none) ∧
    (∀ (h op : UInt8) b, 7 < op.toNat → op ≠ 0xBB → parse C (h :: op :: b) = none) ∧ ∀ b, parse C b ≠ some [] := by
  have hp : ∀ h b, parse C (h :: b) = if h.toNat ≤ 1 then parseLoop C b else none := fun _ _ => rfl
  refine ⟨rfl, fun h b hh => ?_, fun h => ?_, fun h op b h1 h2 => ?_, fun b => ?_⟩
  · rw [hp, if_neg (by omega)]
  · rw [hp, parseLoop]
    simp [parseInstr]
  · have hne : op.toNat ≠ 187 := fun h => h2 (UInt8.toNat.inj h)
    have : parseInstr C (op :: b) = none := by
      simp only [parseInstr]
      split
      any_goals omega
      rfl
    rw [hp, parseLoop, this]
    simp
  · match b with
    | [] => simp [parse]
    | h :: b =>
      rw [hp]
      split
      · exact parseLoop_ne _
      · simp

end

end Verif.Wire
