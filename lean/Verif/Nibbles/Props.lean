import Verif.Nibbles.Encode
/-!
# Properties C11, C12 and C50: packed nibble strings

`rep k` is the packed form of the sequence `k`: its length and its value in base 16.
-/
namespace Verif.Nibbles
open Verif.Mpt (Bytes Key Nib)
set_option exponentiation.threshold 400

/-- Every packed value whose unused bits are zero represents exactly one sequence. -/
theorem C11_representation :
    (∀ p : Nibbles, p.packed < 16 ^ p.count → ∃ k : Key, rep k = p) ∧
    (∀ a b : Key, rep a = rep b → a = b) := by
  refine ⟨fun p h => ?_, fun a b => rep_inj⟩
  obtain ⟨k, h1, h2⟩ := exists_rep _ _ h
  exact ⟨k, by simp [rep, h1, h2]⟩

/-- **C11**, reading and dropping: for strings of at most 79 nibbles (more than any constructor of
keys makes). `none` is a panic. -/
theorem C11_read (k : Key) (hk : k.length ≤ 79) (i j n : Nat) :
    getNibble (rep k) i = k[i]?.map (·.val) ∧
    getRange (rep k) i j
      = (if i ≤ j ∧ j ≤ k.length then some (rep ((k.drop i).take (j - i))) else none) ∧
    getNext (rep k) n = (if n ≤ k.length then some (rep (k.take n)) else none) ∧
    truncFront (rep k) n = rep (k.drop n) ∧
    truncBack (rep k) n = rep (k.take (k.length - n)) ∧
    isEmpty (rep k) = k.isEmpty := by
  refine ⟨getNibble_rep k i, getRange_rep hk i j, ?_, truncFront_rep hk n, truncBack_rep hk n, ?_⟩
  · have := getRange_rep hk 0 n
    simpa [getNext] using this
  · cases k <;> simp [isEmpty, rep]

/-- **C11**, popping. -/
theorem C11_pop (k : Key) (hk : k.length ≤ 79) (n : Nat) :
    popFront (rep k) = (match k with | [] => none | d :: k => some (d.val, rep k)) ∧
    popBack (rep k) = k.getLast?.map (fun d => (d.val, rep k.dropLast)) ∧
    popNibblesFront (rep k) n
      = (if n ≤ k.length then some (rep (k.take n), rep (k.drop n)) else none) ∧
    popNibblesBack (rep k) n
      = (if n ≤ k.length then
          some (rep (k.drop (k.length - n)).reverse, rep (k.take (k.length - n))) else none) := by
  have hc : (rep k).count = k.length := rfl
  refine ⟨?_, ?_, ?_, ?_⟩
  · unfold popFront
    rw [getNibble_rep, truncFront_rep hk]
    cases k <;> rfl
  · unfold popBack
    rw [hc, getNibble_rep, truncBack_rep hk, ← List.getLast?_eq_getElem?, List.dropLast_eq_take]
    cases k with
    | nil => rfl
    | cons d k => rw [if_neg (by simp), Option.map_map]; rfl
  · unfold popNibblesFront
    rw [getRange_rep hk, truncFront_rep hk]
    by_cases h : n ≤ k.length <;> simp [h]
  · unfold popNibblesBack
    rw [hc]
    by_cases h : n ≤ k.length
    · rw [if_pos h, if_pos h, getRange_rep hk, truncBack_rep hk, if_pos ⟨by omega, by omega⟩]
      simp only [Option.map_some]
      have : (k.drop (k.length - n)).take (k.length - (k.length - n)) = k.drop (k.length - n) :=
        List.take_of_length_le (by simp)
      rw [this, reverse_rep (by simp; omega)]
    · rw [if_neg h, if_neg h]

/-- **C11**, pushing and merging: exactly the concatenation, and a panic exactly when the result would
exceed 64 nibbles or the pushed byte is not a nibble. -/
theorem C11_push (a b : Key) (d : Nat) :
    pushFront (rep a) d
      = (if h : a.length < 64 ∧ d < 16 then some (rep (⟨d, h.2⟩ :: a)) else none) ∧
    pushBack (rep a) d
      = (if h : a.length < 64 ∧ d < 16 then some (rep (a ++ [⟨d, h.2⟩])) else none) ∧
    mergeNibble (rep a) d
      = (if h : a.length < 64 ∧ d < 16 then some (rep (a ++ [⟨d, h.2⟩])) else none) ∧
    pushNibblesFront (rep a) (rep b)
      = (if a.length + b.length ≤ 64 then some (rep (b ++ a)) else none) ∧
    pushNibblesBack (rep a) (rep b)
      = (if a.length + b.length ≤ 64 then some (rep (a ++ b)) else none) ∧
    mergeNibbles (rep a) (rep b)
      = (if a.length + b.length ≤ 64 then some (rep (a ++ b)) else none) := by
  have hc : ∀ k : Key, (rep k).count = k.length := fun _ => rfl
  have hp : ∀ k : Key, (rep k).packed = val k := fun _ => rfl
  refine ⟨?_, ?_, ?_, ?_, ?_, ?_⟩
  · unfold pushFront appendOk
    rw [hc]
    by_cases h : a.length < 64 ∧ d < 16
    · rw [dif_pos h]
      simp only [h.1, h.2, decide_true, Bool.and_self, if_true, hp]
      have := append_val (a := [⟨d, h.2⟩]) (b := a) (by simp; omega)
      rw [val_single, Nat.mul_comm] at this
      rw [Nat.or_comm, this]
      simp [rep]
    · rw [dif_neg h, if_neg]
      simpa using h
  · unfold pushBack appendOk
    rw [hc]
    by_cases h : a.length < 64 ∧ d < 16
    · rw [dif_pos h]
      simp only [h.1, h.2, decide_true, Bool.and_self, if_true, hp]
      have := pushBack_val (k := a) (by omega) ⟨d, h.2⟩
      simp only at this
      simp [this, rep]
    · rw [dif_neg h, if_neg]
      simpa using h
  · unfold mergeNibble appendOk
    rw [hc]
    by_cases h : a.length < 64 ∧ d < 16
    · rw [dif_pos h]
      simp only [h.1, h.2, decide_true, Bool.and_self, if_true, hp]
      have := pushBack_val (k := a) (by omega) ⟨d, h.2⟩
      simp only at this
      simp [this, rep]
    · rw [dif_neg h, if_neg]
      simpa using h
  · unfold pushNibblesFront
    rw [hc, hc, hp, hp]
    by_cases h : a.length + b.length ≤ 64
    · rw [if_pos h, if_pos h]
      have := append_val (a := b) (b := a) (by omega)
      rw [Nat.mul_comm] at this
      rw [Nat.or_comm, this]
      simp [rep, Nat.add_comm]
    · rw [if_neg h, if_neg h]
  · unfold pushNibblesBack
    rw [hc, hc, hp, hp]
    by_cases h : a.length + b.length ≤ 64
    · rw [if_pos h, if_pos h, Nat.mul_comm, append_val (by omega)]
      simp [rep]
    · rw [if_neg h, if_neg h]
  · unfold mergeNibbles
    rw [hc, hc, hp, hp]
    by_cases h : a.length + b.length ≤ 64
    · rw [if_pos h, if_pos h, append_val (by omega)]
      simp [rep]
    · rw [if_neg h, if_neg h]

/-- **C11**, splitting and reversing. -/
theorem C11_split (k : Key) (hk : k.length ≤ 79) (i : Nat) :
    splitAt (rep k) i = (if i ≤ k.length then some (rep (k.take i), rep (k.drop i)) else none) ∧
    splitPrefix (rep k) i = (if i ≤ k.length then some (rep (k.take i)) else none) ∧
    splitPostfix (rep k) i = (if i ≤ k.length then some (rep (k.drop i)) else none) ∧
    reverse (rep k) = rep k.reverse :=
  ⟨splitAt_rep hk i, splitPrefix_rep hk i, splitPostfix_rep hk i, reverse_rep hk⟩

/-- **C11**, comparing: equality up to the shorter length, and the index of the first difference
(`common prefix length`). -/
theorem C11_compare (a b : Key) (ha : a.length ≤ 79) (hb : b.length ≤ 79) :
    (ident (rep a) (rep b) = true ↔ a <+: b ∨ b <+: a) ∧
    ∃ i, diffIdx (rep a) (rep b) = some i ∧ a.take i = b.take i ∧ i ≤ a.length ∧ i ≤ b.length ∧
      (i < a.length → i < b.length → a[i]? ≠ b[i]?) := by
  refine ⟨by rw [ident_rep]; exact Mpt.ident_iff a b, Mpt.diffIdx a b, diffIdx_rep ha hb, ?_⟩
  clear ha hb
  induction a generalizing b with
  | nil => simp [Mpt.diffIdx]
  | cons x a ih =>
    cases b with
    | nil => simp [Mpt.diffIdx]
    | cons y b =>
      by_cases h : x = y
      · subst h
        obtain ⟨h1, h2, h3, h4⟩ := ih b
        simp only [Mpt.diffIdx, if_true, List.take_succ_cons, h1, List.length_cons,
          List.getElem?_cons_succ, true_and]
        exact ⟨by omega, by omega, fun a b => h4 (by omega) (by omega)⟩
      · simp [Mpt.diffIdx, h]

example : ([1, 2, 0xf, 0] : Key).length ≤ 79 ∧ rep [1, 2, 0xf, 0] = ⟨4, 0x12f0⟩ := by decide
example : (truncFront (rep [1, 2, 0xf, 0]) 2) = ⟨2, 0xf0⟩ := by decide +kernel

/-! ### C12 -/

/-- **C12**. The packed hex-prefix encoder computes the Ethereum encoding, is injective on
(path, is_leaf) pairs, and decoding returns an extension path exactly and a leaf path followed by the
terminator byte `0x10`. -/
theorem C12_hex_prefix (k : Key) (hk : k.length ≤ 64) (l : Bool) :
    ∃ bs, toHexPrefix (rep k) l = some bs ∧ bs = Mpt.hexPrefix k l ∧
      fromHexPrefix bs = .ok (rep (k ++ if l then [1, 0] else [])) :=
  ⟨_, toHexPrefix_rep (by omega) l, rfl, fromHexPrefix_hexPrefix hk l⟩

theorem C12_injective (k k' : Key) (hk : k.length ≤ 64) (hk' : k'.length ≤ 64) (l l' : Bool)
    (h : toHexPrefix (rep k) l = toHexPrefix (rep k') l') : k = k' ∧ l = l' := by
  rw [toHexPrefix_rep (by omega), toHexPrefix_rep (by omega)] at h
  simp only [Option.some.injEq] at h
  exact Mpt.hexPrefix_inj h

example : toHexPrefix (rep [1, 2, 3]) true = some [0x31, 0x23] := by decide +kernel
example : (fromHexPrefix [0x31, 0x23]).toOption = some (rep [1, 2, 3, 1, 0]) := by decide +kernel

/-! ### C50 -/

theorem beVal_lt (bs : Bytes) : Rlp.beVal bs < 256 ^ bs.length := by
  induction bs with
  | nil => simp [Rlp.beVal]
  | cons b bs ih =>
    rw [beVal_cons, List.length_cons, Nat.pow_succ]
    have hb := b.toNat_lt
    have : b.toNat * 256 ^ bs.length ≤ 255 * 256 ^ bs.length := Nat.mul_le_mul_right _ (by omega)
    omega

theorem toBE_beVal (bs : Bytes) : toBE bs.length (Rlp.beVal bs) = bs := by
  induction bs with
  | nil => rfl
  | cons b bs ih =>
    have hpos : 0 < 256 ^ bs.length := Nat.pow_pos (by omega)
    rw [List.length_cons, toBE_cons, ← toBE_mod, beVal_cons, Nat.mul_comm, Nat.mul_add_div hpos,
      Nat.mul_add_mod, toBE_mod, ih, Nat.div_eq_of_lt (beVal_lt bs)]
    have hb := b.toNat_lt
    simp only [Nat.add_zero, List.cons.injEq, and_true]
    rw [Nat.mod_eq_of_lt (by omega)]
    simp

/-- **C50**, bytes: creating a key from 1 to 33 bytes succeeds (and fails otherwise), and reading the
bytes back gives the same bytes; the key has two nibbles per byte. -/
theorem C50_bytes (bs : Bytes) :
    (1 ≤ bs.length ∧ bs.length ≤ 33 →
      ∃ k, fromBytesBe bs = some k ∧ k.count = 2 * bs.length ∧ bytesBe k = some bs) ∧
    (¬ (1 ≤ bs.length ∧ bs.length ≤ 33) → fromBytesBe bs = none) := by
  constructor
  · rintro ⟨h1, h2⟩
    have hne : bs.isEmpty = false := by cases bs <;> simp_all
    refine ⟨⟨bs.length * 2, fromBE bs⟩, ?_, Nat.mul_comm _ _, ?_⟩
    · unfold fromBytesBe
      rw [hne, if_neg (by simp), if_neg (by omega)]
    · unfold bytesBe minBytes
      simp only
      rw [if_pos (by omega), toBE_drop (by omega), show (bs.length * 2 + 1) / 2 = bs.length by omega,
        fromBE, toBE_beVal]
  · intro h
    unfold fromBytesBe
    by_cases h0 : bs.isEmpty = true
    · rw [if_pos h0]
    · rw [if_neg h0, if_pos]
      have : bs.length ≠ 0 := fun h => h0 (by simpa using h)
      omega

/-- **C50**, hashes: a key made from a 256-bit hash has 64 nibbles and converts back to the hash. -/
theorem C50_h256 (h : Mpt.H256) :
    (fromH256Be h).count = 64 ∧ toH256 (fromH256Be h) = some h.bytes := by
  refine ⟨rfl, ?_⟩
  have hb : bytesBe (fromH256Be h) = some h.bytes := by
    unfold bytesBe minBytes fromH256Be
    simp only
    rw [if_pos (by omega), toBE_drop (by omega), fromBE]
    have := toBE_beVal h.bytes
    rw [h.len] at this
    rw [this]
  unfold toH256
  rw [hb]
  simp [h.len]

/-- **C50**, integers: the key of an integer has no leading zero nibble, its digits are the integer in
base 16, and it converts back to the integer; the padded version has even length. -/
theorem C50_integers (x : Nat) (hx : x < 2 ^ 256) :
    (∃ k : Key, ofNat x = rep k ∧ k.head? ≠ some 0 ∧ val k = x ∧ k.length ≤ 64 ∧
      ofNatPadded x = rep (if k.length % 2 = 0 then k else 0 :: k)) ∧
    toU256 (ofNat x) = some x ∧ toU256 (ofNatPadded x) = some x := by
  obtain ⟨k, h1, h2, h3⟩ := ofNat_spec x
  have hlen : k.length ≤ 64 := by
    cases k with
    | nil => simp
    | cons d k =>
      have hd : d ≠ 0 := by simpa using h3
      have hn := numNibbles_val (k := k) hd
      rw [h2] at hn
      unfold numNibbles bits at hn
      by_cases h0 : x = 0
      · rw [if_pos h0] at hn; omega
      · rw [if_neg h0] at hn
        have := (Nat.log2_lt h0).2 hx
        simp only [List.length_cons]
        omega
  refine ⟨⟨k, h1, h3, h2, hlen, ?_⟩, ?_, ?_⟩
  · unfold ofNatPadded
    rw [h1]
    show (⟨(k.length + 1) / 2 * 2, val k⟩ : Nibbles) = _
    split
    · unfold rep; congr 1; omega
    · unfold rep; rw [val_zero_cons, List.length_cons]; congr 1; omega
  · unfold toU256 ofNat
    simp only
    rw [Nat.div_eq_of_lt hx, Nat.mod_eq_of_lt hx]
    simp
  · unfold toU256 ofNatPadded ofNat
    simp only
    rw [Nat.div_eq_of_lt hx, Nat.mod_eq_of_lt hx]
    simp

/-- **C50**, text: printing a key (`0x` and one hex digit per nibble, leading zeros kept) and parsing
it gives the key. -/
theorem C50_text (k : Key) (hk : k.length ≤ 80) :
    toHexStr (rep k) = some ('0' :: 'x' :: k.map (fun d => hexDigit d.val)) ∧
    (toHexStr (rep k)).bind fromStr = some (rep k) := by
  rw [toHexStr_rep hk]
  exact ⟨rfl, fromStr_toHexStr hk⟩

example : (toHexStr (rep [0, 1, 0xa])) = some ['0', 'x', '0', '1', 'a'] := by decide +kernel

end Verif.Nibbles
