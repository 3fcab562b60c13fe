import Verif.Smt.Props
/-!
# Keys of accounts in the sparse Merkle tree (`smt_trie/src/keys.rs`) (C59)
-/
namespace Verif.Smt.Keys

/-! ## Model -/

/-- `HASH_ZEROS`. `smt_trie/src/keys.rs:10-15`. -/
def hashZeros : Key := ⟨4330397376401421145, 14124799381142128323, 8742572140681234676, 14345658006221440202⟩

/-- `u32::from_be_bytes(addr.0[16 - 4 * i..16 - 4 * i + 4])`: limb `i` of the address, read as a big-endian number.
`smt_trie/src/keys.rs:25-29`. -/
def limb (addr : BitVec 160) (i : Nat) : Nat := addr.toNat / 2 ^ (32 * i) % 2 ^ 32

/-- The array whose permutation is the key: five limbs of the address, a zero, the kind of entry, a zero, and the
capacity. `smt_trie/src/keys.rs:23-36`. -/
def input (addr : BitVec 160) (tag : Nat) (cap : Key) : Nd :=
  ⟨⟨limb addr 0, limb addr 1, limb addr 2, limb addr 3⟩, ⟨limb addr 4, 0, tag, 0⟩, cap⟩

/-- Low and high half of 64-bit limb `i` of the slot: `limbs as u32`, `(limbs >> 32) as u32`.
`smt_trie/src/keys.rs:76-80`. -/
def slotLimb (slot : BitVec 256) (i : Nat) : Nat × Nat :=
  let limbs := slot.toNat / 2 ^ (64 * i) % 2 ^ 64
  (limbs % 2 ^ 32, (limbs >>> 32) % 2 ^ 32)

/-- The array hashed to the capacity of a storage key. `smt_trie/src/keys.rs:74-82`. -/
def slotInput (slot : BitVec 256) : Nd :=
  ⟨⟨(slotLimb slot 0).1, (slotLimb slot 0).2, (slotLimb slot 1).1, (slotLimb slot 1).2⟩,
    ⟨(slotLimb slot 2).1, (slotLimb slot 2).2, (slotLimb slot 3).1, (slotLimb slot 3).2⟩, .zero⟩

/-- `key_balance`. `smt_trie/src/keys.rs:23-35`. -/
def keyBalance (H : Nd → Key) (addr : BitVec 160) : Key := H (input addr 0 hashZeros)
/-- `key_nonce`. `smt_trie/src/keys.rs:37-49`. -/
def keyNonce (H : Nd → Key) (addr : BitVec 160) : Key := H (input addr 1 hashZeros)
/-- `key_code`. `smt_trie/src/keys.rs:51-63`. -/
def keyCode (H : Nd → Key) (addr : BitVec 160) : Key := H (input addr 2 hashZeros)
/-- `key_storage`. `smt_trie/src/keys.rs:65-86`. -/
def keyStorage (H : Nd → Key) (addr : BitVec 160) (slot : BitVec 256) : Key := H (input addr 3 (H (slotInput slot)))
/-- `key_code_length`. `smt_trie/src/keys.rs:88-100`. -/
def keyCodeLength (H : Nd → Key) (addr : BitVec 160) : Key := H (input addr 4 hashZeros)

/-! ## Specification -/

/-- What a leaf of the state tree stores. -/
inductive Field where
  | balance (a : BitVec 160)
  | nonce (a : BitVec 160)
  | code (a : BitVec 160)
  | storage (a : BitVec 160) (slot : BitVec 256)
  | codeLength (a : BitVec 160)
deriving DecidableEq

/-- The key of a field. -/
def key (H : Nd → Key) : Field → Key
  | .balance a => keyBalance H a
  | .nonce a => keyNonce H a
  | .code a => keyCode H a
  | .storage a s => keyStorage H a s
  | .codeLength a => keyCodeLength H a

/-- The arrays permuted while computing the key of a field, with their outputs: by definition of the functions
above, one for each field and one more for storage. -/
def hashed (H : Nd → Key) : Field → Db
  | .balance a => [(H (input a 0 hashZeros), input a 0 hashZeros)]
  | .nonce a => [(H (input a 1 hashZeros), input a 1 hashZeros)]
  | .code a => [(H (input a 2 hashZeros), input a 2 hashZeros)]
  | .storage a s => [(H (slotInput s), slotInput s), (H (input a 3 (H (slotInput s))), input a 3 (H (slotInput s)))]
  | .codeLength a => [(H (input a 4 hashZeros), input a 4 hashZeros)]

/-! ## Proofs -/

theorem input_inj {a b : BitVec 160} {s t : Nat} {c d : Key} (h : input a s c = input b t d) : a = b ∧ s = t ∧ c = d := by
  unfold input at h
  simp only [Nd.mk.injEq, Key.mk.injEq, limb, and_true, true_and] at h
  obtain ⟨⟨h0, h1, h2, h3⟩, ⟨h4, ht⟩, hc⟩ := h
  refine ⟨?_, ht, hc⟩
  have ha := a.isLt; have hb := b.isLt
  apply BitVec.eq_of_toNat_eq
  omega

theorem slotInput_inj {s t : BitVec 256} (h : slotInput s = slotInput t) : s = t := by
  unfold slotInput slotLimb at h
  simp only [Nd.mk.injEq, Key.mk.injEq, and_true, Nat.shiftRight_eq_div_pow] at h
  obtain ⟨⟨h0, h1, h2, h3⟩, h4, h5, h6, h7⟩ := h
  have ha := s.isLt; have hb := t.isLt
  apply BitVec.eq_of_toNat_eq
  omega

/-- All limbs are 32-bit words: `from_canonical_u32` is faithful. -/
theorem limbs_canonical (a : BitVec 160) (s : BitVec 256) (i : Nat) :
    limb a i < 2 ^ 32 ∧ (slotLimb s i).1 < 2 ^ 32 ∧ (slotLimb s i).2 < 2 ^ 32 :=
  ⟨Nat.mod_lt _ (by omega), Nat.mod_lt _ (by omega), Nat.mod_lt _ (by omega)⟩

/-- **C59**. Different fields (kind of entry, address, slot) have different keys, unless the permutation collides
on the arrays met while computing these two keys. -/
theorem C59_keys_distinct (H : Nd → Key) (f g : Field) (hc : NoColl (hashed H f ++ hashed H g)) (h : key H f = key H g) : f = g := by
  have step : ∀ {a b : BitVec 160} {s t : Nat} {c d : Key}, (H (input a s c), input a s c) ∈ hashed H f →
      (H (input b t d), input b t d) ∈ hashed H g → H (input a s c) = H (input b t d) → a = b ∧ s = t ∧ c = d := by
    intro a b s t c d h1 h2 e
    exact input_inj (hc.inj (List.mem_append_left _ h1) (List.mem_append_right _ (by rw [e]; exact h2)))
  have m1 : ∀ x : Key × Nd, x ∈ [x] := fun x => List.mem_cons_self
  have m2 : ∀ x y : Key × Nd, x ∈ [y, x] := fun x y => List.mem_cons_of_mem _ List.mem_cons_self
  cases f <;> cases g <;>
    first
    | (have e := step (m1 _) (m1 _) h; exact absurd e.2.1 (by decide))
    | (have e := step (m1 _) (m1 _) h; rw [e.1])
    | (have e := step (m1 _) (m2 _ _) h; exact absurd e.2.1 (by decide))
    | (have e := step (m2 _ _) (m1 _) h; exact absurd e.2.1 (by decide))
    | skip
  case storage.storage a s b t =>
    have e := step (m2 _ _) (m2 _ _) h
    have es : slotInput s = slotInput t := hc.inj (List.mem_append_left _ List.mem_cons_self)
      (List.mem_append_right _ (by rw [e.2.2]; exact List.mem_cons_self))
    rw [e.1, slotInput_inj es]

/-- The arrays are the numbers in 32-bit words, least significant word first: the words make up the address and the
slot again. -/
theorem C59_layout (a : BitVec 160) (tag : Nat) (cap : Key) (s : BitVec 256) :
    (∃ x0 x1 x2 x3 x4, input a tag cap = ⟨⟨x0, x1, x2, x3⟩, ⟨x4, 0, tag, 0⟩, cap⟩ ∧
      (∀ x, x ∈ [x0, x1, x2, x3, x4] → x < 2 ^ 32) ∧
      a.toNat = x0 + 2 ^ 32 * x1 + 2 ^ 64 * x2 + 2 ^ 96 * x3 + 2 ^ 128 * x4) ∧
    (∃ y0 y1 y2 y3 y4 y5 y6 y7, slotInput s = ⟨⟨y0, y1, y2, y3⟩, ⟨y4, y5, y6, y7⟩, .zero⟩ ∧
      (∀ y, y ∈ [y0, y1, y2, y3, y4, y5, y6, y7] → y < 2 ^ 32) ∧
      s.toNat = y0 + 2 ^ 32 * y1 + 2 ^ 64 * y2 + 2 ^ 96 * y3 + 2 ^ 128 * y4 + 2 ^ 160 * y5 + 2 ^ 192 * y6 + 2 ^ 224 * y7) := by
  have hl := fun i => (limbs_canonical a s i).1
  have h1 := fun i => (limbs_canonical a s i).2.1
  have h2 := fun i => (limbs_canonical a s i).2.2
  have ha := a.isLt; have hs := s.isLt
  constructor
  · refine ⟨_, _, _, _, _, rfl, ?_, ?_⟩
    · simp only [List.mem_cons, List.not_mem_nil, or_false]
      rintro x (rfl | rfl | rfl | rfl | rfl) <;> exact hl _
    · simp only [limb]; omega
  · refine ⟨_, _, _, _, _, _, _, _, rfl, ?_, ?_⟩
    · simp only [List.mem_cons, List.not_mem_nil, or_false]
      rintro x (rfl | rfl | rfl | rfl | rfl | rfl | rfl | rfl) <;> first | exact h1 _ | exact h2 _
    · simp only [slotLimb, Nat.shiftRight_eq_div_pow]; omega

/-- Non-vacuity: no collisions on the arrays of two storage keys of one address, and different keys. -/
example : NoColl (hashed toyH (.storage 5 1) ++ hashed toyH (.storage 5 (BitVec.ofNat 256 (2 ^ 255)))) ∧
    key toyH (.storage 5 1) ≠ key toyH (.storage 5 (BitVec.ofNat 256 (2 ^ 255))) ∧
    NoColl (hashed toyH (.balance 7) ++ hashed toyH (.nonce 7)) :=
  ⟨noCollB_sound (by decide +kernel), by decide +kernel, noCollB_sound (by decide +kernel)⟩

end Verif.Smt.Keys
