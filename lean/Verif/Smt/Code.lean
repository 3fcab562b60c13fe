import Verif.Smt.Props
/-!
# Hashing of contract byte code (`smt_trie/src/code.rs`) (C21)
-/
namespace Verif.Smt.Code

/-! ## Model -/

/-- `while bytes.len() % 56 != 0 { bytes.push(0x00); }`. `smt_trie/src/code.rs:40-42`. -/
def padLoop (bytes : List UInt8) : List UInt8 :=
  if h : bytes.length % 56 = 0 then bytes else padLoop (bytes ++ [0])
termination_by (56 - bytes.length % 56) % 56
decreasing_by simp only [List.length_append, List.length_singleton]; omega

/-- `*bytes.last_mut().unwrap() |= 0x80`. `smt_trie/src/code.rs:43`. The vector is not empty here. -/
def orLast (bytes : List UInt8) : List UInt8 :=
  match bytes.getLast? with
  | none => []
  | some x => bytes.dropLast ++ [x ||| 0x80]

/-- `poseidon_pad_byte_vec`. `smt_trie/src/code.rs:38-44`. -/
def pad (bytes : List UInt8) : List UInt8 := orLast (padLoop (bytes ++ [1]))

/-- `u64::from_le_bytes`. -/
def leBytes : List UInt8 → Nat
  | [] => 0
  | x :: l => x.toNat + 256 * leBytes l

/-- The 8 field elements of a block of 56 bytes: element `i` is bytes `7i .. 7i+7`, little endian.
`smt_trie/src/code.rs:20-28`. -/
def element (block : List UInt8) (i : Nat) : Nat := leBytes ((block.drop (7 * i)).take 7)

/-- The state before a permutation: rate then capacity. `smt_trie/src/code.rs:19-29`. -/
def state (block : List UInt8) (cap : Key) : Nd :=
  ⟨⟨element block 0, element block 1, element block 2, element block 3⟩,
    ⟨element block 4, element block 5, element block 6, element block 7⟩, cap⟩

/-- The loop of `poseidon_hash_padded_byte_vec`: every state that is permuted and the final capacity.
`chunks_exact(56)` drops an incomplete last chunk. `smt_trie/src/code.rs:16-36`. -/
def absorb (H : Nd → Key) (bytes : List UInt8) (cap : Key) : List (Key × Nd) × Key :=
  if h : bytes.length < 56 then ([], cap)
  else
    let n := state (bytes.take 56) cap
    let (rest, out) := absorb H (bytes.drop 56) (H n)
    ((H n, n) :: rest, out)
termination_by bytes.length
decreasing_by rw [List.length_drop]; omega

/-- `hash_contract_bytecode`. `smt_trie/src/code.rs:10-14`. -/
def hashCode (H : Nd → Key) (code : List UInt8) : Key := (absorb H (pad code) .zero).2

/-- The states permuted by `hash_contract_bytecode`, with their outputs. -/
def hashed (H : Nd → Key) (code : List UInt8) : List (Key × Nd) := (absorb H (pad code) .zero).1

/-! ## Padding -/

theorem padLoop_eq (b : List UInt8) : ∃ k, padLoop b = b ++ List.replicate k 0 ∧ (padLoop b).length % 56 = 0 ∧ k < 56 := by
  have : ∀ n (b : List UInt8), (56 - b.length % 56) % 56 = n →
      padLoop b = b ++ List.replicate n 0 ∧ (padLoop b).length % 56 = 0 := by
    intro n
    induction n with
    | zero =>
      intro b h
      rw [padLoop, dif_pos (by omega)]
      exact ⟨by simp, by omega⟩
    | succ n ih =>
      intro b h
      rw [padLoop, dif_neg (by omega)]
      have := ih (b ++ [0]) (by simp only [List.length_append, List.length_singleton]; omega)
      refine ⟨?_, this.2⟩
      rw [this.1, List.replicate_succ]
      simp
  have h := this _ b rfl
  exact ⟨_, h.1, h.2, by omega⟩

theorem pad_cases (a : List UInt8) : (pad a = a ++ [0x81] ∨ ∃ k, pad a = a ++ 1 :: (List.replicate k 0 ++ [0x80])) ∧
    (pad a).length % 56 = 0 ∧ a.length < (pad a).length ∧ (pad a).length ≤ a.length + 56 := by
  obtain ⟨k, h1, h2, h3⟩ := padLoop_eq (a ++ [1])
  unfold pad
  rw [h1] at h2 ⊢
  simp only [List.length_append, List.length_singleton, List.length_replicate] at h2
  have key : orLast (a ++ [1] ++ List.replicate k 0) =
      if k = 0 then a ++ [0x81] else a ++ 1 :: (List.replicate (k - 1) 0 ++ [0x80]) := by
    cases k with
    | zero =>
      have : (1 : UInt8) ||| 0x80 = 0x81 := by decide
      simp [orLast, this]
    | succ k =>
      rw [if_neg (by omega), List.replicate_succ', ← List.append_assoc]
      unfold orLast
      rw [List.getLast?_concat, List.dropLast_concat]
      simp
  rw [key]
  by_cases hk : k = 0
  · rw [if_pos hk]
    refine ⟨.inl rfl, ?_, ?_, ?_⟩ <;> simp only [List.length_append, List.length_singleton] <;> omega
  · rw [if_neg hk]
    refine ⟨.inr ⟨_, rfl⟩, ?_, ?_, ?_⟩ <;>
      simp only [List.length_append, List.length_nil, List.length_cons, List.length_replicate] <;> omega

theorem zeros_inj {a b : List UInt8} {j k : Nat} (h : List.replicate j 0 ++ 1 :: a = List.replicate k 0 ++ 1 :: b) : a = b := by
  induction j generalizing k with
  | zero =>
    cases k with
    | zero => simpa using h
    | succ k => rw [List.replicate_succ] at h; simp at h
  | succ j ih =>
    cases k with
    | zero => rw [List.replicate_succ] at h; simp at h
    | succ k =>
      rw [List.replicate_succ, List.replicate_succ, List.cons_append, List.cons_append, List.cons_eq_cons] at h
      exact ih h.2

/-- **C21**. The padded string is never empty, its length is a multiple of 56 (the next one), and padding is
injective. -/
theorem C21_padding : (∀ a, 0 < (pad a).length ∧ (pad a).length % 56 = 0 ∧ a.length < (pad a).length ∧
      (pad a).length ≤ a.length + 56) ∧ ∀ a b, pad a = pad b → a = b := by
  constructor
  · intro a
    have h := pad_cases a
    exact ⟨by omega, h.2.1, h.2.2⟩
  · intro a b h
    rcases (pad_cases a).1 with ha | ⟨j, ha⟩ <;> rcases (pad_cases b).1 with hb | ⟨k, hb⟩ <;> rw [ha, hb] at h
    · exact (List.append_inj' h rfl).1
    · rw [← List.cons_append, ← List.append_assoc] at h
      have := (List.append_inj' h rfl).2
      simp at this
    · rw [← List.cons_append, ← List.append_assoc] at h
      have := (List.append_inj' h rfl).2
      simp at this
    · rw [← List.cons_append, ← List.append_assoc, ← List.cons_append, ← List.append_assoc] at h
      have h := congrArg List.reverse (List.append_inj' h rfl).1
      simp only [List.reverse_append, List.reverse_cons, List.reverse_replicate, List.append_assoc, List.singleton_append] at h
      exact List.reverse_inj.1 (zeros_inj h)

/-! ## The hash -/

theorem leBytes_inj {a b : List UInt8} (hl : a.length = b.length) (h : leBytes a = leBytes b) : a = b := by
  induction a generalizing b with
  | nil => exact (List.length_eq_zero_iff.1 hl.symm).symm
  | cons x a ih =>
    cases b with
    | nil => simp at hl
    | cons y b =>
      rw [leBytes, leBytes] at h
      have hx := x.toNat_lt; have hy := y.toNat_lt
      have h1 : x.toNat = y.toNat := by omega
      rw [UInt8.toNat_inj.1 h1, ih (by simpa using hl) (by omega)]

theorem leBytes_lt (a : List UInt8) : leBytes a < 256 ^ a.length := by
  induction a with
  | nil => simp [leBytes]
  | cons x a ih =>
    rw [leBytes, List.length_cons, Nat.pow_succ]
    have := x.toNat_lt
    omega

/-- Every element of a block is below `2^56`, hence canonical: `from_canonical_u64` does not fail. -/
theorem element_lt (block : List UInt8) (i : Nat) : element block i < 2 ^ 56 := by
  have h := leBytes_lt ((block.drop (7 * i)).take 7)
  have : 256 ^ ((block.drop (7 * i)).take 7).length ≤ 256 ^ 7 :=
    Nat.pow_le_pow_right (by omega) (by rw [List.length_take]; omega)
  unfold element
  omega

theorem block_inj {a b : List UInt8} (ha : a.length = 56) (hb : b.length = 56)
    (h : ∀ i, i < 8 → element a i = element b i) : a = b := by
  have step : ∀ i, i ≤ 8 → a.take (7 * i) = b.take (7 * i) := by
    intro i
    induction i with
    | zero => intro _; simp
    | succ i ih =>
      intro hi
      rw [Nat.mul_add, Nat.mul_one, List.take_add, List.take_add, ih (by omega)]
      congr 1
      exact leBytes_inj (by simp [ha, hb]) (h i (by omega))
  have := step 8 (by omega)
  rwa [List.take_of_length_le (by omega), List.take_of_length_le (by omega)] at this

theorem state_inj {a b : List UInt8} {c d : Key} (ha : a.length = 56) (hb : b.length = 56) (h : state a c = state b d) :
    a = b ∧ c = d := by
  unfold state at h
  simp only [Nd.mk.injEq, Key.mk.injEq] at h
  obtain ⟨⟨h0, h1, h2, h3⟩, ⟨h4, h5, h6, h7⟩, hc⟩ := h
  refine ⟨block_inj ha hb ?_, hc⟩
  intro i hi
  match i, hi with
  | 0, _ => exact h0
  | 1, _ => exact h1
  | 2, _ => exact h2
  | 3, _ => exact h3
  | 4, _ => exact h4
  | 5, _ => exact h5
  | 6, _ => exact h6
  | 7, _ => exact h7

theorem absorb_snoc (H : Nd → Key) {blk : List UInt8} (hb : blk.length = 56) : ∀ (n : Nat) (bytes : List UInt8) (cap : Key),
    bytes.length = 56 * n →
    absorb H (bytes ++ blk) cap = ((absorb H bytes cap).1 ++ [(H (state blk (absorb H bytes cap).2), state blk (absorb H bytes cap).2)],
      H (state blk (absorb H bytes cap).2)) := by
  intro n
  induction n with
  | zero =>
    intro bytes cap hl
    have : bytes = [] := List.length_eq_zero_iff.1 (by omega)
    subst this
    rw [List.nil_append, absorb, dif_neg (by omega), List.take_of_length_le (by omega), List.drop_of_length_le (by omega)]
    simp [absorb]
  | succ n ih =>
    intro bytes cap hl
    rw [absorb, dif_neg (by simp; omega)]
    rw [List.take_append_of_le_length (by omega), List.drop_append_of_le_length (by omega)]
    conv => rhs; rw [absorb, dif_neg (by omega)]
    simp only
    rw [ih (bytes.drop 56) _ (by rw [List.length_drop]; omega)]
    simp

theorem absorb_inj (H : Nd → Key) : ∀ (n m : Nat) (a b : List UInt8), a.length = 56 * n → b.length = 56 * m →
    NoColl ((absorb H a .zero).1 ++ (absorb H b .zero).1) → (absorb H a .zero).2 = (absorb H b .zero).2 → a = b := by
  intro n
  induction n with
  | zero =>
    intro m a b ha hb hc h
    have : a = [] := List.length_eq_zero_iff.1 (by omega)
    subst this
    cases m with
    | zero => exact (List.length_eq_zero_iff.1 (by omega)).symm
    | succ m =>
      exfalso
      have hs : b = b.take (56 * m) ++ b.drop (56 * m) := (List.take_append_drop _ _).symm
      rw [hs, absorb_snoc H (by rw [List.length_drop]; omega) m _ _ (by rw [List.length_take]; omega)] at hc h
      have h0 : (absorb H [] Key.zero).2 = .zero := by simp [absorb]
      rw [h0] at h
      exact hc.ne (List.mem_append_right _ (List.mem_append_right _ List.mem_cons_self)) h.symm
  | succ n ih =>
    intro m a b ha hb hc h
    have hs : a = a.take (56 * n) ++ a.drop (56 * n) := (List.take_append_drop _ _).symm
    have ha1 : (a.take (56 * n)).length = 56 * n := by rw [List.length_take]; omega
    have ha2 : (a.drop (56 * n)).length = 56 := by rw [List.length_drop]; omega
    generalize a.take (56 * n) = a1 at *
    generalize a.drop (56 * n) = a2 at *
    subst hs
    rw [absorb_snoc H ha2 n _ _ ha1] at hc h
    cases m with
    | zero =>
      exfalso
      have : b = [] := List.length_eq_zero_iff.1 (by omega)
      subst this
      have h0 : (absorb H [] Key.zero).2 = .zero := by simp [absorb]
      rw [h0] at h
      exact hc.ne (List.mem_append_left _ (List.mem_append_right _ List.mem_cons_self)) h
    | succ m =>
      have hs : b = b.take (56 * m) ++ b.drop (56 * m) := (List.take_append_drop _ _).symm
      have hb1 : (b.take (56 * m)).length = 56 * m := by rw [List.length_take]; omega
      have hb2 : (b.drop (56 * m)).length = 56 := by rw [List.length_drop]; omega
      generalize b.take (56 * m) = b1 at *
      generalize b.drop (56 * m) = b2 at *
      subst hs
      rw [absorb_snoc H hb2 m _ _ hb1] at hc h
      simp only at h
      have e := hc.inj (k := H (state a2 (absorb H a1 .zero).2)) (n := state a2 (absorb H a1 .zero).2)
        (m := state b2 (absorb H b1 .zero).2) (List.mem_append_left _ (List.mem_append_right _ List.mem_cons_self))
        (List.mem_append_right _ (List.mem_append_right _ (by rw [h]; exact List.mem_cons_self)))
      have e2 := state_inj ha2 hb2 e
      rw [e2.1, ih m a1 b1 ha1 hb1 (hc.mono (by
        intro x hx
        rcases List.mem_append.1 hx with hx | hx
        · exact List.mem_append_left _ (List.mem_append_left _ hx)
        · exact List.mem_append_right _ (List.mem_append_left _ hx))) e2.2]

/-- **C21**. The code hash binds the code: two codes with the same hash are equal, unless the permutation
collides (or gives zero) on the states met while hashing these two codes. -/
theorem C21_hash_binds (H : Nd → Key) (a b : List UInt8) (hc : NoColl (hashed H a ++ hashed H b))
    (h : hashCode H a = hashCode H b) : a = b := by
  have ha := (C21_padding.1 a).2.1
  have hb := (C21_padding.1 b).2.1
  exact C21_padding.2 a b (absorb_inj H ((pad a).length / 56) ((pad b).length / 56) _ _ (by omega) (by omega) hc h)

/-- Non-vacuity: codes of 0, 55 and 56 bytes need one, one and two blocks; a hash without collisions on them. -/
example : (pad []).length = 56 ∧ (pad (List.replicate 55 7)).length = 56 ∧ (pad (List.replicate 56 7)).length = 112 ∧
    (hashed (fun n => ⟨n.l.k0 + 1, n.r.k3, n.c.k0, n.c.k1⟩) (List.replicate 56 7)).length = 2 := by
  have h1 := C21_padding.1 []
  have h2 := C21_padding.1 (List.replicate 55 7)
  have h3 := C21_padding.1 (List.replicate 56 7)
  simp only [List.length_replicate, List.length_nil] at h1 h2 h3
  have l3 : (pad (List.replicate 56 7)).length = 112 := by omega
  refine ⟨by omega, by omega, l3, ?_⟩
  unfold hashed
  rw [absorb, dif_neg (by omega)]
  simp only [List.length_cons]
  rw [absorb, dif_neg (by rw [List.length_drop]; omega)]
  simp only [List.length_cons]
  rw [absorb, dif_pos (by rw [List.length_drop, List.length_drop]; omega)]
  rfl

/-- The hypotheses of `C21_hash_binds` are met by two different codes, of one and of two blocks. -/
example : NoColl (hashed toyH [1, 2, 3] ++ hashed toyH (List.replicate 56 7)) ∧
    hashCode toyH [1, 2, 3] ≠ hashCode toyH (List.replicate 56 7) :=
  ⟨noCollB_sound (by decide +kernel), by decide +kernel⟩

end Verif.Smt.Code
