/-!
# Keys of the sparse Merkle tree (`smt_trie/src/smt.rs`)

Field elements are their canonical representatives, natural numbers below the Goldilocks prime; the
theorems only need them to be below `2^64`.  Shifts of `u64` by 64 or more panic in a build with
overflow checks and use the amount modulo 64 in a release build; the model is the release build, and
`shift_in_range` says when the two agree.
-/
namespace Verif.Smt

/-- `Key([F; 4])`. `smt_trie/src/smt.rs:23-24`. -/
structure Key where
  k0 : Nat
  k1 : Nat
  k2 : Nat
  k3 : Nat
deriving DecidableEq, Repr, Inhabited

/-- `key.0[j]`. -/
def Key.get (k : Key) (j : Nat) : Nat :=
  match j with
  | 0 => k.k0
  | 1 => k.k1
  | 2 => k.k2
  | _ => k.k3

/-- `std::array::from_fn`. -/
def Key.ofFn (f : Nat → Nat) : Key := ⟨f 0, f 1, f 2, f 3⟩

/-- Assignment to component `j`. -/
def Key.upd (k : Key) (j : Nat) (f : Nat → Nat) : Key :=
  .ofFn (fun i => if i = j then f (k.get i) else k.get i)

/-- All components are machine words. -/
def Key.Valid (k : Key) : Prop := k.k0 < 2 ^ 64 ∧ k.k1 < 2 ^ 64 ∧ k.k2 < 2 ^ 64 ∧ k.k3 < 2 ^ 64

/-- The zero key. -/
def Key.zero : Key := ⟨0, 0, 0, 0⟩

/-- `u64 << n`, release build. -/
def shl64 (x n : Nat) : Nat := (x <<< (n % 64)) % 2 ^ 64

/-- `u64 >> n`, release build. -/
def shr64 (x n : Nat) : Nat := x >>> (n % 64)

/-- The loop of `split`: one round pushes the low bit of each component and shifts it out. -/
def splitLoop : Nat → Key → List Bool
  | 0, _ => []
  | n + 1, k =>
    decide (k.k0 % 2 = 1) :: decide (k.k1 % 2 = 1) :: decide (k.k2 % 2 = 1) :: decide (k.k3 % 2 = 1) ::
      splitLoop n ⟨k.k0 / 2, k.k1 / 2, k.k2 / 2, k.k3 / 2⟩

/-- `Key::split`. `smt_trie/src/smt.rs:31-41`. Bit strings are lists (see `Bits` for the packed
representation). -/
def Key.split (k : Key) : List Bool := splitLoop 64 k

/-- The loop of `join`: index, counters, accumulators. -/
def joinLoop : List Bool → Nat → Key → Key → Key × Key
  | [], _, n, accs => (n, accs)
  | b :: bs, i, n, accs =>
    let accs := if b then accs.upd (i % 4) (fun x => x ||| shl64 1 (n.get (i % 4))) else accs
    joinLoop bs (i + 1) (n.upd (i % 4) (· + 1)) accs

/-- `Key::join`. `smt_trie/src/smt.rs:43-56`. -/
def Key.join (bits : List Bool) (rem : Key) : Key :=
  let (n, accs) := joinLoop bits 0 .zero .zero
  .ofFn (fun i => shl64 (rem.get i) (n.get i) ||| accs.get i)

/-- Number of bits taken from component `i` (the `n` of the loop). -/
def cnt (nbits i : Nat) : Nat := nbits / 4 + if nbits / 4 * 4 + i < nbits then 1 else 0

/-- `Key::remove_key_bits`. `smt_trie/src/smt.rs:58-69`. -/
def Key.removeBits (k : Key) (nbits : Nat) : Key := .ofFn (fun i => shr64 (k.get i) (cnt nbits i))

/-! ## Specification -/

/-- Bit `i` of the path of a key: the components are read round robin, least significant bits first. -/
def kbit (k : Key) (i : Nat) : Bool := (k.get (i % 4)).testBit (i / 4)

/-! ## Proofs -/

theorem Key.get_ofFn (f : Nat → Nat) {j : Nat} (h : j < 4) : (Key.ofFn f).get j = f j := by
  match j, h with
  | 0, _ => rfl
  | 1, _ => rfl
  | 2, _ => rfl
  | 3, _ => rfl

theorem Key.ext' {a b : Key} (h : ∀ j, j < 4 → a.get j = b.get j) : a = b := by
  cases a; cases b
  have h0 := h 0 (by omega); have h1 := h 1 (by omega)
  have h2 := h 2 (by omega); have h3 := h 3 (by omega)
  simp only [Key.get] at h0 h1 h2 h3
  simp [h0, h1, h2, h3]

theorem Key.Valid.get {k : Key} (h : k.Valid) (j : Nat) : k.get j < 2 ^ 64 := by
  unfold Key.get
  split
  · exact h.1
  · exact h.2.1
  · exact h.2.2.1
  · exact h.2.2.2

theorem splitLoop_eq (n : Nat) (k : Key) :
    splitLoop n k = (List.range (4 * n)).map (kbit k) := by
  induction n generalizing k with
  | zero => rfl
  | succ n ih =>
    rw [splitLoop, ih]
    have e : 4 * (n + 1) = 4 * n + 1 + 1 + 1 + 1 := by omega
    rw [e, List.range_succ_eq_map, List.range_succ_eq_map, List.range_succ_eq_map,
      List.range_succ_eq_map]
    simp only [List.map_cons, List.map_map]
    refine List.cons_eq_cons.2 ⟨?_, List.cons_eq_cons.2 ⟨?_, List.cons_eq_cons.2 ⟨?_,
      List.cons_eq_cons.2 ⟨?_, ?_⟩⟩⟩⟩
    · simp [kbit, Key.get, Nat.testBit_zero]
    · simp [kbit, Key.get, Nat.testBit_zero]
    · simp [kbit, Key.get, Nat.testBit_zero]
    · simp [kbit, Key.get, Nat.testBit_zero]
    · refine List.map_congr_left (fun i _ => ?_)
      simp only [Function.comp_def, kbit]
      have h1 : (i + 1 + 1 + 1 + 1) % 4 = i % 4 := by omega
      have h2 : (i + 1 + 1 + 1 + 1) / 4 = i / 4 + 1 := by omega
      simp only [Nat.succ_eq_add_one, h1, h2]
      have h3 : i % 4 < 4 := Nat.mod_lt _ (by omega)
      generalize i % 4 = j at h3
      match j, h3 with
      | 0, _ => simp [Key.get, Nat.testBit_succ]
      | 1, _ => simp [Key.get, Nat.testBit_succ]
      | 2, _ => simp [Key.get, Nat.testBit_succ]
      | 3, _ => simp [Key.get, Nat.testBit_succ]

theorem split_eq (k : Key) : k.split = (List.range 256).map (kbit k) := splitLoop_eq 64 k

theorem split_length (k : Key) : k.split.length = 256 := by rw [split_eq]; simp

theorem split_get (k : Key) {i : Nat} (h : i < 256) : k.split[i]'(by rw [split_length]; exact h) = kbit k i := by
  simp [split_eq]

theorem split_getElem? (k : Key) {i : Nat} (h : i < 256) : k.split[i]? = some (kbit k i) := by
  rw [List.getElem?_eq_getElem (by rw [split_length]; exact h), split_get k h]

theorem cnt_eq (n : Nat) {j : Nat} (h : j < 4) : cnt n j = (n + 3 - j) / 4 := by
  unfold cnt; split <;> omega

theorem cnt_succ (n : Nat) {j : Nat} (h : j < 4) : cnt (n + 1) j = if j = n % 4 then cnt n j + 1 else cnt n j := by
  rw [cnt_eq _ h, cnt_eq _ h]; split <;> omega

theorem cnt_self (n : Nat) : cnt n (n % 4) = n / 4 := by
  rw [cnt_eq _ (Nat.mod_lt _ (by omega))]; omega

/-- Taking one more low bit. -/
theorem mod_succ_bit (x c : Nat) :
    x % 2 ^ (c + 1) = x % 2 ^ c ||| (if x.testBit c then 1 <<< c else 0) := by
  apply Nat.eq_of_testBit_eq
  intro i
  rw [Nat.testBit_or, Nat.testBit_mod_two_pow, Nat.testBit_mod_two_pow]
  by_cases hi : i < c
  · have : i < c + 1 := by omega
    have hne : (1 <<< c).testBit i = false := by
      rw [Nat.testBit_shiftLeft]; simp; omega
    split <;> simp [hi, this, hne]
  · by_cases he : i = c
    · subst he
      cases hb : x.testBit i
      · simp
      · simp [Nat.testBit_shiftLeft]
    · have h1 : ¬ i < c + 1 := by omega
      have hne : (1 <<< c).testBit i = false := by
        rw [Nat.testBit_shiftLeft]
        have : i - c ≠ 0 := by omega
        have h0 : Nat.testBit 1 (i - c) = false := by
          rw [Bool.eq_false_iff]; intro h2
          exact this (Nat.testBit_one_eq_true_iff_self_eq_zero.1 h2)
        simp [h0]
      split <;> simp [hi, h1, hne]

/-- The loop of `join` on the next bits of a key. -/
theorem joinLoop_spec (k : Key) (m i : Nat) (n accs : Key) (hm : i + m ≤ 256)
    (hn : ∀ j, j < 4 → n.get j = cnt i j) (ha : ∀ j, j < 4 → accs.get j = k.get j % 2 ^ cnt i j) :
    let r := joinLoop ((List.range' i m).map (kbit k)) i n accs
    (∀ j, j < 4 → r.1.get j = cnt (i + m) j) ∧ ∀ j, j < 4 → r.2.get j = k.get j % 2 ^ cnt (i + m) j := by
  induction m generalizing i n accs with
  | zero => exact ⟨hn, ha⟩
  | succ m ih =>
    rw [List.range'_succ, List.map_cons]
    simp only [joinLoop]
    have := ih (i + 1) (n.upd (i % 4) (· + 1))
      (if kbit k i = true then accs.upd (i % 4) (fun x => x ||| shl64 1 (n.get (i % 4))) else accs)
      (by omega) (fun j hj => by
        rw [Key.upd, Key.get_ofFn _ hj, cnt_succ _ hj, hn j hj])
      (fun j hj => by
        rw [cnt_succ _ hj]
        by_cases he : j = i % 4
        · subst he
          have hc : cnt i (i % 4) < 64 := by rw [cnt_self]; omega
          have hs : shl64 1 (cnt i (i % 4)) = 1 <<< cnt i (i % 4) := by
            unfold shl64
            rw [Nat.mod_eq_of_lt hc, Nat.mod_eq_of_lt]
            rw [Nat.one_shiftLeft]
            exact Nat.pow_lt_pow_right (by omega) hc
          have hb : kbit k i = (k.get (i % 4)).testBit (cnt i (i % 4)) := by rw [cnt_self]; rfl
          rw [if_pos rfl, mod_succ_bit, ← hb]
          cases kbit k i
          · simp [ha _ hj]
          · simp only [if_true]
            rw [Key.upd, Key.get_ofFn _ hj, if_pos rfl, ha _ hj, hn _ hj, hs]
        · rw [if_neg he]
          split
          · rw [Key.upd, Key.get_ofFn _ hj, if_neg he, ha j hj]
          · exact ha j hj)
    rw [show i + (m + 1) = i + 1 + m by omega]
    exact this

theorem take_split (k : Key) {n : Nat} (h : n ≤ 256) : k.split.take n = (List.range' 0 n).map (kbit k) := by
  rw [split_eq, ← List.map_take, List.take_range, Nat.min_eq_left h, List.range_eq_range']

/-- Re-assembling a word from its high and low part. -/
theorem shl_shr_or (x c : Nat) (hx : x < 2 ^ 64) (hc : c ≤ 64) :
    shl64 (shr64 x c) c ||| x % 2 ^ c = x := by
  unfold shl64 shr64
  by_cases h : c = 64
  · subst h
    simp [Nat.mod_eq_of_lt hx]
  · rw [Nat.mod_eq_of_lt (show c < 64 by omega)]
    apply Nat.eq_of_testBit_eq
    intro i
    rw [Nat.testBit_or, Nat.testBit_mod_two_pow, Nat.testBit_mod_two_pow, Nat.testBit_shiftLeft,
      Nat.testBit_shiftRight]
    by_cases hi : i < 64
    · by_cases hic : i < c
      · have : ¬ i ≥ c := by omega
        simp [hic, this]
      · have h1 : i ≥ c := by omega
        have h2 : c + (i - c) = i := by omega
        simp [hi, hic, h1, h2]
    · have hx' : x.testBit i = false := Nat.testBit_lt_two_pow (Nat.lt_of_lt_of_le hx
        (Nat.pow_le_pow_right (by omega) (by omega)))
      have : ¬ i < c := by omega
      simp [hi, this, hx']

/-! ## C19 -/

/-- **C19**. `split` gives 256 bits: the components round robin, least significant bits first. -/
theorem C19_split (k : Key) :
    k.split.length = 256 ∧ ∀ i, i < 256 → k.split[i]? = some ((k.get (i % 4)).testBit (i / 4)) :=
  ⟨split_length k, fun _ h => split_getElem? k h⟩

/-- **C19**. For every key and every number of consumed path bits, the bits and the rest of the key
give back the key. -/
theorem C19_join (k : Key) (hk : k.Valid) (n : Nat) (hn : n ≤ 256) :
    Key.join (k.split.take n) (k.removeBits n) = k := by
  have h := joinLoop_spec k n 0 .zero .zero (by omega) (fun j hj => by
      rw [cnt_eq _ hj]
      match j, hj with
      | 0, _ => rfl
      | 1, _ => rfl
      | 2, _ => rfl
      | 3, _ => rfl)
    (fun j hj => by
      have : cnt 0 j = 0 := by rw [cnt_eq _ hj]; omega
      rw [this, Nat.pow_zero, Nat.mod_one]
      match j, hj with
      | 0, _ => rfl
      | 1, _ => rfl
      | 2, _ => rfl
      | 3, _ => rfl)
  rw [take_split k hn]
  unfold Key.join
  dsimp only at h
  rcases hj : joinLoop (List.map (kbit k) (List.range' 0 n)) 0 .zero .zero with ⟨c, accs⟩
  rw [hj] at h
  obtain ⟨h1, h2⟩ := h
  simp only at h1 h2 ⊢
  apply Key.ext'
  intro j hj
  rw [Key.get_ofFn _ hj, h1 j hj, h2 j hj, Nat.zero_add]
  unfold Key.removeBits
  rw [Key.get_ofFn _ hj]
  exact shl_shr_or _ _ (hk.get j) (by rw [cnt_eq _ hj]; omega)

/-- **C19**. Keys with the same path are equal. -/
theorem C19_split_injective (k k' : Key) (hk : k.Valid) (hk' : k'.Valid) (h : k.split = k'.split) :
    k = k' := by
  apply Key.ext'
  intro j hj
  apply Nat.eq_of_testBit_eq
  intro i
  by_cases hi : i < 64
  · have h1 := split_getElem? k (i := 4 * i + j) (by omega)
    have h2 := split_getElem? k' (i := 4 * i + j) (by omega)
    rw [h, h2] at h1
    have := Option.some.inj h1
    unfold kbit at this
    rw [show (4 * i + j) % 4 = j by omega, show (4 * i + j) / 4 = i by omega] at this
    exact this.symm
  · have big : ∀ x, x < 2 ^ 64 → x.testBit i = false := fun x hx =>
      Nat.testBit_lt_two_pow (Nat.lt_of_lt_of_le hx (Nat.pow_le_pow_right (by omega) (by omega)))
    rw [big _ (hk.get j), big _ (hk'.get j)]

/-- The shifts of `remove_key_bits` and `join` are in range (so that builds with and without overflow
checks agree) exactly when at most 252 bits are consumed. -/
theorem shift_in_range (n : Nat) : (∀ j, j < 4 → cnt n j < 64) ↔ n ≤ 252 := by
  constructor
  · intro h
    have := h 0 (by omega)
    rw [cnt_eq _ (by omega)] at this
    omega
  · intro h j hj
    rw [cnt_eq _ hj]; omega

/-- Non-vacuity: a key, 7 bits of its path, and the rest. -/
example : (⟨5, 2 ^ 63, 6, 9⟩ : Key).Valid ∧
    Key.split ⟨5, 2 ^ 63, 6, 9⟩ ≠ Key.split ⟨5, 2 ^ 63, 6, 8⟩ ∧
    Key.removeBits ⟨5, 2 ^ 63, 6, 9⟩ 7 = ⟨1, 2 ^ 61, 1, 4⟩ ∧
    Key.join [true, false, false, true, false, false, true] ⟨1, 2 ^ 61, 1, 4⟩ = ⟨5, 2 ^ 63, 6, 9⟩ := by
  refine ⟨by simp [Key.Valid], ?_, ?_, ?_⟩ <;> decide +kernel

end Verif.Smt
