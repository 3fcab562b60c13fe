import Verif.Smt.Key
/-!
# Bit strings of the sparse Merkle tree (`smt_trie/src/bits.rs`) (C20)

`U256` is a natural number below `2^256`; its `+` and `*` wrap and a shift by 256 or more gives 0.
`none` is a panic.
-/
namespace Verif.Smt

/-! ## Model -/

/-- `Bits`. `smt_trie/src/bits.rs:11-17`. -/
structure Bits where
  count : Nat
  packed : Nat
deriving DecidableEq, Repr

namespace Bits

/-- `1 << n` on `U256`. -/
def one256 (n : Nat) : Nat := if n < 256 then 2 ^ n else 0

/-- `From<U256>`, `From<B256>`. `smt_trie/src/bits.rs:19-32`. -/
def ofU256 (x : Nat) : Bits := ⟨256, x⟩

/-- `Add`. `smt_trie/src/bits.rs:34-44`. -/
def add (a b : Bits) : Option Bits :=
  if a.count + b.count ≤ 256 then
    some ⟨a.count + b.count, (a.packed * one256 b.count % 2 ^ 256 + b.packed) % 2 ^ 256⟩
  else none

/-- `empty`. `smt_trie/src/bits.rs:47-52`. -/
def empty : Bits := ⟨0, 0⟩

/-- `is_empty`. `smt_trie/src/bits.rs:54-56`. -/
def isEmpty (b : Bits) : Bool := b.count == 0

/-- `pop_next_bit`. `smt_trie/src/bits.rs:58-64`. -/
def pop (b : Bits) : Option (Bool × Bits) :=
  if b.isEmpty then none else some (b.packed &&& 1 != 0, ⟨b.count - 1, b.packed / 2⟩)

/-- `get_bit`. `smt_trie/src/bits.rs:66-69`. -/
def getBit (b : Bits) (i : Nat) : Option Bool :=
  if i < b.count then some (b.packed &&& one256 (b.count - 1 - i) != 0) else none

/-- `push_bit` and `add_bit`. `smt_trie/src/bits.rs:71-74, 76-80`. -/
def push (b : Bits) (x : Bool) : Bits := ⟨b.count + 1, (b.packed * 2 % 2 ^ 256 + x.toNat) % 2 ^ 256⟩

/-- `while a.count > n { a.pop_next_bit(); }`. `smt_trie/src/bits.rs:85-90`. -/
def popTo (n : Nat) (a : Bits) : Bits :=
  if h : n < a.count then popTo n ⟨a.count - 1, a.packed / 2⟩ else a
termination_by a.count

/-- `while a != b { .. }` with the bits popped last. `smt_trie/src/bits.rs:94-102`. -/
def diffLoop (a b : Bits) (x y : Bool) : Option (Bits × Option (Bool × Bool)) :=
  if a = b then (if x ≠ y then some (a, some (x, y)) else none)
  else if h : a.count = 0 then none
  else
    match b.pop with
    | none => none
    | some (y, b) => diffLoop ⟨a.count - 1, a.packed / 2⟩ b (a.packed &&& 1 != 0) y
termination_by a.count
decreasing_by show a.count - 1 < a.count; omega

/-- `common_prefix`. `smt_trie/src/bits.rs:82-102`. -/
def commonPrefix (a b : Bits) : Option (Bits × Option (Bool × Bool)) :=
  let a' := popTo b.count a
  let b' := popTo a'.count b
  if a' = b' then some (a', none)
  else
    match a'.pop, b'.pop with
    | some (x, a), some (y, b) => diffLoop a b x y
    | _, _ => none

/-! ## Specification -/

/-- The number written by a bit string, most significant bit first. -/
def val (l : List Bool) : Nat := l.foldl (fun n x => 2 * n + x.toNat) 0

/-- `b` is the packed form of the bit string `l`. -/
def Rep (b : Bits) (l : List Bool) : Prop := b.count = l.length ∧ b.packed = val l ∧ l.length ≤ 256

/-- The longest common prefix of two strings, and the bits after it if both go on. -/
def lcp : List Bool → List Bool → List Bool × Option (Bool × Bool)
  | x :: l, y :: m => if x = y then (x :: (lcp l m).1, (lcp l m).2) else ([], some (x, y))
  | _, _ => ([], none)

/-! ## Proofs -/

theorem snocInd {P : List Bool → Prop} (nil : P []) (snoc : ∀ l x, P l → P (l ++ [x])) (l : List Bool) : P l := by
  have : ∀ n (l : List Bool), l.length = n → P l := by
    intro n
    induction n with
    | zero => intro l h; rw [List.length_eq_zero_iff.1 h]; exact nil
    | succ n ih =>
      intro l h
      have hne : l ≠ [] := by rintro rfl; simp at h
      rw [← List.dropLast_concat_getLast hne]
      exact snoc _ _ (ih _ (by simp [h]))
  exact this _ l rfl

theorem val_snoc (l : List Bool) (x : Bool) : val (l ++ [x]) = 2 * val l + x.toNat := by
  simp [val]

theorem val_lt (l : List Bool) : val l < 2 ^ l.length := by
  induction l using snocInd with
  | nil => simp [val]
  | snoc l x ih =>
    rw [val_snoc, List.length_append, List.length_singleton, Nat.pow_succ]
    have := x.toNat_lt
    omega

theorem val_append (l m : List Bool) : val (l ++ m) = val l * 2 ^ m.length + val m := by
  induction m using snocInd with
  | nil => simp [val]
  | snoc m x ih =>
    rw [← List.append_assoc, val_snoc, val_snoc, ih, List.length_append, List.length_singleton, Nat.pow_succ]
    rw [Nat.mul_add, ← Nat.mul_assoc (val l), Nat.mul_comm (val l * _) 2]
    omega

theorem val_inj {l m : List Bool} (hl : l.length = m.length) (h : val l = val m) : l = m := by
  induction l using snocInd generalizing m with
  | nil => exact (List.length_eq_zero_iff.1 hl.symm).symm
  | snoc l x ih =>
    induction m using snocInd with
    | nil => simp at hl
    | snoc m y _ =>
      rw [val_snoc, val_snoc] at h
      have hx := x.toNat_lt; have hy := y.toNat_lt
      have hxy : x = y := by cases x <;> cases y <;> simp at h ⊢ <;> omega
      rw [ih (by simpa using hl) (by omega), hxy]

theorem Rep.inj {b : Bits} {l m : List Bool} (h1 : Rep b l) (h2 : Rep b m) : l = m :=
  val_inj (h1.1.symm.trans h2.1) (h1.2.1.symm.trans h2.2.1)

theorem Rep.eq {a b : Bits} {l m : List Bool} (h1 : Rep a l) (h2 : Rep b m) : a = b ↔ l = m := by
  constructor
  · rintro rfl; exact h1.inj h2
  · rintro rfl
    cases a; cases b
    have e1 := h1.1.trans h2.1.symm
    have e2 := h1.2.1.trans h2.2.1.symm
    simp only at e1 e2
    rw [e1, e2]

theorem and_one (n : Nat) : (n &&& 1 != 0) = decide (n % 2 = 1) := by
  rw [Nat.and_one_is_mod]
  rcases Nat.mod_two_eq_zero_or_one n with h | h <;> simp [h]

theorem and_pow (n i : Nat) : (n &&& 2 ^ i != 0) = n.testBit i := by
  cases h : n.testBit i with
  | true =>
    have : (n &&& 2 ^ i) ≠ 0 := fun h0 => by
      have := congrArg (Nat.testBit · i) h0
      simp [Nat.testBit_and, h, Nat.testBit_two_pow] at this
    simp [this]
  | false =>
    have : (n &&& 2 ^ i) = 0 := by
      apply Nat.eq_of_testBit_eq
      intro j
      rw [Nat.testBit_and, Nat.testBit_two_pow, Nat.zero_testBit]
      by_cases hj : i = j
      · subst hj; simp [h]
      · simp [hj]
    simp [this]

theorem Rep.pop_snoc {b : Bits} {l : List Bool} {x : Bool} (h : Rep b (l ++ [x])) :
    (b.packed &&& 1 != 0) = x ∧ Rep ⟨b.count - 1, b.packed / 2⟩ l := by
  obtain ⟨h1, h2, h3⟩ := h
  rw [val_snoc] at h2
  rw [List.length_append, List.length_singleton] at h1 h3
  rw [and_one]
  refine ⟨?_, ?_, ?_, by omega⟩
  · rw [h2]; cases x <;> simp <;> omega
  · show b.count - 1 = _; omega
  · show b.packed / 2 = _
    rw [h2]; have := x.toNat_lt; omega

theorem val_testBit {l : List Bool} {i : Nat} (h : i < l.length) :
    (val l).testBit (l.length - 1 - i) = l[i] := by
  induction l using snocInd generalizing i with
  | nil => simp at h
  | snoc l x ih =>
    rw [List.length_append, List.length_singleton] at h
    by_cases hi : i < l.length
    · rw [List.getElem_append_left hi, ← ih hi, val_snoc]
      rw [List.length_append, List.length_singleton]
      have : l.length + 1 - 1 - i = (l.length - 1 - i) + 1 := by omega
      rw [this, Nat.testBit_succ]
      congr 1
      have := x.toNat_lt; omega
    · have : i = l.length := by omega
      subst this
      rw [List.getElem_append_right (Nat.le_refl _)]
      simp only [List.length_append, List.length_singleton, Nat.add_sub_cancel, Nat.sub_self, List.getElem_cons_zero, val_snoc,
        Nat.testBit_zero]
      cases x <;> simp <;> omega

theorem popTo_spec {n : Nat} {a : Bits} {l : List Bool} (h : Rep a l) : Rep (popTo n a) (l.take n) := by
  induction l using snocInd generalizing a with
  | nil =>
    rw [popTo, dif_neg (by rw [h.1]; simp)]
    simpa using h
  | snoc l x ih =>
    rw [popTo]
    split
    · rename_i hlt
      rw [h.1, List.length_append, List.length_singleton] at hlt
      rw [List.take_append_of_le_length (by omega)]
      exact ih h.pop_snoc.2
    · rename_i hlt
      rw [h.1] at hlt
      rw [List.take_of_length_le (by omega)]
      exact h

theorem lcp_diff (l : List Bool) {x y : Bool} (h : x ≠ y) (r r' : List Bool) :
    lcp (l ++ x :: r) (l ++ y :: r') = (l, some (x, y)) := by
  induction l with
  | nil => simp [lcp, h]
  | cons a l ih => simp [lcp, ih]

theorem lcp_prefix (l r : List Bool) : lcp l (l ++ r) = (l, none) ∧ lcp (l ++ r) l = (l, none) := by
  induction l with
  | nil => cases r <;> simp [lcp]
  | cons a l ih => simp [lcp, ih]

theorem diffLoop_spec {l : List Bool} : ∀ {m : List Bool} {a b : Bits} {x y : Bool} {r r' : List Bool}, Rep a l → Rep b m →
    l.length = m.length → l ++ [x] ≠ m ++ [y] →
    ∃ c, diffLoop a b x y = some (c, (lcp (l ++ x :: r) (m ++ y :: r')).2) ∧ Rep c (lcp (l ++ x :: r) (m ++ y :: r')).1 := by
  induction l using snocInd with
  | nil =>
    intro m a b x y r r' ha hb hl hne
    have : m = [] := List.length_eq_zero_iff.1 hl.symm
    subst this
    have hxy : x ≠ y := fun h => hne (by rw [h])
    rw [diffLoop, if_pos ((ha.eq hb).2 rfl), if_pos hxy, lcp_diff [] hxy]
    exact ⟨a, rfl, ha⟩
  | snoc l x' ih =>
    intro m a b x y r r' ha hb hl hne
    induction m using snocInd with
    | nil => simp at hl
    | snoc m y' _ =>
      by_cases he : l ++ [x'] = m ++ [y']
      · rw [he] at ha hne ⊢
        have hxy : x ≠ y := fun h => hne (by rw [h])
        rw [diffLoop, if_pos ((ha.eq hb).2 rfl), if_pos hxy, lcp_diff _ hxy]
        exact ⟨a, rfl, ha⟩
      · rw [diffLoop, if_neg (fun h => he ((ha.eq hb).1 h))]
        have hca : ¬ a.count = 0 := by rw [ha.1]; simp
        have hcb : b.isEmpty = false := by simp [isEmpty, hb.1]
        rw [dif_neg hca, pop, hcb]
        simp only [Bool.false_eq_true, if_false]
        rw [ha.pop_snoc.1, hb.pop_snoc.1, List.append_assoc, List.append_assoc]
        exact ih ha.pop_snoc.2 hb.pop_snoc.2 (by simpa using hl) he

/-! ## C20 -/

/-- **C20**. The packed forms with at most 256 bits and no stray bits are exactly the packed forms of the bit
strings of at most 256 bits; equality of packed forms is equality of strings. -/
theorem C20_representation :
    (∀ b : Bits, b.count ≤ 256 → b.packed < 2 ^ b.count → ∃ l, Rep b l) ∧
    (∀ l : List Bool, l.length ≤ 256 → ∃ b, Rep b l ∧ b.packed < 2 ^ b.count) ∧
    (∀ a b l m, Rep a l → Rep b m → (a = b ↔ l = m)) := by
  refine ⟨?_, ?_, fun a b l m h1 h2 => h1.eq h2⟩
  · rintro ⟨c, x⟩ hc hx
    simp only at hc hx
    have : ∀ c x, x < 2 ^ c → ∃ l : List Bool, l.length = c ∧ val l = x := by
      intro c
      induction c with
      | zero => intro x hx; exact ⟨[], rfl, by simp at hx; simp [val, hx]⟩
      | succ c ih =>
        intro x hx
        rw [Nat.pow_succ] at hx
        obtain ⟨l, h1, h2⟩ := ih (x / 2) (by omega)
        refine ⟨l ++ [decide (x % 2 = 1)], by simp [h1], ?_⟩
        rw [val_snoc, h2]
        rcases Nat.mod_two_eq_zero_or_one x with h | h <;> simp [h] <;> omega
    obtain ⟨l, h1, h2⟩ := this c x hx
    exact ⟨l, h1.symm, h2.symm, by omega⟩
  · intro l hl
    exact ⟨⟨l.length, val l⟩, ⟨rfl, rfl, hl⟩, val_lt l⟩

/-- **C20**. `empty`, `is_empty` and the conversion from an integer. -/
theorem C20_make : Rep empty [] ∧ (∀ b l, Rep b l → (b.isEmpty = true ↔ l = [])) ∧
    ∀ x, x < 2 ^ 256 → Rep (ofU256 x) ((List.range 256).map (fun i => x.testBit (255 - i))) := by
  refine ⟨⟨rfl, rfl, by simp⟩, ?_, ?_⟩
  · intro b l h
    simp [isEmpty, h.1]
  · intro x hx
    obtain ⟨l, hl⟩ := C20_representation.1 (ofU256 x) (Nat.le_refl _) hx
    have : l = (List.range 256).map (fun i => x.testBit (255 - i)) := by
      have hlen : l.length = 256 := hl.1.symm
      apply List.ext_getElem (by simp [hlen])
      intro i h1 h2
      rw [List.getElem_map, List.getElem_range, ← val_testBit h1, ← hl.2.1, hlen]
      rfl
    rw [← this]; exact hl

/-- **C20**. `get_bit` is indexing. -/
theorem C20_get {b : Bits} {l : List Bool} (h : Rep b l) (i : Nat) : b.getBit i = l[i]? := by
  unfold getBit
  by_cases hi : i < l.length
  · rw [h.1, if_pos hi, List.getElem?_eq_getElem hi]
    have hlt : l.length - 1 - i < 256 := by have := h.2.2; omega
    rw [one256, if_pos hlt, h.2.1, ← val_testBit hi]
    congr 1
    exact and_pow _ _
  · rw [h.1, if_neg hi, List.getElem?_eq_none (by omega)]

/-- **C20**. `push_bit` and `add_bit` append, as long as there are fewer than 256 bits. -/
theorem C20_push {b : Bits} {l : List Bool} (h : Rep b l) (hl : l.length < 256) (x : Bool) : Rep (b.push x) (l ++ [x]) := by
  obtain ⟨h1, h2, h3⟩ := h
  refine ⟨by simp [push, h1], ?_, by simp; omega⟩
  have h4 := val_lt l
  have h5 : 2 ^ (l.length + 1) ≤ 2 ^ 256 := Nat.pow_le_pow_right (by omega) (by omega)
  rw [Nat.pow_succ] at h5
  have := x.toNat_lt
  show (b.packed * 2 % 2 ^ 256 + x.toNat) % 2 ^ 256 = _
  rw [h2, Nat.mod_eq_of_lt (a := val l * 2) (by omega), Nat.mod_eq_of_lt (by omega), val_snoc]
  omega

/-- A 257th bit pushes out the first one: the counterpart of `C20_push`. -/
theorem C20_push_full {b : Bits} {l : List Bool} (h : Rep b l) (hl : l.length = 256) (x : Bool) :
    b.push x = ⟨257, val (l.tail ++ [x])⟩ := by
  obtain ⟨h1, h2, h3⟩ := h
  cases l with
  | nil => simp at hl
  | cons y l =>
    have h4 := val_lt l
    have hll : l.length = 255 := by simpa using hl
    rw [hll] at h4
    have h5 : val (y :: l) = y.toNat * 2 ^ 255 + val l := by
      have := val_append [y] l
      rw [hll] at this
      simpa [val] using this
    have hx := x.toNat_lt; have hy := y.toNat_lt
    unfold push
    rw [h1, hl, h2, h5, List.tail_cons, val_snoc]
    have e : (y.toNat * 2 ^ 255 + val l) * 2 % 2 ^ 256 = 2 * val l := by
      rcases Nat.lt_or_ge y.toNat 1 with h | h
      · have : y.toNat = 0 := by omega
        rw [this]; omega
      · have : y.toNat = 1 := by omega
        rw [this]; omega
    rw [e, Nat.mod_eq_of_lt (a := 2 * val l + x.toNat) (by omega)]

/-- **C20**. `pop_next_bit` removes and returns the last bit, and panics on the empty string. -/
theorem C20_pop : empty.pop = none ∧ ∀ b l x, Rep b (l ++ [x]) → ∃ b', b.pop = some (x, b') ∧ Rep b' l := by
  refine ⟨rfl, fun b l x h => ⟨_, ?_, h.pop_snoc.2⟩⟩
  have hc : b.isEmpty = false := by simp [isEmpty, h.1]
  rw [pop, hc]
  simp only [Bool.false_eq_true, if_false]
  rw [h.pop_snoc.1]

/-- **C20**. `+` concatenates; it panics exactly if the result has more than 256 bits. -/
theorem C20_add {a b : Bits} {l m : List Bool} (ha : Rep a l) (hb : Rep b m) :
    (l.length + m.length ≤ 256 → ∃ c, a.add b = some c ∧ Rep c (l ++ m)) ∧ (256 < l.length + m.length → a.add b = none) := by
  constructor
  · intro h
    unfold add
    rw [ha.1, hb.1, if_pos h]
    refine ⟨_, rfl, by simp, ?_, by simpa using h⟩
    show (a.packed * one256 m.length % 2 ^ 256 + b.packed) % 2 ^ 256 = _
    rw [ha.2.1, hb.2.1]
    have h1 := val_lt l
    have h2 := val_lt m
    have h3 := val_lt (l ++ m)
    have h4 : 2 ^ (l ++ m).length ≤ 2 ^ 256 := Nat.pow_le_pow_right (by omega) (by simpa using h)
    rw [val_append] at h3 ⊢
    have h5 : val l * one256 m.length = val l * 2 ^ m.length := by
      unfold one256
      split
      · rfl
      · have : l = [] := List.length_eq_zero_iff.1 (by omega)
        subst this
        simp [val]
    rw [h5, Nat.mod_eq_of_lt (a := val l * _) (by omega), Nat.mod_eq_of_lt (by omega)]
  · intro h
    unfold add
    rw [ha.1, hb.1, if_neg (by omega)]

/-- **C20**. `common_prefix` gives the longest common prefix and the two bits after it (`None` if one string is a
prefix of the other). -/
theorem C20_common_prefix {a b : Bits} {l m : List Bool} (ha : Rep a l) (hb : Rep b m) :
    ∃ c, a.commonPrefix b = some (c, (lcp l m).2) ∧ Rep c (lcp l m).1 := by
  have ha' := popTo_spec (n := b.count) ha
  rw [hb.1] at ha'
  have hb' := popTo_spec (n := (popTo m.length a).count) hb
  have hcnt : (popTo m.length a).count = min m.length l.length := by rw [ha'.1, List.length_take]
  rw [hcnt] at hb'
  have hm : m.take (min m.length l.length) = m.take l.length := by
    rw [← List.take_take]
    rw [List.take_of_length_le (l := List.take l.length m) (by rw [List.length_take]; omega)]
  rw [hm] at hb'
  unfold commonPrefix
  simp only [hb.1, hcnt]
  by_cases he : l.take m.length = m.take l.length
  · rw [if_pos ((ha'.eq hb').2 he)]
    have : lcp l m = (l.take m.length, none) := by
      rcases Nat.le_total l.length m.length with h | h
      · rw [List.take_of_length_le (by omega)] at he ⊢
        have : m = l ++ m.drop l.length := by conv => lhs; rw [← List.take_append_drop l.length m, ← he]
        rw [this]; exact (lcp_prefix _ _).1
      · rw [List.take_of_length_le (l := m) (by omega)] at he
        have : l = m ++ l.drop m.length := by conv => lhs; rw [← List.take_append_drop m.length l, he]
        rw [he]; conv => lhs; rw [this]
        exact (lcp_prefix _ _).2
    rw [this]
    exact ⟨_, rfl, ha'⟩
  · rw [if_neg (fun h => he ((ha'.eq hb').1 h))]
    have hlen : (l.take m.length).length = (m.take l.length).length := by
      rw [List.length_take, List.length_take]; omega
    have hl : l = l.take m.length ++ l.drop m.length := (List.take_append_drop _ _).symm
    have hm2 : m = m.take l.length ++ m.drop l.length := (List.take_append_drop _ _).symm
    generalize hA : l.take m.length = A at *
    generalize hB : m.take l.length = B at *
    generalize l.drop m.length = R at *
    generalize m.drop l.length = R' at *
    subst hl
    rw [hm2]
    rw [← hm2]
    generalize popTo m.length a = A' at *
    generalize popTo (min m.length (A ++ R).length) b = B' at *
    rw [hm2]
    clear hm2 hA hB hm hcnt ha hb
    induction A using snocInd with
    | nil => exact absurd (List.length_eq_zero_iff.1 hlen.symm).symm he
    | snoc A x _ =>
      induction B using snocInd with
      | nil => simp at hlen
      | snoc B y _ =>
        obtain ⟨a2, p1, r1⟩ := C20_pop.2 _ _ _ ha'
        obtain ⟨b2, p2, r2⟩ := C20_pop.2 _ _ _ hb'
        rw [p1, p2]
        simp only [List.append_assoc, List.singleton_append]
        exact diffLoop_spec r1 r2 (by simpa using hlen) he

/-- `Key::split` as it is: 256 pushes onto an empty string. `smt_trie/src/smt.rs:31-41`. -/
def pushAll : Bits → List Bool → Bits
  | b, [] => b
  | b, x :: l => pushAll (b.push x) l

theorem pushAll_spec {b : Bits} {l m : List Bool} (h : Rep b l) (hl : l.length + m.length ≤ 256) :
    Rep (pushAll b m) (l ++ m) := by
  induction m generalizing b l with
  | nil => simpa [pushAll] using h
  | cons x m ih =>
    rw [List.length_cons] at hl
    rw [pushAll]
    have := ih (C20_push h (by omega) x) (by simp; omega)
    simpa using this

/-- **C20**. The packed path of a key is the packed form of the path used in the model of the tree. -/
theorem C20_split (k : Key) : Rep (pushAll empty k.split) k.split :=
  pushAll_spec (l := []) C20_make.1 (by simp [split_length])

/-- Non-vacuity: the packed form of `101` and `1001`, their common prefix `10`, concatenation and a pop. -/
example : Rep ⟨3, 5⟩ [true, false, true] ∧ Rep ⟨4, 9⟩ [true, false, false, true] ∧
    commonPrefix ⟨3, 5⟩ ⟨4, 9⟩ = some (⟨2, 2⟩, some (true, false)) ∧ add ⟨3, 5⟩ ⟨4, 9⟩ = some ⟨7, 89⟩ ∧
    pop ⟨4, 9⟩ = some (true, ⟨3, 4⟩) := by
  refine ⟨by simp [Rep, val], by simp [Rep, val], ?_, by decide +kernel, by decide +kernel⟩
  decide +kernel

end Bits
end Verif.Smt
