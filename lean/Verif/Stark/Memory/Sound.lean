import Verif.Stark.Memory.Table

/-! Soundness of the memory table: reads return the last write. -/

namespace Verif.Stark.Memory

open Finset

theorem flag_of {v : F} (h : v * (1 - v) = 0) : v = 0 ∨ v = 1 := by
  rcases mul_eq_zero.1 h with h | h
  · exact .inl h
  · exact .inr (sub_eq_zero.1 h).symm

section
variable {n : ℕ} {T : ℕ → Row F} (h : Accepted n T)
include h

theorem Accepted.order {i : ℕ} (hi : i < n) {c : Constr F} (hc : c ∈ evalOrder (T i) (T ((i + 1) % n))) (ha : c.on.applies n i) : c.val = 0 :=
  h.constraints i hi c (by simp only [evalMemory, List.mem_append]; exact .inl (.inl (.inl hc))) ha

theorem Accepted.values {i : ℕ} (hi : i < n) {c : Constr F} (hc : c ∈ evalValues (T i) (T ((i + 1) % n))) (ha : c.on.applies n i) : c.val = 0 :=
  h.constraints i hi c (by simp only [evalMemory, List.mem_append]; exact .inl (.inl (.inr hc))) ha

theorem Accepted.after {i : ℕ} (hi : i < n) {c : Constr F} (hc : c ∈ evalAfter (T i) (T ((i + 1) % n))) (ha : c.on.applies n i) : c.val = 0 :=
  h.constraints i hi c (by simp only [evalMemory, List.mem_append]; exact .inl (.inr hc)) ha

theorem Accepted.counter {i : ℕ} (hi : i < n) {c : Constr F} (hc : c ∈ evalCounter (T i) (T ((i + 1) % n))) (ha : c.on.applies n i) : c.val = 0 :=
  h.constraints i hi c (by simp only [evalMemory, List.mem_append]; exact .inr hc) ha

theorem filter_bit {i : ℕ} (hi : i < n) : T i FILTER = 0 ∨ T i FILTER = 1 := by
  have := h.order hi (c := ⟨.always, T i FILTER * (T i FILTER - 1)⟩) (by simp [evalOrder]) trivial
  rcases mul_eq_zero.1 this with h | h
  · exact .inl h
  · exact .inr (sub_eq_zero.1 h)

/-- A write is visible to the other tables. -/
theorem write_real {i : ℕ} (hi : i < n) (hw : IsWrite (T i)) : Real (T i) := by
  have := h.order hi (c := ⟨.always, (1 - T i FILTER) * (1 - T i IS_READ)⟩) (by simp [evalOrder]) trivial
  rcases filter_bit h hi with hf | hf
  · rw [hf, hw] at this; exact absurd this (by decide +kernel)
  · exact hf

/-- Exactly one of the four cases of `first_change` holds. -/
theorem flags {i : ℕ} (hi : i < n) :
    (T i CONTEXT_FIRST_CHANGE = 1 ∧ T i SEGMENT_FIRST_CHANGE = 0 ∧ T i VIRTUAL_FIRST_CHANGE = 0 ∧ unchanged (T i) = 0) ∨
    (T i CONTEXT_FIRST_CHANGE = 0 ∧ T i SEGMENT_FIRST_CHANGE = 1 ∧ T i VIRTUAL_FIRST_CHANGE = 0 ∧ unchanged (T i) = 0) ∨
    (T i CONTEXT_FIRST_CHANGE = 0 ∧ T i SEGMENT_FIRST_CHANGE = 0 ∧ T i VIRTUAL_FIRST_CHANGE = 1 ∧ unchanged (T i) = 0) ∨
    (T i CONTEXT_FIRST_CHANGE = 0 ∧ T i SEGMENT_FIRST_CHANGE = 0 ∧ T i VIRTUAL_FIRST_CHANGE = 0 ∧ unchanged (T i) = 1) := by
  have hc := flag_of (h.order hi (c := ⟨.always, T i CONTEXT_FIRST_CHANGE * (1 - T i CONTEXT_FIRST_CHANGE)⟩) (by simp [evalOrder]) trivial)
  have hs := flag_of (h.order hi (c := ⟨.always, T i SEGMENT_FIRST_CHANGE * (1 - T i SEGMENT_FIRST_CHANGE)⟩) (by simp [evalOrder]) trivial)
  have hv := flag_of (h.order hi (c := ⟨.always, T i VIRTUAL_FIRST_CHANGE * (1 - T i VIRTUAL_FIRST_CHANGE)⟩) (by simp [evalOrder]) trivial)
  have hu := flag_of (h.order hi (c := ⟨.always, unchanged (T i) * (1 - unchanged (T i))⟩) (by simp [evalOrder]) trivial)
  unfold unchanged at hu ⊢
  rcases hc with c | c <;> rcases hs with s | s <;> rcases hv with v | v <;> rw [c, s, v] at hu ⊢ <;> revert hu <;> decide +kernel

theorem counter_eq : ∀ i < n, T i COUNTER = (i : F) := by
  intro i
  induction i with
  | zero => intro hi; simpa using h.counter hi (c := ⟨.first, T 0 COUNTER⟩) (by simp [evalCounter]) rfl
  | succ i ih =>
    intro hi
    have := h.counter (i := i) (by omega) (c := ⟨.transition, T ((i + 1) % n) COUNTER - T i COUNTER - 1⟩) (by simp [evalCounter])
      (show i + 1 ≠ n by omega)
    rw [Nat.mod_eq_of_lt hi, ih (by omega)] at this
    push_cast
    linear_combination this

theorem range_lt (hn : n * n < P) {i : ℕ} (hi : i < n) : ∃ d < n, T i RANGE_CHECK = (d : F) := by
  have h2 : 2 * n < P := by
    rcases Nat.lt_or_ge n 2 with h | h
    · have : 4 < P := by decide
      omega
    · exact lt_of_le_of_lt (Nat.mul_le_mul_right n h) hn
  have hb : ∀ l ∈ rangeLookups n T, ∀ i < n, l.filter i = 0 ∨ l.filter i = 1 := by
    intro l hl i hi
    simp only [rangeLookups, List.mem_cons, List.not_mem_nil, or_false] at hl
    rcases hl with rfl | rfl
    · exact .inr rfl
    · rcases flags h hi with ⟨c, s, _⟩ | ⟨c, s, _⟩ | ⟨c, s, _⟩ | ⟨c, s, _⟩ <;> dsimp only <;> rw [c, s] <;> simp
  obtain ⟨k, hk, he⟩ := h.range.mem hb (by simpa [rangeLookups] using h2) (l := ⟨fun i => T i RANGE_CHECK, fun _ => 1⟩)
    (by simp [rangeLookups]) hi rfl
  rw [counter_eq h k hk] at he
  exact ⟨k, hk, he.symm⟩

/-- How an address changes from one row to the next. -/
theorem step (hn : n * n < P) {i : ℕ} (hi : i + 1 < n) : ∃ d < n,
    (T i CONTEXT_FIRST_CHANGE = 1 ∧ unchanged (T i) = 0 ∧ T (i + 1) ADDR_CONTEXT = T i ADDR_CONTEXT + 1 + (d : F)) ∨
    (T i CONTEXT_FIRST_CHANGE = 0 ∧ T i SEGMENT_FIRST_CHANGE = 1 ∧ unchanged (T i) = 0 ∧ T (i + 1) ADDR_CONTEXT = T i ADDR_CONTEXT ∧
      T (i + 1) ADDR_SEGMENT = T i ADDR_SEGMENT + 1 + (d : F)) ∨
    (T i CONTEXT_FIRST_CHANGE = 0 ∧ T i SEGMENT_FIRST_CHANGE = 0 ∧ unchanged (T i) = 0 ∧ T (i + 1) ADDR_CONTEXT = T i ADDR_CONTEXT ∧
      T (i + 1) ADDR_SEGMENT = T i ADDR_SEGMENT ∧ T (i + 1) ADDR_VIRTUAL = T i ADDR_VIRTUAL + 1 + (d : F)) ∨
    (T i CONTEXT_FIRST_CHANGE = 0 ∧ T i SEGMENT_FIRST_CHANGE = 0 ∧ unchanged (T i) = 1 ∧ addr (T (i + 1)) = addr (T i) ∧
      T (i + 1) TIMESTAMP = T i TIMESTAMP + (d : F)) := by
  have hi' : i < n := by omega
  have ht : i + 1 ≠ n := by omega
  obtain ⟨d, hd, hr⟩ := range_lt h hn hi'
  refine ⟨d, hd, ?_⟩
  have o := fun c hc ha => h.order hi' (c := c) hc ha
  rw [Nat.mod_eq_of_lt hi] at o
  have h1 := o ⟨.transition, T i SEGMENT_FIRST_CHANGE * (T (i + 1) ADDR_CONTEXT - T i ADDR_CONTEXT)⟩ (by simp [evalOrder]) ht
  have h2 := o ⟨.transition, T i VIRTUAL_FIRST_CHANGE * (T (i + 1) ADDR_CONTEXT - T i ADDR_CONTEXT)⟩ (by simp [evalOrder]) ht
  have h3 := o ⟨.transition, T i VIRTUAL_FIRST_CHANGE * (T (i + 1) ADDR_SEGMENT - T i ADDR_SEGMENT)⟩ (by simp [evalOrder]) ht
  have h4 := o ⟨.transition, unchanged (T i) * (T (i + 1) ADDR_CONTEXT - T i ADDR_CONTEXT)⟩ (by simp [evalOrder]) ht
  have h5 := o ⟨.transition, unchanged (T i) * (T (i + 1) ADDR_SEGMENT - T i ADDR_SEGMENT)⟩ (by simp [evalOrder]) ht
  have h6 := o ⟨.transition, unchanged (T i) * (T (i + 1) ADDR_VIRTUAL - T i ADDR_VIRTUAL)⟩ (by simp [evalOrder]) ht
  have h7 := o ⟨.transition, T i RANGE_CHECK -
     (T i CONTEXT_FIRST_CHANGE * (T (i + 1) ADDR_CONTEXT - T i ADDR_CONTEXT - 1) +
      T i SEGMENT_FIRST_CHANGE * (T (i + 1) ADDR_SEGMENT - T i ADDR_SEGMENT - 1) +
      T i VIRTUAL_FIRST_CHANGE * (T (i + 1) ADDR_VIRTUAL - T i ADDR_VIRTUAL - 1) +
      unchanged (T i) * (T (i + 1) TIMESTAMP - T i TIMESTAMP))⟩ (by simp [evalOrder]) ht
  dsimp only at h1 h2 h3 h4 h5 h6 h7
  rw [hr] at h7
  rcases flags h hi' with ⟨c, s, v, u⟩ | ⟨c, s, v, u⟩ | ⟨c, s, v, u⟩ | ⟨c, s, v, u⟩ <;> rw [c, s, v, u] at h7 <;> rw [u] at h4 h5 h6 <;>
    rw [s] at h1 <;> rw [v] at h2 h3
  · exact .inl ⟨c, u, by linear_combination -h7⟩
  · exact .inr (.inl ⟨c, s, u, by linear_combination h1, by linear_combination -h7⟩)
  · exact .inr (.inr (.inl ⟨c, s, u, by linear_combination h2, by linear_combination h3, by linear_combination -h7⟩))
  · refine .inr (.inr (.inr ⟨c, s, u, ?_, by linear_combination -h7⟩))
    unfold addr
    rw [show T (i + 1) ADDR_CONTEXT = T i ADDR_CONTEXT by linear_combination h4,
      show T (i + 1) ADDR_SEGMENT = T i ADDR_SEGMENT by linear_combination h5,
      show T (i + 1) ADDR_VIRTUAL = T i ADDR_VIRTUAL by linear_combination h6]

end

/-- A quantity that stays the same or grows by a bounded amount at each step is the same at both ends only if it never grew. -/
theorem grow {f : ℕ → F} {inc : ℕ → Prop} {n i : ℕ} : ∀ m : ℕ,
    (∀ k < m, (f (i + k + 1) = f (i + k) ∧ ¬ inc (i + k)) ∨ ∃ d < n, f (i + k + 1) = f (i + k) + 1 + (d : F)) →
    ∃ D ≤ m * n, f (i + m) = f i + (D : F) ∧ (D = 0 → ∀ k < m, ¬ inc (i + k))
  | 0, _ => ⟨0, Nat.zero_le _, by simp, fun _ k hk => absurd hk (Nat.not_lt_zero k)⟩
  | m + 1, hs => by
    obtain ⟨D, hD, hf, hz⟩ := grow m (fun k hk => hs k (by omega))
    rcases hs m (by omega) with ⟨he, hi⟩ | ⟨d, hd, he⟩
    · refine ⟨D, by rw [Nat.succ_mul]; omega, ?_, fun h0 k hk => ?_⟩
      · rw [← Nat.add_assoc, he, hf]
      · rcases Nat.lt_succ_iff_lt_or_eq.1 hk with hk | rfl
        · exact hz h0 k hk
        · exact hi
    · refine ⟨D + 1 + d, by rw [Nat.succ_mul]; omega, ?_, fun h0 => by omega⟩
      rw [← Nat.add_assoc, he, hf]; push_cast; ring

/-- The same with a conclusion in the field. -/
theorem grow_none {f : ℕ → F} {inc : ℕ → Prop} {n i j : ℕ} (hij : i ≤ j) (hj : j < n) (hn : n * n < P)
    (hs : ∀ k, i ≤ k → k < j → (f (k + 1) = f k ∧ ¬ inc k) ∨ ∃ d < n, f (k + 1) = f k + 1 + (d : F)) (he : f i = f j) :
    ∀ k, i ≤ k → k < j → ¬ inc k := by
  obtain ⟨m, rfl⟩ := Nat.exists_eq_add_of_le hij
  obtain ⟨D, hD, hf, hz⟩ := grow (f := f) (inc := inc) (n := n) (i := i) m (fun k hk => hs (i + k) (by omega) (by omega))
  rw [he] at hf
  have h0 : (D : F) = 0 := by linear_combination -hf
  have hdvd := (ZMod.natCast_eq_zero_iff _ P).1 h0
  have hlt : D < P := lt_of_le_of_lt (le_trans hD (Nat.mul_le_mul_right n (show m ≤ n by omega))) hn
  have hD0 := Nat.eq_zero_of_dvd_of_lt hdvd hlt
  intro k hk1 hk2
  obtain ⟨l, rfl⟩ := Nat.exists_eq_add_of_le hk1
  exact hz hD0 l (by omega)

section
variable {n : ℕ} {T : ℕ → Row F} (h : Accepted n T) (hn : n * n < P)
include h hn

/-- The rows of an address are consecutive. -/
theorem contiguous {i j : ℕ} (hij : i ≤ j) (hj : j < n) (he : addr (T i) = addr (T j)) : ∀ k, i ≤ k → k < j → unchanged (T k) = 1 := by
  have hc : T i ADDR_CONTEXT = T j ADDR_CONTEXT := congrArg (·.1) he
  have hs : T i ADDR_SEGMENT = T j ADDR_SEGMENT := congrArg (·.2.1) he
  have hv : T i ADDR_VIRTUAL = T j ADDR_VIRTUAL := congrArg (·.2.2) he
  have zo : (0 : F) ≠ 1 := by decide +kernel
  have c0 := grow_none (f := fun k => T k ADDR_CONTEXT) (inc := fun k => T k CONTEXT_FIRST_CHANGE = 1) hij hj hn (fun k _ hk => by
    obtain ⟨d, hd, hk'⟩ := step h hn (show k + 1 < n by omega)
    rcases hk' with ⟨_, _, e⟩ | ⟨c, _, _, e, _⟩ | ⟨c, _, _, e, _⟩ | ⟨c, _, _, e, _⟩
    · exact .inr ⟨d, hd, e⟩
    · exact .inl ⟨e, by rw [c]; exact zo⟩
    · exact .inl ⟨e, by rw [c]; exact zo⟩
    · exact .inl ⟨congrArg (·.1) e, by rw [c]; exact zo⟩) hc
  have s0 := grow_none (f := fun k => T k ADDR_SEGMENT) (inc := fun k => T k SEGMENT_FIRST_CHANGE = 1) hij hj hn (fun k hk0 hk => by
    obtain ⟨d, hd, hk'⟩ := step h hn (show k + 1 < n by omega)
    rcases hk' with ⟨c, _⟩ | ⟨_, _, _, _, e⟩ | ⟨_, s, _, _, e, _⟩ | ⟨_, s, _, e, _⟩
    · exact absurd c (c0 k hk0 hk)
    · exact .inr ⟨d, hd, e⟩
    · exact .inl ⟨e, by rw [s]; exact zo⟩
    · exact .inl ⟨congrArg (·.2.1) e, by rw [s]; exact zo⟩) hs
  have v0 := grow_none (f := fun k => T k ADDR_VIRTUAL) (inc := fun k => unchanged (T k) = 0) hij hj hn (fun k hk0 hk => by
    obtain ⟨d, hd, hk'⟩ := step h hn (show k + 1 < n by omega)
    rcases hk' with ⟨c, _⟩ | ⟨_, s, _⟩ | ⟨_, _, _, _, _, e⟩ | ⟨_, _, u, e, _⟩
    · exact absurd c (c0 k hk0 hk)
    · exact absurd s (s0 k hk0 hk)
    · exact .inr ⟨d, hd, e⟩
    · exact .inl ⟨congrArg (·.2.2) e, by rw [u]; exact zo.symm⟩) hv
  intro k hk0 hk
  rcases flags h (show k < n by omega) with ⟨_, _, _, u⟩ | ⟨_, _, _, u⟩ | ⟨_, _, _, u⟩ | ⟨_, _, _, u⟩
  · exact absurd u (v0 k hk0 hk)
  · exact absurd u (v0 k hk0 hk)
  · exact absurd u (v0 k hk0 hk)
  · exact u

theorem addr_of_unchanged {i : ℕ} (hi : i + 1 < n) (hu : unchanged (T i) = 1) : addr (T (i + 1)) = addr (T i) := by
  have zo : (0 : F) ≠ 1 := by decide +kernel
  obtain ⟨d, _, hk⟩ := step h hn hi
  rcases hk with ⟨_, u, _⟩ | ⟨_, _, u, _⟩ | ⟨_, _, u, _⟩ | ⟨_, _, _, e, _⟩
  · exact absurd (u.symm.trans hu) zo
  · exact absurd (u.symm.trans hu) zo
  · exact absurd (u.symm.trans hu) zo
  · exact e

/-- Within an address the time in the field grows by a bounded amount. -/
theorem time_field {i : ℕ} : ∀ m : ℕ, i + m < n → (∀ k, i ≤ k → k < i + m → unchanged (T k) = 1) →
    addr (T (i + m)) = addr (T i) ∧ ∃ D ≤ m * n, T (i + m) TIMESTAMP = T i TIMESTAMP + (D : F)
  | 0, _, _ => ⟨rfl, 0, Nat.zero_le _, by simp⟩
  | m + 1, hm, hu => by
    obtain ⟨ha, D, hD, ht⟩ := time_field m (by omega) (fun k h1 h2 => hu k h1 (by omega))
    have zo : (0 : F) ≠ 1 := by decide +kernel
    have u' := hu (i + m) (by omega) (by omega)
    obtain ⟨d, hd, hk⟩ := step h hn (show i + m + 1 < n by omega)
    rcases hk with ⟨_, u, _⟩ | ⟨_, _, u, _⟩ | ⟨_, _, u, _⟩ | ⟨_, _, _, e, t⟩
    · exact absurd (u.symm.trans u') zo
    · exact absurd (u.symm.trans u') zo
    · exact absurd (u.symm.trans u') zo
    · refine ⟨e.trans ha, D + d, by rw [Nat.succ_mul]; omega, ?_⟩
      rw [← Nat.add_assoc, t, ht]; push_cast; ring

/-- Rows of the same address are in the order of their times, as long as the times are small compared to the field. -/
theorem time_le {B : ℕ} (hB : B + n * n ≤ P) {i j : ℕ} (hij : i ≤ j) (hj : j < n) (he : addr (T i) = addr (T j))
    (hti : time (T i) < B) (htj : time (T j) < B) : time (T i) ≤ time (T j) := by
  obtain ⟨m, rfl⟩ := Nat.exists_eq_add_of_le hij
  obtain ⟨_, D, hD, ht⟩ := time_field h hn m hj (contiguous h hn hij hj he)
  have hD' : D ≤ n * n := le_trans hD (Nat.mul_le_mul_right n (show m ≤ n by omega))
  have e : ((time (T (i + m)) : ℤ) : F) = ((time (T i) + D : ℤ) : F) := by
    unfold time; push_cast
    rw [ZMod.natCast_zmod_val, ZMod.natCast_zmod_val, ht]
  have := lift_eq e (by rw [abs_lt]; constructor <;> omega)
  omega

end

/-- Row `s` is the first of its address. -/
def Starts (T : ℕ → Row F) (s : ℕ) : Prop := s = 0 ∨ unchanged (T (s - 1)) = 0

section
variable {n : ℕ} {T : ℕ → Row F} (h : Accepted n T)
include h

theorem value_unchanged {i : ℕ} (hi : i + 1 < n) (hu : unchanged (T i) = 1) (hr : ¬ IsWrite (T (i + 1))) : value (T (i + 1)) = value (T i) := by
  funext k
  have := h.values (i := i) (by omega) (c := ⟨.transition, T (i + 1) IS_READ * unchanged (T i) * (T (i + 1) (VALUE + k) - T i (VALUE + k))⟩)
    (by
      rw [Nat.mod_eq_of_lt hi]
      simp only [evalValues, List.mem_append, List.mem_flatMap, List.mem_range]
      exact .inr ⟨k, k.2, by simp⟩) (show i + 1 ≠ n by omega)
  dsimp only at this
  rw [hu, mul_one] at this
  rcases mul_eq_zero.1 this with h | h
  · exact absurd h hr
  · exact sub_eq_zero.1 h

theorem value_first {i : ℕ} (hi : i + 1 < n) (hu : unchanged (T i) = 0) (hr : ¬ IsWrite (T (i + 1))) (hz : ZeroInit (T (i + 1) ADDR_SEGMENT)) :
    value (T (i + 1)) = 0 := by
  have hi' : i < n := by omega
  have ht : i + 1 ≠ n := by omega
  have v := fun c hc ha => h.values hi' (c := c) hc ha
  rw [Nat.mod_eq_of_lt hi] at v
  have h1 := v ⟨.transition, T i PREINITIALIZED_AUX -
    (T (i + 1) ADDR_SEGMENT - (ACCOUNTS_LINKED_LIST : F)) * (T (i + 1) ADDR_SEGMENT - (STORAGE_LINKED_LIST : F))⟩ (by simp [evalValues]) ht
  have h2 := v ⟨.transition, T i PREINITIALIZED -
    (T (i + 1) ADDR_SEGMENT - (CODE : F)) * (T (i + 1) ADDR_SEGMENT - (TRIE_DATA : F)) * T i PREINITIALIZED_AUX⟩ (by simp [evalValues]) ht
  have h3 := v ⟨.transition, T i INITIALIZE_AUX - T i PREINITIALIZED * (1 - unchanged (T i)) * T (i + 1) IS_READ⟩ (by simp [evalValues]) ht
  dsimp only at h1 h2 h3
  obtain ⟨z0, z1, z2, z3⟩ := hz
  have hne : T i INITIALIZE_AUX ≠ 0 := by
    rw [sub_eq_zero.1 h3, sub_eq_zero.1 h2, sub_eq_zero.1 h1, hu, sub_zero, mul_one]
    refine mul_ne_zero (mul_ne_zero (mul_ne_zero ?_ ?_) (mul_ne_zero ?_ ?_)) hr
    · simpa using z0
    · exact sub_ne_zero.2 (by simpa using z1)
    · exact sub_ne_zero.2 (by simpa using z2)
    · exact sub_ne_zero.2 (by simpa using z3)
  funext k
  have := v ⟨.transition, T i INITIALIZE_AUX * T (i + 1) (VALUE + k)⟩ (by
      simp only [evalValues, List.mem_append, List.mem_flatMap, List.mem_range]
      exact .inr ⟨k, k.2, by simp⟩) ht
  exact (mul_eq_zero.1 this).resolve_left hne

/-- The value of every row is that of the last write before it at its address, or that of the first row of the address. -/
theorem trace_back : ∀ j < n,
    (∃ i ≤ j, IsWrite (T i) ∧ (∀ k, i ≤ k → k < j → unchanged (T k) = 1) ∧ value (T i) = value (T j) ∧ ∀ k, i < k → k ≤ j → ¬ IsWrite (T k)) ∨
    (∃ s ≤ j, Starts T s ∧ (∀ k, s ≤ k → k < j → unchanged (T k) = 1) ∧ value (T s) = value (T j) ∧ ∀ k, s ≤ k → k ≤ j → ¬ IsWrite (T k)) := by
  intro j
  induction j with
  | zero =>
    intro _
    by_cases hw : IsWrite (T 0)
    · exact .inl ⟨0, le_refl _, hw, fun k _ hk => absurd hk (Nat.not_lt_zero k), rfl, fun k h1 h2 => by omega⟩
    · refine .inr ⟨0, le_refl _, .inl rfl, fun k _ hk => absurd hk (Nat.not_lt_zero k), rfl, fun k _ h2 => ?_⟩
      rwa [Nat.le_zero.1 h2]
  | succ j ih =>
    intro hj
    by_cases hw : IsWrite (T (j + 1))
    · exact .inl ⟨j + 1, le_refl _, hw, fun k _ hk => by omega, rfl, fun k h1 h2 => by omega⟩
    · have hu : unchanged (T j) = 0 ∨ unchanged (T j) = 1 := by
        rcases flags h (show j < n by omega) with ⟨_, _, _, u⟩ | ⟨_, _, _, u⟩ | ⟨_, _, _, u⟩ | ⟨_, _, _, u⟩ <;> simp [u]
      rcases hu with hu | hu
      · refine .inr ⟨j + 1, le_refl _, .inr hu, fun k _ hk => by omega, rfl, fun k h1 h2 => ?_⟩
        rwa [show k = j + 1 by omega]
      · have hv := value_unchanged h hj hu hw
        have ext : ∀ {i : ℕ}, i ≤ j → (∀ k, i ≤ k → k < j → unchanged (T k) = 1) → ∀ k, i ≤ k → k < j + 1 → unchanged (T k) = 1 := by
          intro i _ hk k h1 h2
          rcases Nat.lt_succ_iff_lt_or_eq.1 h2 with h2 | rfl
          · exact hk k h1 h2
          · exact hu
        rcases ih (by omega) with ⟨i, hi, hwi, hui, hvi, hri⟩ | ⟨s, hs, hst, hus, hvs, hrs⟩
        · refine .inl ⟨i, by omega, hwi, ext hi hui, hvi.trans hv.symm, fun k h1 h2 => ?_⟩
          rcases Nat.le_or_eq_of_le_succ h2 with h2 | h2
          · exact hri k h1 h2
          · rwa [h2]
        · refine .inr ⟨s, by omega, hst, ext hs hus, hvs.trans hv.symm, fun k h1 h2 => ?_⟩
          rcases Nat.le_or_eq_of_le_succ h2 with h2 | h2
          · exact hrs k h1 h2
          · rwa [h2]

end

/-- A read agrees with the history of real writes: it returns the value of a latest write before it, or the initial value when
there is none. (Specification.) -/
def ReadOk (n : ℕ) (T : ℕ → Row F) (init : F × F × F → Fin 8 → F) (j : ℕ) : Prop :=
  (∃ i < n, Real (T i) ∧ IsWrite (T i) ∧ addr (T i) = addr (T j) ∧ time (T i) ≤ time (T j) ∧ value (T j) = value (T i) ∧
    ∀ k < n, Real (T k) → IsWrite (T k) → addr (T k) = addr (T j) → time (T k) ≤ time (T i) ∨ time (T j) ≤ time (T k)) ∨
  (value (T j) = init (addr (T j)) ∧ ∀ k < n, Real (T k) → IsWrite (T k) → addr (T k) = addr (T j) → time (T j) ≤ time (T k))

open Classical in
/-- The initial value of an address: that of its first row, if it is a read. -/
noncomputable def initOf (n : ℕ) (T : ℕ → Row F) (a : F × F × F) : Fin 8 → F :=
  if h : ∃ s < n, Starts T s ∧ addr (T s) = a ∧ ¬ IsWrite (T s) then value (T h.choose) else 0

/-- Reads return the last write, and addresses outside the pre-initialised segments, except the one in the first row, start at zero. -/
theorem reads_sound {n B : ℕ} {T : ℕ → Row F} (h : Accepted n T) (hB : B + n * n ≤ P) (hB0 : 0 < B)
    (ht : ∀ i < n, Real (T i) → time (T i) < B) :
    (∀ a, ZeroInit a.2.1 → a ≠ addr (T 0) → initOf n T a = 0) ∧ ∀ j < n, Real (T j) → ¬ IsWrite (T j) → ReadOk n T (initOf n T) j := by
  have hn : n * n < P := by omega
  have zo : (0 : F) ≠ 1 := by decide +kernel
  /- An address has only one first row. -/
  have uniq : ∀ {s s' : ℕ}, s < n → s' < n → Starts T s' → addr (T s) = addr (T s') → s < s' → False := by
    intro s s' hs hs' hst he hlt
    have hu := contiguous h hn (le_of_lt hlt) hs' he (s' - 1) (by omega) (by omega)
    rcases hst with h0 | h0
    · omega
    · exact zo (h0.symm.trans hu)
  constructor
  · intro a hz hne
    unfold initOf
    split
    · rename_i hex
      obtain ⟨hs, hst, ha, hr⟩ := hex.choose_spec
      generalize hex.choose = s at *
      rcases hst with h0 | h0
      · subst h0; exact absurd ha.symm hne
      · rcases s with _ | s
        · exact absurd ha.symm hne
        · exact value_first h hs h0 hr (by rw [← ha] at hz; exact hz)
    · rfl
  · intro j hj hreal hread
    rcases trace_back h j hj with ⟨i, hi, hw, hu, hv, hr⟩ | ⟨s, hs, hst, hu, hv, hr⟩
    · have hin : i < n := by omega
      have ha : addr (T i) = addr (T j) := by
        obtain ⟨m, rfl⟩ := Nat.exists_eq_add_of_le hi
        exact (time_field h hn m hj hu).1.symm
      have hri := write_real h hin hw
      refine .inl ⟨i, hin, hri, hw, ha, time_le h hn hB hi hj ha (ht i hin hri) (ht j hj hreal), hv.symm, fun k hk hkr hkw hka => ?_⟩
      rcases Nat.lt_or_ge i k with hlt | hge
      · rcases Nat.lt_or_ge j k with hjk | hkj
        · exact .inr (time_le h hn hB (le_of_lt hjk) hk hka.symm (ht j hj hreal) (ht k hk hkr))
        · exact absurd hkw (hr k hlt hkj)
      · exact .inl (time_le h hn hB hge hin (hka.trans ha.symm) (ht k hk hkr) (ht i hin hri))
    · have hsn : s < n := by omega
      have ha : addr (T s) = addr (T j) := by
        obtain ⟨m, rfl⟩ := Nat.exists_eq_add_of_le hs
        exact (time_field h hn m hj hu).1.symm
      refine .inr ⟨?_, fun k hk hkr hkw hka => ?_⟩
      · have hex : ∃ s < n, Starts T s ∧ addr (T s) = addr (T j) ∧ ¬ IsWrite (T s) := ⟨s, hsn, hst, ha, hr s (le_refl _) hs⟩
        unfold initOf
        rw [dif_pos hex]
        obtain ⟨hs', hst', ha', _⟩ := hex.choose_spec
        have : hex.choose = s := by
          rcases Nat.lt_trichotomy hex.choose s with hlt | he | hlt
          · exact (uniq hs' hsn hst (ha'.trans ha.symm) hlt).elim
          · exact he
          · exact (uniq hsn hs' hst' (ha.trans ha'.symm) hlt).elim
        rw [this, hv]
      · rcases Nat.lt_or_ge j k with hjk | hkj
        · exact time_le h hn hB (le_of_lt hjk) hk hka.symm (ht j hj hreal) (ht k hk hkr)
        · rcases Nat.lt_or_ge k s with hks | hsk
          · exact (uniq hk hsn hst (hka.trans ha.symm) hks).elim
          · exact absurd hkw (hr k hsk hkj)

/-- C42 in full: every read returns the last write at its address or the initial value, which is zero outside the pre-initialised
segments. The times of the real operations are below `B`, and `B + n²` is at most the size of the field. -/
def C42_statement : Prop := ∀ (n B : ℕ) (T : ℕ → Row F), Accepted n T → B + n * n ≤ P → 0 < B →
  (∀ i < n, Real (T i) → time (T i) < B) →
  ∃ init : F × F × F → Fin 8 → F, (∀ a, ZeroInit a.2.1 → init a = 0) ∧ ∀ j < n, Real (T j) → ¬ IsWrite (T j) → ReadOk n T init j

/-- C42 without the claim about the initial value of the address in the table's first row. -/
theorem C42_reads_partial {n B : ℕ} {T : ℕ → Row F} (h : Accepted n T) (hB : B + n * n ≤ P) (hB0 : 0 < B)
    (ht : ∀ i < n, Real (T i) → time (T i) < B) :
    ∃ init : F × F × F → Fin 8 → F, (∀ a, ZeroInit a.2.1 → a ≠ addr (T 0) → init a = 0) ∧
      ∀ j < n, Real (T j) → ¬ IsWrite (T j) → ReadOk n T init j :=
  ⟨_, reads_sound h hB hB0 ht⟩

/-- C42 in full for the tables whose first row is in a pre-initialised segment, as is the case when the kernel's first code byte,
at the lowest address, is part of the table. -/
theorem C42_reads {n B : ℕ} {T : ℕ → Row F} (h : Accepted n T) (hB : B + n * n ≤ P) (hB0 : 0 < B)
    (ht : ∀ i < n, Real (T i) → time (T i) < B) (h0 : ¬ ZeroInit (T 0 ADDR_SEGMENT)) :
    ∃ init : F × F × F → Fin 8 → F, (∀ a, ZeroInit a.2.1 → init a = 0) ∧ ∀ j < n, Real (T j) → ¬ IsWrite (T j) → ReadOk n T init j := by
  obtain ⟨init, hz, hr⟩ := C42_reads_partial h hB hB0 ht
  refine ⟨init, fun a ha => hz a ha (fun e => h0 ?_), hr⟩
  rw [e] at ha; exact ha

end Verif.Stark.Memory
