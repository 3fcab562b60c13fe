import Verif.Stark.Memory.Concrete

/-! C42 and C43: what the memory table guarantees about reads and about the values handed over to the next segment. -/

namespace Verif.Stark.Memory

open Finset

/-! ### C42 -/

/-- Whether a read agrees with the history, for the concrete tables. -/
theorem no_write_readOk {n : ℕ} {T : ℕ → Row F} {init : F × F × F → Fin 8 → F} {j : ℕ}
    (hw : ∀ i < n, ¬ (IsWrite (T i) ∧ addr (T i) = addr (T j))) (h : ReadOk n T init j) : value (T j) = init (addr (T j)) := by
  rcases h with ⟨i, hi, _, h1, h2, _⟩ | h
  · exact absurd ⟨h1, h2⟩ (hw i hi)
  · exact h.1

instance (r : Row F) : Decidable (Real r) := by unfold Real; infer_instance
instance (r : Row F) : Decidable (IsWrite r) := by unfold IsWrite; infer_instance
instance (r : Row F) : Decidable (HandedOver r) := by unfold HandedOver; infer_instance
instance (s : F) : Decidable (ZeroInit s) := by unfold ZeroInit; infer_instance

/-- The first row may read any value: no constraint applies to it. -/
theorem C42_violated : ¬ C42_statement := by
  intro h
  obtain ⟨init, hz, hr⟩ := h 4 100 (mk firstReadRows) firstRead_accepted (by decide) (by decide) (by decide +kernel)
  have hv := no_write_readOk (by decide +kernel) (hr 0 (by decide) (by decide +kernel) (by decide +kernel))
  rw [hz _ (by decide +kernel)] at hv
  exact absurd (congrFun hv 0) (by decide +kernel)

/-- The hypotheses of `C42_reads` are met by the table `honestRows`. -/
example : ∃ init : F × F × F → Fin 8 → F, (∀ a, ZeroInit a.2.1 → init a = 0) ∧
    ∀ j < 8, Real (mk honestRows j) → ¬ IsWrite (mk honestRows j) → ReadOk 8 (mk honestRows) init j :=
  C42_reads (B := 100) honest_accepted (by decide) (by decide) (by decide +kernel) (by decide +kernel)

/-- Its fifth row reads `2^40`, which the fourth row wrote, and its sixth row reads zero. -/
example : value (mk honestRows 4) = value (mk honestRows 3) ∧ value (mk honestRows 4) 1 = 256 ∧ IsWrite (mk honestRows 3) ∧ value (mk honestRows 5) = 0 := by
  decide +kernel

/-! ### C43 -/

/-- `j` is the last real operation on its address: all the others are earlier. (Specification.) -/
def LastOp (n : ℕ) (T : ℕ → Row F) (j : ℕ) : Prop :=
  j < n ∧ Real (T j) ∧ ∀ k < n, k ≠ j → Real (T k) → addr (T k) = addr (T j) → time (T k) < time (T j)

/-- The context was pruned: the memory table announces it to the CPU table. `ctl_context_pruning_looking`, `memory_stark.rs:68-77`. -/
def Pruned (n : ℕ) (T : ℕ → Row F) (ctx : F) : Prop := ∃ i < n, T i IS_PRUNED = 1 ∧ T i STALE_CONTEXTS - 1 = ctx

/-- C43 in full: the last value of every address in a context that was not pruned, if it is not zero or its segment is
pre-initialised, is handed over, and no other value is handed over for that address. -/
def C43_statement : Prop := ∀ (n B : ℕ) (T : ℕ → Row F), Accepted n T → B + n * n ≤ P →
  (∀ i < n, Real (T i) → time (T i) < B) →
  ∀ j, LastOp n T j → ¬ Pruned n T (T j ADDR_CONTEXT) → value (T j) ≠ 0 ∨ ¬ ZeroInit (T j ADDR_SEGMENT) →
    (∃ e < n, HandedOver (T e) ∧ addr (T e) = addr (T j) ∧ value (T e) = value (T j)) ∧
    ∀ e < n, HandedOver (T e) → addr (T e) = addr (T j) → value (T e) = value (T j)

instance (n : ℕ) (T : ℕ → Row F) (j : ℕ) : Decidable (LastOp n T j) := by unfold LastOp; infer_instance
instance (n : ℕ) (T : ℕ → Row F) (c : F) : Decidable (Pruned n T c) := by unfold Pruned; infer_instance

/-- A read that no other table sees, after the last operation, makes the table drop the address's value. -/
theorem C43_violated_dropped : Accepted 4 (mk droppedRows) ∧ LastOp 4 (mk droppedRows) 1 ∧ ¬ Pruned 4 (mk droppedRows) (mk droppedRows 1 ADDR_CONTEXT) ∧
    value (mk droppedRows 1) ≠ 0 ∧ ¬ ∃ e < 4, HandedOver (mk droppedRows e) ∧ addr (mk droppedRows e) = addr (mk droppedRows 1) :=
  ⟨dropped_accepted, by decide +kernel, by decide +kernel, by decide +kernel, by decide +kernel⟩

/-- In a pre-initialised segment an overwritten value can be handed over instead of the last one. -/
theorem C43_violated_old_value : Accepted 4 (mk oldValueRows) ∧ LastOp 4 (mk oldValueRows) 1 ∧ ¬ Pruned 4 (mk oldValueRows) (mk oldValueRows 1 ADDR_CONTEXT) ∧
    value (mk oldValueRows 1) ≠ 0 ∧ HandedOver (mk oldValueRows 0) ∧ addr (mk oldValueRows 0) = addr (mk oldValueRows 1) ∧
    value (mk oldValueRows 0) ≠ value (mk oldValueRows 1) ∧
    ¬ ∃ e < 4, HandedOver (mk oldValueRows e) ∧ addr (mk oldValueRows e) = addr (mk oldValueRows 1) ∧ value (mk oldValueRows e) = value (mk oldValueRows 1) :=
  ⟨oldValue_accepted, by decide +kernel, by decide +kernel, by decide +kernel, by decide +kernel, by decide +kernel, by decide +kernel, by decide +kernel⟩

/-- A context can be declared stale without having been pruned, which drops its values. -/
theorem C43_violated_stale : Accepted 4 (mk fakeStaleRows) ∧ LastOp 4 (mk fakeStaleRows) 1 ∧ (∀ c, ¬ Pruned 4 (mk fakeStaleRows) c) ∧
    value (mk fakeStaleRows 1) ≠ 0 ∧ ¬ ∃ e < 4, HandedOver (mk fakeStaleRows e) ∧ addr (mk fakeStaleRows e) = addr (mk fakeStaleRows 1) := by
  refine ⟨fakeStale_accepted, by decide +kernel, ?_, by decide +kernel, by decide +kernel⟩
  rintro c ⟨i, hi, h1, -⟩
  have : ∀ i < 4, mk fakeStaleRows i IS_PRUNED ≠ 1 := by decide +kernel
  exact this i hi h1

/-- A row can be declared stale although no context is listed as stale, with a second row of weight `-1`. -/
theorem C43_violated_weights : Accepted 4 (mk cancelledRows) ∧ LastOp 4 (mk cancelledRows) 1 ∧ (∀ i < 4, mk cancelledRows i STALE_CONTEXTS = 0) ∧
    value (mk cancelledRows 1) ≠ 0 ∧ ¬ ∃ e < 4, HandedOver (mk cancelledRows e) ∧ addr (mk cancelledRows e) = addr (mk cancelledRows 1) :=
  ⟨cancelled_accepted, by decide +kernel, by decide +kernel, by decide +kernel, by decide +kernel⟩

theorem C43_violated : ¬ C43_statement := by
  intro h
  obtain ⟨hA, hL, hP, hv, hno⟩ := C43_violated_dropped
  obtain ⟨⟨e, he, h1, h2, _⟩, _⟩ := h 4 100 _ hA (by decide) (by decide +kernel) 1 hL hP (.inl hv)
  exact hno ⟨e, he, h1, h2⟩

section
variable {n : ℕ} {T : ℕ → Row F} (h : Accepted n T)
include h

/-- The selection of a row with a value that is not zero, when the next row's segment is zero-initialised. -/
theorem selection {i : ℕ} (hi : i + 1 < n) (hz : ZeroInit (T (i + 1) ADDR_SEGMENT)) (hv : value (T i) ≠ 0) :
    T i MEM_AFTER_FILTER = T i FILTER * (1 - unchanged (T i)) * (1 - T i IS_STALE) := by
  have hi' : i < n := by omega
  have ht : i + 1 ≠ n := by omega
  have v := fun c hc ha => h.values hi' (c := c) hc ha
  rw [Nat.mod_eq_of_lt hi] at v
  have h1 := v ⟨.transition, T i PREINITIALIZED_AUX -
    (T (i + 1) ADDR_SEGMENT - (ACCOUNTS_LINKED_LIST : F)) * (T (i + 1) ADDR_SEGMENT - (STORAGE_LINKED_LIST : F))⟩ (by simp [evalValues]) ht
  have h2 := v ⟨.transition, T i PREINITIALIZED -
    (T (i + 1) ADDR_SEGMENT - (CODE : F)) * (T (i + 1) ADDR_SEGMENT - (TRIE_DATA : F)) * T i PREINITIALIZED_AUX⟩ (by simp [evalValues]) ht
  have h3 := h.after hi' (c := ⟨.transition, T i MAYBE_IN_MEM_AFTER + T i FILTER * (1 - unchanged (T i)) * (T i IS_STALE - 1)⟩) (by simp [evalAfter]) ht
  dsimp only at h1 h2 h3
  obtain ⟨z0, z1, z2, z3⟩ := hz
  have hne : T i PREINITIALIZED ≠ 0 := by
    rw [sub_eq_zero.1 h2, sub_eq_zero.1 h1]
    refine mul_ne_zero (mul_ne_zero ?_ ?_) (mul_ne_zero ?_ ?_)
    · simpa using z0
    · exact sub_ne_zero.2 (by simpa using z1)
    · exact sub_ne_zero.2 (by simpa using z2)
    · exact sub_ne_zero.2 (by simpa using z3)
  obtain ⟨k, hk⟩ : ∃ k, value (T i) k ≠ 0 := by
    by_contra hc; push Not at hc; exact hv (funext hc)
  have h4 := h.after hi' (c := ⟨.always, (T i MEM_AFTER_FILTER - T i MAYBE_IN_MEM_AFTER) * T i PREINITIALIZED * T i (VALUE + k)⟩)
    (by simp only [evalAfter, List.mem_append, List.mem_map, List.mem_range]; exact .inr ⟨k, k.2, rfl⟩) trivial
  have h5 := (mul_eq_zero.1 ((mul_eq_zero.1 h4).resolve_right hk)).resolve_right hne
  linear_combination h5 + h3

theorem unchanged_bit {i : ℕ} (hi : i < n) : unchanged (T i) = 0 ∨ unchanged (T i) = 1 := by
  rcases flags h hi with ⟨_, _, _, u⟩ | ⟨_, _, _, u⟩ | ⟨_, _, _, u⟩ | ⟨_, _, _, u⟩ <;> simp [u]

/-- C43 restricted to rows that are followed by a row in a zero-initialised segment and that carry a value that is not zero: such a
row is handed over exactly if it is real, is not marked stale, and no later row, real or not, has its address. The full claim
also needs that no unreal row follows the last operation, that the mark agrees with the pruned contexts and that the selection in
and before pre-initialised segments is constrained, none of which the constraints give. -/
theorem C43_selected_partial (hn : n * n < P) {i : ℕ} (hi : i + 1 < n) (hz : ZeroInit (T (i + 1) ADDR_SEGMENT)) (hv : value (T i) ≠ 0)
    (hs : T i IS_STALE = 0 ∨ T i IS_STALE = 1) :
    HandedOver (T i) ↔ Real (T i) ∧ T i IS_STALE = 0 ∧ ∀ k < n, i < k → addr (T k) ≠ addr (T i) := by
  have hsel := selection h hi hz hv
  have hu := unchanged_bit h (show i < n by omega)
  have hlast : unchanged (T i) = 0 ↔ ∀ k < n, i < k → addr (T k) ≠ addr (T i) := by
    constructor
    · intro h0 k hk hik he
      have := contiguous h hn (le_of_lt hik) hk he.symm i (le_refl _) hik
      rw [h0] at this; exact absurd this (by decide +kernel)
    · intro hk
      rcases hu with hu | hu
      · exact hu
      · exact absurd (addr_of_unchanged h hn hi hu) (hk (i + 1) hi (by omega))
  unfold HandedOver Real
  rw [hsel, ← hlast]
  rcases filter_bit h (show i < n by omega) with hf | hf <;> rcases hu with hu | hu <;> rcases hs with hs | hs <;> rw [hf, hu, hs] <;> decide +kernel

/-- A row is handed over once or not at all: the weight with which it enters the final memory is a bit. -/
theorem C43_once {i : ℕ} (hi : i < n) : T i MEM_AFTER_FILTER = 0 ∨ T i MEM_AFTER_FILTER = 1 := by
  have h1 : T i MEM_AFTER_FILTER * (T i MEM_AFTER_FILTER - 1) = 0 :=
    h.after hi (c := ⟨.always, T i MEM_AFTER_FILTER * (T i MEM_AFTER_FILTER - 1)⟩) (by simp [evalAfter]) trivial
  rcases mul_eq_zero.1 h1 with h | h
  · exact .inl h
  · exact .inr (sub_eq_zero.1 h)

/-- When the marks are boolean, a row marked stale is in a listed context. -/
theorem C43_stale_listed (hn : n < P) (hs : ∀ i < n, T i IS_STALE = 0 ∨ T i IS_STALE = 1) {i : ℕ} (hi : i < n) (h1 : T i IS_STALE = 1) :
    ∃ k < n, T k STALE_CONTEXTS = T i ADDR_CONTEXT + 1 :=
  h.stale.mem (l := ⟨fun i => T i ADDR_CONTEXT + 1, fun i => T i IS_STALE⟩)
    (by intro l hl; simp only [staleLookups, List.mem_cons, List.not_mem_nil, or_false] at hl; subst hl; exact hs)
    (by simpa [staleLookups] using hn) (by simp [staleLookups]) hi h1

end

/-- Row 4 of `honestRows`, the last operation on the stack slot, meets the hypotheses and is handed over; row 3 is not. -/
example : HandedOver (mk honestRows 4) ∧ ¬ HandedOver (mk honestRows 3) :=
  ⟨(C43_selected_partial honest_accepted (by decide) (by decide) (by decide +kernel) (by decide +kernel) (by decide +kernel)).2
    ⟨by decide +kernel, by decide +kernel, by decide +kernel⟩,
   fun hh => ((C43_selected_partial honest_accepted (by decide) (i := 3) (by decide) (by decide +kernel) (by decide +kernel) (by decide +kernel)).1 hh).2.2
    4 (by decide) (by decide) (by decide +kernel)⟩

end Verif.Stark.Memory
