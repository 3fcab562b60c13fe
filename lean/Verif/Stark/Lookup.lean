import Verif.Stark.Consumer

/-! What a lookup argument enforces. The code's tables pass lists of looking columns with filters, a looked-up column and a
frequency column to starky's `Lookup` (`starky::lookup`, imported for instance at
`evm_arithmetization/src/memory/memory_stark.rs:19`); the argument compares the two sums of fractions
`Σ filter / (α + looking) = Σ frequency / (α + looked)` at a random point, that is, it compares for each value the total filter
weight of the looking rows with the total frequency of the looked-up rows. Filters are not required to be boolean. -/

namespace Verif.Stark

open Finset

/-- A looking column with its filter, as functions of the row index. -/
structure Looking where
  col : ℕ → F
  filter : ℕ → F

/-- Every value has the same total weight on both sides. (The probabilistic check of starky, which is not modelled.) -/
def LogUp (n : ℕ) (looking : List Looking) (table freq : ℕ → F) : Prop :=
  ∀ v : F, (looking.map (fun l => ∑ i ∈ range n with l.col i = v, l.filter i)).sum = ∑ i ∈ range n with table i = v, freq i

/-- The number of rows of a column that carry the value `v` and have their filter set. -/
def weight (n : ℕ) (l : Looking) (v : F) : ℕ := #{i ∈ range n | l.col i = v ∧ l.filter i = 1}

theorem weight_le (n : ℕ) (l : Looking) (v : F) : weight n l v ≤ n := by
  have := card_filter_le (range n) (fun i => l.col i = v ∧ l.filter i = 1)
  rwa [card_range] at this

theorem weight_cast {n : ℕ} {l : Looking} (h : ∀ i < n, l.filter i = 0 ∨ l.filter i = 1) (v : F) :
    ∑ i ∈ range n with l.col i = v, l.filter i = (weight n l v : F) := by
  unfold weight
  rw [← filter_filter, card_filter, Nat.cast_sum]
  refine sum_congr rfl (fun i hi => ?_)
  have hi := mem_range.1 (mem_filter.1 hi).1
  rcases h i hi with h | h <;> rw [h] <;> simp

/-- With boolean filters a looked-up value appears in the table. -/
theorem LogUp.mem {n : ℕ} {looking : List Looking} {table freq : ℕ → F} (h : LogUp n looking table freq)
    (hb : ∀ l ∈ looking, ∀ i < n, l.filter i = 0 ∨ l.filter i = 1) (hn : looking.length * n < P)
    {l : Looking} (hl : l ∈ looking) {i : ℕ} (hi : i < n) (hf : l.filter i = 1) : ∃ k < n, table k = l.col i := by
  by_contra hc
  push Not at hc
  have hv := h (l.col i)
  have hz : ∑ k ∈ range n with table k = l.col i, freq k = 0 := by
    rw [filter_eq_empty_iff.2 (fun k hk => hc k (mem_range.1 hk)), sum_empty]
  rw [hz] at hv
  have hcast : ∀ ls : List Looking, (∀ l ∈ ls, l ∈ looking) →
      (ls.map (fun l' => ∑ k ∈ range n with l'.col k = l.col i, l'.filter k)).sum = (((ls.map (fun l' => weight n l' (l.col i))).sum : ℕ) : F) := by
    intro ls hls
    induction ls with
    | nil => simp
    | cons a t ih =>
      rw [List.map_cons, List.sum_cons, ih (fun l hl => hls l (List.mem_cons_of_mem _ hl)), weight_cast (hb a (hls a List.mem_cons_self)),
        List.map_cons, List.sum_cons, Nat.cast_add]
  rw [hcast looking (fun _ h => h)] at hv
  have hle : ∀ ls : List Looking, (ls.map (fun l' => weight n l' (l.col i))).sum ≤ ls.length * n := by
    intro ls
    induction ls with
    | nil => simp
    | cons a t ih =>
      rw [List.map_cons, List.sum_cons, List.length_cons, Nat.succ_mul]
      have := weight_le n a (l.col i)
      omega
  have hpos : 1 ≤ (looking.map (fun l' => weight n l' (l.col i))).sum := by
    have h1 : weight n l (l.col i) ≤ (looking.map (fun l' => weight n l' (l.col i))).sum :=
      List.single_le_sum (fun _ _ => Nat.zero_le _) _ (List.mem_map_of_mem hl)
    have h2 : 0 < weight n l (l.col i) := card_pos.2 ⟨i, mem_filter.2 ⟨mem_range.2 hi, rfl, hf⟩⟩
    omega
  have hdvd := (ZMod.natCast_eq_zero_iff _ P).1 hv
  have := Nat.le_of_dvd hpos hdvd
  have := hle looking
  omega

/-- To check a lookup it is enough to compare the values that occur. -/
theorem LogUp.of_values {n : ℕ} {looking : List Looking} {table freq : ℕ → F} (vals : List F)
    (hcol : ∀ l ∈ looking, ∀ i < n, l.col i ∈ vals ∨ l.filter i = 0) (htab : ∀ i < n, table i ∈ vals ∨ freq i = 0)
    (h : ∀ v ∈ vals, (looking.map (fun l => ∑ i ∈ range n with l.col i = v, l.filter i)).sum = ∑ i ∈ range n with table i = v, freq i) :
    LogUp n looking table freq := by
  intro v
  by_cases hv : v ∈ vals
  · exact h v hv
  · have h1 : ∑ i ∈ range n with table i = v, freq i = 0 := by
      refine sum_eq_zero (fun i hi => ?_)
      obtain ⟨hi, he⟩ := mem_filter.1 hi
      rcases htab i (mem_range.1 hi) with h | h
      · exact absurd (he ▸ h) hv
      · exact h
    rw [h1]
    refine List.sum_eq_zero (fun x hx => ?_)
    obtain ⟨l, hl, rfl⟩ := List.mem_map.1 hx
    refine sum_eq_zero (fun i hi => ?_)
    obtain ⟨hi, he⟩ := mem_filter.1 hi
    rcases hcol l hl i (mem_range.1 hi) with h | h
    · exact absurd (he ▸ h) hv
    · exact h

end Verif.Stark
