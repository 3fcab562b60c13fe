import Verif.Decoder.Model
/-!
# C23: splitting a block into batches
-/
namespace Verif.Decoder

theorem chunks_nil {α} (n : Nat) : chunks n ([] : List α) = [] := by
  rw [chunks]; simp

theorem chunks_cons {α} {n : Nat} {l : List α} (hl : l ≠ []) (hn : 0 < n) :
    chunks n l = l.take n :: chunks n (l.drop n) := by
  rw [chunks, dif_neg (fun h => h.elim hl (by omega))]

theorem chunks_flatten {α} {n : Nat} (hn : 0 < n) (l : List α) : (chunks n l).flatten = l := by
  induction l using chunks.induct n with
  | case1 l h =>
    rcases h with rfl | h
    · rw [chunks_nil]; rfl
    · omega
  | case2 l h ih =>
    rw [chunks_cons (fun h' => h (.inl h')) hn, List.flatten_cons, ih, List.take_append_drop]

theorem chunks_mem {α} {n : Nat} (hn : 0 < n) {l b : List α} (hb : b ∈ chunks n l) :
    b ≠ [] ∧ b.length ≤ n := by
  induction l using chunks.induct n with
  | case1 l h =>
    rcases h with rfl | h
    · rw [chunks_nil] at hb; simp at hb
    · omega
  | case2 l h ih =>
    have hl : l ≠ [] := fun h' => h (.inl h')
    rw [chunks_cons hl hn] at hb
    rcases List.mem_cons.1 hb with rfl | hb
    · refine ⟨?_, by simp; omega⟩
      have : 0 < l.length := List.length_pos_iff.2 hl
      apply List.length_pos_iff.1
      simp; omega
    · exact ih hb

theorem chunks_eq_nil {α} {n : Nat} (hn : 0 < n) {l : List α} : chunks n l = [] ↔ l = [] := by
  constructor
  · intro h
    have := chunks_flatten hn l
    rw [h] at this; exact this.symm
  · rintro rfl; exact chunks_nil n

theorem chunks_two {α} {n : Nat} (hn : 0 < n) {l : List α} :
    2 ≤ (chunks n l).length ↔ n < l.length := by
  by_cases hl : l = []
  · subst hl; rw [chunks_nil]; simp
  · rw [chunks_cons hl hn, List.length_cons]
    have : 1 ≤ (chunks n (l.drop n)).length ↔ l.drop n ≠ [] := by
      rw [Ne, ← chunks_eq_nil hn, ← List.length_eq_zero_iff]; omega
    rw [show 2 ≤ (chunks n (l.drop n)).length + 1 ↔ 1 ≤ (chunks n (l.drop n)).length by omega, this,
      Ne, List.drop_eq_nil_iff]
    omega

theorem chunks_dropLast {α} {n : Nat} (hn : 0 < n) {l b : List α} (hb : b ∈ (chunks n l).dropLast) :
    b.length = n := by
  induction l using chunks.induct n with
  | case1 l h =>
    rcases h with rfl | h
    · rw [chunks_nil] at hb; simp at hb
    · omega
  | case2 l h ih =>
    have hl : l ≠ [] := fun h' => h (.inl h')
    rw [chunks_cons hl hn] at hb
    by_cases hc : chunks n (l.drop n) = []
    · rw [hc] at hb; simp at hb
    · rw [List.dropLast_cons_of_ne_nil hc] at hb
      rcases List.mem_cons.1 hb with rfl | hb
      · have : l.drop n ≠ [] := fun h' => hc ((chunks_eq_nil hn).2 h')
        rw [Ne, List.drop_eq_nil_iff] at this
        simp; omega
      · exact ih hb

/-- **C23**. For every block and every requested batch size: the batches, read in order, are the
transactions of the block followed by as many dummies as are needed to have two entries; there are at
least two batches; no batch is empty; no batch is larger than requested (a request of 0 counts as 1);
and if the block is larger than one batch, all batches but the last have exactly the requested size. -/
theorem C23_batches (txns : List Txn) (hint : Nat) :
    (batch txns hint).flatten = txns.map some ++ List.replicate (2 - txns.length) none ∧
    2 ≤ (batch txns hint).length ∧
    (∀ b ∈ batch txns hint, b ≠ [] ∧ b.length ≤ max hint 1) ∧
    (max hint 1 < txns.length → ∀ b ∈ (batch txns hint).dropLast, b.length = max hint 1) := by
  have hn : 0 < max hint 1 := by omega
  have h2 := chunks_two hn (l := txns.map some)
  simp only [List.length_map] at h2
  unfold batch
  simp only [List.length_map]
  by_cases hc : 2 ≤ (chunks (max hint 1) (txns.map some)).length
  · rw [if_pos hc]
    have := h2.1 hc
    refine ⟨?_, hc, fun b hb => chunks_mem hn hb, fun _ b hb => chunks_dropLast hn hb⟩
    rw [chunks_flatten hn, show 2 - txns.length = 0 by omega]; simp
  · rw [if_neg hc]
    have hle : txns.length ≤ max hint 1 := by omega
    by_cases hl : 2 ≤ txns.length
    · rw [if_pos hl]
      refine ⟨?_, by simp, ?_, fun h => by omega⟩
      · rw [show 2 - txns.length = 0 by omega]; simp
      · intro b hb
        simp only [List.mem_cons, List.not_mem_nil, or_false] at hb
        rcases hb with rfl | rfl <;> refine ⟨List.length_pos_iff.1 ?_, ?_⟩ <;>
          simp only [List.length_take, List.length_drop, List.length_map] <;> omega
    · rw [if_neg hl]
      refine ⟨?_, ?_, ?_, fun h => by omega⟩
      · generalize txns.map some ++ List.replicate (2 - txns.length) none = l
        induction l with
        | nil => rfl
        | cons a l ih => simp [ih]
      · simp; omega
      · intro b hb
        obtain ⟨t, -, rfl⟩ := List.mem_map.1 hb
        exact ⟨by simp, by simp; omega⟩

example : (batch [{ gasUsed := 1 }, { gasUsed := 2 }, { gasUsed := 3 }] 2).map (·.map (·.map (·.gasUsed)))
    = [[some 1, some 2], [some 3]] ∧
    (batch [{ gasUsed := 1 }, { gasUsed := 2 }, { gasUsed := 3 }] 9).map (·.map (·.map (·.gasUsed)))
    = [[some 1], [some 2, some 3]] ∧
    (batch [{ gasUsed := 1 }] 4).map (·.map (·.map (·.gasUsed))) = [[some 1], [none]] := by
  refine ⟨?_, ?_, ?_⟩
  · simp [batch, chunks]
  · simp [batch, chunks]
  · simp [batch, chunks]

theorem batch_flatten_filterMap (txns : List Txn) (hint : Nat) :
    (batch txns hint).flatten.filterMap id = txns := by
  rw [(C23_batches txns hint).1, List.filterMap_append, List.filterMap_map]
  have : (List.replicate (2 - txns.length) (none : Option Txn)).filterMap id = [] := by
    generalize 2 - txns.length = n
    induction n with
    | zero => rfl
    | succ n ih => simp [List.replicate_succ]
  rw [this]
  simp

end Verif.Decoder
