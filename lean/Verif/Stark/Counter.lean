import Verif.Stark.Lookup
import Verif.Stark.Arith.Table

/-! Range checks by a counter column: what the constraints on the counter and the lookup enforce, and that a counter filled as
the tables do satisfies the lookup. Shared by the byte packing and the Keccak sponge tables. -/

namespace Verif.Stark

open Finset Arith

/-- A column that starts at 0, grows by 0 or 1 and ends at `m` only holds numbers up to `m`. -/
theorem counter_bound {c : ℕ → F} {n m : ℕ} (hnP : n < P) (hm : m < P) (h0 : c 0 = 0)
    (hs : ∀ i, i + 1 < n → (c (i + 1) - c i) * (c (i + 1) - c i) - (c (i + 1) - c i) = 0) (hl : c (n - 1) = m) :
    ∀ i < n, ∃ k ≤ m, c i = (k : F) := by
  have key : ∀ i < n, ∃ k ≤ i, c i = (k : F) ∧ ∀ j ≤ i, ∃ l ≤ k, c j = (l : F) := by
    intro i
    induction i with
    | zero =>
      intro _
      refine ⟨0, le_rfl, by rw [h0]; simp, fun j hj => ⟨0, le_rfl, ?_⟩⟩
      rw [Nat.le_zero.1 hj, h0]; simp
    | succ i ih =>
      intro hi
      obtain ⟨k, hk, hT, hj⟩ := ih (by omega)
      obtain ⟨b, hb, he, -⟩ := nat_bit (hs i hi)
      have hT' : c (i + 1) = ((k + b : ℕ) : F) := by push_cast; rw [← hT, ← he]; ring
      refine ⟨k + b, by omega, hT', fun j hj' => ?_⟩
      rcases Nat.lt_or_ge j (i + 1) with hlt | hge
      · obtain ⟨l, hl, hl'⟩ := hj j (by omega)
        exact ⟨l, by omega, hl'⟩
      · obtain rfl : j = i + 1 := by omega
        exact ⟨k + b, le_rfl, hT'⟩
  intro i hi
  obtain ⟨k, hk, hT, hall⟩ := key (n - 1) (by omega)
  have : k = m := lift_nat (by rw [← hT, hl]) (by omega) hm
  subst this
  exact hall i (by omega)

/-- The number of cells of the looking columns that hold `x`. -/
def occurrences (n : ℕ) (looking : List Looking) (x : ℕ) : ℕ := (looking.map (fun l => #{i ∈ range n | l.col i = (x : F)})).sum

/-- A counter `0, 1, …, N - 1, N - 1, …` with the numbers of occurrences as frequencies satisfies the lookup of columns without filter
that hold numbers below `N`. -/
theorem logUp_counter {n N : ℕ} {looking : List Looking} (hNn : N ≤ n) (hNP : N ≤ P) (hf : ∀ l ∈ looking, ∀ i < n, l.filter i = 1)
    (hc : ∀ l ∈ looking, ∀ i < n, ∃ x < N, l.col i = (x : F)) :
    LogUp n looking (fun i => ((if i < N then i else N - 1 : ℕ) : F)) (fun i => if i < N then (occurrences n looking i : F) else 0) := by
  intro v
  have hL : (looking.map (fun l => ∑ i ∈ range n with l.col i = v, l.filter i)).sum =
      (looking.map (fun l => ((#{i ∈ range n | l.col i = v} : ℕ) : F))).sum := by
    refine congrArg List.sum (List.map_congr_left (fun l hl => ?_))
    rw [sum_congr rfl (g := fun _ => (1 : F)) (fun i hi => hf l hl i (mem_range.1 (mem_filter.1 hi).1)), sum_const, nsmul_eq_mul, mul_one]
  rw [hL]
  beta_reduce
  by_cases hv : ∃ x < N, v = (x : F)
  · obtain ⟨x, hx, rfl⟩ := hv
    rw [sum_eq_single x]
    · rw [if_pos hx, occurrences, Nat.cast_list_sum, List.map_map]
      rfl
    · intro i hi hne
      obtain ⟨hi, he⟩ := mem_filter.1 hi
      by_cases hiN : i < N
      · rw [if_pos hiN] at he
        exact absurd (lift_nat he (by omega) (by omega)) hne
      · rw [if_neg hiN]
    · intro hni
      exact absurd (mem_filter.2 ⟨mem_range.2 (by omega), by rw [if_pos hx]⟩) hni
  · push Not at hv
    rw [sum_eq_zero, List.sum_eq_zero]
    · intro y hy
      obtain ⟨l, hl, rfl⟩ := List.mem_map.1 hy
      rw [filter_eq_empty_iff.2, card_empty, Nat.cast_zero]
      intro i hi he
      obtain ⟨x, hx, e⟩ := hc l hl i (mem_range.1 hi)
      exact hv x hx (by rw [← he, e])
    · intro i hi
      obtain ⟨hi, he⟩ := mem_filter.1 hi
      by_cases hiN : i < N
      · rw [if_pos hiN] at he
        exact absurd he.symm (hv i hiN)
      · rw [if_neg hiN]

end Verif.Stark
