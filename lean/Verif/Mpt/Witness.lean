import Verif.Mpt.Fixed
import Verif.Mpt.PropsHash
/-!
# Sub-tries hide nothing that was asked for
-/
namespace Verif.Mpt

theorem hidden_leaf {n v k} : ¬ Hidden (.leaf n v) k := by
  rintro ⟨q, h, -, hl⟩
  simp only [lookup] at hl
  split at hl <;> simp at hl

theorem hidden_branch_cons {c v n k} : Hidden (.branch c v) (n :: k) ↔ Hidden (c n) k := by
  constructor
  · rintro ⟨q, h, hp, hl⟩
    cases q with
    | nil => exact absurd hl (lookup_branch_nil_ne_hash _ _ _)
    | cons m q =>
      obtain ⟨rfl, -⟩ := List.cons_prefix_cons.1 hp
      exact ⟨q, h, (List.cons_prefix_cons.1 hp).2, hl⟩
  · rintro ⟨q, h, hp, hl⟩
    exact ⟨n :: q, h, List.cons_prefix_cons.2 ⟨rfl, hp⟩, hl⟩

theorem hidden_branch_nil {c v} : ¬ Hidden (.branch c v) [] := by
  rintro ⟨q, h, hp, hl⟩
  rw [List.prefix_nil.1 hp] at hl
  exact lookup_branch_nil_ne_hash _ _ _ hl

theorem hidden_ext {n c k} : Hidden (.ext n c) k ↔ n <+: k ∧ Hidden c (k.drop n.length) := by
  constructor
  · rintro ⟨q, h, hp, hl⟩
    simp only [lookup] at hl
    split at hl
    · rename_i hn
      obtain ⟨r, rfl⟩ := hn
      obtain ⟨s, rfl⟩ := hp
      refine ⟨⟨r ++ s, by simp⟩, r, h, ?_, ?_⟩
      · exact ⟨s, by simp⟩
      · simpa using hl
    · cases hl
  · rintro ⟨⟨r, rfl⟩, q, h, hp, hl⟩
    refine ⟨n ++ q, h, ?_, by rw [lookup_ext_append]; exact hl⟩
    rw [List.drop_left] at hp
    exact (List.prefix_append_right_inj n).2 hp

/-- A requested key is not hidden by pruning. -/
theorem prune_hidden {keccak b t ks k r} (hk : k ∈ ks) (h : get t k = .ok r)
    (hx : ∀ n c, Sub (.ext n c) t → n ≠ []) (hh : Hidden (prune keccak b t ks) k) : Hidden t k := by
  induction t generalizing b ks k with
  | empty => exact hh
  | hash => exact hh
  | leaf n v =>
    have : visits (.leaf n v) ks = true := by
      cases ks with
      | nil => simp at hk
      | cons => rfl
    simp only [prune, this, Bool.or_true] at hh
    exact hh
  | ext n c ih =>
    have hn := hx n c (.refl _)
    simp only [get] at h
    split at h
    · simp at h
    · rename_i hl
      have hk0 : k ≠ [] := by
        intro h0; subst h0
        cases n <;> simp_all
      have : visits (.ext n c) ks = true := by
        simp only [visits, List.any_eq_true]
        exact ⟨k, hk, by cases k <;> simp_all⟩
      simp only [prune, this, Bool.or_true] at hh
      obtain ⟨hp, hh⟩ := hidden_ext.1 hh
      rw [if_pos ((ident_take n k (by omega)).2 hp)] at h
      refine hidden_ext.2 ⟨hp, ih ?_ h (fun n' c' hs => hx n' c' (.ext hs)) hh⟩
      simp only [stripExt, List.mem_filterMap]
      refine ⟨k, hk, ?_⟩
      have : ident k n = true := (ident_iff _ _).2 (.inr hp)
      have hke : k.isEmpty = false := by cases k <;> simp_all
      simp [this, hke]
  | branch c v ih =>
    have : visits (.branch c v) ks = true := by
      cases ks with
      | nil => simp at hk
      | cons => rfl
    simp only [prune, this, Bool.or_true] at hh
    cases k with
    | nil => exact absurd hh hidden_branch_nil
    | cons n k =>
      simp only [get] at h
      refine hidden_branch_cons.2 (ih n ?_ h (fun n' c' hs => hx n' c' (.branch hs))
        (hidden_branch_cons.1 hh))
      simp only [strip, List.mem_filterMap]
      exact ⟨n :: k, hk, by simp⟩

/-- Extensions of canonical tries are not empty. -/
theorem wf_ext_ne {t : Node} (h : WF t) : ∀ n c, Sub (.ext n c) t → n ≠ [] := by
  induction t with
  | empty => intro n c hs; cases hs
  | hash => intro n c hs; cases hs
  | leaf => intro n c hs; cases hs
  | ext m d ih =>
    intro n c hs
    cases hs with
    | refl => exact h.1
    | ext hs => exact ih h.2.2 n c hs
  | branch d v ih =>
    intro n c hs
    cases hs with
    | branch hs => exact ih _ (h.2.1 _) n c hs

/-- A sub-trie answers every requested key like the trie it was taken from, and hides none of them. -/
theorem Fixed.subset {m : Nat} {t t' : Node} {ks : List Key} {keccak} (ht : Fixed m t)
    (h : createSubset keccak t ks = .ok t') {k : Key} (hk : k ∈ ks) (hl : k.length = m) :
    Mpt.get t' k = Mpt.get t k ∧ (Hidden t' k → Hidden t k) := by
  have hg := ht.get hl
  rw [createSubset_eq h]
  exact ⟨by rw [hg]; exact prune_get hk hg (wf_ext_ne ht.wf),
    fun hh => prune_hidden hk hg (wf_ext_ne ht.wf) hh⟩

end Verif.Mpt
