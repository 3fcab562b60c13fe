import Verif.Mpt.Collapse
import Verif.Mpt.Mask
/-!
# Partial tries with fixed-length keys

All values sit at exactly 64 nibbles; sub-tries may be hashed out.  A successful insert or delete acts
on such a trie as on a map, and a read returns the map's entry (nothing below a hash node).
-/
namespace Verif.Mpt

/-- Canonical trie whose values sit at exactly `m` nibbles and whose hash nodes are not deeper. -/
structure Fixed (m : Nat) (t : Node) : Prop where
  wf : WF t
  val : ∀ k v, lookup t k = some (.val v) → k.length = m
  hash : ∀ k h, lookup t k = some (.hash h) → k.length ≤ m

/-- The value stored at a key. -/
def valueAt (t : Node) (k : Key) : Option Bytes :=
  match lookup t k with
  | some (.val v) => some v
  | _ => none

theorem Fixed.empty (m) : Fixed m .empty := ⟨trivial, by simp, by simp⟩

theorem Fixed.bounded {m t} (h : Fixed m t) : Bounded m t := by
  intro k hk
  cases he : lookup t k with
  | none => exact absurd he hk
  | some e =>
    cases e with
    | val v => exact Nat.le_of_eq (h.val k v he)
    | hash x => exact h.hash k x he

theorem Fixed.branch {m c v} (h : Fixed (m + 1) (.branch c v)) (i : Nib) : Fixed m (c i) := by
  refine ⟨h.wf.2.1 i, fun k w hk => ?_, fun k x hk => ?_⟩
  · have := h.val (i :: k) w (by simpa [lookup] using hk)
    simpa using this
  · have := h.hash (i :: k) x (by simpa [lookup] using hk)
    simpa using this

theorem Fixed.ext {m n c} (h : Fixed (n.length + m) (.ext n c)) : Fixed m c := by
  refine ⟨h.wf.2.2, fun k w hk => ?_, fun k x hk => ?_⟩
  · have := h.val (n ++ k) w (by rwa [lookup_ext_append])
    simpa using this
  · have := h.hash (n ++ k) x (by rwa [lookup_ext_append])
    simpa using this

theorem Fixed.get {m t k} (h : Fixed m t) (hk : k.length = m) : get t k = .ok (valueAt t k) := by
  induction t generalizing m k with
  | empty => simp [Mpt.get, valueAt]
  | hash x => simp only [Mpt.get, valueAt, lookup]; split <;> simp_all
  | leaf n v =>
    have hn := h.val n v (by simp [lookup])
    simp only [Mpt.get, valueAt, lookup, ident_iff]
    by_cases he : k = n
    · subst he; simp
    · have : ¬ (n <+: k ∨ k <+: n) := by
        rintro (hp | hp)
        · exact he (hp.eq_of_length (by omega)).symm
        · exact he (hp.eq_of_length (by omega))
      simp [he, this]
  | branch c v ih =>
    cases k with
    | nil =>
      have := h.wf.1
      subst this
      simp [Mpt.get, valueAt, lookup]
    | cons i k =>
      obtain rfl : m = k.length + 1 := by simpa using hk.symm
      have := ih i (h.branch i) (k := k) rfl
      simpa [Mpt.get, valueAt, lookup] using this
  | ext n c ih =>
    obtain ⟨hn, hc, hw⟩ := h.wf
    obtain ⟨k', e, hk'⟩ := exists_lookup hw (by
      rcases hc with hb | hb <;> cases c <;> simp_all [Node.isBranch, Node.isHash, Node.isEmpty])
    have hle := h.bounded (n ++ k') (by rw [lookup_ext_append, hk']; simp)
    have hnl : n.length ≤ k.length := by simp at hle; omega
    have hnl' : ¬ k.length < n.length := by omega
    simp only [Mpt.get, hnl', if_false, ident_take n k hnl, valueAt, lookup]
    by_cases hp : n <+: k
    · obtain ⟨r, rfl⟩ := hp
      obtain rfl : m = n.length + r.length := by simpa using hk.symm
      have := ih h.ext (k := r) rfl
      simpa [valueAt] using this
    · simp [hp]

/-- A key either runs below a hash node or is compatible with all entries. -/
theorem Fixed.compat_or {m t k} (h : Fixed m t) (hk : k.length = m) : Compat t k ∨ Hidden t k := by
  by_cases hh : Hidden t k
  · exact .inr hh
  · refine .inl fun k' hk' hp => ?_
    cases he : lookup t k' with
    | none => exact absurd he hk'
    | some e =>
      cases e with
      | val v =>
        have := h.val k' v he
        rcases hp with hp | hp
        · exact hp.eq_of_length (by omega)
        · exact (hp.eq_of_length (by omega)).symm
      | hash x =>
        have := h.hash k' x he
        rcases hp with hp | hp
        · exact absurd ⟨k', x, hp, he⟩ hh
        · exact (hp.eq_of_length (by have := hp.length_le; omega)).symm

theorem lookup_branch_nil_ne_hash (c v x) : lookup (.branch c v) [] ≠ some (.hash x) := by
  simp only [lookup]; split <;> simp

theorem hidden_insert {t k e} (h : Hidden t k) : ∃ f, insertRec t k e = .error f := by
  obtain ⟨q, x, hq, hl⟩ := h
  induction t generalizing k q with
  | empty => simp at hl
  | hash y => exact ⟨_, rfl⟩
  | leaf n v => simp only [lookup] at hl; split at hl <;> simp at hl
  | branch c v ih =>
    cases q with
    | nil => exact absurd hl (lookup_branch_nil_ne_hash _ _ _)
    | cons i q =>
      cases k with
      | nil => simp at hq
      | cons j k =>
        obtain ⟨rfl, hq'⟩ := List.cons_prefix_cons.1 hq
        obtain ⟨f, hf⟩ := ih i (k := k) q hq' (by simpa [lookup] using hl)
        exact ⟨f, by simp [insertRec, hf]⟩
  | ext n c ih =>
    simp only [lookup] at hl
    split at hl
    · rename_i hn
      obtain ⟨r, rfl⟩ := hn
      obtain ⟨s, rfl⟩ := hq
      obtain ⟨f, hf⟩ := ih (k := r ++ s) r (by simp) (by simpa using hl)
      refine ⟨f, ?_⟩
      have : ident n (n ++ (r ++ s)) = true := (ident_iff _ _).2 (.inl (by simp))
      simp [insertRec, this, List.append_assoc, hf]
    · simp at hl

theorem hidden_deleteRec {s t k} (h : Hidden t k) : ∃ f, deleteRec s t k = .error f := by
  obtain ⟨q, x, hq, hl⟩ := h
  induction t generalizing k q with
  | empty => simp at hl
  | hash y => exact ⟨_, rfl⟩
  | leaf n v => simp only [lookup] at hl; split at hl <;> simp at hl
  | branch c v ih =>
    cases q with
    | nil => exact absurd hl (lookup_branch_nil_ne_hash _ _ _)
    | cons i q =>
      cases k with
      | nil => simp at hq
      | cons j k =>
        obtain ⟨rfl, hq'⟩ := List.cons_prefix_cons.1 hq
        obtain ⟨f, hf⟩ := ih i (k := k) q hq' (by simpa [lookup] using hl)
        exact ⟨f, by simp [deleteRec, hf]⟩
  | ext n c ih =>
    simp only [lookup] at hl
    split at hl
    · rename_i hn
      obtain ⟨r, rfl⟩ := hn
      obtain ⟨u, rfl⟩ := hq
      obtain ⟨f, hf⟩ := ih (k := r ++ u) r (by simp) (by simpa using hl)
      refine ⟨f, ?_⟩
      have : ident n (n ++ (r ++ u)) = true := (ident_iff _ _).2 (.inl (by simp))
      simp [deleteRec, this, List.append_assoc, hf]
    · simp at hl

/-- A successful insert acts as on a map. -/
theorem Fixed.insert {m t k v t'} (h : Fixed m t) (hk : k.length = m)
    (hi : insert t k (.val v) = .ok t') :
    Fixed m t' ∧ ∀ k', lookup t' k' = if k' = k then some (.val v) else lookup t k' := by
  rcases h.compat_or hk with hc | hh
  · have hl := lookup_insertRec hi (hc.insOk h.wf _)
    refine ⟨⟨(insertRec_wf h.wf hc hi).1, fun k' w hw => ?_, fun k' x hx => ?_⟩, hl⟩
    · rw [hl] at hw
      split at hw
      · rename_i he; rw [he]; exact hk
      · exact h.val k' w hw
    · rw [hl] at hx
      split at hx
      · simp at hx
      · exact h.hash k' x hx
  · obtain ⟨f, hf⟩ := hidden_insert (e := .val v) hh
    simp [Mpt.insert, hf] at hi

/-- A successful delete acts as on a map. -/
theorem Fixed.delete {m t k s t' r} (h : Fixed m t) (hm : m ≤ 64) (hk : k.length = m)
    (hd : delete s t k = .ok (t', r)) :
    Fixed m t' ∧ r = valueAt t k ∧ ∀ k', lookup t' k' = if k' = k then none else lookup t k' := by
  rcases h.compat_or hk with hc | hh
  · have hb : Bounded 64 t := fun k' hk' => Nat.le_trans (h.bounded k' hk') hm
    obtain ⟨h1, h2⟩ := (delete_spec (s := s) h.wf hc hb).2 t' r hd
    refine ⟨⟨h2.1, fun k' w hw => ?_, fun k' x hx => ?_⟩, ?_, h2.2⟩
    · rw [h2.2] at hw
      split at hw
      · simp at hw
      · exact h.val k' w hw
    · rw [h2.2] at hx
      split at hx
      · simp at hx
      · exact h.hash k' x hx
    · unfold valueAt
      rw [h1]
      cases r <;> rfl
  · obtain ⟨f, hf⟩ := hidden_deleteRec (s := s) hh
    simp [Mpt.delete, hf] at hd

theorem reportingRemove_delete {s t k t' o} (h : reportingRemove s t k = .ok (t', o)) :
    ∃ r, delete s t k = .ok (t', r) := by
  unfold reportingRemove at h
  simp only at h
  split at h
  · simp at h
  · rename_i t1 r hd
    split at h
    · simp only [Except.ok.injEq, Prod.mk.injEq] at h
      exact ⟨r, by rw [hd, h.1]⟩
    · simp at h

end Verif.Mpt
