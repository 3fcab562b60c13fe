import Verif.Mpt.History
/-! The iterator (a stack machine) produces the recursive traversal of the trie. -/
namespace Verif.Mpt

/-- Recursive traversal: children in nibble order, then the branch value. -/
def entries : Node → Key → List (Key × Entry)
  | .empty, _ => []
  | .hash h, k => [(k, .hash h)]
  | .branch c v, k =>
    (List.finRange 16).flatMap (fun i => entries (c i) (k ++ [i])) ++
      (if v.isEmpty then [] else [(k, .val v)])
  | .ext n c, k => entries c (k ++ n)
  | .leaf n v, k => [(k ++ n, .val v)]

/-- Every extension points to a branch or a hash node. -/
def ExtOk : Node → Prop
  | .branch c _ => ∀ i, ExtOk (c i)
  | .ext _ c => (c.isBranch = true ∨ c.isHash = true) ∧ ExtOk c
  | _ => True

/-- No path of the trie is longer than `m` nibbles. -/
def Fits : Nat → Node → Prop
  | m, .branch c _ => 0 < m ∧ ∀ i, Fits (m - 1) (c i)
  | m, .ext n c => n.length ≤ m ∧ Fits (m - n.length) c
  | m, .leaf n _ => n.length ≤ m
  | _, _ => True

theorem WF.extOk {t} (h : WF t) : ExtOk t := by
  induction t with
  | branch c v ih => exact fun i => ih i (h.2.1 i)
  | ext n c ih => exact ⟨h.2.1, ih h.2.2⟩
  | _ => trivial

theorem WF.fits {t} (h : WF t) {m} (hb : Bounded m t) : Fits m t := by
  induction t generalizing m with
  | branch c v ih =>
    obtain ⟨hv, hws, i, j, -, hi, -⟩ := h
    obtain ⟨k, e, hk⟩ := exists_lookup (hws i) hi
    have h0 := hb (i :: k) (by rw [lookup_branch_cons, hk]; simp)
    simp only [List.length_cons] at h0
    refine ⟨by omega, fun i => ih i (hws i) (fun k hk => ?_)⟩
    have := hb (i :: k) (by rw [lookup_branch_cons]; exact hk)
    simp at this; omega
  | ext n c ih =>
    have hne : c.isEmpty = false := by
      rcases h.2.1 with hb | hb <;> cases c <;> simp_all [Node.isBranch, Node.isHash, Node.isEmpty]
    obtain ⟨k, e, hk⟩ := exists_lookup h.2.2 hne
    have h0 := hb (n ++ k) (by rw [lookup_ext_append, hk]; simp)
    simp only [List.length_append] at h0
    refine ⟨by omega, ih h.2.2 (fun k hk => ?_)⟩
    have := hb (n ++ k) (by rw [lookup_ext_append]; exact hk)
    simp at this; omega
  | leaf n v => exact hb n (by simp [lookup])
  | _ => trivial

/-- Execution of the iterator loop: from `it`, emitting `l`, to `it'`. -/
inductive Runs : Iter → List (Key × Entry) → Iter → Prop
  | refl (it) : Runs it [] it
  | step {it it1 it' o l} : iterStep it = .ok (some (it1, o)) → Runs it1 l it' →
      Runs it (o.toList ++ l) it'

theorem Runs.trans {a b c l l'} (h : Runs a l b) (h' : Runs b l' c) : Runs a (l ++ l') c := by
  induction h with
  | refl => simpa using h'
  | step hs _ ih => rw [List.append_assoc]; exact .step hs (ih h')

theorem Runs.collect {it l it'} (h : Runs it l it') (hend : it'.stack = []) :
    ∃ N, ∀ fuel, N ≤ fuel → Mpt.collect fuel it = some (.ok l) := by
  induction h with
  | refl it =>
    refine ⟨1, fun fuel hf => ?_⟩
    obtain ⟨fuel, rfl⟩ : ∃ f, fuel = f + 1 := ⟨fuel - 1, by omega⟩
    simp [Mpt.collect, iterStep, hend]
  | step hs _ ih =>
    obtain ⟨N, hN⟩ := ih hend
    refine ⟨N + 1, fun fuel hf => ?_⟩
    obtain ⟨fuel, rfl⟩ : ∃ f, fuel = f + 1 := ⟨fuel - 1, by omega⟩
    simp [Mpt.collect, hs, hN fuel (by omega)]

/-- Does visiting the node overwrite the key register? -/
def touches : Node → Bool
  | .branch _ _ => true
  | .ext _ c => touches c
  | _ => false

theorem truncBack_append (k n : Key) : truncBack (truncBack (k ++ n) 1) n.length = truncBack k 1 := by
  unfold truncBack
  rw [List.take_take, List.length_take, List.length_append]
  have : min (min (k.length + n.length - 1) (k.length + n.length) - n.length)
      (k.length + n.length - 1) = k.length - 1 := by omega
  rw [this, List.take_append_of_le_length (by omega)]

theorem truncBack_snoc (k : Key) (i : Nib) : truncBack (k ++ [i]) 1 = k := by
  simp [truncBack]

/-- The part of a branch's traversal still to be done when `curr_nib = i`. -/
def remaining (c : Nib → Node) (v : Bytes) (k : Key) (i : Nat) : List (Key × Entry) :=
  ((List.finRange 16).drop i).flatMap (fun i => entries (c i) (k ++ [i])) ++
      (if v.isEmpty then [] else [(k, .val v)])

theorem finRange_drop (i : Nat) (h : i < 16) :
    (List.finRange 16).drop i = (⟨i, h⟩ : Nib) :: (List.finRange 16).drop (i + 1) := by
  rw [List.drop_eq_getElem_cons (by simpa using h)]
  simp

theorem advance_spec (t : Node) : ∀ (k : Key) (m : Nat) (R : Key) (S : List StackEntry),
    ExtOk t → Fits m t → k.length + m ≤ 64 →
    ∃ it1 o l, advance t k ⟨R, S⟩ = .ok (it1, o) ∧ o.toList ++ l = entries t k ∧
      Runs it1 l ⟨if touches t then truncBack k 1 else R, S⟩ := by
  induction t with
  | empty => intro k m R S _ _ _; exact ⟨_, _, [], rfl, rfl, .refl _⟩
  | hash h => intro k m R S _ _ _; exact ⟨_, _, [], rfl, rfl, .refl _⟩
  | leaf n v =>
    intro k m R S _ hf hm
    have hf : n.length ≤ m := hf
    refine ⟨⟨R, S⟩, some (k ++ n, .val v), [], ?_, rfl, .refl _⟩
    have : k.length + n.length ≤ 64 := by omega
    simp [advance, mergeNibbles, this]
  | ext n c ih =>
    intro k m R S hx hf hm
    obtain ⟨hcc, hx⟩ := hx
    have hf1 : n.length ≤ m := hf.1
    have hlen : k.length + n.length ≤ 64 := by omega
    have hf2 : (k ++ n).length + (m - n.length) ≤ 64 := by simp; omega
    simp only [advance, mergeNibbles, hlen, if_true]
    rcases hcc with hb | hb
    · have hnh : c.isHash = false := by cases c <;> simp_all [Node.isHash, Node.isBranch]
      have ht : touches c = true := by cases c <;> simp_all [touches, Node.isBranch]
      obtain ⟨it1, o, l, h1, h2, h3⟩ := ih (k ++ n) (m - n.length) R (.ext n.length :: S) hx hf.2 hf2
      refine ⟨it1, o, l, by simpa [hnh] using h1, h2, ?_⟩
      rw [ht, if_pos rfl] at h3
      have hs : Runs ⟨truncBack (k ++ n) 1, .ext n.length :: S⟩ ([] ++ [])
          ⟨truncBack k 1, S⟩ := by
        refine Runs.step (o := none) ?_ (.refl _)
        simp [iterStep, truncBack_append]
      have := h3.trans hs
      simpa [touches, ht] using this
    · obtain ⟨it1, o, l, h1, h2, h3⟩ := ih (k ++ n) (m - n.length) R S hx hf.2 hf2
      have ht : touches c = false := by cases c <;> simp_all [touches, Node.isHash]
      refine ⟨it1, o, l, by simpa [hb] using h1, h2, ?_⟩
      simpa [touches, ht] using h3
  | branch c v ih =>
    intro k m R S hx hf hm
    obtain ⟨hm0, hf⟩ := hf
    have hk : k.length < 64 := by omega
    have hchild : ∀ i : Nib, ∀ S', ∃ it1 o l, advance (c i) (k ++ [i]) ⟨k, S'⟩ = .ok (it1, o) ∧
        o.toList ++ l = entries (c i) (k ++ [i]) ∧ Runs it1 l ⟨k, S'⟩ := by
      intro i S'
      obtain ⟨it1, o, l, h1, h2, h3⟩ := ih i (k ++ [i]) (m - 1) k S' (hx i) (hf i) (by simp; omega)
      refine ⟨it1, o, l, h1, h2, ?_⟩
      rw [truncBack_snoc] at h3
      simpa using h3
    have hloop : ∀ j i, i + j = 16 → 1 ≤ i →
        Runs ⟨k, .branch c v i :: S⟩ (remaining c v k i) ⟨truncBack k 1, S⟩ := by
      intro j
      induction j with
      | zero =>
        intro i hi _
        have : i = 16 := by omega
        subst this
        have h0 := Runs.step (it := ⟨k, .branch c v 16 :: S⟩)
            (it1 := ⟨truncBack k 1, S⟩)
            (o := if v.isEmpty then none else some (k, .val v)) (by
              simp [iterStep]) (Runs.refl _)
        have h16 : List.drop 16 (List.finRange 16) = [] := by
          apply List.drop_eq_nil_of_le; simp
        have : remaining c v k 16
            = (if v.isEmpty then none else some (k, Entry.val v)).toList ++ [] := by
          unfold remaining
          rw [h16]; cases v <;> simp
        rw [this]; exact h0
      | succ j ihj =>
        intro i hi h1
        have hlt : i < 16 := by omega
        have hrest := ihj (i + 1) (by omega) (by omega)
        obtain ⟨it1, o, l, a1, a2, a3⟩ := hchild ⟨i, hlt⟩ (.branch c v (i + 1) :: S)
        have hs : iterStep ⟨k, .branch c v i :: S⟩ = .ok (some (it1, o)) := by
          have hc : 1 ≤ i ∧ i ≤ 15 := by omega
          simp [iterStep, hc, mergeNibble, hk, a1]
        have := Runs.step hs (a3.trans hrest)
        have he : remaining c v k i = o.toList ++ (l ++ remaining c v k (i + 1)) := by
          rw [← List.append_assoc, a2]
          unfold remaining
          rw [finRange_drop i hlt]
          simp
        rw [he]; exact this
    obtain ⟨it1, o, l, a1, a2, a3⟩ := hchild 0 (.branch c v 1 :: S)
    refine ⟨it1, o, l ++ remaining c v k 1, ?_, ?_, ?_⟩
    · simp [advance, mergeNibble, hk, a1]
    · rw [← List.append_assoc, a2]
      have h0 := finRange_drop 0 (by omega)
      unfold remaining
      simp only [List.drop_zero, Nat.zero_add] at h0
      simp only [entries]
      rw [h0]
      simp
    · have := a3.trans (hloop 15 1 (by omega) (by omega))
      simpa [touches] using this

theorem collect_items {t} (hx : ExtOk t) (hf : Fits 64 t) :
    ∃ N, ∀ fuel, N ≤ fuel → collect fuel (itemsInit t) = some (.ok (entries t [])) := by
  obtain ⟨it1, o, l, h1, h2, h3⟩ := advance_spec t [] 64 [] [] hx hf (by simp)
  have hs : iterStep (itemsInit t) = .ok (some (it1, o)) := by
    simp [iterStep, itemsInit, h1]
  have := Runs.step hs h3
  rw [h2] at this
  exact this.collect rfl

/-! ### The traversal lists exactly the stored entries, in order -/

theorem mem_entries {t : Node} {k0 k : Key} {e : Entry} :
    (k, e) ∈ entries t k0 ↔ ∃ r, k = k0 ++ r ∧ lookup t r = some e := by
  induction t generalizing k0 with
  | empty => simp [entries]
  | hash h =>
    simp only [entries, List.mem_singleton, Prod.mk.injEq, lookup]
    constructor
    · rintro ⟨rfl, rfl⟩; exact ⟨[], by simp, by simp⟩
    · rintro ⟨r, rfl, h⟩
      split at h
      · rename_i hr; subst hr; simp at h; simp [h]
      · simp at h
  | leaf n v =>
    simp only [entries, List.mem_singleton, Prod.mk.injEq, lookup]
    constructor
    · rintro ⟨rfl, rfl⟩; exact ⟨n, rfl, by simp⟩
    · rintro ⟨r, rfl, h⟩
      split at h
      · rename_i hr; subst hr; simp at h; simp [h]
      · simp at h
  | ext n c ih =>
    simp only [entries, ih, lookup]
    constructor
    · rintro ⟨r, rfl, h⟩; exact ⟨n ++ r, by simp, by simpa using h⟩
    · rintro ⟨r, rfl, h⟩
      split at h
      · rename_i hp
        obtain ⟨r', rfl⟩ := hp
        exact ⟨r', by simp, by simpa using h⟩
      · simp at h
  | branch c v ih =>
    simp only [entries, List.mem_append, List.mem_flatMap, List.mem_finRange, true_and, ih]
    constructor
    · rintro (⟨i, r, rfl, h⟩ | h)
      · exact ⟨i :: r, by simp, by simpa [lookup] using h⟩
      · cases v with
        | nil => simp at h
        | cons a v =>
          simp only [List.isEmpty_cons, Bool.false_eq_true, if_false, List.mem_singleton,
            Prod.mk.injEq] at h
          exact ⟨[], by simp [h.1], by simp [lookup, h.2]⟩
    · rintro ⟨r, rfl, h⟩
      cases r with
      | nil =>
        right
        rw [lookup_branch_nil] at h
        cases v with
        | nil => simp at h
        | cons a v => simp at h ⊢; exact h.symm
      | cons i r => exact .inl ⟨i, r, by simp, by simpa [lookup] using h⟩

theorem lex_append_left (p : Key) {a b : Key} (h : a < b) : p ++ a < p ++ b := by
  induction p with
  | nil => exact h
  | cons x xs ih => exact List.cons_lt_cons_iff.2 (.inr ⟨rfl, ih⟩)

theorem finRange_pairwise : (List.finRange 16).Pairwise (fun a b : Nib => a < b) := by decide

theorem entries_sorted {t : Node} (hw : WF t) (k0 : Key) :
    (entries t k0).Pairwise (fun a b => a.1 < b.1) := by
  induction t generalizing k0 with
  | branch c v ih =>
    simp only [entries, hw.1, List.isEmpty_nil, if_true, List.append_nil]
    rw [List.pairwise_flatMap]
    refine ⟨fun i _ => ih i (hw.2.1 i) _, finRange_pairwise.imp ?_⟩
    intro i j hij x hx y hy
    obtain ⟨x, ex⟩ := x
    obtain ⟨y, ey⟩ := y
    obtain ⟨r, rfl, -⟩ := mem_entries.1 hx
    obtain ⟨r', rfl, -⟩ := mem_entries.1 hy
    simp only [List.append_assoc]
    apply lex_append_left
    exact List.cons_lt_cons_iff.2 (.inl hij)
  | ext n c ih => exact ih hw.2.2 _
  | _ => simp [entries]

end Verif.Mpt
