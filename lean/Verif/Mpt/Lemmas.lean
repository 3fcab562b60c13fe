import Verif.Mpt.Spec
/-! Helper lemmas for the trie: key arithmetic and `lookup`. -/
namespace Verif.Mpt

theorem ident_iff (a b : Key) : ident a b = true ↔ a <+: b ∨ b <+: a := by
  induction a generalizing b with
  | nil => simp [ident]
  | cons x xs ih =>
    cases b with
    | nil => simp [ident]
    | cons y ys =>
      simp only [ident, Bool.and_eq_true, beq_iff_eq, ih, List.cons_prefix_cons]
      constructor
      · rintro ⟨h, h' | h'⟩ <;> simp [h, h']
      · rintro (⟨h, h'⟩ | ⟨h, h'⟩) <;> simp [h, h']

theorem ident_take (n k : Key) (h : n.length ≤ k.length) :
    ident (k.take n.length) n = true ↔ n <+: k := by
  rw [ident_iff]
  constructor
  · rintro (h' | h')
    · have := h'.length_le
      have e := h'.eq_of_length (by simp; omega)
      rw [← e]; exact List.take_prefix _ _
    · exact h'.trans (List.take_prefix _ _)
  · intro h'
    right
    exact List.prefix_take_iff.2 ⟨h', by simp⟩

/-- Two keys that are not prefixes of one another split at their first difference. -/
theorem split_of_not_ident {n k : Key} (h : ¬ ident n k = true) :
    ∃ p x xs y ys, n = p ++ x :: xs ∧ k = p ++ y :: ys ∧ x ≠ y ∧ diffIdx n k = p.length := by
  induction n generalizing k with
  | nil => simp [ident] at h
  | cons a as ih =>
    cases k with
    | nil => simp [ident] at h
    | cons b bs =>
      by_cases hab : a = b
      · subst hab
        simp only [ident, beq_self_eq_true, Bool.true_and] at h
        obtain ⟨p, x, xs, y, ys, h1, h2, h3, h4⟩ := ih h
        exact ⟨a :: p, x, xs, y, ys, by simp [h1], by simp [h2], h3, by simp [diffIdx, h4]⟩
      · exact ⟨[], a, as, b, bs, rfl, rfl, hab, by simp [diffIdx, hab]⟩

theorem diffIdx_append (p : Key) (a b : Key) :
    diffIdx (p ++ a) (p ++ b) = p.length + diffIdx a b := by
  induction p with
  | nil => simp
  | cons x xs ih => simp [diffIdx, ih]; omega

theorem diffIdx_prefix (p a : Key) : diffIdx p (p ++ a) = p.length := by
  simpa [diffIdx] using diffIdx_append p [] a

theorem diffIdx_prefix' (p a : Key) : diffIdx (p ++ a) p = p.length := by
  have := diffIdx_append p a []
  have h : diffIdx a [] = 0 := by cases a <;> simp [diffIdx]
  simpa [h] using this

theorem prePost_split (p : Key) (x y : Nib) (xs ys : Key) (h : x ≠ y) :
    prePost (p ++ x :: xs) (p ++ y :: ys) = ⟨p, x :: xs, y :: ys⟩ := by
  simp [prePost, diffIdx_append, diffIdx, h]

theorem prePost_prefix (p : Key) (a : Key) :
    prePost p (p ++ a) = ⟨p, [], a⟩ := by
  simp [prePost, diffIdx_prefix]

theorem prePost_prefix' (p : Key) (a : Key) :
    prePost (p ++ a) p = ⟨p, a, []⟩ := by
  simp [prePost, diffIdx_prefix']

/-- The optional extension put above a branch. -/
def mkExt (p : Key) (b : Node) : Node := if p.isEmpty then b else .ext p b

theorem placeBranch_both (p : Key) (x y : Nib) (xs ys : Key) (ex : Node) (e : Entry) :
    placeBranch ⟨p, x :: xs, y :: ys⟩ ex (p ++ y :: ys) e
      = .ok (mkExt p (.branch (upd (upd noChildren x ex) y (createNode ys e)) [])) := by
  have h : List.drop (p.length + 1) (p ++ y :: ys) = ys := by
    rw [← List.drop_drop]; simp
  simp [placeBranch, insEntry, firstNib, mkExt, h, bind, Except.bind, pure, Except.pure]

theorem placeBranch_existingVal (p : Key) (y : Nib) (ys n : Key) (w : Bytes) (e : Entry) :
    placeBranch ⟨p, [], y :: ys⟩ (.leaf n w) (p ++ y :: ys) e
      = .ok (mkExt p (.branch (upd noChildren y (createNode ys e)) w)) := by
  have h : List.drop (p.length + 1) (p ++ y :: ys) = ys := by
    rw [← List.drop_drop]; simp
  simp [placeBranch, insEntry, firstNib, mkExt, h, bind, Except.bind, pure, Except.pure]

theorem placeBranch_newVal (p : Key) (x : Nib) (xs k : Key) (ex : Node) (v : Bytes) :
    placeBranch ⟨p, x :: xs, []⟩ ex k (.val v)
      = .ok (mkExt p (.branch (upd noChildren x ex) v)) := by
  simp [placeBranch, expectVal, firstNib, mkExt, bind, Except.bind, pure, Except.pure]

theorem placeBranch_newHash (p : Key) (x : Nib) (xs k : Key) (ex : Node) (h : H256) :
    placeBranch ⟨p, x :: xs, []⟩ ex k (.hash h) = .error .panic := by
  simp [placeBranch, expectVal, bind, Except.bind]

@[simp] theorem lookup_empty (k : Key) : lookup .empty k = none := by simp [lookup]

theorem lookup_ext_append (n c k) : lookup (.ext n c) (n ++ k) = lookup c k := by
  simp [lookup]

theorem lookup_mkExt (p : Key) (b : Node) (k : Key) :
    lookup (mkExt p b) k = if p <+: k then lookup b (k.drop p.length) else none := by
  cases p <;> simp [mkExt, lookup]

@[simp] theorem lookup_createNode (k : Key) (e : Entry) (k' : Key) :
    lookup (createNode k e) k' = if k' = k then some e else none := by
  cases e with
  | val v => simp [createNode, lookup]
  | hash h =>
    cases k with
    | nil => simp [createNode, lookup]
    | cons x xs =>
      simp only [createNode, List.isEmpty_cons, Bool.false_eq_true, if_false, lookup]
      by_cases hp : x :: xs <+: k'
      · obtain ⟨r, rfl⟩ := hp
        simp
      · have : k' ≠ x :: xs := fun h => hp (h ▸ List.prefix_rfl)
        simp [hp, this]

@[simp] theorem upd_same (c i n) : upd c i n i = n := by simp [upd]
theorem upd_ne (c : Nib → Node) (i j n) (h : j ≠ i) : upd c i n j = c j := by simp [upd, h]

/-- Either `k` runs through prefix `p` or not. -/
theorem drop_of_prefix {p k : Key} (h : p <+: k) : ∃ r, k = p ++ r ∧ k.drop p.length = r := by
  obtain ⟨r, rfl⟩ := h; exact ⟨r, rfl, by simp⟩

end Verif.Mpt
