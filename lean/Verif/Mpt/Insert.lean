import Verif.Mpt.Lemmas
/-! `insert` refines map update. -/
namespace Verif.Mpt

/-- The positions at which `insert` stores the entry under the key it was given.  Fails only where
the key ends strictly inside an extension, or where an empty value would have to be stored in (or
moved to) the value field of a branch. -/
def InsOk : Node → Key → Entry → Prop
  | .empty, _, _ => True
  | .hash _, _, _ => True
  | .branch c _, k, e =>
    match k with
    | [] => e ≠ .val []
    | n :: k => InsOk (c n) k e
  | .ext n c, k, e => (k <+: n → k = n) ∧ (n <+: k → InsOk c (k.drop n.length) e)
  | .leaf n w, k, e => (n <+: k → n = k ∨ w ≠ []) ∧ (k <+: n → n = k ∨ e ≠ .val [])

theorem lookup_branch_cons (c v n k) : lookup (.branch c v) (n :: k) = lookup (c n) k := rfl
theorem lookup_branch_nil (c v) :
    lookup (.branch c v) [] = if v = [] then none else some (.val v) := rfl

theorem ite_drop_iff {α} (p k k' : Key) (a b : α) :
    (if p ++ k = p ++ k' then a else b) = if k = k' then a else b := by simp

/-- What a two-child split denotes. -/
theorem lookup_split (p : Key) (x y : Nib) (ys : Key) (ex : Node) (e : Entry) (hxy : x ≠ y)
    (k' : Key) :
    lookup (mkExt p (.branch (upd (upd noChildren x ex) y (createNode ys e)) [])) k'
      = if k' = p ++ y :: ys then some e
        else if p ++ [x] <+: k' then lookup ex (k'.drop (p.length + 1)) else none := by
  rw [lookup_mkExt]
  by_cases hp : p <+: k'
  · obtain ⟨r, rfl⟩ := hp
    simp only [List.prefix_append, if_true, List.drop_left, List.append_cancel_left_eq,
      List.prefix_append_right_inj]
    cases r with
    | nil => simp [lookup_branch_nil]
    | cons z zs =>
      rw [lookup_branch_cons]
      by_cases hzy : z = y
      · subst hzy
        have : ¬ x = z := hxy
        simp [this]
      · have hd : List.drop (p.length + 1) (p ++ z :: zs) = zs := by
          rw [← List.drop_drop]; simp
        rw [upd_ne _ _ _ _ hzy, hd]
        by_cases hzx : z = x
        · subst hzx; simp [hzy]
        · rw [upd_ne _ _ _ _ hzx]
          have hxz : ¬ x = z := fun h => hzx h.symm
          simp [hzy, noChildren, hxz]
  · have h1 : k' ≠ p ++ y :: ys := fun h => hp (h ▸ List.prefix_append _ _)
    have h2 : ¬ p ++ [x] <+: k' := fun h => hp ((List.prefix_append _ _).trans h)
    simp [hp, h1, h2]

theorem lookup_insertRec {t : Node} {k : Key} {e : Entry} {t' : Node}
    (h : insertRec t k e = .ok t') (hok : InsOk t k e) (k' : Key) :
    lookup t' k' = if k' = k then some e else lookup t k' := by
  induction t generalizing k k' t' with
  | empty => simp only [insertRec, Except.ok.injEq] at h; subst h; simp
  | hash h' => simp [insertRec] at h
  | branch c v ih =>
    cases k with
    | nil =>
      cases e with
      | hash => simp [insertRec] at h
      | val w =>
        simp only [insertRec, Except.ok.injEq] at h
        subst h
        simp only [InsOk, ne_eq, Entry.val.injEq] at hok
        cases k' with
        | nil => simp [lookup_branch_nil, hok]
        | cons => simp [lookup_branch_cons]
    | cons n k =>
      simp only [insertRec] at h
      split at h
      · rename_i u hu
        simp only [Except.ok.injEq] at h
        subst h
        have := fun k' => ih n hu (by simpa [InsOk] using hok) k'
        cases k' with
        | nil => simp [lookup_branch_nil]
        | cons m k' =>
          simp only [lookup_branch_cons]
          by_cases hm : m = n
          · subst hm; simp [this]
          · simp [upd_ne _ _ _ _ hm, hm]
      · simp at h
  | ext n c ih =>
    simp only [insertRec] at h
    obtain ⟨hk, hok⟩ : (k <+: n → k = n) ∧ (n <+: k → InsOk c (k.drop n.length) e) := by
      simpa [InsOk] using hok
    split at h
    · rename_i hid
      split at h
      · rename_i u hu
        simp only [Except.ok.injEq] at h
        subst h
        have hn : n <+: k := by
          rcases (ident_iff _ _).1 hid with h | h
          · exact h
          · exact (hk h) ▸ List.prefix_rfl
        obtain ⟨r, rfl⟩ := hn
        simp only [List.drop_left] at hu hok
        have := fun k' => ih hu (hok (List.prefix_append _ _)) k'
        simp only [lookup]
        by_cases hp : n <+: k'
        · obtain ⟨r', rfl⟩ := hp
          simp [this]
        · have : k' ≠ n ++ r := fun h => hp (h ▸ List.prefix_append _ _)
          simp [hp, this]
      · simp at h
    · rename_i hid
      obtain ⟨p, x, xs, y, ys, rfl, rfl, hxy, -⟩ := split_of_not_ident hid
      rw [prePost_split _ _ _ _ _ hxy] at h
      simp only [placeBranch_both, Except.ok.injEq] at h
      subst h
      rw [lookup_split _ _ _ _ _ _ hxy]
      split
      · rfl
      · simp only [List.drop_one, List.tail_cons]
        simp only [lookup]
        by_cases hp : p ++ [x] <+: k'
        · obtain ⟨r, rfl⟩ := hp
          have hd : List.drop (p.length + 1) (p ++ [x] ++ r) = r := by
            have : (p ++ [x]).length = p.length + 1 := by simp
            rw [← this, List.drop_left]
          have e1 : p ++ x :: xs = (p ++ [x]) ++ xs := by simp
          rw [hd, e1]
          simp only [List.prefix_append, if_true, List.prefix_append_right_inj, List.length_append]
          rw [← List.drop_drop, ← List.length_append, List.drop_left]
          cases xs with
          | nil => simp
          | cons x' xs' => simp [lookup]
        · have : ¬ p ++ x :: xs <+: k' := fun h => hp (by
            refine List.IsPrefix.trans ?_ h
            exact ⟨xs, by simp⟩)
          simp [hp, this]
  | leaf n w =>
    simp only [insertRec] at h
    simp only [InsOk] at hok
    split at h
    · rename_i hnk
      subst hnk
      cases e with
      | hash => simp at h
      | val v =>
        simp only [Except.ok.injEq] at h
        subst h
        simp only [lookup]
        split <;> simp_all
    · rename_i hnk
      by_cases hid : ident n k = true
      · rcases (ident_iff _ _).1 hid with ⟨r, rfl⟩ | ⟨r, rfl⟩
        · -- leaf key is a proper prefix of the new key
          cases r with
          | nil => simp at hnk
          | cons y ys =>
            have hw : w ≠ [] := by
              rcases hok.1 (List.prefix_append _ _) with h | h
              · exact absurd h hnk
              · exact h
            rw [prePost_prefix] at h
            simp only [placeBranch_existingVal, Except.ok.injEq] at h
            subst h
            rw [lookup_mkExt]
            by_cases hp : n <+: k'
            · obtain ⟨r, rfl⟩ := hp
              cases r with
              | nil => simp [lookup_branch_nil, hw, lookup]
              | cons z zs =>
                simp only [List.prefix_append, if_true, List.drop_left, lookup_branch_cons,
                  List.append_cancel_left_eq, lookup]
                by_cases hz : z = y
                · subst hz; simp
                · simp [upd_ne _ _ _ _ hz, hz, noChildren]
            · have h1 : k' ≠ n ++ y :: ys := fun h => hp (h ▸ List.prefix_append _ _)
              have h2 : k' ≠ n := fun h => hp (h ▸ List.prefix_rfl)
              simp [hp, h1, h2, lookup]
        · cases r with
          | nil => simp at hnk
          | cons y ys =>
            have hw : e ≠ .val [] := by
              rcases hok.2 (List.prefix_append _ _) with h | h
              · exact absurd h hnk
              · exact h
            rw [prePost_prefix'] at h
            cases e with
            | hash => simp [placeBranch_newHash] at h
            | val v =>
              simp only [placeBranch_newVal, Except.ok.injEq] at h
              subst h
              have hv : v ≠ [] := fun h => hw (by rw [h])
              have hd : List.drop (k.length + 1) (k ++ y :: ys) = ys := by
                rw [← List.drop_drop]; simp
              rw [lookup_mkExt, hd]
              by_cases hp : k <+: k'
              · obtain ⟨r, rfl⟩ := hp
                cases r with
                | nil => simp [lookup_branch_nil, hv]
                | cons z zs =>
                  simp only [List.prefix_append, if_true, List.drop_left, lookup_branch_cons,
                    List.append_cancel_left_eq, lookup]
                  by_cases hz : z = y
                  · subst hz; simp [lookup]
                  · simp [upd_ne _ _ _ _ hz, hz, noChildren]
              · have h1 : k' ≠ k ++ y :: ys := fun h => hp (h ▸ List.prefix_append _ _)
                have h2 : k' ≠ k := fun h => hp (h ▸ List.prefix_rfl)
                simp [hp, h1, h2, lookup]
      · obtain ⟨p, x, xs, y, ys, rfl, rfl, hxy, -⟩ := split_of_not_ident hid
        rw [prePost_split _ _ _ _ _ hxy] at h
        simp only [placeBranch_both, Except.ok.injEq] at h
        subst h
        rw [lookup_split _ _ _ _ _ _ hxy]
        split
        · rfl
        · have hd : List.drop (p.length + 1) (p ++ x :: xs) = xs := by
            rw [← List.drop_drop]; simp
          simp only [lookup, hd]
          by_cases hp : p ++ [x] <+: k'
          · obtain ⟨r, rfl⟩ := hp
            have hd : List.drop (p.length + 1) (p ++ [x] ++ r) = r := by
              have : (p ++ [x]).length = p.length + 1 := by simp
              rw [← this, List.drop_left]
            have e1 : p ++ x :: xs = (p ++ [x]) ++ xs := by simp
            rw [hd, e1]
            simp only [List.prefix_append, if_true, List.append_cancel_left_eq]
          · have : k' ≠ p ++ x :: xs := fun h => hp ⟨xs, by simp [h]⟩
            simp [hp, this]

/-- Inserting a value into a trie without hash nodes never fails. -/
def HashFree : Node → Prop
  | .empty => True
  | .hash _ => False
  | .branch c _ => ∀ i, HashFree (c i)
  | .ext _ c => HashFree c
  | .leaf _ _ => True

theorem insertRec_ok {t : Node} (ht : HashFree t) (k : Key) (v : Bytes) :
    ∃ t', insertRec t k (.val v) = .ok t' := by
  induction t generalizing k with
  | empty => simp [insertRec]
  | hash => simp [HashFree] at ht
  | branch c w ih =>
    cases k with
    | nil => simp [insertRec]
    | cons n k =>
      obtain ⟨u, hu⟩ := ih n (ht n) k
      simp [insertRec, hu]
  | ext n c ih =>
    simp only [insertRec]
    split
    · obtain ⟨u, hu⟩ := ih ht (k.drop n.length)
      simp [hu]
    · rename_i hid
      obtain ⟨p, x, xs, y, ys, rfl, rfl, hxy, -⟩ := split_of_not_ident hid
      rw [prePost_split _ _ _ _ _ hxy]
      simp [placeBranch_both]
  | leaf n w =>
    simp only [insertRec]
    split
    · simp
    · rename_i hnk
      by_cases hid : ident n k = true
      · rcases (ident_iff _ _).1 hid with ⟨r, rfl⟩ | ⟨r, rfl⟩
        · cases r with
          | nil => simp at hnk
          | cons y ys => rw [prePost_prefix]; simp [placeBranch_existingVal]
        · cases r with
          | nil => simp at hnk
          | cons y ys => rw [prePost_prefix']; simp [placeBranch_newVal]
      · obtain ⟨p, x, xs, y, ys, rfl, rfl, hxy, -⟩ := split_of_not_ident hid
        rw [prePost_split _ _ _ _ _ hxy]
        simp [placeBranch_both]

end Verif.Mpt
