import Verif.Mpt.Query
/-!
# Collapse reporting (`evm_arithmetization/src/tries.rs`), property C14
-/
namespace Verif.Mpt

/-- `node_deletion_resulted_in_a_branch_collapse`. `evm_arithmetization/src/tries.rs:434-453`. -/
def collapseReport (old new : List Seg) : Except Fault (Option Key) :=
  if old.length < 2 then .ok none
  else if new.length < old.length then (intoKey [] new).map some
  else .ok none

/-- `delete_node_and_report_remaining_key_if_branch_collapsed` (also `reporting_remove`).
`evm_arithmetization/src/tries.rs:388-390, 413-424`.  The traces are the collected `path_for_query` with
the final node included (`collect_path`). -/
def reportingRemove (s : Strategy) (t : Node) (k : Key) : Except Fault (Node × Option Key) :=
  let old := path true t k
  match delete s t k with
  | .error f => .error f
  | .ok (t', _) =>
    match collapseReport old (path true t' k) with
    | .ok r => .ok (t', r)
    | .error f => .error f

/-! ### Specification, in terms of the set of keys -/

/-- `p` is the longest prefix that `k` shares with another key of `S`. -/
def Longest (S : Key → Prop) (k p : Key) : Prop :=
  p <+: k ∧ (∃ κ, S κ ∧ κ ≠ k ∧ p <+: κ) ∧
  ∀ q κ, q <+: k → S κ → κ ≠ k → q <+: κ → q.length ≤ p.length

/-- `r` is the longest common prefix of the keys in `G`. -/
def Lcp (G : Key → Prop) (r : Key) : Prop :=
  (∀ κ, G κ → r <+: κ) ∧ ∀ q, (∀ κ, G κ → q <+: κ) → q.length ≤ r.length

/-- Removing `k` leaves only one child at the place where `k` branches off, and `r` is the path of
what remains below that place. -/
def Collapses (S : Key → Prop) (k r : Key) : Prop :=
  ∃ p, Longest S k p ∧ p.length < r.length ∧ Lcp (fun κ => S κ ∧ κ ≠ k ∧ p <+: κ) r

/-- Where `k` branches off, two other children remain. -/
def Stays (S : Key → Prop) (k : Key) : Prop :=
  ∃ p a b κ₁ κ₂, Longest S k p ∧ S κ₁ ∧ S κ₂ ∧ κ₁ ≠ k ∧ κ₂ ≠ k ∧ a ≠ b ∧
    p ++ [a] <+: κ₁ ∧ p ++ [b] <+: κ₂

/-- The keys stored in a trie. -/
def keysOf (t : Node) : Key → Prop := fun k => lookup t k ≠ none

/-! ### Transport along a prefix -/

theorem prefix_cases {q n k : Key} (h : q <+: n ++ k) : q.length ≤ n.length ∨ ∃ q', q = n ++ q' ∧ q' <+: k := by
  rcases Nat.le_total q.length n.length with hl | hl
  · exact .inl hl
  · obtain ⟨q', rfl⟩ := List.prefix_of_prefix_length_le (List.prefix_append n k) h hl
    exact .inr ⟨q', rfl, by simpa using h⟩

theorem Longest.append {S S' : Key → Prop} {n k p : Key} (hS : ∀ κ, S' (n ++ κ) ↔ S κ)
    (h : Longest S k p) : Longest S' (n ++ k) (n ++ p) := by
  obtain ⟨h1, ⟨κ, h2, h3, h4⟩, h5⟩ := h
  refine ⟨by simpa using h1, ⟨n ++ κ, (hS κ).2 h2, by simpa using h3, by simpa using h4⟩, ?_⟩
  intro q κ' hq hκ hne hp
  rcases prefix_cases hq with h | ⟨q', rfl, hq'⟩
  · simp; omega
  · obtain ⟨r, rfl⟩ := (List.prefix_append n q').trans hp
    have := h5 q' r hq' ((hS r).1 hκ) (by simpa using hne) (by simpa using hp)
    simp; omega

theorem Collapses.append {S S' : Key → Prop} {n k r : Key} (hS : ∀ κ, S' (n ++ κ) ↔ S κ)
    (h : Collapses S k r) : Collapses S' (n ++ k) (n ++ r) := by
  obtain ⟨p, h1, h2, h3, h4⟩ := h
  refine ⟨n ++ p, h1.append hS, by simp; omega, ?_, ?_⟩
  · rintro κ ⟨a, b, c⟩
    obtain ⟨κ', rfl⟩ := (List.prefix_append n p).trans c
    have := h3 κ' ⟨(hS κ').1 a, by simpa using b, by simpa using c⟩
    simpa using this
  · intro q hq
    obtain ⟨κ, a, b, c⟩ := h1.2.1
    rcases prefix_cases (hq (n ++ κ) ⟨(hS κ).2 a, by simpa using b, by simpa using c⟩)
      with h | ⟨q', rfl, -⟩
    · simp; omega
    · have := h4 q' (fun κ ⟨a, b, c⟩ => by
        have := hq (n ++ κ) ⟨(hS κ).2 a, by simpa using b, by simpa using c⟩
        simpa using this)
      simp; omega

theorem Stays.append {S S' : Key → Prop} {n k : Key} (hS : ∀ κ, S' (n ++ κ) ↔ S κ)
    (h : Stays S k) : Stays S' (n ++ k) := by
  obtain ⟨p, a, b, κ₁, κ₂, h1, h2, h3, h4, h5, h6, h7, h8⟩ := h
  exact ⟨n ++ p, a, b, n ++ κ₁, n ++ κ₂, h1.append hS, (hS _).2 h2, (hS _).2 h3, by simpa using h4,
    by simpa using h5, h6, by simpa [List.append_assoc] using h7,
    by simpa [List.append_assoc] using h8⟩

/-! ### Canonical extension of a canonical trie -/

/-- The canonical trie with prefix `n` put in front. -/
def prepend (n : Key) : Node → Node
  | .leaf m v => .leaf (n ++ m) v
  | .ext m c => .ext (n ++ m) c
  | t => .ext n t

theorem prepend_wf {n t} (hn : n ≠ []) (h : WF t) (he : t.isEmpty = false) : WF (prepend n t) := by
  cases t <;> simp_all [prepend, WF, Node.isBranch, Node.isHash, Node.isEmpty]

theorem lookup_prepend (n : Key) (t : Node) (k : Key) :
    lookup (prepend n t) k = lookup (.ext n t) k := by
  cases t with
  | leaf m v => exact lookup_ext_leaf _ _ _ _
  | ext m c => exact lookup_ext_ext _ _ _ _
  | _ => rfl

/-- The canonical trie for the remaining map exists. -/
theorem exists_removed {t k w} (hw : WF t) (hc : Compat t k) (hb : Bounded 64 t)
    (hk : lookup t k = some (.val w)) :
    ∃ t', WF t' ∧ ∀ k', lookup t' k' = if k' = k then none else lookup t k' := by
  obtain ⟨h1, h2⟩ := delete_spec (s := .collapseToExtension) hw hc hb
  cases hd : delete .collapseToExtension t k with
  | error f =>
    rcases h1 f hd with ⟨x, hx, -⟩ | ⟨h, -⟩
    · simp [hk] at hx
    · simp at h
  | ok p =>
    obtain ⟨t', r⟩ := p
    obtain ⟨-, a, b⟩ := h2 t' r hd
    exact ⟨t', a, b⟩

/-- The key piece at the root. -/
def rootPiece : Node → Key
  | .leaf m _ => m
  | .ext m _ => m
  | _ => []

theorem lcp_root {t} (hw : WF t) (hne : t.isEmpty = false) : Lcp (keysOf t) (rootPiece t) := by
  have hbr : ∀ c v, WF (.branch c v) → ∀ q, (∀ κ, keysOf (.branch c v) κ → q <+: κ) → q = [] := by
    intro c v hw q hq
    obtain ⟨-, hws, i, j, hij, hi, hj⟩ := hw
    obtain ⟨a, e, ha⟩ := exists_lookup (hws i) hi
    obtain ⟨b, e', hb⟩ := exists_lookup (hws j) hj
    have h1 := hq (i :: a) (by simp [keysOf, lookup_branch_cons, ha])
    have h2 := hq (j :: b) (by simp [keysOf, lookup_branch_cons, hb])
    cases q with
    | nil => rfl
    | cons x q =>
      rw [List.cons_prefix_cons] at h1 h2
      exact absurd (h1.1.symm.trans h2.1) hij
  cases t with
  | empty => simp [Node.isEmpty] at hne
  | hash x =>
    refine ⟨fun κ _ => List.nil_prefix, fun q hq => ?_⟩
    exact (hq [] (by simp [keysOf, lookup])).length_le
  | leaf n v =>
    refine ⟨fun κ h => ?_, fun q hq => (hq n (by simp [keysOf, lookup])).length_le⟩
    simp only [keysOf, lookup] at h
    split at h
    · rename_i h'; subst h'; exact List.prefix_rfl
    · simp at h
  | branch c v =>
    refine ⟨fun κ _ => List.nil_prefix, fun q hq => ?_⟩
    rw [hbr c v hw q hq]; simp [rootPiece]
  | ext n c =>
    refine ⟨fun κ h => ?_, fun q hq => ?_⟩
    · simp only [keysOf, lookup] at h
      split at h
      · assumption
      · simp at h
    · have hq' : ∀ κ, keysOf c κ → q <+: n ++ κ := fun κ h => hq _ (by
        simpa [keysOf, lookup_ext_append] using h)
      show q.length ≤ n.length
      cases c with
      | branch c v =>
        obtain ⟨κ, e, hκ⟩ := exists_lookup hw.2.2 rfl
        rcases prefix_cases (hq' κ (by simp [keysOf, hκ])) with h | ⟨q', rfl, -⟩
        · exact h
        · rw [hbr c v hw.2.2 q' (fun κ h => by simpa using hq' κ h)]; simp
      | hash x => have := (hq' [] (by simp [keysOf, lookup])).length_le; simpa using this
      | _ => simp [WF, Node.isBranch, Node.isHash] at hw

/-- The statement carried through the induction. -/
theorem collapse_core {t t' : Node} {k : Key} {w : Bytes} (hw : WF t) (hc : Compat t k)
    (hb : Bounded 64 t) (hk : lookup t k = some (.val w)) (hw' : WF t')
    (ht' : ∀ k', lookup t' k' = if k' = k then none else lookup t k') :
    t = .leaf k w ∨
    (2 ≤ (path true t k).length ∧
      ((Collapses (keysOf t) k (pieces (path true t' k)) ∧
          (path true t' k).length < (path true t k).length ∧
          (t.isBranch = true → ∀ m d, t' = .ext m d → ident k m = false)) ∨
        (Stays (keysOf t) k ∧ (path true t' k).length = (path true t k).length ∧
          (t.isBranch = true → t'.isBranch = true)))) := by
  induction t generalizing t' k with
  | empty => simp [lookup] at hk
  | hash x =>
    simp only [lookup] at hk
    split at hk <;> simp at hk
  | leaf n v =>
    left
    simp only [lookup] at hk
    split at hk
    · rename_i h; subst h
      simp only [Option.some.injEq, Entry.val.injEq] at hk; subst hk; rfl
    · simp at hk
  | branch c v ih =>
    right
    cases k with
    | nil => exact absurd hc (not_compat_branch_nil hw)
    | cons n r =>
      have hwb := hw
      obtain ⟨rfl, hws, i0, j0, hij0, hi0, hj0⟩ := hw
      rw [lookup_branch_cons] at hk
      obtain ⟨d, hd, hdl⟩ := exists_removed (hws n) hc.branch (hb.branch n) hk
      have hcn : (c n).isEmpty = false := by
        cases hcn : c n <;> simp_all [Node.isEmpty]
      rcases ih n (hws n) hc.branch (hb.branch n) hk hd hdl with hleaf | ⟨hlen, hrest⟩
      · -- the deleted leaf is a child of this branch
        have hP : path true (.branch c []) (n :: r) = [.branch n, .leaf r] := by
          simp [path, hleaf]
        have honly : ∀ κ, keysOf (.branch c []) (n :: κ) → κ = r := by
          intro κ h
          simp only [keysOf, lookup_branch_cons, hleaf, lookup] at h
          split at h
          · assumption
          · simp at h
        have hlong : ∀ κ0, keysOf (.branch c []) κ0 → κ0 ≠ n :: r →
            Longest (keysOf (.branch c [])) (n :: r) [] := by
          intro κ0 h0 h0'
          refine ⟨List.nil_prefix, ⟨κ0, h0, h0', List.nil_prefix⟩, ?_⟩
          intro q κ hq hκ hne hp
          cases q with
          | nil => simp
          | cons x q =>
            rw [List.cons_prefix_cons] at hq
            obtain ⟨y, rfl⟩ := hp
            rw [hq.1] at hκ hne
            exact absurd (by rw [List.cons_append, honly (q ++ y) hκ]) hne
        have hkey : ∀ i, (c i).isEmpty = false → ∃ x, keysOf (.branch c []) (i :: x) := by
          intro i hi
          obtain ⟨x, e, hx⟩ := exists_lookup (hws i) hi
          exact ⟨x, by simp [keysOf, lookup_branch_cons, hx]⟩
        rw [hP]
        refine ⟨by simp, ?_⟩
        by_cases h3 : ∃ a b, a ≠ b ∧ a ≠ n ∧ b ≠ n ∧ (c a).isEmpty = false ∧ (c b).isEmpty = false
        · right
          obtain ⟨a, b, hab, han, hbn, ha, hb'⟩ := h3
          have hT : t' = .branch (upd c n .empty) [] := by
            refine wf_unique hw' ⟨rfl, fun i => ?_, a, b, hab, ?_, ?_⟩ (fun κ => ?_)
            · unfold upd; split
              · trivial
              · exact hws i
            · rw [upd_ne _ _ _ _ han]; exact ha
            · rw [upd_ne _ _ _ _ hbn]; exact hb'
            · rw [ht']
              cases κ with
              | nil => simp [lookup]
              | cons j κ =>
                simp only [lookup_branch_cons, List.cons.injEq]
                by_cases hj : j = n
                · subst hj
                  simp only [true_and, upd_same, lookup_empty, ite_eq_left_iff]
                  intro h
                  rw [hleaf]; simp [lookup, h]
                · simp [hj, upd_ne _ _ _ _ hj]
          obtain ⟨x, hx⟩ := hkey a ha
          obtain ⟨y, hy⟩ := hkey b hb'
          refine ⟨⟨[], a, b, a :: x, b :: y, hlong _ hx (by simp [han]), hx, hy, by simp [han],
            by simp [hbn], hab, by simp, by simp⟩, ?_, fun _ => by rw [hT]; rfl⟩
          rw [hT]; simp [path]
        · left
          have hex : ∃ i, i ≠ n ∧ (c i).isEmpty = false := by
            by_cases h : i0 = n
            · exact ⟨j0, fun h' => hij0 (h.trans h'.symm), hj0⟩
            · exact ⟨i0, h, hi0⟩
          obtain ⟨i, hin, hi⟩ := hex
          have hothers : ∀ j, j ≠ i → j ≠ n → c j = .empty := by
            intro j hji hjn
            cases hje : (c j).isEmpty with
            | true => cases hcj : c j <;> simp_all [Node.isEmpty]
            | false => exact absurd ⟨j, i, hji, hjn, hin, hje, hi⟩ h3
          have hT : t' = prepend [i] (c i) := by
            refine wf_unique hw' (prepend_wf (by simp) (hws i) hi) (fun κ => ?_)
            rw [ht', lookup_prepend]
            cases κ with
            | nil => simp [lookup]
            | cons j κ =>
              simp only [lookup_branch_cons, List.cons.injEq, lookup, List.cons_prefix_cons,
                List.nil_prefix, and_true, List.length_cons, List.length_nil, Nat.zero_add,
                List.drop_one, List.tail_cons]
              by_cases hji : j = i
              · subst hji; simp [hin]
              · have : ¬ i = j := fun h => hji h.symm
                simp only [this, if_false, ite_eq_left_iff]
                by_cases hjn : j = n
                · subst hjn
                  rw [hleaf]
                  intro h
                  have : ¬ κ = r := fun h' => h ⟨rfl, h'⟩
                  simp [lookup, this]
                · intro _; rw [hothers j hji hjn]; simp
          have hdiv : ∀ m, ident (n :: r) (i :: m) = false := by
            intro m
            have : ¬ n = i := fun h => hin h.symm
            simp [ident, this]
          have hP' : (path true t' (n :: r)).length = 1 ∧
              pieces (path true t' (n :: r)) = i :: rootPiece (c i) := by
            rw [hT]
            cases hci : c i with
            | empty => simp [hci, Node.isEmpty] at hi
            | leaf m x => simp [prepend, path, pieces, Seg.piece, rootPiece]
            | _ => simp [prepend, path, hdiv, pieces, Seg.piece, rootPiece]
          refine ⟨?_, by rw [hP'.1]; simp, ?_⟩
          · rw [hP'.2]
            obtain ⟨x, hx⟩ := hkey i hi
            refine ⟨[], hlong _ hx (by simp [hin]), by simp, ?_, ?_⟩
            · rintro κ ⟨h1, h2, -⟩
              cases κ with
              | nil => simp [keysOf, lookup] at h1
              | cons j κ =>
                by_cases hjn : j = n
                · subst hjn
                  exact absurd (by rw [honly _ h1]) h2
                · by_cases hji : j = i
                  · subst hji
                    rw [List.cons_prefix_cons]
                    exact ⟨rfl, (lcp_root (hws j) hi).1 κ h1⟩
                  · simp [keysOf, lookup_branch_cons, hothers j hji hjn] at h1
            · intro q hq
              cases q with
              | nil => simp
              | cons y q =>
                have hall : ∀ κ, keysOf (c i) κ → y = i ∧ q <+: κ := by
                  intro κ h
                  have := hq (i :: κ) ⟨h, by simp [hin], List.nil_prefix⟩
                  rwa [List.cons_prefix_cons] at this
                have := (lcp_root (hws i) hi).2 q (fun κ h => (hall κ h).2)
                simp; omega
          · intro _ m e h
            rw [hT] at h
            cases hci : c i with
            | empty => simp [hci, Node.isEmpty] at hi
            | leaf m' x => simp [prepend, hci] at h
            | _ =>
              simp only [prepend, hci, List.singleton_append, Node.ext.injEq] at h
              rw [← h.1]; exact hdiv _
      · -- the deleted leaf is deeper
        have hSn : ∀ κ, keysOf (.branch c []) ([n] ++ κ) ↔ keysOf (c n) κ := fun κ => Iff.rfl
        have hdne : d.isEmpty = false := by
          have : ∃ κ, keysOf (c n) κ ∧ κ ≠ r := by
            rcases hrest with ⟨⟨p, h, -⟩, -⟩ | ⟨⟨p, _, _, _, _, h, -⟩, -⟩
            · obtain ⟨κ, a, b, -⟩ := h.2.1; exact ⟨κ, a, b⟩
            · obtain ⟨κ, a, b, -⟩ := h.2.1; exact ⟨κ, a, b⟩
          obtain ⟨κ, h1, h2⟩ := this
          cases d with
          | empty =>
            have := hdl κ
            rw [if_neg h2, lookup_empty] at this
            exact absurd this.symm h1
          | _ => rfl
        have hT : t' = .branch (upd c n d) [] := by
          refine wf_unique hw' ⟨rfl, fun i => ?_, i0, j0, hij0, ?_, ?_⟩ (fun κ => ?_)
          · unfold upd; split
            · exact hd
            · exact hws i
          · unfold upd; split
            · exact hdne
            · exact hi0
          · unfold upd; split
            · exact hdne
            · exact hj0
          · rw [ht']
            cases κ with
            | nil => simp [lookup]
            | cons j κ =>
              simp only [lookup_branch_cons, List.cons.injEq]
              by_cases hj : j = n
              · subst hj; simp [hdl]
              · simp [hj, upd_ne _ _ _ _ hj]
        have hP : path true (.branch c []) (n :: r) = .branch n :: path true (c n) r := rfl
        have hP' : path true t' (n :: r) = .branch n :: path true d r := by
          rw [hT]; simp [path]
        rw [hP, hP']
        refine ⟨by simp only [List.length_cons]; omega, ?_⟩
        rcases hrest with ⟨h1, h2, -⟩ | ⟨h1, h2, -⟩
        · left
          refine ⟨?_, by simpa using h2, fun _ m e h => by rw [hT] at h; simp at h⟩
          exact h1.append (n := [n]) hSn
        · right
          exact ⟨h1.append (n := [n]) hSn, by simpa using h2, fun _ => by rw [hT]; rfl⟩
  | ext n c ih =>
    right
    have hp : n <+: k := by
      simp only [lookup] at hk
      split at hk
      · assumption
      · simp at hk
    obtain ⟨r, rfl⟩ := hp
    rw [lookup_ext_append] at hk
    have hcb : ∃ c' v', c = .branch c' v' := by
      rcases hw.2.1 with h | h
      · cases c <;> simp_all [Node.isBranch]
      · cases c with
        | hash x =>
          simp only [lookup] at hk
          split at hk <;> simp at hk
        | _ => simp [Node.isHash] at h
    obtain ⟨d, hd, hdl⟩ := exists_removed hw.2.2 hc.ext hb.ext hk
    have hSn : ∀ κ, keysOf (.ext n c) (n ++ κ) ↔ keysOf c κ := fun κ => by
      simp [keysOf, lookup_ext_append]
    rcases ih hw.2.2 hc.ext hb.ext hk hd hdl with hleaf | ⟨hlen, hrest⟩
    · obtain ⟨c', v', rfl⟩ := hcb; simp at hleaf
    have hcb' : c.isBranch = true := by obtain ⟨c', v', rfl⟩ := hcb; rfl
    have hdne : d.isEmpty = false := by
      have : ∃ κ, keysOf c κ ∧ κ ≠ r := by
        rcases hrest with ⟨⟨p, h, -⟩, -⟩ | ⟨⟨p, _, _, _, _, h, -⟩, -⟩
        · obtain ⟨κ, a, b, -⟩ := h.2.1; exact ⟨κ, a, b⟩
        · obtain ⟨κ, a, b, -⟩ := h.2.1; exact ⟨κ, a, b⟩
      obtain ⟨κ, h1, h2⟩ := this
      cases d with
      | empty =>
        have := hdl κ
        rw [if_neg h2, lookup_empty] at this
        exact absurd this.symm h1
      | _ => rfl
    have hT : t' = prepend n d := by
      refine wf_unique hw' (prepend_wf hw.1 hd hdne) (fun κ => ?_)
      rw [ht', lookup_prepend]
      simp only [lookup]
      by_cases hp : n <+: κ
      · obtain ⟨κ', rfl⟩ := hp
        simp [hdl]
      · simp [hp]
    have hid : ident (n ++ r) n = true := (ident_iff _ _).2 (.inr (List.prefix_append _ _))
    have hP : path true (.ext n c) (n ++ r) = .ext n :: path true c r := by
      simp [path, hid]
    have hPb : d.isBranch = true → path true t' (n ++ r) = .ext n :: path true d r := by
      intro h
      rw [hT]
      cases d <;> simp [Node.isBranch] at h
      simp only [prepend]
      conv => lhs; unfold path
      rw [if_pos hid, List.drop_left]
    rw [hP]
    refine ⟨by simp only [List.length_cons]; omega, ?_⟩
    rcases hrest with ⟨h1, h2, h3⟩ | ⟨h1, h2, h3⟩
    · left
      have hpl : pieces (path true t' (n ++ r)) = n ++ pieces (path true d r) ∧
          (path true t' (n ++ r)).length ≤ (path true d r).length + 1 := by
        cases d with
        | empty => simp [Node.isEmpty] at hdne
        | branch => rw [hPb rfl]; exact ⟨rfl, by simp⟩
        | leaf m x => rw [hT]; simp [prepend, path, pieces, Seg.piece]
        | hash x =>
          obtain ⟨p, -, hlt, -⟩ := h1
          simp [path, pieces, Seg.piece] at hlt
        | ext m e =>
          have hne := h3 hcb' m e rfl
          have hne' : ident (n ++ r) (n ++ m) = false := by
            cases h : ident (n ++ r) (n ++ m) with
            | false => rfl
            | true =>
              rw [ident_iff] at h
              simp only [List.prefix_append_right_inj] at h
              rw [← ident_iff, hne] at h
              simp at h
          rw [hT]
          simp [prepend, path, hne, hne', pieces, Seg.piece]
      refine ⟨?_, ?_, fun h => by simp [Node.isBranch] at h⟩
      · rw [hpl.1]; exact h1.append hSn
      · have := hpl.2; simp only [List.length_cons]; omega
    · right
      refine ⟨h1.append hSn, ?_, fun h => by simp [Node.isBranch] at h⟩
      rw [hPb (h3 hcb')]; simp [h2]

/-! ### C14 -/

/-- **C14**. Deleting a key from a canonical trie (possibly partial, either strategy) whenever the
deletion itself succeeds:
* an absent key, or the only key, reports nothing;
* if removing the key leaves a single child at the place where it branched off, the longest common
  prefix of the keys below that place is reported, i.e. the path of the node that absorbed the
  branch;
* if at least two other children remain there, nothing is reported. -/
theorem C14_reporting_remove (s : Strategy) (t : Node) (k : Key) (hw : WF t) (hc : Compat t k)
    (hb : Bounded 64 t) (t' : Node) (v : Option Bytes) (hd : delete s t k = .ok (t', v)) :
    ∃ rep, reportingRemove s t k = .ok (t', rep) ∧
      ((rep = none ∧ (¬ keysOf t k ∨ (∀ κ, keysOf t κ → κ = k) ∨ Stays (keysOf t) k)) ∨
       (∃ r, rep = some r ∧ keysOf t k ∧ Collapses (keysOf t) k r)) := by
  obtain ⟨h1, h2, h3⟩ := (delete_spec hw hc hb).2 t' v hd
  unfold reportingRemove
  rw [hd]
  dsimp only
  cases v with
  | none =>
    have hkn : lookup t k = none := by simpa using h1
    have ht : t' = t := by
      refine wf_unique h2 hw (fun κ => ?_)
      rw [h3]
      split
      · rename_i h; rw [h, hkn]
      · rfl
    subst ht
    refine ⟨none, ?_, .inl ⟨rfl, .inl (by simp [keysOf, hkn])⟩⟩
    unfold collapseReport
    by_cases hl : (path true t' k).length < 2 <;> simp [hl]
  | some w =>
    rcases collapse_core hw hc hb h1 h2 h3 with hleaf | ⟨hlen, ⟨hcol, hlt, -⟩ | ⟨hst, heq, -⟩⟩
    · subst hleaf
      refine ⟨none, by simp [collapseReport, path], .inl ⟨rfl, .inr (.inl ?_)⟩⟩
      intro κ h
      simp only [keysOf, lookup] at h
      split at h
      · assumption
      · simp at h
    · refine ⟨some (pieces (path true t' k)), ?_, .inr ⟨_, rfl, by simp [keysOf, h1], hcol⟩⟩
      unfold collapseReport
      rw [if_neg (by omega), if_pos hlt, intoKey_eq]
      · rfl
      · obtain ⟨p, hp, -, hl, -⟩ := hcol
        obtain ⟨κ, ha, hb', hc'⟩ := hp.2.1
        have := (hl κ ⟨ha, hb', hc'⟩).length_le
        have := hb κ ha
        simp; omega
    · refine ⟨none, ?_, .inl ⟨rfl, .inr (.inr hst)⟩⟩
      unfold collapseReport
      rw [if_neg (by omega), if_neg (by omega)]

/-- The hypotheses of `C14_reporting_remove` hold after every history over prefix-free keys, where
moreover the deletion always succeeds. -/
theorem C14_after_history (s : Strategy) (K : Key → Prop) (hK : PrefixFree K)
    (hb : ∀ k, K k → k.length ≤ 64) (ops : List Op) (hops : ∀ op ∈ ops, K op.key) (k : Key)
    (hk : K k) :
    ∃ t t' rep, run s ops = .ok t ∧ reportingRemove s t k = .ok (t', rep) ∧
      (∀ κ, lookup t' κ = if κ = k then none else lookup t κ) ∧
      ((rep = none ∧ (¬ keysOf t k ∨ (∀ κ, keysOf t κ → κ = k) ∨ Stays (keysOf t) k)) ∨
       (∃ r, rep = some r ∧ keysOf t k ∧ Collapses (keysOf t) k r)) := by
  obtain ⟨t, h1, h2⟩ := rel_run (s := s) hK hb hops
  obtain ⟨t', h3, -⟩ := h2.delete (s := s) hK hb hk
  have hc := h2.compat hK hk
  obtain ⟨rep, h4, h5⟩ := C14_reporting_remove s t k h2.wf hc (h2.bounded hb) t' _ h3
  exact ⟨t, t', rep, h1, h4, ((delete_spec h2.wf hc (h2.bounded hb)).2 t' _ h3).2.2, h5⟩

example : (run .reject [.ins [1, 2, 3] [7], .ins [1, 2, 4] [8], .ins [5, 5, 5] [9]]).bind
    (fun t => (reportingRemove .reject t [1, 2, 3]).map (·.2)) = .ok (some [1, 2, 4]) := by rfl
example : (run .reject [.ins [1, 2, 3] [7], .ins [1, 2, 4] [8], .ins [5, 5, 5] [9]]).bind
    (fun t => (reportingRemove .reject t [5, 5, 5]).map (·.2)) = .ok (some [1, 2]) := by rfl
example : (run .reject [.ins [1, 2, 3] [7], .ins [4, 2, 4] [8], .ins [5, 5, 5] [9]]).bind
    (fun t => (reportingRemove .reject t [5, 5, 5]).map (·.2)) = .ok none := by rfl

/-- The two outcomes exclude each other, so the report is determined by the key set. -/
theorem C14_exclusive (S : Key → Prop) (k r : Key) : ¬ (Collapses S k r ∧ Stays S k) := by
  rintro ⟨⟨p, h1, h2, h3, -⟩, q, a, b, κ₁, κ₂, g1, g2, g3, g4, g5, g6, g7, g8⟩
  have hpq : p = q := by
    have e1 : p.length = q.length := by
      obtain ⟨x, x1, x2, x3⟩ := h1.2.1
      obtain ⟨y, y1, y2, y3⟩ := g1.2.1
      have := h1.2.2 q y g1.1 y1 y2 y3
      have := g1.2.2 p x h1.1 x1 x2 x3
      omega
    have := List.prefix_of_prefix_length_le h1.1 g1.1 (by omega)
    exact this.eq_of_length e1
  subst hpq
  have hp1 : p <+: κ₁ := (List.prefix_append _ _).trans g7
  have hp2 : p <+: κ₂ := (List.prefix_append _ _).trans g8
  have r1 := h3 κ₁ ⟨g2, g4, hp1⟩
  have r2 := h3 κ₂ ⟨g3, g5, hp2⟩
  have ea := List.prefix_of_prefix_length_le g7 r1 (by simp; omega)
  have eb := List.prefix_of_prefix_length_le g8 r2 (by simp; omega)
  have := (List.prefix_of_prefix_length_le ea eb (by simp)).eq_of_length (by simp)
  exact g6 (by simpa using this)

end Verif.Mpt
