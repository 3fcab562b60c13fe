import Verif.Mpt.Canon
/-! `delete` refines map removal on canonical tries. -/
namespace Verif.Mpt

/-- Canonical up to one extension at the root that may still have to be merged with its child. -/
def PreWF (t : Node) : Prop :=
  WF t ∨ ∃ n c, t = .ext n c ∧ n ≠ [] ∧ WF c ∧ c.isEmpty = false

/-- All keys stored in `t` have at most `m` nibbles. -/
def Bounded (m : Nat) (t : Node) : Prop := ∀ k, lookup t k ≠ none → k.length ≤ m

/-- No entry of `t` is a hash. -/
def NoHash (t : Node) : Prop := ∀ k h, lookup t k ≠ some (.hash h)

theorem Bounded.branch {m c v} (h : Bounded m (.branch c v)) (n : Nib) : Bounded m (c n) := by
  intro k hk
  have := h (n :: k) (by simpa [lookup_branch_cons] using hk)
  simp at this; omega

theorem Bounded.ext {m n c} (h : Bounded m (.ext n c)) : Bounded m c := by
  intro k hk
  have := h (n ++ k) (by simpa [lookup_ext_append] using hk)
  simp at this; omega

theorem NoHash.branch {c v} (h : NoHash (.branch c v)) (n : Nib) : NoHash (c n) := by
  intro k x hk
  exact h (n :: k) x (by simpa [lookup_branch_cons] using hk)

theorem NoHash.ext {n c} (h : NoHash (.ext n c)) : NoHash c := by
  intro k x hk
  exact h (n ++ k) x (by simpa [lookup_ext_append] using hk)

theorem lookup_ext_ext (a b : Key) (c : Node) (k : Key) :
    lookup (.ext (a ++ b) c) k = lookup (.ext a (.ext b c)) k := by
  simp only [lookup]
  by_cases ha : a <+: k
  · obtain ⟨r, rfl⟩ := ha
    simp only [List.prefix_append, if_true, List.drop_left, List.prefix_append_right_inj]
    simp only [List.length_append, ← List.drop_drop, List.drop_left]
  · have : ¬ a ++ b <+: k := fun h => ha ((List.prefix_append _ _).trans h)
    simp [ha, this]

theorem lookup_ext_leaf (a b : Key) (v : Bytes) (k : Key) :
    lookup (.leaf (a ++ b) v) k = lookup (.ext a (.leaf b v)) k := by
  simp only [lookup]
  by_cases ha : a <+: k
  · obtain ⟨r, rfl⟩ := ha
    simp
  · have : ¬ k = a ++ b := fun h => ha (h ▸ List.prefix_append _ _)
    simp [ha, this]

/-- Collapsing an extension keeps the denotation; the result needs no further merging if the child
was canonical. -/
theorem collapseExt_spec {n c ck s t'} (hn : n ≠ []) (h : collapseExt n c ck s = .ok t') :
    (∀ k, lookup t' k = lookup (.ext n c) k) ∧ t'.isEmpty = false ∧
    (WF c → WF t') ∧ (PreWF c → PreWF t') := by
  cases c with
  | empty => simp [collapseExt] at h
  | hash x =>
    cases s <;> simp only [collapseExt] at h
    · simp only [Except.ok.injEq] at h; subst h
      exact ⟨fun _ => rfl, rfl, fun h => ⟨hn, .inr rfl, h⟩, fun _ => .inl ⟨hn, .inr rfl, trivial⟩⟩
    · unfold mergeNibbles at h
      split at h <;> simp [bind, Except.bind] at h
  | branch c v =>
    simp only [collapseExt, Except.ok.injEq] at h; subst h
    refine ⟨fun _ => rfl, rfl, fun h => ⟨hn, .inl rfl, h⟩, fun h => ?_⟩
    rcases h with h | ⟨_, _, h, -⟩
    · exact .inl ⟨hn, .inl rfl, h⟩
    · simp at h
  | leaf m v =>
    simp only [collapseExt, mergeNibbles] at h
    split at h
    · simp only [bind, Except.bind, pure, Except.pure, Except.ok.injEq] at h; subst h
      exact ⟨fun k => lookup_ext_leaf _ _ _ _, rfl, fun _ => trivial, fun _ => .inl trivial⟩
    · simp [bind, Except.bind] at h
  | ext m d =>
    simp only [collapseExt, mergeNibbles] at h
    split at h
    · simp only [bind, Except.bind, pure, Except.pure, Except.ok.injEq] at h; subst h
      refine ⟨fun k => lookup_ext_ext _ _ _ _, rfl, fun h => ⟨by simp [hn], h.2⟩, fun h => ?_⟩
      rcases h with h | ⟨n', c', h, hn', hw, hne⟩
      · exact .inl ⟨by simp [hn], h.2⟩
      · simp only [Node.ext.injEq] at h
        obtain ⟨rfl, rfl⟩ := h
        exact .inr ⟨_, _, rfl, by simp [hn], hw, hne⟩
    · simp [bind, Except.bind] at h

theorem tryCollapse_spec {u ck s t'} (hu : PreWF u) (h : tryCollapse u ck s = .ok t') :
    (∀ k, lookup t' k = lookup u k) ∧ WF t' ∧ t'.isEmpty = u.isEmpty := by
  cases u with
  | ext n c =>
    simp only [tryCollapse] at h
    have : n ≠ [] ∧ WF c := by
      rcases hu with h | ⟨n', c', h, hn', hw, -⟩
      · exact ⟨h.1, h.2.2⟩
      · simp only [Node.ext.injEq] at h; obtain ⟨rfl, rfl⟩ := h; exact ⟨hn', hw⟩
    obtain ⟨h1, h2, h3, -⟩ := collapseExt_spec this.1 h
    exact ⟨h1, h3 this.2, by rw [h2]; rfl⟩
  | _ =>
    simp only [tryCollapse, Except.ok.injEq] at h
    subst h
    refine ⟨fun _ => rfl, ?_, rfl⟩
    rcases hu with h | ⟨_, _, h, -⟩
    · exact h
    · simp at h

theorem countP_finRange_ge_three {c : Nib → Node} {a b d : Nib} (hab : a ≠ b) (had : a ≠ d)
    (hbd : b ≠ d) (ha : (c a).isEmpty = false) (hb : (c b).isEmpty = false)
    (hd : (c d).isEmpty = false) : 3 ≤ numNonEmpty c := by
  unfold numNonEmpty
  rw [List.countP_eq_length_filter]
  have hsub : [a, b, d] ⊆ (List.finRange 16).filter (fun i => !(c i).isEmpty) := by
    intro x hx
    simp only [List.mem_cons, List.not_mem_nil, or_false] at hx
    simp only [List.mem_filter, List.mem_finRange, true_and]
    rcases hx with rfl | rfl | rfl <;> simp [*]
  have hnd : [a, b, d].Nodup := by simp [*]
  exact List.Nodup.length_le_of_subset hnd hsub


theorem exists_two_of_three {c : Nib → Node} (n : Nib) (h : 3 ≤ numNonEmpty c) :
    ∃ i j, i ≠ j ∧ i ≠ n ∧ j ≠ n ∧ (c i).isEmpty = false ∧ (c j).isEmpty = false := by
  unfold numNonEmpty at h
  rw [List.countP_eq_length_filter] at h
  have hnd : ((List.finRange 16).filter (fun i => !(c i).isEmpty)).Nodup :=
    (List.nodup_finRange 16).filter _
  have hmem : ∀ i ∈ (List.finRange 16).filter (fun i => !(c i).isEmpty), (c i).isEmpty = false := by
    intro i hi; simpa using hi
  generalize (List.finRange 16).filter (fun i => !(c i).isEmpty) = l at *
  match l, h, hnd, hmem with
  | a :: b :: d :: l, _, hnd, hmem =>
    have ha := hmem a (by simp)
    have hb := hmem b (by simp)
    have hd := hmem d (by simp)
    simp only [List.nodup_cons, List.mem_cons, not_or] at hnd
    obtain ⟨⟨hab, had, -⟩, ⟨hbd, -⟩, -⟩ := hnd
    by_cases h1 : a = n
    · subst h1
      exact ⟨b, d, hbd, fun h => hab h.symm, fun h => had h.symm, hb, hd⟩
    · by_cases h2 : b = n
      · subst h2
        exact ⟨a, d, had, hab, fun h => hbd h.symm, ha, hd⟩
      · exact ⟨a, b, hab, h1, h2, ha, hb⟩

theorem PreWF.exists_lookup {u : Node} (h : PreWF u) (hne : u.isEmpty = false) :
    ∃ k e, lookup u k = some e := by
  rcases h with h | ⟨n, c, rfl, hn, hw, hc⟩
  · exact Verif.Mpt.exists_lookup h hne
  · obtain ⟨k, e, hk⟩ := Verif.Mpt.exists_lookup hw hc
    exact ⟨n ++ k, e, by rw [lookup_ext_append, hk]⟩

theorem collapseExt_error {n c ck s f} (hc : PreWF c) (hne : c.isEmpty = false)
    (hb : ∀ k, lookup c k ≠ none → n.length + k.length ≤ 64)
    (h : collapseExt n c ck s = .error f) : s = .reject ∧ ∃ h, c = .hash h := by
  cases c with
  | empty => simp [Node.isEmpty] at hne
  | hash x => cases s <;> simp [collapseExt] at h ⊢
  | branch => simp [collapseExt] at h
  | leaf m v =>
    have := hb m (by simp [lookup])
    simp [collapseExt, mergeNibbles, this, bind, Except.bind, pure, Except.pure] at h
  | ext m d =>
    have : ∃ k e, lookup d k = some e := by
      rcases hc with h | ⟨n', c', h, hn', hw, hne⟩
      · exact exists_lookup h.2.2 (by
          rcases h.2.1 with hb | hb <;> cases d <;>
            simp_all [Node.isBranch, Node.isHash, Node.isEmpty])
      · simp only [Node.ext.injEq] at h
        obtain ⟨rfl, rfl⟩ := h
        exact exists_lookup hw hne
    obtain ⟨k, e, hk⟩ := this
    have := hb (m ++ k) (by rw [lookup_ext_append, hk]; simp)
    have : n.length + m.length ≤ 64 := by simp at this; omega
    simp [collapseExt, mergeNibbles, this, bind, Except.bind, pure, Except.pure] at h

theorem tryCollapse_error {u ck s f} (hu : PreWF u) (hb : Bounded 64 u)
    (h : tryCollapse u ck s = .error f) : s = .reject ∧ ∃ k h, lookup u k = some (.hash h) := by
  cases u with
  | ext n c =>
    simp only [tryCollapse] at h
    have hc : WF c ∧ c.isEmpty = false := by
      rcases hu with h | ⟨n', c', h, hn', hw, hne⟩
      · refine ⟨h.2.2, ?_⟩
        rcases h.2.1 with hb | hb <;> cases c <;>
            simp_all [Node.isBranch, Node.isHash, Node.isEmpty]
      · simp only [Node.ext.injEq] at h
        obtain ⟨rfl, rfl⟩ := h
        exact ⟨hw, hne⟩
    obtain ⟨hs, x, rfl⟩ := collapseExt_error (.inl hc.1) hc.2 (fun k hk => by
      have := hb (n ++ k) (by rw [lookup_ext_append]; exact hk)
      simpa using this) h
    exact ⟨hs, n, x, by simp [lookup]⟩
  | _ => simp [tryCollapse] at h

/-- Full description of the recursive deletion on canonical tries. -/
theorem deleteRec_spec {s t k} (hw : WF t) (hc : Compat t k) (hb : Bounded 64 t) :
    (∀ f, deleteRec s t k = .error f →
      (∃ h, lookup t k = some (.hash h) ∧ f = .hashNodeDelete h) ∨
      (s = .reject ∧ ∃ k h, lookup t k = some (.hash h))) ∧
    (deleteRec s t k = .ok none → lookup t k = none) ∧
    (∀ u w, deleteRec s t k = .ok (some (u, w)) →
      lookup t k = some (.val w) ∧ PreWF u ∧
      (∀ k', lookup u k' = if k' = k then none else lookup t k') ∧
      (u.isEmpty = true → t.isBranch = false ∧ t.isHash = false)) := by
  induction t generalizing k with
  | empty => simp [deleteRec]
  | hash x =>
    refine ⟨fun f hf => .inl ?_, by simp [deleteRec], by simp [deleteRec]⟩
    have : ([] : Key) = k := hc [] (by simp [lookup]) (.inl (List.nil_prefix))
    subst this
    simp only [deleteRec, Except.error.injEq] at hf
    exact ⟨x, by simp [lookup], hf.symm⟩
  | leaf n v =>
    refine ⟨by simp [deleteRec], ?_, ?_⟩
    · intro h
      simp only [deleteRec, Except.ok.injEq, ite_eq_right_iff, reduceCtorEq, imp_false] at h
      have h' : ¬ k = n := fun h' => h h'.symm
      simp [lookup, h']
    · intro u w h
      simp only [deleteRec, Except.ok.injEq] at h
      split at h
      · rename_i hnk
        subst hnk
        simp only [Option.some.injEq, Prod.mk.injEq] at h
        obtain ⟨rfl, rfl⟩ := h
        refine ⟨by simp [lookup], .inl trivial, fun k' => ?_, by simp [Node.isBranch, Node.isHash]⟩
        simp only [lookup]; split <;> simp
      · simp at h
  | ext n c ih =>
    have hok := hc.insOk hw (.val [])
    by_cases hid : ident n k = true
    · have hn : n <+: k := by
        rcases (ident_iff _ _).1 hid with h | h
        · exact h
        · exact (hok.1 h) ▸ List.prefix_rfl
      obtain ⟨r, rfl⟩ := hn
      obtain ⟨ih1, ih2, ih3⟩ := ih hw.2.2 hc.ext hb.ext
      simp only [deleteRec, hid, if_true, List.drop_left, lookup_ext_append]
      cases hd : deleteRec s c r with
      | error f =>
        refine ⟨fun f' hf => ?_, by simp, by simp⟩
        simp only [Except.error.injEq] at hf
        subst hf
        rcases ih1 f hd with h | ⟨hs, k, x, hx⟩
        · exact .inl h
        · exact .inr ⟨hs, n ++ k, x, by rw [lookup_ext_append, hx]⟩
      | ok o =>
        cases o with
        | none => simp [ih2 hd]
        | some p =>
          obtain ⟨u, w⟩ := p
          obtain ⟨j1, j2, j3, j4⟩ := ih3 u w hd
          have hune : u.isEmpty = false := by
            cases hue : u.isEmpty with
            | false => rfl
            | true =>
              obtain ⟨a, b⟩ := j4 hue
              rcases hw.2.1 with h | h <;> simp_all
          dsimp only
          cases hcol : collapseExt n u r s with
          | error f =>
            refine ⟨fun f' hf => .inr ?_, by simp, by simp⟩
            obtain ⟨hs, x, rfl⟩ := collapseExt_error j2 hune (fun k hk => by
              have h1 := j3 k
              rw [h1] at hk
              split at hk
              · simp at hk
              · have := hb (n ++ k) (by rw [lookup_ext_append]; exact hk)
                simpa using this) hcol
            refine ⟨hs, n, x, ?_⟩
            have h1 := j3 []
            simp only [lookup, if_true] at h1
            split at h1
            · simp at h1
            · have := lookup_ext_append n c []
              rw [← h1] at this
              simpa using this
          | ok t' =>
            refine ⟨by simp, by simp, ?_⟩
            intro u' w' he
            simp only [Except.ok.injEq, Option.some.injEq, Prod.mk.injEq] at he
            obtain ⟨rfl, rfl⟩ := he
            obtain ⟨k1, k2, -, k4⟩ := collapseExt_spec hw.1 hcol
            refine ⟨j1, k4 j2, fun k' => ?_, by simp [k2]⟩
            rw [k1]
            simp only [lookup]
            by_cases hp : n <+: k'
            · obtain ⟨r', rfl⟩ := hp
              simp [j3]
            · simp [hp]
    · simp only [deleteRec, hid, Bool.false_eq_true, if_false]
      refine ⟨by simp, fun _ => ?_, by simp⟩
      have : ¬ n <+: k := fun h => hid ((ident_iff _ _).2 (.inl h))
      simp [lookup, this]
  | branch c v ih =>
    cases k with
    | nil => exact absurd hc (not_compat_branch_nil hw)
    | cons n k =>
      obtain ⟨hv, hws, i0, j0, hij0, hi0, hj0⟩ := hw
      obtain ⟨ih1, ih2, ih3⟩ := ih n (hws n) hc.branch (hb.branch n)
      simp only [deleteRec, lookup_branch_cons]
      cases hd : deleteRec s (c n) k with
      | error f =>
        refine ⟨fun f' hf => ?_, by simp, by simp⟩
        simp only [Except.error.injEq] at hf
        subst hf
        rcases ih1 f hd with h | ⟨hs, k, x, hx⟩
        · exact .inl h
        · exact .inr ⟨hs, n :: k, x, by rw [lookup_branch_cons, hx]⟩
      | ok o =>
        cases o with
        | none => simp [ih2 hd]
        | some p =>
          obtain ⟨u, w⟩ := p
          obtain ⟨j1, j2, j3, j4⟩ := ih3 u w hd
          have hcn : (c n).isEmpty = false := by
            cases hcn : c n <;> simp_all [Node.isEmpty]
          dsimp only
          by_cases hcond : u.isEmpty = true ∧ numNonEmpty c ≤ 2
          · -- the branch collapses
            have hcond' : (u.isEmpty && decide (numNonEmpty c ≤ 2)) = true := by simp [hcond]
            rw [if_pos hcond']
            have hex : ∃ m, m ≠ n ∧ (c m).isEmpty = false := by
              by_cases h : i0 = n
              · exact ⟨j0, fun h' => hij0 (h.trans h'.symm), hj0⟩
              · exact ⟨i0, h, hi0⟩
            obtain ⟨m, hmn, hm⟩ := hex
            have hoc : ∃ i, otherChild c n = .ok i ∧ i ≠ n ∧ (c i).isEmpty = false := by
              unfold otherChild
              cases hf : List.find? (fun i => i != n && !(c i).isEmpty) (List.finRange 16) with
              | none =>
                rw [List.find?_eq_none] at hf
                have := hf m (List.mem_finRange m)
                simp [hmn, hm] at this
              | some i =>
                have := List.find?_some hf
                simp only [Bool.and_eq_true, bne_iff_ne, ne_eq, Bool.not_eq_true'] at this
                exact ⟨i, rfl, this.1, this.2⟩
            obtain ⟨i, hoc, hin, hi⟩ := hoc
            rw [hoc]
            refine ⟨by simp, by simp, ?_⟩
            intro u' w' he
            simp only [Except.ok.injEq, Option.some.injEq, Prod.mk.injEq] at he
            obtain ⟨rfl, rfl⟩ := he
            refine ⟨j1, .inr ⟨_, _, rfl, by simp, hws i, hi⟩, fun k' => ?_, by simp [Node.isEmpty]⟩
            have hothers : ∀ j, j ≠ i → j ≠ n → c j = .empty := by
              intro j hji hjn
              cases hje : (c j).isEmpty with
              | true => cases hcj : c j <;> simp_all [Node.isEmpty]
              | false =>
                have := countP_finRange_ge_three hji hjn hin hje hi hcn
                omega
            have hue : u = .empty := by
              have := hcond.1
              cases u <;> simp_all [Node.isEmpty]
            subst hue
            cases k' with
            | nil => simp [lookup, hv]
            | cons j r =>
              simp only [lookup, List.cons_prefix_cons, List.nil_prefix, and_true, List.length_cons,
                List.length_nil, Nat.zero_add, List.drop_one, List.tail_cons, List.cons.injEq]
              by_cases hji : j = i
              · subst hji
                simp [hin]
              · have : ¬ i = j := fun h => hji h.symm
                simp only [this, if_false]
                by_cases hjn : j = n
                · subst hjn
                  have := j3 r
                  simp only [lookup_empty] at this
                  simpa using this
                · simp [hothers j hji hjn]
          · have hcond' : (u.isEmpty && decide (numNonEmpty c ≤ 2)) = false := by
              simp only [Bool.and_eq_false_iff, decide_eq_false_iff_not]
              by_cases h : u.isEmpty = true
              · exact .inr (fun h' => hcond ⟨h, h'⟩)
              · exact .inl (by simpa using h)
            simp only [hcond', Bool.false_eq_true, if_false]
            have hbu : Bounded 64 u := by
              intro k' hk'
              rw [j3] at hk'
              split at hk'
              · simp at hk'
              · exact hb.branch n k' hk'
            cases hcol : tryCollapse u k s with
            | error f =>
              refine ⟨fun f' hf => .inr ?_, by simp, by simp⟩
              obtain ⟨hs, k', x, hx⟩ := tryCollapse_error j2 hbu hcol
              rw [j3] at hx
              split at hx
              · simp at hx
              · exact ⟨hs, n :: k', x, by rw [lookup_branch_cons, hx]⟩
            | ok t' =>
              refine ⟨by simp, by simp, ?_⟩
              intro u' w' he
              simp only [Except.ok.injEq, Option.some.injEq, Prod.mk.injEq] at he
              obtain ⟨rfl, rfl⟩ := he
              obtain ⟨k1, k2, k3⟩ := tryCollapse_spec j2 hcol
              refine ⟨j1, .inl ⟨hv, fun m => ?_, ?_⟩, fun k' => ?_, by simp [Node.isEmpty]⟩
              · unfold upd; split
                · exact k2
                · exact hws m
              · cases hue : u.isEmpty with
                | false =>
                  rw [hue] at k3
                  refine ⟨i0, j0, hij0, ?_, ?_⟩
                  · unfold upd; split
                    · exact k3
                    · exact hi0
                  · unfold upd; split
                    · exact k3
                    · exact hj0
                | true =>
                  have h3 : 3 ≤ numNonEmpty c := by
                    rcases Nat.lt_or_ge 2 (numNonEmpty c) with h | h
                    · exact h
                    · exact absurd ⟨hue, h⟩ hcond
                  obtain ⟨a, b, hab, han, hbn, ha, hb'⟩ := exists_two_of_three n h3
                  exact ⟨a, b, hab, by rw [upd_ne _ _ _ _ han]; exact ha,
                    by rw [upd_ne _ _ _ _ hbn]; exact hb'⟩
              · cases k' with
                | nil => simp [lookup]
                | cons j r =>
                  simp only [lookup_branch_cons, List.cons.injEq]
                  by_cases hjn : j = n
                  · subst hjn; simp [k1, j3]
                  · simp [upd_ne _ _ _ _ hjn, hjn]

theorem delete_spec {s t k} (hw : WF t) (hc : Compat t k) (hb : Bounded 64 t) :
    (∀ f, delete s t k = .error f →
      (∃ h, lookup t k = some (.hash h) ∧ f = .hashNodeDelete h) ∨
      (s = .reject ∧ ∃ k h, lookup t k = some (.hash h))) ∧
    (∀ t' r, delete s t k = .ok (t', r) →
      (lookup t k = r.map .val) ∧ WF t' ∧
      (∀ k', lookup t' k' = if k' = k then none else lookup t k')) := by
  obtain ⟨h1, h2, h3⟩ := deleteRec_spec (s := s) hw hc hb
  unfold delete
  cases hd : deleteRec s t k with
  | error f =>
    refine ⟨fun f' hf => ?_, by simp⟩
    simp only [Except.error.injEq] at hf
    subst hf
    exact h1 f hd
  | ok o =>
    cases o with
    | none =>
      refine ⟨by simp, ?_⟩
      intro t' r he
      simp only [Except.ok.injEq, Prod.mk.injEq] at he
      obtain ⟨rfl, rfl⟩ := he
      refine ⟨by simp [h2 hd], hw, fun k' => ?_⟩
      split
      · rename_i h; rw [h]; exact h2 hd
      · rfl
    | some p =>
      obtain ⟨u, w⟩ := p
      obtain ⟨j1, j2, j3, -⟩ := h3 u w hd
      have hbu : Bounded 64 u := by
        intro k' hk'
        rw [j3] at hk'
        split at hk'
        · simp at hk'
        · exact hb k' hk'
      dsimp only
      cases hcol : tryCollapse u [] s with
      | error f =>
        refine ⟨fun f' hf => .inr ?_, by simp⟩
        obtain ⟨hs, k', x, hx⟩ := tryCollapse_error j2 hbu hcol
        rw [j3] at hx
        split at hx
        · simp at hx
        · exact ⟨hs, k', x, hx⟩
      | ok t' =>
        refine ⟨by simp, ?_⟩
        intro u' w' he
        simp only [Except.ok.injEq, Prod.mk.injEq] at he
        obtain ⟨rfl, rfl⟩ := he
        obtain ⟨k1, k2, -⟩ := tryCollapse_spec j2 hcol
        exact ⟨j1, k2, fun k' => by rw [k1, j3]⟩

end Verif.Mpt
