import Verif.Mpt.Insert
/-! Canonical tries without branch values, and their preservation by `insert`. -/
namespace Verif.Mpt

def Node.isBranch : Node → Bool
  | .branch _ _ => true
  | _ => false

/-- Canonical tries whose branches carry no value (i.e. whose key set is prefix-free). -/
def WF : Node → Prop
  | .empty => True
  | .hash _ => True
  | .leaf _ _ => True
  | .ext n c => n ≠ [] ∧ (c.isBranch = true ∨ c.isHash = true) ∧ WF c
  | .branch c v => v = [] ∧ (∀ i, WF (c i)) ∧
      ∃ i j, i ≠ j ∧ (c i).isEmpty = false ∧ (c j).isEmpty = false

/-- `k` is not a proper prefix of a stored key and no stored key is a proper prefix of `k`. -/
def Compat (t : Node) (k : Key) : Prop :=
  ∀ k', lookup t k' ≠ none → (k' <+: k ∨ k <+: k') → k' = k

theorem exists_lookup {t : Node} (h : WF t) (hne : t.isEmpty = false) :
    ∃ k e, lookup t k = some e := by
  induction t with
  | empty => simp [Node.isEmpty] at hne
  | hash x => exact ⟨[], .hash x, by simp [lookup]⟩
  | leaf n v => exact ⟨n, .val v, by simp [lookup]⟩
  | ext n c ih =>
    obtain ⟨k, e, hk⟩ := ih h.2.2 (by
      rcases h.2.1 with hb | hb <;> cases c <;> simp_all [Node.isBranch, Node.isHash, Node.isEmpty])
    exact ⟨n ++ k, e, by simp [lookup, hk]⟩
  | branch c v ih =>
    obtain ⟨-, hw, i, j, -, hi, -⟩ := h
    obtain ⟨k, e, hk⟩ := ih i (hw i) hi
    exact ⟨i :: k, e, by simp [lookup, hk]⟩

theorem Compat.branch {c v n k} (h : Compat (.branch c v) (n :: k)) : Compat (c n) k := by
  intro k' hk' hp
  have := h (n :: k') (by simpa [lookup] using hk') (by simpa using hp)
  simpa using this

theorem Compat.ext {n c k} (h : Compat (.ext n c) (n ++ k)) : Compat c k := by
  intro k' hk' hp
  have := h (n ++ k') (by simpa [lookup] using hk') (by simpa using hp)
  simpa using this

theorem not_compat_branch_nil {c v} (hw : WF (.branch c v)) : ¬ Compat (.branch c v) [] := by
  intro h
  obtain ⟨-, hw, i, j, -, hi, -⟩ := hw
  obtain ⟨k, e, hk⟩ := exists_lookup (hw i) hi
  have := h (i :: k) (by simp [lookup, hk]) (by simp)
  simp at this

theorem not_compat_ext_nil {n c k} (hw : WF (.ext n c)) (hp : k <+: n) (hne : k ≠ n) :
    ¬ Compat (.ext n c) k := by
  intro h
  obtain ⟨hn, hc, hw⟩ := hw
  obtain ⟨k', e, hk'⟩ := exists_lookup hw (by
      rcases hc with hb | hb <;> cases c <;> simp_all [Node.isBranch, Node.isHash, Node.isEmpty])
  have := h (n ++ k') (by simp [lookup, hk']) (Or.inr (hp.trans (List.prefix_append _ _)))
  have h1 := hp.length_le
  have h2 : n.length + k'.length = k.length := by rw [← this]; simp
  have h3 : k.length = n.length := by omega
  exact hne (hp.eq_of_length h3)

theorem Compat.insOk {t k} (hw : WF t) (hc : Compat t k) (e : Entry) : InsOk t k e := by
  induction t generalizing k with
  | empty => trivial
  | hash => trivial
  | branch c v ih =>
    cases k with
    | nil => exact absurd hc (not_compat_branch_nil hw)
    | cons n k => exact ih n (hw.2.1 n) hc.branch
  | ext n c ih =>
    refine ⟨fun hp => ?_, fun hp => ?_⟩
    · by_cases h : k = n
      · exact h
      · exact absurd hc (not_compat_ext_nil hw hp h)
    · obtain ⟨r, rfl⟩ := hp
      simp only [List.drop_left]
      exact ih hw.2.2 hc.ext
  | leaf n w =>
    refine ⟨fun hp => .inl ?_, fun hp => .inl ?_⟩
    · exact hc n (by simp [lookup]) (.inl hp)
    · exact hc n (by simp [lookup]) (.inr hp)

theorem createNode_wf (k e) : WF (createNode k e) := by
  cases e with
  | val => simp [createNode, WF]
  | hash => cases k <;> simp [createNode, WF, Node.isHash]

theorem createNode_ne (k e) : (createNode k e).isEmpty = false := by
  cases e with
  | val => simp [createNode, Node.isEmpty]
  | hash => cases k <;> simp [createNode, Node.isEmpty]

theorem mkExt_ne (p c v) : (mkExt p (.branch c v)).isEmpty = false := by
  cases p <;> simp [mkExt, Node.isEmpty]

theorem mkExt_branch_wf {p c v} (h : WF (.branch c v)) : WF (mkExt p (.branch c v)) := by
  cases p with
  | nil => simpa [mkExt] using h
  | cons x xs => exact ⟨by simp, .inl rfl, h⟩

theorem split_wf {p : Key} {x y : Nib} {ex nw : Node} (hxy : x ≠ y) (h1 : WF ex) (h2 : WF nw)
    (n1 : ex.isEmpty = false) (n2 : nw.isEmpty = false) :
    WF (mkExt p (.branch (upd (upd noChildren x ex) y nw) [])) := by
  refine mkExt_branch_wf ⟨rfl, fun i => ?_, x, y, hxy, ?_, by simpa using n2⟩
  · unfold upd; split
    · exact h2
    · split
      · exact h1
      · trivial
  · rw [upd_ne _ _ _ _ hxy]; simpa using n1

theorem insertRec_wf {t k e t'} (hw : WF t) (hc : Compat t k) (h : insertRec t k e = .ok t') :
    WF t' ∧ t'.isEmpty = false ∧ (t.isBranch = true → t'.isBranch = true) := by
  induction t generalizing k t' with
  | empty =>
    simp only [insertRec, Except.ok.injEq] at h
    subst h
    exact ⟨createNode_wf _ _, createNode_ne _ _, by simp [Node.isBranch]⟩
  | hash => simp [insertRec] at h
  | branch c v ih =>
    cases k with
    | nil => exact absurd hc (not_compat_branch_nil hw)
    | cons n k =>
      simp only [insertRec] at h
      split at h
      · rename_i u hu
        simp only [Except.ok.injEq] at h
        subst h
        obtain ⟨h1, h2, -⟩ := ih n (hw.2.1 n) hc.branch hu
        obtain ⟨hv, hws, i, j, hij, hi, hj⟩ := hw
        refine ⟨⟨hv, fun m => ?_, i, j, hij, ?_, ?_⟩, rfl, fun _ => rfl⟩
        · unfold upd; split
          · exact h1
          · exact hws m
        · unfold upd; split
          · exact h2
          · exact hi
        · unfold upd; split
          · exact h2
          · exact hj
      · simp at h
  | ext n c ih =>
    have hok := hc.insOk hw e
    simp only [insertRec] at h
    split at h
    · rename_i hid
      split at h
      · rename_i u hu
        simp only [Except.ok.injEq] at h
        subst h
        have hn : n <+: k := by
          rcases (ident_iff _ _).1 hid with h | h
          · exact h
          · exact (hok.1 h) ▸ List.prefix_rfl
        obtain ⟨r, rfl⟩ := hn
        simp only [List.drop_left] at hu
        obtain ⟨h1, h2, h3⟩ := ih hw.2.2 hc.ext hu
        obtain ⟨hn, hcc, hwc⟩ := hw
        refine ⟨⟨hn, ?_, h1⟩, rfl, by simp [Node.isBranch]⟩
        rcases hcc with hb | hb
        · exact .inl (h3 hb)
        · cases c <;> simp [Node.isHash] at hb
          simp [insertRec] at hu
      · simp at h
    · rename_i hid
      obtain ⟨p, x, xs, y, ys, rfl, rfl, hxy, -⟩ := split_of_not_ident hid
      rw [prePost_split _ _ _ _ _ hxy] at h
      simp only [placeBranch_both, Except.ok.injEq] at h
      subst h
      obtain ⟨hn, hcc, hwc⟩ := hw
      refine ⟨split_wf hxy ?_ (createNode_wf _ _) ?_ (createNode_ne _ _), mkExt_ne _ _ _,
        by simp [Node.isBranch]⟩
      · cases xs with
        | nil => simpa using hwc
        | cons => simpa [WF] using ⟨hcc, hwc⟩
      · cases xs with
        | nil =>
          rcases hcc with hb | hb <;> cases c <;>
            simp_all [Node.isBranch, Node.isHash, Node.isEmpty]
        | cons => simp [Node.isEmpty]
  | leaf n w =>
    simp only [insertRec] at h
    split at h
    · cases e with
      | hash => simp at h
      | val v =>
        simp only [Except.ok.injEq] at h
        subst h
        exact ⟨trivial, rfl, by simp [Node.isBranch]⟩
    · rename_i hnk
      have hid : ¬ ident n k = true := fun hid =>
        hnk (hc n (by simp [lookup]) ((ident_iff _ _).1 hid))
      obtain ⟨p, x, xs, y, ys, rfl, rfl, hxy, -⟩ := split_of_not_ident hid
      rw [prePost_split _ _ _ _ _ hxy] at h
      simp only [placeBranch_both, Except.ok.injEq] at h
      subst h
      exact ⟨split_wf hxy trivial (createNode_wf _ _) rfl (createNode_ne _ _), mkExt_ne _ _ _,
        by simp [Node.isBranch]⟩

/-- Exactly when an insert into a canonical trie fails. -/
theorem insertRec_error {t k e f} (hw : WF t) (hc : Compat t k) (h : insertRec t k e = .error f) :
    (∃ h, lookup t k = some (.hash h) ∧ f = .hashNodeInsert h) ∨
    (∃ h v, lookup t k = some (.val v) ∧ e = .hash h ∧ f = .existingHash h) := by
  induction t generalizing k f with
  | empty => simp [insertRec] at h
  | hash h' =>
    simp only [insertRec, Except.error.injEq] at h
    refine .inl ⟨h', ?_, h.symm⟩
    have : ([] : Key) = k := hc [] (by simp [lookup]) (.inl (List.nil_prefix))
    subst this; simp [lookup]
  | branch c v ih =>
    cases k with
    | nil => exact absurd hc (not_compat_branch_nil hw)
    | cons n k =>
      simp only [insertRec] at h
      split at h
      · simp at h
      · rename_i f' hu
        simp only [Except.error.injEq] at h
        subst h
        exact ih n (hw.2.1 n) hc.branch hu
  | ext n c ih =>
    have hok := hc.insOk hw e
    simp only [insertRec] at h
    split at h
    · rename_i hid
      split at h
      · simp at h
      · rename_i f' hu
        simp only [Except.error.injEq] at h
        subst h
        have hn : n <+: k := by
          rcases (ident_iff _ _).1 hid with h | h
          · exact h
          · exact (hok.1 h) ▸ List.prefix_rfl
        obtain ⟨r, rfl⟩ := hn
        simp only [List.drop_left] at hu
        simpa [lookup] using ih hw.2.2 hc.ext hu
    · rename_i hid
      obtain ⟨p, x, xs, y, ys, rfl, rfl, hxy, -⟩ := split_of_not_ident hid
      rw [prePost_split _ _ _ _ _ hxy] at h
      simp [placeBranch_both] at h
  | leaf n w =>
    simp only [insertRec] at h
    split at h
    · rename_i hnk
      subst hnk
      cases e with
      | hash h' =>
        simp only [Except.error.injEq] at h
        exact .inr ⟨h', w, by simp [lookup], rfl, h.symm⟩
      | val v => simp at h
    · rename_i hnk
      have hid : ¬ ident n k = true := fun hid =>
        hnk (hc n (by simp [lookup]) ((ident_iff _ _).1 hid))
      obtain ⟨p, x, xs, y, ys, rfl, rfl, hxy, -⟩ := split_of_not_ident hid
      rw [prePost_split _ _ _ _ _ hxy] at h
      simp [placeBranch_both] at h

/-- Canonical tries with the same contents are equal. -/
theorem wf_unique {t t' : Node} (h : WF t) (h' : WF t') (he : ∀ k, lookup t k = lookup t' k) :
    t = t' := by
  -- a canonical non-empty trie determined by its entries
  induction t generalizing t' with
  | empty =>
    cases ht : t'.isEmpty with
    | true => cases t' <;> simp_all [Node.isEmpty]
    | false =>
      obtain ⟨k, e, hk⟩ := exists_lookup h' ht
      have := he k; simp [hk] at this
  | hash x =>
    cases t' with
    | empty => have := he []; simp [lookup] at this
    | hash y => have := he []; simpa [lookup] using this
    | branch c v =>
      have := he []; rw [lookup_branch_nil, h'.1] at this; simp [lookup] at this
    | ext n c =>
      have := he []
      have hn : ¬ n = [] := h'.1
      simp [lookup, hn] at this
    | leaf n v =>
      have := he []
      by_cases hn : ([] : Key) = n <;> simp [lookup, hn] at this
  | leaf n v =>
    have hl := he n
    simp only [lookup, if_true] at hl
    cases t' with
    | empty => simp at hl
    | hash y => simp only [lookup] at hl; split at hl <;> simp at hl
    | leaf m w =>
      simp only [lookup] at hl
      split at hl
      · rename_i hnm; subst hnm; simpa using hl
      · simp at hl
    | branch c w =>
      obtain ⟨hw, hws, i, j, hij, hi, hj⟩ := h'
      obtain ⟨k1, e1, hk1⟩ := exists_lookup (hws i) hi
      obtain ⟨k2, e2, hk2⟩ := exists_lookup (hws j) hj
      have h1 := he (i :: k1)
      have h2 := he (j :: k2)
      simp only [lookup, hk1, hk2] at h1 h2
      split at h1
      · split at h2
        · rename_i a b; rw [← b] at a; simp only [List.cons.injEq] at a; exact absurd a.1 hij
        · simp at h2
      · simp at h1
    | ext m c =>
      obtain ⟨hn, hcc, hwc⟩ := h'
      cases c with
      | hash y =>
        have := he m
        by_cases hmn : m = n <;> simp [lookup, hmn] at this
      | branch c w =>
        obtain ⟨hw, hws, i, j, hij, hi, hj⟩ := hwc
        obtain ⟨k1, e1, hk1⟩ := exists_lookup (hws i) hi
        obtain ⟨k2, e2, hk2⟩ := exists_lookup (hws j) hj
        have h1 := he (m ++ i :: k1)
        have h2 := he (m ++ j :: k2)
        simp [lookup, hk1] at h1
        simp [lookup, hk2] at h2
        have := h1.1.trans h2.1.symm
        simp at this
        exact absurd this.1 hij
      | _ => simp [Node.isBranch, Node.isHash] at hcc
  | branch c v ih =>
    obtain ⟨hv, hws, i, j, hij, hi, hj⟩ := h
    obtain ⟨k1, e1, hk1⟩ := exists_lookup (hws i) hi
    obtain ⟨k2, e2, hk2⟩ := exists_lookup (hws j) hj
    have h1 := he (i :: k1)
    have h2 := he (j :: k2)
    simp only [lookup_branch_cons, hk1, hk2] at h1 h2
    cases t' with
    | empty => simp at h1
    | hash y => simp [lookup] at h1
    | leaf m w =>
      simp only [lookup] at h1 h2
      split at h1
      · split at h2
        · rename_i a b; rw [← b] at a; simp only [List.cons.injEq] at a; exact absurd a.1 hij
        · simp at h2
      · simp at h1
    | ext m d =>
      have hm : ¬ m = [] := h'.1
      cases m with
      | nil => simp at hm
      | cons x xs =>
        simp only [lookup] at h1 h2
        split at h1
        · split at h2
          · rename_i a b
            simp only [List.cons_prefix_cons] at a b
            exact absurd (a.1.symm.trans b.1) hij
          · simp at h2
        · simp at h1
    | branch d w =>
      have hcd : c = d := by
        funext m
        exact ih m (hws m) (h'.2.1 m) (fun k => by simpa [lookup_branch_cons] using he (m :: k))
      rw [hcd, hv, h'.1]
  | ext n c ih =>
    obtain ⟨hn, hcc, hwc⟩ := h
    have hne : c.isEmpty = false := by
      rcases hcc with hb | hb <;> cases c <;> simp_all [Node.isBranch, Node.isHash, Node.isEmpty]
    obtain ⟨k0, e0, hk0⟩ := exists_lookup hwc hne
    have h0 := he (n ++ k0)
    rw [lookup_ext_append, hk0] at h0
    cases t' with
    | empty => simp at h0
    | hash y =>
      simp only [lookup] at h0
      split at h0
      · simp_all
      · simp at h0
    | branch d w =>
      obtain ⟨hw, hws, i, j, hij, hi, hj⟩ := h'
      obtain ⟨k1, e1, hk1⟩ := exists_lookup (hws i) hi
      obtain ⟨k2, e2, hk2⟩ := exists_lookup (hws j) hj
      have h1 := he (i :: k1)
      have h2 := he (j :: k2)
      simp only [lookup_branch_cons, hk1, hk2] at h1 h2
      cases n with
      | nil => simp at hn
      | cons x xs =>
        simp only [lookup] at h1 h2
        split at h1
        · split at h2
          · rename_i a b
            simp only [List.cons_prefix_cons] at a b
            exact absurd (a.1.symm.trans b.1) hij
          · simp at h2
        · simp at h1
    | leaf m w =>
      cases c with
      | hash y =>
        have := he n
        simp only [lookup] at this
        split at this <;> simp_all
      | branch c w =>
        obtain ⟨hw, hws, i, j, hij, hi, hj⟩ := hwc
        obtain ⟨k1, e1, hk1⟩ := exists_lookup (hws i) hi
        obtain ⟨k2, e2, hk2⟩ := exists_lookup (hws j) hj
        have h1 := he (n ++ i :: k1)
        have h2 := he (n ++ j :: k2)
        simp [lookup, hk1] at h1
        simp [lookup, hk2] at h2
        by_cases a : n ++ i :: k1 = m
        · by_cases b : n ++ j :: k2 = m
          · have := a.trans b.symm
            simp at this
            exact absurd this.1 hij
          · simp [b] at h2
        · simp [a] at h1
      | _ => simp [Node.isBranch, Node.isHash] at hcc
    | ext m d =>
      -- the two extensions have the same nibbles
      have key : ∀ {n m : Key} {c d : Node}, WF (.ext n c) → WF (.ext m d) →
          (∀ k, lookup (.ext n c) k = lookup (.ext m d) k) → m <+: n := by
        intro n m c d hn hm he
        obtain ⟨hn, hcc, hwc⟩ := hn
        cases c with
        | hash y =>
          have := he n
          simp only [lookup] at this
          simp only [List.prefix_rfl, if_true, List.drop_length] at this
          split at this
          · assumption
          · simp at this
        | branch c w =>
          obtain ⟨hw, hws, i, j, hij, hi, hj⟩ := hwc
          obtain ⟨k1, e1, hk1⟩ := exists_lookup (hws i) hi
          obtain ⟨k2, e2, hk2⟩ := exists_lookup (hws j) hj
          have h1 := he (n ++ i :: k1)
          have h2 := he (n ++ j :: k2)
          rw [lookup_ext_append, lookup_branch_cons, hk1] at h1
          rw [lookup_ext_append, lookup_branch_cons, hk2] at h2
          simp only [lookup] at h1 h2
          have a : m <+: n ++ i :: k1 := by
            by_cases a : m <+: n ++ i :: k1
            · exact a
            · simp [a] at h1
          have b : m <+: n ++ j :: k2 := by
            by_cases a : m <+: n ++ j :: k2
            · exact a
            · simp [a] at h2
          rcases List.prefix_or_prefix_of_prefix a (List.prefix_append n _) with h | h
          · exact h
          · obtain ⟨r, rfl⟩ := h
            rw [List.prefix_append_right_inj] at a b
            cases r with
            | nil => simp
            | cons z zs =>
              simp only [List.cons_prefix_cons] at a b
              exact absurd (a.1.symm.trans b.1) hij
        | _ => simp [Node.isBranch, Node.isHash] at hcc
      have e1 := key ⟨hn, hcc, hwc⟩ h' he
      have e2 := key h' ⟨hn, hcc, hwc⟩ (fun k => (he k).symm)
      have : n = m := e2.eq_of_length (Nat.le_antisymm e2.length_le e1.length_le)
      subst this
      rw [ih hwc h'.2.2 (fun k => by simpa [lookup_ext_append] using he (n ++ k))]

end Verif.Mpt
