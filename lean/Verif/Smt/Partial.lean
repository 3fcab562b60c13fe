import Verif.Smt.Props
/-!
# Updates of partial sparse Merkle trees (C56)

A state in which some subtrees are known only by their hash behaves as the full state, as long as it
does not fail.
-/
namespace Verif.Smt

section
variable {H : Nd → Key}

/-- Every node known on the left is known on the right. -/
def Db.Le (d d' : Db) : Prop := ∀ k n, d.get k = some n → d'.get k = some n

/-- The same nodes were stored in both databases. -/
def Both (d d' d1 d1' : Db) : Prop := ∃ new, d1 = new ++ d ∧ d1' = new ++ d'

theorem Both.refl (d d' : Db) : Both d d' d d' := ⟨[], rfl, rfl⟩

theorem Both.one (d d' : Db) (e : Key × Nd) : Both d d' (e :: d) (e :: d') := ⟨[e], rfl, rfl⟩

theorem Both.trans {d d' d1 d1' d2 d2' : Db} : Both d d' d1 d1' → Both d1 d1' d2 d2' → Both d d' d2 d2' := by
  rintro ⟨n, rfl, rfl⟩ ⟨m, rfl, rfl⟩
  exact ⟨m ++ n, by simp, by simp⟩

theorem Db.Le.cons {d d' : Db} (h : d.Le d') (e : Key × Nd) : Db.Le (e :: d) (e :: d') := by
  intro k n hk
  obtain ⟨k', m⟩ := e
  rw [Db.get] at hk ⊢
  split
  · rename_i he; rw [if_pos he] at hk; exact hk
  · rename_i he; rw [if_neg he] at hk; exact h k n hk

theorem Both.le {d d' d1 d1' : Db} (h : d.Le d') : Both d d' d1 d1' → d1.Le d1' := by
  rintro ⟨n, rfl, rfl⟩
  induction n with
  | nil => exact h
  | cons e n ih => exact ih.cons e

theorem descend_le {d d' : Db} (h : d.Le d') : ∀ {keys acc : List Bool} {st : Stack} {r : Key} {x},
    descend d keys acc st r = .ok x → descend d' keys acc st r = .ok x := by
  intro keys
  induction keys with
  | nil =>
    intro acc st r x hx
    rw [descend] at hx ⊢
    split
    · rename_i hr; rw [if_pos hr] at hx; exact hx
    · rename_i hr
      rw [if_neg hr] at hx
      cases hg : d.get r with
      | none => rw [hg] at hx; cases hx
      | some n =>
        rw [h _ _ hg]
        rw [hg] at hx
        simp only at hx ⊢
        split
        · rename_i hl
          rw [if_pos hl] at hx
          cases hg2 : d.get n.r with
          | none => rw [hg2] at hx; cases hx
          | some m => rw [h _ _ hg2]; rw [hg2] at hx; exact hx
        · rename_i hl; rw [if_neg hl] at hx; exact hx
  | cons b keys ih =>
    intro acc st r x hx
    rw [descend] at hx ⊢
    split
    · rename_i hr; rw [if_pos hr] at hx; exact hx
    · rename_i hr
      rw [if_neg hr] at hx
      cases hg : d.get r with
      | none => rw [hg] at hx; cases hx
      | some n =>
        rw [h _ _ hg]
        rw [hg] at hx
        simp only at hx ⊢
        split
        · rename_i hl
          rw [if_pos hl] at hx
          cases hg2 : d.get n.r with
          | none => rw [hg2] at hx; cases hx
          | some m => rw [h _ _ hg2]; rw [hg2] at hx; exact hx
        · rename_i hl; rw [if_neg hl] at hx; exact ih hx

theorem getLoop_le {d d' : Db} (h : d.Le d') {kv kv' : Key → Option U256} {K : Key} (hkv : kv K = kv' K) :
    ∀ {keys acc : List Bool} {r : Key} {x}, getLoop d kv K keys acc r = .ok x → getLoop d' kv' K keys acc r = .ok x := by
  intro keys
  induction keys with
  | nil =>
    intro acc r x hx
    rw [getLoop] at hx ⊢
    split
    · rename_i hr; rw [if_pos hr] at hx; cases hx
    · rename_i hr
      rw [if_neg hr] at hx
      cases hg : d.get r with
      | none => rw [hg] at hx; cases hx
      | some n =>
        rw [h _ _ hg]
        rw [hg] at hx
        simp only at hx ⊢
        split
        · rename_i hl
          rw [if_pos hl] at hx
          cases hg2 : d.get n.r with
          | none => rw [hg2] at hx; cases hx
          | some m => rw [h _ _ hg2, ← hkv]; rw [hg2] at hx; exact hx
        · rename_i hl; rw [if_neg hl] at hx; exact hx
  | cons b keys ih =>
    intro acc r x hx
    rw [getLoop] at hx ⊢
    split
    · rename_i hr; rw [if_pos hr] at hx; cases hx
    · rename_i hr
      rw [if_neg hr] at hx
      cases hg : d.get r with
      | none => rw [hg] at hx; cases hx
      | some n =>
        rw [h _ _ hg]
        rw [hg] at hx
        simp only at hx ⊢
        split
        · rename_i hl
          rw [if_pos hl] at hx
          cases hg2 : d.get n.r with
          | none => rw [hg2] at hx; cases hx
          | some m => rw [h _ _ hg2, ← hkv]; rw [hg2] at hx; exact hx
        · rename_i hl; rw [if_neg hl] at hx; exact ih hx

theorem removeFound_le {d d' : Db} (h : d.Le d') {st : Stack} {acc : List Bool} {root : Key} {d1 : Db} {st1 : Stack} {root1 : Key}
    (hx : removeFound H d st acc root = .ok (d1, st1, root1)) :
    ∃ d1', removeFound H d' st acc root = .ok (d1', st1, root1) ∧ Both d d' d1 d1' := by
  cases st with
  | nil => cases hx; exact ⟨d', rfl, .refl _ _⟩
  | cons e up =>
    obtain ⟨b, n⟩ := e
    unfold removeFound at hx ⊢
    simp only at hx ⊢
    cases hu : unique (n.setChild b .zero) with
    | none => rw [hu] at hx; cases hx
    | some u =>
      rw [hu] at hx
      simp only at hx ⊢
      generalize (if u = 0 then (n.setChild b .zero).l else if u = 1 then (n.setChild b .zero).r else (n.setChild b .zero).c) = k at hx ⊢
      cases hg : d.get k with
      | none => rw [hg] at hx; cases hx
      | some m =>
        rw [h _ _ hg]
        rw [hg] at hx
        simp only at hx ⊢
        by_cases hl : m.isLeaf = true
        · rw [if_pos hl] at hx ⊢
          cases hg2 : d.get m.r with
          | none => rw [hg2] at hx; cases hx
          | some m2 =>
            rw [h _ _ hg2]
            rw [hg2] at hx
            simp only at hx ⊢
            by_cases hu : u = 0 ∨ u = 1
            · rw [if_pos hu] at hx ⊢
              cases hx
              exact ⟨_, rfl, .one _ _ _⟩
            · rw [if_neg hu] at hx; cases hx
        · rw [if_neg hl] at hx ⊢
          cases hx
          exact ⟨_, rfl, .refl _ _⟩

theorem chain_both (d d' : Db) (bits : List Bool) (r : Key) :
    (chain H d bits r).2 = (chain H d' bits r).2 ∧ Both d d' (chain H d bits r).1 (chain H d' bits r).1 := by
  induction bits generalizing d d' r with
  | nil => exact ⟨rfl, .refl _ _⟩
  | cons b bs ih =>
    rw [chain, chain]
    cases b
    · exact ⟨(ih _ _ _).1, (Both.one _ _ _).trans (ih _ _ _).2⟩
    · exact ⟨(ih _ _ _).1, (Both.one _ _ _).trans (ih _ _ _).2⟩

theorem chain_snd (d : Db) (bits : List Bool) (r : Key) : (chain H d bits r).2 = (chain H [] bits r).2 :=
  (chain_both d [] bits r).1

theorem splitLeaf_le {d d' : Db} {K : Key} {v : U256} {st : Stack} {fk ov root : Key} {d1 : Db} {st1 : Stack}
    {root1 : Key} (hx : splitLeaf H d K v st fk ov root = .ok (d1, st1, root1)) :
    ∃ d1', splitLeaf H d' K v st fk ov root = .ok (d1', st1, root1) ∧ Both d d' d1 d1' := by
  unfold splitLeaf at hx ⊢
  simp only at hx ⊢
  cases hf : firstDiff (K.split.drop st.length) (fk.split.drop st.length) with
  | error f => rw [hf] at hx; cases hx
  | ok m =>
    rw [hf] at hx
    simp only [hashKeyHash, hashVal, hash0, Db.set] at hx ⊢
    rw [chain_snd] at hx ⊢
    cases hx
    exact ⟨_, rfl, ((((Both.one _ _ _).trans (.one _ _ _)).trans (.one _ _ _)).trans (.one _ _ _)).trans (chain_both _ _ _ _).2⟩

theorem update_le {d d' : Db} (h : d.Le d') {K : Key} {v : U256} {st : Stack} {acc : List Bool} {root : Key}
    {fo : Option (Key × Key × Key)} {d1 : Db} {st1 : Stack} {root1 : Key}
    (hx : update H d K v root st acc fo = .ok (d1, st1, root1)) :
    ∃ d1', update H d' K v root st acc fo = .ok (d1', st1, root1) ∧ Both d d' d1 d1' := by
  cases fo with
  | none =>
    simp only [update] at hx ⊢
    by_cases hv : v = 0
    · rw [if_pos hv] at hx ⊢; cases hx; exact ⟨_, rfl, .refl _ _⟩
    · rw [if_neg hv] at hx ⊢; cases hx; exact ⟨_, rfl, (Both.one _ _ _).trans (.one _ _ _)⟩
  | some f =>
    obtain ⟨fk, fr, ov⟩ := f
    simp only [update] at hx ⊢
    by_cases hv : v = 0
    · rw [if_pos hv] at hx ⊢
      by_cases hk : K = fk
      · rw [if_pos hk] at hx ⊢; exact removeFound_le h hx
      · rw [if_neg hk] at hx ⊢; cases hx; exact ⟨_, rfl, .refl _ _⟩
    · rw [if_neg hv] at hx ⊢
      by_cases hk : K = fk
      · rw [if_pos hk] at hx ⊢; cases hx; exact ⟨_, rfl, (Both.one _ _ _).trans (.one _ _ _)⟩
      · rw [if_neg hk] at hx ⊢; exact splitLeaf_le hx

theorem finish_both (d d' : Db) (st : Stack) (root : Key) :
    (finish H d st root).2 = (finish H d' st root).2 ∧ Both d d' (finish H d st root).1 (finish H d' st root).1 := by
  induction hn : st.length generalizing st d d' root with
  | zero =>
    cases st with
    | nil => rw [finish, finish]; exact ⟨rfl, .refl _ _⟩
    | cons => simp at hn
  | succ n ih =>
    match st, hn with
    | [(b, m)], _ => rw [finish, finish]; exact ⟨rfl, .one _ _ _⟩
    | (b, m) :: (b2, m2) :: up, hn =>
      rw [finish, finish]
      have := ih (Db.set d (H m) m) (Db.set d' (H m) m) ((b2, m2.setChild b2 (H m)) :: up) (H m) (by simpa using hn)
      exact ⟨this.1, (Both.one _ _ _).trans this.2⟩

theorem set_both {p s p' : Smt} (hr : p.root = s.root) (h : p.db.Le s.db) {K : Key} {v : U256}
    (hp : p.set H K v = .ok p') : ∃ s', s.set H K v = .ok s' ∧ p'.root = s'.root ∧ Both p.db s.db p'.db s'.db := by
  unfold Smt.set at hp ⊢
  cases hd : descend p.db K.split [] [] p.root with
  | error f => rw [hd] at hp; cases hp
  | ok x =>
    obtain ⟨st, acc, fo⟩ := x
    have hd' := descend_le h hd
    rw [hr] at hd'
    rw [hd] at hp
    rw [hd']
    simp only at hp ⊢
    cases hu : update H p.db K v p.root st acc fo with
    | error f => rw [hu] at hp; cases hp
    | ok y =>
      obtain ⟨d1, st1, r1⟩ := y
      obtain ⟨d1', hu', hb⟩ := update_le h hu
      rw [hr] at hu'
      rw [hu] at hp
      rw [hu']
      simp only at hp ⊢
      have hf := finish_both (H := H) d1 d1' st1 r1
      cases hp
      exact ⟨_, rfl, hf.1, hb.trans hf.2⟩

theorem run_both {ops : List Op} : ∀ {p s p' : Smt}, p.root = s.root → p.db.Le s.db → run H p ops = .ok p' →
    ∃ s', run H s ops = .ok s' ∧ p'.root = s'.root ∧ Both p.db s.db p'.db s'.db := by
  induction ops with
  | nil => intro p s p' hr _ hp; cases hp; exact ⟨s, rfl, hr, .refl _ _⟩
  | cons op ops ih =>
    intro p s p' hr h hp
    rw [run_cons] at hp ⊢
    split at hp
    · rename_i p1 h1
      obtain ⟨s1, e1, e2, e3⟩ := set_both hr h h1
      rw [e1]
      obtain ⟨s', f1, f2, f3⟩ := ih e2 (e3.le h) hp
      exact ⟨s', f1, f2, e3.trans f3⟩
    · cases hp

/-- **C56**. Let `p` be a state with the root of `s` that knows part of the nodes of `s`. Every history of
updates on which `p` does not fail, `s` does not fail either, and they end with the same root (and `p`
still knows a part of `s`). No assumption on the hash function. -/
theorem C56_partial_updates {p s p' : Smt} (hroot : p.root = s.root)
    (hnodes : ∀ k n, p.db.get k = some n → s.db.get k = some n) {ops : List Op} (hp : run H p ops = .ok p') :
    ∃ s', run H s ops = .ok s' ∧ p'.root = s'.root ∧ ∀ k n, p'.db.get k = some n → s'.db.get k = some n := by
  obtain ⟨s', h1, h2, h3⟩ := run_both hroot hnodes hp
  exact ⟨s', h1, h2, h3.le hnodes⟩

/-- **C56**. A lookup on which such a partial state does not fail gives the result of the full state. -/
theorem C56_partial_get {p s : Smt} (hroot : p.root = s.root)
    (hnodes : ∀ k n, p.db.get k = some n → s.db.get k = some n) {K : Key} (hkv : p.kv K = s.kv K) {v : U256}
    (hp : p.get K = .ok v) : s.get K = .ok v := by
  unfold Smt.get at hp ⊢
  rw [← hroot]
  exact getLoop_le hnodes hkv hp

end

/-- The full state of `demoOps`; dropping one known node gives a partial state that still supports an update
and a lookup elsewhere, and fails on the missing node. -/
example : (match run toyH .empty demoOps with
    | .ok s =>
      let top := (s.db.get s.root).getD ⟨.zero, .zero, .zero⟩
      let p : Smt := { s with db := s.db.filter (fun e => decide (e.1 ≠ top.l)) }
      s.db.any (fun e => decide (e.1 = top.l)) && decide (p.root = s.root) &&
        p.db.all (fun e => decide (s.db.get e.1 = p.db.get e.1)) &&
        (run toyH p [.set ⟨5, 0, 0, 1⟩ 99, .set ⟨5, 8, 0, 1⟩ 7] matches .ok _) && (p.get ⟨5, 0, 0, 1⟩ matches .ok _) &&
        (p.set toyH ⟨4, 3, 0, 1⟩ 1 matches .error .unwrapNone)
    | .error _ => false) = true := by decide +kernel

end Verif.Smt
