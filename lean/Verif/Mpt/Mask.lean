import Verif.Mpt.HashLemmas
import Verif.Mpt.History
/-!
Partial tries: `Mask keccak Q p t` says that `p` is `t` with some sub-tries (all satisfying `Q`)
replaced by `Hash` nodes carrying their hash.
-/
namespace Verif.Mpt

/-- `p` is obtained from `t` by replacing sub-tries that satisfy `Q` and that are referenced by hash
(i.e. whose encoding has at least 32 bytes) by hash nodes. Specification of "partial trie". -/
inductive Mask (keccak : Bytes → H256) (Q : Node → Prop) : Node → Node → Prop
  | hash {t h} : enc keccak t = .hashed h → Q t → Mask keccak Q (.hash h) t
  | empty : Mask keccak Q .empty .empty
  | leaf (n v) : Mask keccak Q (.leaf n v) (.leaf n v)
  | ext (n) {c d} : Mask keccak Q c d → Mask keccak Q (.ext n c) (.ext n d)
  | branch (v) {c d} : (∀ i, Mask keccak Q (c i) (d i)) → Mask keccak Q (.branch c v) (.branch d v)

variable {keccak : Bytes → H256} {Q : Node → Prop}

theorem Mask.enc {p t} (h : Mask keccak Q p t) : enc keccak p = enc keccak t := by
  induction h with
  | hash h _ => rw [h]; rfl
  | empty => rfl
  | leaf => rfl
  | ext n _ ih => simp only [Mpt.enc, ih]
  | branch v _ ih => simp only [Mpt.enc, ih]

theorem Mask.rootHash {p t} (h : Mask keccak Q p t) : rootHash keccak p = rootHash keccak t := by
  simp only [Mpt.rootHash, h.enc]

theorem Mask.isEmpty {p t} (h : Mask keccak Q p t) : p.isEmpty = t.isEmpty := by
  cases h with
  | hash h _ => cases t <;> simp_all [Node.isEmpty, Mpt.enc]
  | _ => rfl

theorem Mask.upd {c d : Nib → Node} {i x y} (h : ∀ j, Mask keccak Q (c j) (d j))
    (hx : Mask keccak Q x y) (j : Nib) : Mask keccak Q (Mpt.upd c i x j) (Mpt.upd d i y j) := by
  unfold Mpt.upd
  split
  · exact hx
  · exact h j

theorem Mask.mkExt {p x y} (h : Mask keccak Q x y) :
    Mask keccak Q (Mpt.mkExt p x) (Mpt.mkExt p y) := by
  cases p with
  | nil => exact h
  | cons => exact .ext _ h

theorem Mask.noChildren (i) : Mask keccak Q (noChildren i) (noChildren i) := .empty

theorem Mask.insert {p t} (h : Mask keccak Q p t) {k v p'} (hi : insertRec p k (.val v) = .ok p') :
    ∃ t', insertRec t k (.val v) = .ok t' ∧ Mask keccak Q p' t' := by
  induction h generalizing k p' with
  | hash => simp [insertRec] at hi
  | empty =>
    simp only [insertRec, Except.ok.injEq] at hi ⊢
    subst hi
    exact ⟨_, rfl, .leaf _ _⟩
  | leaf n w =>
    refine ⟨p', hi, ?_⟩
    simp only [insertRec] at hi
    split at hi
    · simp only [Except.ok.injEq] at hi; subst hi; exact .leaf _ _
    · rename_i hne
      by_cases hid : ident n k = true
      · rcases (ident_iff _ _).1 hid with ⟨r, rfl⟩ | ⟨r, rfl⟩
        · cases r with
          | nil => simp at hne
          | cons y ys =>
            rw [prePost_prefix, placeBranch_existingVal] at hi
            simp only [Except.ok.injEq] at hi
            subst hi
            exact .mkExt (.branch _ (Mask.upd Mask.noChildren (.leaf _ _)))
        · cases r with
          | nil => simp at hne
          | cons x xs =>
            rw [prePost_prefix', placeBranch_newVal] at hi
            simp only [Except.ok.injEq] at hi
            subst hi
            exact .mkExt (.branch _ (Mask.upd Mask.noChildren (.leaf _ _)))
      · obtain ⟨p, x, xs, y, ys, rfl, rfl, hxy, -⟩ := split_of_not_ident hid
        rw [prePost_split _ _ _ _ _ hxy] at hi
        simp only [placeBranch_both, Except.ok.injEq] at hi
        subst hi
        exact .mkExt (.branch _ (Mask.upd (Mask.upd Mask.noChildren (.leaf _ _)) (.leaf _ _)))
  | @ext n c d hm ih =>
    simp only [insertRec] at hi ⊢
    split at hi
    · rename_i hid
      rw [if_pos hid]
      split at hi
      · rename_i u hu
        simp only [Except.ok.injEq] at hi
        subst hi
        obtain ⟨u', h1, h2⟩ := ih hu
        rw [h1]
        exact ⟨_, rfl, .ext _ h2⟩
      · simp at hi
    · rename_i hid
      rw [if_neg hid]
      obtain ⟨p, x, xs, y, ys, rfl, rfl, hxy, -⟩ := split_of_not_ident hid
      rw [prePost_split _ _ _ _ _ hxy] at hi ⊢
      simp only [placeBranch_both, Except.ok.injEq] at hi ⊢
      subst hi
      refine ⟨_, rfl, .mkExt (.branch _ (Mask.upd (Mask.upd Mask.noChildren ?_) (.leaf _ _)))⟩
      simp only [List.drop_one, List.tail_cons]
      split
      · exact hm
      · exact .ext _ hm
  | @branch w c d hm ih =>
    cases k with
    | nil =>
      simp only [insertRec, Except.ok.injEq] at hi ⊢
      subst hi
      exact ⟨_, rfl, .branch _ hm⟩
    | cons n k =>
      simp only [insertRec] at hi ⊢
      split at hi
      · rename_i u hu
        simp only [Except.ok.injEq] at hi
        subst hi
        obtain ⟨u', h1, h2⟩ := ih n hu
        rw [h1]
        exact ⟨_, rfl, .branch _ (Mask.upd hm h2)⟩
      · simp at hi

/-- What the strategy requires of the hidden sub-tries. -/
def StrategyOk (s : Strategy) (Q : Node → Prop) : Prop :=
  s = .reject ∨ ∀ t, Q t → t.isBranch = true ∨ t.isHash = true

theorem Mask.collapseExt {s n x y k r} (hs : StrategyOk s Q) (h : Mask keccak Q x y)
    (hc : collapseExt n x k s = .ok r) :
    ∃ r', Mpt.collapseExt n y k s = .ok r' ∧ Mask keccak Q r r' ∧ r.isHash = false := by
  cases h with
  | hash he hq =>
    cases s with
    | reject =>
      simp only [Mpt.collapseExt, bind, Except.bind] at hc
      split at hc <;> simp at hc
    | collapseToExtension =>
      rcases hs with hs | hs
      · simp at hs
      simp only [Mpt.collapseExt, Except.ok.injEq] at hc
      subst hc
      rcases hs _ hq with hb | hb
      · cases y with
        | branch c v => exact ⟨_, rfl, .ext _ (.hash he hq), rfl⟩
        | _ => simp [Node.isBranch] at hb
      · cases y with
        | hash x => exact ⟨_, rfl, .ext _ (.hash he hq), rfl⟩
        | _ => simp [Node.isHash] at hb
  | empty => simp [Mpt.collapseExt] at hc
  | leaf n' v =>
    refine ⟨r, hc, ?_⟩
    simp only [Mpt.collapseExt, bind, Except.bind] at hc
    split at hc
    · simp at hc
    · simp only [pure, Except.pure, Except.ok.injEq] at hc; subst hc; exact ⟨.leaf _ _, rfl⟩
  | ext n' hm =>
    simp only [Mpt.collapseExt, bind, Except.bind] at hc ⊢
    split at hc
    · simp at hc
    · simp only [pure, Except.pure, Except.ok.injEq] at hc ⊢
      subst hc
      exact ⟨_, rfl, .ext _ hm, rfl⟩
  | branch v hm =>
    simp only [Mpt.collapseExt, Except.ok.injEq] at hc ⊢
    subst hc
    exact ⟨_, rfl, .ext _ (.branch _ hm), rfl⟩

theorem Mask.tryCollapse {s x y k r} (hs : StrategyOk s Q) (h : Mask keccak Q x y)
    (hx : x.isHash = false) (hc : tryCollapse x k s = .ok r) :
    ∃ r', Mpt.tryCollapse y k s = .ok r' ∧ Mask keccak Q r r' := by
  cases h with
  | hash => simp [Node.isHash] at hx
  | ext n hm =>
    obtain ⟨r', h1, h2, -⟩ := hm.collapseExt hs hc
    exact ⟨r', h1, h2⟩
  | empty => simp only [Mpt.tryCollapse, Except.ok.injEq] at hc ⊢; subst hc; exact ⟨_, rfl, .empty⟩
  | leaf => simp only [Mpt.tryCollapse, Except.ok.injEq] at hc ⊢; subst hc; exact ⟨_, rfl, .leaf _ _⟩
  | branch v hm =>
    simp only [Mpt.tryCollapse, Except.ok.injEq] at hc ⊢; subst hc; exact ⟨_, rfl, .branch _ hm⟩

theorem Mask.numNonEmpty {c d : Nib → Node} (h : ∀ i, Mask keccak Q (c i) (d i)) :
    numNonEmpty c = numNonEmpty d := by
  unfold Mpt.numNonEmpty
  congr 1
  funext i
  rw [(h i).isEmpty]

theorem Mask.otherChild {c d : Nib → Node} (h : ∀ i, Mask keccak Q (c i) (d i)) (n : Nib) :
    otherChild c n = otherChild d n := by
  unfold Mpt.otherChild
  have : (fun i => i != n && !(c i).isEmpty) = (fun i => i != n && !(d i).isEmpty) := by
    funext i; rw [(h i).isEmpty]
  rw [this]

theorem Mask.deleteRec {s p t} (hs : StrategyOk s Q) (h : Mask keccak Q p t) {k r}
    (hd : deleteRec s p k = .ok r) :
    (r = none ∧ Mpt.deleteRec s t k = .ok none) ∨
    ∃ u w u', r = some (u, w) ∧ Mpt.deleteRec s t k = .ok (some (u', w)) ∧ Mask keccak Q u u' ∧
      u.isHash = false := by
  induction h generalizing k r with
  | hash => simp [Mpt.deleteRec] at hd
  | empty => simp only [Mpt.deleteRec, Except.ok.injEq] at hd ⊢; exact .inl ⟨hd.symm, trivial⟩
  | leaf n v =>
    simp only [Mpt.deleteRec, Except.ok.injEq] at hd ⊢
    subst hd
    split
    · exact .inr ⟨_, _, _, rfl, rfl, .empty, rfl⟩
    · exact .inl ⟨rfl, rfl⟩
  | @ext n c d hm ih =>
    simp only [Mpt.deleteRec] at hd ⊢
    split at hd
    · rename_i hid
      rw [if_pos hid]
      split at hd
      · simp at hd
      · rename_i hx
        simp only [Except.ok.injEq] at hd
        rcases ih hx with ⟨-, h1⟩ | ⟨u, w, u', h0, -⟩
        · rw [h1]; exact .inl ⟨hd.symm, rfl⟩
        · simp at h0
      · rename_i u w hx
        rcases ih hx with ⟨h0, -⟩ | ⟨u1, w1, u', h0, h1, h2, h3⟩
        · simp at h0
        · simp only [Option.some.injEq, Prod.mk.injEq] at h0
          obtain ⟨rfl, rfl⟩ := h0
          split at hd
          · rename_i t' ht'
            simp only [Except.ok.injEq] at hd
            obtain ⟨r', h4, h5, h6⟩ := h2.collapseExt hs ht'
            rw [h1]
            simp only [h4]
            exact .inr ⟨_, _, _, hd.symm, rfl, h5, h6⟩
          · simp at hd
    · rename_i hid
      rw [if_neg hid]
      simp only [Except.ok.injEq] at hd
      exact .inl ⟨hd.symm, rfl⟩
  | @branch v c d hm ih =>
    cases k with
    | nil =>
      simp only [Mpt.deleteRec, Except.ok.injEq] at hd ⊢
      exact .inr ⟨_, _, _, hd.symm, rfl, .branch _ hm, rfl⟩
    | cons n k =>
      simp only [Mpt.deleteRec] at hd ⊢
      split at hd
      · simp at hd
      · rename_i hx
        simp only [Except.ok.injEq] at hd
        rcases ih n hx with ⟨-, h1⟩ | ⟨u, w, u', h0, -⟩
        · rw [h1]; exact .inl ⟨hd.symm, rfl⟩
        · simp at h0
      · rename_i u w hx
        rcases ih n hx with ⟨h0, -⟩ | ⟨u1, w1, u', h0, h1, h2, h3⟩
        · simp at h0
        · simp only [Option.some.injEq, Prod.mk.injEq] at h0
          obtain ⟨rfl, rfl⟩ := h0
          rw [h1]
          simp only [← h2.isEmpty, ← Mask.numNonEmpty hm, ← Mask.otherChild hm n]
          split at hd
          · rename_i hcol
            rw [if_pos hcol]
            split at hd
            · rename_i i hi
              simp only [Except.ok.injEq] at hd
              exact .inr ⟨_, _, _, hd.symm, rfl, .ext _ (hm i), rfl⟩
            · simp at hd
          · rename_i hcol
            rw [if_neg hcol]
            split at hd
            · rename_i t' ht'
              simp only [Except.ok.injEq] at hd
              obtain ⟨r', h4, h5⟩ := h2.tryCollapse hs h3 ht'
              simp only [h4]
              exact .inr ⟨_, _, _, hd.symm, rfl, .branch _ (Mask.upd hm h5), rfl⟩
            · simp at hd

theorem Mask.delete {s p t} (hs : StrategyOk s Q) (h : Mask keccak Q p t) {k p' r}
    (hd : delete s p k = .ok (p', r)) :
    ∃ t', Mpt.delete s t k = .ok (t', r) ∧ Mask keccak Q p' t' := by
  unfold Mpt.delete at hd ⊢
  split at hd
  · simp at hd
  · rename_i hx
    simp only [Except.ok.injEq, Prod.mk.injEq] at hd
    obtain ⟨rfl, rfl⟩ := hd
    rcases h.deleteRec hs hx with ⟨-, h1⟩ | ⟨u, w, u', h0, -⟩
    · rw [h1]; exact ⟨_, rfl, h⟩
    · simp at h0
  · rename_i u w hx
    rcases h.deleteRec hs hx with ⟨h0, -⟩ | ⟨u1, w1, u', h0, h1, h2, h3⟩
    · simp at h0
    · simp only [Option.some.injEq, Prod.mk.injEq] at h0
      obtain ⟨rfl, rfl⟩ := h0
      split at hd
      · rename_i t' ht'
        simp only [Except.ok.injEq, Prod.mk.injEq] at hd
        obtain ⟨rfl, rfl⟩ := hd
        obtain ⟨r', h4, h5⟩ := h2.tryCollapse hs h3 ht'
        rw [h1]
        simp only [h4]
        exact ⟨_, rfl, h5⟩
      · simp at hd

theorem Mask.runFrom {s p t} (hs : StrategyOk s Q) (h : Mask keccak Q p t) (ops : List Op) {p'}
    (hr : runFrom s p ops = .ok p') :
    ∃ t', Mpt.runFrom s t ops = .ok t' ∧ Mask keccak Q p' t' := by
  induction ops generalizing p t with
  | nil => simp only [Mpt.runFrom, Except.ok.injEq] at hr ⊢; subst hr; exact ⟨_, rfl, h⟩
  | cons op ops ih =>
    simp only [Mpt.runFrom] at hr ⊢
    split at hr
    · rename_i p1 hp1
      have : ∃ t1, step s t op = .ok t1 ∧ Mask keccak Q p1 t1 := by
        cases op with
        | ins k v => exact h.insert hp1
        | del k =>
          simp only [step] at hp1 ⊢
          cases hdel : Mpt.delete s p k with
          | error f => rw [hdel] at hp1; simp [Except.map] at hp1
          | ok x =>
            obtain ⟨x1, x2⟩ := x
            rw [hdel] at hp1
            simp only [Except.map, Except.ok.injEq] at hp1
            subst hp1
            obtain ⟨t', h1, h2⟩ := h.delete hs hdel
            exact ⟨t', by rw [h1]; rfl, h2⟩
      obtain ⟨t1, h1, h2⟩ := this
      rw [h1]
      exact ih h2 hr
    · simp at hr

/-- The lookup of `k` runs into a hash node. -/
def Hidden (p : Node) (k : Key) : Prop := ∃ q h, q <+: k ∧ lookup p q = some (.hash h)

theorem Mask.get {p t} (h : Mask keccak Q p t) (k : Key) :
    Hidden p k ∧ Mpt.get p k = .ok none ∨ Mpt.get p k = Mpt.get t k := by
  induction h generalizing k with
  | @hash t h he hq => exact .inl ⟨⟨[], h, by simp, by simp [lookup]⟩, by simp [Mpt.get]⟩
  | empty => exact .inr rfl
  | leaf => exact .inr rfl
  | @ext n c d hm ih =>
    simp only [Mpt.get]
    by_cases hl : k.length < n.length
    · simp [hl]
    · simp only [hl, if_false]
      by_cases hid : ident (k.take n.length) n = true
      · simp only [hid, if_true]
        rcases ih (k.drop n.length) with ⟨⟨q, x, hq, hx⟩, hg⟩ | hg
        · left
          obtain ⟨r, rfl⟩ := (ident_take n k (by omega)).1 hid
          refine ⟨⟨n ++ q, x, ?_, by rw [lookup_ext_append, hx]⟩, hg⟩
          simpa using hq
        · exact .inr hg
      · simp [hid]
  | @branch v c d hm ih =>
    cases k with
    | nil => exact .inr rfl
    | cons n k =>
      simp only [Mpt.get]
      rcases ih n k with ⟨⟨q, x, hq, hx⟩, hg⟩ | hg
      · exact .inl ⟨⟨n :: q, x, by simpa using hq, hx⟩, hg⟩
      · exact .inr hg

end Verif.Mpt
