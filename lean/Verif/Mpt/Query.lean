import Verif.Mpt.History
/-!
# Model of trie queries (`mpt_trie/src/special_query.rs`) and of collapse reporting
(`evm_arithmetization/src/tries.rs`)
-/
namespace Verif.Mpt

/-- `TrieSegment`. `mpt_trie/src/utils.rs:83-99`. -/
inductive Seg where
  | empty
  | hash
  | branch (n : Nib)
  | ext (n : Key)
  | leaf (n : Key)
deriving DecidableEq

/-- `TriePathIter`. `mpt_trie/src/special_query.rs:12-26`. -/
structure PathIter where
  node : Node
  key : Key
  terminated : Bool
  includeFinal : Bool

/-- `TriePathIter::next`. `mpt_trie/src/special_query.rs:31-89`; `pop_nibbles_clamped` (lines 91-94) is
`List.drop`. -/
def PathIter.next (it : PathIter) : Option Seg × PathIter :=
  if it.terminated then (none, it)
  else
    match it.node with
    | .empty => (some .empty, { it with terminated := true })
    | .hash _ => (some .hash, { it with terminated := true })
    | .branch c _ =>
      match it.key with
      | [] => (none, { it with terminated := true })
      | n :: k => (some (.branch n), { it with node := c n, key := k })
    | .ext n c =>
      if ident it.key n then
        (some (.ext n), { it with node := c, key := it.key.drop n.length })
      else
        (if it.includeFinal then some (.ext n) else none, { it with terminated := true })
    | .leaf n _ =>
      (if it.key = n ∨ it.includeFinal then some (.leaf n) else none, { it with terminated := true })

/-- Collecting the iterator; `none` is out of fuel. -/
def PathIter.collect : Nat → PathIter → Option (List Seg)
  | 0, _ => none
  | fuel + 1, it =>
    match it.next with
    | (none, _) => some []
    | (some s, it') => (PathIter.collect fuel it').map (s :: ·)

/-- `path_for_query`. `mpt_trie/src/special_query.rs:101-116`. -/
def pathForQuery (t : Node) (k : Key) (includeFinal : Bool) : PathIter :=
  { node := t, key := k, terminated := false, includeFinal := includeFinal }

/-- The key piece of a segment. `get_key_piece_from_seg_if_present`,
`mpt_trie/src/utils.rs:220-226`. -/
def Seg.piece : Seg → Key
  | .empty => []
  | .hash => []
  | .branch n => [n]
  | .ext n => n
  | .leaf n => n

/-- `into_key` for a sequence of segments (the loop body pushes at the back and asserts the 64
nibble limit). `mpt_trie/src/utils.rs:111-125`. -/
def intoKey (acc : Key) : List Seg → Except Fault Key
  | [] => .ok acc
  | .empty :: l => intoKey acc l
  | .hash :: l => intoKey acc l
  | .branch n :: l =>
    match mergeNibble acc n with
    | .ok a => intoKey a l
    | .error f => .error f
  | .ext n :: l =>
    match mergeNibbles acc n with
    | .ok a => intoKey a l
    | .error f => .error f
  | .leaf n :: l =>
    match mergeNibbles acc n with
    | .ok a => intoKey a l
    | .error f => .error f

/-- The path as a recursive function (shown below to be what the iterator yields). -/
def path (b : Bool) : Node → Key → List Seg
  | .empty, _ => [.empty]
  | .hash _, _ => [.hash]
  | .branch c _, k =>
    match k with
    | [] => []
    | n :: k => .branch n :: path b (c n) k
  | .ext n c, k =>
    if ident k n then .ext n :: path b c (k.drop n.length)
    else if b then [.ext n] else []
  | .leaf n _, k => if k = n ∨ b = true then [.leaf n] else []

/-- Depth of a trie, bounding the number of iterations. -/
theorem collect_path (b : Bool) (t : Node) (k : Key) :
    ∃ N, ∀ fuel, N ≤ fuel → (pathForQuery t k b).collect fuel = some (path b t k) := by
  have stop : ∀ (fuel : Nat) (it : PathIter), 1 ≤ fuel → it.terminated = true →
      it.collect fuel = some [] := by
    intro fuel it h ht
    obtain ⟨f, rfl⟩ : ∃ f, fuel = f + 1 := ⟨fuel - 1, by omega⟩
    simp [PathIter.collect, PathIter.next, ht]
  induction t generalizing k with
  | empty =>
    refine ⟨2, fun fuel h => ?_⟩
    obtain ⟨f, rfl⟩ : ∃ f, fuel = f + 1 := ⟨fuel - 1, by omega⟩
    simp only [PathIter.collect, PathIter.next, pathForQuery, Bool.false_eq_true, if_false, path]
    rw [stop _ _ (by omega) rfl]; rfl
  | hash x =>
    refine ⟨2, fun fuel h => ?_⟩
    obtain ⟨f, rfl⟩ : ∃ f, fuel = f + 1 := ⟨fuel - 1, by omega⟩
    simp only [PathIter.collect, PathIter.next, pathForQuery, Bool.false_eq_true, if_false, path]
    rw [stop _ _ (by omega) rfl]; rfl
  | leaf n v =>
    refine ⟨2, fun fuel h => ?_⟩
    obtain ⟨f, rfl⟩ : ∃ f, fuel = f + 1 := ⟨fuel - 1, by omega⟩
    simp only [PathIter.collect, PathIter.next, pathForQuery, Bool.false_eq_true, if_false, path]
    by_cases hk : k = n ∨ b = true
    · simp only [hk, if_true]
      rw [stop _ _ (by omega) rfl]; rfl
    · simp only [hk, if_false]
  | branch c v ih =>
    cases k with
    | nil =>
      refine ⟨1, fun fuel h => ?_⟩
      obtain ⟨f, rfl⟩ : ∃ f, fuel = f + 1 := ⟨fuel - 1, by omega⟩
      simp [PathIter.collect, PathIter.next, pathForQuery, path]
    | cons n k =>
      obtain ⟨N, hN⟩ := ih n k
      refine ⟨N + 1, fun fuel h => ?_⟩
      obtain ⟨f, rfl⟩ : ∃ f, fuel = f + 1 := ⟨fuel - 1, by omega⟩
      have := hN f (by omega)
      simp only [pathForQuery] at this
      simp [PathIter.collect, PathIter.next, pathForQuery, path, this]
  | ext n c ih =>
    by_cases hid : ident k n = true
    · obtain ⟨N, hN⟩ := ih (k.drop n.length)
      refine ⟨N + 1, fun fuel h => ?_⟩
      obtain ⟨f, rfl⟩ : ∃ f, fuel = f + 1 := ⟨fuel - 1, by omega⟩
      have := hN f (by omega)
      simp only [pathForQuery] at this
      simp [PathIter.collect, PathIter.next, pathForQuery, path, hid, this]
    · refine ⟨2, fun fuel h => ?_⟩
      obtain ⟨f, rfl⟩ : ∃ f, fuel = f + 1 := ⟨fuel - 1, by omega⟩
      cases b
      · simp [PathIter.collect, PathIter.next, pathForQuery, path, hid]
      · simp only [PathIter.collect, PathIter.next, pathForQuery, path, hid, Bool.false_eq_true,
          if_false, if_true]
        rw [stop _ _ (by omega) rfl]; rfl

/-! ### C13 -/

/-- The node found in `t` at the position with path `p` from the root. -/
inductive At : Node → Key → Node → Prop
  | here (t) : At t [] t
  | branch {c v n p m} : At (c n) p m → At (.branch c v) (n :: p) m
  | ext {n c p m} : At c p m → At (.ext n c) (n ++ p) m

/-- The key pieces of a list of segments. -/
def pieces (l : List Seg) : Key := l.flatMap Seg.piece

/-- Segment `s` describes node `m` for a query whose remaining key is `r`. -/
def Describes (m : Node) (r : Key) : Seg → Prop
  | .empty => m = .empty
  | .hash => ∃ h, m = .hash h
  | .branch n => ∃ c v r', m = .branch c v ∧ r = n :: r'
  | .ext n => ∃ c, m = .ext n c
  | .leaf n => ∃ v, m = .leaf n v

/-- The query with remaining key `r` ends at node `m` without listing it: a branch when the key is
used up, or (unless the final node is asked for) an extension or leaf that does not match. -/
def EndsBefore (b : Bool) (m : Node) (r : Key) : Prop :=
  (∃ c v, m = .branch c v ∧ r = []) ∨
  (b = false ∧ ((∃ n c, m = .ext n c ∧ ¬ n <+: r ∧ ¬ r <+: n) ∨ (∃ n v, m = .leaf n v ∧ r ≠ n)))

theorem path_sound (b : Bool) (t : Node) (k : Key) (A B : List Seg) (s : Seg)
    (h : path b t k = A ++ s :: B) :
    ∃ m, At t (pieces A) m ∧ Describes m (k.drop (pieces A).length) s ∧
      (pieces A <+: k ∨ k <+: pieces A) := by
  induction t generalizing k A with
  | empty =>
    cases A with
    | nil => simp [path] at h; exact ⟨_, .here _, h.1 ▸ rfl, by simp [pieces]⟩
    | cons a A => simp [path] at h
  | hash x =>
    cases A with
    | nil => simp [path] at h; exact ⟨_, .here _, h.1 ▸ ⟨x, rfl⟩, by simp [pieces]⟩
    | cons a A => simp [path] at h
  | leaf n v =>
    simp only [path] at h
    split at h
    · cases A with
      | nil => simp at h; exact ⟨_, .here _, h.1 ▸ ⟨v, rfl⟩, by simp [pieces]⟩
      | cons a A => simp at h
    · simp at h
  | branch c v ih =>
    cases k with
    | nil => simp [path] at h
    | cons n k =>
      simp only [path] at h
      cases A with
      | nil =>
        simp only [List.nil_append, List.cons.injEq] at h
        exact ⟨_, .here _, h.1 ▸ ⟨c, v, k, rfl, rfl⟩, by simp [pieces]⟩
      | cons a A =>
        simp only [List.cons_append, List.cons.injEq] at h
        obtain ⟨rfl, h⟩ := h
        obtain ⟨m, h1, h2, h3⟩ := ih n k A h
        refine ⟨m, .branch h1, ?_, ?_⟩
        · simpa [pieces, Seg.piece] using h2
        · simpa [pieces, Seg.piece, List.cons_prefix_cons] using h3
  | ext n c ih =>
    simp only [path] at h
    split at h
    · rename_i hid
      cases A with
      | nil =>
        simp only [List.nil_append, List.cons.injEq] at h
        exact ⟨_, .here _, h.1 ▸ ⟨c, rfl⟩, by simp [pieces]⟩
      | cons a A =>
        simp only [List.cons_append, List.cons.injEq] at h
        obtain ⟨rfl, h⟩ := h
        obtain ⟨m, h1, h2, h3⟩ := ih _ A h
        refine ⟨m, ?_, ?_, ?_⟩
        · have := At.ext (n := n) h1
          simpa [pieces, Seg.piece] using this
        · simpa [pieces, Seg.piece, List.drop_drop] using h2
        · show n ++ pieces A <+: k ∨ k <+: n ++ pieces A
          rcases (ident_iff _ _).1 hid with h | h
          · exact .inr (h.trans (List.prefix_append _ _))
          · obtain ⟨r, rfl⟩ := h
            simpa [List.prefix_append_right_inj] using h3
    · cases b
      · simp at h
      · cases A with
        | nil => simp at h; exact ⟨_, .here _, h.1 ▸ ⟨c, rfl⟩, by simp [pieces]⟩
        | cons a A => simp at h

theorem path_complete (b : Bool) (t : Node) (k p : Key) (m : Node) (h : At t p m) (hp : p <+: k) :
    (∃ A s B, path b t k = A ++ s :: B ∧ pieces A = p ∧ Describes m (k.drop p.length) s) ∨
    EndsBefore b m (k.drop p.length) := by
  induction h generalizing k with
  | here t =>
    simp only [List.length_nil, List.drop_zero]
    cases t with
    | empty => exact .inl ⟨[], _, _, rfl, rfl, rfl⟩
    | hash x => exact .inl ⟨[], _, _, rfl, rfl, x, rfl⟩
    | branch c v =>
      cases k with
      | nil => exact .inr (.inl ⟨c, v, rfl, rfl⟩)
      | cons n k => exact .inl ⟨[], _, _, rfl, rfl, c, v, k, rfl, rfl⟩
    | ext n c =>
      by_cases hid : ident k n = true
      · exact .inl ⟨[], .ext n, path b c (k.drop n.length), by simp [path, hid], rfl, c, rfl⟩
      · cases b
        · have : ¬ (k <+: n ∨ n <+: k) := fun h => hid ((ident_iff _ _).2 h)
          exact .inr (.inr ⟨rfl, .inl ⟨n, c, rfl, fun h => this (.inr h), fun h => this (.inl h)⟩⟩)
        · exact .inl ⟨[], .ext n, [], by simp [path, hid], rfl, c, rfl⟩
    | leaf n v =>
      by_cases hk : k = n ∨ b = true
      · exact .inl ⟨[], .leaf n, [], by simp [path, hk], rfl, v, rfl⟩
      · have : ¬ k = n ∧ b = false := by simpa using hk
        exact .inr (.inr ⟨this.2, .inr ⟨n, v, rfl, this.1⟩⟩)
  | @branch c v n p m h ih =>
    obtain ⟨r, rfl⟩ := hp
    rcases ih (p ++ r) (List.prefix_append _ _) with ⟨A, s, B, h1, h2, h3⟩ | h
    · refine .inl ⟨.branch n :: A, s, B, by simp [path, h1], ?_, by simpa using h3⟩
      subst h2; rfl
    · exact .inr (by simpa using h)
  | @ext n c p m h ih =>
    obtain ⟨r, rfl⟩ := hp
    have hid : ident (n ++ p ++ r) n = true :=
      (ident_iff _ _).2 (.inr (by rw [List.append_assoc]; exact List.prefix_append _ _))
    have hd : (n ++ p ++ r).drop n.length = p ++ r := by simp
    rcases ih (p ++ r) (List.prefix_append _ _) with ⟨A, s, B, h1, h2, h3⟩ | h
    · refine .inl ⟨.ext n :: A, s, B, by simp only [path, hid, if_true, hd, h1, List.cons_append], ?_,
        by simpa using h3⟩
      subst h2; rfl
    · exact .inr (by simpa using h)

theorem At.lookup {t p m} (h : At t p m) (r : Key) : lookup t (p ++ r) = lookup m r := by
  induction h with
  | here => rfl
  | branch h ih => exact ih
  | ext h ih => rw [List.append_assoc, lookup_ext_append]; exact ih

theorem path_present (b : Bool) (t : Node) (k : Key) (v : Bytes)
    (h : lookup t k = some (.val v)) : pieces (path b t k) = k := by
  induction t generalizing k with
  | empty => simp [lookup] at h
  | hash x =>
    simp only [lookup] at h
    split at h <;> simp at h
  | leaf n w =>
    simp only [lookup] at h
    split at h
    · rename_i hk; subst hk; simp [path, pieces, Seg.piece]
    · simp at h
  | branch c w ih =>
    cases k with
    | nil => rfl
    | cons n k =>
      have := ih n k h
      simp only [path, pieces, List.flatMap_cons, Seg.piece, List.singleton_append, List.cons.injEq,
        true_and]
      exact this
  | ext n c ih =>
    simp only [lookup] at h
    split at h
    · rename_i hp
      obtain ⟨r, rfl⟩ := hp
      have hid : ident (n ++ r) n = true := (ident_iff _ _).2 (.inr (List.prefix_append _ _))
      rw [List.drop_left] at h
      have := ih r h
      simp only [path, hid, if_true, List.drop_left, pieces, List.flatMap_cons, Seg.piece]
      rw [show List.flatMap Seg.piece (path b c r) = r from this]
    · simp at h

/-- **C13**. For every trie and key, the query terminates, and the yielded list
* contains only nodes met on the way: the segment after the pieces `A` describes the node at position
  `A`, which lies on the key (or the key ended inside an extension);
* contains every node lying on the key, except the branch at which the key is used up and, without
  `always_include_final_node_if_possible`, a final leaf or extension that does not match;
* reads back as the key if the key is stored. -/
theorem C13_path_for_query (b : Bool) (t : Node) (k : Key) :
    ∃ L, (∃ N, ∀ fuel, N ≤ fuel → (pathForQuery t k b).collect fuel = some L) ∧
      (∀ A s B, L = A ++ s :: B → ∃ m, At t (pieces A) m ∧
        Describes m (k.drop (pieces A).length) s ∧ (pieces A <+: k ∨ k <+: pieces A)) ∧
      (∀ p m, At t p m → p <+: k →
        (∃ A s B, L = A ++ s :: B ∧ pieces A = p ∧ Describes m (k.drop p.length) s) ∨
        EndsBefore b m (k.drop p.length)) ∧
      (∀ v, lookup t k = some (.val v) → pieces L = k) :=
  ⟨path b t k, collect_path b t k, fun A s B => path_sound b t k A B s, path_complete b t k, path_present b t k⟩

example : path false (.branch (fun n => if n = 1 then .leaf [2, 3] [7] else .empty) []) [1, 2, 3]
    = [.branch 1, .leaf [2, 3]] := by decide

/-- `into_key` of a path is the concatenation of its pieces, as long as it fits. -/
theorem intoKey_eq (l : List Seg) (a : Key) (h : (a ++ pieces l).length ≤ 64) :
    intoKey a l = .ok (a ++ pieces l) := by
  induction l generalizing a with
  | nil => simp [intoKey, pieces]
  | cons s l ih =>
    cases s <;> simp only [pieces, List.flatMap_cons, Seg.piece, List.nil_append] at h ⊢
    · exact ih a h
    · exact ih a h
    · rename_i n
      have h1 : a.length < 64 := by simp at h; omega
      rw [← List.append_assoc] at h ⊢
      simp only [intoKey, mergeNibble, h1, if_true]
      exact ih _ h
    all_goals
      rename_i n
      have h1 : a.length + n.length ≤ 64 := by simp at h; omega
      rw [← List.append_assoc] at h ⊢
      simp only [intoKey, mergeNibbles, h1, if_true]
      exact ih _ h

end Verif.Mpt
