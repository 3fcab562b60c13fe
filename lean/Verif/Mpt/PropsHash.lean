import Verif.Mpt.Cache
/-!
# Properties C06–C10 and C48: hashing, partial tries, sub-tries, caching

Statements use the model functions (`insert`, `delete`, `get`, `createSubset`, `rootHash`, …) and
the specifications `Mask` ("p is t with sub-tries hashed out"), `Hidden`, `NoCollision`, `Small`,
`prune`.  `keccak` is an arbitrary function everywhere.
-/
namespace Verif.Mpt

/-- A concrete 32-byte value used in examples. -/
def h0 : H256 := ⟨List.replicate 32 0, rfl⟩

theorem rootHash_of_hashed {keccak t x} (h : enc keccak t = .hashed x) : rootHash keccak t = x := by
  simp only [rootHash, h]

theorem le_flatten_length (l : List Nib) (f : Nib → Bytes) (i : Nib) (hi : i ∈ l) :
    (f i).length ≤ ((l.map f).flatten).length := by
  induction l with
  | nil => simp at hi
  | cons a l ih =>
    simp only [List.map_cons, List.flatten_cons, List.length_append]
    rcases List.mem_cons.1 hi with rfl | hi
    · omega
    · have := ih hi; omega

/-- A branch with a child reference of at least 32 bytes is itself referenced by hash. -/
theorem branch_hashed {keccak c v} (i : Nib) (h : 32 ≤ (enc keccak (c i)).item.length) :
    ∃ x, enc keccak (.branch c v) = .hashed x := by
  simp only [enc, hashIfLarge]
  refine ⟨_, if_pos ?_⟩
  have := le_flatten_length (List.finRange 16) (fun i => (enc keccak (c i)).item) i
    (List.mem_finRange i)
  simp only [Rlp.listOf, List.length_append]
  omega

theorem str_h256_length (x : H256) : (Rlp.str x.bytes).length = 33 := by
  have := x.len
  generalize x.bytes = l at this
  match l, this with
  | a :: b :: l, this => simp [Rlp.str, Rlp.header, this]

theorem Pointwise.imp {α β} {R S : α → β → Prop} (h : ∀ a b, R a b → S a b) {l m}
    (hp : Pointwise R l m) : Pointwise S l m := by
  induction hp with
  | nil => exact .nil
  | cons h1 _ ih => exact .cons (h _ _ h1) ih

/-! ### C06 -/

/-- **C06**. If `p` is `t` with arbitrary sub-tries hashed out and a sequence of inserts and deletes
(default strategy `Reject`) succeeds on `p`, then it succeeds on `t`, the two results have the same
root hash, and reading any key in the partial result gives the answer of the full one unless the
read runs into a hash node (then it gives nothing). -/
theorem C06_partial_like_full (keccak : Bytes → H256) (p t : Node)
    (hm : Mask keccak (fun _ => True) p t) (ops : List Op) (p' : Node)
    (h : runFrom .reject p ops = .ok p') :
    ∃ t', runFrom .reject t ops = .ok t' ∧ rootHash keccak p' = rootHash keccak t' ∧
      (∀ k, get p' k = get t' k ∨ Hidden p' k ∧ get p' k = .ok none) := by
  obtain ⟨t', h1, h2⟩ := hm.runFrom (.inl rfl) ops h
  exact ⟨t', h1, h2.rootHash, fun k => (h2.get k).symm⟩

/-- A single delete also returns the same value on the partial trie and on the full one. -/
theorem C06_delete_value (keccak : Bytes → H256) (p t : Node)
    (hm : Mask keccak (fun _ => True) p t) (k : Key) (p' : Node) (r : Option Bytes)
    (h : delete .reject p k = .ok (p', r)) :
    ∃ t', delete .reject t k = .ok (t', r) ∧ rootHash keccak p' = rootHash keccak t' := by
  obtain ⟨t', h1, h2⟩ := hm.delete (.inl rfl) h
  exact ⟨t', h1, h2.rootHash⟩

/-- A trie with a large leaf next to a small one. -/
def bigLeaf : Node := .leaf [3] (List.replicate 40 7)
def exFull : Node := .branch (upd (upd (upd noChildren 1 bigLeaf) 2 (.leaf [4] [9])) 5 (.leaf [] [1])) []
def exPartial (keccak : Bytes → H256) : Node :=
  .branch (upd (upd (upd noChildren 1 (.hash (rootHash keccak bigLeaf))) 2 (.leaf [4] [9])) 5
    (.leaf [] [1])) []

theorem enc_bigLeaf (keccak) : enc keccak bigLeaf = .hashed (rootHash keccak bigLeaf) := by
  have : enc keccak bigLeaf = .hashed (keccak (Rlp.listOf (Rlp.str (hexPrefix [3] true) ++
      Rlp.str (List.replicate 40 7)))) := by
    simp only [bigLeaf, enc, hashIfLarge]
    rw [if_pos (by decide)]
  rw [rootHash_of_hashed this, this]

theorem mask_ex (keccak Q) (hQ : Q bigLeaf) : Mask keccak Q (exPartial keccak) exFull :=
  .branch _ (Mask.upd (Mask.upd (Mask.upd Mask.noChildren (.hash (enc_bigLeaf _) hQ)) (.leaf _ _))
    (.leaf _ _))

example (keccak) : Mask keccak (fun _ => True) (exPartial keccak) exFull ∧
    ∃ p', runFrom .reject (exPartial keccak) [.ins [7, 7] [8], .del [2, 4]] = .ok p' :=
  ⟨mask_ex _ _ trivial, _, rfl⟩

/-! ### C48: strategy `CollapseToExtension` -/

/-- Full statement of C48: with `CollapseToExtension`, a successful delete on a partial trie has the
root hash of the same delete on the full trie. -/
def C48_statement (keccak : Bytes → H256) : Prop :=
  ∀ p t k p' r, Mask keccak (fun _ => True) p t → delete .collapseToExtension p k = .ok (p', r) →
    ∃ t', delete .collapseToExtension t k = .ok (t', r) ∧ rootHash keccak p' = rootHash keccak t'

def c48Full : Node := .branch (upd (upd noChildren 1 bigLeaf) 2 (.leaf [4] [9])) []
def c48Part (keccak : Bytes → H256) : Node :=
  .branch (upd (upd noChildren 1 (.hash (rootHash keccak bigLeaf))) 2 (.leaf [4] [9])) []

/-- The two strings that are hashed at the root: the leaf the full trie collapses to, and the
extension the partial trie collapses to. -/
def c48Leaf : Bytes :=
  Rlp.listOf (Rlp.str (hexPrefix [1, 3] true) ++ Rlp.str (List.replicate 40 7))
def c48Ext (keccak : Bytes → H256) : Bytes :=
  Rlp.listOf (Rlp.str (hexPrefix [1] false) ++ Rlp.str (rootHash keccak bigLeaf).bytes)

/-- **C48 is violated**: if the orphaned hash node stands for a leaf, the partial trie becomes an
extension over the hash while the full trie becomes a merged leaf. The roots differ unless keccak
collides on the two (different) root encodings. -/
theorem C48_violated_orphaned_leaf (keccak : Bytes → H256)
    (hk : keccak c48Leaf = keccak (c48Ext keccak) → c48Leaf = c48Ext keccak) :
    ¬ C48_statement keccak := by
  intro h
  obtain ⟨t', h1, h2⟩ := h (c48Part keccak) c48Full [2, 4] _ _
    (.branch _ (Mask.upd (Mask.upd Mask.noChildren (.hash (enc_bigLeaf _) trivial)) (.leaf _ _)))
    rfl
  have h3 : delete .collapseToExtension c48Full [2, 4]
      = .ok (.leaf [1, 3] (List.replicate 40 7), some [9]) := rfl
  rw [h3] at h1
  simp only [Except.ok.injEq, Prod.mk.injEq, and_true] at h1
  subst h1
  -- the partial result is `Ext [1] (Hash h)`
  have e1 : rootHash keccak (.ext [1] (.hash (rootHash keccak bigLeaf))) = keccak (c48Ext keccak) := by
    have hl : 32 ≤ (c48Ext keccak).length := by
      simp only [c48Ext, Rlp.listOf, List.length_append, str_h256_length]
      omega
    have h5 : enc keccak (.ext [1] (.hash (rootHash keccak bigLeaf)))
        = .hashed (keccak (c48Ext keccak)) := by
      simp only [enc, hashIfLarge, Enc.item]
      exact if_pos hl
    exact rootHash_of_hashed h5
  have e2 : rootHash keccak (.leaf [1, 3] (List.replicate 40 7)) = keccak c48Leaf := by
    have h5 : enc keccak (.leaf [1, 3] (List.replicate 40 7)) = .hashed (keccak c48Leaf) := by
      simp only [enc, hashIfLarge]
      exact if_pos (by decide)
    exact rootHash_of_hashed h5
  have h2 : rootHash keccak (.ext [1] (.hash (rootHash keccak bigLeaf)))
      = rootHash keccak (.leaf [1, 3] (List.replicate 40 7)) := h2
  rw [e1, e2] at h2
  have h6 := hk h2.symm
  unfold c48Leaf c48Ext at h6
  have h7 := Rlp.listOf_inj (leaf_payload_ok [1, 3] (List.replicate 40 7) (by decide) (by decide)) (by
      have := ext_payload_ok keccak [1] (.hash (rootHash keccak bigLeaf)) (by decide)
      simpa [enc, Enc.item] using this) h6
  have h8 := congrArg List.head? h7
  have e3 : (Rlp.str (hexPrefix [1, 3] true) ++ Rlp.str (List.replicate 40 7)).head? = some 0x82 := by
    decide
  have e4 : (Rlp.str (hexPrefix [1] false) ++ Rlp.str (rootHash keccak bigLeaf).bytes).head?
      = some 0x11 := by
    have : Rlp.str (hexPrefix [1] false) = [0x11] := by decide
    rw [this]; rfl
  rw [e3, e4] at h8
  exact absurd h8 (by decide)

/-- **C48, proved part**: if every hidden sub-trie is a branch (or was already a hash node), sequences
of operations with strategy `CollapseToExtension` on the partial trie match the full trie.
Missing: hidden leaves and extensions, for which the claim is false. -/
theorem C48_hidden_branches_partial (keccak : Bytes → H256) (p t : Node)
    (hm : Mask keccak (fun t => t.isBranch = true ∨ t.isHash = true) p t) (ops : List Op) (p' : Node)
    (h : runFrom .collapseToExtension p ops = .ok p') :
    ∃ t', runFrom .collapseToExtension t ops = .ok t' ∧ rootHash keccak p' = rootHash keccak t' ∧
      (∀ k, get p' k = get t' k ∨ Hidden p' k ∧ get p' k = .ok none) := by
  obtain ⟨t', h1, h2⟩ := hm.runFrom (.inr fun _ h => h) ops h
  exact ⟨t', h1, h2.rootHash, fun k => (h2.get k).symm⟩

/-- A big branch hidden behind its hash, next to a leaf that is deleted. -/
def bigBranch : Node := .branch (upd (upd noChildren 0 bigLeaf) 1 (.leaf [] [1])) []

example (keccak) : ∃ x,
    Mask keccak (fun t => t.isBranch = true ∨ t.isHash = true)
      (.branch (upd (upd noChildren 1 (.hash x)) 2 (.leaf [4] [9])) [])
      (.branch (upd (upd noChildren 1 bigBranch) 2 (.leaf [4] [9])) []) ∧
    ∃ p', runFrom .collapseToExtension
      (.branch (upd (upd noChildren 1 (.hash x)) 2 (.leaf [4] [9])) []) [.del [2, 4]] = .ok p' := by
  have : ∃ x, enc keccak bigBranch = .hashed x := by
    refine branch_hashed 0 ?_
    have : upd (upd noChildren 0 bigLeaf) 1 (.leaf [] [1]) 0 = bigLeaf := rfl
    rw [this, enc_bigLeaf, Enc.item, str_h256_length]
    omega
  obtain ⟨x, hx⟩ := this
  exact ⟨x, .branch _ (Mask.upd (Mask.upd Mask.noChildren (.hash hx (.inl rfl))) (.leaf _ _)),
    _, rfl⟩

/-! ### C07 -/

/-- **C07**. A successful extraction returns a partial version of the trie (only sub-tries
referenced by hash are replaced, by their hash), with the same root hash, in which every requested
key reads as in the original. -/
theorem C07_subset (keccak : Bytes → H256) (t : Node) (ks : List Key) (r : Node)
    (h : createSubset keccak t ks = .ok r) (hx : ∀ n c, Sub (.ext n c) t → n ≠ []) :
    rootHash keccak r = rootHash keccak t ∧ Mask keccak (fun _ => True) r t ∧
      ∀ k ∈ ks, ∀ v, get t k = .ok v → get r k = .ok v := by
  have := createSubset_eq h
  subst this
  exact ⟨(prune_mask _ _ _ _).rootHash, prune_mask _ _ _ _, fun k hk v hv => prune_get hk hv hx⟩

/-- The extraction succeeds whenever the trie has no hash nodes and reading the keys does not panic. -/
theorem C07_subset_succeeds (keccak : Bytes → H256) (t : Node) (ks : List Key) (ht : HashFree t)
    (hk : ∀ k ∈ ks, ∃ v, get t k = .ok v) : ∃ r, createSubset keccak t ks = .ok r := by
  obtain ⟨T, hT⟩ := markAll_ok (b := false) (ks := []) ht hk
  rw [track_nil] at hT
  exact ⟨build keccak T, by simp [createSubset, hT]⟩

/-- Exactly the nodes visited by the keys (and those too small to be hashed) are kept. -/
theorem C07_subset_exact (keccak : Bytes → H256) (t : Node) (ks : List Key) (r : Node)
    (h : createSubset keccak t ks = .ok r) : r = prune keccak false t ks := createSubset_eq h

example (keccak) : (∃ r, createSubset keccak exFull [[2, 4], [6]] = .ok r) ∧ HashFree exFull ∧
    (∀ k ∈ ([[2, 4], [6]] : List Key), ∃ v, get exFull k = .ok v) ∧
    (∀ n c, Sub (.ext n c) exFull → n ≠ []) := by
  refine ⟨⟨_, rfl⟩, ?_, ?_, ?_⟩
  · simp only [exFull, HashFree]
    intro i
    unfold upd noChildren bigLeaf
    repeat (split <;> try simp [HashFree])
  · intro k hk
    simp only [List.mem_cons, List.not_mem_nil, or_false] at hk
    rcases hk with rfl | rfl
    · exact ⟨_, rfl⟩
    · exact ⟨_, rfl⟩
  · intro n c h
    exfalso
    unfold exFull at h
    cases h with
    | @branch _ _ i h =>
      revert h
      unfold upd noChildren bigLeaf
      repeat (split <;> try (intro h; cases h))

/-! ### C08 -/

/-- Full statement of C08. -/
def C08_statement (keccak : Bytes → H256) : Prop :=
  ∀ t kss, createSubsets keccak t kss = kss.mapM (createSubset keccak t)

/-- **C08 is violated**: the "touched" flag of the root survives the reset between two key sets, so
an empty key set after a non-empty one yields a trie with the root expanded instead of a hash. -/
theorem C08_violated_root_flag (keccak : Bytes → H256) : ¬ C08_statement keccak := by
  intro h
  have h1 := h exFull [[[2, 4]], []]
  have hh : ∃ x, enc keccak exFull = .hashed x := by
    refine branch_hashed 1 ?_
    have : upd (upd (upd noChildren 1 bigLeaf) 2 (.leaf [4] [9])) 5 (.leaf [] [1]) 1 = bigLeaf := rfl
    rw [this, enc_bigLeaf, Enc.item, str_h256_length]
    omega
  obtain ⟨x, hx⟩ := hh
  have h2 : createSubset keccak exFull [] = .ok (.hash x) := by
    have : createSubset keccak exFull [] = .ok (prune keccak false exFull []) := by
      unfold createSubset
      rw [← track_nil]
      simp only [markAll, build_track]
    rw [this]
    exact congrArg _ (prune_some rfl hx)
  have h3 : createSubset keccak exFull [[2, 4]] = .ok (prune keccak false exFull [[2, 4]]) := by
    have : ∃ r, createSubset keccak exFull [[2, 4]] = .ok r := ⟨_, rfl⟩
    obtain ⟨r, hr⟩ := this
    rw [hr, createSubset_eq hr]
  have h4 : createSubsets keccak exFull [[[2, 4]], []] =
      .ok [prune keccak false exFull [[2, 4]], prune keccak true exFull []] := by
    unfold createSubsets
    rw [← track_nil]
    simp only [subsetsLoop]
    have : markAll (track false exFull []) [[2, 4]] = .ok (track false exFull [[2, 4]]) := by
      have : ∃ T, markAll (track false exFull []) [[2, 4]] = .ok T := ⟨_, rfl⟩
      obtain ⟨T, hT⟩ := this
      rw [hT, markAll_track hT]
      rfl
    rw [this]
    simp only [markAll, build_track, reset_track]
    rfl
  rw [h4] at h1
  simp only [List.mapM_cons, h3, h2, List.mapM_nil, bind, Except.bind, pure, Except.pure,
    Except.ok.injEq, List.cons.injEq, and_true, true_and] at h1
  simp [prune, exFull] at h1

/-- **C08, proved part 1**: if every key set contains a non-empty key, extracting them together
equals extracting them one by one (including which failures occur). -/
theorem C08_equal_if_nonempty_partial (keccak : Bytes → H256) (t : Node) (kss : List (List Key))
    (h : ∀ ks ∈ kss, ∃ k ∈ ks, k ≠ []) :
    createSubsets keccak t kss = kss.mapM (createSubset keccak t) := by
  unfold createSubsets
  rw [← track_nil]
  refine subsetsLoop_eq (fun ks hks => ?_)
  obtain ⟨k, hk, hne⟩ := h ks hks
  cases t with
  | ext n c =>
    simp only [visits, List.any_eq_true]
    exact ⟨k, hk, by cases k <;> simp_all⟩
  | _ => cases ks <;> simp_all [visits]

example : ∀ ks ∈ ([[[2, 4]], [[], [6]]] : List (List Key)), ∃ k ∈ ks, k ≠ [] := by decide

/-- **C08, proved part 2**: without any condition, every returned trie still has the root hash of the
original, contains the requested data, and corresponds to a key set whose separate extraction
succeeds. Missing: equality with the separately extracted trie (false, see above). -/
theorem C08_roots_and_data_partial (keccak : Bytes → H256) (t : Node) (kss : List (List Key))
    (rs : List Node) (h : createSubsets keccak t kss = .ok rs)
    (hx : ∀ n c, Sub (.ext n c) t → n ≠ []) :
    Pointwise (fun ks r => rootHash keccak r = rootHash keccak t ∧
      (∀ k ∈ ks, ∀ v, get t k = .ok v → get r k = .ok v) ∧
      ∃ r', createSubset keccak t ks = .ok r') kss rs := by
  unfold createSubsets at h
  rw [← track_nil] at h
  refine (subsetsLoop_spec h).imp ?_
  rintro ks r ⟨⟨b, rfl⟩, h3⟩
  exact ⟨(prune_mask _ _ _ _).rootHash, fun k hk v hv => prune_get hk hv hx, h3⟩

/-! ### C09 -/

/-- **C09**. Two tries without hash nodes that have the same root hash are equal, unless keccak maps
two different node encodings of the two tries to the same hash. -/
theorem C09_root_commits (keccak : Bytes → H256) (t t' : Node) (ht : HashFree t) (ht' : HashFree t')
    (hs : Small t) (hs' : Small t') (hn : NoCollision keccak t t')
    (h : rootHash keccak t = rootHash keccak t') : t = t' := by
  rcases rootHash_agree hs hs' hn h with h | h | h
  · exact h.eq ht ht'
  · rw [h] at ht; simp [HashFree] at ht
  · rw [h] at ht'; simp [HashFree] at ht'

/-- The same for partial tries: they agree node by node wherever neither is hashed out; in particular
they never hold different values under a key. -/
theorem C09_root_commits_partial_tries (keccak : Bytes → H256) (t t' : Node) (hs : Small t)
    (hs' : Small t') (hn : NoCollision keccak t t') (h : rootHash keccak t = rootHash keccak t')
    (k : Key) (v w : Bytes) (hv : lookup t k = some (.val v)) (hw : lookup t' k = some (.val w)) :
    v = w := by
  rcases rootHash_agree hs hs' hn h with h | h | h
  · exact h.lookup k v w hv hw
  · rw [h, lookup] at hv; split at hv <;> simp at hv
  · rw [h, lookup] at hw; split at hw <;> simp at hw

/-- Histories: two histories over prefix-free keys that end with different contents have different
roots (no collision among the node encodings). -/
theorem C09_different_contents (keccak : Bytes → H256) (s : Strategy) (K : Key → Prop)
    (hK : PrefixFree K) (hb : ∀ k, K k → k.length ≤ 64) (ops ops' : List Op)
    (hops : ∀ op ∈ ops, K op.key) (hops' : ∀ op ∈ ops', K op.key) (t t' : Node)
    (h1 : run s ops = .ok t) (h2 : run s ops' = .ok t') (hs : Small t) (hs' : Small t')
    (hn : NoCollision keccak t t') (k : Key) (hne : specMap ops k ≠ specMap ops' k) :
    rootHash keccak t ≠ rootHash keccak t' := by
  intro h
  obtain ⟨u, g1, g2⟩ := rel_run (s := s) hK hb hops
  obtain ⟨u', g1', g2'⟩ := rel_run (s := s) hK hb hops'
  rw [h1] at g1; rw [h2] at g1'
  simp only [Except.ok.injEq] at g1 g1'
  subst g1; subst g1'
  have free : ∀ {t m}, Rel K t m → HashFree t := by
    intro t m hr
    have : ∀ k x, lookup t k ≠ some (.hash x) := by
      intro k x hx
      rw [hr.look] at hx
      cases hm : m k <;> simp [hm] at hx
    have key : ∀ t : Node, WF t → (∀ k x, lookup t k ≠ some (.hash x)) → HashFree t := by
      intro t
      induction t with
      | empty => intros; trivial
      | leaf => intros; trivial
      | hash y => intro _ h; exact absurd (by simp [lookup]) (h [] y)
      | ext n c ih =>
        intro hw h
        exact ih hw.2.2 (fun k x hx => h (n ++ k) x (by rw [lookup_ext_append, hx]))
      | branch c v ih =>
        intro hw h i
        exact ih i (hw.2.1 i) (fun k x hx => h (i :: k) x hx)
    exact key t hr.wf this
  have := C09_root_commits keccak t t' (free g2) (free g2') hs hs' hn h
  subst this
  have e1 := g2.look k
  have e2 := g2'.look k
  rw [e1] at e2
  apply hne
  cases h3 : specMap ops k <;> cases h4 : specMap ops' k <;> simp_all

example (keccak) (hk : ∀ a b, keccak a = keccak b → a = b) :
    Small exFull ∧ Small (.leaf [1] [2]) ∧ HashFree (.leaf [1] [2]) ∧
      NoCollision keccak exFull (.leaf [1] [2]) := by
  refine ⟨?_, by simp [Small], trivial, fun a b _ _ h => hk a b h⟩
  refine ⟨by decide, fun i => ?_⟩
  unfold upd noChildren bigLeaf
  repeat (split <;> try simp [Small])

/-! ### C10 -/

/-- Full statement of C10: in every state reachable by API calls, `hash()` on every live handle is the
root hash of its contents. -/
def C10_statement (keccak : Bytes → H256) : Prop :=
  ∀ s, Reach keccak s → ∀ i a, s.handles i = some a →
    (hashOp keccak a s.heap).2 = rootHash keccak a.erase

/-- **C10, proved part**: it holds for every interleaving in which a handle is only modified while no
live clone shares its cache cell, and no `extend` fails half-way. -/
theorem C10_cache_fresh_partial (keccak : Bytes → H256) (s : St) (h : SafeReach keccak s) (i : Nat)
    (a : A) (hi : s.handles i = some a) :
    (hashOp keccak a s.heap).2 = rootHash keccak a.erase :=
  (hashOp_spec h.inv.closed ⟨i, a, hi, .refl _⟩ h.inv.good).1

/-- Sub-trie extraction through the caches gives the result of the uncached extraction, under the
same guard. -/
theorem C10_subset_through_cache_partial (keccak : Bytes → H256) (s : St) (h : SafeReach keccak s)
    (i : Nat) (a : A) (hi : s.handles i = some a) (ks : List Key) (r : Node)
    (hr : createSubset keccak a.erase ks = .ok r) : (buildA keccak a ks s.heap).2 = r := by
  rw [(buildA_spec h.inv.closed ⟨i, a, hi, .refl _⟩ h.inv.good ks).1, createSubset_eq hr]

def v40 (x : UInt8) : Bytes := List.replicate 40 x
/-- Encoding of the leaf `[1] ↦ 40 bytes x`. -/
def leafBytes (x : UInt8) : Bytes := Rlp.listOf (Rlp.str (hexPrefix [1] true) ++ Rlp.str (v40 x))

theorem enc_leaf40 (keccak x) : enc keccak (.leaf [1] (v40 x)) = .hashed (keccak (leafBytes x)) := by
  simp only [enc, hashIfLarge]
  refine if_pos ?_
  simp only [Rlp.listOf, List.length_append]
  have : (Rlp.str (v40 x)).length = 41 := by simp [Rlp.str, Rlp.header, v40]
  omega

theorem leaf_no_below {b c n v} : ¬ Below b (.leaf c n v) := by intro h; cases h

theorem leaf_sub {b c n v} (h : SubA b (.leaf c n v)) : b = .leaf c n v := by cases h; rfl

theorem fresh_leaf (c n v) : Fresh c (.leaf c n v) (c + 1) :=
  ⟨fun b hb => by rw [leaf_sub hb]; simp [A.cell],
   fun b b' hb hb' _ => by rw [leaf_sub hb, leaf_sub hb']⟩

theorem rebuilt_leaf (next c n v n' v') : Rebuilt next (.leaf c n v) (.leaf c n' v') next :=
  ⟨rfl, fun _ h => absurd h leaf_no_below, fun _ _ h => absurd h leaf_no_below, Nat.le_refl _⟩

/-- A run that meets the guard and uses the cache: create, hash, insert, extract, hash. -/
example (keccak) : ∃ s, SafeReach keccak s ∧ s.handles 0 = some (.leaf 0 [1] (v40 2)) ∧
    s.heap 0 = some (keccak (leafBytes 2)) := by
  have s1 := SafeReach.step .init (SafeStep.create (keccak := keccak) .init 0 (.leaf 0 [1] (v40 1)) 1
    rfl (fresh_leaf 0 _ _))
  have s2 := SafeReach.step s1 (SafeStep.insertOk _ 0 _ (.leaf 0 [1] (v40 2)) [1] (.val (v40 2)) 1
    (by
      intro j a b _ hb _
      simp only [St.setHandle, St.init] at hb
      split at hb
      · assumption
      · simp at hb)
    rfl rfl (rebuilt_leaf _ _ _ _ _ _))
  have hb : buildA keccak (.leaf 0 [1] (v40 2)) [] (Heap.put (fun _ => none) 0 none)
      = (Heap.put (Heap.put (fun _ => none) 0 none) 0 (some (keccak (leafBytes 2))),
        .hash (keccak (leafBytes 2))) := by
    have e := enc_leaf40 keccak 2
    simp only [enc] at e
    simp [buildA, tryHash, visits, A.erase, hashIntern, cached, A.cell, Heap.put, rlpA, e, store]
  have s3 := SafeReach.step s2 (SafeStep.subset _ 0 1 _ (.hash 1 (keccak (leafBytes 2))) [] 2 rfl rfl
    ⟨_, rfl⟩ (by
      have : (A.hash 1 (keccak (leafBytes 2))).erase = .hash (keccak (leafBytes 2)) := rfl
      rw [this]
      exact (congrArg Prod.snd hb).symm)
    ⟨fun b hb => by cases hb; simp [A.cell], fun b b' hb hb' _ => by cases hb; cases hb'; rfl⟩)
  refine ⟨_, s3, rfl, ?_⟩
  have := congrFun (congrArg Prod.fst hb) 0
  exact this

/-- **C10 is violated by clones**: clone a trie, modify the clone, extract a sub-trie from the clone;
now `hash()` of the *original* returns the root of the clone. -/
theorem C10_violated_clone (keccak : Bytes → H256) (hk : keccak (leafBytes 1) ≠ keccak (leafBytes 2)) :
    ¬ C10_statement keccak := by
  intro h
  have s1 := Reach.step .init (Step.create (keccak := keccak) .init 0 (.leaf 0 [1] (v40 1)) 1
    rfl (fresh_leaf 0 _ _))
  have s2 := Reach.step s1 (Step.clone _ 0 1 _ rfl rfl)
  have s3 := Reach.step s2 (Step.insertOk _ 1 _ (.leaf 0 [1] (v40 2)) [1] (.val (v40 2)) 1
    rfl rfl (rebuilt_leaf _ _ _ _ _ _))
  have hb : buildA keccak (.leaf 0 [1] (v40 2)) [] (Heap.put (fun _ => none) 0 none)
      = (Heap.put (Heap.put (fun _ => none) 0 none) 0 (some (keccak (leafBytes 2))),
        .hash (keccak (leafBytes 2))) := by
    have e := enc_leaf40 keccak 2
    simp only [enc] at e
    simp [buildA, tryHash, visits, A.erase, hashIntern, cached, A.cell, Heap.put, rlpA, e, store]
  have s4 := Reach.step s3 (Step.subset _ 1 2 _ (.hash 1 (keccak (leafBytes 2))) [] 2 rfl rfl
    ⟨_, rfl⟩ (by
      have : (A.hash 1 (keccak (leafBytes 2))).erase = .hash (keccak (leafBytes 2)) := rfl
      rw [this]
      exact (congrArg Prod.snd hb).symm)
    ⟨fun b hb => by cases hb; simp [A.cell], fun b b' hb hb' _ => by cases hb; cases hb'; rfl⟩)
  have h1 := h _ s4 0 (.leaf 0 [1] (v40 1)) rfl
  have h2 : (buildA keccak (.leaf 0 [1] (v40 2)) [] (Heap.put (fun _ => none) 0 none)).1 0
      = some (keccak (leafBytes 2)) := by rw [hb]; rfl
  have h3 : (hashOp keccak (.leaf 0 [1] (v40 1))
      (buildA keccak (.leaf 0 [1] (v40 2)) [] (Heap.put (fun _ => none) 0 none)).1).2
      = keccak (leafBytes 2) := by
    simp only [hashOp, A.cell, h2]
  have h4 : rootHash keccak (A.leaf 0 [1] (v40 1)).erase = keccak (leafBytes 1) :=
    rootHash_of_hashed (enc_leaf40 keccak 1)
  rw [h4] at h1
  exact hk (h1.symm.trans h3)

example : ∃ keccak : Bytes → H256, keccak (leafBytes 1) ≠ keccak (leafBytes 2) := by
  refine ⟨fun b => ⟨List.replicate 32 (b.getLastD 0), by simp⟩, ?_⟩
  intro h
  have := congrArg (fun x : H256 => x.bytes.headD 0) h
  revert this
  decide

/-- A caching branch: a hash node under nibble 0 and a leaf with value `x` (in cell `c`) under 1. -/
def kidsA (c : Nat) (x : UInt8) : Nib → A := fun i =>
  if i = 0 then .hash 1 h0 else if i = 1 then .leaf c [] [x] else .empty (i.val + 1)
def branchA (c : Nat) (x : UInt8) : A := .branch 0 (kidsA c x) []

theorem kidsA_sub {c x i b} (h : SubA b (kidsA c x i)) : b = kidsA c x i := by
  unfold kidsA at h ⊢
  repeat' split at h
  all_goals cases h
  all_goals simp_all

theorem branchA_sub {c x b} (h : SubA b (branchA c x)) : b = branchA c x ∨ ∃ i, b = kidsA c x i := by
  cases h with
  | refl => exact .inl rfl
  | branch h => exact .inr ⟨_, kidsA_sub h⟩

theorem kidsA_cell (c x i) : (kidsA c x i).cell = if i = 1 then c else i.val + 1 := by
  unfold kidsA
  split
  · rename_i h; subst h; rfl
  · split <;> simp_all [A.cell]

/-- The string hashed for the root of `branchA`. -/
def branchBytes (keccak : Bytes → H256) (x : UInt8) : Bytes :=
  Rlp.listOf (((List.finRange 16).map (fun i => (enc keccak (kidsA 2 x i).erase).item)).flatten ++
    Rlp.str [])

theorem kidsA_erase (c c' x i) : (kidsA c x i).erase = (kidsA c' x i).erase := by
  unfold kidsA
  repeat' split
  all_goals rfl

theorem enc_branchA (keccak c x) :
    enc keccak (branchA c x).erase = .hashed (keccak (branchBytes keccak x)) := by
  simp only [branchA, A.erase, enc, hashIfLarge, kidsA_erase c 2 x]
  refine if_pos ?_
  have h1 := le_flatten_length (List.finRange 16)
    (fun i => (enc keccak (kidsA 2 x i).erase).item) 0 (List.mem_finRange _)
  have h2 : (enc keccak (kidsA 2 x 0).erase).item.length = 33 := str_h256_length h0
  simp only [h2] at h1
  simp only [Rlp.listOf, List.length_append]
  omega

theorem branchA_inj {c x b b'} (hc : c = 2 ∨ 18 ≤ c) (hb : SubA b (branchA c x))
    (hb' : SubA b' (branchA c x)) (h : b.cell = b'.cell) : b = b' := by
  rcases branchA_sub hb with rfl | ⟨i, rfl⟩ <;> rcases branchA_sub hb' with rfl | ⟨j, rfl⟩
  · rfl
  · rw [kidsA_cell] at h
    simp only [branchA, A.cell] at h
    split at h <;> omega
  · rw [kidsA_cell] at h
    simp only [branchA, A.cell] at h
    split at h <;> omega
  · rw [kidsA_cell, kidsA_cell] at h
    have : i = j := by
      apply Fin.ext
      have hi := i.isLt
      have hj := j.isLt
      have e : ∀ k : Nib, k = 1 ↔ k.val = 1 := fun k => by rw [Fin.ext_iff]; rfl
      simp only [e] at h
      split at h <;> split at h <;> omega
    rw [this]

theorem build_branchA (keccak : Bytes → H256) : ∃ hp,
    buildA keccak (branchA 2 5) [] (fun _ => none) = (hp, .hash (keccak (branchBytes keccak 5))) ∧
    hp 0 = some (keccak (branchBytes keccak 5)) := by
  have hS : Closed (fun b => SubA b (branchA 2 5)) :=
    ⟨fun a b ha hb => hb.trans ha, fun a b ha hb hc => by rw [branchA_inj (.inl rfl) ha hb hc]⟩
  have hr := (rlpA_spec (keccak := keccak) hS (.refl _) (hp := fun _ => none)
    (fun _ _ _ h => by simp at h)).1
  rw [enc_branchA] at hr
  have ht : tryHash keccak (branchA 2 5) [] (fun _ => none)
      = ((rlpA keccak (branchA 2 5) (fun _ => none)).1.put 0 (some (keccak (branchBytes keccak 5))),
         some (keccak (branchBytes keccak 5))) := by
    simp only [tryHash, branchA, A.erase, visits, hashIntern, cached, A.cell]
    simp only [branchA] at hr
    simp [hr, store]
  refine ⟨(rlpA keccak (branchA 2 5) (fun _ => none)).1.put 0
          (some (keccak (branchBytes keccak 5))), ?_, by simp [Heap.put]⟩
  simp only [branchA] at ht ⊢
  simp only [buildA, ht]

theorem extend_branchA : (branchA 18 6).erase
      = (extendC (branchA 2 5).erase [([1], .val [6]), ([0, 3], .val [7])]).1 ∧
    (extendC (branchA 2 5).erase [([1], .val [6]), ([0, 3], .val [7])]).2 = false := by
  have e : (branchA 2 5).erase = .branch (fun i => (kidsA 2 5 i).erase) [] := rfl
  rw [e]
  have i1 : insert (.branch (fun i => (kidsA 2 5 i).erase) []) [1] (.val [6])
      = .ok (.branch (upd (fun i => (kidsA 2 5 i).erase) 1 (.leaf [] [6])) []) := rfl
  have i2 : insert (.branch (upd (fun i => (kidsA 2 5 i).erase) 1 (.leaf [] [6])) []) [0, 3]
      (.val [7]) = .error (.hashNodeInsert h0) := rfl
  simp only [extendC, i1, i2, branchA, A.erase, and_true]
  congr 1
  funext i
  unfold upd kidsA
  repeat' split
  all_goals first | rfl | simp_all [A.erase]

/-- **C10 is violated by a failing `extend`**: on a trie whose root hash is cached (by an earlier
sub-trie extraction), `extend` with a first entry that succeeds and a second one that runs into a
hash node returns an error, keeps the first modification, and leaves the old root hash in the cache. -/
theorem C10_violated_extend (keccak : Bytes → H256)
    (hk : keccak (branchBytes keccak 5) ≠ keccak (branchBytes keccak 6)) :
    ¬ C10_statement keccak := by
  intro h
  obtain ⟨hp, hb, hp0⟩ := build_branchA keccak
  have s1 := Reach.step .init (Step.create (keccak := keccak) .init 0 (branchA 2 5) 17 rfl
    ⟨by
      intro b hb
      rcases branchA_sub hb with rfl | ⟨i, rfl⟩
      · exact ⟨Nat.le_refl _, by decide⟩
      · rw [kidsA_cell]
        refine ⟨Nat.zero_le _, ?_⟩
        split <;> omega, fun b b' hb hb' hc => branchA_inj (.inl rfl) hb hb' hc⟩)
  have s2 := Reach.step s1 (Step.subset _ 0 1 (branchA 2 5)
    (.hash 17 (keccak (branchBytes keccak 5))) [] 18 rfl rfl
    ⟨_, by simp only [createSubset, markAll]; rfl⟩ (by
      show Node.hash _ = (buildA keccak (branchA 2 5) [] (fun _ => none)).2
      rw [hb])
    ⟨fun b hb => by cases hb; simp [A.cell], fun b b' hb hb' _ => by cases hb; cases hb'; rfl⟩)
  have s3 := Reach.step s2 (Step.extend _ 0 (branchA 2 5) (branchA 18 6)
    [([1], .val [6]), ([0, 3], .val [7])] 19 rfl extend_branchA.1
    ⟨rfl, by
      intro b hb
      rcases branchA_sub hb.sub with rfl | ⟨i, rfl⟩
      · exact absurd rfl hb.irrefl
      · by_cases hi : i = 1
        · subst hi; exact (.inr ⟨Nat.le_refl 18, Nat.lt_succ_self 18⟩)
        · refine .inl (.branch (i := i) ?_)
          have : kidsA 18 6 i = kidsA 2 5 i := by unfold kidsA; simp [hi]
          rw [this]; exact .refl _, fun b b' hb hb' _ hc =>
        branchA_inj (.inr (Nat.le_refl _)) hb.sub hb'.sub hc, Nat.le_succ 18⟩)
  rw [extend_branchA.2] at s3
  have h1 := h _ s3 0 (branchA 18 6) rfl
  rw [rootHash_of_hashed (enc_branchA keccak 18 6)] at h1
  have h3 : (hashOp keccak (branchA 18 6)
      (buildA keccak (branchA 2 5) [] (fun _ => none)).1).2 = keccak (branchBytes keccak 5) := by
    have : (branchA 18 6).cell = 0 := rfl
    rw [hb]
    simp only [hashOp, this, hp0]
  exact hk (h3.symm.trans (by simpa [St.init] using h1))

example : ∃ keccak : Bytes → H256,
    keccak (branchBytes keccak 5) ≠ keccak (branchBytes keccak 6) := by
  refine ⟨fun b => ⟨List.replicate 32 (b.getD 36 0), by simp⟩, ?_⟩
  intro h
  have := congrArg (fun x : H256 => x.bytes.headD 0) h
  revert this
  decide +kernel

end Verif.Mpt
