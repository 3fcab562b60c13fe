import Verif.Mpt.Iter
/-!
# Properties C01–C05 and C47: the trie as a map

The statements use the model functions `get`, `insert`, `delete`, `run`, `collect` and the
specification `specMap`, `lookup`, `PrefixFree` of `Spec.lean` only.
-/
namespace Verif.Mpt

/-- The result of `get` read as a lookup in the map of entries. -/
def valueOf : Option Entry → Option Bytes
  | some (.val v) => some v
  | _ => none

/-! ### C01 -/

/-- **C01**. For keys of one fixed length `L ≤ 64`, every history of inserts and deletes runs without
error or panic, and afterwards `get` returns exactly what the abstract map says. -/
theorem C01_get_after_history (s : Strategy) (L : Nat) (hL : L ≤ 64) (ops : List Op)
    (hops : ∀ op ∈ ops, op.key.length = L) :
    ∃ t, run s ops = .ok t ∧ ∀ k, k.length = L → get t k = .ok (specMap ops k) := by
  obtain ⟨t, h1, h2⟩ := rel_run (s := s) (prefixFree_length L) (fun k (h : k.length = L) => by omega)
    hops
  refine ⟨t, h1, fun k hk => ?_⟩
  rw [get_spec h2.wf (h2.compat (prefixFree_length L) hk) (fun k' hk' => ?_)]
  · rw [h2.look]; cases specMap ops k <;> rfl
  · have : k'.length = L := h2.keys k' (by
      rw [h2.look] at hk'
      intro h0; rw [h0] at hk'; simp at hk')
    omega

example : ∀ op ∈ [Op.ins [1, 2] [7], .ins [1, 3] [8], .del [1, 2], .ins [4, 4] []],
    op.key.length = 2 := by decide

/-- The same for any prefix-free set of keys (e.g. RLP-encoded indices), for queries at least as
long as every key of the set (a shorter query may make `get` panic, see C05). -/
theorem C01_get_after_history_prefixFree (s : Strategy) (K : Key → Prop) (hK : PrefixFree K)
    (hb : ∀ k, K k → k.length ≤ 64) (ops : List Op) (hops : ∀ op ∈ ops, K op.key) :
    ∃ t, run s ops = .ok t ∧ (∀ k, lookup t k = (specMap ops k).map .val) ∧
      ∀ k, K k → (∀ k', K k' → k'.length ≤ k.length) → get t k = .ok (specMap ops k) := by
  obtain ⟨t, h1, h2⟩ := rel_run (s := s) hK hb hops
  refine ⟨t, h1, h2.look, fun k hk hl => ?_⟩
  rw [get_spec h2.wf (h2.compat hK hk) (fun k' hk' => ?_)]
  · rw [h2.look]; cases specMap ops k <;> rfl
  · exact hl k' (h2.keys k' (by
      rw [h2.look] at hk'
      intro h0; rw [h0] at hk'; simp at hk'))

example : PrefixFree (fun k => k ∈ [[1], [2, 3], [2, 4, 5]]) ∧
    ∀ k ∈ ([[1], [2, 3], [2, 4, 5]] : List Key), k.length ≤ 64 := by
  refine ⟨?_, by decide⟩
  intro a b ha hb hab
  simp only [List.mem_cons, List.not_mem_nil, or_false] at ha hb
  rcases ha with rfl | rfl | rfl <;> rcases hb with rfl | rfl | rfl <;>
    first | rfl | (revert hab; decide)

/-! ### C02 -/

/-- **C02**. After any history over prefix-free keys, deleting `k` succeeds, returns the value of
`k` if there is one and nothing otherwise, removes exactly `k`, and leaves a trie on which the next
operations behave in the same way. -/
theorem C02_delete (s : Strategy) (K : Key → Prop) (hK : PrefixFree K)
    (hb : ∀ k, K k → k.length ≤ 64) (ops : List Op) (hops : ∀ op ∈ ops, K op.key)
    (k : Key) (hk : K k) :
    ∃ t t', run s ops = .ok t ∧ delete s t k = .ok (t', specMap ops k) ∧
      (∀ k', lookup t' k' = if k' = k then none else lookup t k') ∧
      run s (ops ++ [.del k]) = .ok t' := by
  obtain ⟨t, h1, h2⟩ := rel_run (s := s) hK hb hops
  obtain ⟨t', h3, h4⟩ := h2.delete (s := s) hK hb hk
  refine ⟨t, t', h1, h3, fun k' => ?_, ?_⟩
  · rw [h4.look, h2.look]
    simp only [Op.apply]
    split <;> rfl
  · have : ∀ (ops : List Op) (t0 : Node), runFrom s t0 ops = .ok t →
        runFrom s t0 (ops ++ [.del k]) = .ok t' := by
      intro ops
      induction ops with
      | nil =>
        intro t0 h
        simp only [runFrom, Except.ok.injEq] at h
        subst h
        simp [runFrom, step, h3, Except.map]
      | cons op ops ih =>
        intro t0 h
        simp only [runFrom, List.cons_append] at h ⊢
        split at h
        · exact ih _ h
        · simp at h
    exact this ops .empty h1

example : ∀ op ∈ [Op.ins [1, 2] [7], .ins [1, 3] [8]], op.key.length = 2 := by decide

/-! ### C03 -/

/-- **C03**. Two histories over (possibly different) prefix-free key sets that end with the same
contents end with the same trie, hence with the same root hash. -/
theorem C03_history_independent (s s' : Strategy) (K K' : Key → Prop) (hK : PrefixFree K)
    (hK' : PrefixFree K') (hb : ∀ k, K k → k.length ≤ 64) (hb' : ∀ k, K' k → k.length ≤ 64)
    (ops ops' : List Op) (hops : ∀ op ∈ ops, K op.key) (hops' : ∀ op ∈ ops', K' op.key)
    (hsame : ∀ k, specMap ops k = specMap ops' k) :
    ∃ t, run s ops = .ok t ∧ run s' ops' = .ok t := by
  obtain ⟨t, h1, h2⟩ := rel_run (s := s) hK hb hops
  obtain ⟨t', h1', h2'⟩ := rel_run (s := s') hK' hb' hops'
  have : t = t' := wf_unique h2.wf h2'.wf (fun k => by rw [h2.look, h2'.look, hsame])
  exact ⟨t, h1, this ▸ h1'⟩

example : ∀ k, specMap [Op.ins [1, 2] [7], .ins [1, 3] [8], .del [1, 3]] k
    = specMap [.ins [5, 6] [1], .ins [1, 2] [9], .del [5, 6], .ins [1, 2] [7]] k := by
  intro k
  simp only [specMap, List.foldl, Op.apply]
  by_cases h1 : k = [1, 3] <;> by_cases h2 : k = [1, 2] <;> by_cases h3 : k = [5, 6] <;>
    simp_all

/-! ### C04 -/

/-- **C04**. After any history over prefix-free keys, iterating terminates without panic, and the
yielded list contains `(k, v)` iff `k` is mapped to `v`, in strictly increasing key order (so every
entry once). -/
theorem C04_items (s : Strategy) (K : Key → Prop) (hK : PrefixFree K)
    (hb : ∀ k, K k → k.length ≤ 64) (ops : List Op) (hops : ∀ op ∈ ops, K op.key) :
    ∃ t items, run s ops = .ok t ∧
      (∃ N, ∀ fuel, N ≤ fuel → collect fuel (itemsInit t) = some (.ok items)) ∧
      (∀ k e, (k, e) ∈ items ↔ ∃ v, e = .val v ∧ specMap ops k = some v) ∧
      items.Pairwise (fun a b => a.1 < b.1) := by
  obtain ⟨t, h1, h2⟩ := rel_run (s := s) hK hb hops
  refine ⟨t, entries t [], h1, collect_items h2.wf.extOk (h2.wf.fits (h2.bounded hb)), ?_,
    entries_sorted h2.wf []⟩
  intro k e
  rw [mem_entries]
  constructor
  · rintro ⟨r, hr, h⟩
    rw [List.nil_append] at hr
    subst hr
    rw [h2.look] at h
    cases hm : specMap ops k <;> simp [hm] at h
    exact ⟨_, h.symm, rfl⟩
  · rintro ⟨v, rfl, h⟩
    exact ⟨k, by simp, by rw [h2.look, h]; rfl⟩

example : ∀ op ∈ [Op.ins [1, 2] [7], .ins [1, 3] [8], .ins [0, 0] [9]], op.key.length = 2 := by
  decide

/-- Iteration of any trie whose extensions point to branches or hash nodes (also partial tries and
tries with branch values) yields exactly its entries. -/
theorem C04_items_any (t : Node) (hx : ExtOk t) (hf : Fits 64 t) :
    ∃ items, (∃ N, ∀ fuel, N ≤ fuel → collect fuel (itemsInit t) = some (.ok items)) ∧
      ∀ k e, (k, e) ∈ items ↔ lookup t k = some e := by
  refine ⟨entries t [], collect_items hx hf, fun k e => ?_⟩
  rw [mem_entries]
  constructor
  · rintro ⟨r, rfl, h⟩; simpa using h
  · intro h; exact ⟨k, by simp, h⟩

example : ExtOk (.ext [1] (.branch (fun _ => .leaf [2] [3]) [4])) ∧
    Fits 64 (.ext [1] (.branch (fun _ => .leaf [2] [3]) [4])) := by
  simp [ExtOk, Fits, Node.isBranch]

/-! ### C05: keys of which one is a prefix of another -/

/-- Full statement of C05: map semantics for all keys. -/
def C05_statement : Prop :=
  ∀ (ops : List Op) (k : Key) (t : Node), (∀ op ∈ ops, op.key.length ≤ 64) →
    run .reject ops = .ok t → get t k = .ok (specMap ops k)

/-- **C05 is violated**: `get` of a proper prefix of the only stored key returns its value. -/
theorem C05_violated_get_prefix : ¬ C05_statement := by
  intro h
  have := h [.ins [1, 2] [7]] [1] (.leaf [1, 2] [7]) (by decide) rfl
  exact absurd this (by
    have : get (.leaf [1, 2] [7]) [1] = .ok (some [7]) := rfl
    rw [this]
    have : specMap [.ins [1, 2] [7]] [1] = none := by decide
    rw [this]
    simp)

/-- A query shorter than an extension makes `get` panic although the key set is prefix-free. -/
theorem C05_violated_get_panics :
    (run .reject [.ins [1, 2, 3, 4] [7], .ins [1, 2, 3, 5] [8]]).bind (get · [9])
      = .error .panic := by rfl

/-- A key ending strictly inside an extension is stored under a different (longer) key. -/
theorem C05_violated_insert_wrong_key :
    ∃ t, run .reject [.ins [1, 2, 3] [7], .ins [1, 2, 4] [8], .ins [1] [9]] = .ok t ∧
      lookup t [1] = none ∧ lookup t [1, 2] = some (.val [9]) := by
  refine ⟨_, rfl, by decide, by decide⟩

/-- Deleting a child of a branch that holds a value drops the value, without any error. -/
theorem C05_violated_delete_loses_value :
    ∃ t t', run .reject [.ins [1] [7], .ins [1, 2] [8], .ins [1, 3] [9]] = .ok t ∧
      lookup t [1] = some (.val [7]) ∧
      delete .reject t [1, 2] = .ok (t', some [8]) ∧ lookup t' [1] = none := by
  refine ⟨_, _, rfl, by decide, rfl, by decide⟩

/-- Deleting the only child of a branch with a value panics. -/
theorem C05_violated_delete_panics :
    (run .reject [.ins [1] [7], .ins [1, 2] [8]]).bind (delete .reject · [1, 2])
      = .error .panic := by rfl

/-- Deleting an absent key that ends at a branch reports `Some` (an empty value) instead of
`None`. -/
theorem C05_violated_delete_absent :
    (((run .reject [.ins [1, 2] [7], .ins [1, 3] [8]]).bind (delete .reject · [1])).map (·.2))
      = .ok (some []) := by rfl

/-- **C05, proved part**: on *every* trie, an insert that succeeds stores the entry under exactly the
given key and changes nothing else, provided the key does not end strictly inside an extension
and no empty value has to live in a branch (`InsOk`).  Missing: `get`/`delete` for such keys, which
the theorems above refute. -/
theorem C05_insert_any_key_partial (t : Node) (k : Key) (e : Entry) (t' : Node)
    (h : insert t k e = .ok t') (hok : InsOk t k e) (k' : Key) :
    lookup t' k' = if k' = k then some e else lookup t k' :=
  lookup_insertRec h hok k'

example : InsOk (.leaf [1] [7]) [1, 2] (.val [8]) ∧
    ∃ t', insert (.leaf [1] [7]) [1, 2] (.val [8]) = .ok t' := by
  refine ⟨by simp [InsOk], _, rfl⟩

/-! ### C47: rejected deletions -/

/-- **C47 is violated**: a delete that has to be rejected because it would collapse an extension into
a hash node panics (in building the key for the error) instead of returning the error, for ordinary
64-nibble keys. -/
theorem C47_violated_delete_panics (h : H256) :
    ∃ t, (∃ t0 t1, insert .empty [0, 5, 1] (.hash h) = .ok t0 ∧
        insert t0 (0 :: 5 :: 2 :: List.replicate 61 0) (.val [1]) = .ok t1 ∧
        insert t1 (List.replicate 64 1) (.val [1]) = .ok t) ∧
      delete .reject t (0 :: 5 :: 2 :: List.replicate 61 0) = .error .panic := by
  refine ⟨_, ⟨_, _, rfl, rfl, rfl⟩, ?_⟩
  rfl

/-- **C47, proved part**: on canonical tries and prefix-free keys, the only ways a delete can fail are
reaching a hash node, or (strategy `Reject` only) collapsing in a trie that contains a hash
node; in particular it never fails with strategy `CollapseToExtension` unless the key itself is
hashed out, and never fails or panics in tries without hash nodes. Missing: that the `Reject`
failure is an error value rather than a panic. -/
theorem C47_delete_failures_partial (s : Strategy) (t : Node) (k : Key) (hw : WF t)
    (hc : Compat t k) (hb : Bounded 64 t) (f : Fault) (h : delete s t k = .error f) :
    (∃ h, lookup t k = some (.hash h) ∧ f = .hashNodeDelete h) ∨
    (s = .reject ∧ ∃ k h, lookup t k = some (.hash h)) :=
  (delete_spec hw hc hb).1 f h

example (h : H256) : WF (.hash h) ∧ Compat (.hash h) [] ∧ Bounded 64 (.hash h) ∧
    delete .reject (.hash h) [] = .error (.hashNodeDelete h) := by
  refine ⟨trivial, ?_, ?_, rfl⟩
  · intro k hk _
    simp only [lookup] at hk
    split at hk <;> simp_all
  · intro k hk
    simp only [lookup] at hk
    split at hk <;> simp_all

end Verif.Mpt
