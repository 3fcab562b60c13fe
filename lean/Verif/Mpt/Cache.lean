import Verif.Mpt.Subset
/-!
# Hash caching in `HashedPartialTrie` (`mpt_trie/src/partial_trie.rs`)

Every `HashedPartialTrie` value owns a reference (`Arc<RwLock<Option<H256>>>`) to a cache cell.  A
cell is a natural number, the heap maps cells to their contents.  Cloning a handle copies the
reference, not the cell.

Simplification: which untouched child nodes (with their cells) an `insert`/`delete` re-uses and which
nodes it rebuilds with `N::new` (fresh cell) is left open: the step relation allows every choice.
Single-threaded interleavings (each API call is atomic).
-/
namespace Verif.Mpt

/-- A `HashedPartialTrie` with its cells. `mpt_trie/src/partial_trie.rs:312-317`. -/
inductive A where
  | empty (cell : Nat)
  | hash (cell : Nat) (h : H256)
  | branch (cell : Nat) (kids : Nib → A) (value : Bytes)
  | ext (cell : Nat) (nibbles : Key) (kid : A)
  | leaf (cell : Nat) (nibbles : Key) (value : Bytes)

def A.cell : A → Nat
  | .empty c => c
  | .hash c _ => c
  | .branch c _ _ => c
  | .ext c _ _ => c
  | .leaf c _ _ => c

/-- The contents, without cells. -/
def A.erase : A → Node
  | .empty _ => .empty
  | .hash _ h => .hash h
  | .branch _ k v => .branch (fun i => (k i).erase) v
  | .ext _ n k => .ext n k.erase
  | .leaf _ n v => .leaf n v

abbrev Heap := Nat → Option H256

def Heap.put (hp : Heap) (c : Nat) (x : Option H256) : Heap := fun c' => if c' = c then x else hp c'

/-- The write-back of `hash_intern`: only hashed encodings are cached.
`mpt_trie/src/partial_trie.rs:438-442`. -/
def store (hp : Heap) (c : Nat) : Enc → Heap
  | .raw _ => hp
  | .hashed h => hp.put c (some h)

/-- `hash_intern`: use the cached hash, else encode and cache. `mpt_trie/src/partial_trie.rs:432-445`. -/
def cached (c : Nat) (f : Heap → Heap × Enc) (hp : Heap) : Heap × Enc :=
  match hp c with
  | some h => (hp, .hashed h)
  | none =>
    let r := f hp
    (store r.1 c r.2, r.2)

/-- `rlp_encode_and_hash_node` on a node whose children cache their hashes (the encoding of the
children goes through `hash_intern`). `mpt_trie/src/trie_hashing.rs:36-76`. -/
def rlpA (keccak : Bytes → H256) : A → Heap → Heap × Enc
  | .empty _, hp => (hp, .raw [0x80])
  | .hash _ h, hp => (hp, .hashed h)
  | .branch _ kids v, hp =>
    let r := (List.finRange 16).foldl (fun (acc : Heap × Bytes) i =>
      let r := cached (kids i).cell (rlpA keccak (kids i)) acc.1
      (r.1, acc.2 ++ r.2.item)) (hp, [])
    (r.1, hashIfLarge keccak (Rlp.listOf (r.2 ++ Rlp.str v)))
  | .ext _ n kid, hp =>
    let r := cached kid.cell (rlpA keccak kid) hp
    (r.1, hashIfLarge keccak (Rlp.listOf (Rlp.str (hexPrefix n false) ++ r.2.item)))
  | .leaf _ n v, hp =>
    (hp, hashIfLarge keccak (Rlp.listOf (Rlp.str (hexPrefix n true) ++ Rlp.str v)))

/-- `hash_intern` of a whole value. -/
def hashIntern (keccak : Bytes → H256) (a : A) : Heap → Heap × Enc := cached a.cell (rlpA keccak a)

/-- `hash()` / `get_hash`: reads the root's cell but does not write it.
`mpt_trie/src/partial_trie.rs:338-345,390-392`. -/
def hashOp (keccak : Bytes → H256) (a : A) (hp : Heap) : Heap × H256 :=
  match hp a.cell with
  | some h => (hp, h)
  | none =>
    let r := rlpA keccak a hp
    (r.1, match r.2 with | .raw b => keccak b | .hashed h => h)

/-- The first half of `create_partial_trie_subset_from_tracked_trie`: an untouched node is hashed away
if its encoding is hashed. `mpt_trie/src/trie_subsets.rs:345-353`. -/
def tryHash (keccak : Bytes → H256) (a : A) (ks : List Key) (hp : Heap) : Heap × Option H256 :=
  if visits a.erase ks then (hp, none)
  else
    let r := hashIntern keccak a hp
    (r.1, match r.2 with | .hashed h => some h | .raw _ => none)

/-- `create_partial_trie_subset_from_tracked_trie` on a caching trie: the hashes of untouched nodes
come from `hash_intern`, which updates the caches. `mpt_trie/src/trie_subsets.rs:342-373`. The
touched flags are those left by the marking phase (`visits`/`strip`/`stripExt`, see
`Verif.Mpt.createSubset_eq`). -/
def buildA (keccak : Bytes → H256) : A → List Key → Heap → Heap × Node
  | .empty c, ks, hp =>
    match tryHash keccak (.empty c) ks hp with
    | (hp, some h) => (hp, .hash h)
    | (hp, none) => (hp, .empty)
  | .hash c x, ks, hp =>
    match tryHash keccak (.hash c x) ks hp with
    | (hp, some h) => (hp, .hash h)
    | (hp, none) => (hp, .hash x)
  | .branch c kids v, ks, hp =>
    match tryHash keccak (.branch c kids v) ks hp with
    | (hp, some h) => (hp, .hash h)
    | (hp, none) =>
      let r := (List.finRange 16).foldl (fun (acc : Heap × (Nib → Node)) i =>
        let r := buildA keccak (kids i) (strip i ks) acc.1
        (r.1, upd acc.2 i r.2)) (hp, noChildren)
      (r.1, .branch r.2 v)
  | .ext c n kid, ks, hp =>
    match tryHash keccak (.ext c n kid) ks hp with
    | (hp, some h) => (hp, .hash h)
    | (hp, none) =>
      let r := buildA keccak kid (stripExt n ks) hp
      (r.1, .ext n r.2)
  | .leaf c n v, ks, hp =>
    match tryHash keccak (.leaf c n v) ks hp with
    | (hp, some h) => (hp, .hash h)
    | (hp, none) => (hp, .leaf n v)

/-! ## Handles and steps -/

/-- `b` is `a` or below it. -/
inductive SubA : A → A → Prop
  | refl (a) : SubA a a
  | branch {a c k v i} : SubA a (k i) → SubA a (.branch c k v)
  | ext {a c n k} : SubA a k → SubA a (.ext c n k)

/-- `b` is strictly below `a`. -/
inductive Below : A → A → Prop
  | branch {a c k v i} : SubA a (k i) → Below a (.branch c k v)
  | ext {a c n k} : SubA a k → Below a (.ext c n k)

/-- The live handles, the cells, and the first unused cell. -/
structure St where
  heap : Heap
  next : Nat
  handles : Nat → Option A

/-- No handles, no cells. -/
def St.init : St := ⟨fun _ => none, 0, fun _ => none⟩

def St.setHandle (s : St) (i : Nat) (a : A) : Nat → Option A :=
  fun j => if j = i then some a else s.handles j

/-- `a'` is `a` after an operation on the contents: same root cell (`*self = node_ref.clone()` only
replaces the node), and below the root only re-used nodes of `a` and newly allocated ones.
`mpt_trie/src/trie_ops.rs:313-315,395-403`. -/
structure Rebuilt (next : Nat) (a a' : A) (next' : Nat) : Prop where
  cell : a'.cell = a.cell
  below : ∀ b, Below b a' → Below b a ∨ (next ≤ b.cell ∧ b.cell < next')
  inj : ∀ b b', Below b a' → Below b' a' → next ≤ b.cell → b.cell = b'.cell → b = b'
  le : next ≤ next'

/-- All cells of `a` are new. -/
structure Fresh (next : Nat) (a : A) (next' : Nat) : Prop where
  cells : ∀ b, SubA b a → next ≤ b.cell ∧ b.cell < next'
  inj : ∀ b b', SubA b a → SubA b' a → b.cell = b'.cell → b = b'

/-- Sequence of inserts of `trie_extend`; the contents after the last successful one, and whether all
succeeded. `mpt_trie/src/trie_ops.rs:321-331`. -/
def extendC : Node → List (Key × Entry) → Node × Bool
  | t, [] => (t, true)
  | t, (k, e) :: l =>
    match insert t k e with
    | .ok t' => extendC t' l
    | .error _ => (t, false)

/-- The API calls. -/
inductive Step (keccak : Bytes → H256) : St → St → Prop
  /-- constructing a trie (`new`, `from`, deserialisation) -/
  | create (s : St) (i a next') : s.handles i = none → Fresh s.next a next' →
      Step keccak s ⟨s.heap, next', s.setHandle i a⟩
  /-- `insert`, success. `mpt_trie/src/partial_trie.rs:369-377` -/
  | insertOk (s : St) (i a a' k e next') : s.handles i = some a →
      insert a.erase k e = .ok a'.erase → Rebuilt s.next a a' next' →
      Step keccak s ⟨s.heap.put a.cell none, next', s.setHandle i a'⟩
  /-- `insert`, failure: nothing changes -/
  | insertErr (s : St) (i a k e f) : s.handles i = some a → insert a.erase k e = .error f →
      Step keccak s s
  /-- `extend`: the cache is reset only if all inserts succeed.
  `mpt_trie/src/partial_trie.rs:379-388` -/
  | extend (s : St) (i a a' l next') : s.handles i = some a →
      a'.erase = (extendC a.erase l).1 → Rebuilt s.next a a' next' →
      Step keccak s ⟨if (extendC a.erase l).2 then s.heap.put a.cell none else s.heap, next',
        s.setHandle i a'⟩
  /-- `delete`, success. `mpt_trie/src/partial_trie.rs:397-405` -/
  | deleteOk (s : St) (i a a' k st r next') : s.handles i = some a →
      delete st a.erase k = .ok (a'.erase, r) → Rebuilt s.next a a' next' →
      Step keccak s ⟨s.heap.put a.cell none, next', s.setHandle i a'⟩
  /-- `delete`, failure: the cache is reset anyway -/
  | deleteErr (s : St) (i a k st f) : s.handles i = some a → delete st a.erase k = .error f →
      Step keccak s ⟨s.heap.put a.cell none, s.next, s.handles⟩
  /-- `hash` -/
  | hash (s : St) (i a) : s.handles i = some a →
      Step keccak s ⟨(hashOp keccak a s.heap).1, s.next, s.handles⟩
  /-- `clone` (derived): the cell is shared. `mpt_trie/src/partial_trie.rs:315` -/
  | clone (s : St) (i j a) : s.handles i = some a → s.handles j = none →
      Step keccak s ⟨s.heap, s.next, s.setHandle j a⟩
  /-- `create_trie_subset` -/
  | subset (s : St) (i j a r ks next') : s.handles i = some a → s.handles j = none →
      (∃ t, createSubset keccak a.erase ks = .ok t) →
      r.erase = (buildA keccak a ks s.heap).2 → Fresh s.next r next' →
      Step keccak s ⟨(buildA keccak a ks s.heap).1, next', s.setHandle j r⟩
  /-- dropping a handle -/
  | drop (s : St) (i) :
      Step keccak s ⟨s.heap, s.next, fun j => if j = i then none else s.handles j⟩

/-- Reachable by any interleaving of API calls. -/
inductive Reach (keccak : Bytes → H256) : St → Prop
  | init : Reach keccak .init
  | step {s s'} : Reach keccak s → Step keccak s s' → Reach keccak s'

/-- No other live handle shares the cell of handle `i`. -/
def Unaliased (s : St) (i : Nat) : Prop :=
  ∀ j a b, s.handles i = some a → s.handles j = some b → a.cell = b.cell → j = i

/-- Steps that respect the guard: handles that have a live clone are not modified, and no `extend`
fails half-way. -/
inductive SafeStep (keccak : Bytes → H256) : St → St → Prop
  | insertOk (s : St) (i a a' k e next') : Unaliased s i → s.handles i = some a →
      insert a.erase k e = .ok a'.erase → Rebuilt s.next a a' next' →
      SafeStep keccak s ⟨s.heap.put a.cell none, next', s.setHandle i a'⟩
  | extendOk (s : St) (i a a' l next') : Unaliased s i → s.handles i = some a →
      extendC a.erase l = (a'.erase, true) → Rebuilt s.next a a' next' →
      SafeStep keccak s ⟨s.heap.put a.cell none, next', s.setHandle i a'⟩
  | deleteOk (s : St) (i a a' k st r next') : Unaliased s i → s.handles i = some a →
      delete st a.erase k = .ok (a'.erase, r) → Rebuilt s.next a a' next' →
      SafeStep keccak s ⟨s.heap.put a.cell none, next', s.setHandle i a'⟩
  | create (s : St) (i a next') : s.handles i = none → Fresh s.next a next' →
      SafeStep keccak s ⟨s.heap, next', s.setHandle i a⟩
  | insertErr (s : St) (i a k e f) : s.handles i = some a → insert a.erase k e = .error f →
      SafeStep keccak s s
  | deleteErr (s : St) (i a k st f) : s.handles i = some a → delete st a.erase k = .error f →
      SafeStep keccak s ⟨s.heap.put a.cell none, s.next, s.handles⟩
  | hash (s : St) (i a) : s.handles i = some a →
      SafeStep keccak s ⟨(hashOp keccak a s.heap).1, s.next, s.handles⟩
  | clone (s : St) (i j a) : s.handles i = some a → s.handles j = none →
      SafeStep keccak s ⟨s.heap, s.next, s.setHandle j a⟩
  | subset (s : St) (i j a r ks next') : s.handles i = some a → s.handles j = none →
      (∃ t, createSubset keccak a.erase ks = .ok t) →
      r.erase = (buildA keccak a ks s.heap).2 → Fresh s.next r next' →
      SafeStep keccak s ⟨(buildA keccak a ks s.heap).1, next', s.setHandle j r⟩
  | drop (s : St) (i) :
      SafeStep keccak s ⟨s.heap, s.next, fun j => if j = i then none else s.handles j⟩

theorem SafeStep.step {keccak s s'} (h : SafeStep keccak s s') : Step keccak s s' := by
  cases h with
  | insertOk i a a' k e next' _ h1 h2 h3 => exact .insertOk s i a a' k e next' h1 h2 h3
  | extendOk i a a' l next' _ h1 h2 h3 =>
    have := Step.extend (keccak := keccak) s i a a' l next' h1 (by rw [h2]) h3
    rw [h2] at this
    simpa using this
  | deleteOk i a a' k st r next' _ h1 h2 h3 => exact .deleteOk s i a a' k st r next' h1 h2 h3
  | create i a next' h1 h2 => exact .create s i a next' h1 h2
  | insertErr i a k e f h1 h2 => exact .insertErr s i a k e f h1 h2
  | deleteErr i a k st f h1 h2 => exact .deleteErr s i a k st f h1 h2
  | hash i a h1 => exact .hash s i a h1
  | clone i j a h1 h2 => exact .clone s i j a h1 h2
  | subset i j a r ks next' h1 h2 h3 h4 h5 => exact .subset s i j a r ks next' h1 h2 h3 h4 h5
  | drop i => exact .drop s i

/-- Reachable by steps that respect the guard. -/
inductive SafeReach (keccak : Bytes → H256) : St → Prop
  | init : SafeReach keccak .init
  | step {s s'} : SafeReach keccak s → SafeStep keccak s s' → SafeReach keccak s'

/-! ## Proofs -/

section
variable {keccak : Bytes → H256} {S : A → Prop}

/-- Caches of the nodes in `S` are right. -/
def Good (keccak : Bytes → H256) (S : A → Prop) (hp : Heap) : Prop :=
  ∀ b, S b → ∀ x, hp b.cell = some x → enc keccak b.erase = .hashed x

structure Closed (S : A → Prop) : Prop where
  sub : ∀ a b, S a → SubA b a → S b
  coh : ∀ a b, S a → S b → a.cell = b.cell → a.erase = b.erase

/-- The heap changed only on cells of `S`. -/
def Only (S : A → Prop) (hp hp' : Heap) : Prop := ∀ c, (∀ b, S b → b.cell ≠ c) → hp' c = hp c

theorem Only.trans {hp hp' hp''} (h : Only S hp hp') (h' : Only S hp' hp'') : Only S hp hp'' :=
  fun c hc => (h' c hc).trans (h c hc)

theorem cached_spec (hS : Closed S) {a : A} (ha : S a) {f : Heap → Heap × Enc} {hp : Heap}
    (hg : Good keccak S hp)
    (hf : (f hp).2 = enc keccak a.erase ∧ Good keccak S (f hp).1 ∧ Only S hp (f hp).1) :
    (cached a.cell f hp).2 = enc keccak a.erase ∧ Good keccak S (cached a.cell f hp).1 ∧
      Only S hp (cached a.cell f hp).1 := by
  unfold cached
  split
  · rename_i h hh
    exact ⟨(hg a ha h hh).symm, hg, fun _ _ => rfl⟩
  · obtain ⟨h1, h2, h3⟩ := hf
    refine ⟨h1, ?_, ?_⟩
    · simp only [h1]
      unfold store
      split
      · exact h2
      · rename_i h he
        intro b hb x hx
        simp only [Heap.put] at hx
        split at hx
        · rename_i hc
          simp only [Option.some.injEq] at hx
          subst hx
          rw [← he, hS.coh b a hb ha hc]
        · exact h2 b hb x hx
    · simp only [h1]
      unfold store
      split
      · exact h3
      · rename_i h he
        intro c hc
        simp only [Heap.put]
        rw [if_neg (fun h => hc a ha h.symm)]
        exact h3 c hc

theorem rlpA_spec (hS : Closed S) {a : A} (ha : S a) {hp : Heap} (hg : Good keccak S hp) :
    (rlpA keccak a hp).2 = enc keccak a.erase ∧ Good keccak S (rlpA keccak a hp).1 ∧
      Only S hp (rlpA keccak a hp).1 := by
  induction a generalizing hp with
  | empty => exact ⟨rfl, hg, fun _ _ => rfl⟩
  | hash => exact ⟨rfl, hg, fun _ _ => rfl⟩
  | leaf => exact ⟨rfl, hg, fun _ _ => rfl⟩
  | ext c n kid ih =>
    have hk : S kid := hS.sub _ _ ha (.ext (.refl _))
    obtain ⟨h1, h2, h3⟩ := cached_spec hS hk hg (ih hk hg)
    exact ⟨by simp only [rlpA, A.erase, enc, h1], h2, h3⟩
  | branch c kids v ih =>
    have hk : ∀ i, S (kids i) := fun i => hS.sub _ _ ha (.branch (.refl _))
    have key : ∀ (l : List Nib) (hp : Heap) (acc : Bytes), Good keccak S hp →
        let r := l.foldl (fun (acc : Heap × Bytes) i =>
          let r := cached (kids i).cell (rlpA keccak (kids i)) acc.1
          (r.1, acc.2 ++ r.2.item)) (hp, acc)
        r.2 = acc ++ (l.map (fun i => (enc keccak (kids i).erase).item)).flatten ∧
          Good keccak S r.1 ∧ Only S hp r.1 := by
      intro l
      induction l with
      | nil => intro hp acc hg; simpa using ⟨hg, fun _ _ => rfl⟩
      | cons i l ihl =>
        intro hp acc hg
        obtain ⟨h1, h2, h3⟩ := cached_spec hS (hk i) hg (ih i (hk i) hg)
        simp only [List.foldl_cons]
        obtain ⟨g1, g2, g3⟩ := ihl _ (acc ++ (enc keccak (kids i).erase).item) h2
        rw [h1]
        refine ⟨?_, g2, h3.trans g3⟩
        rw [g1]; simp
    obtain ⟨h1, h2, h3⟩ := key (List.finRange 16) hp [] hg
    refine ⟨?_, h2, h3⟩
    simp only [rlpA, A.erase, enc]
    rw [h1]; simp

theorem hashIntern_spec (hS : Closed S) {a : A} (ha : S a) {hp : Heap} (hg : Good keccak S hp) :
    (hashIntern keccak a hp).2 = enc keccak a.erase ∧ Good keccak S (hashIntern keccak a hp).1 ∧
      Only S hp (hashIntern keccak a hp).1 :=
  cached_spec hS ha hg (rlpA_spec hS ha hg)

theorem hashOp_spec (hS : Closed S) {a : A} (ha : S a) {hp : Heap} (hg : Good keccak S hp) :
    (hashOp keccak a hp).2 = rootHash keccak a.erase ∧ Good keccak S (hashOp keccak a hp).1 ∧
      Only S hp (hashOp keccak a hp).1 := by
  unfold hashOp
  split
  · rename_i h hh
    exact ⟨by simp [rootHash, hg a ha h hh], hg, fun _ _ => rfl⟩
  · obtain ⟨h1, h2, h3⟩ := rlpA_spec hS ha hg
    exact ⟨by simp only [h1, rootHash]; cases enc keccak a.erase <;> rfl, h2, h3⟩

theorem tryHash_spec (hS : Closed S) {a : A} (ha : S a) {hp : Heap} (hg : Good keccak S hp)
    (ks : List Key) :
    ∃ hp' o, tryHash keccak a ks hp = (hp', o) ∧ Good keccak S hp' ∧ Only S hp hp' ∧
      (∀ h, o = some h ↔ visits a.erase ks = false ∧ enc keccak a.erase = .hashed h) := by
  unfold tryHash
  split
  · rename_i hv
    exact ⟨_, _, rfl, hg, fun _ _ => rfl, by simp [hv]⟩
  · rename_i hv
    obtain ⟨h1, h2, h3⟩ := hashIntern_spec hS ha hg
    refine ⟨_, _, rfl, h2, h3, fun h => ?_⟩
    rw [h1]
    cases enc keccak a.erase <;> simp [hv]

theorem prune_some {keccak t ks h} (hv : visits t ks = false) (he : enc keccak t = .hashed h) :
    prune keccak false t ks = .hash h := by
  cases t with
  | empty => simp [enc] at he
  | hash => simpa [prune, enc] using he
  | _ => simp only [prune, hv, he, Bool.or_false]

theorem buildA_spec (hS : Closed S) {a : A} (ha : S a) {hp : Heap} (hg : Good keccak S hp)
    (ks : List Key) :
    (buildA keccak a ks hp).2 = prune keccak false a.erase ks ∧
      Good keccak S (buildA keccak a ks hp).1 ∧ Only S hp (buildA keccak a ks hp).1 := by
  induction a generalizing hp ks with
  | empty c =>
    obtain ⟨hp', o, h1, h2, h3, h4⟩ := tryHash_spec hS ha hg ks
    simp only [buildA, h1]
    cases o with
    | some h => exact absurd ((h4 h).1 rfl).2 (by simp [A.erase, enc])
    | none => exact ⟨rfl, h2, h3⟩
  | hash c h =>
    obtain ⟨hp', o, h1, h2, h3, h4⟩ := tryHash_spec hS ha hg ks
    simp only [buildA, h1]
    cases o with
    | some h => exact ⟨(prune_some ((h4 h).1 rfl).1 ((h4 h).1 rfl).2).symm, h2, h3⟩
    | none => exact ⟨rfl, h2, h3⟩
  | leaf c n v =>
    obtain ⟨hp', o, h1, h2, h3, h4⟩ := tryHash_spec hS ha hg ks
    simp only [buildA, h1]
    cases o with
    | some h => exact ⟨(prune_some ((h4 h).1 rfl).1 ((h4 h).1 rfl).2).symm, h2, h3⟩
    | none =>
      refine ⟨?_, h2, h3⟩
      simp only [A.erase, prune]
      split
      · rename_i x hv he
        have := (h4 x).2 ⟨by simpa [A.erase] using hv, he⟩
        simp at this
      · rfl
  | ext c n kid ih =>
    have hk : S kid := hS.sub _ _ ha (.ext (.refl _))
    obtain ⟨hp', o, h1, h2, h3, h4⟩ := tryHash_spec hS ha hg ks
    simp only [buildA, h1]
    cases o with
    | some h => exact ⟨(prune_some ((h4 h).1 rfl).1 ((h4 h).1 rfl).2).symm, h2, h3⟩
    | none =>
      obtain ⟨g1, g2, g3⟩ := ih hk h2 (stripExt n ks)
      refine ⟨?_, g2, h3.trans g3⟩
      simp only [A.erase, prune, g1]
      split
      · rename_i x hv he
        have := (h4 x).2 ⟨by simpa [A.erase] using hv, he⟩
        simp at this
      · rfl
  | branch c kids v ih =>
    have hk : ∀ i, S (kids i) := fun i => hS.sub _ _ ha (.branch (.refl _))
    have key : ∀ (l : List Nib) (hp : Heap) (acc : Nib → Node), Good keccak S hp →
        let r := l.foldl (fun (acc : Heap × (Nib → Node)) i =>
          let r := buildA keccak (kids i) (strip i ks) acc.1
          (r.1, upd acc.2 i r.2)) (hp, acc)
        (∀ i, r.2 i = if i ∈ l then prune keccak false (kids i).erase (strip i ks) else acc i) ∧
          Good keccak S r.1 ∧ Only S hp r.1 := by
      intro l
      induction l with
      | nil => intro hp acc hg; simpa using ⟨hg, fun _ _ => rfl⟩
      | cons j l ihl =>
        intro hp acc hg
        obtain ⟨h1, h2, h3⟩ := ih j (hk j) hg (strip j ks)
        simp only [List.foldl_cons]
        obtain ⟨g1, g2, g3⟩ := ihl _ (upd acc j (prune keccak false (kids j).erase (strip j ks))) h2
        rw [h1]
        refine ⟨?_, g2, h3.trans g3⟩
        intro i
        rw [g1]
        by_cases hi : i ∈ l
        · simp [hi]
        · by_cases hj : i = j
          · subst hj; simp [hi]
          · simp [hi, hj, upd_ne _ _ _ _ hj]
    obtain ⟨hp', o, h1, h2, h3, h4⟩ := tryHash_spec hS ha hg ks
    simp only [buildA, h1]
    cases o with
    | some h => exact ⟨(prune_some ((h4 h).1 rfl).1 ((h4 h).1 rfl).2).symm, h2, h3⟩
    | none =>
      obtain ⟨g1, g2, g3⟩ := key (List.finRange 16) hp' noChildren h2
      refine ⟨?_, g2, h3.trans g3⟩
      have g1 := funext g1
      simp only [List.mem_finRange, if_true] at g1
      simp only [A.erase, prune, g1]
      split
      · rename_i x hv he
        have := (h4 x).2 ⟨by simpa [A.erase] using hv, he⟩
        simp at this
      · rfl

end

/-- Nodes of live handles. -/
def Live (s : St) (b : A) : Prop := ∃ i a, s.handles i = some a ∧ SubA b a

structure Inv (keccak : Bytes → H256) (s : St) : Prop where
  good : Good keccak (Live s) s.heap
  coh : ∀ a b, Live s a → Live s b → a.cell = b.cell → a.erase = b.erase
  excl : ∀ i a j b c, s.handles i = some a → s.handles j = some b → Below c b → c.cell ≠ a.cell
  lt : ∀ a, Live s a → a.cell < s.next
  free : ∀ c, s.next ≤ c → s.heap c = none

theorem SubA.trans {a b c} (h : SubA a b) (h' : SubA b c) : SubA a c := by
  induction h' with
  | refl => exact h
  | branch _ ih => exact .branch ih
  | ext _ ih => exact .ext ih

theorem SubA.cases {a b} (h : SubA a b) : a = b ∨ Below a b := by
  cases h with
  | refl => exact .inl rfl
  | branch h => exact .inr (.branch h)
  | ext h => exact .inr (.ext h)

theorem Below.sub {a b} (h : Below a b) : SubA a b := by
  cases h with
  | branch h => exact .branch h
  | ext h => exact .ext h

theorem Below.trans {a b c} (h : Below a b) (h' : SubA b c) : Below a c := by
  rcases h'.cases with rfl | hb
  · exact h
  · cases hb with
    | branch hx => exact .branch (h.sub.trans hx)
    | ext hx => exact .ext (h.sub.trans hx)

theorem Below.irrefl {a b} (h : Below a b) : a ≠ b := by
  intro he
  subst he
  induction a with
  | empty => cases h
  | hash => cases h
  | leaf => cases h
  | branch c k v ih =>
    cases h with
    | @branch _ _ _ i h => exact ih i ((Below.branch (i := i) (.refl _)).trans h)
  | ext c n k ih =>
    cases h with
    | ext h => exact ih ((Below.ext (.refl _)).trans h)

theorem Inv.closed {keccak s} (h : Inv keccak s) : Closed (Live s) :=
  ⟨fun _ _ ⟨i, c, hc, hs⟩ hb => ⟨i, c, hc, hb.trans hs⟩, h.coh⟩

/-- Changing the heap only on live cells, keeping it good. -/
theorem Inv.heap {keccak s hp} (h : Inv keccak s) (hg : Good keccak (Live s) hp)
    (ho : Only (Live s) s.heap hp) : Inv keccak ⟨hp, s.next, s.handles⟩ :=
  ⟨hg, h.coh, h.excl, h.lt, fun c hc => by
    simp only at hc ⊢
    rw [ho c (fun b hb hbc => by have := h.lt b hb; omega)]; exact h.free c hc⟩

/-- Adding a fresh handle. -/
theorem Inv.fresh {keccak s j r next'} (h : Inv keccak s) (_hj : s.handles j = none)
    (hf : Fresh s.next r next') : Inv keccak ⟨s.heap, next', s.setHandle j r⟩ := by
  have hle : s.next ≤ next' := by have := hf.cells r (.refl _); omega
  have hl : ∀ b, Live ⟨s.heap, next', s.setHandle j r⟩ b → Live s b ∨ SubA b r := by
    rintro b ⟨i, a, ha, hb⟩
    simp only [St.setHandle] at ha
    split at ha
    · simp only [Option.some.injEq] at ha; subst ha; exact .inr hb
    · exact .inl ⟨i, a, ha, hb⟩
  refine ⟨?_, ?_, ?_, ?_, ?_⟩
  · intro b hb x hx
    rcases hl b hb with hb | hb
    · exact h.good b hb x hx
    · have := h.free b.cell (hf.cells b hb).1
      rw [this] at hx; simp at hx
  · intro a b ha hb hc
    rcases hl a ha with ha | ha <;> rcases hl b hb with hb | hb
    · exact h.coh a b ha hb hc
    · have := h.lt a ha; have := (hf.cells b hb).1; omega
    · have := h.lt b hb; have := (hf.cells a ha).1; omega
    · rw [hf.inj a b ha hb hc]
  · intro i a k b c ha hb hcb hce
    simp only [St.setHandle] at ha hb
    split at ha <;> split at hb
    · simp only [Option.some.injEq] at ha hb
      subst ha; subst hb
      have := hf.inj c r hcb.sub (.refl _) hce
      subst this
      -- a node is not below itself
      exact hcb.irrefl rfl
    · simp only [Option.some.injEq] at ha
      subst ha
      have h1 := h.lt c ⟨k, b, hb, hcb.sub⟩
      have h2 := (hf.cells r (.refl _)).1
      omega
    · simp only [Option.some.injEq] at hb
      subst hb
      have h1 := h.lt a ⟨i, a, ha, .refl _⟩
      have h2 := (hf.cells c hcb.sub).1
      omega
    · exact h.excl i a k b c ha hb hcb hce
  · intro a ha
    rcases hl a ha with ha | ha
    · have := h.lt a ha; simp only; omega
    · exact (hf.cells a ha).2
  · intro c hc
    exact h.free c (by simp only at hc; omega)

/-- Modifying an unaliased handle and resetting its cell. -/
theorem Inv.modify {keccak s i a a' next'} (h : Inv keccak s) (hu : Unaliased s i)
    (hi : s.handles i = some a) (hr : Rebuilt s.next a a' next') :
    Inv keccak ⟨s.heap.put a.cell none, next', s.setHandle i a'⟩ := by
  have hla : Live s a := ⟨i, a, hi, .refl _⟩
  have hl : ∀ b, Live ⟨s.heap.put a.cell none, next', s.setHandle i a'⟩ b →
      b = a' ∨ (Live s b ∧ b.cell ≠ a.cell) ∨
      (Below b a' ∧ s.next ≤ b.cell ∧ b.cell < next') := by
    rintro b ⟨j, c, hc, hb⟩
    simp only [St.setHandle] at hc
    split at hc
    · simp only [Option.some.injEq] at hc
      subst hc
      rcases hb.cases with rfl | hb
      · exact .inl rfl
      · rcases hr.below b hb with hb' | hb'
        · exact .inr (.inl ⟨⟨i, a, hi, hb'.sub⟩, h.excl i a i a b hi hi hb'⟩)
        · exact .inr (.inr ⟨hb, hb'⟩)
    · rename_i hji
      refine .inr (.inl ⟨⟨j, c, hc, hb⟩, ?_⟩)
      rcases hb.cases with rfl | hb
      · exact fun he => hji (hu j a b hi hc he.symm)
      · exact h.excl i a j c b hi hc hb
  have hac : a.cell < s.next := h.lt a hla
  refine ⟨?_, ?_, ?_, ?_, ?_⟩
  · intro b hb x hx
    simp only [Heap.put] at hx
    rcases hl b hb with rfl | ⟨hb, hne⟩ | ⟨hb, hge, hlt⟩
    · rw [hr.cell] at hx; simp at hx
    · rw [if_neg hne] at hx; exact h.good b hb x hx
    · rw [if_neg (by omega), h.free _ hge] at hx; simp at hx
  · intro x y hx hy hc
    rcases hl x hx with rfl | ⟨hx, hnx⟩ | ⟨hx, hgx, hlx⟩ <;>
      rcases hl y hy with rfl | ⟨hy, hny⟩ | ⟨hy, hgy, hly⟩
    · rfl
    · rw [hr.cell] at hc; exact absurd hc.symm hny
    · rw [hr.cell] at hc; omega
    · rw [hr.cell] at hc; exact absurd hc hnx
    · exact h.coh x y hx hy hc
    · have := h.lt x hx; omega
    · rw [hr.cell] at hc; omega
    · have := h.lt y hy; omega
    · rw [hr.inj x y hx hy hgx hc]
  · intro j b k d c hb hd hcd hce
    have hdl : Live ⟨s.heap.put a.cell none, next', s.setHandle i a'⟩ c := ⟨k, d, hd, hcd.sub⟩
    simp only [St.setHandle] at hb hd
    -- cell of root `b`
    have hbc : (j = i ∧ b.cell = a.cell) ∨ (s.handles j = some b ∧ b.cell ≠ a.cell) := by
      split at hb
      · simp only [Option.some.injEq] at hb; subst hb
        rename_i hj; exact .inl ⟨hj, hr.cell⟩
      · rename_i hj
        exact .inr ⟨hb, fun he => hj (hu j a b hi hb he.symm)⟩
    split at hd
    · simp only [Option.some.injEq] at hd
      subst hd
      rcases hr.below c hcd with hca | ⟨hge, -⟩
      · rcases hbc with ⟨-, hbc⟩ | ⟨hb', -⟩
        · exact h.excl i a i a c hi hi hca (hce.trans hbc)
        · exact h.excl j b i a c hb' hi hca hce
      · rcases hbc with ⟨-, hbc⟩ | ⟨hb', -⟩
        · omega
        · have := h.lt b ⟨j, b, hb', .refl _⟩; omega
    · rcases hbc with ⟨-, hbc⟩ | ⟨hb', -⟩
      · exact h.excl i a k d c hi hd hcd (hce.trans hbc)
      · exact h.excl j b k d c hb' hd hcd hce
  · intro b hb
    simp only
    have := hr.le
    rcases hl b hb with rfl | ⟨hb, hne⟩ | ⟨hb, hge, hlt⟩
    · rw [hr.cell]; omega
    · have := h.lt b hb; omega
    · exact hlt
  · intro c hc
    simp only at hc
    have := hr.le
    simp only [Heap.put]
    split
    · rfl
    · exact h.free c (by omega)

theorem Inv.step {keccak s s'} (h : Inv keccak s) (hs : SafeStep keccak s s') : Inv keccak s' := by
  cases hs with
  | insertOk i a a' k e next' hu h1 h2 h3 => exact h.modify hu h1 h3
  | extendOk i a a' l next' hu h1 h2 h3 => exact h.modify hu h1 h3
  | deleteOk i a a' k st r next' hu h1 h2 h3 => exact h.modify hu h1 h3
  | create i a next' h1 h2 => exact h.fresh h1 h2
  | insertErr => exact h
  | deleteErr i a k st f h1 h2 =>
    refine h.heap ?_ ?_
    · intro b hb x hx
      simp only [Heap.put] at hx
      split at hx
      · simp at hx
      · exact h.good b hb x hx
    · intro c hc
      simp only [Heap.put]
      rw [if_neg (fun he => hc a ⟨i, a, h1, .refl _⟩ he.symm)]
  | hash i a h1 =>
    obtain ⟨-, h2, h3⟩ := hashOp_spec h.closed ⟨i, a, h1, .refl _⟩ h.good
    exact h.heap h2 h3
  | clone i j a h1 h2 =>
    have hl : ∀ b, Live ⟨s.heap, s.next, s.setHandle j a⟩ b → Live s b := by
      rintro b ⟨k, c, hc, hb⟩
      simp only [St.setHandle] at hc
      split at hc
      · simp only [Option.some.injEq] at hc; subst hc; exact ⟨i, a, h1, hb⟩
      · exact ⟨k, c, hc, hb⟩
    have hroot : ∀ k b, (s.setHandle j a) k = some b → ∃ k', s.handles k' = some b := by
      intro k b hb
      simp only [St.setHandle] at hb
      split at hb
      · simp only [Option.some.injEq] at hb; subst hb; exact ⟨i, h1⟩
      · exact ⟨k, hb⟩
    refine ⟨fun b hb => h.good b (hl b hb), fun x y hx hy => h.coh x y (hl x hx) (hl y hy), ?_,
      fun x hx => h.lt x (hl x hx), h.free⟩
    intro k b k' b' c hb hb' hc
    obtain ⟨k1, h1⟩ := hroot k b hb
    obtain ⟨k2, h2⟩ := hroot k' b' hb'
    exact h.excl k1 b k2 b' c h1 h2 hc
  | subset i j a r ks next' h1 h2 h3 h4 h5 =>
    obtain ⟨-, g2, g3⟩ := buildA_spec h.closed ⟨i, a, h1, .refl _⟩ h.good ks
    exact (h.heap g2 g3).fresh h2 h5
  | drop i =>
    have hroot : ∀ k b, (if k = i then none else s.handles k) = some b → s.handles k = some b := by
      intro k b hb; split at hb
      · simp at hb
      · exact hb
    have hl : ∀ b, Live ⟨s.heap, s.next, fun j => if j = i then none else s.handles j⟩ b → Live s b
      := fun b ⟨k, c, hc, hb⟩ => ⟨k, c, hroot k c hc, hb⟩
    exact ⟨fun b hb => h.good b (hl b hb), fun x y hx hy => h.coh x y (hl x hx) (hl y hy),
      fun k b k' b' c hb hb' => h.excl k b k' b' c (hroot _ _ hb) (hroot _ _ hb'),
      fun x hx => h.lt x (hl x hx), h.free⟩

theorem Inv.init (keccak) : Inv keccak .init :=
  ⟨fun _ ⟨_, _, h, _⟩ => by simp [St.init] at h, fun _ _ ⟨_, _, h, _⟩ => by simp [St.init] at h,
    fun _ _ _ _ _ h => by simp [St.init] at h, fun _ ⟨_, _, h, _⟩ => by simp [St.init] at h,
    fun _ _ => rfl⟩

theorem SafeReach.inv {keccak s} (h : SafeReach keccak s) : Inv keccak s := by
  induction h with
  | init => exact .init _
  | step _ hs ih => exact ih.step hs

end Verif.Mpt
