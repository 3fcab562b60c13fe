/-!
# The block cache of the RPC provider (`zero/src/provider.rs`) (C69)
-/
namespace Verif.Zero.Provider

/-! ## Model -/

section
variable {Hash Body : Type} [DecidableEq Hash]

/-- A block as far as the cache looks at it: number, hash, and the rest (which depends on the kind of request). -/
structure Block (Hash Body : Type) where
  number : Nat
  hash : Hash
  body : Body

/-- `BlockId`: a hash, a number, or a tag such as `latest`. -/
inductive Id (Hash : Type) where
  | hash (h : Hash)
  | number (n : Nat)
  | tag (t : Nat)

/-- An LRU cache: entries, the most recently used first, at most `cap`. -/
abbrev Lru (κ α : Type) := List (κ × α)

/-- `LruCache::get`: a found entry becomes the most recent one. -/
def Lru.get {κ α : Type} [DecidableEq κ] (l : Lru κ α) (k : κ) : Option α × Lru κ α :=
  match l.lookup k with
  | some v => (some v, (k, v) :: l.filter (fun x => x.1 ≠ k))
  | none => (none, l)

/-- `LruCache::put`: the least recent entry is dropped if there is no room. -/
def Lru.put {κ α : Type} [DecidableEq κ] (cap : Nat) (l : Lru κ α) (k : κ) (v : α) : Lru κ α :=
  ((k, v) :: l.filter (fun x => x.1 ≠ k)).take cap

/-- The two caches of `CachedProvider`. `zero/src/provider.rs:28-39`. -/
structure Cache (Hash Body : Type) where
  byNumber : Lru Nat (Block Hash Body)
  byHash : Lru Hash Nat

/-- The lookup of `get_block`. `zero/src/provider.rs:94-113`. -/
def lookup (c : Cache Hash Body) : Id Hash → Option (Block Hash Body) × Cache Hash Body
  | .hash h =>
    match c.byHash.get h with
    | (some n, bh) =>
      match c.byNumber.get n with
      | (r, bn) => (r, ⟨bn, bh⟩)
    | (none, bh) => (none, { c with byHash := bh })
  | .number n =>
    match c.byNumber.get n with
    | (r, bn) => (r, { c with byNumber := bn })
  | .tag _ => (none, c)

/-- `CachedProvider::get_block`; `node` is the answer of the node for the kind of request (with or without transactions).
`CACHE_SIZE` is `cap`. `zero/src/provider.rs:13, 89-134`. -/
def getBlock {Kind : Type} (cap : Nat) (node : Id Hash → Kind → Option (Block Hash Body)) (c : Cache Hash Body) (id : Id Hash) (kind : Kind) :
    Option (Block Hash Body) × Cache Hash Body :=
  match lookup c id with
  | (some b, c) => (some b, c)
  | (none, c) =>
    match node id kind with
    | none => (none, c)
    | some b => (some b, ⟨c.byNumber.put cap b.number b, c.byHash.put cap b.hash b.number⟩)

/-- A sequence of requests to a node whose answers do not change. -/
def requests {Kind : Type} (cap : Nat) (node : Id Hash → Kind → Option (Block Hash Body)) :
    Cache Hash Body → List (Id Hash × Kind) → Cache Hash Body
  | c, [] => c
  | c, (i, k) :: l => requests cap node (getBlock cap node c i k).2 l

/-! ## Specification -/

/-- The node's answers are about what was asked. -/
def Answers {Kind : Type} (node : Id Hash → Kind → Option (Block Hash Body)) : Prop :=
  (∀ h k b, node (.hash h) k = some b → b.hash = h) ∧ (∀ n k b, node (.number n) k = some b → b.number = n)

/-- The node has one block for each number (no competing blocks), and all requests give the same contents. -/
def OneChain {Kind : Type} (node : Id Hash → Kind → Option (Block Hash Body)) : Prop :=
  ∀ i k b, node i k = some b → ∀ k', node (.number b.number) k' = some b ∧ node (.hash b.hash) k' = some b

/-- C69, in full: the cache does not change the answers of the node. -/
def C69_statement : Prop :=
  ∀ (Hash Body Kind : Type) [DecidableEq Hash] (cap : Nat) (node : Id Hash → Kind → Option (Block Hash Body)), Answers node →
    ∀ (l : List (Id Hash × Kind)) (i : Id Hash) (k : Kind), (getBlock cap node (requests cap node ⟨[], []⟩ l) i k).1 = node i k

/-! ## Proofs -/

/-- Everything in the cache is an answer of the node. -/
def Good {Kind : Type} (node : Id Hash → Kind → Option (Block Hash Body)) (c : Cache Hash Body) : Prop :=
  (∀ n b, (n, b) ∈ c.byNumber → b.number = n ∧ ∀ k, node (.number n) k = some b ∧ node (.hash b.hash) k = some b) ∧
  (∀ h n, (h, n) ∈ c.byHash → ∃ b, b.number = n ∧ b.hash = h ∧ ∀ k, node (.hash h) k = some b ∧ node (.number n) k = some b)

theorem mem_get {κ α : Type} [DecidableEq κ] {l : Lru κ α} {k : κ} {x : κ × α} (h : x ∈ (l.get k).2) : x ∈ l := by
  unfold Lru.get at h
  split at h
  · rename_i v hv
    rcases List.mem_cons.1 h with rfl | h
    · obtain ⟨l1, l2, rfl, _⟩ := List.lookup_eq_some_iff.1 hv
      simp
    · exact (List.mem_filter.1 h).1
  · exact h

theorem get_some {κ α : Type} [DecidableEq κ] {l : Lru κ α} {k : κ} {v : α} (h : (l.get k).1 = some v) : (k, v) ∈ l := by
  unfold Lru.get at h
  split at h
  · rename_i v' hv
    cases h
    obtain ⟨l1, l2, rfl, _⟩ := List.lookup_eq_some_iff.1 hv
    simp
  · cases h

theorem mem_put {κ α : Type} [DecidableEq κ] {cap : Nat} {l : Lru κ α} {k : κ} {v : α} {x : κ × α} (h : x ∈ l.put cap k v) : x = (k, v) ∨ x ∈ l := by
  unfold Lru.put at h
  rcases List.mem_cons.1 (List.mem_of_mem_take h) with h | h
  · exact .inl h
  · exact .inr (List.mem_filter.1 h).1

theorem lookup_good {Kind : Type} {node : Id Hash → Kind → Option (Block Hash Body)} {c : Cache Hash Body} (hg : Good node c) (i : Id Hash) :
    Good node (lookup c i).2 ∧ ∀ b, (lookup c i).1 = some b → ∀ k, node i k = some b := by
  cases i with
  | tag t => exact ⟨hg, fun b h => by cases h⟩
  | number n =>
    refine ⟨⟨fun m b h => hg.1 m b (mem_get h), hg.2⟩, fun b h k => ?_⟩
    exact ((hg.1 n b (get_some h)).2 k).1
  | hash h =>
    simp only [lookup]
    cases e : (c.byHash.get h) with
    | mk r bh =>
      have hbh : ∀ x, x ∈ bh → x ∈ c.byHash := fun x hx => mem_get (k := h) (by rw [e]; exact hx)
      cases r with
      | none => exact ⟨⟨hg.1, fun x n hx => hg.2 x n (hbh _ hx)⟩, fun b hb => by cases hb⟩
      | some n =>
        refine ⟨⟨fun m b hb => hg.1 m b (mem_get hb), fun x n hx => hg.2 x n (hbh _ hx)⟩, fun b hb k => ?_⟩
        have h1 := hg.1 n b (get_some hb)
        obtain ⟨b', h2, h3, h4⟩ := hg.2 h n (get_some (by rw [e]))
        have e1 := (h1.2 k).1
        rw [(h4 k).2] at e1
        cases e1
        exact (h4 k).1

theorem getBlock_good {Kind : Type} {cap : Nat} {node : Id Hash → Kind → Option (Block Hash Body)} (hn : OneChain node)
    {c : Cache Hash Body} (hg : Good node c) (i : Id Hash) (k : Kind) :
    Good node (getBlock cap node c i k).2 ∧ (getBlock cap node c i k).1 = node i k := by
  have hl := lookup_good hg i
  unfold getBlock
  cases e : lookup c i with
  | mk r c' =>
    rw [e] at hl
    cases r with
    | some b => exact ⟨hl.1, (hl.2 b rfl k).symm⟩
    | none =>
      simp only
      cases hb : node i k with
      | none => exact ⟨hl.1, rfl⟩
      | some b =>
        refine ⟨⟨?_, ?_⟩, rfl⟩
        · intro n x hx
          rcases mem_put hx with hx | hx
          · cases hx
            exact ⟨rfl, fun k' => hn i k b hb k'⟩
          · exact hl.1.1 n x hx
        · intro h n hx
          rcases mem_put hx with hx | hx
          · cases hx
            exact ⟨b, rfl, rfl, fun k' => ⟨(hn i k b hb k').2, (hn i k b hb k').1⟩⟩
          · exact hl.1.2 h n hx

/-- **C69 (partial: one block for each number, answers that do not depend on the kind).** After any sequence of requests
the cache gives the answer of the node. -/
theorem C69_cache_partial {Kind : Type} (cap : Nat) {node : Id Hash → Kind → Option (Block Hash Body)} (hn : OneChain node)
    (l : List (Id Hash × Kind)) (i : Id Hash) (k : Kind) : (getBlock cap node (requests cap node ⟨[], []⟩ l) i k).1 = node i k := by
  have : ∀ (l : List (Id Hash × Kind)) (c : Cache Hash Body), Good node c → Good node (requests cap node c l) := by
    intro l
    induction l with
    | nil => exact fun _ h => h
    | cons x l ih => exact fun c h => ih _ (getBlock_good hn h x.1 x.2).1
  exact (getBlock_good hn (this l _ ⟨fun _ _ h => (by cases h), fun _ _ h => (by cases h)⟩) i k).2

/-- The hypothesis holds for a chain of three blocks. -/
example : OneChain (fun (i : Id Nat) (_ : Unit) => match i with
    | .hash h => if 10 ≤ h ∧ h < 13 then some ⟨h - 10, h, ()⟩ else none
    | .number n => if n < 3 then some ⟨n, n + 10, ()⟩ else none
    | .tag _ => some (⟨2, 12, ()⟩ : Block Nat Unit)) := by
  intro i k b h k'
  cases i with
  | hash h =>
    simp only at h
    split at h
    · cases h
      simp only
      constructor
      · rw [if_pos (by omega)]; congr 2; omega
      · rw [if_pos (by omega)]
    · cases h
  | number n =>
    simp only at h
    split at h
    · cases h
      simp only
      constructor
      · rw [if_pos (by omega)]
      · rw [if_pos (by omega)]; rfl
    · cases h
  | tag t =>
    cases h
    exact ⟨rfl, rfl⟩

end

/-- A node with two competing blocks 7 (hashes 1 and 2); hash 1 is on the main chain. -/
def forked (i : Id Nat) (_ : Unit) : Option (Block Nat Unit) :=
  match i with
  | .hash 1 => some ⟨7, 1, ()⟩
  | .hash 2 => some ⟨7, 2, ()⟩
  | .number 7 => some ⟨7, 1, ()⟩
  | _ => none

/-- **C69 is violated.** After asking for two competing blocks by their hashes, asking for the first again gives the second. -/
theorem C69_violated : ¬ C69_statement := by
  intro h
  have hs := h Nat Unit Unit 1024 forked
    ⟨by
      intro h k b e
      unfold forked at e
      split at e <;> simp_all <;> rw [← e],
     by
      intro n k b e
      unfold forked at e
      split at e <;> simp_all
      rw [← e]⟩ [(.hash 1, ()), (.hash 2, ())] (.hash 1) ()
  have e1 : (getBlock 1024 forked (requests 1024 forked ⟨[], []⟩ [(.hash 1, ()), (.hash 2, ())]) (.hash 1) ()).1 = some ⟨7, 2, ()⟩ := rfl
  rw [e1] at hs
  simp [forked] at hs

/-- **C69 is violated.** A block fetched without its transactions is returned to a later request that asks for them. -/
theorem C69_violated_kind : ∃ (node : Id Nat → Bool → Option (Block Nat Bool)),
    (∀ i k b, node i k = some b → ∀ k', node (.number b.number) k' = some ⟨b.number, b.hash, k'⟩) ∧
    (getBlock 1024 node (requests 1024 node ⟨[], []⟩ [(.number 7, false)]) (.number 7) true).1 ≠ node (.number 7) true := by
  refine ⟨fun i k => match i with
    | .number 7 => some ⟨7, 1, k⟩
    | _ => none, ?_, ?_⟩
  · intro i k b h k'
    simp only at h
    split at h
    · cases h; rfl
    · cases h
  · have e1 : ∀ node : Id Nat → Bool → Option (Block Nat Bool), node = (fun i k => match i with
      | .number 7 => some ⟨7, 1, k⟩
      | _ => none) → (getBlock 1024 node (requests 1024 node ⟨[], []⟩ [(.number 7, false)]) (.number 7) true).1 = some ⟨7, 1, false⟩ := by
      rintro node rfl; rfl
    rw [e1 _ rfl]
    simp

end Verif.Zero.Provider
