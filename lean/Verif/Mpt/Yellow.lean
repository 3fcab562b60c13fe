import Verif.Mpt.Mask
/-!
# C49: the root hash is the one of the Ethereum Yellow Paper

The specification below is a transcription of Appendices B (RLP), C (hex prefix) and D (modified
Merkle Patricia tree) of the Yellow Paper.  It speaks of the *map*, not of a tree, and uses no
definition of the model except `beBytes` (minimal big-endian bytes, `BE` of Appendix B).
-/
namespace Verif.Yellow
open Verif.Mpt (Key Bytes Map Nib)

/-- `R_b`, Yellow Paper (181). -/
def rlpBytes (x : Bytes) : Bytes :=
  if x.length = 1 ∧ (∀ b ∈ x, b.toNat < 128) then x
  else if x.length < 56 then UInt8.ofNat (128 + x.length) :: x
  else UInt8.ofNat (183 + (Rlp.beBytes x.length).length) :: (Rlp.beBytes x.length ++ x)

/-- `R_l`, Yellow Paper (184), of already encoded items. -/
def rlpList (items : List Bytes) : Bytes :=
  let s := items.flatten
  if s.length < 56 then UInt8.ofNat (192 + s.length) :: s
  else UInt8.ofNat (247 + (Rlp.beBytes s.length).length) :: (Rlp.beBytes s.length ++ s)

/-- Pairs of nibbles to bytes. -/
def bytesOfNibs : List Nat → Bytes
  | x :: y :: l => UInt8.ofNat (16 * x + y) :: bytesOfNibs l
  | _ => []

/-- `HP`, Yellow Paper (186): the nibble sequence with a flag nibble, and a zero nibble if needed for
an even total. -/
def hp (x : Key) (t : Bool) : Bytes :=
  let f := if t then 2 else 0
  if x.length % 2 = 0 then bytesOfNibs (f :: 0 :: x.map (·.val))
  else bytesOfNibs ((f + 1) :: x.map (·.val))

/-- The part of the map below prefix `p`. -/
def below (m : Map) (p : Key) : Map := fun k => m (p ++ k)

/-- `p` is the longest common prefix of the keys of `m`. -/
def IsLcp (m : Map) (p : Key) : Prop :=
  (∀ k, m k ≠ none → p <+: k) ∧ ∀ q, (∀ k, m k ≠ none → q <+: k) → q.length ≤ p.length

/-- The map has at least two keys. -/
def Two (m : Map) : Prop := ∃ k k', k ≠ k' ∧ m k ≠ none ∧ m k' ≠ none

mutual
/-- `c(J, i)`, Yellow Paper (196): the structural composition function. `Cap m b`: the node for the
map `m` is encoded as `b`. -/
inductive Cap (kec : Bytes → Bytes) : Map → Bytes → Prop
  | leaf {m} (k v) : (∀ k', m k' = if k' = k then some v else none) →
      Cap kec m (rlpList [rlpBytes (hp k true), rlpBytes v])
  | ext {m} (p r) : Two m → p ≠ [] → IsLcp m p → Ref kec (below m p) r →
      Cap kec m (rlpList [rlpBytes (hp p false), r])
  | branch {m} (r : Nib → Bytes) : Two m → IsLcp m [] → (∀ i, Ref kec (below m [i]) (r i)) →
      Cap kec m (rlpList ((List.finRange 16).map r ++ [rlpBytes ((m []).getD [])]))
/-- `n(J, i)`, Yellow Paper (195): the node cap function. -/
inductive Ref (kec : Bytes → Bytes) : Map → Bytes → Prop
  | empty {m} : (∀ k, m k = none) → Ref kec m (rlpBytes [])
  | inline {m b} : Cap kec m b → b.length < 32 → Ref kec m b
  | hashed {m b} : Cap kec m b → 32 ≤ b.length → Ref kec m (rlpBytes (kec b))
end

/-- `TRIE(J)`, Yellow Paper (194). For the empty map the hash of the empty string's RLP. -/
inductive Root (kec : Bytes → Bytes) (m : Map) : Bytes → Prop
  | empty : (∀ k, m k = none) → Root kec m (kec (rlpBytes []))
  | node {b} : Cap kec m b → Root kec m (kec b)

/-! ## The specification determines the root -/

theorem IsLcp.eq {m : Map} {p q} (hp : IsLcp m p) (hq : IsLcp m q) (h : Two m) : p = q := by
  obtain ⟨k, -, -, hk, -⟩ := h
  have hl := Nat.le_antisymm (hq.2 p hp.1) (hp.2 q hq.1)
  exact (List.prefix_of_prefix_length_le (hp.1 k hk) (hq.1 k hk) (Nat.le_of_eq hl)).eq_of_length hl

theorem not_two {m : Map} {k v} (h : ∀ k', m k' = if k' = k then some v else none) : ¬ Two m := by
  rintro ⟨a, b, hne, ha, hb⟩
  rw [h] at ha hb
  split at ha <;> split at hb <;> simp_all

theorem Cap.nonempty {kec m b} (h : Cap kec m b) : ¬ ∀ k, m k = none := by
  intro h0
  cases h with
  | leaf k v h => have := h k; simp [h0] at this
  | ext p r h _ _ _ => obtain ⟨k, -, -, hk, -⟩ := h; exact hk (h0 k)
  | branch r h _ _ => obtain ⟨k, -, -, hk, -⟩ := h; exact hk (h0 k)

theorem Cap.unique {kec m b} (h : Cap kec m b) : ∀ b', Cap kec m b' → b = b' := by
  refine Cap.rec (motive_1 := fun m b _ => ∀ b', Cap kec m b' → b = b')
    (motive_2 := fun m b _ => ∀ b', Ref kec m b' → b = b') ?_ ?_ ?_ ?_ ?_ ?_ h
  · intro m k v hm b' h'
    cases h' with
    | leaf k' v' hm' =>
      have h1 := hm' k
      rw [hm] at h1
      simp only [if_true] at h1
      split at h1
      · rename_i e; subst e; simp only [Option.some.injEq] at h1; rw [h1]
      · simp at h1
    | ext _ _ h _ _ _ => exact absurd h (not_two hm)
    | branch _ h _ _ => exact absurd h (not_two hm)
  · intro m p r h2 hp hl _ ih b' h'
    cases h' with
    | leaf k' v' hm' => exact absurd h2 (not_two hm')
    | ext p' r' _ _ hl' hr' =>
      have := hl.eq hl' h2
      subst this
      rw [ih _ hr']
    | branch _ _ hl' _ => exact absurd (hl.eq hl' h2) hp
  · intro m r h2 hl _ ih b' h'
    cases h' with
    | leaf k' v' hm' => exact absurd h2 (not_two hm')
    | ext p' r' _ hp hl' hr' => exact absurd (hl'.eq hl h2) hp
    | branch r' _ _ hr =>
      have : r = r' := funext (fun i => ih i _ (hr i))
      rw [this]
  · intro m hm b' h'
    cases h' with
    | empty => rfl
    | inline h _ => exact absurd hm h.nonempty
    | hashed h _ => exact absurd hm h.nonempty
  · intro m b hc hb ih b' h'
    cases h' with
    | empty h => exact absurd h hc.nonempty
    | inline h _ => exact ih _ h
    | hashed h hl => have := ih _ h; subst this; omega
  · intro m b hc hb ih b' h'
    cases h' with
    | empty h => exact absurd h hc.nonempty
    | inline h hl => have := ih _ h; subst this; omega
    | hashed h _ => rw [ih _ h]

/-- There is at most one root for a map. -/
theorem Root.unique {kec m b b'} (h : Root kec m b) (h' : Root kec m b') : b = b' := by
  cases h with
  | empty h =>
    cases h' with
    | empty => rfl
    | node h' => exact absurd h h'.nonempty
  | node h =>
    cases h' with
    | empty h' => exact absurd h' h.nonempty
    | node h' => rw [h.unique _ h']

/-! ## The model computes it -/

theorem rlpBytes_eq (x : Bytes) : Rlp.str x = rlpBytes x := by
  unfold Rlp.str rlpBytes Rlp.header
  split
  · rename_i b
    by_cases h : b.toNat < 128 <;> simp [h]
  · rename_i h
    have h1 : ¬ x.length = 1 := by
      intro hl
      match x, hl with
      | [b], _ => exact h b rfl
    simp only [h1, false_and, if_false]
    by_cases h2 : x.length < 56
    · rw [if_pos (by omega), if_pos h2]; rfl
    · rw [if_neg (by omega), if_neg h2]
      simp

theorem rlpList_eq (l : List Bytes) : Rlp.listOf l.flatten = rlpList l := by
  unfold Rlp.listOf rlpList Rlp.header
  simp only
  by_cases h2 : l.flatten.length < 56
  · rw [if_pos (by omega), if_pos h2]; rfl
  · rw [if_neg (by omega), if_neg h2]
    simp

theorem pack_eq (k : Key) : Mpt.pack k = bytesOfNibs (k.map (·.val)) := by
  induction k using Mpt.pack.induct with
  | case1 a b k ih => simp [Mpt.pack, bytesOfNibs, ih]
  | case2 k h =>
    match k, h with
    | [], _ => rfl
    | [a], _ => rfl
    | a :: b :: k, h => exact absurd rfl (h a b k)

theorem hp_eq (k : Key) (t : Bool) : Mpt.hexPrefix k t = hp k t := by
  unfold Mpt.hexPrefix hp
  by_cases h : k.length % 2 = 0
  · simp [h, bytesOfNibs, pack_eq]
  · simp only [h, if_false]
    match k with
    | [] => simp at h
    | a :: k => simp [bytesOfNibs, pack_eq]

open Verif.Mpt in
theorem cap_of_wf (keccak : Bytes → H256) {t : Node} (hw : WF t) (hne : t.isEmpty = false)
    {m : Map} (hm : ∀ k, lookup t k = (m k).map .val) :
    ∃ b, Cap (fun x => (keccak x).bytes) m b ∧ enc keccak t = hashIfLarge keccak b := by
  have refOf : ∀ {t : Node} {m : Map}, (∀ k, lookup t k = (m k).map .val) →
      (t.isEmpty = false → ∃ b, Cap (fun x => (keccak x).bytes) m b ∧ enc keccak t = hashIfLarge keccak b) →
      Ref (fun x => (keccak x).bytes) m (enc keccak t).item := by
    intro t m hm h
    cases hte : t.isEmpty with
    | true =>
      have : t = .empty := by cases t <;> simp_all [Node.isEmpty]
      subst this
      refine .empty (fun k => ?_)
      have := hm k
      cases hmk : m k <;> simp [lookup, hmk] at this ⊢
    | false =>
      obtain ⟨b, hb, he⟩ := h hte
      rw [he]
      unfold hashIfLarge
      split
      · rename_i hl
        simp only [Enc.item, rlpBytes_eq]
        exact .hashed hb hl
      · rename_i hl
        show Ref _ m b
        exact .inline hb (by omega)
  have keyOf : ∀ {t : Node} {m : Map}, WF t → t.isEmpty = false →
      (∀ k, lookup t k = (m k).map .val) → ∃ k, m k ≠ none := by
    intro t m hw hne hm
    obtain ⟨k, e, hk⟩ := exists_lookup hw hne
    refine ⟨k, fun h0 => ?_⟩
    rw [hm, h0] at hk; simp at hk
  induction t generalizing m with
  | empty => simp [Node.isEmpty] at hne
  | hash x =>
    have := hm []
    cases h : m [] <;> simp [lookup, h] at this
  | leaf n v =>
    refine ⟨_, .leaf n v (fun k' => ?_), ?_⟩
    · have := hm k'
      simp only [lookup] at this
      split at this <;> cases h : m k' <;> simp_all
    · simp only [enc, ← rlpBytes_eq, ← hp_eq, ← rlpList_eq]
      simp
  | branch c v ih =>
    obtain ⟨hv, hws, i, j, hij, hi, hj⟩ := hw
    have hmi : ∀ i k, lookup (c i) k = (below m [i] k).map .val := by
      intro i k
      have := hm (i :: k)
      simpa [lookup, below] using this
    obtain ⟨k1, hk1⟩ := keyOf (hws i) hi (hmi i)
    obtain ⟨k2, hk2⟩ := keyOf (hws j) hj (hmi j)
    have hnil : m [] = none := by
      have := hm []
      rw [lookup_branch_nil, hv] at this
      cases h : m [] <;> simp [h] at this ⊢
    have htwo : Two m := ⟨i :: k1, j :: k2, by simp [hij], hk1, hk2⟩
    have hl : IsLcp m [] := by
      refine ⟨fun _ _ => List.nil_prefix, fun q hq => ?_⟩
      have q1 := hq (i :: k1) hk1
      have q2 := hq (j :: k2) hk2
      cases q with
      | nil => simp
      | cons x q =>
        rw [List.cons_prefix_cons] at q1 q2
        exact absurd (q1.1.symm.trans q2.1) hij
    refine ⟨_, .branch (fun i => (enc keccak (c i)).item) htwo hl
      (fun i => refOf (hmi i) (fun h => ih i (hws i) h (hmi i))), ?_⟩
    simp only [enc, hnil, hv, Option.getD_none, ← rlpList_eq, ← rlpBytes_eq]
    simp
  | ext n c ih =>
    obtain ⟨hn, hcc, hwc⟩ := hw
    have hmc : ∀ k, lookup c k = (below m n k).map .val := by
      intro k
      have := hm (n ++ k)
      simpa [lookup_ext_append, below] using this
    have hpre : ∀ k, m k ≠ none → n <+: k := by
      intro k hk
      have := hm k
      simp only [lookup] at this
      split at this
      · assumption
      · cases h : m k <;> simp_all
    cases c with
    | hash x =>
      have := hmc []
      cases h : below m n [] <;> simp [lookup, h] at this
    | branch d w =>
      obtain ⟨hw', hws, i, j, hij, hi, hj⟩ := id hwc
      have hmi : ∀ i k, lookup (d i) k = (below m (n ++ [i]) k).map .val := by
        intro i k
        have := hmc (i :: k)
        simpa [lookup, below] using this
      obtain ⟨k1, hk1⟩ := keyOf (hws i) hi (hmi i)
      obtain ⟨k2, hk2⟩ := keyOf (hws j) hj (hmi j)
      have htwo : Two m := ⟨n ++ [i] ++ k1, n ++ [j] ++ k2, by simp [hij], hk1, hk2⟩
      have hl : IsLcp m n := by
        refine ⟨hpre, fun q hq => ?_⟩
        have q1 := hq (n ++ [i] ++ k1) hk1
        have q2 := hq (n ++ [j] ++ k2) hk2
        rcases Nat.le_total q.length n.length with h | h
        · exact h
        · have p1 : n <+: q :=
            List.prefix_of_prefix_length_le (by simp [List.append_assoc]) q1 h
          obtain ⟨r, rfl⟩ := p1
          cases r with
          | nil => simp
          | cons x r =>
            rw [List.append_assoc, List.prefix_append_right_inj] at q1 q2
            simp only [List.cons_append, List.nil_append, List.cons_prefix_cons] at q1 q2
            exact absurd (q1.1.symm.trans q2.1) hij
      refine ⟨_, .ext n (enc keccak (.branch d w)).item htwo hn hl
        (refOf hmc (fun h => ih hwc h hmc)), ?_⟩
      simp only [enc, ← rlpList_eq, ← rlpBytes_eq, ← hp_eq]
      simp
    | _ => simp [Node.isBranch, Node.isHash] at hcc

open Verif.Mpt in
theorem root_of_rel (keccak : Bytes → H256) {K t m} (h : Rel K t m) :
    Root (fun x => (keccak x).bytes) m (rootHash keccak t).bytes := by
  cases hte : t.isEmpty with
  | true =>
    have : t = .empty := by cases t <;> simp_all [Node.isEmpty]
    subst this
    refine .empty (fun k => ?_)
    have := h.look k
    cases hmk : m k <;> simp [lookup, hmk] at this ⊢
  | false =>
    obtain ⟨b, hb, he⟩ := cap_of_wf keccak h.wf hte h.look
    have : rootHash keccak t = keccak b := by
      unfold rootHash
      rw [he]
      unfold hashIfLarge
      split <;> rename_i h <;> split at h <;> simp_all
    rw [this]
    exact .node hb

open Verif.Mpt in
/-- **C49**. After any history of inserts and deletes over prefix-free keys of at most 64 nibbles the
root hash of the trie is the Yellow Paper's `TRIE` of the map the history describes (and this
determines the root, `Root.unique`). -/
theorem C49_yellow_paper_root (keccak : Bytes → H256) (s : Strategy) (K : Key → Prop)
    (hK : PrefixFree K) (hb : ∀ k, K k → k.length ≤ 64) (ops : List Op)
    (hops : ∀ op ∈ ops, K op.key) :
    ∃ t, run s ops = .ok t ∧
      ∀ r, Root (fun x => (keccak x).bytes) (specMap ops) r ↔ r = (rootHash keccak t).bytes := by
  obtain ⟨t, h1, h2⟩ := rel_run (s := s) hK hb hops
  have := root_of_rel keccak h2
  exact ⟨t, h1, fun r => ⟨fun h => h.unique this, fun h => h ▸ this⟩⟩

example : ∀ op ∈ [Mpt.Op.ins [1, 2] [7], .ins [1, 3] [8], .ins [4, 3] [9], .del [1, 2]],
    op.key.length = 2 := by decide

/-- A single entry: the root is the hash of the leaf's encoding, written out. -/
example (kec : Bytes → Bytes) :
    Root kec (fun k => if k = [1, 2] then some [7] else none)
      (kec [0xc4, 0x82, 0x20, 0x12, 0x07]) := by
  have : ([0xc4, 0x82, 0x20, 0x12, 0x07] : Bytes)
      = rlpList [rlpBytes (hp [1, 2] true), rlpBytes [7]] := by decide
  rw [this]
  exact .node (.leaf [1, 2] [7] (fun _ => rfl))

end Verif.Yellow
