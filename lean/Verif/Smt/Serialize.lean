import Verif.Smt.Build
/-!
# Serialization and pruning of the sparse Merkle tree (C22, C58)
-/
namespace Verif.Smt

/-! ## Model -/

/-- `key2u`, `hashout2u`. `smt_trie/src/utils.rs:51-53, 61-63`. -/
def key2u (k : Key) : U256 := BitVec.ofNat 256 (k.k0 + 2 ^ 64 * k.k1 + 2 ^ 128 * k.k2 + 2 ^ 192 * k.k3)

/-- `u2h`, `u2k`. `smt_trie/src/utils.rs:66-70, 73-75`. -/
def u2k (x : U256) : Key :=
  ⟨x.toNat % 2 ^ 64, x.toNat / 2 ^ 64 % 2 ^ 64, x.toNat / 2 ^ 128 % 2 ^ 64, x.toNat / 2 ^ 192 % 2 ^ 64⟩

/-- The prefixes of the keys' paths, longest first: `keys_to_include`. `smt_trie/src/smt.rs:419-428`. -/
def toInclude (keys : List Key) : List (List Bool) :=
  keys.flatMap (fun k => (List.range 257).map (fun i => k.split.take (256 - i)))

/-- `serialize`: the vector and the pointer. The first argument bounds the depth; `serializeAndPrune` starts with
257, and at depth 257 the path is not in `keys_to_include`, so that the first case is the code's hash node case.
`smt_trie/src/smt.rs:447-509`. -/
def serialize (db : Db) (inc : List (List Bool)) : Nat → Key → List U256 → List Bool → Except Fault (List U256 × Nat)
  | 0, key, v, _ => if key = .zero then .ok (v, 0) else .ok (v ++ [0, key2u key], v.length)
  | f + 1, key, v, cur =>
    if key = .zero then .ok (v, 0)
    else if cur ∉ inc then .ok (v ++ [0, key2u key], v.length)
    else
      match db.get key with
      | none => .ok (v ++ [0, key2u key], v.length)
      | some n =>
        if n = ⟨.zero, .zero, .zero⟩ then .error .panic
        else if n.isLeaf then
          match db.get n.r with
          | none => .error .unwrapNone
          | some a => .ok (v ++ [2, key2u n.l, limbs2f a], v.length)
        else
          match serialize db inc f n.l (v ++ [1, 0, 0]) (cur ++ [false]) with
          | .error e => .error e
          | .ok (w, i) =>
            match serialize db inc f n.r (w.set (v.length + 1) (BitVec.ofNat 256 i)) (cur ++ [true]) with
            | .error e => .error e
            | .ok (w, j) => .ok (w.set (v.length + 2) (BitVec.ofNat 256 j), v.length)

/-- `serialize_and_prune`. `smt_trie/src/smt.rs:415-438`. -/
def Smt.serializeAndPrune (s : Smt) (keys : List Key) : Except Fault (List U256) :=
  match serialize s.db (toInclude keys) 257 s.root [0, 0] [] with
  | .error e => .error e
  | .ok (v, _) => .ok (if v.length = 2 then v ++ [0, 0] else v)

section
variable (H : Nd → Key)

/-- `_hash_serialize`. The first argument bounds the depth of the recursion. `smt_trie/src/smt.rs:519-546`. -/
def hashSer : Nat → List U256 → Nat → Except Fault Key
  | 0, _, _ => .error .panic
  | f + 1, v, ptr =>
    match v[ptr]? with
    | none => .error .bounds
    | some t =>
      if t = 0 then
        match v[ptr + 1]? with
        | none => .error .bounds
        | some h => .ok (u2k h)
      else if t = 1 then
        match v[ptr + 1]?, v[ptr + 2]? with
        | some i, some j =>
          match hashSer f v (i.toNat % 2 ^ 64), hashSer f v (j.toNat % 2 ^ 64) with
          | .ok l, .ok r => .ok (H ⟨l, r, .zero⟩)
          | .error e, _ => .error e
          | _, .error e => .error e
        | _, _ => .error .bounds
      else if t = 2 then
        match v[ptr + 1]?, v[ptr + 2]? with
        | some k, some x => .ok (H ⟨u2k k, H (valNode x), .one⟩)
        | _, _ => .error .bounds
      else .error .panic

/-- `hash_serialize`. `smt_trie/src/smt.rs:511-513`. -/
def hashSerialize (fuel : Nat) (v : List U256) : Except Fault Key := hashSer H fuel v 2

end

/-! ## Specification of the format -/

/-- Looking up a key in a serialized tree, by the format documented at `smt_trie/src/smt.rs:404-414`: follow the
bits of the path through the internal nodes; a leaf answers if the rest of its key is the rest of the key; the
empty node answers 0; a hash node does not answer. -/
def lookupSer (v : List U256) (K : Key) : Nat → List Bool → Nat → Option U256
  | d, bs, ptr =>
    match v[ptr]? with
    | none => none
    | some t =>
      if t = 0 then (if v[ptr + 1]? = some 0 then some 0 else none)
      else if t = 1 then
        match bs, v[ptr + 1]?, v[ptr + 2]? with
        | b :: bs, some i, some j => lookupSer v K (d + 1) bs (if b then j.toNat else i.toNat)
        | _, _, _ => none
      else if t = 2 then
        match v[ptr + 1]?, v[ptr + 2]? with
        | some k, some x => if u2k k = K.removeBits d then some x else some 0
        | _, _ => none
      else none

/-! ## Proofs -/

theorem u2k_key2u {k : Key} (h : k.Valid) : u2k (key2u k) = k := by
  obtain ⟨a, b, c, d⟩ := k
  obtain ⟨h0, h1, h2, h3⟩ := h
  simp only at h0 h1 h2 h3
  unfold u2k key2u
  simp only [BitVec.toNat_ofNat]
  have e : (a + 2 ^ 64 * b + 2 ^ 128 * c + 2 ^ 192 * d) % 2 ^ 256 = a + 2 ^ 64 * b + 2 ^ 128 * c + 2 ^ 192 * d :=
    Nat.mod_eq_of_lt (by omega)
  rw [e]
  congr 1 <;> omega

theorem removeBits_valid {k : Key} (h : k.Valid) (n : Nat) : (k.removeBits n).Valid := by
  have : ∀ x m, x < 2 ^ 64 → shr64 x m < 2 ^ 64 := fun x m hx =>
    Nat.lt_of_le_of_lt (Nat.shiftRight_le _ _) hx
  exact ⟨this _ _ h.1, this _ _ h.2.1, this _ _ h.2.2.1, this _ _ h.2.2.2⟩

section
variable (H : Nd → Key)

/-- The tree with the subtrees off the included paths hashed out. -/
def prune (inc : List (List Bool)) : List Bool → T → T
  | _, .empty => .empty
  | p, .leaf K v => if p ∈ inc then .leaf K v else .hash (hashOf H p.length (.leaf K v))
  | p, .node l r => if p ∈ inc then .node (prune inc (p ++ [false]) l) (prune inc (p ++ [true]) r)
      else .hash (hashOf H p.length (.node l r))
  | _, .hash h => .hash h

variable {H}

theorem hashOf_prune {inc : List (List Bool)} {t : T} : ∀ {p : List Bool}, hashOf H p.length (prune H inc p t) = hashOf H p.length t := by
  induction t with
  | empty => intro p; rfl
  | hash h => intro p; rfl
  | leaf K v => intro p; rw [prune]; split <;> rfl
  | node l r ihl ihr =>
    intro p
    rw [prune]
    split
    · have el : ∀ b, (p ++ [b]).length = p.length + 1 := fun b => by simp
      have h1 := ihl (p := p ++ [false])
      have h2 := ihr (p := p ++ [true])
      rw [el] at h1 h2
      simp only [hashOf, h1, h2]
    · rfl

/-- The vector holds the tree at `ptr`, using only elements from `lo` on (and the empty node at 0). -/
def SerT (lo : Nat) (v : List U256) : Nat → T → Nat → Prop
  | _, .empty, ptr => ptr = 0
  | _, .hash h, ptr => lo ≤ ptr ∧ v[ptr]? = some 0 ∧ v[ptr + 1]? = some (key2u h)
  | d, .leaf K x, ptr => lo ≤ ptr ∧ v[ptr]? = some 2 ∧ v[ptr + 1]? = some (key2u (K.removeBits d)) ∧ v[ptr + 2]? = some x
  | d, .node l r, ptr => lo ≤ ptr ∧ v[ptr]? = some 1 ∧ ∃ i j, i < 2 ^ 64 ∧ j < 2 ^ 64 ∧
      v[ptr + 1]? = some (BitVec.ofNat 256 i) ∧ v[ptr + 2]? = some (BitVec.ofNat 256 j) ∧
      SerT lo v (d + 1) l i ∧ SerT lo v (d + 1) r j

theorem SerT.mono {lo lo' : Nat} {v w : List U256} (hlo : lo' ≤ lo) (h : ∀ i x, lo ≤ i → v[i]? = some x → w[i]? = some x) {t : T} :
    ∀ {d ptr}, SerT lo v d t ptr → SerT lo' w d t ptr := by
  induction t with
  | empty => intro d ptr hs; exact hs
  | hash h' => intro d ptr hs; exact ⟨by have := hs.1; omega, h _ _ hs.1 hs.2.1, h _ _ (by have := hs.1; omega) hs.2.2⟩
  | leaf K x =>
    intro d ptr hs
    have := hs.1
    exact ⟨by omega, h _ _ hs.1 hs.2.1, h _ _ (by omega) hs.2.2.1, h _ _ (by omega) hs.2.2.2⟩
  | node l r ihl ihr =>
    intro d ptr hs
    obtain ⟨h1, h2, i, j, h3, h4, h5, h6, h7, h8⟩ := hs
    exact ⟨by omega, h _ _ h1 h2, i, j, h3, h4, h _ _ (by omega) h5, h _ _ (by omega) h6, ihl h7, ihr h8⟩

theorem prefix_get {v w : List U256} (h : v <+: w) {i : Nat} {x : U256} (hx : v[i]? = some x) : w[i]? = some x := by
  obtain ⟨u, rfl⟩ := h
  obtain ⟨hi, -⟩ := List.getElem?_eq_some_iff.1 hx
  rw [List.getElem?_append_left hi]; exact hx

theorem leafNd_ne {d : Nat} {K : Key} {v : U256} : leafNd H d K v ≠ ⟨.zero, .zero, .zero⟩ := by
  intro h
  have := congrArg (fun n => n.c.k0) h
  simp [leafNd, Key.one, Key.zero] at this

/-- Writing behind a prefix keeps it. -/
theorem prefix_set {v w : List U256} (h : v <+: w) {i : Nat} (hi : v.length ≤ i) (x : U256) : v <+: w.set i x := by
  obtain ⟨u, rfl⟩ := h
  rw [List.set_append_right _ _ hi]
  exact List.prefix_append _ _

theorem serialize_spec {db : Db} (hc : NoColl db) {inc : List (List Bool)} (hinc : ∀ q, q ∈ inc → q.length ≤ 256) (f : Nat) :
    ∀ (t : T) (v : List U256) (cur : List Bool), t.WF cur → Stored H db cur.length t → (∀ h, t.HashIn h → db.get h = none) →
    f + cur.length = 257 → 2 ≤ v.length →
    ∃ w ptr, serialize db inc f (hashOf H cur.length t) v cur = .ok (w, ptr) ∧ v <+: w ∧ (t ≠ .empty → v.length + 1 < w.length) ∧
      (t ≠ .empty → ptr = v.length) ∧ (t = .empty → w = v) ∧
      (w.length < 2 ^ 64 → ptr < 2 ^ 64 ∧ SerT v.length w cur.length (prune H inc cur t) ptr) := by
  have hashCase : ∀ (t : T) (v : List U256) (cur : List Bool), t ≠ .empty → prune H inc cur t = .hash (hashOf H cur.length t) →
      ∃ w ptr, (.ok (v ++ [0, key2u (hashOf H cur.length t)], v.length) : Except Fault (List U256 × Nat)) = .ok (w, ptr) ∧ v <+: w ∧
        (t ≠ .empty → v.length + 1 < w.length) ∧ (t ≠ .empty → ptr = v.length) ∧ (t = .empty → w = v) ∧
        (w.length < 2 ^ 64 → ptr < 2 ^ 64 ∧ SerT v.length w cur.length (prune H inc cur t) ptr) := by
    intro t v cur hne hp
    refine ⟨_, _, rfl, List.prefix_append _ _, fun _ => by simp, fun _ => rfl, fun h => absurd h hne, fun hl => ⟨?_, ?_⟩⟩
    · simp at hl; omega
    · rw [hp]
      refine ⟨Nat.le_refl _, ?_, ?_⟩
      · rw [List.getElem?_append_right (Nat.le_refl _)]; simp
      · rw [List.getElem?_append_right (by omega)]; simp
  have emptyCase : ∀ (v : List U256) (cur : List Bool), ∃ w ptr, (.ok (v, 0) : Except Fault (List U256 × Nat)) = .ok (w, ptr) ∧ v <+: w ∧
        ((T.empty : T) ≠ .empty → v.length + 1 < w.length) ∧
        ((T.empty : T) ≠ .empty → ptr = v.length) ∧ ((T.empty : T) = .empty → w = v) ∧
        (w.length < 2 ^ 64 → ptr < 2 ^ 64 ∧ SerT v.length w cur.length (prune H inc cur .empty) ptr) := by
    intro v cur
    exact ⟨v, 0, rfl, List.prefix_refl _, fun h => absurd rfl h, fun h => absurd rfl h, fun _ => rfl, fun _ => ⟨by omega, rfl⟩⟩
  have notIn : ∀ (t : T) (cur : List Bool), t ≠ .empty → cur ∉ inc → prune H inc cur t = .hash (hashOf H cur.length t) := by
    intro t cur hne hni
    cases t with
    | empty => exact absurd rfl hne
    | hash h => rfl
    | leaf K v => rw [prune, if_neg hni]
    | node l r => rw [prune, if_neg hni]
  induction f with
  | zero =>
    intro t v cur hw hs hop hf hv
    rw [serialize]
    by_cases he : t = .empty
    · subst he
      have hz : hashOf H cur.length T.empty = Key.zero := rfl
      rw [hz, if_pos rfl]
      exact emptyCase v cur
    · rw [if_neg (hashOf_ne hc hs hw he)]
      exact hashCase t v cur he (notIn t cur he (fun h => by have := hinc _ h; omega))
  | succ f ih =>
    intro t v cur hw hs hop hf hv
    rw [serialize]
    by_cases he : t = .empty
    · subst he
      have hz : hashOf H cur.length T.empty = Key.zero := rfl
      rw [hz, if_pos rfl]
      exact emptyCase v cur
    rw [if_neg (hashOf_ne hc hs hw he)]
    by_cases hin : cur ∈ inc
    · rw [if_neg (by simpa using hin)]
      cases t with
      | empty => exact absurd rfl he
      | hash h =>
        have : db.get (hashOf H cur.length (.hash h)) = none := hop h rfl
        rw [this]
        exact hashCase _ v cur he rfl
      | leaf K x =>
        have : db.get (hashOf H cur.length (.leaf K x)) = some (leafNd H cur.length K x) := hc.get hs.1
        rw [this]
        have hr : db.get (leafNd H cur.length K x).r = some (valNode x) := hc.get hs.2
        have hleaf : (leafNd H cur.length K x).isLeaf = true := rfl
        simp only [leafNd_ne, if_false, hleaf, if_true, hr, limbs2f_valNode]
        refine ⟨_, _, rfl, List.prefix_append _ _, fun _ => by simp, fun _ => rfl, fun h => absurd h he, fun hl => ⟨?_, ?_⟩⟩
        · simp at hl; omega
        · rw [prune, if_pos hin]
          refine ⟨Nat.le_refl _, ?_, ?_, ?_⟩
          · rw [List.getElem?_append_right (Nat.le_refl _)]; simp
          · rw [List.getElem?_append_right (by omega)]; simp [leafNd]
          · rw [List.getElem?_append_right (by omega)]; simp
      | node l r =>
        have hg : db.get (hashOf H cur.length (.node l r)) =
            some ⟨hashOf H (cur.length + 1) l, hashOf H (cur.length + 1) r, .zero⟩ := hc.get hs.1
        rw [hg]
        have hnz : (⟨hashOf H (cur.length + 1) l, hashOf H (cur.length + 1) r, .zero⟩ : Nd) ≠ ⟨.zero, .zero, .zero⟩ := by
          intro h
          simp only [Nd.mk.injEq, and_true] at h
          have e1 := (hashOf_eq_zero hc hs.2.1 hw.2.1).1 h.1
          have e2 := (hashOf_eq_zero hc hs.2.2 hw.2.2.1).1 h.2
          exact hw.2.2.2.1 ⟨e1, by rw [e2]; trivial⟩
        have hleaf : (⟨hashOf H (cur.length + 1) l, hashOf H (cur.length + 1) r, .zero⟩ : Nd).isLeaf = false := rfl
        simp only [hnz, if_false, hleaf, Bool.false_eq_true]
        have el : ∀ b, (cur ++ [b]).length = cur.length + 1 := fun b => by simp
        obtain ⟨w1, i, a1, a2, a3, a4, a4', a5⟩ := ih l (v ++ [1, 0, 0]) (cur ++ [false]) hw.2.1 (by rw [el]; exact hs.2.1)
          (fun h hh => hop h (.inl hh)) (by rw [el]; omega) (by simp)
        rw [el] at a1 a5
        rw [a1]
        simp only
        have vl : (v ++ [1, 0, 0] : List U256).length = v.length + 3 := by simp
        have hw1 : v.length + 3 ≤ w1.length := by have := a2.length_le; omega
        obtain ⟨w2, j, b1, b2, b3, b4, b4', b5⟩ := ih r (w1.set (v.length + 1) (BitVec.ofNat 256 i)) (cur ++ [true]) hw.2.2.1
          (by rw [el]; exact hs.2.2) (fun h hh => hop h (.inr hh)) (by rw [el]; omega) (by rw [List.length_set]; omega)
        rw [el] at b1 b5
        rw [b1]
        simp only
        have hw2 : w1.length ≤ w2.length := by have := b2.length_le; rwa [List.length_set] at this
        have hpre : v <+: w2 := by
          refine List.IsPrefix.trans (prefix_set ((List.prefix_append v _).trans a2) (by omega) _) b2
        refine ⟨_, _, rfl, prefix_set hpre (by omega) _, fun _ => by rw [List.length_set]; omega, fun _ => rfl,
          fun h => absurd h he, fun hl => ?_⟩
        rw [List.length_set] at hl
        have a5 := a5 (by omega)
        have b5 := b5 (by omega)
        refine ⟨by omega, ?_⟩
        rw [prune, if_pos hin]
        -- the first three elements
        have g0 : w1[v.length]? = some 1 := prefix_get a2 (by rw [List.getElem?_append_right (Nat.le_refl _)]; simp)
        have q0 : w2[v.length]? = some 1 := prefix_get b2 (by rw [List.getElem?_set_ne (by omega)]; exact g0)
        have q1 : w2[v.length + 1]? = some (BitVec.ofNat 256 i) := prefix_get b2 (by
          rw [List.getElem?_set_self (by omega)])
        refine ⟨Nat.le_refl _, ?_, i, j, a5.1, b5.1, ?_, ?_, ?_, ?_⟩
        · rw [List.getElem?_set_ne (by omega)]; exact q0
        · rw [List.getElem?_set_ne (by omega)]; exact q1
        · rw [List.getElem?_set_self (by omega)]
        · refine a5.2.mono (by omega) (fun k x hk hx => ?_)
          rw [vl] at hk
          rw [List.getElem?_set_ne (by omega)]
          exact prefix_get b2 (by rw [List.getElem?_set_ne (by omega)]; exact hx)
        · refine b5.2.mono (by rw [List.length_set]; omega) (fun k x hk hx => ?_)
          rw [List.length_set] at hk
          rw [List.getElem?_set_ne (by omega)]
          exact hx
    · rw [if_pos hin]
      exact hashCase t v cur he (notIn t cur he hin)

/-- Height of a tree. -/
def T.height : T → Nat
  | .node l r => 1 + max l.height r.height
  | _ => 1

theorem height_le {t : T} : ∀ {p : List Bool}, t.WF p → p.length ≤ 256 → t.height + p.length ≤ 257 := by
  induction t with
  | empty => intro p _ h; simp [T.height]; omega
  | leaf K v => intro p _ h; simp [T.height]; omega
  | hash h => intro p _ h; simp [T.height]; omega
  | node l r ihl ihr =>
    intro p hw hp
    have h1 := ihl hw.2.1 (by have := hw.1; simp; omega)
    have h2 := ihr hw.2.2.1 (by have := hw.1; simp; omega)
    simp only [List.length_append, List.length_singleton] at h1 h2
    simp only [T.height]
    omega

theorem height_prune {inc : List (List Bool)} {t : T} : ∀ {p : List Bool}, (prune H inc p t).height ≤ t.height := by
  induction t with
  | empty => intro p; exact Nat.le_refl _
  | hash h => intro p; exact Nat.le_refl _
  | leaf K v => intro p; rw [prune]; split <;> simp [T.height]
  | node l r ihl ihr =>
    intro p
    rw [prune]
    split
    · have h1 := ihl (p := p ++ [false])
      have h2 := ihr (p := p ++ [true])
      simp only [T.height]; omega
    · simp only [T.height]; omega

/-- The hashes are keys made of machine words. -/
def HashesValid : T → Prop
  | .hash h => h.Valid
  | .node l r => HashesValid l ∧ HashesValid r
  | .leaf K _ => K.Valid
  | .empty => True

theorem hashSer_spec {lo : Nat} {v : List U256} (h0 : v[0]? = some 0) (h1 : v[1]? = some 0) {t : T} :
    ∀ {d ptr f : Nat}, SerT lo v d t ptr → HashesValid t → t.height ≤ f → hashSer H f v ptr = .ok (hashOf H d t) := by
  induction t with
  | empty =>
    intro d ptr f hs _ hf
    obtain ⟨f, rfl⟩ : ∃ g, f = g + 1 := ⟨f - 1, by simp [T.height] at hf; omega⟩
    have hs : ptr = 0 := hs
    subst hs
    rw [hashSer, h0]
    simp only [if_true]
    rw [h1]
    rfl
  | hash h =>
    intro d ptr f hs hv hf
    obtain ⟨f, rfl⟩ : ∃ g, f = g + 1 := ⟨f - 1, by simp [T.height] at hf; omega⟩
    rw [hashSer, hs.2.1]
    simp only [if_true]
    rw [hs.2.2]
    simp only
    rw [u2k_key2u hv]; rfl
  | leaf K x =>
    intro d ptr f hs hv hf
    obtain ⟨f, rfl⟩ : ∃ g, f = g + 1 := ⟨f - 1, by simp [T.height] at hf; omega⟩
    have n0 : ¬ (2 : U256) = 0 := by decide
    have n1 : ¬ (2 : U256) = 1 := by decide
    rw [hashSer, hs.2.1]
    simp only [n0, n1, if_false, if_true, hs.2.2.1, hs.2.2.2]
    rw [u2k_key2u (removeBits_valid hv d)]; rfl
  | node l r ihl ihr =>
    intro d ptr f hs hv hf
    obtain ⟨h2, h3, i, j, h4, h5, h6, h7, h8, h9⟩ := hs
    simp only [T.height] at hf
    obtain ⟨f, rfl⟩ : ∃ g, f = g + 1 := ⟨f - 1, by omega⟩
    have n0 : ¬ (1 : U256) = 0 := by decide
    rw [hashSer, h3]
    simp only [n0, if_false, if_true, h6, h7]
    have e : ∀ i, i < 2 ^ 64 → (BitVec.ofNat 256 i).toNat % 2 ^ 64 = i := by
      intro i hi
      rw [BitVec.toNat_ofNat]; omega
    rw [e i h4, e j h5, ihl h8 hv.1 (by omega), ihr h9 hv.2 (by omega)]
    rfl

theorem toInclude_mem {keys : List Key} {q : List Bool} : q ∈ toInclude keys ↔ ∃ K, K ∈ keys ∧ q <+: K.split := by
  unfold toInclude
  rw [List.mem_flatMap]
  constructor
  · rintro ⟨K, hK, hq⟩
    obtain ⟨i, -, rfl⟩ := List.mem_map.1 hq
    exact ⟨K, hK, List.take_prefix _ _⟩
  · rintro ⟨K, hK, hq⟩
    refine ⟨K, hK, List.mem_map.2 ⟨256 - q.length, List.mem_range.2 (by omega), ?_⟩⟩
    have := hq.length_le
    rw [split_length] at this
    rw [show 256 - (256 - q.length) = q.length by omega]
    exact (List.prefix_iff_eq_take.1 hq).symm

theorem hashesValid_of {t : T} : ∀ {p : List Bool}, t.WF p → (∀ h, t.HashIn h → h.Valid) → HashesValid t := by
  induction t with
  | empty => intro _ _ _; trivial
  | leaf K v => intro p hw _; exact hw.1
  | hash h => intro p _ hv; exact hv h rfl
  | node l r ihl ihr =>
    intro p hw hv
    exact ⟨ihl hw.2.1 (fun h hh => hv h (.inl hh)), ihr hw.2.2.1 (fun h hh => hv h (.inr hh))⟩

theorem hashesValid_prune {inc : List (List Bool)} (hH : ∀ n, (H n).Valid) {t : T} : ∀ {p : List Bool}, HashesValid t →
    HashesValid (prune H inc p t) := by
  induction t with
  | empty => intro p h; exact h
  | hash h => intro p h; exact h
  | leaf K v => intro p h; rw [prune]; split
                · exact h
                · exact hH _
  | node l r ihl ihr =>
    intro p h
    rw [prune]
    split
    · exact ⟨ihl h.1, ihr h.2⟩
    · exact hH _

/-- What `serialize_and_prune` returns. -/
theorem serializeAndPrune_spec {s : Smt} {t : T} (hc : NoColl s.db) (hi : Inv H s t) (hop : ∀ h, t.HashIn h → s.db.get h = none)
    (keys : List Key) : ∃ v, s.serializeAndPrune keys = .ok v ∧ v[0]? = some 0 ∧ v[1]? = some 0 ∧
      (v.length < 2 ^ 64 → (t = .empty ∧ v = [0, 0, 0, 0]) ∨ SerT 2 v 0 (prune H (toInclude keys) [] t) 2) := by
  obtain ⟨w, ptr, e1, e2, e3, e4, e5, e6⟩ := serialize_spec (H := H) hc (inc := toInclude keys)
    (fun q hq => by
      obtain ⟨K, -, h⟩ := toInclude_mem.1 hq
      have := h.length_le; rwa [split_length] at this) 257 t [0, 0] [] hi.wf hi.stored hop rfl (by simp)
  unfold Smt.serializeAndPrune
  have e1' : serialize s.db (toInclude keys) 257 s.root [0, 0] [] = .ok (w, ptr) := by rw [hi.root]; exact e1
  rw [e1']
  by_cases he : t = .empty
  · have hw := e5 he
    subst hw
    exact ⟨_, rfl, rfl, rfl, fun _ => .inl ⟨he, rfl⟩⟩
  · have h3 := e3 he
    have hp := e4 he
    simp only [List.length_cons, List.length_nil] at h3 hp
    refine ⟨w, ?_, prefix_get e2 rfl, prefix_get e2 rfl, fun hl => .inr ?_⟩
    · show Except.ok (if w.length = 2 then w ++ [0, 0] else w) = _
      rw [if_neg (by omega)]
    · have := (e6 hl).2
      rw [hp] at this
      exact this

/-! ## C22 -/

/-- **C22**, for a state with hashed-out subtrees: `t` is the tree of the state. -/
theorem serialize_hash {s : Smt} {t : T} (hH : ∀ n, (H n).Valid) (hc : NoColl s.db) (hi : Inv H s t)
    (hop : ∀ h, t.HashIn h → s.db.get h = none ∧ h.Valid) (keys : List Key) :
    ∃ v, s.serializeAndPrune keys = .ok v ∧ (v.length < 2 ^ 64 → ∀ f, 257 ≤ f → hashSerialize H f v = .ok s.root) := by
  obtain ⟨v, e1, e2, e3, e4⟩ := serializeAndPrune_spec hc hi (fun h hh => (hop h hh).1) keys
  refine ⟨v, e1, fun hl f hf => ?_⟩
  rcases e4 hl with ⟨rfl, rfl⟩ | h
  · obtain ⟨f, rfl⟩ : ∃ g, f = g + 1 := ⟨f - 1, by omega⟩
    rw [hi.root]
    simp [hashSerialize, hashSer, hashOf, u2k, Key.zero]
  · have hv := hashesValid_prune (H := H) (inc := toInclude keys) hH (p := []) (hashesValid_of hi.wf (fun h hh => (hop h hh).2))
    have hht : (prune H (toInclude keys) [] t).height ≤ f := by
      have h1 := height_prune (H := H) (inc := toInclude keys) (t := t) (p := [])
      have h2 := height_le hi.wf (by simp)
      simp only [List.length_nil] at h2
      omega
    have := hashSer_spec (H := H) e2 e3 h hv hht
    unfold hashSerialize
    rw [this, hi.root]
    exact congrArg Except.ok (hashOf_prune (H := H) (p := []))

/-- **C22**. After every history and for every set of keys, serializing (with everything off the paths of these
keys pruned) does not fail, and re-hashing the result gives the root. The result must fit the address space;
257 bounds the recursion depth of `hash_serialize`. -/
theorem C22_rehash (hH : ∀ n, (H n).Valid) {ops : List Op} {s : Smt} (hv : ∀ op, op ∈ ops → op.key.Valid)
    (hr : run H .empty ops = .ok s) (hc : NoColl s.db) (keys : List Key) :
    ∃ v, s.serializeAndPrune keys = .ok v ∧ (v.length < 2 ^ 64 → ∀ f, 257 ≤ f → hashSerialize H f v = .ok s.root) := by
  obtain ⟨t, hi, hf, -⟩ := history hv hr hc
  exact serialize_hash hH hc hi (fun h hh => absurd hh (hf h)) keys

/-- **C22**, for a state built from hashes and entries and then pruned again. The hashes must not be those of
known nodes. -/
theorem C22_rehash_partial_state (hH : ∀ n, (H n).Valid) {hs : List (List Bool × Key)} {es : List (Key × U256)}
    (hhs : ∀ e, e ∈ hs → e.1.length ≤ 256 ∧ e.2 ≠ .zero ∧ e.2.Valid) (hp : hs.Pairwise (fun a b => Incomparable a.1 b.1))
    (hes : ∀ e, e ∈ es → e.1.Valid ∧ ∀ x, x ∈ hs → ¬ x.1 <+: e.1.split) (hn : (es.map Prod.fst).Nodup)
    (hc : ∀ hs' es', hs' <+: hs → es' <+: es → ∀ s, build H hs' es' = .ok s → NoColl s.db)
    {s : Smt} (hb : build H hs es = .ok s) (hop : ∀ e, e ∈ hs → s.db.get e.2 = none) (keys : List Key) :
    ∃ v, s.serializeAndPrune keys = .ok v ∧ (v.length < 2 ^ 64 → ∀ f, 257 ≤ f → hashSerialize H f v = .ok s.root) := by
  obtain ⟨s', t, b1, b2, b3, b4⟩ := build_spec (H := H) (fun e he => ⟨(hhs e he).1, (hhs e he).2.1⟩) hp hes hn hc
  rw [hb] at b1
  cases b1
  refine serialize_hash hH (hc hs es (List.prefix_refl _) (List.prefix_refl _) s hb) b2 (fun h hh => ?_) keys
  obtain ⟨q, hq⟩ := hashIn_iff.1 hh
  have := (b3 q h).1 hq
  exact ⟨hop _ this, (hhs _ this).2.2⟩

/-! ## C58 -/

theorem lookup_spec {v : List U256} (h0 : v[0]? = some 0) (h1 : v[1]? = some 0) {inc : List (List Bool)} {K : Key} (hK : K.Valid)
    (hinc : ∀ q, q <+: K.split → q ∈ inc) {lo : Nat} {t : T} : ∀ {p : List Bool} {ptr : Nat}, t.WF p → p <+: K.split →
    (∀ q h, t.HashAt q h → ¬ p ++ q <+: K.split) → SerT lo v p.length (prune H inc p t) ptr →
    ∃ x, lookupSer v K p.length (K.split.drop p.length) ptr = some x ∧ (x ≠ 0 → t.Mem K x) ∧ ∀ y, t.Mem K y → x = y := by
  induction t with
  | empty =>
    intro p ptr _ _ _ hs
    have hs : ptr = 0 := hs
    subst hs
    refine ⟨0, ?_, fun h => absurd rfl h, fun y h => h.elim⟩
    unfold lookupSer
    rw [h0]
    simp only [if_true]
    rw [h1]; rfl
  | hash h =>
    intro p ptr _ hp hh _
    exact absurd (by rw [List.append_nil]; exact hp) (hh [] h ⟨rfl, rfl⟩)
  | leaf K' x' =>
    intro p ptr hw hp _ hs
    rw [prune, if_pos (hinc p hp)] at hs
    have n0 : ¬ (2 : U256) = 0 := by decide
    have n1 : ¬ (2 : U256) = 1 := by decide
    have hlen : p.length ≤ 256 := by have := hp.length_le; rwa [split_length] at this
    have hb : K'.removeBits p.length = K.removeBits p.length ↔ K' = K := by
      constructor
      · intro h
        have e1 := C19_join K' hw.1 p.length hlen
        have e2 := C19_join K hK p.length hlen
        rw [← List.prefix_iff_eq_take.1 hw.2.2] at e1
        rw [← List.prefix_iff_eq_take.1 hp] at e2
        rw [← e1, ← e2, h]
      · rintro rfl; rfl
    unfold lookupSer
    simp only [hs.2.1, hs.2.2.1, hs.2.2.2, n0, n1, if_false, if_true]
    rw [u2k_key2u (removeBits_valid hw.1 _)]
    by_cases hk : K' = K
    · rw [if_pos (hb.2 hk)]
      exact ⟨x', rfl, fun _ => ⟨hk, rfl⟩, fun y hy => hy.2⟩
    · rw [if_neg (fun h => hk (hb.1 h))]
      exact ⟨0, rfl, fun h => absurd rfl h, fun y hy => absurd hy.1 hk⟩
  | node l r ihl ihr =>
    intro p ptr hw hp hh hs
    rw [prune, if_pos (hinc p hp)] at hs
    obtain ⟨h2, h3, i, j, h4, h5, h6, h7, h8, h9⟩ := hs
    have n0 : ¬ (1 : U256) = 0 := by decide
    have hlt : p.length < K.split.length := by rw [split_length]; exact hw.1
    have hdrop : K.split.drop p.length = K.split[p.length] :: K.split.drop (p.length + 1) := List.drop_eq_getElem_cons hlt
    have hpb : p ++ [K.split[p.length]] <+: K.split := by
      rw [List.prefix_iff_eq_take]
      simp only [List.length_append, List.length_singleton]
      rw [← List.take_append_getElem hlt, ← List.prefix_iff_eq_take.1 hp]
    have el : ∀ b, (p ++ [b]).length = p.length + 1 := fun b => by simp
    have e : ∀ i, i < 2 ^ 64 → (BitVec.ofNat 256 i).toNat = i := by
      intro i hi
      rw [BitVec.toNat_ofNat]; omega
    unfold lookupSer
    simp only [h3, n0, if_false, if_true, h6, h7, hdrop, e i h4, e j h5]
    generalize hbit : K.split[p.length] = b at *
    cases b with
    | false =>
      obtain ⟨x, a1, a2, a3⟩ := ihl (p := p ++ [false]) (ptr := i) hw.2.1 hpb (fun q h hq => by
        have := hh (false :: q) h hq; simpa using this) (by rw [el]; exact h8)
      rw [el] at a1
      refine ⟨x, a1, fun hx => .inl (a2 hx), fun y hy => ?_⟩
      exact a3 y ((mem_left hw).2 ⟨hy, hpb⟩)
    | true =>
      obtain ⟨x, a1, a2, a3⟩ := ihr (p := p ++ [true]) (ptr := j) hw.2.2.1 hpb (fun q h hq => by
        have := hh (true :: q) h hq; simpa using this) (by rw [el]; exact h9)
      rw [el] at a1
      refine ⟨x, a1, fun hx => .inr (a2 hx), fun y hy => ?_⟩
      exact a3 y ((mem_right hw).2 ⟨hy, hpb⟩)

/-- **C58**. After every history, the serialization pruned to some keys still answers a lookup of each of these
keys, present or absent, with its value (0 if absent). -/
theorem C58_pruned_lookup {ops : List Op} {s : Smt} (hv : ∀ op, op ∈ ops → op.key.Valid) (hr : run H .empty ops = .ok s)
    (hc : NoColl s.db) (keys : List Key) :
    ∃ v, s.serializeAndPrune keys = .ok v ∧ (v.length < 2 ^ 64 → ∀ K, K ∈ keys → K.Valid →
      lookupSer v K 0 K.split 2 = some (lastVal (fun _ => 0) ops K)) := by
  obtain ⟨t, hi, hf, hh⟩ := history hv hr hc
  obtain ⟨v, e1, e2, e3, e4⟩ := serializeAndPrune_spec hc hi (fun h hh => absurd hh (hf h)) keys
  refine ⟨v, e1, fun hl K hk hK => ?_⟩
  have fin : ∀ x, (x ≠ 0 → t.Mem K x) → (∀ y, t.Mem K y → x = y) → x = lastVal (fun _ => 0) ops K := by
    intro x h1 h2
    by_cases hx : x = 0
    · apply Classical.byContradiction
      intro hne
      exact hne (h2 _ ((hh K _).2 ⟨fun h => hne (hx.trans h.symm), rfl⟩))
    · exact ((hh K x).1 (h1 hx)).2.symm
  rcases e4 hl with ⟨rfl, rfl⟩ | h
  · have : lookupSer [0, 0, 0, 0] K 0 K.split 2 = some 0 := by
      unfold lookupSer; simp
    rw [this, ← fin 0 (fun h => absurd rfl h) (fun y h => h.elim)]
  · obtain ⟨x, a1, a2, a3⟩ := lookup_spec (H := H) e2 e3 hK (fun q hq => toInclude_mem.2 ⟨K, hk, hq⟩) (p := []) hi.wf
      List.nil_prefix (fun q h hq => absurd (hashIn_iff.2 ⟨q, hq⟩) (hf h)) h
    have a1' : lookupSer v K 0 K.split 2 = some x := a1
    rw [a1', fin x a2 a3]

end

/-! ## Non-vacuity -/

/-- The hypotheses are met by the state after `demoOps`; pruned to one present and one absent key the
serialization hides a subtree, re-hashes to the root and answers both. -/
example : (match run toyH .empty demoOps with
    | .ok s =>
      match s.serializeAndPrune [⟨5, 0, 0, 1⟩, ⟨5, 1, 0, 1⟩], s.serializeAndPrune [⟨5, 0, 0, 1⟩, ⟨7, 0, 0, 1⟩, ⟨4, 3, 0, 1⟩] with
      | .ok v, .ok w => noCollB s.db && decide (v.length < w.length) &&
          (match hashSerialize toyH 257 v with | .ok r => decide (r = s.root) | .error _ => false) &&
          decide (lookupSer v ⟨5, 0, 0, 1⟩ 0 (Key.split ⟨5, 0, 0, 1⟩) 2 = some 10) &&
          decide (lookupSer v ⟨5, 1, 0, 1⟩ 0 (Key.split ⟨5, 1, 0, 1⟩) 2 = some 0) &&
          decide (lookupSer v ⟨4, 3, 0, 1⟩ 0 (Key.split ⟨4, 3, 0, 1⟩) 2 = none)
      | _, _ => false
    | .error _ => false) = true := by decide +kernel

end Verif.Smt
