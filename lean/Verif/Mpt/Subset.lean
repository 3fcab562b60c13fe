import Verif.Mpt.Mask
/-!
# Sub-trie extraction (`mpt_trie/src/trie_subsets.rs`)
-/
namespace Verif.Mpt

/-- `TrackedNode` / `TrackedNodeIntern` / `TrackedNodeInfo`. `mpt_trie/src/trie_subsets.rs:31-37, 40-43, 158-161`.
The `underlying_node` of each tracked node is represented by keeping its contents (hash, nibbles,
value) in the tracked node; `TNode.erase` reads it back. -/
inductive TNode where
  | empty (touched : Bool)
  | hash (h : H256) (touched : Bool)
  | branch (children : Nib → TNode) (value : Bytes) (touched : Bool)
  | ext (nibbles : Key) (child : TNode) (touched : Bool)
  | leaf (nibbles : Key) (value : Bytes) (touched : Bool)

/-- `TrackedNode::new`. `mpt_trie/src/trie_subsets.rs:46-61`. -/
def TNode.new : Node → TNode
  | .empty => .empty false
  | .hash h => .hash h false
  | .branch c v => .branch (fun i => new (c i)) v false
  | .ext n c => .ext n (new c) false
  | .leaf n v => .leaf n v false

/-- The `underlying_node`. -/
def TNode.erase : TNode → Node
  | .empty _ => .empty
  | .hash h _ => .hash h
  | .branch c v _ => .branch (fun i => (c i).erase) v
  | .ext n c _ => .ext n c.erase
  | .leaf n v _ => .leaf n v

def TNode.touched : TNode → Bool
  | .empty b => b
  | .hash _ b => b
  | .branch _ _ b => b
  | .ext _ _ b => b
  | .leaf _ _ b => b

/-- `info.touched = b`. -/
def TNode.setTouched (b : Bool) : TNode → TNode
  | .empty _ => .empty b
  | .hash h _ => .hash h b
  | .branch c v _ => .branch c v b
  | .ext n c _ => .ext n c b
  | .leaf n v _ => .leaf n v b

/-- Why an extraction stops: the key runs into a hash node (`SubsetTrieError`), or a panic. -/
inductive SubsetFault where
  | hitHash
  | panic
deriving DecidableEq

def updT (c : Nib → TNode) (i : Nib) (n : TNode) : Nib → TNode := fun j => if j = i then n else c j

/-- `mark_nodes_that_are_needed`. `mpt_trie/src/trie_subsets.rs:284-339`. `pop_nibbles_front` panics
when the key is shorter than the extension. -/
def mark : TNode → Key → Except SubsetFault TNode
  | .empty _, _ => .ok (.empty true)
  | .hash h _, k => if k.isEmpty then .ok (.hash h true) else .error .hitHash
  | .branch c v _, k =>
    match k with
    | [] => .ok (.branch c v true)
    | n :: k =>
      match mark (c n) k with
      | .ok u => .ok (.branch (updT c n u) v true)
      | .error f => .error f
  | .ext n c b, k =>
    if k.isEmpty then .ok (.ext n c b)
    else if ident k n then
      if k.length < n.length then .error .panic
      else
        match mark c (k.drop n.length) with
        | .ok u => .ok (.ext n u true)
        | .error f => .error f
    else .ok (.ext n c true)
  | .leaf n v _, _ => .ok (.leaf n v true)

/-- `create_partial_trie_subset_from_tracked_trie`. `mpt_trie/src/trie_subsets.rs:342-373`. -/
def build (keccak : Bytes → H256) : TNode → Node
  | .empty _ => .empty
  | .hash h _ => .hash h
  | .branch c v b =>
    match b, enc keccak (TNode.branch c v b).erase with
    | false, .hashed h => .hash h
    | _, _ => .branch (fun i => build keccak (c i)) v
  | .ext n c b =>
    match b, enc keccak (TNode.ext n c b).erase with
    | false, .hashed h => .hash h
    | _, _ => .ext n (build keccak c)
  | .leaf n v b =>
    match b, enc keccak (.leaf n v) with
    | false, .hashed h => .hash h
    | _, _ => .leaf n v

/-- The marking loop of `create_trie_subset_intern`. `mpt_trie/src/trie_subsets.rs:255-267`. -/
def markAll : TNode → List Key → Except SubsetFault TNode
  | T, [] => .ok T
  | T, k :: ks =>
    match mark T k with
    | .ok T' => markAll T' ks
    | .error f => .error f

/-- `create_trie_subset`. `mpt_trie/src/trie_subsets.rs:213-223,252-270`. -/
def createSubset (keccak : Bytes → H256) (t : Node) (ks : List Key) : Except SubsetFault Node :=
  match markAll (.new t) ks with
  | .ok T => .ok (build keccak T)
  | .error f => .error f

/-- `reset_tracked_trie_state`. `mpt_trie/src/trie_subsets.rs:375-389`. -/
def reset : TNode → TNode
  | .branch c v b => .branch (fun i => (reset (c i)).setTouched false) v b
  | .ext n c b => .ext n ((reset c).setTouched false) b
  | .empty _ => .empty false
  | .hash h _ => .hash h false
  | .leaf n v _ => .leaf n v false

/-- The loop of `create_trie_subsets`. `mpt_trie/src/trie_subsets.rs:239-247`. -/
def subsetsLoop (keccak : Bytes → H256) : TNode → List (List Key) → Except SubsetFault (List Node)
  | _, [] => .ok []
  | T, ks :: kss =>
    match markAll T ks with
    | .error f => .error f
    | .ok T' =>
      match subsetsLoop keccak (reset T') kss with
      | .ok l => .ok (build keccak T' :: l)
      | .error f => .error f

/-- `create_trie_subsets`. `mpt_trie/src/trie_subsets.rs:228-247`. -/
def createSubsets (keccak : Bytes → H256) (t : Node) (kss : List (List Key)) :
    Except SubsetFault (List Node) := subsetsLoop keccak (.new t) kss

/-! ## Specification -/

/-- The remaining keys of those that start with nibble `i`. -/
def strip (i : Nib) (ks : List Key) : List Key :=
  ks.filterMap (fun k => match k with | j :: k => if j = i then some k else none | [] => none)

/-- The remaining keys of those that start with `n`. -/
def stripExt (n : Key) (ks : List Key) : List Key :=
  ks.filterMap (fun k => if k.isEmpty then none else if ident k n then some (k.drop n.length)
    else none)

/-- Does a set of (remaining) keys visit this node? A key that is exhausted does not visit an
extension. -/
def visits : Node → List Key → Bool
  | .ext _ _, ks => ks.any (fun k => !k.isEmpty)
  | _, ks => !ks.isEmpty

/-- The sub-trie that keeps exactly the visited nodes, the nodes that are inlined in their parent,
and replaces everything else by its hash. `b`: keep the root in any case. -/
def prune (keccak : Bytes → H256) (b : Bool) : Node → List Key → Node
  | .empty, _ => .empty
  | .hash h, _ => .hash h
  | .branch c v, ks =>
    match b || visits (.branch c v) ks, enc keccak (.branch c v) with
    | false, .hashed h => .hash h
    | _, _ => .branch (fun i => prune keccak false (c i) (strip i ks)) v
  | .ext n c, ks =>
    match b || visits (.ext n c) ks, enc keccak (.ext n c) with
    | false, .hashed h => .hash h
    | _, _ => .ext n (prune keccak false c (stripExt n ks))
  | .leaf n v, ks =>
    match b || visits (.leaf n v) ks, enc keccak (.leaf n v) with
    | false, .hashed h => .hash h
    | _, _ => .leaf n v

/-! ## Proofs -/

/-- The tracked trie after marking `ks`, with root flag or-ed with `b`. -/
def track (b : Bool) : Node → List Key → TNode
  | .empty, ks => .empty (b || visits .empty ks)
  | .hash h, ks => .hash h (b || visits (.hash h) ks)
  | .branch c v, ks =>
    .branch (fun i => track false (c i) (strip i ks)) v (b || visits (.branch c v) ks)
  | .ext n c, ks => .ext n (track false c (stripExt n ks)) (b || visits (.ext n c) ks)
  | .leaf n v, ks => .leaf n v (b || visits (.leaf n v) ks)

theorem track_erase (b t ks) : (track b t ks).erase = t := by
  induction t generalizing b ks with
  | empty => rfl
  | hash => rfl
  | leaf => rfl
  | ext n c ih => simp [track, TNode.erase, ih]
  | branch c v ih => simp [track, TNode.erase, ih]

theorem build_branch (keccak c v b) : build keccak (.branch c v b) =
    match b, enc keccak (TNode.branch c v b).erase with
    | false, .hashed h => .hash h
    | _, _ => .branch (fun i => build keccak (c i)) v := by
  conv => lhs; unfold build

theorem build_track (keccak b t ks) : build keccak (track b t ks) = prune keccak b t ks := by
  induction t generalizing b ks with
  | empty => rfl
  | hash => rfl
  | leaf => rfl
  | ext n c ih =>
    have he := track_erase b (.ext n c) ks
    simp only [track] at he
    simp only [track, build, prune, he, ih]
  | branch c v ih =>
    have he := track_erase b (.branch c v) ks
    simp only [track] at he
    simp only [track, build_branch, prune, he, ih]

theorem track_nil (t) : track false t [] = .new t := by
  induction t with
  | empty => rfl
  | hash => rfl
  | leaf => rfl
  | ext n c ih => simp [track, TNode.new, stripExt, visits, ih]
  | branch c v ih => simp [track, TNode.new, strip, visits, ih]

theorem strip_append (i ks k) : strip i (ks ++ [k]) = strip i ks ++ strip i [k] := by
  simp [strip]

theorem stripExt_append (n ks k) : stripExt n (ks ++ [k]) = stripExt n ks ++ stripExt n [k] := by
  simp [stripExt]

theorem stripExt_nil (n k) (hk : List.isEmpty k = true) : stripExt n [k] = [] := by
  simp only [stripExt, List.filterMap_cons, hk, if_true, List.filterMap_nil]

theorem stripExt_yes (n k) (hk : ¬ List.isEmpty k = true) (h : ident k n = true) :
    stripExt n [k] = [k.drop n.length] := by
  simp only [stripExt, List.filterMap_cons, hk, h, if_true, List.filterMap_nil]
  simp

theorem stripExt_no (n k) (hk : ¬ List.isEmpty k = true) (h : ¬ ident k n = true) :
    stripExt n [k] = [] := by
  simp only [stripExt, List.filterMap_cons, hk, h, List.filterMap_nil]
  simp

theorem mark_track {b t ks k T} (h : mark (track b t ks) k = .ok T) :
    T = track b t (ks ++ [k]) := by
  induction t generalizing b ks k T with
  | empty =>
    simp only [track, mark, Except.ok.injEq] at h
    subst h; simp [track, visits]
  | hash x =>
    simp only [track, mark] at h
    split at h
    · simp only [Except.ok.injEq] at h; subst h; simp [track, visits]
    · simp at h
  | leaf n v =>
    simp only [track, mark, Except.ok.injEq] at h
    subst h; simp [track, visits]
  | ext n c ih =>
    simp only [track, mark] at h
    split at h
    · rename_i hk
      simp only [Except.ok.injEq] at h
      subst h
      simp only [track, stripExt_append, visits, List.any_append, List.any_cons, List.any_nil]
      rw [stripExt_nil n k hk]
      simp [hk]
    · rename_i hk
      have hk' : (!k.isEmpty) = true := by simpa using hk
      split at h
      · rename_i hid
        split at h
        · simp at h
        split at h
        · rename_i u hu
          simp only [Except.ok.injEq] at h
          subst h
          have := ih hu
          subst this
          simp [track, visits, stripExt_append, List.any_append, stripExt_yes n k hk hid, hk']
        · simp at h
      · rename_i hid
        simp only [Except.ok.injEq] at h
        subst h
        simp [track, visits, stripExt_append, List.any_append, stripExt_no n k hk hid, hk']
  | branch c v ih =>
    cases k with
    | nil =>
      simp only [track, mark, Except.ok.injEq] at h
      subst h
      simp [track, visits, strip_append, strip]
    | cons n k =>
      simp only [track, mark] at h
      split at h
      · rename_i u hu
        simp only [Except.ok.injEq] at h
        subst h
        have := ih n hu
        subst this
        simp only [track, visits, strip_append]
        congr 1
        · funext i
          unfold updT
          split
          · rename_i hi; subst hi; simp [strip]
          · rename_i hi
            have : ¬ n = i := fun h => hi h.symm
            simp [strip, this]
        · simp
      · simp at h

theorem markAll_track {b t ks ks' T} (h : markAll (track b t ks) ks' = .ok T) :
    T = track b t (ks ++ ks') := by
  induction ks' generalizing ks with
  | nil => simp only [markAll, Except.ok.injEq] at h; subst h; simp
  | cons k ks' ih =>
    simp only [markAll] at h
    split at h
    · rename_i T' hT'
      rw [mark_track hT'] at h
      rw [ih h]
      simp
    · simp at h

theorem createSubset_eq {keccak t ks r} (h : createSubset keccak t ks = .ok r) :
    r = prune keccak false t ks := by
  unfold createSubset at h
  rw [← track_nil] at h
  split at h
  · rename_i T hT
    simp only [Except.ok.injEq] at h
    subst h
    rw [markAll_track hT, build_track]
    simp
  · simp at h

/-- Success of marking does not depend on what was marked before. -/
theorem mark_ok_indep {b b' t ks ks' k T} (h : mark (track b t ks) k = .ok T) :
    mark (track b' t ks') k = .ok (track b' t (ks' ++ [k])) := by
  have : ∃ T', mark (track b' t ks') k = .ok T' := by
    induction t generalizing b b' ks ks' k T with
    | empty => simp [track, mark]
    | hash x =>
      simp only [track, mark] at h ⊢
      split at h
      · rename_i hk; simp [hk]
      · simp at h
    | leaf n v => simp [track, mark]
    | ext n c ih =>
      simp only [track, mark] at h ⊢
      split at h
      · rename_i hk; simp [hk]
      · rename_i hk
        split at h
        · rename_i hid
          split at h
          · simp at h
          · rename_i hl
            split at h
            · rename_i u hu
              obtain ⟨T', hT'⟩ := ih (b' := false) (ks' := stripExt n ks') hu
              simp [hk, hid, hl, hT']
            · simp at h
        · rename_i hid; simp [hk, hid]
    | branch c v ih =>
      cases k with
      | nil => simp [track, mark]
      | cons n k =>
        simp only [track, mark] at h ⊢
        split at h
        · rename_i u hu
          obtain ⟨T', hT'⟩ := ih n (b' := false) (ks' := strip n ks') hu
          simp [hT']
        · simp at h
  obtain ⟨T', hT'⟩ := this
  rw [hT', mark_track hT']

theorem mark_error_indep {b b' t ks ks' k f} (h : mark (track b t ks) k = .error f) :
    mark (track b' t ks') k = .error f := by
  induction t generalizing b b' ks ks' k f with
  | empty => simp [track, mark] at h
  | hash x =>
    simp only [track, mark] at h ⊢
    split at h
    · simp at h
    · rename_i hk; simpa [hk] using h
  | leaf n v => simp [track, mark] at h
  | ext n c ih =>
    simp only [track, mark] at h ⊢
    split at h
    · simp at h
    · rename_i hk
      split at h
      · rename_i hid
        split at h
        · rename_i hl; simpa [hk, hid, hl] using h
        · rename_i hl
          split at h
          · simp at h
          · rename_i u hu
            have hT' := ih (b' := false) (ks' := stripExt n ks') hu
            simpa [hk, hid, hl, hT'] using h
      · simp at h
  | branch c v ih =>
    cases k with
    | nil => simp [track, mark] at h
    | cons n k =>
      simp only [track, mark] at h ⊢
      split at h
      · simp at h
      · rename_i u hu
        have hT' := ih n (b' := false) (ks' := strip n ks') hu
        simpa [hT'] using h

theorem markAll_indep {b t ks ks'} (l : List Key) :
    (markAll (track b t ks) l).map (fun _ => ()) = (markAll (track false t ks') l).map (fun _ => ())
    := by
  induction l generalizing ks ks' with
  | nil => rfl
  | cons k l ih =>
    simp only [markAll]
    cases h : mark (track b t ks) k with
    | ok T =>
      rw [mark_ok_indep (b' := false) (ks' := ks') h]
      simp only
      rw [mark_track h]
      exact ih
    | error f =>
      rw [mark_error_indep (b' := false) (ks' := ks') h]

/-- The flag that survives `reset`. -/
def keepsRoot : Node → Bool
  | .branch _ _ => true
  | .ext _ _ => true
  | _ => false

theorem reset_set (b t ks) : (reset (track b t ks)).setTouched false = .new t := by
  induction t generalizing b ks with
  | empty => rfl
  | hash => rfl
  | leaf => rfl
  | ext n c ih =>
    simp only [track, reset, TNode.new, ← ih false (stripExt n ks)]
    rfl
  | branch c v ih =>
    have : ∀ i, TNode.new (c i) = (reset (track false (c i) (strip i ks))).setTouched false :=
      fun i => (ih i _ _).symm
    simp only [track, reset, TNode.new, this]
    rfl

theorem reset_track (b t ks) :
    reset (track b t ks) = track (keepsRoot t && (b || visits t ks)) t [] := by
  cases t with
  | empty => rfl
  | hash => rfl
  | leaf => rfl
  | ext n c =>
    simp [track, reset, keepsRoot, reset_set, ← track_nil, stripExt, visits]
  | branch c v =>
    simp [track, reset, keepsRoot, reset_set, ← track_nil, strip, visits]

/-- `prune` is a partial version of the trie. -/
theorem prune_mask (keccak b t ks) : Mask keccak (fun _ => True) (prune keccak b t ks) t := by
  induction t generalizing b ks with
  | empty => exact .empty
  | hash h => exact .hash rfl trivial
  | leaf n v =>
    simp only [prune]
    split
    · rename_i h he; exact .hash he trivial
    · exact .leaf _ _
  | ext n c ih =>
    simp only [prune]
    split
    · rename_i h he; exact .hash he trivial
    · exact .ext _ (ih _ _)
  | branch c v ih =>
    simp only [prune]
    split
    · rename_i h he; exact .hash he trivial
    · exact .branch _ (fun i => ih _ _ _)

theorem prune_get {keccak b t ks k r} (hk : k ∈ ks) (h : get t k = .ok r)
    (hx : ∀ n c, Sub (.ext n c) t → n ≠ []) : get (prune keccak b t ks) k = .ok r := by
  induction t generalizing b ks k with
  | empty => exact h
  | hash => exact h
  | leaf n v =>
    have : visits (.leaf n v) ks = true := by
      cases ks with
      | nil => simp at hk
      | cons => rfl
    simp only [prune, this, Bool.or_true]
    exact h
  | ext n c ih =>
    have hn := hx n c (.refl _)
    simp only [get] at h
    split at h
    · simp at h
    · rename_i hl
      have hk0 : k ≠ [] := by
        intro h0; subst h0
        cases n <;> simp_all
      have : visits (.ext n c) ks = true := by
        simp only [visits, List.any_eq_true]
        exact ⟨k, hk, by cases k <;> simp_all⟩
      simp only [prune, this, Bool.or_true, get, if_neg hl]
      split at h
      · rename_i hid
        rw [if_pos hid]
        refine ih ?_ h (fun n' c' hs => hx n' c' (.ext hs))
        simp only [stripExt, List.mem_filterMap]
        refine ⟨k, hk, ?_⟩
        have hp : n <+: k := (ident_take n k (by omega)).1 hid
        have : ident k n = true := (ident_iff _ _).2 (.inr hp)
        have hke : k.isEmpty = false := by cases k <;> simp_all
        simp [this, hke]
      · rename_i hid
        rw [if_neg hid]
        exact h
  | branch c v ih =>
    have : visits (.branch c v) ks = true := by
      cases ks with
      | nil => simp at hk
      | cons => rfl
    simp only [prune, this, Bool.or_true]
    cases k with
    | nil => exact h
    | cons n k =>
      simp only [get] at h ⊢
      refine ih n ?_ h (fun n' c' hs => hx n' c' (.branch hs))
      simp only [strip, List.mem_filterMap]
      exact ⟨n :: k, hk, by simp⟩

theorem mark_ok {b t ks k r} (hf : HashFree t) (h : get t k = .ok r) :
    ∃ T, mark (track b t ks) k = .ok T := by
  induction t generalizing b ks k with
  | empty => simp [track, mark]
  | hash => simp [HashFree] at hf
  | leaf => simp [track, mark]
  | ext n c ih =>
    simp only [track, mark]
    simp only [get] at h
    split at h
    · simp at h
    · rename_i hl
      split
      · simp
      · split
        · rename_i hid
          have hp : n <+: k := by
            rcases (ident_iff _ _).1 hid with h' | h'
            · exact (h'.eq_of_length_le (by omega)) ▸ List.prefix_rfl
            · exact h'
          rw [if_pos ((ident_take n k (by omega)).2 hp)] at h
          obtain ⟨T, hT⟩ := ih (b := false) (ks := stripExt n ks) hf h
          simp [hl, hT]
        · simp
  | branch c v ih =>
    cases k with
    | nil => simp [track, mark]
    | cons n k =>
      simp only [track, mark]
      obtain ⟨T, hT⟩ := ih n (b := false) (ks := strip n ks) (hf n) h
      simp [hT]

theorem markAll_ok {b t ks l} (hf : HashFree t) (h : ∀ k ∈ l, ∃ r, get t k = .ok r) :
    ∃ T, markAll (track b t ks) l = .ok T := by
  induction l generalizing ks with
  | nil => simp [markAll]
  | cons k l ih =>
    obtain ⟨r, hr⟩ := h k (by simp)
    obtain ⟨T, hT⟩ := mark_ok (b := b) (ks := ks) hf hr
    simp only [markAll, hT]
    rw [mark_track hT]
    exact ih (fun k hk => h k (by simp [hk]))

theorem prune_flag {keccak b t ks} (h : visits t ks = true) :
    prune keccak b t ks = prune keccak false t ks := by
  cases t <;> simp only [prune, h, Bool.or_true]

theorem prune_flag_small {keccak b t ks} (h : keepsRoot t = false ∧ b = false ∨ visits t ks = true) :
    prune keccak b t ks = prune keccak false t ks := by
  rcases h with ⟨h, rfl⟩ | h
  · rfl
  · exact prune_flag h

/-- Two lists of the same length, related element by element. -/
inductive Pointwise {α β} (R : α → β → Prop) : List α → List β → Prop
  | nil : Pointwise R [] []
  | cons {a b l m} : R a b → Pointwise R l m → Pointwise R (a :: l) (b :: m)

/-- What the loop of `create_trie_subsets` computes. -/
theorem subsetsLoop_spec {keccak t kss b rs} (h : subsetsLoop keccak (track b t []) kss = .ok rs) :
    Pointwise (fun ks r => (∃ b, r = prune keccak b t ks) ∧
      ∃ r', createSubset keccak t ks = .ok r') kss rs := by
  induction kss generalizing b rs with
  | nil => simp only [subsetsLoop, Except.ok.injEq] at h; subst h; exact .nil
  | cons ks kss ih =>
    simp only [subsetsLoop] at h
    split at h
    · simp at h
    · rename_i T hT
      have hc : ∃ r', createSubset keccak t ks = .ok r' := by
        have := markAll_indep (b := b) (t := t) (ks := []) (ks' := []) ks
        rw [hT, track_nil] at this
        unfold createSubset
        cases hm : markAll (.new t) ks with
        | ok T' => exact ⟨_, rfl⟩
        | error f => rw [hm] at this; simp [Except.map] at this
      have hT := markAll_track hT
      simp only [List.nil_append] at hT
      subst hT
      rw [reset_track, build_track] at h
      split at h
      · rename_i l hl
        simp only [Except.ok.injEq] at h
        subst h
        exact .cons ⟨⟨b, rfl⟩, hc⟩ (ih hl)
      · simp at h

/-- When every key set visits the root, the loop is a plain map. -/
theorem subsetsLoop_eq {keccak t kss b} (hv : ∀ ks ∈ kss, visits t ks = true) :
    subsetsLoop keccak (track b t []) kss = kss.mapM (createSubset keccak t) := by
  induction kss generalizing b with
  | nil => rfl
  | cons ks kss ih =>
    simp only [subsetsLoop, List.mapM_cons]
    have hi := markAll_indep (b := b) (t := t) (ks := []) (ks' := []) ks
    cases hm : markAll (track b t []) ks with
    | error f =>
      rw [hm, track_nil] at hi
      have : createSubset keccak t ks = .error f := by
        unfold createSubset
        cases hm' : markAll (.new t) ks with
        | ok T' => rw [hm'] at hi; simp [Except.map] at hi
        | error f' =>
          rw [hm'] at hi
          simp only [Except.map, Except.error.injEq] at hi
          subst hi; rfl
      rw [this]; rfl
    | ok T =>
      have hT := markAll_track hm
      simp only [List.nil_append] at hT
      subst hT
      have : createSubset keccak t ks = .ok (prune keccak b t ks) := by
        have hh : ∃ r', createSubset keccak t ks = .ok r' := by
          rw [hm, track_nil] at hi
          unfold createSubset
          cases hm' : markAll (.new t) ks with
          | ok T' => exact ⟨_, rfl⟩
          | error f => rw [hm'] at hi; simp [Except.map] at hi
        obtain ⟨r', hr'⟩ := hh
        rw [hr', createSubset_eq hr', prune_flag (b := b) (hv ks (by simp))]
      simp only [this, reset_track, build_track]
      rw [ih (fun ks hks => hv ks (by simp [hks]))]
      cases kss.mapM (createSubset keccak t) <;> rfl

end Verif.Mpt
