/-!
# Model of the Merkle-Patricia trie operations (`mpt_trie/src/trie_ops.rs`)

Keys are modelled as lists of nibbles (front nibble first); `Verif/Nibbles`
models the packed representation and shows that it refines the list operations
used here.  `Arc`/`Box` wrappers are dropped (immutable sharing).
-/
namespace Verif.Mpt

/-- A nibble. `mpt_trie/src/nibbles.rs:32` (`pub type Nibble = u8`, always < 16 in a `Nibbles`). -/
abbrev Nib := Fin 16
/-- A trie key / key piece. `mpt_trie/src/nibbles.rs:297-303` (`Nibbles`), as a list, front first. -/
abbrev Key := List Nib
/-- `Vec<u8>`. -/
abbrev Bytes := List UInt8

/-- `ethereum_types::H256`: exactly 32 bytes. -/
structure H256 where
  bytes : List UInt8
  len : bytes.length = 32
deriving DecidableEq

/-- `ValOrHash`. `mpt_trie/src/trie_ops.rs:87-94`. -/
inductive Entry where
  | val (v : Bytes)
  | hash (h : H256)
deriving DecidableEq

/-- `Node`. `mpt_trie/src/partial_trie.rs:123-157`. The `[_; 16]` array of children is a
function on nibbles. -/
inductive Node where
  | empty
  | hash (h : H256)
  | branch (children : Nib → Node) (value : Bytes)
  | ext (nibbles : Key) (child : Node)
  | leaf (nibbles : Key) (value : Bytes)

/-- `TrieOpError` (`mpt_trie/src/trie_ops.rs:23-55`), plus `panic` for every `assert!`, `expect`,
index or subtraction underflow that the code can hit (arithmetic is taken as checked). -/
inductive Fault where
  | hashNodeInsert (h : H256)
  | hashNodeDelete (h : H256)
  | hashNodeExt
  | extCollapsedIntoHash (k : Key) (h : H256)
  | existingHash (h : H256)
  | panic
deriving DecidableEq

/-- `OnOrphanedHashNode`. `mpt_trie/src/partial_trie.rs:326-332`. -/
inductive Strategy where
  | collapseToExtension
  | reject
deriving DecidableEq

/-- Array update `children[i] = n`. -/
def upd (c : Nib → Node) (i : Nib) (n : Node) : Nib → Node :=
  fun j => if j = i then n else c j

/-- `new_branch_child_arr`. `mpt_trie/src/trie_ops.rs:785-806`. -/
def noChildren : Nib → Node := fun _ => .empty

/-- `nibbles_are_identical_up_to_smallest_count`. `mpt_trie/src/nibbles.rs:631-634`. -/
def ident : Key → Key → Bool
  | a :: as, b :: bs => a == b && ident as bs
  | _, _ => true

/-- `find_nibble_idx_that_differs_between_nibbles_different_lengths`.
`mpt_trie/src/nibbles.rs:739-749`. -/
def diffIdx : Key → Key → Nat
  | a :: as, b :: bs => if a = b then diffIdx as bs + 1 else 0
  | _, _ => 0

/-- `merge_nibbles` with its `assert!(new_count <= 64)`. `mpt_trie/src/nibbles.rs:705-713`. -/
def mergeNibbles (a b : Key) : Except Fault Key :=
  if a.length + b.length ≤ 64 then .ok (a ++ b) else .error .panic

/-- `merge_nibble`. `mpt_trie/src/nibbles.rs:692-699`. -/
def mergeNibble (a : Key) (n : Nib) : Except Fault Key :=
  if a.length < 64 then .ok (a ++ [n]) else .error .panic

/-- `truncate_n_nibbles_back_mut` (clamped). `mpt_trie/src/nibbles.rs:606-614`. -/
def truncBack (k : Key) (n : Nat) : Key := k.take (k.length - n)

/-- `node_is_empty`. `mpt_trie/src/trie_ops.rs:824-826`. -/
def Node.isEmpty : Node → Bool
  | .empty => true
  | _ => false

/-! ## get -/

/-- `trie_get_intern`. `mpt_trie/src/trie_ops.rs:340-374`.  `pop_nibbles_front(n)` on a key with
fewer than `n` nibbles is the documented panic of `mpt_trie/src/nibbles.rs:473`. -/
def get : Node → Key → Except Fault (Option Bytes)
  | .empty, _ => .ok none
  | .hash _, _ => .ok none
  | .branch c v, k =>
    match k with
    | [] => .ok (if v.isEmpty then none else some v)
    | n :: k => get (c n) k
  | .ext n c, k =>
    if k.length < n.length then .error .panic
    else if ident (k.take n.length) n then get c (k.drop n.length)
    else .ok none
  | .leaf n v, k => .ok (if ident n k then some v else none)

/-! ## insert -/

/-- `create_node_from_insert_val`. `mpt_trie/src/trie_ops.rs:857-878`. -/
def createNode (k : Key) : Entry → Node
  | .val v => .leaf k v
  | .hash h => if k.isEmpty then .hash h else .ext k (.hash h)

/-- `ExistingAndNewNodePreAndPost`. `mpt_trie/src/trie_ops.rs:166-170`. -/
structure PrePost where
  pre : Key
  existing : Key
  new : Key

/-- `get_pre_and_postfixes_for_existing_and_new_nodes`. `mpt_trie/src/trie_ops.rs:689-708`. -/
def prePost (existing new : Key) : PrePost :=
  let i := diffIdx existing new
  { pre := existing.take i, existing := existing.drop i, new := new.drop i }

/-- `get_nibble(0)`: panics on the empty sequence. `mpt_trie/src/nibbles.rs:430-438`. -/
def firstNib : Key → Except Fault Nib
  | [] => .error .panic
  | n :: _ => .ok n

/-- `ins_entry_into_leaf_and_nibble`. `mpt_trie/src/trie_ops.rs:770-783`. -/
def insEntry (info : PrePost) (k : Key) (e : Entry) : Except Fault (Nib × Node) := do
  let n ← firstNib info.new
  return (n, createNode (k.drop (info.pre.length + 1)) e)

/-- `ValOrHash::expect_val`. `mpt_trie/src/trie_ops.rs:158-161` (`EnumAsInner`-style accessor, panics on
`Hash`). -/
def expectVal : Entry → Except Fault Bytes
  | .val v => .ok v
  | .hash _ => .error .panic

/-- `place_branch_and_potentially_ext_prefix` together with
`check_if_existing_or_new_node_should_go_in_branch_value_field`.
`mpt_trie/src/trie_ops.rs:710-739, 743-768`. -/
def placeBranch (info : PrePost) (existing : Node) (k : Key) (e : Entry) :
    Except Fault Node := do
  let (children, value) ←
    match info.existing, info.new, existing with
    | [], _, .leaf _ w => do
      let (n, node) ← insEntry info k e
      pure (upd noChildren n node, w)
    | _, [], _ => do
      let v ← expectVal e
      let n ← firstNib info.existing
      pure (upd noChildren n existing, v)
    | _, _, _ => do
      let n1 ← firstNib info.existing
      let (n2, node2) ← insEntry info k e
      pure (upd (upd noChildren n1 existing) n2 node2, [])
  let b := Node.branch children value
  return if info.pre.isEmpty then b else .ext info.pre b

/-- `insert_into_trie_rec`. `mpt_trie/src/trie_ops.rs:432-522`.  The `Option` of the result is always
`Some` in the code and is dropped. -/
def insertRec : Node → Key → Entry → Except Fault Node
  | .empty, k, e => .ok (createNode k e)
  | .hash h, _, _ => .error (.hashNodeInsert h)
  | .branch c v, k, e =>
    match k with
    | [] =>
      match e with
      | .val w => .ok (.branch c w)
      | .hash h => .error (.existingHash h)
    | n :: k =>
      match insertRec (c n) k e with
      | .ok u => .ok (.branch (upd c n u) v)
      | .error f => .error f
  | .ext n c, k, e =>
    if ident n k then
      match insertRec c (k.drop n.length) e with
      | .ok u => .ok (.ext n u)
      | .error f => .error f
    else
      let info := prePost n k
      let post := info.existing.drop 1
      let existing := if post.isEmpty then c else .ext post c
      placeBranch info existing k e
  | .leaf n w, k, e =>
    if n = k then
      match e with
      | .val v => .ok (.leaf n v)
      | .hash h => .error (.existingHash h)
    else
      let info := prePost n k
      placeBranch info (.leaf (n.drop (info.pre.length + 1)) w) k e

/-- `trie_insert`. `mpt_trie/src/trie_ops.rs:307-319`. -/
def insert (t : Node) (k : Key) (e : Entry) : Except Fault Node := insertRec t k e

/-! ## delete -/

/-- `get_num_non_empty_children`. `mpt_trie/src/trie_ops.rs:808-810`. -/
def numNonEmpty (c : Nib → Node) : Nat :=
  (List.finRange 16).countP (fun i => !(c i).isEmpty)

/-- `get_other_non_empty_child_and_nibble_in_two_elem_branch`. `mpt_trie/src/trie_ops.rs:812-822`. -/
def otherChild (c : Nib → Node) (n : Nib) : Except Fault Nib :=
  match (List.finRange 16).find? (fun i => i != n && !(c i).isEmpty) with
  | some i => .ok i
  | none => .error .panic

/-- `collapse_ext_node_if_needed`. `mpt_trie/src/trie_ops.rs:652-687`. -/
def collapseExt (n : Key) (child : Node) (currKey : Key) (s : Strategy) : Except Fault Node :=
  match child with
  | .branch _ _ => .ok (.ext n child)
  | .ext n' c' => do return .ext (← mergeNibbles n n') c'
  | .leaf n' v => do return .leaf (← mergeNibbles n n') v
  | .hash h =>
    match s with
    | .collapseToExtension => .ok (.ext n child)
    | .reject => do
      let k ← mergeNibbles currKey n
      .error (.extCollapsedIntoHash k h)
  | .empty => .error .hashNodeExt

/-- `try_collapse_if_extension`. `mpt_trie/src/trie_ops.rs:615-626`. -/
def tryCollapse (t : Node) (currKey : Key) (s : Strategy) : Except Fault Node :=
  match t with
  | .ext n c => collapseExt n c currKey s
  | _ => .ok t

/-- `delete_intern`. `mpt_trie/src/trie_ops.rs:524-613`. -/
def deleteRec (s : Strategy) : Node → Key → Except Fault (Option (Node × Bytes))
  | .empty, _ => .ok none
  | .hash h, _ => .error (.hashNodeDelete h)
  | .branch c v, k =>
    match k with
    | [] => .ok (some (.branch c [], v))
    | n :: k =>
      match deleteRec s (c n) k with
      | .error f => .error f
      | .ok none => .ok none
      | .ok (some (u, w)) =>
        if u.isEmpty && decide (numNonEmpty c ≤ 2) then
          match otherChild c n with
          | .ok i => .ok (some (.ext [i] (c i), w))
          | .error f => .error f
        else
          match tryCollapse u k s with
          | .ok u' => .ok (some (.branch (upd c n u') v, w))
          | .error f => .error f
  | .ext n c, k =>
    if ident n k then
      match deleteRec s c (k.drop n.length) with
      | .error f => .error f
      | .ok none => .ok none
      | .ok (some (u, w)) =>
        match collapseExt n u (k.drop n.length) s with
        | .ok t => .ok (some (t, w))
        | .error f => .error f
    else .ok none
  | .leaf n v, k => .ok (if n = k then some (.empty, v) else none)

/-- `trie_delete`: the new root (unchanged if the key is absent) and the deleted value.
`mpt_trie/src/trie_ops.rs:381-406`. -/
def delete (s : Strategy) (t : Node) (k : Key) : Except Fault (Node × Option Bytes) :=
  match deleteRec s t k with
  | .error f => .error f
  | .ok none => .ok (t, none)
  | .ok (some (u, w)) =>
    match tryCollapse u [] s with
    | .ok t' => .ok (t', some w)
    | .error f => .error f

/-! ## iteration -/

/-- `IterStackEntry` / `BranchStackEntry`. `mpt_trie/src/trie_ops.rs:182-186, 189-193`. -/
inductive StackEntry where
  | root (t : Node)
  | ext (numNibbles : Nat)
  | branch (c : Nib → Node) (v : Bytes) (currNib : Nat)

/-- `PartialTrieIter`. `mpt_trie/src/trie_ops.rs:197-200`. The top of the stack is the head. -/
structure Iter where
  key : Key
  stack : List StackEntry

/-- `TrieNodeType::from(child) != Hash`. `mpt_trie/src/trie_ops.rs:225`. -/
def Node.isHash : Node → Bool
  | .hash _ => true
  | _ => false

/-- `advance_iter_to_next_empty_leaf_or_hash_node`. `mpt_trie/src/trie_ops.rs:204-239`. -/
def advance : Node → Key → Iter → Except Fault (Iter × Option (Key × Entry))
  | .empty, _, it => .ok (it, none)
  | .hash h, k, it => .ok (it, some (k, .hash h))
  | .branch c v, k, it =>
    match mergeNibble k 0 with
    | .error f => .error f
    | .ok k' => advance (c 0) k' { key := k, stack := .branch c v 1 :: it.stack }
  | .ext n c, k, it =>
    match mergeNibbles k n with
    | .error f => .error f
    | .ok k' =>
      advance c k' (if c.isHash then it else { it with stack := .ext n.length :: it.stack })
  | .leaf n v, k, it =>
    match mergeNibbles k n with
    | .error f => .error f
    | .ok k' => .ok (it, some (k', .val v))

/-- One iteration of the `while` loop of `next`; `none` when the stack is empty.
`mpt_trie/src/trie_ops.rs:246-301`. -/
def iterStep (it : Iter) : Except Fault (Option (Iter × Option (Key × Entry))) :=
  match it.stack with
  | [] => .ok none
  | .root t :: st =>
    match advance t [] { it with stack := st } with
    | .ok r => .ok (some r)
    | .error f => .error f
  | .ext n :: st => .ok (some ({ key := truncBack it.key n, stack := st }, none))
  | .branch c v i :: st =>
    if h : 1 ≤ i ∧ i ≤ 15 then
      let nib : Nib := ⟨i, by omega⟩
      match mergeNibble it.key nib with
      | .error f => .error f
      | .ok k =>
        match advance (c nib) k { it with stack := .branch c v (i + 1) :: st } with
        | .ok r => .ok (some r)
        | .error f => .error f
    else if i = 16 then
      let res := if v.isEmpty then none else some (it.key, Entry.val v)
      .ok (some ({ key := truncBack it.key 1, stack := st }, res))
    else .error .panic

/-- Collecting the iterator (`next` until `None`), as a loop with fuel: `none` means out of fuel. -/
def collect : Nat → Iter → Option (Except Fault (List (Key × Entry)))
  | 0, _ => none
  | fuel + 1, it =>
    match iterStep it with
    | .error f => some (.error f)
    | .ok none => some (.ok [])
    | .ok (some (it', out)) =>
      match collect fuel it' with
      | none => none
      | some (.error f) => some (.error f)
      | some (.ok l) => some (.ok (out.toList ++ l))

/-- `trie_items`. `mpt_trie/src/trie_ops.rs:408-413`. -/
def itemsInit (t : Node) : Iter := { key := [], stack := [.root t] }

end Verif.Mpt
