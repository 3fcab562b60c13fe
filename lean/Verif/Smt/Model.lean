import Verif.Smt.Key
/-!
# The sparse Merkle tree (`smt_trie/src/smt.rs`, `db.rs`, `utils.rs`)

Poseidon's permutation, cut to the first four outputs, is a parameter `H`.  A panic (`unwrap` on
`None`, failed assertion, `unreachable!`, index out of bounds) is a `Fault`.
-/
namespace Verif.Smt

/-- `U256`. -/
abbrev U256 := BitVec 256

/-- `Node([F; 12])`: three groups of four. `smt_trie/src/smt.rs:25-26`. -/
structure Nd where
  l : Key
  r : Key
  c : Key
deriving DecidableEq, Repr, Inhabited

/-- `[F::ONE, F::ZERO, F::ZERO, F::ZERO]`. -/
def Key.one : Key := ⟨1, 0, 0, 0⟩

/-- `Node::is_one_siblings`. `smt_trie/src/smt.rs:73-75`. -/
def Nd.isLeaf (n : Nd) : Bool := n.c.k0 == 1

/-- `sibling.0[b * 4..(b + 1) * 4]`. -/
def Nd.child (n : Nd) (b : Bool) : Key := if b then n.r else n.l

/-- `siblings[level].0[b..b + 4].copy_from_slice(&h)`. -/
def Nd.setChild (n : Nd) (b : Bool) (h : Key) : Nd := if b then { n with r := h } else { n with l := h }

/-- Why a call panics. -/
inductive Fault where
  | unwrapNone
  | unreachable
  | assertion
  | bounds
  | hitLeaf
  | nonEmpty
  | panic
deriving DecidableEq, Repr

/-- `MemoryDb`: every `set_node`, latest first. `smt_trie/src/db.rs:10-22`. -/
abbrev Db := List (Key × Nd)

/-- `get_node`. `smt_trie/src/db.rs:16-18`. -/
def Db.get (db : Db) (k : Key) : Option Nd :=
  match db with
  | [] => none
  | (k', n) :: db => if k' = k then some n else Db.get db k

/-- `set_node`. `smt_trie/src/db.rs:20-22`. -/
def Db.set (db : Db) (k : Key) (n : Nd) : Db := (k, n) :: db

/-- `f2limbs`: 32-bit limb `i`. `smt_trie/src/utils.rs:32-38`. -/
def limb (v : U256) (i : Nat) : Nat := (v >>> (32 * i)).toNat % 2 ^ 64 % 2 ^ 32

/-- `hash0(f2limbs(v))`'s argument, and the node stored for it. `smt_trie/src/smt.rs:93-99`. -/
def valNode (v : U256) : Nd :=
  ⟨⟨limb v 0, limb v 1, limb v 2, limb v 3⟩, ⟨limb v 4, limb v 5, limb v 6, limb v 7⟩, .zero⟩

/-- `limbs2f` on the first eight elements of a node. `smt_trie/src/utils.rs:40-48`. -/
def limbs2f (n : Nd) : U256 :=
  BitVec.ofNat 256 n.l.k0 + (BitVec.ofNat 256 n.l.k1 <<< 32) + (BitVec.ofNat 256 n.l.k2 <<< 64) +
    (BitVec.ofNat 256 n.l.k3 <<< 96) + (BitVec.ofNat 256 n.r.k0 <<< 128) +
    (BitVec.ofNat 256 n.r.k1 <<< 160) + (BitVec.ofNat 256 n.r.k2 <<< 192) +
    (BitVec.ofNat 256 n.r.k3 <<< 224)

/-- `get_unique_sibling`: `none` for -1. `smt_trie/src/utils.rs:77-97`. -/
def unique (n : Nd) : Option Nat :=
  match decide (n.l = .zero), decide (n.r = .zero), decide (n.c = .zero) with
  | false, true, true => some 0
  | true, false, true => some 1
  | true, true, false => some 2
  | _, _, _ => none

/-- `Smt`. `smt_trie/src/smt.rs:85-90`. `kv_store` is a function (`none`: not in the map). -/
structure Smt where
  db : Db
  kv : Key → Option U256
  root : Key

/-- `Smt::default`. -/
def Smt.empty : Smt := ⟨[], fun _ => none, .zero⟩

section
variable (H : Nd → Key)

/-- `self.hash0(x)`. `smt_trie/src/smt.rs:93-99`. -/
def hash0 (db : Db) (l r : Key) : Db × Key :=
  let n : Nd := ⟨l, r, .zero⟩
  (db.set (H n) n, H n)

/-- `self.hash_key_hash(k, h)`. `smt_trie/src/smt.rs:101-112`. -/
def hashKeyHash (db : Db) (k h : Key) : Db × Key :=
  let n : Nd := ⟨k, h, .one⟩
  (db.set (H n) n, H n)

/-- `self.hash0(f2limbs(value))`. -/
def hashVal (db : Db) (v : U256) : Db × Key := hash0 H db (valNode v).l (valNode v).r

/-- The loop of `get`. `smt_trie/src/smt.rs:122-159`. The first argument is the part of `keys` from
`level` on. -/
def getLoop (db : Db) (kv : Key → Option U256) (key : Key) : List Bool → List Bool → Key → Except Fault U256
  | keys, acc, r =>
    if r = .zero then .error .unreachable
    else
      match db.get r with
      | none => .error .unwrapNone
      | some n =>
        if n.isLeaf then
          match db.get n.r with
          | none => .error .unwrapNone
          | some a =>
            if Key.join acc n.l = key then
              if limbs2f a = (kv key).getD 0 then .ok (limbs2f a) else .error .assertion
            else if (kv key).getD 0 = 0 then .ok 0 else .error .assertion
        else
          match keys with
          | [] => .error .bounds
          | b :: keys => getLoop db kv key keys (acc ++ [b]) (n.child b)

/-- `Smt::get`. `smt_trie/src/smt.rs:114-160`. -/
def Smt.get (s : Smt) (key : Key) : Except Fault U256 := getLoop s.db s.kv key key.split [] s.root

/-- The siblings below which the search went, deepest first, each with the key bit taken.
`siblings` also holds the leaf found, which is never read before it is overwritten or truncated. -/
abbrev Stack := List (Bool × Nd)

/-- The first loop of `set`: stack, path, and `(found_key, found_rem_key, found_old_val_h)`.
`smt_trie/src/smt.rs:181-202`. -/
def descend (db : Db) : List Bool → List Bool → Stack → Key →
    Except Fault (Stack × List Bool × Option (Key × Key × Key))
  | keys, acc, st, r =>
    if r = .zero then .ok (st, acc, none)
    else
      match db.get r with
      | none => .error .unwrapNone
      | some n =>
        if n.isLeaf then
          match db.get n.r with
          | none => .error .unwrapNone
          | some _ => .ok (st, acc, some (Key.join acc n.l, n.l, n.r))
        else
          match keys with
          | [] => .error .bounds
          | b :: keys => descend db keys (acc ++ [b]) ((b, n) :: st) (n.child b)

/-- `siblings[level].0[b..b + 4].copy_from_slice(&h)` if `level >= 0`, else `new_root = h`. -/
def place (st : Stack) (root h : Key) : Stack × Key :=
  match st with
  | [] => ([], h)
  | (b, n) :: up => ((b, n.setChild b h) :: up, root)

/-- The last loop of `set`: hash the siblings upwards. `smt_trie/src/smt.rs:330-343`. -/
def finish : Db → Stack → Key → Db × Key
  | db, [], root => (db, root)
  | db, [(_, n)], _ => (db.set (H n) n, H n)
  | db, (_, n) :: (b, m) :: up, _ => finish (db.set (H n) n) ((b, m.setChild b (H n)) :: up) (H n)
termination_by _ st => st.length

/-- `while (u_key >= 0) && (level >= 0)` after the first iteration: skip siblings with a unique child.
`smt_trie/src/smt.rs:236-241`. -/
def popUnique : Stack → Stack
  | [] => []
  | (b, n) :: up => if (unique n).isSome then popUnique up else (b, n) :: up

/-- Removal of the key found. `smt_trie/src/smt.rs:211-264`. -/
def removeFound (db : Db) (st : Stack) (acc : List Bool) (root : Key) : Except Fault (Db × Stack × Key) :=
  match st with
  | [] => .ok (db, [], .zero)
  | (b, n) :: up =>
    let n := n.setChild b .zero
    match unique n with
    | none => .error .panic
    | some u =>
      match db.get (if u = 0 then n.l else if u = 1 then n.r else n.c) with
      | none => .error .unwrapNone
      | some m =>
        if m.isLeaf then
          match db.get m.r with
          | none => .error .unwrapNone
          | some _ =>
            if u = 0 ∨ u = 1 then
              let insKey := Key.join (acc.dropLast ++ [u != 0]) m.l
              let up := popUnique up
              let (db, h) := hashKeyHash H db (insKey.removeBits up.length) m.r
              let (st, root) := place up root h
              .ok (db, st, root)
            else .error .assertion
        else .ok (db, (b, n) :: up, root)

/-- `while keys.get_bit(level2) == found_keys.get_bit(level2)`: the number of further levels on which
the rest of the two paths agree. `smt_trie/src/smt.rs:282-284`. -/
def firstDiff : List Bool → List Bool → Except Fault Nat
  | a :: as, b :: bs => if a = b then (firstDiff as bs).map (· + 1) else .ok 0
  | _, _ => .error .bounds

/-- `while level2 != level`: a chain of nodes with one child, for the key bits (deepest first).
`smt_trie/src/smt.rs:300-307`. -/
def chain : Db → List Bool → Key → Db × Key
  | db, [], r => (db, r)
  | db, b :: bs, r =>
    let (db, r) := if b then hash0 H db .zero r else hash0 H db r .zero
    chain db bs r

/-- Insertion next to another leaf. `smt_trie/src/smt.rs:278-315`. -/
def splitLeaf (db : Db) (key : Key) (v : U256) (st : Stack) (foundKey oldValH root : Key) :
    Except Fault (Db × Stack × Key) :=
  let lvl := st.length
  let keys := key.split.drop lvl
  match firstDiff keys (foundKey.split.drop lvl) with
  | .error f => .error f
  | .ok m =>
    let level2 := lvl + m
    let (db, oldLeaf) := hashKeyHash H db (foundKey.removeBits (level2 + 1)) oldValH
    let (db, valH) := hashVal H db v
    let (db, newLeaf) := hashKeyHash H db (key.removeBits (level2 + 1)) valH
    let b := keys.getD m false
    let bb := (foundKey.split.drop lvl).getD m false
    let node : Nd := ((⟨.zero, .zero, .zero⟩ : Nd).setChild b newLeaf).setChild bb oldLeaf
    let (db, r2) := hash0 H db node.l node.r
    let (db, r2) := chain H db (keys.take m).reverse r2
    let (st, root) := place st root r2
    .ok (db, st, root)

/-- What `set` does between its two loops. `smt_trie/src/smt.rs:209-329`. -/
def update (db : Db) (key : Key) (v : U256) (root : Key) (st : Stack) (acc : List Bool) :
    Option (Key × Key × Key) → Except Fault (Db × Stack × Key)
  | none =>
    if v = 0 then .ok (db, st, root)
    else
      let (db, valH) := hashVal H db v
      let (db, leaf) := hashKeyHash H db (key.removeBits st.length) valH
      let (st, root) := place st root leaf
      .ok (db, st, root)
  | some (foundKey, foundRem, oldValH) =>
    if v = 0 then
      if key = foundKey then removeFound H db st acc root else .ok (db, st, root)
    else if key = foundKey then
      let (db, valH) := hashVal H db v
      let (db, leaf) := hashKeyHash H db foundRem valH
      let (st, root) := place st root leaf
      .ok (db, st, root)
    else splitLeaf H db key v st foundKey oldValH root

/-- `Smt::set`. `smt_trie/src/smt.rs:162-345`. -/
def Smt.set (s : Smt) (key : Key) (v : U256) : Except Fault Smt :=
  match descend s.db key.split [] [] s.root with
  | .error f => .error f
  | .ok (st, acc, found) =>
    match update H s.db key v s.root st acc found with
    | .error f => .error f
    | .ok (db, st, root) =>
      let (db, root) := finish H db st root
      .ok ⟨db, fun k => if k = key then (if v = 0 then none else some v) else s.kv k, root⟩

/-- `Smt::delete`. `smt_trie/src/smt.rs:347-351`. -/
def Smt.delete (s : Smt) (key : Key) : Except Fault Smt :=
  Smt.set H { s with kv := fun k => if k = key then none else s.kv k } key 0

/-- The loop of `set_hash`; the database lookup falls back to the zero node.
`smt_trie/src/smt.rs:361-373`. -/
def hashLoop (db : Db) : List Bool → Stack → Key → Except Fault (Stack × Key)
  | [], st, r => .ok (st, r)
  | b :: bs, st, r =>
    let n := (db.get r).getD ⟨.zero, .zero, .zero⟩
    if n.isLeaf then .error .hitLeaf else hashLoop db bs ((b, n) :: st) (n.child b)

/-- `Smt::set_hash`. `smt_trie/src/smt.rs:353-402`. -/
def Smt.setHash (s : Smt) (key : List Bool) (hash : Key) : Except Fault Smt :=
  match hashLoop s.db key [] s.root with
  | .error f => .error f
  | .ok (st, r) =>
    if r = .zero then
      let (st, root) := place st s.root hash
      let (db, root) := finish H s.db st root
      .ok { s with db, root }
    else .error .nonEmpty

end
end Verif.Smt
