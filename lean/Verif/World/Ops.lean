import Verif.Mpt.Collapse
import Verif.Mpt.Subset
import Verif.World.Keys
/-!
# The interface `World` of the trace decoder (`evm_arithmetization/src/world.rs`)

`&mut self` methods return the new world.  `anyhow::Result` and panics are `Except Err`.
-/
namespace Verif.World
open Mpt (Key Bytes Node Fault H256 Entry)

/-- `U256`. -/
abbrev U256 := BitVec 256
/-- `Address`: 20 bytes (the length plays no role in the model). -/
abbrev Addr := Bytes

/-- Why an operation stops: a trie error, a sub-trie error, any other `anyhow` error, or a panic. -/
inductive Err where
  | trie (f : Fault)
  | subset (f : Mpt.SubsetFault)
  | noAccount
  | noStorage
  | noCode
  | badRlp
  | badReceipt
  | genesis
  | zero
  | badInput
  | overflow
deriving DecidableEq

/-- A trie result as a result of the decoder (`?` on `TrieOpResult`). -/
def ofTrie {α} : Except Fault α → Except Err α
  | .ok a => .ok a
  | .error f => .error (.trie f)

/-- A sub-trie result as a result of the decoder (`?` on `SubsetTrieResult`). -/
def ofSubset {α} : Except Mpt.SubsetFault α → Except Err α
  | .ok a => .ok a
  | .error f => .error (.subset f)

/-- `trait World`. `evm_arithmetization/src/world.rs:37-117`. `P` is `SubtriePath`, `pathOf` its
`From<Address>`, `codeHash` is `CodeHasher::hash`. Sets of paths are lists. -/
structure Ops (W P : Type) where
  contains : W → Addr → Except Err Bool
  updateBalance : W → Addr → (U256 → Except Err U256) → Except Err W
  updateNonce : W → Addr → (U256 → Except Err U256) → Except Err W
  setCode : W → Addr → Bytes ⊕ H256 → Except Err W
  reportingDestroy : W → Addr → Except Err (W × Option P)
  createStorage : W → Addr → Except Err W
  destroyStorage : W → Addr → Except Err W
  storeInt : W → Addr → U256 → U256 → Except Err W
  storeHash : W → Addr → H256 → H256 → Except Err W
  loadInt : W → Addr → U256 → Except Err U256
  reportingDestroySlot : W → Addr → U256 → Except Err (W × Option Key)
  maskStorage : W → List (Addr × List Key) → Except Err W
  mask : W → List P → Except Err W
  root : W → H256
  pathOf : Addr → P
  codeHash : Bytes → H256

theorem bind_ok {ε α β} {x : Except ε α} {f : α → Except ε β} {b : β} :
    (x >>= f) = .ok b ↔ ∃ a, x = .ok a ∧ f a = .ok b := by
  cases x <;> simp [bind, Except.bind]

theorem ofTrie_ok {α} {x : Except Fault α} {a : α} : ofTrie x = .ok a ↔ x = .ok a := by
  cases x <;> simp [ofTrie]

theorem ofSubset_ok {α} {x : Except Mpt.SubsetFault α} {a : α} : ofSubset x = .ok a ↔ x = .ok a := by
  cases x <;> simp [ofSubset]

end Verif.World
