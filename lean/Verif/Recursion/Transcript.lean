import Verif.Recursion.Native
import Mathlib.Data.Multiset.Basic
import Mathlib.Tactic.Abel

/-!
# What the challenges depend on, and what is compared with memory

`get_challenges.rs`, `verifier.rs:315-513` (outside circuits) and `recursive_verifier.rs:352-654` (inside circuits).
-/
namespace Verif.Recursion

open Verif.Stark (F P)

/-- `GlobalMetadata` (`cpu/kernel/constants/global_metadata.rs:11-116`), in declaration order. -/
inductive GM
  | largestContext | memorySize | trieDataSize | stateTrieRoot | transactionTrieRoot | receiptTrieRoot
  | stateTrieRootDigestBefore | transactionTrieRootDigestBefore | receiptTrieRootDigestBefore
  | stateTrieRootDigestAfter | transactionTrieRootDigestAfter | receiptTrieRootDigestAfter
  | blockBeneficiary | blockTimestamp | blockNumber | blockDifficulty | blockRandom | blockGasLimit | blockChainId | blockBaseFee
  | blockBlobGasUsed | blockExcessBlobGas | blockGasUsed | blockGasUsedBefore | blockGasUsedAfter | blockCurrentHash | parentBeaconBlockRoot
  | refundCounter | accessedAddressesLen | accessedStorageKeysLen | selfDestructListLen | journalLen | journalDataLen | currentCheckpoint
  | touchedAddressesLen | accessListDataCost | contractCreation | isPrecompileFromEoa | callStackDepth | logsLen | logsDataLen
  | logsPayloadLen | txnNumberBefore | txnNumberAfter | createdContractsLen | kernelHash | kernelLen | accountsLinkedListNextAvailable
  | storageLinkedListNextAvailable | initialAccountsLinkedListLen | initialStorageLinkedListLen | transientStorageLen
  | blobVersionedHashesLen | burnAddr

/-- `GlobalMetadata::unscale` (`global_metadata.rs:122-124`): the position in the declaration. -/
def GM.unscale (g : GM) : ℕ := g.ctorIdx

example : GM.burnAddr.unscale = 53 := rfl

/-- Segments (`memory/segments.rs:25`, `59`, `74`, `77`), unscaled. -/
def segGlobalMetadata : ℕ := 5
def segGlobalBlockBloom : ℕ := 24
def segBlockHashes : ℕ := 32
def segRegistersStates : ℕ := 33

/-- A row of the memory table, as looked up: is-read, context, segment, index, eight value limbs, timestamp. -/
abbrev Row : Type := Fin 13 → F

/-- The row of a write to context 0 at timestamp 2 (`verifier.rs:501-510`, `recursive_verifier.rs:619-648`). -/
def mkRow (segment index : ℕ) (val : Limbs 8) : Row := fun k =>
  if h : 4 ≤ k.val ∧ k.val < 12 then val ⟨k.val - 4, by omega⟩
  else if k.val = 2 then segment else if k.val = 3 then index else if k.val = 12 then 2 else 0

/-- `GrandProductChallenge::combine` (starky): `Σ row[j] β^j + γ`. -/
def combine (β γ : F) (r : Row) : F := ∑ j : Fin 13, r j * β ^ j.val + γ

/-- The sum of the inverses. Inside circuits an inverse exists only for nonzero elements, outside `inverse` panics on zero; here the inverse of
zero is zero. -/
def lookingSum (β γ : F) (rows : List Row) : F := (rows.map fun r => (combine β γ r)⁻¹).sum

/-! ## Outside circuits -/

/-- The kernel: `KERNEL.code_hash` and `KERNEL.code.len()`. -/
structure KernelInfo where
  hash : H256
  len : ℕ

/-- The limbs of a native value (`verifier.rs:507-509`). -/
def nrow (segment index : ℕ) (v : U256) : Row := mkRow segment index (u256Limbs v)

/-- One register state (`verifier.rs:461-471`). -/
def nRegisters (off : ℕ) (r : NRegisters) : List Row :=
  [nrow segRegistersStates off r.pc, nrow segRegistersStates (off + 1) r.isKernel, nrow segRegistersStates (off + 2) r.stackLen,
    nrow segRegistersStates (off + 3) r.stackTop, nrow segRegistersStates (off + 4) r.context, nrow segRegistersStates (off + 5) r.gasUsed]

/-- One global metadata field. -/
def ngm (g : GM) (v : U256) : Row := nrow segGlobalMetadata g.unscale v

/-- The block hashes (`verifier.rs:454-459`); indexing panics if there are fewer than 256. -/
def nHashes (prev : List H256) : Option (List Row) :=
  if h : 256 ≤ prev.length then some (List.ofFn fun i : Fin 256 => nrow segBlockHashes i (h2u (prev[i.val]'(by omega)))) else none

/-- The rows summed by `get_memory_extra_looking_sum` (`verifier.rs:319-489`), in its order. `none` if there is no burn address in a build that
needs one, or fewer than 256 block hashes. -/
def nativeRows (ft : Features) (ker : KernelInfo) (pv : NPV) : Option (List Row) := do
  let burn ← bif ft.cdk then pv.burn.map fun b => [ngm .burnAddr b] else some []
  let hashes ← nHashes pv.hashes.prev
  let m := pv.metadata
  let e := pv.extra
  some (
    [ngm .blockBeneficiary (addressToU256 m.beneficiary)] ++ burn ++
    [ngm .blockTimestamp m.timestamp, ngm .blockNumber m.number, ngm .blockRandom (h2u m.random), ngm .blockDifficulty m.difficulty,
      ngm .blockGasLimit m.gaslimit, ngm .blockChainId m.chainId, ngm .blockBaseFee m.baseFee] ++
    (bif ft.mainnet then [ngm .parentBeaconBlockRoot (h2u m.beaconRoot)] else []) ++
    [ngm .blockCurrentHash (h2u pv.hashes.cur), ngm .blockGasUsed m.gasUsed] ++
    (bif ft.mainnet then [ngm .blockBlobGasUsed m.blobGasUsed, ngm .blockExcessBlobGas m.excessBlobGas] else []) ++
    [ngm .txnNumberBefore e.txnBefore, ngm .txnNumberAfter e.txnAfter, ngm .blockGasUsedBefore e.gasBefore, ngm .blockGasUsedAfter e.gasAfter,
      ngm .stateTrieRootDigestBefore (h2u pv.rootsBefore.state), ngm .transactionTrieRootDigestBefore (h2u pv.rootsBefore.txns),
      ngm .receiptTrieRootDigestBefore (h2u pv.rootsBefore.receipts), ngm .stateTrieRootDigestAfter (h2u pv.rootsAfter.state),
      ngm .transactionTrieRootDigestAfter (h2u pv.rootsAfter.txns), ngm .receiptTrieRootDigestAfter (h2u pv.rootsAfter.receipts),
      ngm .kernelHash (h2u ker.hash), ngm .kernelLen (.ofNat 256 ker.len)] ++
    (List.ofFn fun i : Fin 8 => nrow segGlobalBlockBloom i (m.bloom i)) ++ hashes ++ nRegisters 0 pv.regsBefore ++ nRegisters 6 pv.regsAfter)

/-- `observe_block_metadata` (`get_challenges.rs:45-81`). -/
def observeMetadata (ft : Features) (m : NMetadata) : Option (List F) := do
  let timestamp ← u256ToU32 m.timestamp
  let number ← u256ToU32 m.number
  let difficulty ← u256ToU32 m.difficulty
  let gaslimit ← u256ToU32 m.gaslimit
  let chainId ← u256ToU32 m.chainId
  let baseFee ← u256ToU64 m.baseFee
  let gasUsed ← u256ToU32 m.gasUsed
  let blob ← bif ft.mainnet then (do
      let blobGasUsed ← u256ToU64 m.blobGasUsed
      let excessBlobGas ← u256ToU64 m.excessBlobGas
      some ([blobGasUsed 0, blobGasUsed 1] ++ [excessBlobGas 0, excessBlobGas 1] ++ List.ofFn (h256Limbs m.beaconRoot))) else some []
  some ((List.ofFn (u256Limbs (addressToU256 m.beneficiary))).take 5 ++ [timestamp, number, difficulty] ++ List.ofFn (h256Limbs m.random) ++
    [gaslimit, chainId, baseFee 0, baseFee 1, gasUsed] ++ blob ++ (List.ofFn fun i : Fin 8 => List.ofFn (u256Limbs (m.bloom i))).flatten)

/-- `observe_trie_roots` (`get_challenges.rs:21-28`). -/
def observeRoots (r : NRoots) : List F :=
  List.ofFn (u256Limbs (h2u r.state)) ++ List.ofFn (u256Limbs (h2u r.txns)) ++ List.ofFn (u256Limbs (h2u r.receipts))

/-- `observe_block_hashes` (`get_challenges.rs:174-186`). -/
def observeHashes (h : NHashes) : Option (List F) :=
  if hl : 256 ≤ h.prev.length then
    some ((List.ofFn fun i : Fin 256 => List.ofFn (h256Limbs (h.prev[i.val]'(by omega)))).flatten ++ List.ofFn (h256Limbs h.cur))
  else none

/-- `observe_extra_block_data` (`get_challenges.rs:111-127`). -/
def observeExtra (e : NExtra) : Option (List F) := do
  let txnBefore ← u256ToU32 e.txnBefore
  let txnAfter ← u256ToU32 e.txnAfter
  let gasBefore ← u256ToU32 e.gasBefore
  let gasAfter ← u256ToU32 e.gasAfter
  some (List.ofFn (h256Limbs e.checkpointRoot) ++ List.ofFn e.checkpointHash ++ [txnBefore, txnAfter, gasBefore, gasAfter])

/-- `observe_public_values` (`get_challenges.rs:202-227`): the elements given to the challenger. -/
def observed (ft : Features) (pv : NPV) : Option (List F) := do
  let metadata ← observeMetadata ft pv.metadata
  let hashes ← observeHashes pv.hashes
  let extra ← observeExtra pv.extra
  let burn ← bif ft.cdk then pv.burn.map fun b => List.ofFn (u256Limbs b) else some []
  some (observeRoots pv.rootsBefore ++ observeRoots pv.rootsAfter ++ metadata ++ hashes ++ extra ++ burn)

/-! ## Inside circuits -/

/-- Up to eight limbs, the others zero (`recursive_verifier.rs:637-644`). -/
def pad (l : List F) : Limbs 8 := fun j => l.getD j 0

/-- `add_data_write` (`recursive_verifier.rs:615-654`). -/
def crow (segment index : ℕ) (l : List F) : Row := mkRow segment index (pad l)

/-- One global metadata field. -/
def cgm (g : GM) (l : List F) : Row := crow segGlobalMetadata g.unscale l

/-- `recursive_verifier.rs:566-586`. -/
def cRegisters (off : ℕ) (r : Registers) : List Row :=
  [crow segRegistersStates off [r.pc], crow segRegistersStates (off + 1) [r.isKernel], crow segRegistersStates (off + 2) [r.stackLen],
    crow segRegistersStates (off + 3) (List.ofFn r.stackTop), crow segRegistersStates (off + 4) [r.context],
    crow segRegistersStates (off + 5) [r.gasUsed]]

/-- The rows summed by `get_memory_extra_looking_sum_circuit` (`recursive_verifier.rs:352-607`), in its order. -/
def circuitRows (ft : Features) (ker : KernelInfo) (l : PV) : List Row :=
  let m := l.metadata
  let e := l.extra
  [cgm .blockTimestamp [m.timestamp], cgm .blockNumber [m.number], cgm .blockDifficulty [m.difficulty], cgm .blockGasLimit [m.gaslimit],
    cgm .blockChainId [m.chainId], cgm .blockGasUsed [m.gasUsed], cgm .blockGasUsedBefore [e.gasBefore], cgm .blockGasUsedAfter [e.gasAfter],
    cgm .txnNumberBefore [e.txnBefore], cgm .txnNumberAfter [e.txnAfter]] ++
  (bif ft.cdk then [cgm .burnAddr (List.ofFn l.burn)] else []) ++
  [cgm .blockBeneficiary (List.ofFn m.beneficiary), cgm .blockRandom (List.ofFn m.random), cgm .blockBaseFee (List.ofFn m.baseFee)] ++
  (bif ft.mainnet then [cgm .blockBlobGasUsed (List.ofFn m.blobGasUsed), cgm .blockExcessBlobGas (List.ofFn m.excessBlobGas),
    cgm .parentBeaconBlockRoot (List.ofFn m.beaconRoot)] else []) ++
  [cgm .blockCurrentHash (List.ofFn l.hashes.cur)] ++
  (List.ofFn fun i : Fin 256 => crow segBlockHashes i (List.ofFn fun k : Fin 8 => l.hashes.prev ⟨8 * i.val + k.val, by omega⟩)) ++
  (List.ofFn fun i : Fin 8 => crow segGlobalBlockBloom i (List.ofFn fun k : Fin 8 => m.bloom ⟨8 * i.val + k.val, by omega⟩)) ++
  [cgm .stateTrieRootDigestBefore (List.ofFn l.rootsBefore.state), cgm .transactionTrieRootDigestBefore (List.ofFn l.rootsBefore.txns),
    cgm .receiptTrieRootDigestBefore (List.ofFn l.rootsBefore.receipts), cgm .stateTrieRootDigestAfter (List.ofFn l.rootsAfter.state),
    cgm .transactionTrieRootDigestAfter (List.ofFn l.rootsAfter.txns), cgm .receiptTrieRootDigestAfter (List.ofFn l.rootsAfter.receipts),
    cgm .kernelHash (List.ofFn (h256Limbs ker.hash)), cgm .kernelLen [(ker.len : F)]] ++
  cRegisters 0 l.regsBefore ++ cRegisters 6 l.regsAfter

/-- `observe_trie_roots_target` (`get_challenges.rs:30-43`). -/
def observeRootsT (r : TrieRoots) : List F := List.ofFn r.state ++ List.ofFn r.txns ++ List.ofFn r.receipts

/-- `observe_block_metadata_target` (`get_challenges.rs:83-109`). -/
def observeMetadataT (ft : Features) (m : Metadata) : List F :=
  List.ofFn m.beneficiary ++ [m.timestamp, m.number, m.difficulty] ++ List.ofFn m.random ++ [m.gaslimit, m.chainId] ++ List.ofFn m.baseFee ++
  [m.gasUsed] ++ (bif ft.mainnet then List.ofFn m.blobGasUsed ++ List.ofFn m.excessBlobGas ++ List.ofFn m.beaconRoot else []) ++
  List.ofFn m.bloom

/-- `observe_extra_block_data_target` (`get_challenges.rs:129-145`). -/
def observeExtraT (e : Extra) : List F :=
  List.ofFn e.checkpointRoot ++ List.ofFn e.checkpointHash ++ [e.txnBefore, e.txnAfter, e.gasBefore, e.gasAfter]

/-- `observe_public_values_target` (`get_challenges.rs:229-246`). -/
def observedT (ft : Features) (l : PV) : List F :=
  observeRootsT l.rootsBefore ++ observeRootsT l.rootsAfter ++ observeMetadataT ft l.metadata ++
  (List.ofFn l.hashes.prev ++ List.ofFn l.hashes.cur) ++ observeExtraT l.extra ++ (bif ft.cdk then List.ofFn l.burn else [])

/-! ## Limbs of small values -/

theorem pad_lt {n : ℕ} (v : Fin n → F) (j : Fin 8) (h : j.val < n) : pad (List.ofFn v) j = v ⟨j.val, h⟩ := by
  rw [pad, List.getD_eq_getElem?_getD, List.getElem?_ofFn, dif_pos h]; rfl

theorem pad_ge {n : ℕ} (v : Fin n → F) (j : Fin 8) (h : ¬ j.val < n) : pad (List.ofFn v) j = 0 := by
  rw [pad, List.getD_eq_getElem?_getD, List.getElem?_ofFn, dif_neg h]; rfl

theorem pad_ofFn (v : Limbs 8) : pad (List.ofFn v) = v := funext fun j => pad_lt v j j.isLt

theorem limbs_u32 {n : U256} {x : F} (h : u256ToU32 n = some x) : u256Limbs n = pad [x] := by
  obtain ⟨hn, hx, _⟩ := u256ToU32_val h
  funext j
  rw [u256Limbs_eq]
  rcases Fin.eq_zero_or_eq_succ j with rfl | ⟨k, rfl⟩
  · show ((n.toNat / 2 ^ (32 * 0) % 2 ^ 32 : ℕ) : F) = x
    rw [hx, Nat.mul_zero, pow_zero, Nat.div_one, Nat.mod_eq_of_lt hn]
  · have : n.toNat / 2 ^ (32 * k.succ.val) = 0 := Nat.div_eq_of_lt (hn.trans_le (Nat.pow_le_pow_right (by decide) (by simp)))
    rw [this]
    simp [pad]

theorem limbs_u64 {n : U256} {x : Limbs 2} (h : u256ToU64 n = some x) : u256Limbs n = pad (List.ofFn x) := by
  unfold u256ToU64 at h
  split at h
  · next hn =>
    cases h
    funext j
    rw [u256Limbs_eq]
    by_cases hj : j.val < 2
    · rw [pad_lt _ _ hj]
    · have : n.toNat / 2 ^ (32 * j.val) = 0 := Nat.div_eq_of_lt (hn.trans_le (Nat.pow_le_pow_right (by decide) (by omega)))
      rw [this, pad_ge _ _ hj]
      rfl
  · cases h

theorem limbs_address (a : H160) : u256Limbs (addressToU256 a) = pad (List.ofFn (addressLimbs a)) := by
  funext j
  by_cases hj : j.val < 5
  · rw [pad_lt _ _ hj]; rfl
  · have : (addressToU256 a).toNat / 2 ^ (32 * j.val) = 0 :=
      Nat.div_eq_of_lt ((address_lt a).trans_le (Nat.pow_le_pow_right (by decide) (by omega)))
    rw [u256Limbs_eq, this, pad_ge _ _ hj]
    rfl

end Verif.Recursion
