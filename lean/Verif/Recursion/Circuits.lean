import Verif.Recursion.Values

/-!
# The aggregation circuits (`evm_arithmetization/src/fixed_recursive_verifier.rs`)

Each circuit is a predicate on its public inputs and its private witness. `Valid S owned vk pi` says that a proof with public inputs
`pi` is accepted under the verifier key `vk`. It is the least relation closed under the circuits, which is what "the proof system is
sound and complete" gives; the proof system itself (`plonky2`) is not modelled.

`owned = false` is the code. `owned = true` adds one check the code does not make: a proof verified inside another circuit under
a constant key must carry that key in its own public inputs. The difference is the subject of C78.
-/
namespace Verif.Recursion

open Verif.Stark (F)

/-- Verifier data as it appears in public inputs: the circuit digest (4 elements) and the cap of the constants and sigmas (16 hashes of
4 elements), `verification_key_len` (`recursive_verifier.rs`, plonky2 `VerifierCircuitTarget`). -/
abbrev VK : Type := Limbs 68

/-- The public inputs of a root, segment aggregation, batch aggregation or block proof: the public values, then the cyclic key
(`fixed_recursive_verifier.rs:1169-1170`, `1343-1344`, `1534`, `1597`). -/
@[ext] structure PI where
  pv : PV
  vk : VK

/-- `select_proof_with_pis` (plonky2), as far as public inputs are concerned. -/
def PI.select (c : F) (a b : PI) : PI where
  pv := .select c a.pv b.pv
  vk i := sel c (a.vk i) (b.vk i)

/-- What the circuits are built from. `segment` are the public values of the segments the STARK provers and the root circuit accept;
`foreign` are the proofs anyone can make with circuits of their own that have the same shape as the aggregation circuits (plonky2 lets
anyone build circuits; a key is only a commitment to one). -/
structure Setup where
  rootVK : VK
  segVK : VK
  batchVK : VK
  blockVK : VK
  segment : PV → Prop
  foreign : VK → PI → Prop
  /-- `hash_n_to_hash_no_pad` of the inner hasher. -/
  hash : List F → Limbs 4
  /-- `KERNEL.global_labels["main"]`. -/
  mainLabel : F
  /-- `KERNEL.global_labels["halt"]`. -/
  haltLabel : F
  /-- `initial_memory_merkle_cap`. -/
  initCap : MemCap
  /-- `h256_limbs(HashedPartialTrie::from(Node::Empty).hash())`. -/
  emptyRoot : Limbs 8
  /-- Whether the crate is built with the feature `cdk_erigon`. -/
  cdk : Bool

/-- `AggregationChildTarget` (`fixed_recursive_verifier.rs:379-383`). -/
structure AggChild where
  isAgg : F
  agg : PI
  base : PI

/-- `AggregationChildTarget::public_values` (`fixed_recursive_verifier.rs:404-411`). -/
def AggChild.pv (c : AggChild) : PV := .select c.isAgg c.agg.pv c.base.pv

/-- `AggregationChildWithDummyTarget` (`fixed_recursive_verifier.rs:281-286`). -/
structure DummyChild where
  isAgg : F
  isDummy : F
  agg : PI
  real : PI

/-- `AggregationChildWithDummyTarget::public_values` (`fixed_recursive_verifier.rs:312-320`). -/
def DummyChild.pv (c : DummyChild) : PV := .select c.isAgg c.agg.pv c.real.pv

/-- The constraints of `create_segment_aggregation_circuit` on the values (`fixed_recursive_verifier.rs:1183-1312`), with the bits of
`add_segment_agg_child` and `add_segment_agg_child_with_dummy`. -/
structure SegAgg (S : Setup) (pv : PV) (lhs : AggChild) (rhs : DummyChild) : Prop where
  lhsBit : IsBool lhs.isAgg
  rhsBit : IsBool rhs.isAgg
  dummyBit : IsBool rhs.isDummy
  rootsBeforeL : pv.rootsBefore.connect lhs.pv.rootsBefore
  rootsAfterL : pv.rootsAfter.connect lhs.pv.rootsAfter
  metadataL : pv.metadata.connect lhs.pv.metadata
  hashesL : pv.hashes.connect lhs.pv.hashes
  extraL : pv.extra.connect lhs.pv.extra
  regsBeforeL : pv.regsBefore.connect lhs.pv.regsBefore
  memBeforeL : connectCap pv.memBefore lhs.pv.memBefore
  rootsBeforeR : pv.rootsBefore.condEq (1 - rhs.isDummy) rhs.pv.rootsBefore
  rootsAfterR : pv.rootsAfter.condEq (1 - rhs.isDummy) rhs.pv.rootsAfter
  burnLR : S.cdk = true → condEqBurn (1 - rhs.isDummy) lhs.pv.burn rhs.pv.burn
  burnR : S.cdk = true → condEqBurn (1 - rhs.isDummy) pv.burn rhs.pv.burn
  metadataR : pv.metadata.condEq (1 - rhs.isDummy) rhs.pv.metadata
  hashesR : pv.hashes.condEq (1 - rhs.isDummy) rhs.pv.hashes
  extraR : pv.extra.condEq (1 - rhs.isDummy) rhs.pv.extra
  regsAfterR : pv.regsAfter.condEq (1 - rhs.isDummy) rhs.pv.regsAfter
  regsLR : lhs.pv.regsAfter.condEq (1 - rhs.isDummy) rhs.pv.regsBefore
  memAfterR : condEqCap (1 - rhs.isDummy) pv.memAfter rhs.pv.memAfter
  memLR : condEqCap (1 - rhs.isDummy) lhs.pv.memAfter rhs.pv.memBefore
  dummyLeaf : rhs.isDummy * lhs.isAgg = 0
  memAfterD : condEqCap rhs.isDummy pv.memAfter lhs.pv.memAfter
  regsAfterD : pv.regsAfter.condEq rhs.isDummy lhs.pv.regsAfter

/-- `connect_extra_public_values` (`fixed_recursive_verifier.rs:1634-1670`). -/
structure ConnectExtra (pv lhs rhs : Extra) : Prop where
  rootR : ∀ i, pv.checkpointRoot i = rhs.checkpointRoot i
  rootL : ∀ i, pv.checkpointRoot i = lhs.checkpointRoot i
  txnBefore : pv.txnBefore = lhs.txnBefore
  txnAfter : pv.txnAfter = rhs.txnAfter
  txnLR : lhs.txnAfter = rhs.txnBefore
  gasBefore : pv.gasBefore = lhs.gasBefore
  gasAfter : pv.gasAfter = rhs.gasAfter
  gasLR : lhs.gasAfter = rhs.gasBefore

/-- `connect_initial_final_segment` (`fixed_recursive_verifier.rs:1509-1526`). -/
structure InitialFinal (S : Setup) (x : PV) : Prop where
  stackBefore : x.regsBefore.stackLen = 0
  stackAfter : x.regsAfter.stackLen = 0
  contextBefore : x.regsBefore.context = 0
  contextAfter : x.regsAfter.context = 0
  gasBefore : x.regsBefore.gasUsed = 0
  kernelBefore : x.regsBefore.isKernel = 1
  kernelAfter : x.regsAfter.isKernel = 1
  pcAfter : x.regsAfter.pc = S.haltLabel
  pcBefore : x.regsBefore.pc = S.mainLabel

/-- The constraints of `create_batch_aggregation_circuit` on the values (`fixed_recursive_verifier.rs:1336-1437`), with
`check_init_merkle_cap` (`1485-1507`) and the bits of `add_batch_agg_child`. -/
structure BatchAgg (S : Setup) (pv : PV) (lhs rhs : AggChild) : Prop where
  lhsBit : IsBool lhs.isAgg
  rhsBit : IsBool rhs.isAgg
  hashesR : pv.hashes.connect rhs.pv.hashes
  hashesL : pv.hashes.connect lhs.pv.hashes
  metadataR : pv.metadata.connect rhs.pv.metadata
  metadataL : pv.metadata.connect lhs.pv.metadata
  rootsAfter : pv.rootsAfter.connect rhs.pv.rootsAfter
  rootsLR : lhs.pv.rootsAfter.connect rhs.pv.rootsBefore
  rootsBefore : pv.rootsBefore.connect lhs.pv.rootsBefore
  burnLR : S.cdk = true → connectBurn lhs.pv.burn rhs.pv.burn
  burnR : S.cdk = true → connectBurn pv.burn rhs.pv.burn
  extra : ConnectExtra pv.extra lhs.pv.extra rhs.pv.extra
  regsAfter : pv.regsAfter.connect rhs.pv.regsAfter
  regsBefore : pv.regsBefore.connect lhs.pv.regsBefore
  initialFinalR : InitialFinal S rhs.pv
  initialFinalL : InitialFinal S lhs.pv
  initCapR : connectCap rhs.pv.memBefore S.initCap
  initCapL : connectCap lhs.pv.memBefore S.initCap

/-- `connect_checkpoint_block` (`fixed_recursive_verifier.rs:1965-1994`). -/
structure Checkpoint (S : Setup) (x : PV) (hasNotParent : F) : Prop where
  root : ∀ i : Fin 8, hasNotParent * (x.rootsBefore.state i - x.extra.checkpointRoot i) = 0
  hash : ∀ i : Fin 4, condEq hasNotParent (x.extra.checkpointHash i) (S.hash (List.ofFn x.hashes.prev) i)

/-- `connect_initial_values_block` (`fixed_recursive_verifier.rs:2008-2025`). -/
structure InitialValues (S : Setup) (x : PV) : Prop where
  txn : x.extra.txnBefore = 0
  gas : x.extra.gasBefore = 0
  txns : ∀ i : Fin 8, x.rootsBefore.txns i = S.emptyRoot i
  receipts : ∀ i : Fin 8, x.rootsBefore.receipts i = S.emptyRoot i

/-- `connect_block_hashes` (`fixed_recursive_verifier.rs:1896-1914`). The index `8 * (i + 1) + j` of the code is `k + 8` with
`k = 8 * i + j < 255 * 8`. -/
structure ConnectHashes (lhs rhs : BlockHashes) : Prop where
  shift : ∀ (k : ℕ) (h : k < 2040), lhs.prev ⟨k + 8, by omega⟩ = rhs.prev ⟨k, by omega⟩
  last : ∀ i : Fin 8, lhs.cur i = rhs.prev ⟨2040 + i, by omega⟩

/-- The constraints of `create_block_circuit` on the values (`fixed_recursive_verifier.rs:1528-1595`), with `check_block_timestamp`
(`1623-1633`; `range_check(_, 32)` says that the value is below `2^32`), `connect_block_proof` (`1916-1963`) and
`connect_final_block_values_to_intermediary` (`1996-2007`). -/
structure BlockC (S : Setup) (pv : PV) (hasParent : F) (parent agg : PV) : Prop where
  bit : IsBool hasParent
  rootsBefore : pv.rootsBefore.connect parent.rootsBefore
  rootsAfter : pv.rootsAfter.connect agg.rootsAfter
  metadata : pv.metadata.connect agg.metadata
  hashes : pv.hashes.connect agg.hashes
  extra : pv.extra.connect agg.extra
  timestamp : (agg.metadata.timestamp - parent.metadata.timestamp).val < 2 ^ 32
  burnP : S.cdk = true → connectBurn parent.burn agg.burn
  burn : S.cdk = true → connectBurn pv.burn agg.burn
  state : ∀ i : Fin 8, parent.rootsAfter.state i = agg.rootsBefore.state i
  checkpointRoot : ∀ i : Fin 8, parent.extra.checkpointRoot i = agg.extra.checkpointRoot i
  number : parent.metadata.number = agg.metadata.number - 1
  initial : InitialValues S agg
  gasUsed : agg.metadata.gasUsed = agg.extra.gasAfter
  checkpoint : Checkpoint S agg (1 - hasParent)
  blockHashes : ConnectHashes parent.hashes agg.hashes

/-- Which proofs are accepted.

`conditionally_verify_cyclic_proof(cond, cyclic, other, key)` (plonky2) connects the key in the public inputs of `cyclic` to the
circuit's own public key and verifies `cyclic` under that key if `cond`, otherwise `other` under `key`. The variant `_or_dummy` used
by the block circuit verifies in the second case a dummy proof that says nothing, so that the public inputs of `cyclic` are
free up to the key. -/
inductive Valid (S : Setup) (owned : Bool) : VK → PI → Prop
  /-- The root circuit (`fixed_recursive_verifier.rs:943-1163`); it does not look at its cyclic key. -/
  | root (pi : PI) (h : S.segment pi.pv) : Valid S owned S.rootVK pi
  /-- Anybody's circuit, under a key that is none of the four. -/
  | foreign (vk : VK) (pi : PI) (h : S.foreign vk pi) (h1 : vk ≠ S.rootVK) (h2 : vk ≠ S.segVK) (h3 : vk ≠ S.batchVK)
      (h4 : vk ≠ S.blockVK) : Valid S owned vk pi
  /-- The segment aggregation circuit (`fixed_recursive_verifier.rs:1165-1334`, `1672-1725`). -/
  | seg (pi : PI) (lhs : AggChild) (rhs : DummyChild) (h : SegAgg S pi.pv lhs rhs)
      (hlk : lhs.agg.vk = pi.vk) (hla : lhs.isAgg = 1 → Valid S owned pi.vk lhs.agg)
      (hlb : lhs.isAgg = 0 → Valid S owned S.rootVK lhs.base)
      (hrk : rhs.agg.vk = pi.vk) (hra : rhs.isAgg = 1 → Valid S owned pi.vk rhs.agg)
      (hrb : rhs.isAgg = 0 → Valid S owned S.rootVK (.select rhs.isDummy lhs.base rhs.real)) : Valid S owned S.segVK pi
  /-- The batch aggregation circuit (`fixed_recursive_verifier.rs:1336-1446`, `1727-1751`). -/
  | batch (pi : PI) (lhs rhs : AggChild) (h : BatchAgg S pi.pv lhs rhs)
      (hlk : lhs.agg.vk = pi.vk) (hla : lhs.isAgg = 1 → Valid S owned pi.vk lhs.agg)
      (hlb : lhs.isAgg = 0 → Valid S owned S.segVK lhs.base) (hlo : owned = true → lhs.isAgg = 0 → lhs.base.vk = S.segVK)
      (hrk : rhs.agg.vk = pi.vk) (hra : rhs.isAgg = 1 → Valid S owned pi.vk rhs.agg)
      (hrb : rhs.isAgg = 0 → Valid S owned S.segVK rhs.base) (hro : owned = true → rhs.isAgg = 0 → rhs.base.vk = S.segVK) :
      Valid S owned S.batchVK pi
  /-- The block circuit (`fixed_recursive_verifier.rs:1528-1621`). -/
  | block (pi : PI) (hasParent : F) (parent agg : PI) (h : BlockC S pi.pv hasParent parent.pv agg.pv)
      (hpk : parent.vk = pi.vk) (hp : hasParent = 1 → Valid S owned pi.vk parent)
      (ha : Valid S owned S.batchVK agg) (hao : owned = true → agg.vk = S.batchVK) : Valid S owned S.blockVK pi

/-- `verify_block` (`fixed_recursive_verifier.rs:2703-2710`), and with the other keys `verify_segment_aggregation` and
`verify_batch_aggregation` of the tests (`3306-3330`): the proof is accepted under the key and carries the key. -/
def Accepted (S : Setup) (owned : Bool) (vk : VK) (pi : PI) : Prop := Valid S owned vk pi ∧ pi.vk = vk

/-- `FinalPublicValuesTarget` (`proof.rs:219-230`). -/
@[ext] structure FinalPV where
  chainId : F
  checkpointRoot : Limbs 8
  newRoot : Limbs 8
  checkpointHash : Limbs 4
  newHash : Limbs 4

/-- `FinalPublicValuesTarget::connect_parent` (`proof.rs:266-308`). -/
structure ConnectParent (S : Setup) (f : FinalPV) (pv : PV) : Prop where
  chainId : f.chainId = pv.metadata.chainId
  rootBefore : ∀ i : Fin 8, f.checkpointRoot i = pv.rootsBefore.state i
  rootAfter : ∀ i : Fin 8, f.newRoot i = pv.rootsAfter.state i
  checkpoint : ∀ i : Fin 8, f.checkpointRoot i = pv.extra.checkpointRoot i
  checkpointHash : ∀ i : Fin 4, f.checkpointHash i = pv.extra.checkpointHash i
  newHash : ∀ i : Fin 4, f.newHash i = S.hash ((List.ofFn pv.hashes.prev).drop 8 ++ List.ofFn pv.hashes.cur) i

/-- `create_block_wrapper_circuit` (`fixed_recursive_verifier.rs:1753-1805`), verified by `verify_block_wrapper` (`2760-2767`). -/
def WrapperValid (S : Setup) (owned : Bool) (f : FinalPV) : Prop :=
  ∃ block : PI, Valid S owned S.blockVK block ∧ (owned = true → block.vk = S.blockVK) ∧ ConnectParent S f block.pv

end Verif.Recursion
