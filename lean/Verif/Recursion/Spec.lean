import Verif.Recursion.Circuits
import Mathlib.Data.List.Chain

/-!
# What a recursive proof stands for

Specification of C73-C76, written without the circuits: lists of segments, of batches and of blocks. Only the public value structures and
the constants of the setup (`segment`, the two labels, the initial memory, the empty trie root, the hash) are used.
-/
namespace Verif.Recursion

open Verif.Stark (F)

/-- Two blocks' metadata agree in everything but blob gas used, excess blob gas and the parent beacon block root. -/
structure Metadata.AgreeButBlob (a b : Metadata) : Prop where
  beneficiary : a.beneficiary = b.beneficiary
  timestamp : a.timestamp = b.timestamp
  number : a.number = b.number
  difficulty : a.difficulty = b.difficulty
  random : a.random = b.random
  gaslimit : a.gaslimit = b.gaslimit
  chainId : a.chainId = b.chainId
  baseFee : a.baseFee = b.baseFee
  gasUsed : a.gasUsed = b.gasUsed
  bloom : a.bloom = b.bloom

/-- `l` is one uninterrupted execution, cut into proven segments: each segment takes over registers and memory where its predecessor left
them, all segments are about the same transactions (trie roots, block hashes, extra data), and `pv` has the registers and memory at
the two ends. -/
structure SegRun (S : Setup) (l : List PV) (pv : PV) : Prop where
  proven : ∀ s ∈ l, S.segment s
  contiguous : l.IsChain fun a b => a.regsAfter = b.regsBefore ∧ a.memAfter = b.memBefore
  starts : ∃ a, l.head? = some a ∧ a.regsBefore = pv.regsBefore ∧ a.memBefore = pv.memBefore ∧ a.metadata = pv.metadata
  ends : ∃ b, l.getLast? = some b ∧ b.regsAfter = pv.regsAfter ∧ b.memAfter = pv.memAfter
  roots : ∀ s ∈ l, s.rootsBefore = pv.rootsBefore ∧ s.rootsAfter = pv.rootsAfter
  hashes : ∀ s ∈ l, s.hashes = pv.hashes
  extra : ∀ s ∈ l, s.extra = pv.extra
  metadata : ∀ s ∈ l, s.metadata.AgreeButBlob pv.metadata

/-- A `SegRun` all of whose segments have the metadata and the burn address of `pv`. -/
structure FullSegRun (S : Setup) (l : List PV) (pv : PV) : Prop extends SegRun S l pv where
  allMetadata : ∀ s ∈ l, s.metadata = pv.metadata
  burn : S.cdk = true → ∀ s ∈ l, s.burn = pv.burn

/-- Execution starts at the kernel's entry point with the kernel's initial memory and an empty stack, and ends at its exit point. -/
structure CompleteRun (S : Setup) (pv : PV) : Prop where
  entry : pv.regsBefore.pc = S.mainLabel ∧ pv.regsBefore.isKernel = 1 ∧ pv.regsBefore.stackLen = 0 ∧
    pv.regsBefore.context = 0 ∧ pv.regsBefore.gasUsed = 0
  memory : pv.memBefore = S.initCap
  exit : pv.regsAfter.pc = S.haltLabel ∧ pv.regsAfter.isKernel = 1 ∧ pv.regsAfter.stackLen = 0 ∧ pv.regsAfter.context = 0

/-- `bs` are batches of transactions of one block, each a complete kernel run, each starting from the tries, the transaction
number and the gas at which its predecessor ended; `pv` has what is at the two ends. -/
structure BatchRun (S : Setup) (bs : List PV) (pv : PV) : Prop where
  proven : ∀ b ∈ bs, ∃ l, SegRun S l b
  complete : ∀ b ∈ bs, CompleteRun S b
  linked : bs.IsChain fun a b =>
    a.rootsAfter = b.rootsBefore ∧ a.extra.txnAfter = b.extra.txnBefore ∧ a.extra.gasAfter = b.extra.gasBefore
  starts : ∃ a, bs.head? = some a ∧ a.rootsBefore = pv.rootsBefore ∧ a.extra.txnBefore = pv.extra.txnBefore ∧
    a.extra.gasBefore = pv.extra.gasBefore
  ends : ∃ b, bs.getLast? = some b ∧ b.rootsAfter = pv.rootsAfter ∧ b.extra.txnAfter = pv.extra.txnAfter ∧
    b.extra.gasAfter = pv.extra.gasAfter
  metadata : ∀ b ∈ bs, b.metadata = pv.metadata
  hashes : ∀ b ∈ bs, b.hashes = pv.hashes
  checkpointRoot : ∀ b ∈ bs, b.extra.checkpointRoot = pv.extra.checkpointRoot
  burn : S.cdk = true → ∀ b ∈ bs, b.burn = pv.burn

/-- A `BatchRun` all of whose batches have the checkpoint hash of `pv`. -/
structure FullBatchRun (S : Setup) (bs : List PV) (pv : PV) : Prop extends BatchRun S bs pv where
  checkpointHash : ∀ b ∈ bs, b.extra.checkpointHash = pv.extra.checkpointHash

/-- `b` is a whole block: batches from the empty transaction and receipt tries on, using all the gas the header states. -/
structure WholeBlock (S : Setup) (b : PV) : Prop where
  batches : ∃ bs, BatchRun S bs b
  txn : b.extra.txnBefore = 0
  gas : b.extra.gasBefore = 0
  txnTrie : b.rootsBefore.txns = S.emptyRoot
  receiptTrie : b.rootsBefore.receipts = S.emptyRoot
  gasUsed : b.metadata.gasUsed = b.extra.gasAfter

/-- Block `b` may follow block `a`. The 256 previous hashes of `b` are those of `a` without the oldest and with the hash of `a`. -/
structure Follows (a b : PV) : Prop where
  state : a.rootsAfter.state = b.rootsBefore.state
  number : b.metadata.number = a.metadata.number + 1
  time : ∃ d : ℕ, d < 2 ^ 32 ∧ b.metadata.timestamp = a.metadata.timestamp + d
  hashes : List.ofFn b.hashes.prev = (List.ofFn a.hashes.prev).drop 8 ++ List.ofFn a.hashes.cur

/-- `bl` is a chain of whole blocks that starts at the checkpoint `pv` names and ends with what `pv` says of the last block. -/
structure Chain (S : Setup) (bl : List PV) (pv : PV) : Prop where
  blocks : ∀ b ∈ bl, WholeBlock S b
  linked : bl.IsChain Follows
  starts : ∃ a, bl.head? = some a ∧ a.rootsBefore.state = pv.extra.checkpointRoot ∧
    a.extra.checkpointHash = S.hash (List.ofFn a.hashes.prev)
  ends : ∃ b, bl.getLast? = some b ∧ b.rootsAfter = pv.rootsAfter ∧ b.metadata = pv.metadata ∧ b.hashes = pv.hashes ∧
    b.extra = pv.extra
  checkpointRoot : ∀ b ∈ bl, b.extra.checkpointRoot = pv.extra.checkpointRoot
  burn : S.cdk = true → ∀ b ∈ bl, b.burn = pv.burn

/-- A `Chain` whose blocks also share chain id and checkpoint hash, and whose first block starts from the trie roots `pv` shows. -/
structure FullChain (S : Setup) (bl : List PV) (pv : PV) : Prop extends Chain S bl pv where
  chainId : ∀ b ∈ bl, b.metadata.chainId = pv.metadata.chainId
  checkpointHash : ∀ b ∈ bl, b.extra.checkpointHash = pv.extra.checkpointHash
  rootsBefore : ∀ a, bl.head? = some a → a.rootsBefore = pv.rootsBefore

/-- What the final public values say about a chain: where it started, where it ended. -/
structure Describes (S : Setup) (f : FinalPV) (bl : List PV) : Prop where
  blocks : ∀ b ∈ bl, WholeBlock S b
  linked : bl.IsChain Follows
  starts : ∃ a, bl.head? = some a ∧ a.rootsBefore.state = f.checkpointRoot
  ends : ∃ b, bl.getLast? = some b ∧ b.rootsAfter.state = f.newRoot ∧ b.metadata.chainId = f.chainId ∧
    S.hash ((List.ofFn b.hashes.prev).drop 8 ++ List.ofFn b.hashes.cur) = f.newHash

/-- The same, with every block on the chain `f` names and the checkpoint hash `f` shows being that of the first block's ancestors. -/
structure FullyDescribes (S : Setup) (f : FinalPV) (bl : List PV) : Prop extends Describes S f bl where
  chainId : ∀ b ∈ bl, b.metadata.chainId = f.chainId
  checkpointHash : ∀ a, bl.head? = some a → S.hash (List.ofFn a.hashes.prev) = f.checkpointHash

end Verif.Recursion
