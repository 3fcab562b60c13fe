import Mathlib.Data.Fin.Tuple.Basic
import Mathlib.Data.List.OfFn
import Mathlib.Tactic.Common

/-!
# Writing preprocessed circuits to bytes and reading them back

`evm_arithmetization/src/fixed_recursive_verifier.rs:160-630`, `651-790`, `2899-3075`, `proof.rs:203-264`, `622-850` and
`recursive_verifier.rs:88-160`.

What plonky2 writes (circuit data, proof targets, single targets, numbers) is taken as given: a type with a writer and a reader. The order
and completeness of the pieces is what this code decides, and that is modelled. A reader takes the bytes left and returns a value and the
bytes after it, or fails.
-/
namespace Verif.Recursion.Buffer

variable {B : Type}

/-- A reader of `α`: `IoResult<α>` with the buffer's position moved. -/
abbrev Rd (B α : Type) : Type := StateT (List B) Option α

/-! ## Specification -/

/-- The reader gets `a` back from `bytes`, whatever follows them, and refuses every proper beginning of `bytes`. -/
structure Reads {α : Type} (rd : Rd B α) (bytes : List B) (a : α) : Prop where
  back : ∀ rest, rd (bytes ++ rest) = some (a, rest)
  whole : ∀ p s, bytes = p ++ s → s ≠ [] → rd p = none

/-- A pair of a writer and a reader from plonky2, on the values for which they work. -/
structure Codec (B α : Type) where
  write : α → List B
  read : Rd B α
  Fits : α → Prop
  reads : ∀ a, Fits a → Reads read (write a) a

theorem Reads.pure {α : Type} (a : α) : Reads (B := B) (pure a) [] a where
  back _ := rfl
  whole p s h hs := by
    rcases List.append_eq_nil_iff.mp h.symm with ⟨_, rfl⟩
    exact absurd rfl hs

theorem Reads.bind {α β : Type} {rd : Rd B α} {k : α → Rd B β} {x y : List B} {a : α} {b : β} (h : Reads rd x a) (hk : Reads (k a) y b) :
    Reads (rd >>= k) (x ++ y) b where
  back rest := by
    show (rd (x ++ y ++ rest)).bind (fun p => k p.1 p.2) = _
    rw [List.append_assoc, h.back]
    exact hk.back rest
  whole p s e hs := by
    show (rd p).bind (fun p => k p.1 p.2) = none
    rcases List.append_eq_append_iff.mp e with ⟨t, rfl, rfl⟩ | ⟨t, rfl, rfl⟩
    · rw [h.back]
      exact hk.whole t s rfl hs
    · by_cases ht : t = []
      · subst ht
        rw [List.append_nil] at h
        have := h.back []
        rw [List.append_nil] at this
        rw [this]
        exact hk.whole [] _ rfl hs
      · rw [h.whole p t rfl ht]
        rfl

theorem Reads.map {α β : Type} {rd : Rd B α} {x : List B} {a : α} {f : α → β} (h : Reads rd x a) :
    Reads (do let v ← rd; Pure.pure (f v)) x (f a) := by
  have := h.bind (k := fun v => Pure.pure (f v)) (Reads.pure (f a))
  rwa [List.append_nil] at this

/-- A value with a leading part of no bytes. -/
theorem Reads.tail {α : Type} {rd : Rd B α} {x : List B} {a : α} (h : Reads rd x a) : Reads rd (x ++ []) a := by rwa [List.append_nil]

/-! ## Several values in a row -/

/-- `n` values in a row: `(0..n).map(|_| read)` or `read_target_array`. -/
def readArr {α : Type} (rd : Rd B α) : (n : ℕ) → Rd B (Fin n → α)
  | 0 => pure Fin.elim0
  | n + 1 => do
    let a ← rd
    let v ← readArr rd n
    pure (Fin.cons a v)

/-- `write_target_array` and loops over arrays. -/
def writeArr {α : Type} (wr : α → List B) {n : ℕ} (v : Fin n → α) : List B := (List.ofFn v).flatMap wr

theorem reads_arr {α : Type} {rd : Rd B α} {wr : α → List B} : ∀ {n : ℕ} (v : Fin n → α), (∀ i, Reads rd (wr (v i)) (v i)) →
    Reads (readArr rd n) (writeArr wr v) v
  | 0, v, _ => by
    have : v = Fin.elim0 := funext fun i => i.elim0
    rw [this]; exact Reads.pure _
  | n + 1, v, h => by
    have e : writeArr wr v = wr (v 0) ++ writeArr wr (Fin.tail v) := by
      simp only [writeArr, List.ofFn_succ, List.flatMap_cons]; rfl
    rw [e]
    have h' : Reads (do let w ← readArr rd n; Pure.pure (Fin.cons (v 0) w : Fin (n + 1) → α)) (writeArr wr (Fin.tail v)) v := by
      have := (reads_arr (Fin.tail v) fun i => h i.succ).map (f := fun w => (Fin.cons (v 0) w : Fin (n + 1) → α))
      rwa [Fin.cons_self_tail] at this
    exact (h 0).bind h'

/-- A loop that reads `n` values into a vector. -/
def readList {α : Type} (rd : Rd B α) : ℕ → Rd B (List α)
  | 0 => pure []
  | n + 1 => do
    let a ← rd
    let v ← readList rd n
    pure (a :: v)

theorem reads_list {α : Type} {rd : Rd B α} {wr : α → List B} : ∀ l : List α, (∀ a ∈ l, Reads rd (wr a) a) →
    Reads (readList rd l.length) (l.flatMap wr) l
  | [], _ => Reads.pure _
  | a :: l, h => (h a (by simp)).bind ((reads_list l fun b hb => h b (by simp [hb])).map (f := fun v => a :: v))

/-! ## What plonky2 provides -/

/-- The plonky2 types, and their writers and readers. -/
structure Plonky (B : Type) where
  Target : Type
  target : Codec B Target
  target_fits : ∀ t, target.Fits t
  BoolTarget : Type
  boolTarget : Codec B BoolTarget
  boolTarget_fits : ∀ t, boolTarget.Fits t
  /-- `write_usize`/`read_usize`. -/
  usize : Codec B ℕ
  usize_fits : ∀ n < 2 ^ 64, usize.Fits n
  bool : Codec B Bool
  bool_fits : ∀ b, bool.Fits b
  /-- `ProofWithPublicInputsTarget`. -/
  ProofTarget : Type
  proofTarget : Codec B ProofTarget
  /-- `VerifierCircuitTarget`. -/
  VkTarget : Type
  vkTarget : Codec B VkTarget
  Common : Type
  common : Codec B Common
  ProverOnly : Type
  /-- Reading and writing prover data depends on the common data. -/
  proverOnly : Common → Codec B ProverOnly
  VerifierOnly : Type
  verifierOnly : Codec B VerifierOnly
  /-- `ProofWithPublicInputs`; reading depends on the common data. -/
  Proof : Type
  proof : Common → Codec B Proof
  FriConfig : Type
  friConfig : Codec B FriConfig
  /-- `CircuitData` as one value (`write_circuit_data`). -/
  CircuitData : Type
  circuitData : Codec B CircuitData
  StarkProofTarget : Type
  starkProofTarget : Codec B StarkProofTarget
  /-- `GrandProductChallengeSet<Target>`. -/
  CtlSet : Type
  ctlSet : Codec B CtlSet

variable (K : Plonky B)

/-- `read_target_array`. -/
abbrev rdT (n : ℕ) : Rd B (Fin n → K.Target) := readArr K.target.read n

/-- `write_target_array`. -/
abbrev wrT {n : ℕ} (v : Fin n → K.Target) : List B := writeArr K.target.write v

theorem reads_T {n : ℕ} (v : Fin n → K.Target) : Reads (rdT K n) (wrT K v) v :=
  reads_arr v fun _ => K.target.reads _ (K.target_fits _)

theorem reads_t (t : K.Target) : Reads K.target.read (K.target.write t) t := K.target.reads _ (K.target_fits _)

theorem reads_b (t : K.BoolTarget) : Reads K.boolTarget.read (K.boolTarget.write t) t := K.boolTarget.reads _ (K.boolTarget_fits _)

/-! ## Public values -/

/-- `TrieRootsTarget` (`proof.rs:968-975`). -/
structure Roots where
  state : Fin 8 → K.Target
  txns : Fin 8 → K.Target
  receipts : Fin 8 → K.Target

/-- `BlockMetadataTarget` (`proof.rs:1162-1189`). -/
structure Metadata where
  beneficiary : Fin 5 → K.Target
  timestamp : K.Target
  number : K.Target
  difficulty : K.Target
  random : Fin 8 → K.Target
  gaslimit : K.Target
  chainId : K.Target
  baseFee : Fin 2 → K.Target
  gasUsed : K.Target
  blobGasUsed : Fin 2 → K.Target
  excessBlobGas : Fin 2 → K.Target
  beaconRoot : Fin 8 → K.Target
  bloom : Fin 64 → K.Target

/-- `BlockHashesTarget` (`proof.rs:1371-1378`). -/
structure Hashes where
  prev : Fin 2048 → K.Target
  cur : Fin 8 → K.Target

/-- `ExtraBlockDataTarget` (`proof.rs:1446-1464`). -/
structure Extra where
  checkpointRoot : Fin 8 → K.Target
  checkpointHash : Fin 4 → K.Target
  txnBefore : K.Target
  txnAfter : K.Target
  gasBefore : K.Target
  gasAfter : K.Target

/-- `RegistersDataTarget` (`proof.rs:1586-1599`). -/
structure Registers where
  pc : K.Target
  isKernel : K.Target
  stackLen : K.Target
  stackTop : Fin 8 → K.Target
  context : K.Target
  gasUsed : K.Target

/-- `PublicValuesTarget` (`proof.rs:628-649`). `burn` is `none` for `BurnAddrTarget::Burnt()`. -/
structure PVT where
  rootsBefore : Roots K
  rootsAfter : Roots K
  burn : Option (Fin 8 → K.Target)
  metadata : Metadata K
  hashes : Hashes K
  extra : Extra K
  regsBefore : Registers K
  regsAfter : Registers K
  memBefore : List (Fin 4 → K.Target)
  memAfter : List (Fin 4 → K.Target)

variable {K}

/-- `proof.rs:659-667`. -/
def Roots.toBuffer (r : Roots K) : List B := wrT K r.state ++ (wrT K r.txns ++ wrT K r.receipts)

/-- `proof.rs:767-771`. -/
def Roots.fromBuffer : Rd B (Roots K) := do
  let state ← rdT K 8
  let txns ← rdT K 8
  let receipts ← rdT K 8
  pure ⟨state, txns, receipts⟩

/-- `proof.rs:679-707`. -/
def Metadata.toBuffer (m : Metadata K) : List B :=
  wrT K m.beneficiary ++ (K.target.write m.timestamp ++ (K.target.write m.number ++ (K.target.write m.difficulty ++ (wrT K m.random ++
  (K.target.write m.gaslimit ++ (K.target.write m.chainId ++ (wrT K m.baseFee ++ (K.target.write m.gasUsed ++ (wrT K m.blobGasUsed ++
  (wrT K m.excessBlobGas ++ (wrT K m.beaconRoot ++ wrT K m.bloom)))))))))))

/-- `proof.rs:784-798`. -/
def Metadata.fromBuffer : Rd B (Metadata K) := do
  let beneficiary ← rdT K 5
  let timestamp ← K.target.read
  let number ← K.target.read
  let difficulty ← K.target.read
  let random ← rdT K 8
  let gaslimit ← K.target.read
  let chainId ← K.target.read
  let baseFee ← rdT K 2
  let gasUsed ← K.target.read
  let blobGasUsed ← rdT K 2
  let excessBlobGas ← rdT K 2
  let beaconRoot ← rdT K 8
  let bloom ← rdT K 64
  pure { beneficiary, timestamp, number, difficulty, random, gaslimit, chainId, baseFee, gasUsed, blobGasUsed, excessBlobGas, beaconRoot, bloom }

/-- `proof.rs:709-714`. -/
def Hashes.toBuffer (h : Hashes K) : List B := wrT K h.prev ++ wrT K h.cur

/-- `proof.rs:800-803`. -/
def Hashes.fromBuffer : Rd B (Hashes K) := do
  let prev ← rdT K 2048
  let cur ← rdT K 8
  pure ⟨prev, cur⟩

/-- `proof.rs:716-729`. -/
def Extra.toBuffer (e : Extra K) : List B :=
  wrT K e.checkpointRoot ++ (wrT K e.checkpointHash ++ (K.target.write e.txnBefore ++ (K.target.write e.txnAfter ++
  (K.target.write e.gasBefore ++ K.target.write e.gasAfter))))

/-- `proof.rs:805-812`. -/
def Extra.fromBuffer : Rd B (Extra K) := do
  let checkpointRoot ← rdT K 8
  let checkpointHash ← rdT K 4
  let txnBefore ← K.target.read
  let txnAfter ← K.target.read
  let gasBefore ← K.target.read
  let gasAfter ← K.target.read
  pure { checkpointRoot, checkpointHash, txnBefore, txnAfter, gasBefore, gasAfter }

/-- `proof.rs:730-757`. -/
def Registers.toBuffer (r : Registers K) : List B :=
  K.target.write r.pc ++ (K.target.write r.isKernel ++ (K.target.write r.stackLen ++ (wrT K r.stackTop ++ (K.target.write r.context ++
  K.target.write r.gasUsed))))

/-- `proof.rs:814-829`. -/
def Registers.fromBuffer : Rd B (Registers K) := do
  let pc ← K.target.read
  let isKernel ← K.target.read
  let stackLen ← K.target.read
  let stackTop ← rdT K 8
  let context ← K.target.read
  let gasUsed ← K.target.read
  pure { pc, isKernel, stackLen, stackTop, context, gasUsed }

/-- `write_target_merkle_cap` (plonky2): the number of hashes, then the hashes. -/
def capToBuffer (c : List (Fin 4 → K.Target)) : List B := K.usize.write c.length ++ c.flatMap fun h => wrT K h

/-- `read_target_merkle_cap` (plonky2). -/
def capFromBuffer : Rd B (List (Fin 4 → K.Target)) := do
  let n ← K.usize.read
  readList (rdT K 4) n

/-- `PublicValuesTarget::to_buffer` (`proof.rs:658-763`). The burn address is not written. -/
def PVT.toBuffer (pv : PVT K) : List B :=
  pv.rootsBefore.toBuffer ++ (pv.rootsAfter.toBuffer ++ (pv.metadata.toBuffer ++ (pv.hashes.toBuffer ++ (pv.extra.toBuffer ++
  (pv.regsBefore.toBuffer ++ (pv.regsAfter.toBuffer ++ (capToBuffer pv.memBefore ++ capToBuffer pv.memAfter)))))))

/-- `PublicValuesTarget::from_buffer` (`proof.rs:766-850`). The burn address is read in builds with `cdk_erigon`. -/
def PVT.fromBuffer (cdk : Bool) : Rd B (PVT K) := do
  let rootsBefore ← Roots.fromBuffer
  let rootsAfter ← Roots.fromBuffer
  let burn ← bif cdk then (do let a ← rdT K 8; pure (some a)) else pure none
  let metadata ← Metadata.fromBuffer
  let hashes ← Hashes.fromBuffer
  let extra ← Extra.fromBuffer
  let regsBefore ← Registers.fromBuffer
  let regsAfter ← Registers.fromBuffer
  let memBefore ← capFromBuffer
  let memAfter ← capFromBuffer
  pure { rootsBefore, rootsAfter, burn, metadata, hashes, extra, regsBefore, regsAfter, memBefore, memAfter }

variable (K) in
/-- `FinalPublicValuesTarget` (`proof.rs:219-231`). -/
structure FinalPVT where
  chainId : K.Target
  checkpointRoot : Fin 8 → K.Target
  newRoot : Fin 8 → K.Target
  checkpointHash : Fin 4 → K.Target
  newHash : Fin 4 → K.Target

/-- `FinalPublicValuesTarget::to_buffer` (`proof.rs:237-245`). -/
def FinalPVT.toBuffer (pv : FinalPVT K) : List B :=
  K.target.write pv.chainId ++ (wrT K pv.checkpointRoot ++ (wrT K pv.newRoot ++ (wrT K pv.checkpointHash ++ wrT K pv.newHash)))

/-- `FinalPublicValuesTarget::from_buffer` (`proof.rs:248-262`). -/
def FinalPVT.fromBuffer : Rd B (FinalPVT K) := do
  let chainId ← K.target.read
  let checkpointRoot ← rdT K 8
  let newRoot ← rdT K 8
  let checkpointHash ← rdT K 4
  let newHash ← rdT K 4
  pure { chainId, checkpointRoot, newRoot, checkpointHash, newHash }

/-! ## Circuits -/

variable (K)

/-- `RootCircuitData` (`fixed_recursive_verifier.rs:145-165`), for `n` tables. -/
structure RootC (n : ℕ) where
  circuit : K.CircuitData
  proofs : Fin n → K.ProofTarget
  indices : Fin n → K.Target
  pv : PVT K
  vk : K.VkTarget
  inUse : Fin n → K.BoolTarget

/-- `AggregationChildWithDummyTarget` (`:281-286`). -/
structure DummyChild where
  isAgg : K.BoolTarget
  isDummy : K.BoolTarget
  agg : K.ProofTarget
  real : K.ProofTarget

/-- `AggregationChildTarget` (`:379-383`). -/
structure Child where
  isAgg : K.BoolTarget
  agg : K.ProofTarget
  base : K.ProofTarget

/-- `SegmentAggregationCircuitData` (`:229-239`). -/
structure SegAggC where
  circuit : K.CircuitData
  lhs : Child K
  rhs : DummyChild K
  pv : PVT K
  vk : K.VkTarget

/-- `BatchAggregationCircuitData` (`:327-337`). -/
structure BatchAggC where
  circuit : K.CircuitData
  lhs : Child K
  rhs : Child K
  pv : PVT K
  vk : K.VkTarget

/-- `BlockCircuitData` (`:429-440`). -/
structure BlockC where
  circuit : K.CircuitData
  hasParent : K.BoolTarget
  parent : K.ProofTarget
  agg : K.ProofTarget
  pv : PVT K
  vk : K.VkTarget

/-- `BlockWrapperCircuitData` (`:487-496`). -/
structure WrapperC where
  circuit : K.CircuitData
  parent : K.ProofTarget
  pv : FinalPVT K
  vk : K.VkTarget

/-- `TwoToOneBlockCircuitData` (`:537-546`). -/
structure TwoC where
  circuit : K.CircuitData
  lhs : Child K
  rhs : Child K
  vk : K.VkTarget

/-- `ShrunkProofData` (`:585-593`). -/
structure Shrunk where
  common : K.Common
  proof : K.Proof

/-- `StarkWrapperCircuit` (`recursive_verifier.rs:89-104`); the challenger state is a permutation state of `w` targets. -/
structure StarkWrapper where
  fri : K.FriConfig
  circuit : K.CircuitData
  proofTarget : K.StarkProofTarget
  ctl : K.CtlSet
  state : List K.Target
  zero : K.Target

/-- `PlonkWrapperCircuit` (`recursive_verifier.rs:195-202`). -/
structure PlonkWrapper where
  common : K.Common
  proverOnly : K.ProverOnly
  verifierOnly : K.VerifierOnly
  proofTarget : K.ProofTarget

/-- `RecursiveCircuitsForTableSize` (`fixed_recursive_verifier.rs:3002-3010`). -/
structure TableSize where
  initial : StarkWrapper K
  shrinking : List (PlonkWrapper K)

/-- `RecursiveCircuitsForTable` (`:2901-2911`): the `BTreeMap` as its entries in key order. -/
abbrev Table : Type := List (ℕ × TableSize K)

/-- `AllRecursiveCircuits` (`:109-141`) for `n` tables. -/
@[ext] structure Circuits (n : ℕ) where
  root : RootC K n
  segAgg : SegAggC K
  batchAgg : BatchAggC K
  block : BlockC K
  wrapper : WrapperC K
  two : TwoC K
  tables : Fin n → Table K
  dummies : Fin n → Option (Shrunk K)

variable {K}

/-- `fixed_recursive_verifier.rs:172-191`. -/
def RootC.toBuffer {n : ℕ} (c : RootC K n) : List B :=
  K.circuitData.write c.circuit ++ (writeArr K.proofTarget.write c.proofs ++ (wrT K c.indices ++ (c.pv.toBuffer ++ (K.vkTarget.write c.vk ++
  writeArr K.boolTarget.write c.inUse))))

/-- `:193-223`. -/
def RootC.fromBuffer (cdk : Bool) (n : ℕ) : Rd B (RootC K n) := do
  let circuit ← K.circuitData.read
  let proofs ← readArr K.proofTarget.read n
  let indices ← rdT K n
  let pv ← PVT.fromBuffer cdk
  let vk ← K.vkTarget.read
  let inUse ← readArr K.boolTarget.read n
  pure { circuit, proofs, indices, pv, vk, inUse }

/-- `:289-295`. -/
def DummyChild.toBuffer (c : DummyChild K) : List B :=
  K.boolTarget.write c.isAgg ++ (K.boolTarget.write c.isDummy ++ (K.proofTarget.write c.agg ++ K.proofTarget.write c.real))

/-- `:297-308`. -/
def DummyChild.fromBuffer : Rd B (DummyChild K) := do
  let isAgg ← K.boolTarget.read
  let isDummy ← K.boolTarget.read
  let agg ← K.proofTarget.read
  let real ← K.proofTarget.read
  pure { isAgg, isDummy, agg, real }

/-- `:386-391`. -/
def Child.toBuffer (c : Child K) : List B := K.boolTarget.write c.isAgg ++ (K.proofTarget.write c.agg ++ K.proofTarget.write c.base)

/-- `:393-402`. -/
def Child.fromBuffer : Rd B (Child K) := do
  let isAgg ← K.boolTarget.read
  let agg ← K.proofTarget.read
  let base ← K.proofTarget.read
  pure { isAgg, agg, base }

/-- `:246-258`. -/
def SegAggC.toBuffer (c : SegAggC K) : List B :=
  K.circuitData.write c.circuit ++ (K.vkTarget.write c.vk ++ (c.pv.toBuffer ++ (c.lhs.toBuffer ++ c.rhs.toBuffer)))

/-- `:260-278`. -/
def SegAggC.fromBuffer (cdk : Bool) : Rd B (SegAggC K) := do
  let circuit ← K.circuitData.read
  let vk ← K.vkTarget.read
  let pv ← PVT.fromBuffer cdk
  let lhs ← Child.fromBuffer
  let rhs ← DummyChild.fromBuffer
  pure { circuit, lhs, rhs, pv, vk }

/-- `:344-356`. -/
def BatchAggC.toBuffer (c : BatchAggC K) : List B :=
  K.circuitData.write c.circuit ++ (K.vkTarget.write c.vk ++ (c.pv.toBuffer ++ (c.lhs.toBuffer ++ c.rhs.toBuffer)))

/-- `:358-376`. -/
def BatchAggC.fromBuffer (cdk : Bool) : Rd B (BatchAggC K) := do
  let circuit ← K.circuitData.read
  let vk ← K.vkTarget.read
  let pv ← PVT.fromBuffer cdk
  let lhs ← Child.fromBuffer
  let rhs ← Child.fromBuffer
  pure { circuit, lhs, rhs, pv, vk }

/-- `:447-460`. -/
def BlockC.toBuffer (c : BlockC K) : List B :=
  K.circuitData.write c.circuit ++ (K.boolTarget.write c.hasParent ++ (K.proofTarget.write c.parent ++ (K.proofTarget.write c.agg ++
  (c.pv.toBuffer ++ K.vkTarget.write c.vk))))

/-- `:462-482`. -/
def BlockC.fromBuffer (cdk : Bool) : Rd B (BlockC K) := do
  let circuit ← K.circuitData.read
  let hasParent ← K.boolTarget.read
  let parent ← K.proofTarget.read
  let agg ← K.proofTarget.read
  let pv ← PVT.fromBuffer cdk
  let vk ← K.vkTarget.read
  pure { circuit, hasParent, parent, agg, pv, vk }

/-- `:503-513`. -/
def WrapperC.toBuffer (c : WrapperC K) : List B :=
  K.circuitData.write c.circuit ++ (K.proofTarget.write c.parent ++ (K.vkTarget.write c.vk ++ c.pv.toBuffer))

/-- `:515-531`. -/
def WrapperC.fromBuffer : Rd B (WrapperC K) := do
  let circuit ← K.circuitData.read
  let parent ← K.proofTarget.read
  let vk ← K.vkTarget.read
  let pv ← FinalPVT.fromBuffer
  pure { circuit, parent, pv, vk }

/-- `:553-564`. -/
def TwoC.toBuffer (c : TwoC K) : List B :=
  K.circuitData.write c.circuit ++ (c.lhs.toBuffer ++ (c.rhs.toBuffer ++ K.vkTarget.write c.vk))

/-- `:566-582`. -/
def TwoC.fromBuffer : Rd B (TwoC K) := do
  let circuit ← K.circuitData.read
  let lhs ← Child.fromBuffer
  let rhs ← Child.fromBuffer
  let vk ← K.vkTarget.read
  pure { circuit, lhs, rhs, vk }

/-- `:598-606`. -/
def Shrunk.toBuffer (s : Shrunk K) : List B := K.common.write s.common ++ (K.proof s.common).write s.proof

/-- `:608-618`. -/
def Shrunk.fromBuffer : Rd B (Shrunk K) := do
  let common ← K.common.read
  let proof ← (K.proof common).read
  pure { common, proof }

/-- `recursive_verifier.rs:112-126`. `write_target_vec` writes the length first. -/
def StarkWrapper.toBuffer (w : StarkWrapper K) : List B :=
  K.friConfig.write w.fri ++ (K.circuitData.write w.circuit ++ (K.usize.write w.state.length ++ (w.state.flatMap K.target.write ++
  (K.target.write w.zero ++ (K.starkProofTarget.write w.proofTarget ++ K.ctlSet.write w.ctl)))))

/-- `recursive_verifier.rs:128-150`. `AlgebraicPermutation::new` keeps the targets when there are as many as the state holds. -/
def StarkWrapper.fromBuffer : Rd B (StarkWrapper K) := do
  let fri ← K.friConfig.read
  let circuit ← K.circuitData.read
  let n ← K.usize.read
  let state ← readList K.target.read n
  let zero ← K.target.read
  let proofTarget ← K.starkProofTarget.read
  let ctl ← K.ctlSet.read
  pure { fri, circuit, proofTarget, ctl, state, zero }

/-- One shrinking circuit without its common data (`fixed_recursive_verifier.rs:3032-3039`). -/
def PlonkWrapper.toBuffer (w : PlonkWrapper K) : List B :=
  (K.proverOnly w.common).write w.proverOnly ++ (K.verifierOnly.write w.verifierOnly ++ K.proofTarget.write w.proofTarget)

/-- `:3056-3068`: the common data are the ones read once. -/
def PlonkWrapper.fromBuffer (common : K.Common) : Rd B (PlonkWrapper K) := do
  let proverOnly ← (K.proverOnly common).read
  let verifierOnly ← K.verifierOnly.read
  let proofTarget ← K.proofTarget.read
  pure { common, proverOnly, verifierOnly, proofTarget }

/-- `RecursiveCircuitsForTableSize::to_buffer` (`:3019-3044`): only the first circuit's common data are written. -/
def TableSize.toBuffer (t : TableSize K) : List B :=
  K.usize.write t.shrinking.length ++ ((match t.shrinking with | [] => [] | w :: _ => K.common.write w.common) ++
  (t.shrinking.flatMap PlonkWrapper.toBuffer ++ t.initial.toBuffer))

/-- The shrinking circuits, unless there are none (`:3052-3069`). -/
def shrinkingFromBuffer (n : ℕ) : Rd B (List (PlonkWrapper K)) :=
  if n = 0 then pure [] else do
    let common ← K.common.read
    readList (PlonkWrapper.fromBuffer common) n

/-- `RecursiveCircuitsForTableSize::from_buffer` (`:3046-3080`). -/
def TableSize.fromBuffer : Rd B (TableSize K) := do
  let n ← K.usize.read
  let shrinking ← shrinkingFromBuffer n
  let initial ← StarkWrapper.fromBuffer
  pure { initial, shrinking }

/-- `BTreeMap::insert` on the entries in key order. -/
def mapInsert {α : Type} (k : ℕ) (v : α) : List (ℕ × α) → List (ℕ × α)
  | [] => [(k, v)]
  | e :: l => if k < e.1 then (k, v) :: e :: l else if k = e.1 then (k, v) :: l else e :: mapInsert k v l

/-- `RecursiveCircuitsForTable::to_buffer` (`:2919-2932`). -/
def Table.toBuffer (t : Table K) : List B := K.usize.write t.length ++ t.flatMap fun e => K.usize.write e.1 ++ e.2.toBuffer

/-- One entry of the table (`:2942-2947`). -/
def entryFromBuffer : Rd B (ℕ × TableSize K) := do
  let k ← K.usize.read
  let t ← TableSize.fromBuffer
  pure (k, t)

/-- `RecursiveCircuitsForTable::from_buffer` (`:2934-2952`): the entries are inserted one after the other. -/
def Table.fromBuffer : Rd B (Table K) := do
  let n ← K.usize.read
  let es ← readList entryFromBuffer n
  pure (es.foldl (fun m e => mapInsert e.1 e.2 m) [])

/-- One dummy proof (`:700-708`). -/
def dummyToBuffer (d : Option (Shrunk K)) : List B :=
  match d with
  | some s => K.bool.write true ++ s.toBuffer
  | none => K.bool.write false

/-- `AllRecursiveCircuits::to_bytes` (`:675-711`). -/
def Circuits.toBytes {n : ℕ} (skip : Bool) (c : Circuits K n) : List B :=
  c.root.toBuffer ++ (c.segAgg.toBuffer ++ (c.batchAgg.toBuffer ++ (c.block.toBuffer ++ (c.wrapper.toBuffer ++ (c.two.toBuffer ++
  ((bif skip then [] else writeArr Table.toBuffer c.tables) ++ writeArr dummyToBuffer c.dummies))))))

/-- The reading of one dummy proof where nothing goes wrong (`:780-784`). -/
def dummyFromBuffer : Rd B (Option (Shrunk K)) := do
  let b ← K.bool.read
  if b then do
    let s ← Shrunk.fromBuffer
    pure (some s)
  else pure none

/-- The reading of one dummy proof (`:779-785`): `.ok()?` turns every failure into "no proof". What is left of the buffer after a failure is
`after`. -/
def dummyOrNone (after : List B → List B) : Rd B (Option (Shrunk K)) := fun bytes =>
  match (dummyFromBuffer : Rd B (Option (Shrunk K))) bytes with
  | some r => some r
  | none => some (none, after bytes)

/-- `AllRecursiveCircuits::from_bytes` (`:726-797`). -/
def Circuits.fromBytes (cdk : Bool) (n : ℕ) (skip : Bool) (after : List B → List B) (bytes : List B) : Option (Circuits K n) :=
  let rd : Rd B (Circuits K n) := do
    let root ← RootC.fromBuffer cdk n
    let segAgg ← SegAggC.fromBuffer cdk
    let batchAgg ← BatchAggC.fromBuffer cdk
    let block ← BlockC.fromBuffer cdk
    let wrapper ← WrapperC.fromBuffer
    let two ← TwoC.fromBuffer
    let tables ← bif skip then pure fun _ => [] else readArr Table.fromBuffer n
    let dummies ← readArr (dummyOrNone after) n
    pure { root, segAgg, batchAgg, block, wrapper, two, tables, dummies }
  (rd bytes).map Prod.fst

end Verif.Recursion.Buffer
