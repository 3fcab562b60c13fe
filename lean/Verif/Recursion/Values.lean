import Verif.Stark.Field

/-!
# Public values of the recursive proofs (`evm_arithmetization/src/proof.rs`): targets

A `Target` is a wire of a circuit; here it is the field element on that wire, so that a structure of targets is a structure of
field elements and a circuit is a predicate on such structures. The functions that add constraints become propositions.
-/
namespace Verif.Recursion

open Verif.Stark (F)

/-- `[Target; n]`. -/
abbrev Limbs (n : ℕ) : Type := Fin n → F

/-- `CircuitBuilder::conditional_assert_eq` (plonky2): the product of the condition and the difference is zero. -/
def condEq (c x y : F) : Prop := c * (x - y) = 0

/-- `CircuitBuilder::select` (plonky2): `x` if the condition is 1, `y` if it is 0. -/
def sel (c x y : F) : F := c * x + (1 - c) * y

/-- `CircuitBuilder::add_virtual_bool_target_safe` (plonky2). -/
def IsBool (b : F) : Prop := b = 0 ∨ b = 1

/-- `TrieRootsTarget` (`proof.rs:968-975`). -/
@[ext] structure TrieRoots where
  state : Limbs 8
  txns : Limbs 8
  receipts : Limbs 8

/-- `BlockMetadataTarget` (`proof.rs:1162-1189`). -/
@[ext] structure Metadata where
  beneficiary : Limbs 5
  timestamp : F
  number : F
  difficulty : F
  random : Limbs 8
  gaslimit : F
  chainId : F
  baseFee : Limbs 2
  gasUsed : F
  blobGasUsed : Limbs 2
  excessBlobGas : Limbs 2
  beaconRoot : Limbs 8
  bloom : Limbs 64

/-- `BlockHashesTarget` (`proof.rs:1371-1378`). -/
@[ext] structure BlockHashes where
  prev : Limbs 2048
  cur : Limbs 8

/-- `ExtraBlockDataTarget` (`proof.rs:1446-1464`). -/
@[ext] structure Extra where
  checkpointRoot : Limbs 8
  checkpointHash : Limbs 4
  txnBefore : F
  txnAfter : F
  gasBefore : F
  gasAfter : F

/-- `RegistersDataTarget` (`proof.rs:1586-1599`). -/
@[ext] structure Registers where
  pc : F
  isKernel : F
  stackLen : F
  stackTop : Limbs 8
  context : F
  gasUsed : F

/-- `MemCapTarget` (`proof.rs:1681-1684`): 16 hashes of four elements. -/
abbrev MemCap : Type := Fin 16 → Limbs 4

/-- `PublicValuesTarget` (`proof.rs:628-649`). Without the feature `cdk_erigon` there are no targets for the burn address and nothing
reads `burn`. -/
@[ext] structure PV where
  rootsBefore : TrieRoots
  rootsAfter : TrieRoots
  burn : Limbs 8
  metadata : Metadata
  hashes : BlockHashes
  extra : Extra
  regsBefore : Registers
  regsAfter : Registers
  memBefore : MemCap
  memAfter : MemCap

/-! ## select -/

/-- `TrieRootsTarget::select` (`proof.rs:1004-1025`). -/
def TrieRoots.select (c : F) (a b : TrieRoots) : TrieRoots where
  state i := sel c (a.state i) (b.state i)
  txns i := sel c (a.txns i) (b.txns i)
  receipts i := sel c (a.receipts i) (b.receipts i)

/-- `BlockMetadataTarget::select` (`proof.rs:1231-1282`). -/
def Metadata.select (c : F) (a b : Metadata) : Metadata where
  beneficiary i := sel c (a.beneficiary i) (b.beneficiary i)
  timestamp := sel c a.timestamp b.timestamp
  number := sel c a.number b.number
  difficulty := sel c a.difficulty b.difficulty
  random i := sel c (a.random i) (b.random i)
  gaslimit := sel c a.gaslimit b.gaslimit
  chainId := sel c a.chainId b.chainId
  baseFee i := sel c (a.baseFee i) (b.baseFee i)
  gasUsed := sel c a.gasUsed b.gasUsed
  blobGasUsed i := sel c (a.blobGasUsed i) (b.blobGasUsed i)
  excessBlobGas i := sel c (a.excessBlobGas i) (b.excessBlobGas i)
  beaconRoot i := sel c (a.beaconRoot i) (b.beaconRoot i)
  bloom i := sel c (a.bloom i) (b.bloom i)

/-- `BlockHashesTarget::select` (`proof.rs:1396-1410`). -/
def BlockHashes.select (c : F) (a b : BlockHashes) : BlockHashes where
  prev i := sel c (a.prev i) (b.prev i)
  cur i := sel c (a.cur i) (b.cur i)

/-- `ExtraBlockDataTarget::select` (`proof.rs:1493-1523`). -/
def Extra.select (c : F) (a b : Extra) : Extra where
  checkpointRoot i := sel c (a.checkpointRoot i) (b.checkpointRoot i)
  checkpointHash i := sel c (a.checkpointHash i) (b.checkpointHash i)
  txnBefore := sel c a.txnBefore b.txnBefore
  txnAfter := sel c a.txnAfter b.txnAfter
  gasBefore := sel c a.gasBefore b.gasBefore
  gasAfter := sel c a.gasAfter b.gasAfter

/-- `RegistersDataTarget::select` (`proof.rs:1627-1643`). -/
def Registers.select (c : F) (a b : Registers) : Registers where
  pc := sel c a.pc b.pc
  isKernel := sel c a.isKernel b.isKernel
  stackLen := sel c a.stackLen b.stackLen
  stackTop i := sel c (a.stackTop i) (b.stackTop i)
  context := sel c a.context b.context
  gasUsed := sel c a.gasUsed b.gasUsed

/-- `MemCapTarget::select` (`proof.rs:1708-1733`). -/
def selectCap (c : F) (a b : MemCap) : MemCap := fun i j => sel c (a i j) (b i j)

/-- `PublicValuesTarget::select` (`proof.rs:907-961`). -/
def PV.select (c : F) (a b : PV) : PV where
  rootsBefore := .select c a.rootsBefore b.rootsBefore
  rootsAfter := .select c a.rootsAfter b.rootsAfter
  burn i := sel c (a.burn i) (b.burn i)
  metadata := .select c a.metadata b.metadata
  hashes := .select c a.hashes b.hashes
  extra := .select c a.extra b.extra
  regsBefore := .select c a.regsBefore b.regsBefore
  regsAfter := .select c a.regsAfter b.regsAfter
  memBefore := selectCap c a.memBefore b.memBefore
  memAfter := selectCap c a.memAfter b.memAfter

/-! ## connect -/

/-- `TrieRootsTarget::connect` (`proof.rs:1028-1038`). -/
def TrieRoots.connect (a b : TrieRoots) : Prop :=
  ∀ i : Fin 8, a.state i = b.state i ∧ a.txns i = b.txns i ∧ a.receipts i = b.receipts i

/-- `BurnAddrTarget::connect` (`proof.rs:1117-1130`). -/
def connectBurn (a b : Limbs 8) : Prop := ∀ i : Fin 8, a i = b i

/-- `BlockMetadataTarget::connect` (`proof.rs:1285-1320`). -/
def Metadata.connect (a b : Metadata) : Prop :=
  (∀ i : Fin 5, a.beneficiary i = b.beneficiary i) ∧ a.timestamp = b.timestamp ∧ a.number = b.number ∧
  a.difficulty = b.difficulty ∧ (∀ i : Fin 8, a.random i = b.random i) ∧ a.gaslimit = b.gaslimit ∧ a.chainId = b.chainId ∧
  (∀ i : Fin 2, a.baseFee i = b.baseFee i) ∧ a.gasUsed = b.gasUsed ∧ (∀ i : Fin 2, a.blobGasUsed i = b.blobGasUsed i) ∧
  (∀ i : Fin 2, a.excessBlobGas i = b.excessBlobGas i) ∧ (∀ i : Fin 8, a.beaconRoot i = b.beaconRoot i) ∧
  (∀ i : Fin 64, a.bloom i = b.bloom i)

/-- `BlockHashesTarget::connect` (`proof.rs:1413-1424`). -/
def BlockHashes.connect (a b : BlockHashes) : Prop :=
  (∀ i : Fin 2048, a.prev i = b.prev i) ∧ (∀ i : Fin 8, a.cur i = b.cur i)

/-- `ExtraBlockDataTarget::connect` (`proof.rs:1527-1548`). -/
def Extra.connect (a b : Extra) : Prop :=
  (∀ i : Fin 8, a.checkpointRoot i = b.checkpointRoot i) ∧ (∀ i : Fin 4, a.checkpointHash i = b.checkpointHash i) ∧
  a.txnBefore = b.txnBefore ∧ a.txnAfter = b.txnAfter ∧ a.gasBefore = b.gasBefore ∧ a.gasAfter = b.gasAfter

/-- `RegistersDataTarget::connect` (`proof.rs:1647-1660`). -/
def Registers.connect (a b : Registers) : Prop :=
  a.pc = b.pc ∧ a.isKernel = b.isKernel ∧ a.stackLen = b.stackLen ∧ (∀ i : Fin 8, a.stackTop i = b.stackTop i) ∧
  a.context = b.context ∧ a.gasUsed = b.gasUsed

/-- `MemCapTarget::connect` (`proof.rs:1736-1746`). -/
def connectCap (a b : MemCap) : Prop := ∀ (i : Fin 16) (j : Fin 4), a i j = b i j

/-! ## conditional equality -/

/-- `TrieRootsTarget::conditional_assert_eq` (`proof.rs:1041-1060`). -/
def TrieRoots.condEq (c : F) (a b : TrieRoots) : Prop :=
  ∀ i : Fin 8, Recursion.condEq c (a.state i) (b.state i) ∧ Recursion.condEq c (a.txns i) (b.txns i) ∧
    Recursion.condEq c (a.receipts i) (b.receipts i)

/-- `BurnAddrTarget::conditional_assert_eq` (`proof.rs:1134-1155`). -/
def condEqBurn (c : F) (a b : Limbs 8) : Prop := ∀ i : Fin 8, condEq c (a i) (b i)

/-- `BlockMetadataTarget::conditional_assert_eq` (`proof.rs:1323-1359`). The fields for blob gas and the beacon root are not
mentioned in the code. -/
def Metadata.condEq (c : F) (a b : Metadata) : Prop :=
  (∀ i : Fin 5, Recursion.condEq c (a.beneficiary i) (b.beneficiary i)) ∧ Recursion.condEq c a.timestamp b.timestamp ∧
  Recursion.condEq c a.number b.number ∧ Recursion.condEq c a.difficulty b.difficulty ∧
  (∀ i : Fin 8, Recursion.condEq c (a.random i) (b.random i)) ∧ Recursion.condEq c a.gaslimit b.gaslimit ∧
  Recursion.condEq c a.chainId b.chainId ∧ (∀ i : Fin 2, Recursion.condEq c (a.baseFee i) (b.baseFee i)) ∧
  Recursion.condEq c a.gasUsed b.gasUsed ∧ (∀ i : Fin 64, Recursion.condEq c (a.bloom i) (b.bloom i))

/-- `BlockHashesTarget::conditional_assert_eq` (`proof.rs:1427-1439`). -/
def BlockHashes.condEq (c : F) (a b : BlockHashes) : Prop :=
  (∀ i : Fin 2048, Recursion.condEq c (a.prev i) (b.prev i)) ∧ (∀ i : Fin 8, Recursion.condEq c (a.cur i) (b.cur i))

/-- `ExtraBlockDataTarget::conditional_assert_eq` (`proof.rs:1551-1579`). -/
def Extra.condEq (c : F) (a b : Extra) : Prop :=
  (∀ i : Fin 8, Recursion.condEq c (a.checkpointRoot i) (b.checkpointRoot i)) ∧
  (∀ i : Fin 4, Recursion.condEq c (a.checkpointHash i) (b.checkpointHash i)) ∧
  Recursion.condEq c a.txnBefore b.txnBefore ∧ Recursion.condEq c a.txnAfter b.txnAfter ∧
  Recursion.condEq c a.gasBefore b.gasBefore ∧ Recursion.condEq c a.gasAfter b.gasAfter

/-- `RegistersDataTarget::conditional_assert_eq` (`proof.rs:1663-1677`). -/
def Registers.condEq (c : F) (a b : Registers) : Prop :=
  Recursion.condEq c a.pc b.pc ∧ Recursion.condEq c a.isKernel b.isKernel ∧ Recursion.condEq c a.stackLen b.stackLen ∧
  (∀ i : Fin 8, Recursion.condEq c (a.stackTop i) (b.stackTop i)) ∧ Recursion.condEq c a.context b.context ∧
  Recursion.condEq c a.gasUsed b.gasUsed

/-- `MemCapTarget::conditional_assert_eq` (`proof.rs:1749-1764`). -/
def condEqCap (c : F) (a b : MemCap) : Prop := ∀ (i : Fin 16) (j : Fin 4), condEq c (a i j) (b i j)

/-! ## What they mean -/

theorem condEq_one {x y : F} : condEq 1 x y ↔ x = y := by simp [condEq, sub_eq_zero]
theorem condEq_zero {x y : F} : condEq 0 x y := by simp [condEq]
theorem sel_one (x y : F) : sel 1 x y = x := by simp [sel]
theorem sel_zero (x y : F) : sel 0 x y = y := by simp [sel]

theorem TrieRoots.connect_iff {a b : TrieRoots} : a.connect b ↔ a = b := by
  constructor
  · intro h; ext i
    · exact (h i).1
    · exact (h i).2.1
    · exact (h i).2.2
  · rintro rfl i; exact ⟨rfl, rfl, rfl⟩

theorem connectBurn_iff {a b : Limbs 8} : connectBurn a b ↔ a = b := ⟨fun h => funext h, fun h _ => h ▸ rfl⟩

theorem Metadata.connect_iff {a b : Metadata} : a.connect b ↔ a = b := by
  constructor
  · rintro ⟨h1, h2, h3, h4, h5, h6, h7, h8, h9, h10, h11, h12, h13⟩
    exact Metadata.ext (funext h1) h2 h3 h4 (funext h5) h6 h7 (funext h8) h9 (funext h10) (funext h11) (funext h12) (funext h13)
  · rintro rfl; simp [connect]

theorem BlockHashes.connect_iff {a b : BlockHashes} : a.connect b ↔ a = b := by
  constructor
  · rintro ⟨h1, h2⟩; exact BlockHashes.ext (funext h1) (funext h2)
  · rintro rfl; simp [connect]

theorem Extra.connect_iff {a b : Extra} : a.connect b ↔ a = b := by
  constructor
  · rintro ⟨h1, h2, h3, h4, h5, h6⟩; exact Extra.ext (funext h1) (funext h2) h3 h4 h5 h6
  · rintro rfl; simp [connect]

theorem Registers.connect_iff {a b : Registers} : a.connect b ↔ a = b := by
  constructor
  · rintro ⟨h1, h2, h3, h4, h5, h6⟩; exact Registers.ext h1 h2 h3 (funext h4) h5 h6
  · rintro rfl; simp [connect]

theorem connectCap_iff {a b : MemCap} : connectCap a b ↔ a = b :=
  ⟨fun h => funext fun i => funext (h i), fun h _ _ => h ▸ rfl⟩

/-! Conditional equality and selection at the two values of a bit. -/

theorem TrieRoots.condEq_one {a b : TrieRoots} : a.condEq 1 b ↔ a = b := by
  rw [← connect_iff]; simp [condEq, connect, Recursion.condEq_one]

theorem condEqBurn_one {a b : Limbs 8} : condEqBurn 1 a b ↔ a = b := by
  rw [← connectBurn_iff]; simp [condEqBurn, connectBurn, Recursion.condEq_one]

theorem BlockHashes.condEq_one {a b : BlockHashes} : a.condEq 1 b ↔ a = b := by
  rw [← connect_iff]; simp [condEq, connect, Recursion.condEq_one]

theorem Extra.condEq_one {a b : Extra} : a.condEq 1 b ↔ a = b := by
  rw [← connect_iff]; simp [condEq, connect, Recursion.condEq_one]

theorem Registers.condEq_one {a b : Registers} : a.condEq 1 b ↔ a = b := by
  rw [← connect_iff]; simp [condEq, connect, Recursion.condEq_one]

theorem condEqCap_one {a b : MemCap} : condEqCap 1 a b ↔ a = b := by
  rw [← connectCap_iff]; simp [condEqCap, connectCap, Recursion.condEq_one]

theorem TrieRoots.condEq_zero {a b : TrieRoots} : a.condEq 0 b := by simp [condEq, Recursion.condEq_zero]
theorem condEqBurn_zero {a b : Limbs 8} : condEqBurn 0 a b := by simp [condEqBurn, Recursion.condEq_zero]
theorem Metadata.condEq_zero {a b : Metadata} : a.condEq 0 b := by simp [condEq, Recursion.condEq_zero]
theorem BlockHashes.condEq_zero {a b : BlockHashes} : a.condEq 0 b := by simp [condEq, Recursion.condEq_zero]
theorem Extra.condEq_zero {a b : Extra} : a.condEq 0 b := by simp [condEq, Recursion.condEq_zero]
theorem Registers.condEq_zero {a b : Registers} : a.condEq 0 b := by simp [condEq, Recursion.condEq_zero]
theorem condEqCap_zero {a b : MemCap} : condEqCap 0 a b := by simp [condEqCap, Recursion.condEq_zero]

theorem selectCap_one (a b : MemCap) : selectCap 1 a b = a := by funext i j; exact sel_one _ _
theorem selectCap_zero (a b : MemCap) : selectCap 0 a b = b := by funext i j; exact sel_zero _ _

theorem PV.select_one (a b : PV) : PV.select 1 a b = a := by
  simp [PV.select, TrieRoots.select, Metadata.select, BlockHashes.select, Extra.select, Registers.select, selectCap_one, sel_one]

theorem PV.select_zero (a b : PV) : PV.select 0 a b = b := by
  simp [PV.select, TrieRoots.select, Metadata.select, BlockHashes.select, Extra.select, Registers.select, selectCap_zero, sel_zero]

end Verif.Recursion
