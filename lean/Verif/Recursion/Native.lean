import Verif.Recursion.Limbs
import Verif.Recursion.Prover

/-!
# Public values outside the circuits (`evm_arithmetization/src/proof.rs:66-148`, `310-620`) and their way in and out

`set_public_value_targets` writes native public values into a witness; `from_public_inputs` reads them back from a proof.
-/
namespace Verif.Recursion

open Verif.Stark (F P)

/-- The features the crate was compiled with. -/
structure Features where
  cdk : Bool
  mainnet : Bool

/-- `TrieRoots` (`proof.rs:313-321`). -/
@[ext] structure NRoots where
  state : H256
  txns : H256
  receipts : H256

/-- `BlockMetadata` (`proof.rs:397-425`). -/
@[ext] structure NMetadata where
  beneficiary : H160
  timestamp : U256
  number : U256
  difficulty : U256
  random : H256
  gaslimit : U256
  chainId : U256
  baseFee : U256
  gasUsed : U256
  blobGasUsed : U256
  excessBlobGas : U256
  beaconRoot : H256
  bloom : Fin 8 → U256

/-- `BlockHashes` (`proof.rs:356-364`). -/
@[ext] structure NHashes where
  prev : List H256
  cur : H256

/-- `ExtraBlockData` (`proof.rs:470-488`). -/
@[ext] structure NExtra where
  checkpointRoot : H256
  checkpointHash : Limbs 4
  txnBefore : U256
  txnAfter : U256
  gasBefore : U256
  gasAfter : U256

/-- `RegistersData` (`proof.rs:537-550`). -/
@[ext] structure NRegisters where
  pc : U256
  isKernel : U256
  stackLen : U256
  stackTop : U256
  context : U256
  gasUsed : U256

/-- `PublicValues` (`proof.rs:69-91`). -/
@[ext] structure NPV where
  rootsBefore : NRoots
  rootsAfter : NRoots
  burn : Option U256
  metadata : NMetadata
  hashes : NHashes
  extra : NExtra
  regsBefore : NRegisters
  regsAfter : NRegisters
  memBefore : List (Fin 4 → U256)
  memAfter : List (Fin 4 → U256)

/-! ## Writing: `set_public_value_targets` (`recursive_verifier.rs:846-913`)

The functions take the witness as it was; `none` is an error or a panic. -/

/-- `set_trie_roots_target` (`recursive_verifier.rs:983-1038`). -/
def setRoots (r : NRoots) : TrieRoots := ⟨u256Limbs (h2u r.state), u256Limbs (h2u r.txns), u256Limbs (h2u r.receipts)⟩

/-- Eight numbers as 64 limbs (`recursive_verifier.rs:1166-1172`). -/
def bloomLimbs (b : Fin 8 → U256) : Limbs 64 := fun i => u256Limbs (b ⟨i / 8, by omega⟩) ⟨i % 8, by omega⟩

/-- `set_block_metadata_target` (`recursive_verifier.rs:1063-1177`). -/
def setMetadata (ft : Features) (w : Metadata) (m : NMetadata) : Option Metadata := do
  let timestamp ← u256ToU32 m.timestamp
  let number ← u256ToU32 m.number
  let difficulty ← u256ToU32 m.difficulty
  let gaslimit ← u256ToU32 m.gaslimit
  let chainId ← u256ToU32 m.chainId
  let baseFee ← u256ToU64 m.baseFee
  let gasUsed ← u256ToU32 m.gasUsed
  let blobGasUsed ← bif ft.mainnet then u256ToU64 m.blobGasUsed else some w.blobGasUsed
  let excessBlobGas ← bif ft.mainnet then u256ToU64 m.excessBlobGas else some w.excessBlobGas
  some
    { beneficiary := addressLimbs m.beneficiary
      timestamp, number, difficulty
      random := h256Limbs m.random
      gaslimit, chainId, baseFee, gasUsed, blobGasUsed, excessBlobGas
      beaconRoot := bif ft.mainnet then h256Limbs m.beaconRoot else w.beaconRoot
      bloom := bloomLimbs m.bloom }

/-- `set_block_hashes_target` (`recursive_verifier.rs:1179-1197`): indexing panics if there are fewer than 256 hashes. -/
def setHashes (h : NHashes) : Option BlockHashes :=
  if hl : 256 ≤ h.prev.length then
    some ⟨fun i => h256Limbs (h.prev[i.val / 8]'(by omega)) ⟨i % 8, by omega⟩, h256Limbs h.cur⟩
  else none

/-- `set_extra_public_values_target` (`recursive_verifier.rs:1199-1240`). -/
def setExtra (e : NExtra) : Option Extra := do
  let txnBefore ← u256ToU32 e.txnBefore
  let txnAfter ← u256ToU32 e.txnAfter
  let gasBefore ← u256ToU32 e.gasBefore
  let gasAfter ← u256ToU32 e.gasAfter
  some { checkpointRoot := h256Limbs e.checkpointRoot, checkpointHash := e.checkpointHash, txnBefore, txnAfter, gasBefore, gasAfter }

/-- `set_registers_target` (`recursive_verifier.rs:1242-1271`). -/
def setRegisters (r : NRegisters) : Option Registers := do
  let pc ← u256ToU32 r.pc
  let isKernel ← u256ToU32 r.isKernel
  let stackLen ← u256ToU32 r.stackLen
  let context ← u256ToU32 r.context
  let gasUsed ← u256ToU32 r.gasUsed
  some { pc, isKernel, stackLen, stackTop := u256Limbs r.stackTop, context, gasUsed }

/-- `set_mem_cap_target` (`recursive_verifier.rs:1273-1293`): `as_u64` panics above 64 bits, indexing the targets panics beyond 16 hashes,
and targets beyond the given hashes stay as they were. -/
def setMemCap (w : MemCap) (c : List (Fin 4 → U256)) : Option MemCap :=
  if c.length ≤ 16 ∧ ∀ h ∈ c, ∀ j, (h j).toNat < 2 ^ 64 then
    some fun i => if hi : i.val < c.length then fun j => ((c[i.val] j).toNat : F) else w i
  else none

/-- `set_public_value_targets` (`recursive_verifier.rs:846-913`). -/
def setPV (ft : Features) (w : PV) (pv : NPV) : Option PV := do
  let metadata ← setMetadata ft w.metadata pv.metadata
  let hashes ← setHashes pv.hashes
  let extra ← setExtra pv.extra
  let burn ← bif ft.cdk then pv.burn.map u256Limbs else some w.burn
  let regsBefore ← setRegisters pv.regsBefore
  let regsAfter ← setRegisters pv.regsAfter
  let memBefore ← setMemCap w.memBefore pv.memBefore
  let memAfter ← setMemCap w.memAfter pv.memAfter
  some
    { rootsBefore := setRoots pv.rootsBefore
      rootsAfter := setRoots pv.rootsAfter
      burn, metadata, hashes, extra, regsBefore, regsAfter, memBefore, memAfter }

/-! ## Reading: `PublicValues::from_public_inputs` (`proof.rs:98-147`) -/

/-- `x.to_canonical_u64().into()`. -/
def scalar (x : F) : U256 := .ofNat 256 x.val

/-- `TrieRoots::from_public_inputs` (`proof.rs:324-336`). -/
def readRoots (pis : ℕ → F) (o : ℕ) : NRoots := ⟨getH256 (slice pis o 8), getH256 (slice pis (o + 8) 8), getH256 (slice pis (o + 16) 8)⟩

/-- `BlockMetadata::from_public_inputs` (`proof.rs:428-464`). -/
def readMetadata (pis : ℕ → F) (o : ℕ) : NMetadata where
  beneficiary := getH160 (slice pis o 5)
  timestamp := scalar (pis (o + 5))
  number := scalar (pis (o + 6))
  difficulty := scalar (pis (o + 7))
  random := getH256 (slice pis (o + 8) 8)
  gaslimit := scalar (pis (o + 16))
  chainId := scalar (pis (o + 17))
  baseFee := .ofNat 256 (word64 (pis (o + 18)) (pis (o + 19)))
  gasUsed := scalar (pis (o + 20))
  blobGasUsed := .ofNat 256 (word64 (pis (o + 21)) (pis (o + 22)))
  excessBlobGas := .ofNat 256 (word64 (pis (o + 23)) (pis (o + 24)))
  beaconRoot := getH256 (slice pis (o + 25) 8)
  bloom := fun i => h2u (getH256 (slice pis (o + 33 + 8 * i.val) 8))

/-- `BlockHashes::from_public_inputs` (`proof.rs:367-379`). -/
def readHashes (pis : ℕ → F) (o : ℕ) : NHashes :=
  ⟨List.ofFn fun i : Fin 256 => getH256 (slice pis (o + 8 * i.val) 8), getH256 (slice pis (o + 2048) 8)⟩

/-- `ExtraBlockData::from_public_inputs` (`proof.rs:513-531`). -/
def readExtra (pis : ℕ → F) (o : ℕ) : NExtra where
  checkpointRoot := getH256 (slice pis o 8)
  checkpointHash := slice pis (o + 8) 4
  txnBefore := scalar (pis (o + 12))
  txnAfter := scalar (pis (o + 13))
  gasBefore := scalar (pis (o + 14))
  gasAfter := scalar (pis (o + 15))

/-- `RegistersData::from_public_inputs` (`proof.rs:553-571`). -/
def readRegisters (pis : ℕ → F) (o : ℕ) : NRegisters where
  pc := scalar (pis o)
  isKernel := scalar (pis (o + 1))
  stackLen := scalar (pis (o + 2))
  stackTop := getU256 (slice pis (o + 3) 8)
  context := scalar (pis (o + 11))
  gasUsed := scalar (pis (o + 12))

/-- `MemCap::from_public_inputs` (`proof.rs:595-605`) on a slice of 64 elements: the index `64 - 4 * (16 - i) + j` is `4 * i + j`. -/
def readMemCap (pis : ℕ → F) (o : ℕ) : List (Fin 4 → U256) := List.ofFn fun i : Fin 16 => fun j => scalar (pis (o + (64 - 4 * (16 - i.val) + j.val)))

/-- `PublicValues::from_public_inputs` (`proof.rs:98-147`). The offsets are the sums of the sizes 24, 24, 0 or 8, 97, 2056, 16, 13, 13 and 64
(`proof.rs:981`, `1072`, `1193`, `1382`, `1469`, `1603`, `1687`). -/
def readPV (ft : Features) (pis : ℕ → F) : NPV :=
  let b := burnSize ft.cdk
  { rootsBefore := readRoots pis 0
    rootsAfter := readRoots pis 24
    burn := bif ft.cdk then some (getU256 (slice pis 48 8)) else none
    metadata := readMetadata pis (48 + b)
    hashes := readHashes pis (145 + b)
    extra := readExtra pis (2201 + b)
    regsBefore := readRegisters pis (2217 + b)
    regsAfter := readRegisters pis (2230 + b)
    memBefore := readMemCap pis (2243 + b)
    memAfter := readMemCap pis (2307 + b) }

/-! ## The public inputs in their order: `add_virtual_public_values_public_input` (`recursive_verifier.rs:677-711`) -/

/-- The elements of a cap. -/
def capList (c : MemCap) : List F := List.ofFn fun k : Fin 64 => c ⟨k / 4, by omega⟩ ⟨k % 4, by omega⟩

/-- The parts in the order in which they are registered (`recursive_verifier.rs:677-829`). -/
def PV.parts (cdk : Bool) (pv : PV) : List (List F) :=
  let roots (r : TrieRoots) : List (List F) := [List.ofFn r.state, List.ofFn r.txns, List.ofFn r.receipts]
  let regs (r : Registers) : List (List F) := [[r.pc], [r.isKernel], [r.stackLen], List.ofFn r.stackTop, [r.context], [r.gasUsed]]
  roots pv.rootsBefore ++ roots pv.rootsAfter ++ [bif cdk then List.ofFn pv.burn else []] ++
  [List.ofFn pv.metadata.beneficiary, [pv.metadata.timestamp], [pv.metadata.number], [pv.metadata.difficulty],
    List.ofFn pv.metadata.random, [pv.metadata.gaslimit], [pv.metadata.chainId], List.ofFn pv.metadata.baseFee, [pv.metadata.gasUsed],
    List.ofFn pv.metadata.blobGasUsed, List.ofFn pv.metadata.excessBlobGas, List.ofFn pv.metadata.beaconRoot, List.ofFn pv.metadata.bloom] ++
  [List.ofFn pv.hashes.prev, List.ofFn pv.hashes.cur] ++
  [List.ofFn pv.extra.checkpointRoot, List.ofFn pv.extra.checkpointHash, [pv.extra.txnBefore], [pv.extra.txnAfter], [pv.extra.gasBefore],
    [pv.extra.gasAfter]] ++
  regs pv.regsBefore ++ regs pv.regsAfter ++ [capList pv.memBefore, capList pv.memAfter]

/-- The public inputs of a proof, before the verification key. -/
def PV.toPis (cdk : Bool) (pv : PV) : List F := (pv.parts cdk).flatten

/-- A list as a function, for reading. -/
def asPis (l : List F) : ℕ → F := fun k => l.getD k 0

/-! ## What is registered is what is read -/

theorem asPis_append_right (a b : List F) (k : ℕ) : asPis (a ++ b) (a.length + k) = asPis b k := by
  simp [asPis, List.getD_eq_getElem?_getD, List.getElem?_append_right]

theorem asPis_append_left (a b : List F) (k : ℕ) (h : k < a.length) : asPis (a ++ b) k = asPis a k := by
  simp [asPis, List.getD_eq_getElem?_getD, List.getElem?_append_left h]

theorem asPis_ofFn {n : ℕ} (v : Fin n → F) (k : ℕ) (h : k < n) : asPis (List.ofFn v) k = v ⟨k, h⟩ := by
  simp [asPis, List.getD_eq_getElem?_getD, List.getElem?_ofFn, h]

/-- Element `k` of part `i`. -/
theorem asPis_flatten (parts : List (List F)) (i k o : ℕ) (p : List F) (hp : parts[i]? = some p)
    (ho : ((parts.take i).map List.length).sum = o) (hk : k < p.length) : asPis parts.flatten (o + k) = asPis p k := by
  subst ho
  induction parts generalizing i with
  | nil => simp at hp
  | cons a parts ih =>
    cases i with
    | zero =>
      simp only [List.getElem?_cons_zero, Option.some.injEq] at hp
      subst hp
      simp only [List.flatten_cons, List.take_zero, List.map_nil, List.sum_nil, Nat.zero_add]
      exact asPis_append_left _ _ _ hk
    | succ i =>
      simp only [List.getElem?_cons_succ] at hp
      simp only [List.flatten_cons, List.take_succ_cons, List.map_cons, List.sum_cons, Nat.add_assoc]
      rw [asPis_append_right]
      exact ih i hp

end Verif.Recursion
