import Verif.Recursion.Sound

/-!
# The aggregation provers (`AllRecursiveCircuits::prove_segment_aggregation`, `prove_batch_aggregation`, `prove_block`,
`prove_block_wrapper`): the public values and witnesses they set

The values are field elements here; turning native values into field elements is the subject of `Recursion/Native.lean`.
-/
namespace Verif.Recursion

open Verif.Stark (F)

/-- `set_bool_target`. -/
def bit (b : Bool) : F := if b then 1 else 0

theorem bit_isBool (b : Bool) : IsBool (bit b) := by cases b <;> simp [bit, IsBool]
@[simp] theorem bit_true : bit true = 1 := rfl
@[simp] theorem bit_false : bit false = 0 := rfl

/-- All public values zero. -/
def PV.zero : PV where
  rootsBefore := ⟨fun _ => 0, fun _ => 0, fun _ => 0⟩
  rootsAfter := ⟨fun _ => 0, fun _ => 0, fun _ => 0⟩
  burn := fun _ => 0
  metadata := ⟨fun _ => 0, 0, 0, 0, fun _ => 0, 0, 0, fun _ => 0, 0, fun _ => 0, fun _ => 0, fun _ => 0, fun _ => 0⟩
  hashes := ⟨fun _ => 0, fun _ => 0⟩
  extra := ⟨fun _ => 0, fun _ => 0, 0, 0, 0, 0⟩
  regsBefore := ⟨0, 0, 0, fun _ => 0, 0, 0⟩
  regsAfter := ⟨0, 0, 0, fun _ => 0, 0, 0⟩
  memBefore := fun _ _ => 0
  memAfter := fun _ _ => 0

/-- `set_dummy_if_necessary` (`fixed_recursive_verifier.rs:2877-2896`): the unused aggregation slot of a base proof gets zeros followed
by the key of the aggregation circuit (`set_dummy_proof_with_cyclic_vk_pis`, `2838-2868`). -/
def childOf (vk : VK) (isAgg : Bool) (p : PI) : AggChild where
  isAgg := bit isAgg
  agg := if isAgg then p else ⟨.zero, vk⟩
  base := p

/-- `set_dummy_if_necessary_with_dummy` (`fixed_recursive_verifier.rs:2471-2492`). -/
def dummyChildOf (vk : VK) (isAgg isDummy : Bool) (p : PI) : DummyChild where
  isAgg := bit isAgg
  isDummy := bit isDummy
  agg := if isAgg then p else ⟨.zero, vk⟩
  real := p

theorem childOf_pv (vk : VK) (b : Bool) (p : PI) : (childOf vk b p).pv = p.pv := by
  cases b
  · exact AggChild.pv_base rfl
  · exact AggChild.pv_agg rfl

theorem dummyChildOf_pv (vk : VK) (b d : Bool) (p : PI) : (dummyChildOf vk b d p).pv = p.pv := by
  cases b
  · exact DummyChild.pv_real rfl
  · exact DummyChild.pv_agg rfl

/-- The public values of `prove_segment_aggregation` (`fixed_recursive_verifier.rs:2332-2365`). -/
def aggSegPV (lhs rhs : PV) (isDummy : Bool) : PV :=
  let real := if isDummy then lhs else rhs
  { rootsBefore := lhs.rootsBefore
    rootsAfter := real.rootsAfter
    burn := lhs.burn
    extra :=
      { checkpointRoot := lhs.extra.checkpointRoot
        checkpointHash := lhs.extra.checkpointHash
        txnBefore := lhs.extra.txnBefore
        txnAfter := real.extra.txnAfter
        gasBefore := lhs.extra.gasBefore
        gasAfter := real.extra.gasAfter }
    metadata := real.metadata
    hashes := real.hashes
    regsBefore := lhs.regsBefore
    regsAfter := real.regsAfter
    memBefore := lhs.memBefore
    memAfter := real.memAfter }

/-- The public values of `prove_batch_aggregation` (`fixed_recursive_verifier.rs:2439-2448`). -/
def aggBatchPV (lhs rhs : PV) : PV :=
  { rhs with
    rootsBefore := lhs.rootsBefore
    extra := { rhs.extra with txnBefore := lhs.extra.txnBefore, gasBefore := lhs.extra.gasBefore } }

/-- The public values of `prove_block` (`fixed_recursive_verifier.rs:2677-2684`). -/
def blockPV (parent : Option PV) (agg : PV) : PV :=
  { agg with rootsBefore := (parent.map PV.rootsBefore).getD agg.rootsBefore }

/-- `FinalPublicValues::from(PublicValues)` (`proof.rs:198-213`). -/
def finalPV (S : Setup) (pv : PV) : FinalPV where
  chainId := pv.metadata.chainId
  checkpointRoot := pv.rootsBefore.state
  newRoot := pv.rootsAfter.state
  checkpointHash := pv.extra.checkpointHash
  newHash := S.hash ((List.ofFn pv.hashes.prev).drop 8 ++ List.ofFn pv.hashes.cur)

/-! ## Public inputs as an indexed vector -/

/-- A slice of the public inputs. -/
def slice (pis : ℕ → F) (offset n : ℕ) : Limbs n := fun i => pis (offset + i)

/-- `BurnAddrTarget::get_size` (`proof.rs:1072-1077`). -/
def burnSize (cdk : Bool) : ℕ := if cdk then 8 else 0

/-- `PublicValuesTarget::from_public_inputs` (`proof.rs:855-904`) with the `from_public_inputs` of its parts (`proof.rs:986-1000`,
`1081-1086`, `1195-1227`, `1386-1392`, `1470-1488`, `1607-1623`, `1691-1704`). -/
def PV.ofPis (cdk : Bool) (pis : ℕ → F) : PV :=
  let b := burnSize cdk
  { rootsBefore := ⟨slice pis 0 8, slice pis 8 8, slice pis 16 8⟩
    rootsAfter := ⟨slice pis 24 8, slice pis 32 8, slice pis 40 8⟩
    burn := if cdk then slice pis 48 8 else fun _ => 0
    metadata :=
      { beneficiary := slice pis (48 + b) 5
        timestamp := pis (48 + b + 5)
        number := pis (48 + b + 6)
        difficulty := pis (48 + b + 7)
        random := slice pis (48 + b + 8) 8
        gaslimit := pis (48 + b + 16)
        chainId := pis (48 + b + 17)
        baseFee := slice pis (48 + b + 18) 2
        gasUsed := pis (48 + b + 20)
        blobGasUsed := slice pis (48 + b + 21) 2
        excessBlobGas := slice pis (48 + b + 23) 2
        beaconRoot := slice pis (48 + b + 25) 8
        bloom := slice pis (48 + b + 33) 64 }
    hashes := ⟨slice pis (145 + b) 2048, slice pis (145 + b + 2048) 8⟩
    extra :=
      { checkpointRoot := slice pis (2201 + b) 8
        checkpointHash := slice pis (2201 + b + 8) 4
        txnBefore := pis (2201 + b + 12)
        txnAfter := pis (2201 + b + 13)
        gasBefore := pis (2201 + b + 14)
        gasAfter := pis (2201 + b + 15) }
    regsBefore :=
      ⟨pis (2217 + b), pis (2217 + b + 1), pis (2217 + b + 2), slice pis (2217 + b + 3) 8, pis (2217 + b + 11), pis (2217 + b + 12)⟩
    regsAfter :=
      ⟨pis (2230 + b), pis (2230 + b + 1), pis (2230 + b + 2), slice pis (2230 + b + 3) 8, pis (2230 + b + 11), pis (2230 + b + 12)⟩
    memBefore := fun i j => pis (2243 + b + 4 * i + j)
    memAfter := fun i j => pis (2307 + b + 4 * i + j) }

/-- Inserting the limbs `v` at the keys from `start` on. -/
def put {n : ℕ} (f : ℕ → F) (start : ℕ) (v : Limbs n) : ℕ → F := fun k =>
  if h : start ≤ k ∧ k < start + n then v ⟨k - start, by omega⟩ else f k

/-- `nonzero_pis` of `prove_block` without a parent (`fixed_recursive_verifier.rs:2549-2660`): what is inserted, in the order of the
code, into a map that is zero elsewhere (`cyclic_base_proof`). The block number minus one is taken in the field; the code takes it in
`u64`, which differs for the genesis block only. -/
def nonzeroPis (cdk : Bool) (agg : PV) : ℕ → F :=
  let f0 : ℕ → F := fun _ => 0
  let f1 := put f0 0 agg.rootsBefore.state
  let f2 := put f1 8 agg.rootsBefore.txns
  let f3 := put f2 16 agg.rootsBefore.receipts
  let f4 := put f3 24 agg.rootsBefore.state
  let f5 := bif cdk then put f4 48 agg.burn else f4
  let f6 := put f5 (burnSize cdk + 24 * 2 + 97 + 2056) agg.extra.checkpointRoot
  let f7 := put f6 (burnSize cdk + 24 * 2 + 97 + 8) (fun i : Fin 2040 => agg.hashes.prev ⟨i, by omega⟩)
  let f8 := put f7 (burnSize cdk + 24 * 2 + 97 + 2056 - 8) (fun i : Fin 8 => agg.hashes.prev ⟨2040 + i, by omega⟩)
  put f8 (burnSize cdk + 24 * 2 + 6) (fun _ : Fin 1 => agg.metadata.number - 1)

/-- The parent the block circuit sees when there is none. -/
def dummyParent (S : Setup) (agg : PV) : PI := ⟨.ofPis S.cdk (nonzeroPis S.cdk agg), S.blockVK⟩

/-! ## They satisfy the circuits -/

/-- Two segment proofs fit together: what `prove_segment_aggregation` expects of its arguments if the right one is no dummy. -/
structure Fits (S : Setup) (l r : PV) : Prop where
  rootsBefore : l.rootsBefore = r.rootsBefore
  rootsAfter : l.rootsAfter = r.rootsAfter
  metadata : l.metadata = r.metadata
  hashes : l.hashes = r.hashes
  extra : l.extra = r.extra
  regs : l.regsAfter = r.regsBefore
  mem : l.memAfter = r.memBefore
  burn : S.cdk = true → l.burn = r.burn

theorem Metadata.condEq_refl (c : F) (a : Metadata) : a.condEq c a := by simp [Metadata.condEq, Recursion.condEq]
theorem TrieRoots.condEq_refl (c : F) (a : TrieRoots) : a.condEq c a := by simp [TrieRoots.condEq, Recursion.condEq]
theorem BlockHashes.condEq_refl (c : F) (a : BlockHashes) : a.condEq c a := by simp [BlockHashes.condEq, Recursion.condEq]
theorem Extra.condEq_refl (c : F) (a : Extra) : a.condEq c a := by simp [Extra.condEq, Recursion.condEq]
theorem Registers.condEq_refl (c : F) (a : Registers) : a.condEq c a := by simp [Registers.condEq, Recursion.condEq]
theorem condEqCap_refl (c : F) (a : MemCap) : condEqCap c a a := by simp [condEqCap, Recursion.condEq]
theorem condEqBurn_refl (c : F) (a : Limbs 8) : condEqBurn c a a := by simp [condEqBurn, Recursion.condEq]

theorem proveSeg_real {S : Setup} {owned : Bool} {l r : PI} {la ra : Bool} (hf : Fits S l.pv r.pv)
    (hl : if la then Accepted S owned S.segVK l else Valid S owned S.rootVK l)
    (hr : if ra then Accepted S owned S.segVK r else Valid S owned S.rootVK r) :
    Accepted S owned S.segVK ⟨aggSegPV l.pv r.pv false, S.segVK⟩ := by
  refine ⟨.seg _ (childOf S.segVK la l) (dummyChildOf S.segVK ra false r) ?_ ?_ ?_ ?_ ?_ ?_ ?_, rfl⟩
  · have e : aggSegPV l.pv r.pv false = { r.pv with
        rootsBefore := l.pv.rootsBefore, burn := l.pv.burn, regsBefore := l.pv.regsBefore, memBefore := l.pv.memBefore } := by
      unfold aggSegPV
      simp [hf.extra]
    have hz : (1 : F) - (dummyChildOf S.segVK ra false r).isDummy = 1 := by simp [dummyChildOf]
    constructor
    all_goals try simp only [childOf_pv, dummyChildOf_pv, hz, e]
    · exact bit_isBool la
    · exact bit_isBool ra
    · exact bit_isBool false
    · exact TrieRoots.connect_iff.2 rfl
    · exact TrieRoots.connect_iff.2 hf.rootsAfter.symm
    · exact Metadata.connect_iff.2 hf.metadata.symm
    · exact BlockHashes.connect_iff.2 hf.hashes.symm
    · exact Extra.connect_iff.2 hf.extra.symm
    · exact Registers.connect_iff.2 rfl
    · exact connectCap_iff.2 rfl
    · exact TrieRoots.condEq_one.2 hf.rootsBefore
    · exact TrieRoots.condEq_one.2 rfl
    · exact fun h => condEqBurn_one.2 (hf.burn h)
    · exact fun h => condEqBurn_one.2 (hf.burn h)
    · exact Metadata.condEq_refl _ _
    · exact BlockHashes.condEq_one.2 rfl
    · exact Extra.condEq_one.2 rfl
    · exact Registers.condEq_one.2 rfl
    · exact Registers.condEq_one.2 hf.regs
    · exact condEqCap_one.2 rfl
    · exact condEqCap_one.2 hf.mem
    · simp [dummyChildOf]
    · exact condEqCap_zero
    · exact Registers.condEq_zero
  · cases la
    · rfl
    · exact hl.2
  · cases la
    · intro h; simp [childOf] at h
    · intro _; exact hl.1
  · cases la
    · intro _; exact hl
    · intro h; simp [childOf] at h
  · cases ra
    · rfl
    · exact hr.2
  · cases ra
    · intro h; simp [dummyChildOf] at h
    · intro _; exact hr.1
  · cases ra
    · intro _; simp only [dummyChildOf, bit_false, PI.select_zero]; exact hr
    · intro h; simp [dummyChildOf] at h

theorem proveSeg_dummy {S : Setup} {owned : Bool} {l : PI} (r : PV) (hl : Valid S owned S.rootVK l) :
    Accepted S owned S.segVK ⟨aggSegPV l.pv r true, S.segVK⟩ := by
  refine ⟨.seg _ (childOf S.segVK false l) (dummyChildOf S.segVK false true l) ?_ ?_ ?_ ?_ ?_ ?_ ?_, rfl⟩
  · have e : aggSegPV l.pv r true = l.pv := by simp [aggSegPV]
    constructor
    all_goals try simp only [childOf_pv, dummyChildOf_pv, e]
    · exact bit_isBool false
    · exact bit_isBool false
    · exact bit_isBool true
    · exact TrieRoots.connect_iff.2 rfl
    · exact TrieRoots.connect_iff.2 rfl
    · exact Metadata.connect_iff.2 rfl
    · exact BlockHashes.connect_iff.2 rfl
    · exact Extra.connect_iff.2 rfl
    · exact Registers.connect_iff.2 rfl
    · exact connectCap_iff.2 rfl
    · exact TrieRoots.condEq_refl _ _
    · exact TrieRoots.condEq_refl _ _
    · exact fun _ => condEqBurn_refl _ _
    · exact fun _ => condEqBurn_refl _ _
    · exact Metadata.condEq_refl _ _
    · exact BlockHashes.condEq_refl _ _
    · exact Extra.condEq_refl _ _
    · exact Registers.condEq_refl _ _
    · simp only [dummyChildOf, bit_true, sub_self]; exact Registers.condEq_zero
    · exact condEqCap_refl _ _
    · simp only [dummyChildOf, bit_true, sub_self]; exact condEqCap_zero
    · simp [childOf]
    · exact condEqCap_refl _ _
    · exact Registers.condEq_refl _ _
  · rfl
  · intro h; simp [childOf] at h
  · intro _; exact hl
  · rfl
  · intro h; simp [dummyChildOf] at h
  · intro _; simp only [dummyChildOf, childOf, bit_true, PI.select_one]; exact hl

/-- Two batch proofs fit together: what `prove_batch_aggregation` expects of its arguments. -/
structure FitsBatch (S : Setup) (l r : PV) : Prop where
  roots : l.rootsAfter = r.rootsBefore
  metadata : l.metadata = r.metadata
  hashes : l.hashes = r.hashes
  checkpointRoot : l.extra.checkpointRoot = r.extra.checkpointRoot
  txn : l.extra.txnAfter = r.extra.txnBefore
  gas : l.extra.gasAfter = r.extra.gasBefore
  burn : S.cdk = true → l.burn = r.burn
  regsBefore : l.regsBefore = r.regsBefore

/-- With any cyclic key; the prover sets the key of the batch circuit. -/
theorem proveBatch {S : Setup} {owned : Bool} {l r : PI} {la ra : Bool} {vk : VK} (hf : FitsBatch S l.pv r.pv)
    (hcl : CompleteRun S l.pv) (hcr : CompleteRun S r.pv)
    (hl : if la then Valid S owned vk l ∧ l.vk = vk else Valid S owned S.segVK l ∧ (owned = true → l.vk = S.segVK))
    (hr : if ra then Valid S owned vk r ∧ r.vk = vk else Valid S owned S.segVK r ∧ (owned = true → r.vk = S.segVK)) :
    Valid S owned S.batchVK ⟨aggBatchPV l.pv r.pv, vk⟩ := by
  have ini : ∀ x : PV, CompleteRun S x → InitialFinal S x := fun x h =>
    ⟨h.entry.2.2.1, h.exit.2.2.1, h.entry.2.2.2.1, h.exit.2.2.2, h.entry.2.2.2.2, h.entry.2.1, h.exit.2.1, h.exit.1, h.entry.1⟩
  refine .batch _ (childOf vk la l) (childOf vk ra r) ?_ ?_ ?_ ?_ ?_ ?_ ?_ ?_ ?_
  · constructor
    all_goals try simp only [childOf_pv, aggBatchPV]
    · exact bit_isBool la
    · exact bit_isBool ra
    · exact BlockHashes.connect_iff.2 rfl
    · exact BlockHashes.connect_iff.2 hf.hashes.symm
    · exact Metadata.connect_iff.2 rfl
    · exact Metadata.connect_iff.2 hf.metadata.symm
    · exact TrieRoots.connect_iff.2 rfl
    · exact TrieRoots.connect_iff.2 hf.roots
    · exact TrieRoots.connect_iff.2 rfl
    · exact fun h => connectBurn_iff.2 (hf.burn h)
    · exact fun _ => connectBurn_iff.2 rfl
    · exact ⟨fun _ => rfl, fun i => by rw [hf.checkpointRoot], rfl, rfl, hf.txn, rfl, rfl, hf.gas⟩
    · exact Registers.connect_iff.2 rfl
    · exact Registers.connect_iff.2 hf.regsBefore.symm
    · exact ini _ hcr
    · exact ini _ hcl
    · exact connectCap_iff.2 hcr.memory
    · exact connectCap_iff.2 hcl.memory
  · cases la
    · rfl
    · exact hl.2
  · cases la
    · intro h; simp [childOf] at h
    · intro _; exact hl.1
  · cases la
    · intro _; exact hl.1
    · intro h; simp [childOf] at h
  · cases la
    · intro ho _; exact hl.2 ho
    · intro _ h; simp [childOf] at h
  · cases ra
    · rfl
    · exact hr.2
  · cases ra
    · intro h; simp [childOf] at h
    · intro _; exact hr.1
  · cases ra
    · intro _; exact hr.1
    · intro h; simp [childOf] at h
  · cases ra
    · intro ho _; exact hr.2 ho
    · intro _ h; simp [childOf] at h

/-! The slots `prove_block` fills for the absent parent are the ones the circuit reads. -/

theorem put_mem {n : ℕ} (f : ℕ → F) (start : ℕ) (v : Limbs n) (i : Fin n) {k : ℕ} (h : k = start + i) : put f start v k = v i := by
  subst h
  have := i.2
  rw [put, dif_pos ⟨by omega, by omega⟩]
  congr 1; exact Fin.ext (Nat.add_sub_cancel_left ..)

theorem put_not {n : ℕ} (f : ℕ → F) (start : ℕ) (v : Limbs n) {k : ℕ} (h : k < start ∨ start + n ≤ k) : put f start v k = f k := by
  rw [put, dif_neg (by omega)]

theorem burnSize_true : burnSize true = 8 := rfl
theorem burnSize_false : burnSize false = 0 := rfl

theorem nonzeroPis_roots (cdk : Bool) (agg : PV) (i : Fin 8) :
    nonzeroPis cdk agg (0 + i) = agg.rootsBefore.state i ∧ nonzeroPis cdk agg (8 + i) = agg.rootsBefore.txns i ∧
    nonzeroPis cdk agg (16 + i) = agg.rootsBefore.receipts i ∧ nonzeroPis cdk agg (24 + i) = agg.rootsBefore.state i := by
  have := i.2
  cases cdk <;> unfold nonzeroPis <;> dsimp only [cond_true, cond_false] <;>
    (refine ⟨?_, ?_, ?_, ?_⟩ <;> (try rw [burnSize_true]) <;> (try rw [burnSize_false]) <;>
      (repeat rw [put_not _ _ _ (by omega)]) <;> exact put_mem _ _ _ i rfl)

theorem nonzeroPis_burn (agg : PV) (i : Fin 8) : nonzeroPis true agg (48 + i) = agg.burn i := by
  have := i.2
  unfold nonzeroPis; dsimp only [cond_true]; rw [burnSize_true]
  repeat rw [put_not _ _ _ (by omega)]
  exact put_mem _ _ _ i rfl

theorem nonzeroPis_checkpoint (cdk : Bool) (agg : PV) (i : Fin 8) :
    nonzeroPis cdk agg (2201 + burnSize cdk + i) = agg.extra.checkpointRoot i := by
  have := i.2
  unfold nonzeroPis
  rw [put_not _ _ _ (by omega), put_not _ _ _ (by omega), put_not _ _ _ (by omega)]
  exact put_mem _ _ _ i (by omega)

theorem nonzeroPis_number (cdk : Bool) (agg : PV) : nonzeroPis cdk agg (48 + burnSize cdk + 6) = agg.metadata.number - 1 := by
  unfold nonzeroPis
  exact put_mem _ _ _ (0 : Fin 1) (by rw [Fin.val_zero]; omega)

theorem nonzeroPis_timestamp (cdk : Bool) (agg : PV) : nonzeroPis cdk agg (48 + burnSize cdk + 5) = 0 := by
  cases cdk <;> unfold nonzeroPis <;> dsimp only [cond_true, cond_false] <;>
    (try rw [burnSize_true]) <;> (try rw [burnSize_false]) <;> (repeat rw [put_not _ _ _ (by omega)])

theorem nonzeroPis_prev (cdk : Bool) (agg : PV) (k : ℕ) (h : k < 2040) :
    nonzeroPis cdk agg (145 + burnSize cdk + (k + 8)) = agg.hashes.prev ⟨k, by omega⟩ := by
  unfold nonzeroPis
  rw [put_not _ _ _ (by omega), put_not _ _ _ (by omega)]
  exact put_mem _ _ _ (⟨k, h⟩ : Fin 2040) (by show _ = _ + k; omega)

theorem nonzeroPis_cur (cdk : Bool) (agg : PV) (i : Fin 8) :
    nonzeroPis cdk agg (145 + burnSize cdk + 2048 + i) = agg.hashes.prev ⟨2040 + i, by omega⟩ := by
  have := i.2
  unfold nonzeroPis
  rw [put_not _ _ _ (by omega)]
  exact put_mem _ _ _ i (by omega)

theorem dummyParent_facts (cdk : Bool) (agg : PV) :
    let p := PV.ofPis cdk (nonzeroPis cdk agg)
    p.rootsBefore = agg.rootsBefore ∧ p.rootsAfter.state = agg.rootsBefore.state ∧ (cdk = true → p.burn = agg.burn) ∧
      p.extra.checkpointRoot = agg.extra.checkpointRoot ∧ p.metadata.number = agg.metadata.number - 1 ∧
      p.metadata.timestamp = 0 ∧ ConnectHashes p.hashes agg.hashes := by
  refine ⟨TrieRoots.ext (funext fun i => (nonzeroPis_roots cdk agg i).1) (funext fun i => (nonzeroPis_roots cdk agg i).2.1)
    (funext fun i => (nonzeroPis_roots cdk agg i).2.2.1), funext fun i => (nonzeroPis_roots cdk agg i).2.2.2, ?_,
    funext (nonzeroPis_checkpoint cdk agg), nonzeroPis_number cdk agg, nonzeroPis_timestamp cdk agg,
    ⟨nonzeroPis_prev cdk agg, nonzeroPis_cur cdk agg⟩⟩
  rintro rfl; exact funext (nonzeroPis_burn agg)

/-- `prove_block` on the first block. -/
theorem proveBlock_first {S : Setup} {owned : Bool} {agg : PI} (ha : Valid S owned S.batchVK agg)
    (hk : owned = true → agg.vk = S.batchVK)
    (hi : agg.pv.extra.txnBefore = 0 ∧ agg.pv.extra.gasBefore = 0 ∧ agg.pv.rootsBefore.txns = S.emptyRoot ∧
      agg.pv.rootsBefore.receipts = S.emptyRoot ∧ agg.pv.metadata.gasUsed = agg.pv.extra.gasAfter)
    (hc : agg.pv.rootsBefore.state = agg.pv.extra.checkpointRoot)
    (hh : agg.pv.extra.checkpointHash = S.hash (List.ofFn agg.pv.hashes.prev))
    (ht : agg.pv.metadata.timestamp.val < 2 ^ 32) :
    Accepted S owned S.blockVK ⟨blockPV none agg.pv, S.blockVK⟩ := by
  obtain ⟨f1, f2, f3, f4, f5, f6, f7⟩ := dummyParent_facts S.cdk agg.pv
  refine ⟨.block _ 0 (dummyParent S agg.pv) agg ?_ rfl (fun h => absurd h (by decide)) ha hk, rfl⟩
  exact
    { bit := Or.inl rfl
      rootsBefore := TrieRoots.connect_iff.2 f1.symm
      rootsAfter := TrieRoots.connect_iff.2 rfl
      metadata := Metadata.connect_iff.2 rfl
      hashes := BlockHashes.connect_iff.2 rfl
      extra := Extra.connect_iff.2 rfl
      timestamp := by rw [show (dummyParent S agg.pv).pv.metadata.timestamp = 0 from f6, sub_zero]; exact ht
      burnP := fun h => connectBurn_iff.2 (f3 h)
      burn := fun _ => connectBurn_iff.2 rfl
      state := fun i => congrFun f2 i
      checkpointRoot := fun i => congrFun f4 i
      number := f5
      initial := ⟨hi.1, hi.2.1, congrFun hi.2.2.1, congrFun hi.2.2.2.1⟩
      gasUsed := hi.2.2.2.2
      checkpoint := ⟨fun i => by rw [hc, sub_self, mul_zero], fun i => by rw [hh, condEq, sub_self, mul_zero]⟩
      blockHashes := f7 }

/-- `prove_block` on a block with a parent. -/
theorem proveBlock_next {S : Setup} {owned : Bool} {parent agg : PI} (hp : Accepted S owned S.blockVK parent)
    (ha : Valid S owned S.batchVK agg) (hk : owned = true → agg.vk = S.batchVK)
    (hi : agg.pv.extra.txnBefore = 0 ∧ agg.pv.extra.gasBefore = 0 ∧ agg.pv.rootsBefore.txns = S.emptyRoot ∧
      agg.pv.rootsBefore.receipts = S.emptyRoot ∧ agg.pv.metadata.gasUsed = agg.pv.extra.gasAfter)
    (hf : Follows parent.pv agg.pv) (hc : parent.pv.extra.checkpointRoot = agg.pv.extra.checkpointRoot)
    (hb : S.cdk = true → parent.pv.burn = agg.pv.burn) :
    Accepted S owned S.blockVK ⟨blockPV (some parent.pv) agg.pv, S.blockVK⟩ := by
  refine ⟨.block _ 1 parent agg ?_ hp.2 (fun _ => hp.1) ha hk, rfl⟩
  have hlen : ∀ n (f : Fin n → F), (List.ofFn f).length = n := fun n f => List.length_ofFn
  exact
    { bit := Or.inr rfl
      rootsBefore := TrieRoots.connect_iff.2 rfl
      rootsAfter := TrieRoots.connect_iff.2 rfl
      metadata := Metadata.connect_iff.2 rfl
      hashes := BlockHashes.connect_iff.2 rfl
      extra := Extra.connect_iff.2 rfl
      timestamp := by
        obtain ⟨d, hd, e⟩ := hf.time
        rw [e, add_sub_cancel_left, ZMod.val_natCast_of_lt]
        · exact hd
        · unfold Verif.Stark.P; omega
      burnP := fun h => connectBurn_iff.2 (hb h)
      burn := fun _ => connectBurn_iff.2 rfl
      state := fun i => congrFun hf.state i
      checkpointRoot := fun i => congrFun hc i
      number := by rw [hf.number]; ring
      initial := ⟨hi.1, hi.2.1, congrFun hi.2.2.1, congrFun hi.2.2.2.1⟩
      gasUsed := hi.2.2.2.2
      checkpoint := ⟨fun i => by rw [sub_self, zero_mul], fun i => by rw [condEq, sub_self, zero_mul]⟩
      blockHashes := by
        have key : ∀ (j : ℕ) (hj : j < 2048), agg.pv.hashes.prev ⟨j, hj⟩ =
            ((List.ofFn parent.pv.hashes.prev).drop 8 ++ List.ofFn parent.pv.hashes.cur)[j]'(by
              simp only [List.length_append, List.length_drop, List.length_ofFn]; omega) := by
          intro j hj
          simp only [← hf.hashes, List.getElem_ofFn]
        refine ⟨fun k hk => ?_, fun i => ?_⟩
        · rw [key k (by omega), List.getElem_append_left (by simp only [List.length_drop, List.length_ofFn]; omega)]
          simp only [List.getElem_drop, List.getElem_ofFn]
          congr 1; exact Fin.ext (Nat.add_comm _ _)
        · have := i.2
          rw [key (2040 + i) (by omega), List.getElem_append_right (by simp only [List.length_drop, List.length_ofFn]; omega)]
          simp only [List.getElem_ofFn, List.length_drop, List.length_ofFn]
          refine congrArg parent.pv.hashes.cur (Fin.ext ?_)
          show i.val = 2040 + i.val - (2048 - 8)
          omega }

/-- `prove_block_wrapper`. -/
theorem proveWrapper {S : Setup} {owned : Bool} {block : PI} (hb : Accepted S owned S.blockVK block)
    (hc : block.pv.rootsBefore.state = block.pv.extra.checkpointRoot) : WrapperValid S owned (finalPV S block.pv) :=
  ⟨block, hb.1, fun _ => hb.2, ⟨rfl, fun _ => rfl, fun _ => rfl, fun i => congrFun hc i, fun _ => rfl, fun _ => rfl⟩⟩

/-! ## Whole runs can be proven -/

/-- Every run of segments has an aggregation proof. -/
theorem provable_segRun (S : Setup) (owned : Bool) (l : List PV) : ∀ pv : PV, FullSegRun S l pv → (∀ s ∈ l, s.burn = pv.burn) →
    Accepted S owned S.segVK ⟨pv, S.segVK⟩ := by
  induction l using List.reverseRecOn with
  | nil => intro pv h; obtain ⟨a, ha, -⟩ := h.starts; simp at ha
  | append_singleton l s ih =>
    intro pv h hb
    have hs : s ∈ l ++ [s] := by simp
    obtain ⟨b, hb', hb1, hb2⟩ := h.ends
    obtain rfl : s = b := by simpa using hb'
    by_cases hl : l = []
    · subst hl
      obtain ⟨a, ha', ha1, ha2, -⟩ := h.starts
      obtain rfl : s = a := by simpa using ha'
      have e : s = pv := PV.ext (h.roots s hs).1 (h.roots s hs).2 (hb s hs) (h.allMetadata s hs) (h.hashes s hs) (h.extra s hs)
        ha1 hb1 ha2 hb2
      have := proveSeg_dummy (owned := owned) (l := ⟨s, S.segVK⟩) s (.root _ (h.proven s hs))
      rw [show aggSegPV s s true = s by simp [aggSegPV]] at this
      rw [← e]; exact this
    · obtain ⟨z, hz⟩ : ∃ z, l.getLast? = some z := ⟨_, List.getLast?_eq_some_getLast hl⟩
      have hc := List.isChain_append.1 h.contiguous
      have hzs := hc.2.2 z (by rw [hz]; rfl) s (by simp)
      obtain ⟨a, ha', ha1, ha2, ha3⟩ := h.starts
      have hal : l.head? = some a := by
        cases l with
        | nil => exact absurd rfl hl
        | cons x xs => simpa using ha'
      have mem : ∀ x ∈ l, x ∈ l ++ [s] := fun x hx => by simp [hx]
      have := ih { pv with regsAfter := z.regsAfter, memAfter := z.memAfter }
        { proven := fun x hx => h.proven x (mem x hx)
          contiguous := hc.1
          starts := ⟨a, hal, ha1, ha2, ha3⟩
          ends := ⟨z, hz, rfl, rfl⟩
          roots := fun x hx => h.roots x (mem x hx)
          hashes := fun x hx => h.hashes x (mem x hx)
          extra := fun x hx => h.extra x (mem x hx)
          metadata := fun x hx => h.metadata x (mem x hx)
          allMetadata := fun x hx => h.allMetadata x (mem x hx)
          burn := fun k x hx => h.burn k x (mem x hx) } (fun x hx => hb x (mem x hx))
      have hv := proveSeg_real (S := S) (owned := owned) (l := ⟨{ pv with regsAfter := z.regsAfter, memAfter := z.memAfter }, S.segVK⟩)
        (r := ⟨s, S.segVK⟩) (la := true) (ra := false)
        ⟨(h.roots s hs).1.symm, (h.roots s hs).2.symm, (h.allMetadata s hs).symm, (h.hashes s hs).symm, (h.extra s hs).symm, hzs.1, hzs.2,
          fun k => (h.burn k s hs).symm⟩ this (.root _ (h.proven s hs))
      have e : aggSegPV { pv with regsAfter := z.regsAfter, memAfter := z.memAfter } s false = pv := by
        simp only [aggSegPV, Bool.false_eq_true, if_false]
        rw [(h.roots s hs).2, h.extra s hs, h.allMetadata s hs, h.hashes s hs, hb1, hb2]
      rw [e] at hv
      exact hv

theorem aggBatchPV_fits {S : Setup} {acc last x : PV} (h : FitsBatch S last x) : FitsBatch S (aggBatchPV acc last) x :=
  ⟨h.roots, h.metadata, h.hashes, h.checkpointRoot, h.txn, h.gas, h.burn, h.regsBefore⟩

theorem aggBatchPV_complete {S : Setup} {acc last : PV} (h : CompleteRun S last) : CompleteRun S (aggBatchPV acc last) := ⟨h.1, h.2, h.3⟩

theorem provable_batches_aux (S : Setup) (owned : Bool) (bs : List PV) : ∀ acc last : PV, (last :: bs).IsChain (FitsBatch S) →
    (∀ b ∈ bs, Accepted S owned S.segVK ⟨b, S.segVK⟩ ∧ CompleteRun S b) → CompleteRun S last →
    Accepted S owned S.batchVK ⟨aggBatchPV acc last, S.batchVK⟩ →
    Accepted S owned S.batchVK ⟨bs.foldl aggBatchPV (aggBatchPV acc last), S.batchVK⟩ := by
  induction bs with
  | nil => intro acc last _ _ _ h; exact h
  | cons x xs ih =>
    intro acc last hc hb hl h
    rw [List.isChain_cons_cons] at hc
    refine ih _ x hc.2 (fun b hb' => hb b (by simp [hb'])) (hb x (by simp)).2 ⟨?_, rfl⟩
    have hx := hb x (by simp)
    exact proveBatch (l := ⟨aggBatchPV acc last, S.batchVK⟩) (r := ⟨x, S.segVK⟩) (la := true) (ra := false) (aggBatchPV_fits hc.1)
      (aggBatchPV_complete hl) hx.2 ⟨h.1, rfl⟩ ⟨hx.1.1, fun _ => rfl⟩

/-- Any two or more batches that fit together have an aggregation proof. -/
theorem provable_batches (S : Setup) (owned : Bool) (a b : PV) (bs : List PV) (hc : (a :: b :: bs).IsChain (FitsBatch S))
    (hb : ∀ x ∈ a :: b :: bs, Accepted S owned S.segVK ⟨x, S.segVK⟩ ∧ CompleteRun S x) :
    Accepted S owned S.batchVK ⟨(b :: bs).foldl aggBatchPV a, S.batchVK⟩ := by
  rw [List.isChain_cons_cons] at hc
  have ha := hb a (by simp)
  have hbb := hb b (by simp)
  refine provable_batches_aux S owned bs a b hc.2 (fun x hx => hb x (by simp [hx])) hbb.2 ⟨?_, rfl⟩
  exact proveBatch (l := ⟨a, S.segVK⟩) (r := ⟨b, S.segVK⟩) (la := false) (ra := false) hc.1 ha.2 hbb.2 ⟨ha.1.1, fun _ => rfl⟩
    ⟨hbb.1.1, fun _ => rfl⟩

/-- Block `b` can be proven on top of block `a`. -/
structure FitsBlock (S : Setup) (a b : PV) : Prop extends Follows a b where
  checkpointRoot : a.extra.checkpointRoot = b.extra.checkpointRoot
  burn : S.cdk = true → a.burn = b.burn

theorem provable_chain_aux (S : Setup) (owned : Bool) (bs : List PV) : ∀ acc last : PV, (last :: bs).IsChain (FitsBlock S) →
    (∀ b ∈ bs, Accepted S owned S.batchVK ⟨b, S.batchVK⟩ ∧ WholeBlock S b) →
    Accepted S owned S.blockVK ⟨blockPV (some acc) last, S.blockVK⟩ →
    Accepted S owned S.blockVK ⟨bs.foldl (fun p b => blockPV (some p) b) (blockPV (some acc) last), S.blockVK⟩ := by
  induction bs with
  | nil => intro acc last _ _ h; exact h
  | cons x xs ih =>
    intro acc last hc hb h
    rw [List.isChain_cons_cons] at hc
    refine ih _ x hc.2 (fun b hb' => hb b (by simp [hb'])) ?_
    have hx := hb x (by simp)
    exact proveBlock_next (parent := ⟨blockPV (some acc) last, S.blockVK⟩) (agg := ⟨x, S.batchVK⟩) h hx.1.1 (fun _ => rfl)
      ⟨hx.2.txn, hx.2.gas, hx.2.txnTrie, hx.2.receiptTrie, hx.2.gasUsed⟩
      ⟨hc.1.state, hc.1.number, hc.1.time, hc.1.hashes⟩ hc.1.checkpointRoot hc.1.burn

/-- Any chain of blocks that fit together and start at their checkpoint has a block proof. -/
theorem provable_chain (S : Setup) (owned : Bool) (a : PV) (bs : List PV) (hc : (a :: bs).IsChain (FitsBlock S))
    (hb : ∀ b ∈ a :: bs, Accepted S owned S.batchVK ⟨b, S.batchVK⟩ ∧ WholeBlock S b)
    (hr : a.rootsBefore.state = a.extra.checkpointRoot) (hh : a.extra.checkpointHash = S.hash (List.ofFn a.hashes.prev))
    (ht : a.metadata.timestamp.val < 2 ^ 32) :
    Accepted S owned S.blockVK ⟨bs.foldl (fun p b => blockPV (some p) b) (blockPV none a), S.blockVK⟩ := by
  have ha := hb a (by simp)
  have h0 := proveBlock_first (agg := ⟨a, S.batchVK⟩) ha.1.1 (fun _ => rfl)
    ⟨ha.2.txn, ha.2.gas, ha.2.txnTrie, ha.2.receiptTrie, ha.2.gasUsed⟩ hr hh ht
  have e : blockPV none a = blockPV (some a) a := rfl
  rw [e] at h0 ⊢
  exact provable_chain_aux S owned bs a a hc (fun b hb' => hb b (by simp [hb'])) h0

end Verif.Recursion
