import Verif.Recursion.Native

/-! # The public inputs are read back where they were registered -/
namespace Verif.Recursion

open Verif.Stark (F P)

/-- The sizes of the parts. -/
def partSizes (cdk : Bool) : List ℕ :=
  [8, 8, 8, 8, 8, 8, burnSize cdk, 5, 1, 1, 1, 8, 1, 1, 2, 1, 2, 2, 8, 64, 2048, 8, 8, 4, 1, 1, 1, 1,
    1, 1, 1, 8, 1, 1, 1, 1, 1, 8, 1, 1, 64, 64]

theorem parts_sizes (cdk : Bool) (pv : PV) : (pv.parts cdk).map List.length = partSizes cdk := by
  cases cdk <;>
  simp only [PV.parts, partSizes, List.map_append, List.map_cons, List.map_nil, List.length_ofFn, List.length_cons, List.length_nil,
    List.cons_append, List.nil_append, capList, burnSize, cond_true, cond_false, Bool.false_eq_true, if_true, if_false, zero_add]

theorem part_elem (cdk : Bool) (pv : PV) (i k o : ℕ) (p : List F) (hp : (pv.parts cdk)[i]? = some p)
    (ho : ((partSizes cdk).take i).sum = o) (hk : k < p.length) : asPis (pv.toPis cdk) (o + k) = asPis p k := by
  refine asPis_flatten _ i k o p hp ?_ hk
  rw [List.map_take, parts_sizes, ho]

theorem part_slice (cdk : Bool) (pv : PV) {n : ℕ} (v : Limbs n) (i o : ℕ) (hp : (pv.parts cdk)[i]? = some (List.ofFn v))
    (ho : ((partSizes cdk).take i).sum = o) : slice (asPis (pv.toPis cdk)) o n = v := by
  funext k
  rw [slice, part_elem cdk pv i k o _ hp ho (by rw [List.length_ofFn]; exact k.2), asPis_ofFn _ _ k.2]

theorem part_one (cdk : Bool) (pv : PV) (x : F) (i o : ℕ) (hp : (pv.parts cdk)[i]? = some [x])
    (ho : ((partSizes cdk).take i).sum = o) : asPis (pv.toPis cdk) o = x := by
  have := part_elem cdk pv i 0 o _ hp ho (by simp)
  simpa [asPis] using this

theorem part_cap (cdk : Bool) (pv : PV) (c : MemCap) (i o : ℕ) (hp : (pv.parts cdk)[i]? = some (capList c))
    (ho : ((partSizes cdk).take i).sum = o) (a : Fin 16) (b : Fin 4) : asPis (pv.toPis cdk) (o + (4 * a + b)) = c a b := by
  have := part_elem cdk pv i (4 * a + b) o _ hp ho (by simp only [capList, List.length_ofFn]; omega)
  rw [this, capList, asPis_ofFn _ _ (by omega)]
  congr 1
  · refine Fin.ext ?_
    show (4 * a.val + b.val) / 4 = a.val
    omega
  · refine Fin.ext ?_
    show (4 * a.val + b.val) % 4 = b.val
    omega

theorem lay_rootsBefore_state (cdk : Bool) (pv : PV) : slice (asPis (pv.toPis cdk)) (0) 8 = pv.rootsBefore.state :=
  part_slice cdk pv _ 0 _ rfl (by cases cdk <;> rfl)
theorem lay_rootsBefore_txns (cdk : Bool) (pv : PV) : slice (asPis (pv.toPis cdk)) (8) 8 = pv.rootsBefore.txns :=
  part_slice cdk pv _ 1 _ rfl (by cases cdk <;> rfl)
theorem lay_rootsBefore_receipts (cdk : Bool) (pv : PV) : slice (asPis (pv.toPis cdk)) (16) 8 = pv.rootsBefore.receipts :=
  part_slice cdk pv _ 2 _ rfl (by cases cdk <;> rfl)
theorem lay_rootsAfter_state (cdk : Bool) (pv : PV) : slice (asPis (pv.toPis cdk)) (24) 8 = pv.rootsAfter.state :=
  part_slice cdk pv _ 3 _ rfl (by cases cdk <;> rfl)
theorem lay_rootsAfter_txns (cdk : Bool) (pv : PV) : slice (asPis (pv.toPis cdk)) (32) 8 = pv.rootsAfter.txns :=
  part_slice cdk pv _ 4 _ rfl (by cases cdk <;> rfl)
theorem lay_rootsAfter_receipts (cdk : Bool) (pv : PV) : slice (asPis (pv.toPis cdk)) (40) 8 = pv.rootsAfter.receipts :=
  part_slice cdk pv _ 5 _ rfl (by cases cdk <;> rfl)
theorem lay_metadata_beneficiary (cdk : Bool) (pv : PV) : slice (asPis (pv.toPis cdk)) (48 + burnSize cdk) 5 = pv.metadata.beneficiary :=
  part_slice cdk pv _ 7 _ rfl (by cases cdk <;> rfl)
theorem lay_metadata_timestamp (cdk : Bool) (pv : PV) : asPis (pv.toPis cdk) (48 + burnSize cdk + 5) = pv.metadata.timestamp :=
  part_one cdk pv _ 8 _ rfl (by cases cdk <;> rfl)
theorem lay_metadata_number (cdk : Bool) (pv : PV) : asPis (pv.toPis cdk) (48 + burnSize cdk + 6) = pv.metadata.number :=
  part_one cdk pv _ 9 _ rfl (by cases cdk <;> rfl)
theorem lay_metadata_difficulty (cdk : Bool) (pv : PV) : asPis (pv.toPis cdk) (48 + burnSize cdk + 7) = pv.metadata.difficulty :=
  part_one cdk pv _ 10 _ rfl (by cases cdk <;> rfl)
theorem lay_metadata_random (cdk : Bool) (pv : PV) : slice (asPis (pv.toPis cdk)) (48 + burnSize cdk + 8) 8 = pv.metadata.random :=
  part_slice cdk pv _ 11 _ rfl (by cases cdk <;> rfl)
theorem lay_metadata_gaslimit (cdk : Bool) (pv : PV) : asPis (pv.toPis cdk) (48 + burnSize cdk + 16) = pv.metadata.gaslimit :=
  part_one cdk pv _ 12 _ rfl (by cases cdk <;> rfl)
theorem lay_metadata_chainId (cdk : Bool) (pv : PV) : asPis (pv.toPis cdk) (48 + burnSize cdk + 17) = pv.metadata.chainId :=
  part_one cdk pv _ 13 _ rfl (by cases cdk <;> rfl)
theorem lay_metadata_baseFee (cdk : Bool) (pv : PV) : slice (asPis (pv.toPis cdk)) (48 + burnSize cdk + 18) 2 = pv.metadata.baseFee :=
  part_slice cdk pv _ 14 _ rfl (by cases cdk <;> rfl)
theorem lay_metadata_gasUsed (cdk : Bool) (pv : PV) : asPis (pv.toPis cdk) (48 + burnSize cdk + 20) = pv.metadata.gasUsed :=
  part_one cdk pv _ 15 _ rfl (by cases cdk <;> rfl)
theorem lay_metadata_blobGasUsed (cdk : Bool) (pv : PV) : slice (asPis (pv.toPis cdk)) (48 + burnSize cdk + 21) 2 = pv.metadata.blobGasUsed :=
  part_slice cdk pv _ 16 _ rfl (by cases cdk <;> rfl)
theorem lay_metadata_excessBlobGas (cdk : Bool) (pv : PV) : slice (asPis (pv.toPis cdk)) (48 + burnSize cdk + 23) 2 = pv.metadata.excessBlobGas :=
  part_slice cdk pv _ 17 _ rfl (by cases cdk <;> rfl)
theorem lay_metadata_beaconRoot (cdk : Bool) (pv : PV) : slice (asPis (pv.toPis cdk)) (48 + burnSize cdk + 25) 8 = pv.metadata.beaconRoot :=
  part_slice cdk pv _ 18 _ rfl (by cases cdk <;> rfl)
theorem lay_metadata_bloom (cdk : Bool) (pv : PV) : slice (asPis (pv.toPis cdk)) (48 + burnSize cdk + 33) 64 = pv.metadata.bloom :=
  part_slice cdk pv _ 19 _ rfl (by cases cdk <;> rfl)
theorem lay_hashes_prev (cdk : Bool) (pv : PV) : slice (asPis (pv.toPis cdk)) (145 + burnSize cdk) 2048 = pv.hashes.prev :=
  part_slice cdk pv _ 20 _ rfl (by cases cdk <;> rfl)
theorem lay_hashes_cur (cdk : Bool) (pv : PV) : slice (asPis (pv.toPis cdk)) (145 + burnSize cdk + 2048) 8 = pv.hashes.cur :=
  part_slice cdk pv _ 21 _ rfl (by cases cdk <;> rfl)
theorem lay_extra_checkpointRoot (cdk : Bool) (pv : PV) : slice (asPis (pv.toPis cdk)) (2201 + burnSize cdk) 8 = pv.extra.checkpointRoot :=
  part_slice cdk pv _ 22 _ rfl (by cases cdk <;> rfl)
theorem lay_extra_checkpointHash (cdk : Bool) (pv : PV) : slice (asPis (pv.toPis cdk)) (2201 + burnSize cdk + 8) 4 = pv.extra.checkpointHash :=
  part_slice cdk pv _ 23 _ rfl (by cases cdk <;> rfl)
theorem lay_extra_txnBefore (cdk : Bool) (pv : PV) : asPis (pv.toPis cdk) (2201 + burnSize cdk + 12) = pv.extra.txnBefore :=
  part_one cdk pv _ 24 _ rfl (by cases cdk <;> rfl)
theorem lay_extra_txnAfter (cdk : Bool) (pv : PV) : asPis (pv.toPis cdk) (2201 + burnSize cdk + 13) = pv.extra.txnAfter :=
  part_one cdk pv _ 25 _ rfl (by cases cdk <;> rfl)
theorem lay_extra_gasBefore (cdk : Bool) (pv : PV) : asPis (pv.toPis cdk) (2201 + burnSize cdk + 14) = pv.extra.gasBefore :=
  part_one cdk pv _ 26 _ rfl (by cases cdk <;> rfl)
theorem lay_extra_gasAfter (cdk : Bool) (pv : PV) : asPis (pv.toPis cdk) (2201 + burnSize cdk + 15) = pv.extra.gasAfter :=
  part_one cdk pv _ 27 _ rfl (by cases cdk <;> rfl)
theorem lay_regsBefore_pc (cdk : Bool) (pv : PV) : asPis (pv.toPis cdk) (2217 + burnSize cdk) = pv.regsBefore.pc :=
  part_one cdk pv _ 28 _ rfl (by cases cdk <;> rfl)
theorem lay_regsBefore_isKernel (cdk : Bool) (pv : PV) : asPis (pv.toPis cdk) (2217 + burnSize cdk + 1) = pv.regsBefore.isKernel :=
  part_one cdk pv _ 29 _ rfl (by cases cdk <;> rfl)
theorem lay_regsBefore_stackLen (cdk : Bool) (pv : PV) : asPis (pv.toPis cdk) (2217 + burnSize cdk + 2) = pv.regsBefore.stackLen :=
  part_one cdk pv _ 30 _ rfl (by cases cdk <;> rfl)
theorem lay_regsBefore_stackTop (cdk : Bool) (pv : PV) : slice (asPis (pv.toPis cdk)) (2217 + burnSize cdk + 3) 8 = pv.regsBefore.stackTop :=
  part_slice cdk pv _ 31 _ rfl (by cases cdk <;> rfl)
theorem lay_regsBefore_context (cdk : Bool) (pv : PV) : asPis (pv.toPis cdk) (2217 + burnSize cdk + 11) = pv.regsBefore.context :=
  part_one cdk pv _ 32 _ rfl (by cases cdk <;> rfl)
theorem lay_regsBefore_gasUsed (cdk : Bool) (pv : PV) : asPis (pv.toPis cdk) (2217 + burnSize cdk + 12) = pv.regsBefore.gasUsed :=
  part_one cdk pv _ 33 _ rfl (by cases cdk <;> rfl)
theorem lay_regsAfter_pc (cdk : Bool) (pv : PV) : asPis (pv.toPis cdk) (2230 + burnSize cdk) = pv.regsAfter.pc :=
  part_one cdk pv _ 34 _ rfl (by cases cdk <;> rfl)
theorem lay_regsAfter_isKernel (cdk : Bool) (pv : PV) : asPis (pv.toPis cdk) (2230 + burnSize cdk + 1) = pv.regsAfter.isKernel :=
  part_one cdk pv _ 35 _ rfl (by cases cdk <;> rfl)
theorem lay_regsAfter_stackLen (cdk : Bool) (pv : PV) : asPis (pv.toPis cdk) (2230 + burnSize cdk + 2) = pv.regsAfter.stackLen :=
  part_one cdk pv _ 36 _ rfl (by cases cdk <;> rfl)
theorem lay_regsAfter_stackTop (cdk : Bool) (pv : PV) : slice (asPis (pv.toPis cdk)) (2230 + burnSize cdk + 3) 8 = pv.regsAfter.stackTop :=
  part_slice cdk pv _ 37 _ rfl (by cases cdk <;> rfl)
theorem lay_regsAfter_context (cdk : Bool) (pv : PV) : asPis (pv.toPis cdk) (2230 + burnSize cdk + 11) = pv.regsAfter.context :=
  part_one cdk pv _ 38 _ rfl (by cases cdk <;> rfl)
theorem lay_regsAfter_gasUsed (cdk : Bool) (pv : PV) : asPis (pv.toPis cdk) (2230 + burnSize cdk + 12) = pv.regsAfter.gasUsed :=
  part_one cdk pv _ 39 _ rfl (by cases cdk <;> rfl)
theorem lay_burn (pv : PV) : slice (asPis (pv.toPis true)) 48 8 = pv.burn := part_slice true pv _ 6 48 rfl rfl
theorem lay_memBefore (cdk : Bool) (pv : PV) (i : Fin 16) (j : Fin 4) : asPis (pv.toPis cdk) (2243 + burnSize cdk + (4 * i + j)) = pv.memBefore i j :=
  part_cap cdk pv _ 40 _ rfl (by cases cdk <;> rfl) i j
theorem lay_memAfter (cdk : Bool) (pv : PV) (i : Fin 16) (j : Fin 4) : asPis (pv.toPis cdk) (2307 + burnSize cdk + (4 * i + j)) = pv.memAfter i j :=
  part_cap cdk pv _ 41 _ rfl (by cases cdk <;> rfl) i j


/-- `PublicValuesTarget::from_public_inputs` reads what was registered. -/
theorem ofPis_toPis (cdk : Bool) (pv : PV) (hb : cdk = false → pv.burn = fun _ => 0) : PV.ofPis cdk (asPis (pv.toPis cdk)) = pv := by
  have hburn : (if cdk then slice (asPis (pv.toPis cdk)) 48 8 else fun _ => 0) = pv.burn := by
    cases cdk
    · exact (hb rfl).symm
    · exact lay_burn pv
  simp only [PV.ofPis, hburn, Nat.add_assoc _ (4 * _) _, lay_memBefore, lay_memAfter,
    lay_rootsBefore_state, lay_rootsBefore_txns, lay_rootsBefore_receipts, lay_rootsAfter_state, lay_rootsAfter_txns, lay_rootsAfter_receipts, lay_metadata_beneficiary, lay_metadata_timestamp, lay_metadata_number, lay_metadata_difficulty, lay_metadata_random, lay_metadata_gaslimit, lay_metadata_chainId, lay_metadata_baseFee, lay_metadata_gasUsed, lay_metadata_blobGasUsed, lay_metadata_excessBlobGas, lay_metadata_beaconRoot, lay_metadata_bloom, lay_hashes_prev, lay_hashes_cur, lay_extra_checkpointRoot, lay_extra_checkpointHash, lay_extra_txnBefore, lay_extra_txnAfter, lay_extra_gasBefore, lay_extra_gasAfter, lay_regsBefore_pc, lay_regsBefore_isKernel, lay_regsBefore_stackLen, lay_regsBefore_stackTop, lay_regsBefore_context, lay_regsBefore_gasUsed, lay_regsAfter_pc, lay_regsAfter_isKernel, lay_regsAfter_stackLen, lay_regsAfter_stackTop, lay_regsAfter_context, lay_regsAfter_gasUsed]

end Verif.Recursion
