import Verif.Kasm.Env

/-! Property C112: the EVM's instructions that read the call, the transaction and the block. -/

namespace Verif.Kasm

/-! ### What the prover is given, and where it puts it -/

/-- The part of the inputs that `apply_metadata_and_tries_memops` writes to memory
(`generation/mod.rs:271-433`), as numbers. -/
structure BlockInputs where
  beneficiary : Nat
  timestamp : Nat
  number : Nat
  difficulty : Nat
  random : Nat
  gasLimit : Nat
  chainId : Nat
  baseFee : Nat
  curHash : Nat
  gasUsed : Nat
  blobGasUsed : Nat
  excessBlobGas : Nat
  parentBeaconRoot : Nat
  gasUsedBefore : Nat
  gasUsedAfter : Nat
  txnNumberBefore : Nat
  txnNumberAfter : Nat
  rootsBefore : Nat → Nat
  rootsAfter : Nat → Nat
  kernelHash : Nat
  kernelLen : Nat
  bloom : Nat → Nat
  /-- The hashes of the 256 blocks before this one, the oldest first (`proof.rs:357-361`). -/
  prevHashes : Nat → Nat
  registersBefore : Nat → Nat
  registersAfter : Nat → Nat

/-- `generation/mod.rs:279-429` with the features of Ethereum mainnet: what is written where, in this
order. The addresses are those of `constants/global_metadata.rs` and `memory/segments.rs`. -/
def metadataWrites (b : BlockInputs) : List (Nat × Nat) :=
  [(0x50000000c, b.beneficiary), (0x50000000d, b.timestamp), (0x50000000e, b.number), (0x50000000f, b.difficulty),
   (0x500000010, b.random), (0x500000011, b.gasLimit), (0x500000012, b.chainId), (0x500000013, b.baseFee),
   (0x500000019, b.curHash), (0x500000016, b.gasUsed), (0x500000014, b.blobGasUsed), (0x500000015, b.excessBlobGas),
   (0x50000001a, b.parentBeaconRoot), (0x500000017, b.gasUsedBefore), (0x500000018, b.gasUsedAfter),
   (0x50000002a, b.txnNumberBefore), (0x50000002b, b.txnNumberAfter),
   (0x500000006, b.rootsBefore 0), (0x500000007, b.rootsBefore 1), (0x500000008, b.rootsBefore 2),
   (0x500000009, b.rootsAfter 0), (0x50000000a, b.rootsAfter 1), (0x50000000b, b.rootsAfter 2),
   (0x50000002d, b.kernelHash), (0x50000002e, b.kernelLen)] ++
  (List.range 8).map (fun i => (0x1800000000 + i, b.bloom i)) ++
  (List.range 256).map (fun i => (0x2000000000 + i, b.prevHashes i)) ++
  (List.range 6).map (fun i => (0x2100000000 + i, b.registersBefore i)) ++
  (List.range 6).map (fun i => (0x2100000000 + (6 + i), b.registersAfter i))

/-- `MemoryState::apply_ops` (`witness/memory.rs:170-182`): one write after the other. -/
def applyWrites (w : World) (l : List (Nat × Nat)) : World := l.foldl (fun w p => w.set p.1 p.2) w

/-- The memory holds the inputs: of these cells, the kernel writes none before the block is finished. -/
def HoldsInputs (w : World) (b : BlockInputs) : Prop := ∀ p ∈ metadataWrites b, w.mem p.1 = p.2

theorem applyWrites_other {l : List (Nat × Nat)} {w : World} {a : Nat} (h : a ∉ l.map (·.1)) :
    (applyWrites w l).mem a = w.mem a := by
  induction l generalizing w with
  | nil => rfl
  | cons p l ih =>
    simp only [List.map_cons, List.mem_cons, not_or] at h
    simp only [applyWrites, List.foldl_cons] at *
    rw [ih h.2, set_ne h.1]

theorem applyWrites_mem {l : List (Nat × Nat)} {w : World} (h : (l.map (·.1)).Nodup) :
    ∀ p ∈ l, (applyWrites w l).mem p.1 = p.2 := by
  induction l generalizing w with
  | nil => intro p hp; cases hp
  | cons p l ih =>
    rw [List.map_cons, List.nodup_cons] at h
    intro q hq
    rcases List.mem_cons.1 hq with rfl | hq
    · rw [show applyWrites w (q :: l) = applyWrites (w.set q.1 q.2) l from rfl, applyWrites_other h.1, set_same]
    · exact ih h.2 q hq

/-- No input is written over another one. -/
theorem metadata_held (w : World) (b : BlockInputs) : HoldsInputs (applyWrites w (metadataWrites b)) b := by
  refine applyWrites_mem ?_
  have h : (metadataWrites b).map (·.1) = (metadataWrites ⟨0, 0, 0, 0, 0, 0, 0, 0, 0, 0, 0, 0, 0, 0, 0, 0, 0,
      fun _ => 0, fun _ => 0, 0, 0, fun _ => 0, fun _ => 0, fun _ => 0, fun _ => 0⟩).map (·.1) := by
    simp only [metadataWrites, List.map_append, List.map_cons, List.map_nil, List.map_map]
    rfl
  rw [h]
  decide +kernel

/-! ### What the instructions have to give -/

/-- The call the code runs in, as the kernel records it in the metadata of the context
(`constants/context_metadata.rs`). -/
structure Frame where
  address : Nat
  caller : Nat
  value : Nat
  calldataSize : Nat
  returndataSize : Nat
  codeSize : Nat

def HoldsFrame (w : World) (f : Frame) : Prop :=
  w.mem (w.ctx * 2 ^ 64 + 0x600000002) = f.calldataSize ∧ w.mem (w.ctx * 2 ^ 64 + 0x600000003) = f.returndataSize ∧
  w.mem (w.ctx * 2 ^ 64 + 0x600000004) = f.address ∧ w.mem (w.ctx * 2 ^ 64 + 0x600000005) = f.codeSize ∧
  w.mem (w.ctx * 2 ^ 64 + 0x600000006) = f.caller ∧ w.mem (w.ctx * 2 ^ 64 + 0x600000007) = f.value

/-- What the instructions can see of the transaction (`constants/txn_fields.rs`, `Origin` and
`ComputedFeePerGas`; segment 38 for the blob hashes). The length in the global metadata is that of the encoded
list, 33 bytes for a hash; cells after the hashes are zero (`asm/transactions/common_decoding.asm:272-308`, and
`%reset_blob_versioned_hashes` in `asm/transactions/type_3.asm:121-129`). -/
structure Txn where
  origin : Nat
  gasPrice : Nat
  blobHashes : List Nat

def HoldsTxn (w : World) (t : Txn) : Prop :=
  w.mem 0x90000000f = t.origin ∧ w.mem 0x900000010 = t.gasPrice ∧ w.mem 0x500000034 = 33 * t.blobHashes.length ∧
  ∀ i < 33 * t.blobHashes.length, w.mem (0x2600000000 + i) = t.blobHashes.getD i 0

/-- The instructions without operands that cost 2 gas (`Gbase`), by the kernel routine that serves them. -/
def envTable (f : Frame) (t : Txn) (b : BlockInputs) : List (String × Nat) :=
  [("sys_address", f.address), ("sys_caller", f.caller), ("sys_callvalue", f.value),
   ("sys_calldatasize", f.calldataSize), ("sys_returndatasize", f.returndataSize), ("sys_codesize", f.codeSize),
   ("sys_origin", t.origin), ("sys_gasprice", t.gasPrice),
   ("sys_coinbase", b.beneficiary), ("sys_timestamp", b.timestamp), ("sys_number", b.number),
   ("sys_prevrandao", b.random), ("sys_gaslimit", b.gasLimit), ("sys_chainid", b.chainId), ("sys_basefee", b.baseFee)]

/-- BLOCKHASH: of the last 256 blocks, the hash; of all others, zero. Block `number - 1` is the last one of
`prevHashes`. -/
def blockHash (b : BlockInputs) (n : Nat) : Nat :=
  if n < b.number ∧ b.number ≤ n + 256 then b.prevHashes (n + 256 - b.number) else 0

/-! ### EIP-7516 and EIP-4844: BLOBBASEFEE -/

/-- The terms of `fake_exponential(1, e, 3338477)`. -/
def feeTerm (e : Nat) : Nat → Nat
  | 0 => 3338477
  | i + 1 => feeTerm e i * e / (3338477 * (i + 1))

/-- The sum of the first terms. -/
def feeSum (e : Nat) : Nat → Nat
  | 0 => 0
  | n + 1 => feeSum e n + feeTerm e n

/-- `fee` is the price of a unit of blob gas: all terms up to the first that is zero are added up. -/
def IsBlobBaseFee (e fee : Nat) : Prop := ∃ n, feeTerm e n = 0 ∧ fee = feeSum e n / 3338477

variable {P : Prog} {s : List Nat} {w : World} {k n : Nat} {f : Frame} {t : Txn} {b : BlockInputs}

/-! ### C112 -/

/-- C112, instructions without operands: each of them costs 2 gas and pushes what it is defined to give. -/
theorem C112_reads (hP : P.Has envCode) (h : Serving w k) (hf : HoldsFrame w f) (ht : HoldsTxn w t)
    (hb : HoldsInputs w b) : ∀ p ∈ envTable f t b,
      Reaches P (.goto (P.addr p.1) (k :: s) w) (Gives P w 2 k p.2 s) := by
  obtain ⟨f1, f2, f3, f4, f5, f6⟩ := hf
  obtain ⟨t1, t2, -, -⟩ := ht
  have hg : ∀ a v, (a, v) ∈ metadataWrites b → w.mem a = v := fun a v h => hb (a, v) h
  have b1 := hg _ _ (show (0x50000000c, b.beneficiary) ∈ _ by simp [metadataWrites])
  have b2 := hg _ _ (show (0x50000000d, b.timestamp) ∈ _ by simp [metadataWrites])
  have b3 := hg _ _ (show (0x50000000e, b.number) ∈ _ by simp [metadataWrites])
  have b4 := hg _ _ (show (0x500000010, b.random) ∈ _ by simp [metadataWrites])
  have b5 := hg _ _ (show (0x500000011, b.gasLimit) ∈ _ by simp [metadataWrites])
  have b6 := hg _ _ (show (0x500000012, b.chainId) ∈ _ by simp [metadataWrites])
  have b7 := hg _ _ (show (0x500000013, b.baseFee) ∈ _ by simp [metadataWrites])
  intro p hp
  simp only [envTable, List.mem_cons, List.not_mem_nil, or_false] at hp
  rcases hp with rfl | rfl | rfl | rfl | rfl | rfl | rfl | rfl | rfl | rfl | rfl | rfl | rfl | rfl | rfl
  · rw [← f3]
    exact run_read hP h (b := b_sys_address) (by simp [envCode]) rfl fun c s => by
      rw [m_address, List.append_nil, exec_load_ctx h.ctx (by omega)]
  · rw [← f5]
    exact run_read hP h (b := b_sys_caller) (by simp [envCode]) rfl fun c s => by
      rw [m_caller, List.append_nil, exec_load_ctx h.ctx (by omega)]
  · rw [← f6]
    exact run_read hP h (b := b_sys_callvalue) (by simp [envCode]) rfl fun c s => by
      rw [m_callvalue, List.append_nil, exec_load_ctx h.ctx (by omega)]
  · rw [← f1]
    exact run_read hP h (b := b_sys_calldatasize) (by simp [envCode]) rfl fun c s => by
      rw [m_calldatasize, List.append_nil, exec_load_ctx h.ctx (by omega)]
  · rw [← f2]
    exact run_read hP h (b := b_sys_returndatasize) (by simp [envCode]) rfl fun c s => by
      rw [m_returndatasize, List.append_nil, exec_load_ctx h.ctx (by omega)]
  · rw [← f4]
    exact run_read hP h (b := b_sys_codesize) (by simp [envCode]) rfl fun c s => by
      rw [m_codesize, List.append_nil, exec_load_ctx h.ctx (by omega)]
  · rw [← t1]
    exact run_read hP h (b := b_sys_origin) (by simp [envCode]) rfl fun c s => by
      rw [m_origin, List.append_nil, exec_load_txn (by omega)]
  · rw [← t2]
    exact run_read hP h (b := b_sys_gasprice) (by simp [envCode]) rfl fun c s => exec_load_txn (by omega)
  · rw [← b1]
    exact run_read hP h (b := b_sys_coinbase) (by simp [envCode]) rfl fun c s => by
      rw [m_coinbase, List.append_nil, exec_load_global (by omega)]
  · rw [← b2]
    exact run_read hP h (b := b_sys_timestamp) (by simp [envCode]) rfl fun c s => by
      rw [m_timestamp, List.append_nil, exec_load_global (by omega)]
  · rw [← b3]
    exact run_read hP h (b := b_sys_number) (by simp [envCode]) rfl fun c s => by
      rw [m_blocknumber, List.append_nil, exec_load_global (by omega)]
  · rw [← b4]
    enter hP in envCode
    rw [b_sys_prevrandao, exec_charge_const h (by omega), Gives]
    refine Eq.subst (motive := fun o => Reaches P _ o) ?_ (.refl _)
    refine ite_congr rfl (fun _ => ?_) (fun _ => rfl)
    rw [exec_load_global (by omega)]
    kexec []
  · rw [← b5]
    exact run_read hP h (b := b_sys_gaslimit) (by simp [envCode]) rfl fun c s => by
      rw [m_blockgaslimit, List.append_nil, exec_load_global (by omega)]
  · rw [← b6]
    exact run_read hP h (b := b_sys_chainid) (by simp [envCode]) rfl fun c s => by
      rw [m_blockchainid, List.append_nil, exec_load_global (by omega)]
  · rw [← b7]
    exact run_read hP h (b := b_sys_basefee) (by simp [envCode]) rfl fun c s => by
      rw [m_basefee, List.append_nil, exec_load_global (by omega)]

/-- C112, GAS: what is left after the instruction has been paid. -/
theorem C112_gas (hP : P.Has envCode) (h : Serving w k) :
    Reaches P (.goto (P.addr "sys_gas") (k :: s) w) (Gives P w 2 k (w.gasLimit - (k / 2 ^ 192 + 2)) s) := by
  enter hP in envCode
  have hr := h.room (g := 2) (by omega)
  have hl := h.limit
  rw [b_sys_gas, exec_charge_const h (by omega), Gives]
  refine Eq.subst (motive := fun o => Reaches P _ o) ?_ (.refl _)
  refine ite_congr rfl (fun hle => ?_) (fun _ => rfl)
  kexec [m_shr_const, m_ctx_gas_limit]
  rw [exec_load_ctx h.ctx (by omega)]
  kexec []
  rw [show w.mem (w.ctx * 2 ^ 64 + 25769803788) = w.gasLimit from rfl]
  rw [show wshr 192 (k + 2 * 2 ^ 192) = k / 2 ^ 192 + 2 by simp only [wshr]; rw [if_neg (by omega)]; omega,
    wsub_small hle (by omega)]

/-- C112, BLOCKHASH, for every number that can be on the stack. -/
theorem C112_blockhash (hP : P.Has envCode) (h : Serving w k) (hb : HoldsInputs w b) (hn : n < 2 ^ 256)
    (hcur : b.number < 2 ^ 255) :
    ∃ o, Reaches P (.goto (P.addr "sys_blockhash") (k :: n :: s) w) o ∧
      o = if k / 2 ^ 192 + 20 ≤ w.gasLimit then .exit (k + 20 * 2 ^ 192) (blockHash b n :: s) w
        else .goto (P.addr "fault_exception") ((k + 20 * 2 ^ 192) :: n :: s) w := by
  have b3 : w.mem 0x50000000e = b.number := hb (_, _) (show (0x50000000e, b.number) ∈ _ by simp [metadataWrites])
  have b4 : ∀ i < 256, w.mem (0x2000000000 + i) = b.prevHashes i := fun i hi =>
    hb (_, _) (show (0x2000000000 + i, b.prevHashes i) ∈ _ by
      simp only [metadataWrites, List.mem_append, List.mem_map, List.mem_range]
      exact .inl (.inl (.inr ⟨i, hi, rfl⟩)))
  refine ⟨_, ?_, rfl⟩
  enter hP in envCode
  rw [b_sys_blockhash, exec_charge_const h (by omega)]
  by_cases hle : k / 2 ^ 192 + 20 ≤ w.gasLimit
  · rw [if_pos hle, if_pos hle]
    kexec []
    refine (run_blockhash hP hn (by rw [b3]; exact hcur)).trans ?_
    enter hP in envCode
    rw [b_metadata_2_after]
    kexec []
    have : (if n < w.mem 0x50000000e ∧ w.mem 0x50000000e ≤ n + 256
        then w.mem (0x2000000000 + (n + 256 - w.mem 0x50000000e)) else 0) = blockHash b n := by
      rw [b3, blockHash]
      refine ite_congr rfl (fun h => b4 _ (by omega)) (fun _ => rfl)
    rw [this]
    exact .refl _
  · rw [if_neg hle, if_neg hle]
    exact .refl _

/-- C112, BLOBHASH. -/
theorem C112_blobhash (hP : P.Has envCode) (h : Serving w k) (ht : HoldsTxn w t) (hl : t.blobHashes.length < 2 ^ 24) :
    ∃ o, Reaches P (.goto (P.addr "sys_blobhash") (k :: n :: s) w) o ∧
      o = if k / 2 ^ 192 + 3 ≤ w.gasLimit then .exit (k + 3 * 2 ^ 192) (t.blobHashes.getD n 0 :: s) w
        else .goto (P.addr "fault_exception") ((k + 3 * 2 ^ 192) :: n :: s) w := by
  obtain ⟨-, -, t3, t4⟩ := ht
  refine ⟨_, ?_, rfl⟩
  enter hP in envCode
  rw [b_sys_blobhash, exec_charge_const h (by omega)]
  by_cases hle : k / 2 ^ 192 + 3 ≤ w.gasLimit
  · rw [if_pos hle, if_pos hle]
    kexec []
    rw [exec_load_global (by omega), t3]
    kexec [ne_eq]
    by_cases hn : n < 33 * t.blobHashes.length
    · rw [if_pos (by omega)]
      kexec [m_build_kernel_address]
      rw [wadd_small (by omega), exec_mload_at (by omega), t4 n hn]
      kexec []
      enter hP in envCode
      rw [b_metadata_1_end]
      kexec []
      exact .refl _
    · rw [if_neg (by omega)]
      enter hP in envCode
      rw [b_metadata_1_index_too_big, b_metadata_1_end]
      kexec []
      rw [show t.blobHashes.getD n 0 = 0 by simp [List.getD, List.getElem?_eq_none (by omega : t.blobHashes.length ≤ n)]]
      exact .refl _
  · rw [if_neg hle, if_neg hle]
    exact .refl _

/-- C112, BLOBBASEFEE: the instruction gives the price that follows from the block. -/
def C112_blobbasefee_statement : Prop :=
  ∀ (P : Prog) (w : World) (k : Nat) (s : List Nat) (b : BlockInputs), P.Has envCode → Serving w k →
    HoldsInputs w b → ∀ k' v s' w', Reaches P (.goto (P.addr "sys_blobbasefee") (k :: s) w) (.exit k' (v :: s') w') →
      IsBlobBaseFee b.excessBlobGas v

theorem run_blobbasefee (hP : P.Has envCode) (h : Serving w k) (hle : k / 2 ^ 192 + 2 ≤ w.gasLimit) :
    Reaches P (.goto (P.addr "sys_blobbasefee") (k :: s) w) (.exit (k + 2 * 2 ^ 192) (w.inp 0 :: s) w.next) := by
  enter hP in envCode
  rw [b_sys_blobbasefee, exec_charge_const h (by omega), if_pos hle]
  kexec [exec_input']
  exact .refl _

/-- C112, BLOBBASEFEE: with a prover that supplies the price, the instruction gives the price. The full
statement is `C112_blobbasefee_statement`, and does not hold. -/
theorem C112_blobbasefee_partial (hP : P.Has envCode) (h : Serving w k) (hle : k / 2 ^ 192 + 2 ≤ w.gasLimit)
    (hi : IsBlobBaseFee b.excessBlobGas (w.inp 0)) :
    ∃ v w', Reaches P (.goto (P.addr "sys_blobbasefee") (k :: s) w) (.exit (k + 2 * 2 ^ 192) (v :: s) w') ∧
      IsBlobBaseFee b.excessBlobGas v :=
  ⟨_, _, run_blobbasefee hP h hle, hi⟩

/-- C112, BLOBBASEFEE: the prover can make the instruction give any value, whatever the block. -/
theorem C112_blobbasefee_any (hP : P.Has envCode) (h : Serving w k) (hle : k / 2 ^ 192 + 2 ≤ w.gasLimit) (v : Nat) :
    ∃ w', Reaches P (.goto (P.addr "sys_blobbasefee") (k :: s) { w with inp := fun _ => v })
      (.exit (k + 2 * 2 ^ 192) (v :: s) w') :=
  ⟨_, run_blobbasefee (w := { w with inp := fun _ => v }) hP ⟨h.ctx, h.gas, h.limit⟩ hle⟩

/-! ### A kernel with these instructions, and a call -/

theorem feeTerm_zero (n : Nat) : feeTerm 0 (n + 1) = 0 := by
  simp only [feeTerm, Nat.mul_zero, Nat.zero_div]

theorem feeSum_zero (n : Nat) : feeSum 0 (n + 1) = 3338477 := by
  induction n with
  | zero => rfl
  | succ n ih => rw [feeSum, ih, feeTerm_zero]

/-- Without blobs in the blocks before, the price is 1. -/
theorem blobBaseFee_zero {fee : Nat} : IsBlobBaseFee 0 fee ↔ fee = 1 := by
  constructor
  · rintro ⟨n, h1, h2⟩
    cases n with
    | zero => exact absurd h1 (by decide)
    | succ n => rw [feeSum_zero] at h2; exact h2
  · rintro rfl
    exact ⟨1, feeTerm_zero 0, rfl⟩

def envProg : Prog := Prog.of envCode fun _ => 0

theorem envProg_has : envProg.Has envCode := Prog.of_has _ _ (by decide +kernel) (by decide +kernel)

/-- A block with number 1000 on chain 137, whose predecessors have the hashes 5000, …, 5255. -/
def envBlock : BlockInputs where
  beneficiary := 0xc0ffee
  timestamp := 1700000000
  number := 1000
  difficulty := 0
  random := 99
  gasLimit := 30000000
  chainId := 137
  baseFee := 7
  curHash := 6000
  gasUsed := 21000
  blobGasUsed := 0
  excessBlobGas := 0
  parentBeaconRoot := 4
  gasUsedBefore := 0
  gasUsedAfter := 21000
  txnNumberBefore := 0
  txnNumberAfter := 1
  rootsBefore := fun i => i
  rootsAfter := fun i => i
  kernelHash := 3
  kernelLen := 4
  bloom := fun _ => 0
  prevHashes := fun i => 5000 + i
  registersBefore := fun _ => 0
  registersAfter := fun _ => 0

def envFrame : Frame := ⟨0xa, 0xb, 5, 68, 0, 2000⟩

def envTxn : Txn := ⟨0xb, 20, [0x111, 0x222]⟩

/-- Context 3 with a gas limit of 50000, and the inputs of the block. -/
def envWorld : World := applyWrites
  { ctx := 3
    inp := fun _ => 5
    mem := fun a =>
      if a = 3 * 2 ^ 64 + 0x60000000c then 50000 else
      if a = 3 * 2 ^ 64 + 0x600000002 then 68 else
      if a = 3 * 2 ^ 64 + 0x600000004 then 0xa else
      if a = 3 * 2 ^ 64 + 0x600000005 then 2000 else
      if a = 3 * 2 ^ 64 + 0x600000006 then 0xb else
      if a = 3 * 2 ^ 64 + 0x600000007 then 5 else
      if a = 0x90000000f then 0xb else if a = 0x900000010 then 20 else
      if a = 0x500000034 then 66 else if a = 0x2600000000 then 0x111 else if a = 0x2600000001 then 0x222 else 0 }
  (metadataWrites envBlock)

theorem envWorld_inputs : HoldsInputs envWorld envBlock := metadata_held _ _

theorem envWorld_frame : HoldsFrame envWorld envFrame := by
  refine ⟨?_, ?_, ?_, ?_, ?_, ?_⟩ <;> decide +kernel

theorem envWorld_txn : HoldsTxn envWorld envTxn := by
  refine ⟨by decide +kernel, by decide +kernel, by decide +kernel, fun i h => ?_⟩
  exact (by decide +kernel : ∀ i < 66, envWorld.mem (0x2600000000 + i) = envTxn.blobHashes.getD i 0) i h

/-- Gas used: 100. -/
theorem envWorld_serving : Serving envWorld (100 * 2 ^ 192 + 17) :=
  ⟨by decide +kernel, by decide +kernel, by decide +kernel⟩

theorem envWorld_gas : envWorld.gasLimit = 50000 := by decide +kernel

/-- TIMESTAMP. -/
example : Reaches envProg (.goto (envProg.addr "sys_timestamp") [100 * 2 ^ 192 + 17] envWorld)
    (.exit (102 * 2 ^ 192 + 17) [1700000000] envWorld) := by
  have := C112_reads (s := []) envProg_has envWorld_serving envWorld_frame envWorld_txn envWorld_inputs
    ("sys_timestamp", 1700000000) (by decide +kernel)
  rw [Gives, envWorld_gas, if_pos (by decide)] at this
  exact this

/-- The hash of the parent, and zero for the block itself. -/
example : Reaches envProg (.goto (envProg.addr "sys_blockhash") [100 * 2 ^ 192 + 17, 999] envWorld)
      (.exit (120 * 2 ^ 192 + 17) [5255] envWorld) ∧
    Reaches envProg (.goto (envProg.addr "sys_blockhash") [100 * 2 ^ 192 + 17, 1000] envWorld)
      (.exit (120 * 2 ^ 192 + 17) [0] envWorld) := by
  constructor
  · obtain ⟨o, h, ho⟩ := C112_blockhash (n := 999) (s := []) envProg_has envWorld_serving envWorld_inputs (by decide)
      (by decide)
    rw [envWorld_gas, if_pos (by decide)] at ho
    subst ho; exact h
  · obtain ⟨o, h, ho⟩ := C112_blockhash (n := 1000) (s := []) envProg_has envWorld_serving envWorld_inputs (by decide)
      (by decide)
    rw [envWorld_gas, if_pos (by decide)] at ho
    subst ho; exact h

/-- The second blob hash, and zero for the third. -/
example : ∃ o o', Reaches envProg (.goto (envProg.addr "sys_blobhash") [100 * 2 ^ 192 + 17, 1] envWorld) o ∧
    Reaches envProg (.goto (envProg.addr "sys_blobhash") [100 * 2 ^ 192 + 17, 2] envWorld) o' ∧
    o = .exit (103 * 2 ^ 192 + 17) [0x222] envWorld ∧ o' = .exit (103 * 2 ^ 192 + 17) [0] envWorld := by
  obtain ⟨o, h, ho⟩ := C112_blobhash (n := 1) (s := []) envProg_has envWorld_serving envWorld_txn (by decide)
  obtain ⟨o', h', ho'⟩ := C112_blobhash (n := 2) (s := []) envProg_has envWorld_serving envWorld_txn (by decide)
  rw [envWorld_gas, if_pos (by decide)] at ho ho'
  exact ⟨o, o', h, h', ho, ho'⟩

/-- 49898 of 50000 are left. -/
example : Reaches envProg (.goto (envProg.addr "sys_gas") [100 * 2 ^ 192 + 17] envWorld)
    (.exit (102 * 2 ^ 192 + 17) [49898] envWorld) := by
  have := C112_gas (s := []) envProg_has envWorld_serving
  rw [Gives, envWorld_gas, if_pos (by decide)] at this
  exact this

/-- C112, BLOBBASEFEE: the price is 1, the instruction gives 5. -/
theorem C112_blobbasefee_violated : ¬ C112_blobbasefee_statement := by
  intro h
  have h1 := run_blobbasefee (s := []) envProg_has envWorld_serving (by rw [envWorld_gas]; decide)
  have h2 := h _ _ _ _ _ envProg_has envWorld_serving envWorld_inputs _ _ _ _ h1
  rw [show envBlock.excessBlobGas = 0 from rfl, blobBaseFee_zero] at h2
  revert h2; decide +kernel

end Verif.Kasm
