import Verif.Kasm.Balance
import Verif.Kasm.Intrinsic
import Verif.Kasm.Code.ProcessTxn

/-! The checks of a transaction and what its sender pays in advance (`asm/core/process_txn.asm:6-86`). -/

namespace Verif.Kasm

variable {P : Prog} {c : List I} {S s : List Nat} {w w' : World} {ret n i : Nat} {ps ts : List Nat} {f : Nat → Option Nat}
  {js : List (List Nat)} {a x key p : Nat}

/-! ### Specification -/

/-- A transaction; a legacy transaction has its gas price as both fees. -/
structure Tx where
  chainId : Option Nat
  nonce : Nat
  maxPriorityFee : Nat
  maxFee : Nat
  gasLimit : Nat
  value : Nat
  data : List Nat
  creation : Bool
  listCost : Nat
  sender : Nat

/-- What matters of the block. -/
structure Blk where
  gasLimit : Nat
  chainId : Nat
  baseFee : Nat

/-- The part of the price of gas that goes to the beneficiary (EIP-1559). -/
def Tx.priorityFee (t : Tx) (b : Blk) : Nat := min t.maxPriorityFee (t.maxFee - b.baseFee)
/-- The price of gas (EIP-1559). -/
def Tx.gasPrice (t : Tx) (b : Blk) : Nat := b.baseFee + t.priorityFee b
def Tx.intrinsic (t : Tx) : Nat := intrinsicGas t.data t.creation t.listCost

/-- What the Yellow Paper asks of a transaction besides the sender's balance: EIP-1559 fees, gas limits, EIP-155 chain identifier, EIP-2681 and
EIP-3607. -/
structure Tx.Sound (t : Tx) (b : Blk) (A : Acct) : Prop where
  base : b.baseFee ≤ t.maxFee
  priority : t.maxPriorityFee ≤ t.maxFee
  gas : t.intrinsic ≤ t.gasLimit
  block : t.gasLimit ≤ b.gasLimit
  nonce : A.nonce = t.nonce
  nonceMax : A.nonce ≠ 2 ^ 64 - 1
  code : A.codeHash = emptyHash
  chain : ∀ c, t.chainId = some c → c = b.chainId

/-- A valid transaction: the sender can pay for all its gas at the greatest price it allows, and the value. -/
structure Tx.Valid (t : Tx) (b : Blk) (A : Acct) : Prop extends t.Sound b A where
  funds : t.gasLimit * t.maxFee + t.value ≤ A.balance

/-- The sender after having paid for the gas. -/
def Tx.charged (t : Tx) (b : Blk) (A : Acct) : Acct := { A with balance := A.balance - t.gasLimit * t.gasPrice b, nonce := A.nonce + 1 }

/-! ### The transaction in memory -/

structure TxnIs (w : World) (t : Tx) (b : Blk) : Prop where
  present : w.mem 0x900000001 = if t.chainId.isSome then 1 else 0
  chain : ∀ c, t.chainId = some c → w.mem 0x900000002 = c
  nonce : w.mem 0x900000003 = t.nonce
  maxPriorityFee : w.mem 0x900000004 = t.maxPriorityFee
  maxFee : w.mem 0x900000005 = t.maxFee
  gasLimit : w.mem 0x900000006 = t.gasLimit
  value : w.mem 0x900000009 = t.value
  sender : w.mem 0x90000000f = t.sender
  data : DataIs w t.data
  creation : w.mem 0x500000024 = if t.creation then 1 else 0
  listCost : w.mem 0x500000023 = t.listCost
  listSmall : t.listCost < 2 ^ 64
  blockGas : w.mem 0x500000011 = b.gasLimit
  blockChain : w.mem 0x500000012 = b.chainId
  blockFee : w.mem 0x500000013 = b.baseFee

/-- The cells of the transaction. -/
def TxnCell (b : Nat) : Prop := (0x900000000 ≤ b ∧ b < 0xb00000000 ∧ b ≠ 0x900000007 ∧ b ≠ 0x900000010 ∧ b ≠ 0x900000011) ∨
  b = 0x500000024 ∨ b = 0x500000023 ∨ b = 0x500000011 ∨ b = 0x500000012 ∨ b = 0x500000013

theorem TxnIs.congr {t : Tx} {b : Blk} (h : TxnIs w t b) (hm : ∀ a, TxnCell a → w'.mem a = w.mem a) : TxnIs w' t b := by
  have hf := h.data.fits
  have hm' : ∀ a, (0x900000000 ≤ a ∧ a < 0xb00000000 ∧ a ≠ 0x900000007 ∧ a ≠ 0x900000010 ∧ a ≠ 0x900000011) → w'.mem a = w.mem a := fun a h => hm a (.inl h)
  refine ⟨?_, fun c hc => ?_, ?_, ?_, ?_, ?_, ?_, ?_, ⟨?_, hf, fun i hi => ?_⟩, ?_, ?_, h.listSmall, ?_, ?_, ?_⟩
  · rw [hm' _ (by omega)]; exact h.present
  · rw [hm' _ (by omega)]; exact h.chain c hc
  · rw [hm' _ (by omega)]; exact h.nonce
  · rw [hm' _ (by omega)]; exact h.maxPriorityFee
  · rw [hm' _ (by omega)]; exact h.maxFee
  · rw [hm' _ (by omega)]; exact h.gasLimit
  · rw [hm' _ (by omega)]; exact h.value
  · rw [hm' _ (by omega)]; exact h.sender
  · rw [hm' _ (by omega)]; exact h.data.len
  · rw [hm' _ (by omega)]; exact h.data.at_ i hi
  · rw [hm _ (by simp [TxnCell])]; exact h.creation
  · rw [hm _ (by simp [TxnCell])]; exact h.listCost
  · rw [hm _ (by simp [TxnCell])]; exact h.blockGas
  · rw [hm _ (by simp [TxnCell])]; exact h.blockChain
  · rw [hm _ (by simp [TxnCell])]; exact h.blockFee

theorem txnCell_bal {b : Nat} (h : TxnCell b) : ¬ BalCell b := by
  simp only [TxnCell, BalCell, JourArea, TouchArea, touchLen, touchBase, jourLen, jdatLen, jourBase, jdatBase] at *; omega

/-- Cells of the transaction that the kernel computes. -/
def FeeCell (b : Nat) : Prop := b = 0x900000007 ∨ b = 0x900000010 ∨ b = 0x900000011

theorem state_set_fee {b v : Nat} (h : StateIs w n ps f js ts) (hb : FeeCell b) (hv : v < 2 ^ 256) :
    StateIs (w.set b v) n ps f js ts ∧ (w.set b v).accts f = w.accts f := by
  have hm : ∀ d, ¬ FeeCell d → (w.set b v).mem d = w.mem d := fun d hd => set_ne fun e => hd (e ▸ hb)
  have hm' : ∀ d, ¬ (0x900000000 ≤ d ∧ d < 0xa00000000) → (w.set b v).mem d = w.mem d := fun d hd => hm d fun e => hd (by
    simp only [FeeCell] at e; omega)
  refine ⟨⟨h.words.set hv, h.accounts.congr (hm' _ (by decide)) fun d h1 h2 => hm' d (by simp only [accBase] at *; omega), h.ptr, h.apart,
    by rw [hm' _ (by omega)]; exact h.null, h.journal.congr fun d hd => hm' d (by simp only [JourArea, jourLen, jdatLen, jourBase, jdatBase] at hd; omega),
    h.touched.congr fun d hd => hm' d (by simp only [TouchArea, touchLen, touchBase] at hd; omega),
    by rw [hm' _ (by omega)]; exact h.size⟩, ?_⟩
  funext k
  simp only [World.accts]
  cases hf : f k with
  | none => rfl
  | some p =>
    have := h.ptr _ _ hf
    simp only [Option.map_some, World.record]
    rw [hm' _ (by omega), hm' _ (by omega), hm' _ (by omega)]

/-! ### The kernel's checks -/

/-- What the kernel asks of the sender's account: it is there, and its balance is at least the sum *modulo 2^256* of the price of the gas and the value. -/
structure Tx.Accepts (t : Tx) (b : Blk) (A : Acct) : Prop extends t.Sound b A where
  funds : (t.gasLimit * t.gasPrice b % 2 ^ 256 + t.value) % 2 ^ 256 ≤ A.balance

/-- The kernel has the routines for the checks. -/
structure Prog.Processes (P : Prog) : Prop where
  pays : P.Pays
  code : P.Has accountCodeCode
  intrinsic : P.Has intrinsicGasCode
  txn : P.Has processTxnCode

/-! ### Assertions -/

theorem exec_assert_ge {l : String} {x y : Nat} :
    exec P (m_assert_ge1 (.lab l) ++ c) (x :: y :: s) w = if y ≤ x then exec P c s w else .goto (P.addr l) s w := by
  kexec [m_assert_ge1, m_assert_zero1]

theorem exec_assert_le {l : String} {x y : Nat} :
    exec P (m_assert_le1 (.lab l) ++ c) (x :: y :: s) w = if x ≤ y then exec P c s w else .goto (P.addr l) s w := by
  kexec [m_assert_le1, m_assert_zero1]

theorem exec_assert_eq {l : String} {x y : Nat} (hx : x < 2 ^ 256) (hy : y < 2 ^ 256) :
    exec P (m_assert_eq1 (.lab l) ++ c) (x :: y :: s) w = if x = y then exec P c s w else .goto (P.addr l) s w := by
  kexec [m_assert_eq1]
  have : wsub x y = 0 ↔ x = y := by simp only [wsub]; omega
  simp only [this]

theorem exec_assert_zero {l : String} {x : Nat} :
    exec P (m_assert_zero1 (.lab l) ++ c) (x :: s) w = if x = 0 then exec P c s w else .goto (P.addr l) s w := by
  kexec [m_assert_zero1]

theorem exec_assert_nonzero {l : String} {x : Nat} :
    exec P (m_assert_nonzero1 (.lab l) ++ c) (x :: s) w = if x = 0 then .goto (P.addr l) s w else exec P c s w := by
  kexec [m_assert_nonzero1]
  by_cases h : x = 0
  · simp [h]
  · simp [h]

theorem exec_store_txn {q v : Nat} (hq : q < 39 * 2 ^ 32) : exec P (m_mstore_txn_field (.lit q) ++ c) (v :: s) w = exec P c s (w.set q v) := by
  kexec [m_mstore_txn_field]
  rw [exec_mstore_at hq]

/-! ### Rejection -/

section
variable (hP : P.Has processTxnCode)

/-- How the kernel leaves an invalid transaction: it goes on with the next one, without success and with all its gas left over. -/
def rejected (P : Prog) (t : Tx) (S : List Nat) (w : World) : Out := .goto (P.addr "txn_loop_after") (0 :: t.gasLimit :: S) w

variable {t : Tx} {b : Blk}

include hP in
theorem run_invalid (hT : TxnIs w t b) : Reaches P (.goto (P.addr "invalid_txn") (x :: S) w) (rejected P t S w) := by
  enter hP in processTxnCode
  rw [b_invalid_txn]
  kexec []
  rw [exec_load_txn (by omega), hT.gasLimit]
  kexec []
  exact .refl _

include hP in
theorem run_invalid_1 {x1 x2 : Nat} (hT : TxnIs w t b) : Reaches P (.goto (P.addr "invalid_txn_1") (x1 :: x2 :: S) w) (rejected P t S w) := by
  enter hP in processTxnCode
  rw [b_invalid_txn_1]
  kexec [m_pop2, rep]
  rw [exec_load_txn (by omega), hT.gasLimit]
  kexec []
  exact .refl _

include hP in
theorem run_invalid_2 {x1 x2 x3 : Nat} (hT : TxnIs w t b) : Reaches P (.goto (P.addr "invalid_txn_2") (x1 :: x2 :: x3 :: S) w) (rejected P t S w) := by
  enter hP in processTxnCode
  rw [b_invalid_txn_2]
  kexec [m_pop3, rep]
  rw [exec_load_txn (by omega), hT.gasLimit]
  kexec []
  exact .refl _

include hP in
theorem run_invalid_3 {x1 x2 x3 x4 : Nat} (hT : TxnIs w t b) : Reaches P (.goto (P.addr "invalid_txn_3") (x1 :: x2 :: x3 :: x4 :: S) w) (rejected P t S w) := by
  enter hP in processTxnCode
  rw [b_invalid_txn_3]
  kexec [m_pop4, rep]
  rw [exec_load_txn (by omega), hT.gasLimit]
  kexec []
  exact .refl _

/-! ### The stages -/

/-- The fees are in memory. -/
def World.fees (w : World) (t : Tx) (b : Blk) : World := (w.set 0x900000010 (t.gasPrice b)).set 0x900000011 (t.priorityFee b)

include hP in
theorem run_compute_fees (hw : Words w) (hT : TxnIs w t b) :
    Reaches P (.goto (P.addr "process_normalized_txn") (ret :: S) w)
      (if b.baseFee ≤ t.maxFee ∧ t.maxPriorityFee ≤ t.maxFee then .goto (P.addr "intrinsic_gas") (P.addr "process_txn@1.after" :: ret :: S) (w.fees t b)
      else rejected P t S w) := by
  have h1 : b.baseFee < 2 ^ 256 := hT.blockFee ▸ hw _
  have h2 : t.maxFee < 2 ^ 256 := hT.maxFee ▸ hw _
  have h3 : t.maxPriorityFee < 2 ^ 256 := hT.maxPriorityFee ▸ hw _
  enter hP in processTxnCode
  rw [b_process_normalized_txn, m_compute_fees]
  simp only [List.append_assoc]
  rw [exec_load_global (by omega), exec_load_txn (by omega), exec_load_txn (by omega), hT.blockFee, hT.maxFee, hT.maxPriorityFee]
  kexec []
  rw [exec_assert_ge]
  by_cases c1 : b.baseFee ≤ t.maxFee
  · rw [if_pos c1]
    kexec []
    rw [exec_assert_ge]
    by_cases c2 : t.maxPriorityFee ≤ t.maxFee
    · rw [if_pos c2, if_pos ⟨c1, c2⟩]
      kexec []
      rw [wsub_small c1 (by omega), exec_min (by omega) (by omega), Nat.min_comm]
      kexec []
      have hm : min t.maxPriorityFee (t.maxFee - b.baseFee) ≤ t.maxFee - b.baseFee := Nat.min_le_right _ _
      rw [wadd_small (by omega), exec_store_txn (by omega), exec_store_txn (by omega)]
      kexec []
      rw [World.fees, Tx.gasPrice, Tx.priorityFee, Nat.add_comm b.baseFee]
      exact .refl _
    · rw [if_neg c2, if_neg fun h => c2 h.2]
      exact run_invalid_3 hP hT
  · rw [if_neg c1, if_neg fun h => c1 h.1]
    exact run_invalid_3 hP hT

include hP in
/-- After the intrinsic gas is known: the gas limits. -/
theorem run_gas_limits (hT : TxnIs w t b) :
    Reaches P (.goto (P.addr "process_txn@1.after") (x :: ret :: S) w)
      (if x ≤ t.gasLimit ∧ t.gasLimit ≤ b.gasLimit then
        .goto (P.addr "nonce") (t.sender :: P.addr "process_txn@2.after" :: t.sender :: ret :: S) (w.set 0x900000007 x)
      else rejected P t S (w.set 0x900000007 x)) := by
  have hT' : TxnIs (w.set 0x900000007 x) t b := hT.congr fun d hd => set_ne (by simp only [TxnCell] at hd; omega)
  enter hP in processTxnCode
  rw [b_process_txn_1_after]
  kexec []
  rw [exec_store_txn (by omega)]
  generalize w.set 0x900000007 x = w' at *
  rw [exec_load_txn (by omega), hT'.gasLimit, exec_assert_ge]
  by_cases c1 : x ≤ t.gasLimit
  · rw [if_pos c1, exec_load_txn (by omega), exec_load_global (by omega), hT'.gasLimit, hT'.blockGas, exec_assert_ge]
    by_cases c2 : t.gasLimit ≤ b.gasLimit
    · rw [if_pos c2, if_pos ⟨c1, c2⟩, exec_load_txn (by omega), hT'.sender]
      kexec []
      exact .refl _
    · rw [if_neg c2, if_neg fun h => c2 h.2]
      exact run_invalid hP hT'
  · rw [if_neg c1, if_neg fun h => c1 h.1]
    exact run_invalid hP hT'

include hP in
theorem run_nonce_check (hw : Words w) (hT : TxnIs w t b) (hx : x < 2 ^ 256) :
    Reaches P (.goto (P.addr "process_txn@2.after") (x :: t.sender :: ret :: S) w)
      (if x ≠ 2 ^ 64 - 1 ∧ x = t.nonce then
        .goto (P.addr "extcodehash") (t.sender :: P.addr "process_txn@4.after" :: t.sender :: ret :: S) w
      else rejected P t S w) := by
  have h1 : t.nonce < 2 ^ 256 := hT.nonce ▸ hw _
  enter hP in processTxnCode
  rw [b_process_txn_2_after]
  kexec [m_eq_const]
  rw [exec_assert_zero]
  by_cases c1 : x = 2 ^ 64 - 1
  · rw [if_neg (c := x ≠ _ ∧ _) fun h => h.1 c1, if_neg (by simp only [weq]; split <;> omega)]
    exact run_invalid_2 hP hT
  · rw [if_pos (by simp only [weq]; split <;> omega), exec_load_txn (by omega), hT.nonce, exec_assert_eq (by omega) hx]
    by_cases c2 : x = t.nonce
    · rw [if_pos c2.symm, if_pos ⟨c1, c2⟩]
      kexec []
      exact .refl _
    · rw [if_neg fun h => c2 h.symm, if_neg fun h => c2 h.2]
      exact run_invalid_1 hP hT

include hP in
theorem run_code_check (hT : TxnIs w t b) :
    Reaches P (.goto (P.addr "process_txn@4.after") (x :: t.sender :: ret :: S) w)
      (if x = emptyHash then .goto (P.addr "balance") (t.sender :: P.addr "process_txn@5.after" :: ret :: S) w else rejected P t S w) := by
  enter hP in processTxnCode
  rw [b_process_txn_4_after]
  kexec [m_eq_const]
  rw [exec_assert_nonzero]
  by_cases c1 : x = emptyHash
  · rw [if_pos c1, if_neg (by simp only [weq, emptyHash] at *; split <;> omega)]
    kexec []
    exact .refl _
  · rw [if_neg (c := x = emptyHash) c1, if_pos (by simp only [weq, emptyHash] at *; split <;> omega)]
    exact run_invalid_1 hP hT

theorem chain_iff {p c d : Nat} (hp : p = 0 ∨ p = 1) (hc : c < 2 ^ 256) (hd : d < 2 ^ 256) : wmul d p = wmul c p ↔ (p = 1 → c = d) := by
  rcases hp with rfl | rfl
  · simp [wmul]
  · simp only [wmul, Nat.mul_one, Nat.mod_eq_of_lt hc, Nat.mod_eq_of_lt hd, true_imp_iff]
    exact eq_comm

include hP in
theorem run_funds_check (hw : Words w) (hT : TxnIs w t b) (hp : w.mem 0x900000010 = t.gasPrice b) :
    Reaches P (.goto (P.addr "process_txn@5.after") (x :: ret :: S) w)
      (if (t.gasLimit * t.gasPrice b % 2 ^ 256 + t.value) % 2 ^ 256 ≤ x ∧ (∀ c, t.chainId = some c → c = b.chainId) then
        .goto (P.addr "deduct_eth") (t.sender :: t.gasLimit * t.gasPrice b % 2 ^ 256 :: P.addr "process_txn@6.after" :: ret :: S) w
      else rejected P t S w) := by
  have hpre : w.mem 0x900000001 = 0 ∨ w.mem 0x900000001 = 1 := by rw [hT.present]; split <;> simp
  have hch : (w.mem 0x900000001 = 1 → w.mem 0x900000002 = b.chainId) ↔ ∀ c, t.chainId = some c → c = b.chainId := by
    rw [hT.present]
    cases hc : t.chainId with
    | none => simp
    | some c => rw [hT.chain c hc]; simp
  have hd : b.chainId < 2 ^ 256 := hT.blockChain ▸ hw _
  have hm : ∀ y z, wmul y z < 2 ^ 256 := fun y z => by simp only [wmul]; omega
  enter hP in processTxnCode
  rw [b_process_txn_5_after, b_buy_gas]
  rw [exec_load_txn (by omega), exec_load_txn (by omega), hp, hT.gasLimit]
  kexec []
  rw [exec_load_txn (by omega), hT.value]
  kexec []
  rw [exec_assert_le, show wadd t.value (wmul t.gasLimit (t.gasPrice b)) = (t.gasLimit * t.gasPrice b % 2 ^ 256 + t.value) % 2 ^ 256 by
    simp only [wadd, wmul]; rw [Nat.add_comm]]
  by_cases c1 : (t.gasLimit * t.gasPrice b % 2 ^ 256 + t.value) % 2 ^ 256 ≤ x
  · rw [if_pos c1, exec_load_txn (by omega)]
    kexec []
    rw [exec_load_txn (by omega)]
    kexec []
    rw [exec_load_global (by omega), hT.blockChain]
    kexec []
    rw [exec_assert_eq (hm _ _) (hm _ _)]
    simp only [chain_iff hpre (hw _) hd, hch]
    by_cases c2 : ∀ c, t.chainId = some c → c = b.chainId
    · rw [if_pos c2, if_pos ⟨c1, c2⟩, exec_load_txn (by omega), exec_load_txn (by omega), hp, hT.gasLimit]
      kexec []
      rw [exec_load_txn (by omega), hT.sender]
      kexec []
      exact .refl _
    · rw [if_neg c2, if_neg fun h => c2 h.2]
      exact run_invalid hP hT
  · rw [if_neg c1, if_neg fun h => c1 h.1]
    exact run_invalid hP hT

end

/-! ### The whole -/

variable {t : Tx} {b : Blk}

/-- The fees and the intrinsic gas are in memory. -/
structure FeesAre (w : World) (t : Tx) (b : Blk) : Prop where
  price : w.mem 0x900000010 = t.gasPrice b
  priority : w.mem 0x900000011 = t.priorityFee b
  intrinsic : w.mem 0x900000007 = t.intrinsic

theorem feeCell_bal {d : Nat} (h : FeeCell d) : ¬ BalCell d := by
  simp only [FeeCell, BalCell, JourArea, TouchArea, touchLen, touchBase, jourLen, jdatLen, jourBase, jdatBase] at *; omega

theorem FeesAre.shift (h : FeesAre w t b) (hs : Shift i BalCell w w') : FeesAre w' t b :=
  ⟨by rw [hs.2.2 _ (feeCell_bal (by simp [FeeCell]))]; exact h.price, by rw [hs.2.2 _ (feeCell_bal (by simp [FeeCell]))]; exact h.priority,
    by rw [hs.2.2 _ (feeCell_bal (by simp [FeeCell]))]; exact h.intrinsic⟩

theorem TxnIs.shift (h : TxnIs w t b) (hs : Shift i BalCell w w') : TxnIs w' t b := h.congr fun d hd => hs.2.2 d (txnCell_bal hd)

/-- The sender after the kernel has taken the price of the gas *modulo 2^256*. -/
def Tx.taxed (t : Tx) (b : Blk) (A : Acct) : Acct := { A with balance := A.balance - t.gasLimit * t.gasPrice b % 2 ^ 256, nonce := A.nonce + 1 }

theorem run_process {k : Nat} (hP : P.Processes) (h : StateIs w n ps f js ts) (hT : TxnIs w t b) (hr : StateRoom w js ts (k + 2)) (ha : P.addrKey t.sender < u256Max)
    (hi : ∀ j, AccHonest w j ps (P.addrKey t.sender)) (hn : ∀ A, w.accts f (P.addrKey t.sender) = some A → A.nonce < 2 ^ 64)
    (hs : ¬ (t.creation ∧ 49152 < t.data.length)) :
    ∃ w', (∃ A, w.accts f (P.addrKey t.sender) = some A ∧ t.Accepts b A ∧ t.gasLimit * t.gasPrice b % 2 ^ 256 ≤ A.balance ∧
        StateIs w' n ps f (js ++ touchLog ts t.sender ++ [[4, t.sender, A.nonce]]) (touchList ts t.sender) ∧ FeesAre w' t b ∧ TxnIs w' t b ∧
        w'.accts f = updAcct (w.accts f) (P.addrKey t.sender) (t.taxed b A) ∧
        StateRoom w' (js ++ touchLog ts t.sender ++ [[4, t.sender, A.nonce]]) (touchList ts t.sender) k ∧ (∃ m, Shift m (fun d => BalCell d ∨ FeeCell d) w w') ∧
        Reaches P (.goto (P.addr "process_normalized_txn") (ret :: S) w) (.goto (P.addr "process_txn@7.after") (t.sender :: ret :: S) w')) ∨
      (∃ A, w.accts f (P.addrKey t.sender) = some A ∧ t.Accepts b A ∧ A.balance < t.gasLimit * t.gasPrice b % 2 ^ 256 ∧
        Reaches P (.goto (P.addr "process_normalized_txn") (ret :: S) w) (.goto (P.addr "panic") (ret :: S) w')) ∨
      ((∀ A, w.accts f (P.addrKey t.sender) = some A → ¬ t.Accepts b A) ∧ StateIs w' n ps f js ts ∧ w'.accts f = w.accts f ∧
        Reaches P (.goto (P.addr "process_normalized_txn") (ret :: S) w) (rejected P t S w')) := by
  have hsender : t.sender < 2 ^ 256 := hT.sender ▸ h.words _
  have hmf : t.maxFee < 2 ^ 256 := hT.maxFee ▸ h.words _
  have hpf : t.maxPriorityFee < 2 ^ 256 := hT.maxPriorityFee ▸ h.words _
  have F := run_compute_fees (ret := ret) (S := S) hP.txn h.words hT
  by_cases c1 : b.baseFee ≤ t.maxFee ∧ t.maxPriorityFee ≤ t.maxFee
  rotate_left
  · rw [if_neg c1] at F
    exact ⟨w, .inr (.inr ⟨fun A _ hA => c1 ⟨hA.base, hA.priority⟩, h, rfl, F⟩)⟩
  rw [if_pos c1] at F
  -- the fees
  have hpr : t.priorityFee b < 2 ^ 256 := Nat.lt_of_le_of_lt (Nat.min_le_left _ _) hpf
  have hgp : t.gasPrice b < 2 ^ 256 := by
    have : t.priorityFee b ≤ t.maxFee - b.baseFee := Nat.min_le_right _ _
    simp only [Tx.gasPrice]; omega
  obtain ⟨a1, a2⟩ := state_set_fee (b := 0x900000010) (v := t.gasPrice b) h (by simp [FeeCell]) hgp
  obtain ⟨b1, b2⟩ := state_set_fee (b := 0x900000011) (v := t.priorityFee b) a1 (by simp [FeeCell]) hpr
  obtain ⟨w1, hw1⟩ : ∃ w1, w1 = w.fees t b := ⟨_, rfl⟩
  rw [← hw1] at F
  rw [← World.fees, ← hw1] at b1 b2
  have m1 : ∀ d, ¬ FeeCell d → w1.mem d = w.mem d := fun d hd => by
    simp only [FeeCell] at hd
    rw [hw1, World.fees, set_ne (by omega), set_ne (by omega)]
  have n1 : ∀ d, TxnCell d → ¬ FeeCell d := fun d hd => by simp only [FeeCell, TxnCell] at *; omega
  have T1 : TxnIs w1 t b := hT.congr fun d hd => m1 d (n1 d hd)
  have e1 : w1.mem 0x900000010 = t.gasPrice b := by rw [hw1, World.fees, set_ne (by omega), set_same]
  have e2 : w1.mem 0x900000011 = t.priorityFee b := by rw [hw1, World.fees, set_same]
  have i1 : w1.inp = w.inp := by rw [hw1]; rfl
  have G := run_intrinsic (ret := P.addr "process_txn@1.after") (S := ret :: S) hP.intrinsic T1.data T1.creation (by rw [T1.listCost]; exact T1.listSmall)
  rw [if_neg (by simpa using hs), T1.listCost] at G
  have G := F.trans G
  have hin : t.intrinsic < 2 ^ 256 := by
    have := T1.listSmall
    have := T1.data.fits
    have hc := data_cost t.data
    have := List.count_le_length (a := 0) (l := t.data)
    simp only [Tx.intrinsic, intrinsicGas]
    split <;> omega
  have G2 := G.trans (run_gas_limits (x := t.intrinsic) hP.txn T1)
  obtain ⟨s1, s2⟩ := state_set_fee (b := 0x900000007) (v := t.intrinsic) b1 (by simp [FeeCell]) hin
  obtain ⟨w2, hw2⟩ : ∃ w2, w2 = w1.set 0x900000007 t.intrinsic := ⟨_, rfl⟩
  rw [← hw2] at s1 s2 G2
  have m2 : ∀ d, ¬ FeeCell d → w2.mem d = w.mem d := fun d hd => by
    rw [hw2, set_ne (by simp only [FeeCell] at hd; omega)]; exact m1 d hd
  have T2 : TxnIs w2 t b := hT.congr fun d hd => m2 d (n1 d hd)
  have E2 : FeesAre w2 t b := ⟨by rw [hw2, set_ne (by omega)]; exact e1, by rw [hw2, set_ne (by omega)]; exact e2, by rw [hw2, set_same]⟩
  have i2 : ∀ j, AccHonest w2 j ps (P.addrKey t.sender) := fun j => (hi j).of_same (fun d h1 h2 => m2 d (by simp only [FeeCell, accBase] at *; omega))
    (by rw [hw2]; exact congrFun i1 j) h.accounts
  have hs2 : Shift 0 (fun d => BalCell d ∨ FeeCell d) w w2 := ⟨by rw [hw2, hw1]; rfl, fun j => by rw [hw2, hw1]; rfl, fun d hd => m2 d fun e => hd (.inr e)⟩
  have r2 : StateRoom w2 js ts (k + 2) := ⟨by rw [m2 _ (by simp [FeeCell, jdatLen])]; exact hr.data, hr.journal, hr.touched⟩
  have g2 : w2.accts f = w.accts f := by rw [s2, b2, a2]
  clear F G a1 a2 b1 b2 e1 e2 i1 s2 m1 m2 hw1 hw2 T1 hr hi
  by_cases c2 : t.intrinsic ≤ t.gasLimit ∧ t.gasLimit ≤ b.gasLimit
  rotate_left
  · rw [if_neg c2] at G2
    exact ⟨w2, .inr (.inr ⟨fun A _ hA => c2 ⟨hA.gas, hA.block⟩, s1, g2, G2⟩)⟩
  rw [if_pos c2] at G2
  -- the nonce
  have G3 := G2.trans (run_nonce hP.pays.reads hP.pays.transfer s1 ha (i2 0))
  have s3 := looked_state (a := t.sender) s1
  have f3 : Shift 1 BalCell w2 (w2.looked t.sender) := looked_shift
  have g3 : (w2.looked t.sender).accts f = w.accts f := looked_accts.trans g2
  rw [World.acct, g2] at G3
  have q3 : (w2.looked t.sender).mem jdatLen = w2.mem jdatLen := looked_mem (by simp only [jdatLen]; omega)
  generalize w2.looked t.sender = w3 at *
  have hnon : ((w.accts f (P.addrKey t.sender)).getD ⟨0, 0, emptyHash⟩).nonce < 2 ^ 256 := by
    cases hA : w.accts f (P.addrKey t.sender) with
    | none => simp
    | some A => exact Nat.lt_trans (hn A hA) (by decide)
  have G3 := G3.trans (run_nonce_check hP.txn s3.words (T2.shift f3) hnon)
  by_cases c3 : ((w.accts f (P.addrKey t.sender)).getD ⟨0, 0, emptyHash⟩).nonce ≠ 2 ^ 64 - 1 ∧
      ((w.accts f (P.addrKey t.sender)).getD ⟨0, 0, emptyHash⟩).nonce = t.nonce
  rotate_left
  · rw [if_neg c3] at G3
    exact ⟨w3, .inr (.inr ⟨fun A hA hA' => c3 (by rw [hA]; exact ⟨hA'.nonceMax, hA'.nonce⟩), s3, g3, G3⟩)⟩
  rw [if_pos c3] at G3
  -- the code
  have G4 := G3.trans (run_extcodehash hP.pays.reads hP.code s3 ha (f3.honest s1.accounts (i2 _)))
  have s4 := looked_state (a := t.sender) s3
  have f4 : Shift 2 BalCell w2 (w3.looked t.sender) := f3.trans looked_shift
  have g4 : (w3.looked t.sender).accts f = w.accts f := looked_accts.trans g3
  rw [g3] at G4
  have q4 : (w3.looked t.sender).mem jdatLen = w3.mem jdatLen := looked_mem (by simp only [jdatLen]; omega)
  generalize w3.looked t.sender = w4 at *
  have G4 := G4.trans (run_code_check hP.txn (T2.shift f4))
  by_cases c4 : (w.accts f (P.addrKey t.sender)).elim 0 Acct.codeHash = emptyHash
  rotate_left
  · rw [if_neg c4] at G4
    exact ⟨w4, .inr (.inr ⟨fun A hA hA' => c4 (by rw [hA]; exact hA'.code), s4, g4, G4⟩)⟩
  rw [if_pos c4] at G4
  obtain ⟨A, hA⟩ : ∃ A, w.accts f (P.addrKey t.sender) = some A := by
    cases hA : w.accts f (P.addrKey t.sender) with
    | none => rw [hA] at c4; exact absurd c4 (by simp [emptyHash])
    | some A => exact ⟨A, rfl⟩
  -- the balance and the chain identifier
  have G5 := G4.trans (run_balance hP.pays.reads hP.pays.transfer s4 ha (f4.honest s1.accounts (i2 _)))
  have s5 := looked_state (a := t.sender) s4
  have f5 : Shift 3 BalCell w2 (w4.looked t.sender) := f4.trans looked_shift
  have g5 : (w4.looked t.sender).accts f = w.accts f := looked_accts.trans g4
  rw [World.acct, g4] at G5
  have q5 : (w4.looked t.sender).mem jdatLen = w4.mem jdatLen := looked_mem (by simp only [jdatLen]; omega)
  generalize w4.looked t.sender = w5 at *
  have G5 := G5.trans (run_funds_check hP.txn s5.words (T2.shift f5) (E2.shift f5).price)
  rw [hA] at G5 c3 c4
  simp only [Option.getD_some] at G5 c3
  have hsound : (∀ c, t.chainId = some c → c = b.chainId) → t.Sound b A := fun hc => ⟨c1.1, c1.2, c2.1, c2.2, c3.2, c3.1, c4, hc⟩
  by_cases c5 : (t.gasLimit * t.gasPrice b % 2 ^ 256 + t.value) % 2 ^ 256 ≤ A.balance ∧ (∀ c, t.chainId = some c → c = b.chainId)
  rotate_left
  · rw [if_neg c5] at G5
    refine ⟨w5, .inr (.inr ⟨fun A' hA' hacc => c5 ?_, s5, g5, G5⟩)⟩
    rw [hA] at hA'; cases hA'
    exact ⟨hacc.funds, hacc.chain⟩
  rw [if_pos c5] at G5
  have hacc : t.Accepts b A := ⟨hsound c5.2, c5.1⟩
  -- paying
  have r5 : StateRoom w5 js ts (k + 2) := ⟨by rw [q5, q4, q3]; exact r2.data, r2.journal, r2.touched⟩
  obtain ⟨w6, f6, s6, r6, hd⟩ := run_deduct (k := k + 1) (x := t.gasLimit * t.gasPrice b % 2 ^ 256) (ret := P.addr "process_txn@6.after") (S := ret :: S) hP.pays s5 r5 ha hsender
    (f5.honest s1.accounts (i2 _))
  rw [g5] at hd
  rcases hd with ⟨A', hA', hx, g6, R6⟩ | ⟨hlt, g6, R6⟩
  · rw [hA] at hA'; cases hA'
    have f6' := f5.trans f6
    have G6 : Reaches P (.goto (P.addr "process_normalized_txn") (ret :: S) w)
        (.goto (P.addr "increment_nonce") (t.sender :: P.addr "process_txn@7.after" :: t.sender :: ret :: S) w6) := by
      refine (G5.trans R6).trans ?_
      enter hP.txn in processTxnCode
      rw [b_process_txn_6_after, b_increment_sender_nonce]
      kexec []
      rw [exec_load_txn (by omega), (T2.shift f6').sender]
      kexec []
      exact .refl _
    have hA6 : w6.accts f (P.addrKey t.sender) = some (taken A (t.gasLimit * t.gasPrice b % 2 ^ 256)) := by rw [g6]; simp [updAcct]
    obtain ⟨w7, f7, s7, r7, g7, R7⟩ := run_increment_nonce (k := k) (ret := P.addr "process_txn@7.after") (S := t.sender :: ret :: S) hP.pays s6 r6 ha hsender
      (f6'.honest s1.accounts (i2 _)) hA6 (hn A hA)
    refine ⟨w7, .inl ⟨A, hA, hacc, hx, s7, E2.shift (f6'.trans f7), T2.shift (f6'.trans f7), ?_, r7, ⟨_, hs2.trans ((f6'.trans f7).mono fun d hd => .inl hd)⟩, G6.trans R7⟩⟩
    rw [g7, g6]
    funext k
    simp only [updAcct]
    split <;> rfl
  · refine ⟨w6, .inr (.inl ⟨A, hA, hacc, hlt A hA, (G5.trans R6).trans ?_⟩)⟩
    enter hP.txn in processTxnCode
    rw [b_process_txn_6_after]
    generalize b_increment_sender_nonce = tl
    kexec []
    exact .refl _

end Verif.Kasm
