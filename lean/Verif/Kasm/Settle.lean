import Verif.Kasm.Transfer
import Verif.Kasm.Txn

/-! What the beneficiary gets and the sender gets back (`asm/core/process_txn.asm`, `%pay_coinbase_and_refund_sender`). -/

namespace Verif.Kasm

variable {P : Prog} {c : List I} {S s : List Nat} {w w' : World} {ret n i : Nat} {ps ts : List Nat} {f : Nat → Option Nat}
  {js : List (List Nat)} {a x key p : Nat}

/-- Specification (EIP-3529): at most a fifth of the gas used is refunded. -/
def gasRefund (limit left counter : Nat) : Nat := min counter ((limit - left) / 5)
/-- Gas the sender has to pay for. -/
def gasPaid (limit left counter : Nat) : Nat := limit - left - gasRefund limit left counter
/-- Gas the sender gets back. -/
def gasBack (limit left counter : Nat) : Nat := left + gasRefund limit left counter

theorem gas_split {limit left counter : Nat} (h : left ≤ limit) : gasPaid limit left counter + gasBack limit left counter = limit := by
  have : gasRefund limit left counter ≤ (limit - left) / 5 := Nat.min_le_right _ _
  simp only [gasPaid, gasBack]; omega

/-- The numbers the settlement reads. -/
structure SettleIs (w : World) (limit counter price priority sender coinbase : Nat) : Prop where
  limit : w.mem 0x900000006 = limit
  counter : w.mem 0x50000001b = counter
  price : w.mem 0x900000010 = price
  priority : w.mem 0x900000011 = priority
  sender : w.mem 0x90000000f = sender
  coinbase : w.mem 0x50000000c = coinbase

theorem SettleIs.pay {g rc pr pt sd cb : Nat} (h : SettleIs w g rc pr pt sd cb) (hm : ∀ d, ¬ PayCell d → w'.mem d = w.mem d) : SettleIs w' g rc pr pt sd cb := by
  have hp : ∀ d, d ∈ [0x900000006, 0x50000001b, 0x900000010, 0x900000011, 0x90000000f, 0x50000000c] → ¬ PayCell d := fun d hd => by
    simp only [List.mem_cons, List.not_mem_nil, or_false] at hd
    simp only [PayCell, BalCell, AccCell, TrieCell, JourArea, TouchArea, touchLen, touchBase, jourLen, jdatLen, jourBase, jdatBase, accNext, accBase]
    omega
  exact ⟨(hm _ (hp _ (by simp))).trans h.limit, (hm _ (hp _ (by simp))).trans h.counter, (hm _ (hp _ (by simp))).trans h.price,
    (hm _ (hp _ (by simp))).trans h.priority, (hm _ (hp _ (by simp))).trans h.sender, (hm _ (hp _ (by simp))).trans h.coinbase⟩

section
variable {g rc pr pt sd cb left : Nat} (hT : P.Has processTxnCode)

include hT in
theorem run_settle_start (hw : Words w) (h : SettleIs w g rc pr pt sd cb) (hl : left ≤ g) :
    Reaches P (.goto (P.addr "process_message_txn_after_call_contd") (left :: S) w)
      (.goto (P.addr "add_eth") (cb :: gasPaid g left rc * pt % 2 ^ 256 :: P.addr "process_txn@65.after" :: gasBack g left rc :: S) w) := by
  have hg : g < 2 ^ 256 := h.limit ▸ hw _
  have hc : rc < 2 ^ 256 := h.counter ▸ hw _
  have hr : gasRefund g left rc ≤ (g - left) / 5 := Nat.min_le_right _ _
  enter hT in processTxnCode
  rw [b_process_message_txn_after_call_contd]
  kexec []
  rw [exec_load_txn (by omega), h.limit]
  kexec []
  rw [exec_load_global (by omega), h.counter, wsub_small hl (by omega)]
  kexec [m_div_const]
  rw [show wdiv (g - left) 5 = (g - left) / 5 by simp [wdiv], exec_min (by omega) hc, Nat.min_comm, ← gasRefund]
  kexec []
  rw [exec_load_txn (by omega), h.priority]
  kexec []
  rw [exec_load_global (by omega), h.coinbase]
  kexec []
  rw [wsub_small (by omega) (by omega), wadd_small (by omega), wmul, Nat.mul_comm pt]
  exact .refl _

include hT in
theorem run_settle_mid (h : SettleIs w g rc pr pt sd cb) :
    Reaches P (.goto (P.addr "process_txn@65.after") (x :: S) w)
      (.goto (P.addr "add_eth") (sd :: x * pr % 2 ^ 256 :: P.addr "process_txn@66.after" :: x :: S) w) := by
  enter hT in processTxnCode
  rw [b_process_txn_65_after]
  kexec []
  rw [exec_load_txn (by omega), h.price]
  kexec []
  rw [exec_load_txn (by omega), h.sender]
  kexec []
  rw [wmul, Nat.mul_comm pr]
  exact .refl _

end

end Verif.Kasm
