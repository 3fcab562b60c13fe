import Verif.Kasm.MemSys
import Verif.Kasm.Code.IntrinsicGas

/-! The intrinsic gas of a transaction (`asm/core/intrinsic_gas.asm`). -/

namespace Verif.Kasm

variable {P : Prog} {S s : List Nat} {w : World} {ret : Nat} {data : List Nat}

/-- Specification (Yellow Paper, `g_0`, with EIP-2028 and EIP-3860): 21000, 4 for every zero byte and 16 for every other byte of the data, for a
creation 32000 and 2 for every word of the data, and the price of the access list. -/
def intrinsicGas (data : List Nat) (creation : Bool) (listCost : Nat) : Nat :=
  21000 + (data.map fun b => if b = 0 then 4 else 16).sum + (if creation then 32000 + 2 * ((data.length + 31) / 32) else 0) + listCost

/-- The transaction's data are in memory (segment 10, `TxnData`) with their length. -/
structure DataIs (w : World) (data : List Nat) : Prop where
  len : w.mem 0x90000000a = data.length
  fits : data.length < 2 ^ 32
  at_ : ∀ i (h : i < data.length), w.mem (0xa00000000 + i) = data[i]

theorem data_cost (data : List Nat) :
    (data.map fun b => if b = 0 then 4 else 16).sum = 16 * (data.length - data.count 0) + 4 * data.count 0 := by
  induction data with
  | nil => rfl
  | cons b data ih =>
    have := List.count_le_length (a := 0) (l := data)
    rw [List.map_cons, List.sum_cons, ih, List.count_cons, List.length_cons]
    by_cases h : b = 0
    · simp only [h, if_true, beq_self_eq_true]; omega
    · have : (b == 0) = false := by simpa using h
      simp only [h, this, if_false]; simp; omega

theorem run_count_zeros (hP : P.Has intrinsicGasCode) (h : DataIs w data) : ∀ d i, i + d = data.length →
    Reaches P (exec P b_count_zeros_loop (i :: (data.take i).count 0 :: ret :: S) w)
      (.goto (P.addr "count_zeros_finish") (data.length :: data.count 0 :: ret :: S) w) := by
  have hl := h.fits
  intro d
  induction d with
  | zero =>
    intro i hi
    have hi : i = data.length := by omega
    subst hi
    rw [b_count_zeros_loop, List.take_length]
    kexec []
    rw [exec_load_txn (by omega), h.len]
    kexec []
    rw [if_neg (by simp)]
    exact .refl _
  | succ d ih =>
    intro i hi
    have hi' : i < data.length := by omega
    have hc : (data.take i).count 0 ≤ 2 ^ 32 := by
      have h1 := List.count_le_length (a := 0) (l := data.take i)
      rw [List.length_take] at h1; omega
    rw [b_count_zeros_loop]
    kexec []
    rw [exec_load_txn (by omega), h.len]
    kexec []
    rw [if_pos (by omega)]
    kexec [m_mload_kernel, m_build_kernel_address]
    rw [wadd_small (by omega), exec_mload_at (by omega), h.at_ i hi']
    kexec [m_increment, m_add_const]
    rw [wadd_small (a := 1) (by omega), wadd_small (by simp only [wiszero]; split <;> omega)]
    enter hP in intrinsicGasCode
    have := ih (i + 1) (by omega)
    rw [List.take_add_one, List.getElem?_eq_getElem hi', Option.toList_some, List.count_append, List.count_singleton] at this
    rw [show (if (data[i] == 0) = true then 1 else 0) = wiszero data[i] by simp [wiszero]] at this
    rw [Nat.add_comm 1, Nat.add_comm (wiszero _)]
    exact this

/-- `intrinsic_gas`: the specified amount; a creation with more than 49152 bytes of data aborts. -/
theorem run_intrinsic (hP : P.Has intrinsicGasCode) (h : DataIs w data) {creation : Bool} (hc : w.mem 0x500000024 = if creation then 1 else 0)
    (ha : w.mem 0x500000023 < 2 ^ 64) :
    Reaches P (.goto (P.addr "intrinsic_gas") (ret :: S) w)
      (if creation ∧ 49152 < data.length then
        .goto (P.addr "panic") (1 :: 32000 :: (data.map fun b => if b = 0 then 4 else 16).sum :: ret :: S) w
      else .goto ret (intrinsicGas data creation (w.mem 0x500000023) :: S) w) := by
  have hl := h.fits
  have hn := List.count_le_length (a := 0) (l := data)
  have h1 := run_count_zeros (ret := ret) (S := S) hP h data.length 0 (by omega)
  rw [List.take_zero, List.count_nil] at h1
  enter hP in intrinsicGasCode
  rw [b_intrinsic_gas]
  generalize b_count_zeros_loop = t at *
  kexec []
  refine h1.trans ?_
  enter hP in intrinsicGasCode
  rw [b_count_zeros_finish]
  kexec []
  rw [exec_load_txn (by omega), h.len]
  kexec [m_mul_const]
  rw [wsub_small hn (by omega), wmul_small (by omega), wmul_small (by omega), wadd_small (by omega), Nat.add_comm, ← data_cost]
  have hb : (data.map fun b => if b = 0 then 4 else 16).sum < 2 ^ 40 := by rw [data_cost]; omega
  have hs : (data.map fun b => if b = 0 then 4 else 16).sum = intrinsicGas data false 0 - 21000 := by simp [intrinsicGas]
  generalize hz : (data.map fun b => if b = 0 then 4 else 16).sum = z at *
  rw [m_is_contract_creation]
  kexec []
  rw [exec_load_global (by omega), hc]
  have hw : wordsFor data.length = (data.length + 31) / 32 := rfl
  cases creation with
  | true =>
    simp only [if_true, true_and, eq_self]
    kexec []
    rw [wmul_small (by omega), exec_load_txn (by omega), h.len]
    kexec [m_gt_const, m_assert_zero0]
    by_cases hbig : 49152 < data.length
    · rw [if_pos (c := _ < _) hbig, show wmul (wlt 49152 data.length) 1 = 1 by simp only [wlt, if_pos hbig]; decide, if_neg (by omega)]
      exact .refl _
    · rw [if_neg (c := _ < _) hbig, show wmul (wlt 49152 data.length) 1 = 0 by simp only [wlt, if_neg hbig]; decide, if_pos rfl]
      rw [exec_load_txn (by omega), h.len, exec_num_words (by omega), hw]
      kexec []
      rw [wmul_small (a := 2) (by omega), wmul_small (by omega), wadd_small (a := 2 * _ * 1) (by omega), wadd_small (a := 21000) (by omega), wadd_small (by omega), exec_load_global (by omega)]
      kexec []
      rw [wadd_small (by omega)]
      have : intrinsicGas data true (w.mem 0x500000023) = w.mem 0x500000023 + (21000 + (2 * ((data.length + 31) / 32) * 1 + 32000 * 1) + z) := by
        simp only [intrinsicGas, hz, if_true]; omega
      rw [this]
      exact .refl _
  | false =>
    simp only [if_false, Bool.false_eq_true, false_and]
    kexec []
    rw [wmul_small (by omega), exec_load_txn (by omega), h.len]
    kexec [m_gt_const, m_assert_zero0]
    rw [show wmul (wlt 49152 data.length) 0 = 0 by simp [wmul], if_pos rfl]
    rw [exec_load_txn (by omega), h.len, exec_num_words (by omega), hw]
    kexec []
    rw [wmul_small (a := 2) (by omega), wmul_small (by omega), wadd_small (a := 2 * _ * 0) (by omega), wadd_small (a := 21000) (by omega), wadd_small (by omega), exec_load_global (by omega)]
    kexec []
    rw [wadd_small (by omega)]
    have : intrinsicGas data false (w.mem 0x500000023) = w.mem 0x500000023 + (21000 + (2 * ((data.length + 31) / 32) * 0 + 32000 * 0) + z) := by
      simp only [intrinsicGas, hz, if_false, Bool.false_eq_true]; omega
    rw [this]
    exact .refl _

end Verif.Kasm
