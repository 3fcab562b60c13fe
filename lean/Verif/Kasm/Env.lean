import Verif.Kasm.Rules
import Verif.Kasm.Code.Env

/-! The EVM's instructions that read the environment: the call, the transaction and the block. -/

namespace Verif.Kasm

/-- The kernel serves a system call: `k` is the return information, with the gas used so far in its top
64 bits (`cpu/kernel/asm/core/syscall.asm`, `witness/operation.rs:831-858`), which is within the limit. -/
structure Serving (w : World) (k : Nat) : Prop where
  ctx : w.ctx < 2 ^ 32
  gas : k / 2 ^ 192 ≤ w.gasLimit
  limit : w.gasLimit < 2 ^ 63

/-- A charge that the user can always make without the counter overflowing. -/
theorem Serving.room {w : World} {k g : Nat} (h : Serving w k) (hg : g < 2 ^ 63) : k + g * 2 ^ 192 < 2 ^ 256 := by
  have h1 := h.gas; have h2 := h.limit; omega

variable {P : Prog} {c : List I} {s : List Nat} {w : World} {k g n : Nat}

/-- `%charge_gas_const`. -/
theorem exec_charge_const (h : Serving w k) (hg : g < 2 ^ 63) :
    exec P (m_charge_gas_const (.lit g) ++ c) (k :: s) w =
      if k / 2 ^ 192 + g ≤ w.gasLimit then exec P c ((k + g * 2 ^ 192) :: s) w
      else .goto (P.addr "fault_exception") ((k + g * 2 ^ 192) :: s) w := by
  simp only [m_charge_gas_const, List.cons_append, exec_push', val_lit, List.append_assoc, List.nil_append]
  exact exec_charge_gas h.ctx (h.room hg)

/-- `%mload_context_metadata`. -/
theorem exec_load_ctx {f : Nat} (hc : w.ctx < 2 ^ 32) (hf : f < 39 * 2 ^ 32) :
    exec P (m_mload_context_metadata (.lit f) ++ c) s w = exec P c (w.mem (w.ctx * 2 ^ 64 + f) :: s) w := by
  simp only [m_mload_context_metadata, List.cons_append, List.nil_append, exec_push', val_lit, exec_getCtx, exec_bin]
  rw [exec_mload (segOk_ctx hf), key_ctx hc (by omega)]

/-- `%mload_global_metadata`. -/
theorem exec_load_global {f : Nat} (hf : f < 39 * 2 ^ 32) :
    exec P (m_mload_global_metadata (.lit f) ++ c) s w = exec P c (w.mem f :: s) w := by
  simp only [m_mload_global_metadata, List.cons_append, List.nil_append, exec_push', val_lit]
  rw [exec_mload_at hf]

/-- `%mload_txn_field`. -/
theorem exec_load_txn {f : Nat} (hf : f < 39 * 2 ^ 32) :
    exec P (m_mload_txn_field (.lit f) ++ c) s w = exec P c (w.mem f :: s) w := by
  simp only [m_mload_txn_field, List.cons_append, List.nil_append, exec_push', val_lit]
  rw [exec_mload_at hf]

/-- How a system call that costs `g` and pushes `v` ends. -/
def Gives (P : Prog) (w : World) (g k v : Nat) (s : List Nat) : Out :=
  if k / 2 ^ 192 + g ≤ w.gasLimit then .exit (k + g * 2 ^ 192) (v :: s) w
  else .goto (P.addr "fault_exception") ((k + g * 2 ^ 192) :: s) w

/-- Everything that is charged two and then reads one cell. -/
theorem run_read {l : String} {b m : List I} {a : Nat} (hP : P.Has envCode) (h : Serving w k)
    (hl : (l, b) ∈ envCode) (hb : b = m_charge_gas_const (.lit 2) ++ (m ++ [SWAP 1, EXIT_KERNEL]))
    (hm : ∀ c s, exec P (m ++ c) s w = exec P c (w.mem a :: s) w) :
    Reaches P (.goto (P.addr l) (k :: s) w) (Gives P w 2 k (w.mem a) s) := by
  refine .enter hP hl ?_
  rw [hb, exec_charge_const h (by omega), Gives]
  refine Eq.subst (motive := fun o => Reaches P _ o) ?_ (.refl _)
  refine ite_congr rfl (fun _ => ?_) (fun _ => rfl)
  rw [hm]
  kexec []

/-- `asm/memory/metadata.asm:336-362`. -/
theorem run_blockhash {ret : Nat} (hP : P.Has envCode) (hn : n < 2 ^ 256) (hcur : w.mem 0x50000000e < 2 ^ 255) :
    Reaches P (.goto (P.addr "blockhash") (n :: ret :: s) w)
      (.goto ret ((if n < w.mem 0x50000000e ∧ w.mem 0x50000000e ≤ n + 256
        then w.mem (0x2000000000 + (n + 256 - w.mem 0x50000000e)) else 0) :: s) w) := by
  generalize hC : w.mem 0x50000000e = C at *
  have hz : Reaches P (.goto (P.addr "zero_hash") (C :: n :: ret :: s) w) (.goto ret (0 :: s) w) := by
    enter hP in envCode
    rw [b_zero_hash]
    kexec [m_pop2, rep]
    exact .refl _
  enter hP in envCode
  rw [b_blockhash, exec_load_global (by omega), hC]
  kexec [m_eq_const, m_increment, m_add_const]
  by_cases h0 : n = 0xffffffffffffffffffffffffffffffffffffffffffffffffffffffffffffffff
  · rw [if_neg (by omega), if_neg (c := n < C ∧ _) (by omega)]
    exact hz
  rw [if_pos (by omega)]
  rw [wadd_small (by omega)]
  by_cases h1 : C ≤ n
  · rw [if_neg (by omega), if_neg (c := n < C ∧ _) (by omega)]
    exact hz
  rw [if_pos (by omega), wadd_small (by omega)]
  by_cases h2 : n + 256 < C
  · rw [if_neg (by omega), if_neg (c := n < C ∧ _) (by omega)]
    exact hz
  rw [if_pos (by omega), wsub_small (a := C) (b := n) (by omega) (by omega), wsub_small (by omega) (by omega)]
  kexec [m_mload_kernel, m_build_kernel_address]
  rw [wadd_small (by omega), exec_mload_at (by omega), if_pos (by omega)]
  kexec []
  rw [show 137438953472 + (256 - (C - n)) = 0x2000000000 + (n + 256 - C) by omega]
  exact .refl _

end Verif.Kasm
