import Verif.Kasm.Rules
import Verif.Kasm.Code.Exp

/-! C101: the EVM's EXP, which the kernel implements by a recursive routine. -/

namespace Verif.Kasm

/-- The number of bytes of a number without leading zeros. -/
def byteLen (e : Nat) : Nat := if e = 0 then 0 else byteLen (e / 256) + 1
  decreasing_by omega

/-- EXP. -/
def expSpec (x e : Nat) : Nat := x ^ e % 2 ^ 256

/-- The gas of EXP: 10, and 50 for every byte of the exponent (EIP-160). -/
def expGas (e : Nat) : Nat := 10 + 50 * byteLen e

variable {P : Prog} {S : List Nat} {w : World} {ret x e : Nat}

private theorem exp_math' (M : Nat) :
    (x ^ (e % 2) % M) * ((x * x % M) ^ (e / 2) % M) % M = x ^ e % M := by
  rw [← Nat.pow_mod, ← Nat.mul_mod, ← Nat.pow_two, ← Nat.pow_mul, ← Nat.pow_add]
  congr 2; omega

private theorem exp_math (hx : x < 2 ^ 256) :
    wmul (wadd 1 (wmul (wsub x 1) (wmod e 2))) (expSpec (wmul x x) (e / 2)) = expSpec x e := by
  have hA : wadd 1 (wmul (wsub x 1) (wmod e 2)) = x ^ (e % 2) % 2 ^ 256 := by
    rw [show wmod e 2 = e % 2 by simp [wmod]]
    simp only [wadd, wsub, wmul]
    rcases Nat.mod_two_eq_zero_or_one e with h | h <;> simp only [h]
    · rw [Nat.mul_zero, Nat.pow_zero, Nat.zero_mod]
    · rw [Nat.mul_one, Nat.pow_one]; omega
  rw [hA]
  have h := @exp_math' x e (2 ^ 256)
  simp only [wmul, expSpec]
  exact h

theorem run_exp (hP : P.Has expCode) : ∀ {e x ret : Nat} {S : List Nat}, x < 2 ^ 256 →
    Reaches P (.goto (P.addr "exp") (x :: e :: ret :: S) w)
      (.goto ret (expSpec x e :: S) w) := by
  intro e
  induction e using Nat.strongRecOn with
  | ind e ih =>
    intro x ret S hx
    enter hP in expCode
    kexec [b_exp]
    by_cases h0 : e = 0
    · subst h0
      simp only [if_true, show expSpec x 0 = 1 by simp [expSpec]]
      exact .refl _
    · rw [if_neg h0]
      enter hP in expCode
      kexec [b_step_case, m_square]
      have hd : wdiv e 2 = e / 2 := by unfold wdiv; rw [if_neg (by omega)]
      rw [hd]
      refine (ih (e / 2) (by omega) (x := wmul x x) (ret := P.addr "recursion_return")
        (by unfold wmul; exact Nat.mod_lt _ (by omega))).trans ?_
      enter hP in expCode
      kexec [b_recursion_return]
      rw [exp_math hx]
      exact .refl _

private theorem gas_loop (hP : P.Has expCode) {o : Out} (he : e < 2 ^ 256) :
    ∀ n i, n = byteLen (e / 256 ^ i) → i ≤ 32 →
    Reaches P (exec P b_sys_exp_gas_loop_enter (8 * (i + n) :: x :: e :: ret :: S) w) o →
    Reaches P (exec P b_sys_exp_gas_loop_enter (8 * i :: x :: e :: ret :: S) w) o := by
  intro n
  induction n with
  | zero => intro i _ _ h; exact h
  | succ n ih =>
    intro i hn hi h
    unfold byteLen at hn
    split at hn
    · omega
    · rename_i hne
      have hi' : i < 32 := by
        rcases Nat.lt_or_ge i 32 with h | h
        · exact h
        · exfalso
          apply hne
          rw [show i = 32 by omega]
          exact Nat.div_eq_of_lt (by omega)
      have hsh : wshr (8 * i) e = e / 256 ^ i := by
        unfold wshr
        rw [if_neg (by omega), Nat.pow_mul]
      have hstep := ih (i + 1) (by rw [Nat.pow_succ, ← Nat.div_div_eq_div_mul]; omega) (by omega)
        (by rwa [show i + 1 + n = i + (n + 1) by omega])
      rw [b_sys_exp_gas_loop_enter]
      simp only [exec_dup3, exec_dup2, exec_bin, m_jumpi, List.cons_append, List.nil_append,
        exec_push', val_lab, exec_jumpi, hsh, if_neg hne]
      enter hP in expCode
      kexec [b_sys_exp_gas_loop, m_add_const]
      rw [show wadd 8 (8 * i) = 8 * (i + 1) by unfold wadd; omega]
      exact hstep

private theorem byteLen_le (i : Nat) : ∀ e, e < 256 ^ i → byteLen e ≤ i := by
  induction i with
  | zero => intro e h; unfold byteLen; rw [if_pos (by simpa using h)]; omega
  | succ i ih =>
    intro e h
    unfold byteLen
    split
    · omega
    · have := ih (e / 256) (by rw [Nat.div_lt_iff_lt_mul (by omega)]; rwa [← Nat.pow_succ])
      omega

private theorem lt_byteLen (e : Nat) : e < 256 ^ byteLen e := by
  induction e using Nat.strongRecOn with
  | ind e ih =>
    unfold byteLen
    split
    · simp [*]
    · have := ih (e / 256) (by omega)
      rw [Nat.pow_succ]
      omega

/-- C101.  In every kernel that contains this code: a system call for EXP charges 10 gas and 50
more for every byte of the exponent and, if the limit of the context allows it, returns to the
caller with `x ^ e` modulo 2^256 in the place of the operands; otherwise it faults.  Memory,
context and the rest of the stack are untouched. -/
theorem C101_exp (hP : P.Has expCode) {k : Nat} (hk : k < 2 ^ 255) (hc : w.ctx < 2 ^ 32)
    (hx : x < 2 ^ 256) (he : e < 2 ^ 256) :
    Reaches P (.goto (P.addr "sys_exp") (k :: x :: e :: S) w)
      (if k / 2 ^ 192 + expGas e ≤ w.gasLimit then
         .exit (k + expGas e * 2 ^ 192) (expSpec x e :: S) w
       else .goto (P.addr "fault_exception") ((k + expGas e * 2 ^ 192) :: x :: e :: S) w) := by
  enter hP in expCode
  kexec [b_sys_exp]
  enter hP in expCode
  have hb := byteLen_le 32 e (by omega)
  have hl := lt_byteLen e
  have hg : expGas e ≤ 1610 := by unfold expGas; omega
  refine gas_loop hP he (byteLen e) 0 (by simp) (by omega) ?_
  have hsh : wshr (8 * (0 + byteLen e)) e = 0 := by
    unfold wshr
    split
    · rfl
    · rw [Nat.zero_add, Nat.pow_mul]; exact Nat.div_eq_of_lt hl
  have hcost : wadd 10 (wmul 50 (wshr 3 (8 * (0 + byteLen e)))) = expGas e := by
    simp only [wadd, wmul, wshr, expGas]
    rw [if_neg (by omega)]; omega
  simp only [b_sys_exp_gas_loop_enter, exec_dup3, exec_dup2, exec_bin, m_jumpi, List.cons_append,
    List.nil_append, exec_push', val_lab, exec_jumpi, hsh, if_true, m_shr_const, m_mul_const,
    m_add_const, val_lit, hcost]
  simp only [exec_stk, List.length_cons, List.map_cons, List.map_nil, src_e, List.getD_cons_zero,
    List.getD_cons_succ, List.drop_succ_cons, List.drop_zero, List.cons_append, List.nil_append,
    Nat.le_add_left, if_true]
  rw [exec_charge_gas hc (by omega)]
  kexec []
  split
  · refine (run_exp hP hx).trans ?_
    enter hP in expCode
    kexec [b_sys_exp_return]
    exact .refl _
  · exact .refl _

/-- The exponent of 2^8 has two bytes when it is 256: 110 gas. -/
example : expGas 0 = 10 ∧ expGas 255 = 60 ∧ expGas 256 = 110 ∧ expGas (2 ^ 256 - 1) = 1610 := by
  simp [expGas, byteLen]

example : (Prog.of expCode (fun _ => 0)).Has expCode :=
  Prog.of_has _ _ (by decide +kernel) (by decide +kernel)

/-- 3^5 = 243, and 2^256 wraps to zero; 0^0 = 1. -/
example : expSpec 3 5 = 243 ∧ expSpec 2 256 = 0 ∧ expSpec 0 0 = 1 := by decide +kernel

/-- A call that returns: 3^5 with 30 gas used of 100. -/
example (w : World) (hw : w.ctx = 1) (hg : w.gasLimit = 100) :
    Reaches (Prog.of expCode (fun _ => 0))
      (.goto ((Prog.of expCode (fun _ => 0)).addr "sys_exp") [7 + 30 * 2 ^ 192, 3, 5, 11] w)
      (.exit (7 + 90 * 2 ^ 192) [243, 11] w) := by
  have h := @C101_exp (Prog.of expCode (fun _ => 0)) [11] w 3 5
    (Prog.of_has _ _ (by decide +kernel) (by decide +kernel)) (7 + 30 * 2 ^ 192) (by omega)
    (by omega) (by omega) (by omega)
  rw [show expGas 5 = 60 by simp [expGas, byteLen], show expSpec 3 5 = 243 by decide +kernel, if_pos (by omega)] at h
  exact h

end Verif.Kasm
