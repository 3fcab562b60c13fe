import Verif.Kasm.StateRead
import Verif.Kasm.Code.CallGas
import Verif.Kasm.Code.Call

/-! The gas of the EVM's instructions for calls, as the kernel charges it. -/

namespace Verif.Kasm

variable {P : Prog} {c : List I} {S s : List Nat} {w : World} {ret n k gas a v : Nat} {ps : List Nat} {f : Nat → Option Nat}

/-! ### Macros -/

theorem exec_leftover (h : Serving w k) :
    exec P (m_leftover_gas ++ c) (k :: s) w = exec P c ((w.gasLimit - k / 2 ^ 192) :: s) w := by
  have h1 := h.gas; have h2 := h.limit
  have hs : wshr 192 k = k / 2 ^ 192 := by simp only [wshr]; rw [if_neg (by omega)]
  rw [m_leftover_gas]
  kexec [m_shr_const]
  rw [exec_load_ctx h.ctx (by omega), hs]
  kexec []
  rw [show w.mem (w.ctx * 2 ^ 64 + 0x60000000c) = w.gasLimit from rfl, wsub_small h1 (by omega)]
  by_cases h3 : k / 2 ^ 192 < w.gasLimit
  · rw [show wlt (k / 2 ^ 192) w.gasLimit = 1 by simp only [wlt]; rw [if_pos h3], wmul_small (by omega), Nat.mul_one]
  · rw [show wlt (k / 2 ^ 192) w.gasLimit = 0 by simp only [wlt]; rw [if_neg h3], wmul_small (by omega), Nat.mul_zero,
      show w.gasLimit - k / 2 ^ 192 = 0 by omega]

/-- All but one 64th (Yellow Paper, `L`). -/
def allBut64th (x : Nat) : Nat := x - x / 64

theorem exec_all_but {x : Nat} (hx : x < 2 ^ 256) : exec P (m_all_but_one_64th ++ c) (x :: s) w = exec P c (allBut64th x :: s) w := by
  have hs : wshr 6 x = x / 64 := by simp only [wshr]; rw [if_neg (by omega)]
  kexec [m_all_but_one_64th, m_shr_const]
  rw [hs, wsub_small (by omega) (by omega)]
  rfl

/-! ### The end of the computation -/

/-- The gas a call passes on: what the caller asks for, but at most all but one 64th of what remains after the price `e`
(Yellow Paper, `C_GASCAP`). -/
def gasCap (avail e gas : Nat) : Nat := if e ≤ avail then min (allBut64th (avail - e)) gas else gas

/-- The stipend of a call with a value. -/
def stipend (v : Nat) : Nat := if v = 0 then 0 else 2300

theorem run_call_cost (h : Serving w k) {e x y : Nat} (hg : gas < 2 ^ 256) (he : e ≤ 25100)
    (hok : e ≤ w.gasLimit - k / 2 ^ 192 ∨ gas < 2 ^ 62) :
    exec P b_after_new_cost (e :: y :: x :: a :: gas :: k :: v :: ret :: S) w =
      if e ≤ w.gasLimit - k / 2 ^ 192 then
        .goto ret ((k + (gasCap (w.gasLimit - k / 2 ^ 192) e gas + e) * 2 ^ 192) ::
          (gasCap (w.gasLimit - k / 2 ^ 192) e gas + stipend v) :: a :: v :: S) w
      else .goto (P.addr "fault_exception") ((k + (gas + e) * 2 ^ 192) :: gas :: a :: gas :: v :: ret :: S) w := by
  have h1 := h.gas; have h2 := h.limit
  rw [b_after_new_cost]
  kexec []
  rw [exec_leftover h]
  generalize hl : w.gasLimit - k / 2 ^ 192 = l at *
  have hst : wmul 2300 (wiszero (wiszero v)) = stipend v := by
    simp only [wiszero, stipend, wmul]; split <;> simp
  by_cases hle : e ≤ l
  · have ha : allBut64th (l - e) < 2 ^ 63 := by simp only [allBut64th]; omega
    rw [if_pos hle, show gasCap l e gas = min (allBut64th (l - e)) gas by simp only [gasCap]; rw [if_pos hle]]
    kexec [m_not_bit]
    rw [show wlt l e = 0 by simp only [wlt]; rw [if_neg (by omega)], wsub_small hle (by omega), exec_all_but (by omega)]
    kexec []
    rw [exec_min hg (by omega), Nat.min_comm]
    generalize hm : min (allBut64th (l - e)) gas = m at *
    have hmb : m < 2 ^ 63 := by omega
    kexec []
    rw [show wadd (wmul m (wiszero 0)) (wmul 0 gas) = m by
      simp only [wiszero, wmul, wadd, if_true]; omega]
    rw [wadd_small (by omega), exec_charge_gas h.ctx (by omega), if_pos ?_]
    · kexec [m_not_bit, m_mul_const]
      rw [hst, wadd_small (by simp only [stipend]; split <;> omega), Nat.add_comm e m, Nat.add_comm (stipend v)]
    · have : allBut64th (l - e) ≤ l - e := Nat.sub_le _ _
      omega
  · have hg' : gas < 2 ^ 62 := by omega
    rw [if_neg hle]
    kexec [m_not_bit]
    rw [show wlt l e = 1 by simp only [wlt]; rw [if_pos (by omega)], exec_all_but (by simp only [wsub]; omega)]
    kexec []
    rw [exec_min hg (by have : wsub l e < 2 ^ 256 := by (simp only [wsub]; omega)
                        simp only [allBut64th]; omega)]
    kexec []
    rw [show wadd (wmul (min gas (allBut64th (wsub l e))) (wiszero 1)) (wmul 1 gas) = gas by
      simp only [wiszero, wmul, wadd, Nat.one_ne_zero, if_false]; omega]
    rw [wadd_small (by omega), exec_charge_gas h.ctx (by omega), if_neg (by omega), Nat.add_comm e]

/-! ### Is the account dead? -/

/-- There is no such account, or it has no nonce, no balance and no code (EIP-161).  The four fields are nonce, balance, storage
root and code hash (`asm/mpt/read.asm:1-3`). -/
def Dead (w : World) (f : Nat → Option Nat) (key : Nat) : Prop :=
  ∀ p, f key = some p → w.mem (0xc00000000 + p) = 0 ∧ w.mem (0xc00000000 + p + 1) = 0 ∧
    w.mem (0xc00000000 + p + 3) = 0xc5d2460186f7233c927e7db2dcc703c0e500b653ca82273b7bfad8045d85a470

theorem serving_looked (h : Serving w k) : Serving (w.looked a) k := by
  have e : (w.looked a).gasLimit = w.gasLimit := by
    simp only [World.gasLimit, looked_ctx]
    exact looked_mem (by have := h.ctx; omega)
  refine ⟨by rw [looked_ctx]; exact h.ctx, by rw [e]; exact h.gas, by rw [e]; exact h.limit⟩

theorem looked_gasLimit (h : Serving w k) : (w.looked a).gasLimit = w.gasLimit := by
  simp only [World.gasLimit, looked_ctx]
  exact looked_mem (by have := h.ctx; omega)

section
variable (hR : P.ReadsState) (hP : P.Has callGasCode)
include hR hP

/-- `%is_dead` in `new_cost_transfers_value` (`asm/core/call_gas.asm:91-100`). -/
theorem run_new_cost (hw : Words w) (h : AccountsAre w n ps f) (ha : P.addrKey a < u256Max)
    (hi : AccHonest w 0 ps (P.addrKey a)) (hi' : AccHonest w 1 ps (P.addrKey a))
    (hp : ∀ p, f (P.addrKey a) = some p → 0 < p ∧ p + 4 ≤ 2 ^ 32) {y x : Nat} [Decidable (Dead w f (P.addrKey a))] :
    Reaches P (.goto (P.addr "new_cost_transfers_value") (100 :: y :: x :: a :: gas :: k :: v :: ret :: S) w)
      (.goto (P.addr "after_new_cost")
        ((if Dead w f (P.addrKey a) then 25100 else 100) :: y :: x :: a :: gas :: k :: v :: ret :: S) ((w.looked a).looked a)) := by
  enter hP in callGasCode
  rw [b_new_cost_transfers_value]
  kexec []
  refine (run_read_state hR hw h ha hi).trans ?_
  enter hP in callGasCode
  rw [b_call_gas_3_after]
  kexec []
  refine (run_read_state hR (looked_words hw) (looked_accounts h) ha (looked_honest h hi')).trans ?_
  have after : ∀ d e w', d + e ≤ 1 → Reaches P (exec P b_call_gas_4_after (d :: e :: 100 :: y :: x :: a :: gas :: k :: v :: ret :: S) w')
      (.goto (P.addr "after_new_cost") ((if d + e = 1 then 25100 else 100) :: y :: x :: a :: gas :: k :: v :: ret :: S) w') := by
    intro d e w' hd
    rw [b_call_gas_4_after]
    kexec []
    rw [wadd_small (by omega)]
    by_cases hd1 : d + e = 1
    · rw [if_pos (c := d + e = 1) hd1, if_neg (by omega)]
      enter hP in callGasCode
      rw [b_new_cost_nonzero]
      kexec [m_add_const]
      rw [wadd_small (by omega)]
      exact .refl _
    · rw [if_neg (c := d + e = 1) hd1, if_pos (by omega)]
      exact .refl _
  have no : ∀ p e w', e ≤ 1 → Reaches P (.goto (P.addr "call_gas@4.false") (p :: e :: 100 :: y :: x :: a :: gas :: k :: v :: ret :: S) w')
      (.goto (P.addr "after_new_cost") ((if e = 1 then 25100 else 100) :: y :: x :: a :: gas :: k :: v :: ret :: S) w') := by
    intro p e w' he
    enter hP in callGasCode
    rw [b_call_gas_4_false]
    have := after 0 e w' (by omega)
    rw [Nat.zero_add] at this
    generalize b_call_gas_4_after = t at *
    kexec []
    exact this
  enter hP in callGasCode
  rw [b_call_gas_5_after]
  cases hf : f (P.addrKey a) with
  | none =>
    rw [if_pos (by intro p hp'; rw [hf] at hp'; cases hp')]
    kexec [Option.getD_none]
    have := no 0 1 ((w.looked a).looked a) (by omega)
    rw [if_pos rfl] at this
    exact this
  | some p =>
    obtain ⟨hp0, hp4⟩ := hp p hf
    have hm : ∀ b, 0xc00000000 ≤ b → ((w.looked a).looked a).mem b = w.mem b := fun b hb => by
      rw [looked_mem (by omega), looked_mem (by omega)]
    kexec [Option.getD_some]
    rw [show wiszero p = 0 by simp only [wiszero]; rw [if_neg (by omega)]]
    rw [if_pos (by omega), exec_mload_trie (by omega), hm _ (by omega)]
    have hz : ∀ z, (wiszero z ≠ 0) = (z = 0) := fun z => by simp only [wiszero]; split <;> simp [*]
    kexec [m_not_bit, m_increment, m_add_const, hz]
    by_cases h0 : w.mem (0xc00000000 + p) = 0
    rotate_left
    · rw [if_neg h0, if_neg (fun h => h0 (h p hf).1)]
      exact no _ 0 _ (by omega)
    rw [if_pos h0, wadd_small (a := 1) (by omega), exec_mload_trie (by omega), hm _ (by omega)]
    kexec [hz]
    rw [show 0xc00000000 + (1 + p) = 0xc00000000 + p + 1 by omega]
    by_cases h1 : w.mem (0xc00000000 + p + 1) = 0
    rotate_left
    · rw [if_neg h1, if_neg (fun h => h1 (h p hf).2.1)]
      exact no _ 0 _ (by omega)
    rw [if_pos h1, wadd_small (a := 2) (by omega), exec_mload_trie (by omega), hm _ (by omega)]
    kexec []
    rw [show 0xc00000000 + (2 + (1 + p)) = 0xc00000000 + p + 3 by omega]
    enter hP in callGasCode
    have := after (weq 0xc5d2460186f7233c927e7db2dcc703c0e500b653ca82273b7bfad8045d85a470 (w.mem (0xc00000000 + p + 3))) 0 ((w.looked a).looked a)
      (by simp only [weq]; split <;> omega)
    by_cases h2 : w.mem (0xc00000000 + p + 3) = 0xc5d2460186f7233c927e7db2dcc703c0e500b653ca82273b7bfad8045d85a470
    · rw [if_pos (show Dead w f (P.addrKey a) from fun q hq => by rw [hf] at hq; cases hq; exact ⟨h0, h1, h2⟩)]
      rw [if_pos (by simp only [weq]; rw [if_pos h2.symm])] at this
      exact this
    · rw [if_neg (fun h => h2 (h p hf).2.2)]
      rw [if_neg (by simp only [weq]; rw [if_neg (fun e => h2 e.symm)]; omega)] at this
      exact this
omit hR in
/-- The price of a cold account (`asm/core/call_gas.asm:11-16, 102-108`). -/
theorem run_cold (hs : Serving w k) {cold y x : Nat} :
    (w.gasLimit - k / 2 ^ 192 < (if cold = 0 then 0 else 2500) ∧
      ∃ s', Reaches P (.goto (P.addr "call_charge_gas") (x :: y :: cold :: a :: gas :: k :: v :: ret :: S) w)
        (.goto (P.addr "fault_exception") s' w)) ∨
    ((if cold = 0 then 0 else 2500) ≤ w.gasLimit - k / 2 ^ 192 ∧
      Reaches P (.goto (P.addr "call_charge_gas") (x :: y :: cold :: a :: gas :: k :: v :: ret :: S) w)
        (exec P b_call_charge_gas_contd (y :: x :: a :: gas :: (k + (if cold = 0 then 0 else 2500) * 2 ^ 192) :: v :: ret :: S) w)) := by
  have h1 := hs.gas; have h2 := hs.limit
  by_cases hc : cold = 0
  · right
    subst hc
    refine ⟨by simp, ?_⟩
    enter hP in callGasCode
    rw [b_call_charge_gas]
    generalize b_call_charge_gas_contd = t
    kexec [if_true, Nat.zero_mul, Nat.add_zero]
    exact .refl _
  · rw [if_neg hc]
    have go : Reaches P (.goto (P.addr "call_charge_gas") (x :: y :: cold :: a :: gas :: k :: v :: ret :: S) w)
        (exec P (m_charge_gas ++ SWAP 4 :: (m_jump (.lab "call_charge_gas_contd") ++ [])) (2500 :: k :: x :: a :: gas :: y :: v :: ret :: S) w) := by
      enter hP in callGasCode
      rw [b_call_charge_gas]
      kexec []
      rw [if_neg hc]
      enter hP in callGasCode
      rw [b_charge_cold_access_gas]
      kexec []
      exact .refl _
    rw [exec_charge_gas hs.ctx (by omega)] at go
    by_cases hl : k / 2 ^ 192 + 2500 ≤ w.gasLimit
    · right
      rw [if_pos hl] at go
      refine ⟨by omega, go.trans ?_⟩
      kexec []
      enter hP in callGasCode
      exact .refl _
    · left
      rw [if_neg hl] at go
      exact ⟨by omega, _, go⟩

omit hR in
/-- The price of a value (`asm/core/call_gas.asm:18-23, 65-82`). -/
theorem run_xfer (hs : Serving w k) {y x : Nat} :
    (w.gasLimit - k / 2 ^ 192 < (if x = 0 ∨ v = 0 then 0 else 9000) ∧
      ∃ s', Reaches P (exec P b_call_charge_gas_contd (y :: x :: a :: gas :: k :: v :: ret :: S) w)
        (.goto (P.addr "fault_exception") s' w)) ∨
    ((if x = 0 ∨ v = 0 then 0 else 9000) ≤ w.gasLimit - k / 2 ^ 192 ∧
      Reaches P (exec P b_call_charge_gas_contd (y :: x :: a :: gas :: k :: v :: ret :: S) w)
        (exec P b_after_xfer_cost (100 :: y :: x :: a :: gas :: (k + (if x = 0 ∨ v = 0 then 0 else 9000) * 2 ^ 192) :: v :: ret :: S) w)) := by
  have h1 := hs.gas; have h2 := hs.limit
  by_cases hx : x = 0
  · right
    subst hx
    refine ⟨by simp, ?_⟩
    rw [b_call_charge_gas_contd]
    generalize b_after_xfer_cost = t
    kexec [if_true, true_or, Nat.zero_mul, Nat.add_zero]
    exact .refl _
  have go : Reaches P (exec P b_call_charge_gas_contd (y :: x :: a :: gas :: k :: v :: ret :: S) w)
      (exec P b_xfer_cost (100 :: y :: x :: a :: gas :: k :: v :: ret :: S) w) := by
    rw [b_call_charge_gas_contd]
    kexec []
    rw [if_neg hx]
    enter hP in callGasCode
    exact .refl _
  by_cases hv : v = 0
  · right
    subst hv
    refine ⟨by simp, go.trans ?_⟩
    rw [b_xfer_cost]
    kexec [if_true, or_true, Nat.zero_mul, Nat.add_zero]
    enter hP in callGasCode
    exact .refl _
  · rw [if_neg (by omega)]
    have go : Reaches P (exec P b_call_charge_gas_contd (y :: x :: a :: gas :: k :: v :: ret :: S) w)
        (exec P (m_charge_gas ++ SWAP 5 :: (m_jump (.lab "after_xfer_cost") ++ [])) (9000 :: k :: y :: x :: a :: gas :: 100 :: v :: ret :: S) w) := by
      refine go.trans ?_
      rw [b_xfer_cost]
      kexec []
      rw [if_neg hv]
      enter hP in callGasCode
      rw [b_xfer_cost_nonzero]
      kexec []
      exact .refl _
    rw [exec_charge_gas hs.ctx (by omega)] at go
    by_cases hl : k / 2 ^ 192 + 9000 ≤ w.gasLimit
    · right
      rw [if_pos hl] at go
      refine ⟨by omega, go.trans ?_⟩
      kexec []
      enter hP in callGasCode
      exact .refl _
    · left
      rw [if_neg hl] at go
      exact ⟨by omega, _, go⟩

/-- What the check for a dead account needs: the list of accounts is in order and the prover's two hints are honest. -/
structure CallReads (P : Prog) (w : World) (n : Nat) (ps : List Nat) (f : Nat → Option Nat) (a : Nat) : Prop where
  words : Words w
  accounts : AccountsAre w n ps f
  key : P.addrKey a < u256Max
  hint0 : AccHonest w 0 ps (P.addrKey a)
  hint1 : AccHonest w 1 ps (P.addrKey a)
  ptr : ∀ p, f (P.addrKey a) = some p → 0 < p ∧ p + 4 ≤ 2 ^ 32

omit hR in
theorem run_new_free {y x : Nat} (h : y = 0 ∨ v = 0) :
    Reaches P (exec P b_after_xfer_cost (100 :: y :: x :: a :: gas :: k :: v :: ret :: S) w)
      (exec P b_after_new_cost (100 :: y :: x :: a :: gas :: k :: v :: ret :: S) w) := by
  by_cases hy : y = 0
  · subst hy
    rw [b_after_xfer_cost]
    generalize b_after_new_cost = t
    kexec [if_true]
    exact .refl _
  obtain rfl : v = 0 := by omega
  rw [b_after_xfer_cost]
  kexec []
  rw [if_neg hy]
  enter hP in callGasCode
  rw [b_new_cost]
  kexec [if_true]
  enter hP in callGasCode
  exact .refl _

/-- The price of a new account (`asm/core/call_gas.asm:24-27, 84-100`). -/
theorem run_new {y x : Nat} [Decidable (Dead w f (P.addrKey a))] (hr : y ≠ 0 → v ≠ 0 → CallReads P w n ps f a) :
    ∃ w', (w' = w ∨ w' = (w.looked a).looked a) ∧
      Reaches P (exec P b_after_xfer_cost (100 :: y :: x :: a :: gas :: k :: v :: ret :: S) w)
        (exec P b_after_new_cost ((if y ≠ 0 ∧ v ≠ 0 ∧ Dead w f (P.addrKey a) then 25100 else 100) :: y :: x :: a :: gas :: k :: v :: ret :: S) w') := by
  by_cases h0 : y = 0 ∨ v = 0
  · rw [if_neg (by omega)]
    exact ⟨w, .inl rfl, run_new_free hP h0⟩
  have hy : y ≠ 0 := by omega
  have hv : v ≠ 0 := by omega
  obtain ⟨hw, h, ha, hi, hi', hp⟩ := hr hy hv
  refine ⟨_, .inr rfl, ?_⟩
  rw [b_after_xfer_cost]
  kexec []
  rw [if_neg hy]
  enter hP in callGasCode
  rw [b_new_cost]
  kexec []
  rw [if_neg hv]
  refine (run_new_cost hR hP hw h ha hi hi' hp).trans ?_
  enter hP in callGasCode
  by_cases hd : Dead w f (P.addrKey a)
  · rw [if_pos hd, if_pos ⟨hy, hv, hd⟩]; exact .refl _
  · rw [if_neg hd, if_neg (fun h => hd h.2.2)]; exact .refl _

/-- The price of a call apart from the gas it passes on (Yellow Paper, `C_EXTRA`, with EIP-2929).  `x`: the instruction is `CALL`
or `CALLCODE`; `y`: it is `CALL` or `STATICCALL`. -/
def callExtra (x y cold v : Nat) (dead : Prop) [Decidable dead] : Nat :=
  (if cold = 0 then 100 else 2600) + (if x = 0 ∨ v = 0 then 0 else 9000) + (if y ≠ 0 ∧ v ≠ 0 ∧ dead then 25000 else 0)

/-- `call_charge_gas` (`asm/core/call_gas.asm:11-62`). -/
theorem run_call_charge (hs : Serving w k) {x y cold : Nat} [Decidable (Dead w f (P.addrKey a))] (hg : gas < 2 ^ 256)
    (hr : y ≠ 0 → v ≠ 0 → CallReads P w n ps f a)
    (hok : callExtra x y cold v (Dead w f (P.addrKey a)) ≤ w.gasLimit - k / 2 ^ 192 ∨ gas < 2 ^ 62) :
    (callExtra x y cold v (Dead w f (P.addrKey a)) ≤ w.gasLimit - k / 2 ^ 192 ∧ ∃ w', (w' = w ∨ w' = (w.looked a).looked a) ∧
      Reaches P (.goto (P.addr "call_charge_gas") (x :: y :: cold :: a :: gas :: k :: v :: ret :: S) w)
        (.goto ret ((k + (gasCap (w.gasLimit - k / 2 ^ 192) (callExtra x y cold v (Dead w f (P.addrKey a))) gas +
            callExtra x y cold v (Dead w f (P.addrKey a))) * 2 ^ 192) ::
          (gasCap (w.gasLimit - k / 2 ^ 192) (callExtra x y cold v (Dead w f (P.addrKey a))) gas + stipend v) :: a :: v :: S) w')) ∨
    (w.gasLimit - k / 2 ^ 192 < callExtra x y cold v (Dead w f (P.addrKey a)) ∧ ∃ s' w',
      Reaches P (.goto (P.addr "call_charge_gas") (x :: y :: cold :: a :: gas :: k :: v :: ret :: S) w)
        (.goto (P.addr "fault_exception") s' w')) := by
  have h1 := hs.gas; have h2 := hs.limit
  generalize he : callExtra x y cold v (Dead w f (P.addrKey a)) = e at *
  have hsplit : e = (if cold = 0 then 0 else 2500) + (if x = 0 ∨ v = 0 then 0 else 9000) +
      (if y ≠ 0 ∧ v ≠ 0 ∧ Dead w f (P.addrKey a) then 25100 else 100) := by
    rw [← he, callExtra]
    split <;> split <;> split <;> omega
  have hc2 : (if cold = 0 then 0 else 2500) ≤ 2500 := by split <;> omega
  have ht2 : (if x = 0 ∨ v = 0 then 0 else 9000) ≤ 9000 := by split <;> omega
  rcases run_cold (S := S) (ret := ret) (a := a) (gas := gas) (v := v) hP hs (cold := cold) (y := y) (x := x) with ⟨hlt, s', hr1⟩ | ⟨hle, hr1⟩
  · exact .inr ⟨by omega, s', w, hr1⟩
  generalize (if cold = 0 then 0 else 2500) = cc at *
  have hs1 : Serving w (k + cc * 2 ^ 192) := ⟨hs.ctx, by omega, h2⟩
  rcases run_xfer (S := S) (ret := ret) (a := a) (gas := gas) (v := v) hP hs1 (y := y) (x := x) with ⟨hlt, s', hr2⟩ | ⟨hle2, hr2⟩
  · exact .inr ⟨by omega, s', w, hr1.trans hr2⟩
  generalize (if x = 0 ∨ v = 0 then 0 else 9000) = t at *
  obtain ⟨w', hw', hr3⟩ := run_new (S := S) (ret := ret) (gas := gas) (k := k + cc * 2 ^ 192 + t * 2 ^ 192) (x := x) hR hP hr
  have hn2 : (if y ≠ 0 ∧ v ≠ 0 ∧ Dead w f (P.addrKey a) then 25100 else 100) ≤ 25100 := by split <;> omega
  generalize (if y ≠ 0 ∧ v ≠ 0 ∧ Dead w f (P.addrKey a) then 25100 else 100) = nw at *
  have hs2 : Serving w (k + cc * 2 ^ 192 + t * 2 ^ 192) := ⟨hs.ctx, by omega, h2⟩
  have hlim : w'.gasLimit = w.gasLimit := by
    rcases hw' with h | h
    · rw [h]
    · rw [h, looked_gasLimit (serving_looked hs), looked_gasLimit hs]
  have hs3 : Serving w' (k + cc * 2 ^ 192 + t * 2 ^ 192) := by
    rcases hw' with h | h
    · rw [h]; exact hs2
    · rw [h]; exact serving_looked (serving_looked hs2)
  have hav : w.gasLimit - (k + cc * 2 ^ 192 + t * 2 ^ 192) / 2 ^ 192 = w.gasLimit - k / 2 ^ 192 - cc - t := by omega
  have hall := (hr1.trans hr2).trans hr3
  rw [run_call_cost hs3 hg hn2 (by rw [hlim, hav]; omega), hlim, hav] at hall
  by_cases hfin : e ≤ w.gasLimit - k / 2 ^ 192
  · left
    rw [if_pos (by omega)] at hall
    have hcap : gasCap (w.gasLimit - k / 2 ^ 192 - cc - t) nw gas = gasCap (w.gasLimit - k / 2 ^ 192) e gas := by
      rw [gasCap, gasCap, if_pos hfin, if_pos (by omega), show w.gasLimit - k / 2 ^ 192 - cc - t - nw = w.gasLimit - k / 2 ^ 192 - e by omega]
    rw [hcap, show k + cc * 2 ^ 192 + t * 2 ^ 192 + (gasCap (w.gasLimit - k / 2 ^ 192) e gas + nw) * 2 ^ 192 =
      k + (gasCap (w.gasLimit - k / 2 ^ 192) e gas + e) * 2 ^ 192 by omega] at hall
    exact ⟨hfin, w', hw', hall⟩
  · right
    rw [if_neg (by omega)] at hall
    exact ⟨by omega, _, w', hall⟩

end

/-- When the gas that the caller asks for and the price add up to a multiple of `2^64` and the price is more than what remains, the
kernel charges nothing and goes on. -/
theorem run_call_cost_wrapped (h : Serving w k) (hk : k < 2 ^ 256) {e x y m : Nat} (he : e ≤ 25100) (hg : gas + e = 2 ^ 64 * m) (hm : gas + e < 2 ^ 256)
    (hl : w.gasLimit - k / 2 ^ 192 < e) :
    exec P b_after_new_cost (e :: y :: x :: a :: gas :: k :: v :: ret :: S) w =
      .goto ret (k :: wadd (stipend v) gas :: a :: v :: S) w := by
  have h1 := h.gas; have h2 := h.limit
  rw [b_after_new_cost]
  kexec []
  rw [exec_leftover h]
  generalize w.gasLimit - k / 2 ^ 192 = l at *
  have hst : wmul 2300 (wiszero (wiszero v)) = stipend v := by
    simp only [wiszero, stipend, wmul]; split <;> simp
  kexec [m_not_bit]
  rw [show wlt l e = 1 by simp only [wlt]; rw [if_pos (by omega)], exec_all_but (by simp only [wsub]; omega)]
  kexec []
  rw [exec_min (by omega) (by have : wsub l e < 2 ^ 256 := by (simp only [wsub]; omega)
                              simp only [allBut64th]; omega)]
  kexec []
  rw [show wadd (wmul (min gas (allBut64th (wsub l e))) (wiszero 1)) (wmul 1 gas) = gas by
    simp only [wiszero, wmul, wadd, Nat.one_ne_zero, if_false]; omega]
  rw [wadd_small (by omega)]
  have hc : ∀ (c : List I) (s : List Nat), exec P (m_charge_gas ++ c) ((e + gas) :: k :: s) w = exec P c (k :: s) w := by
    intro c s
    have e1 : wshl 192 (e + gas) = 0 := by
      simp only [wshl]; rw [if_neg (by omega), show (e + gas) * 2 ^ 192 = 2 ^ 256 * m by omega]; simp
    have e2 : wshr 192 k = k / 2 ^ 192 := by simp only [wshr]; rw [if_neg (by omega)]
    rw [m_charge_gas]
    kexec [m_shl_const, m_ctx_gas_limit, m_shr_const]
    rw [e1, wadd_small (by omega), Nat.zero_add, exec_load_ctx h.ctx (by omega)]
    kexec []
    rw [e2, show w.mem (w.ctx * 2 ^ 64 + 0x60000000c) = w.gasLimit from rfl, if_pos h1]
  rw [hc]
  kexec [m_not_bit, m_mul_const]
  rw [hst]

end Verif.Kasm
