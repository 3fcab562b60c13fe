import Verif.Kasm.CallGas
import Verif.Kasm.CopyClaims

/-! Property C114: what the instructions that call other accounts charge, and the gas they pass on. -/

namespace Verif.Kasm

variable {P : Prog} {S : List Nat} {w : World} {n k gas a v cold : Nat} {ps : List Nat} {f : Nat → Option Nat}

/-! ### Specification -/

/-- The instructions. -/
inductive CallKind
  | call
  | callcode
  | staticcall
  | delegatecall
  deriving DecidableEq

/-- The instruction takes a value. -/
def CallKind.hasValue : CallKind → Bool
  | .call | .callcode => true
  | .staticcall | .delegatecall => false

/-- The price of a call apart from the gas it passes on (Yellow Paper, `C_EXTRA`, with EIP-2929): access to the account, the
transfer of a value, and for `CALL` with a value the creation of the account if it is dead. -/
def CallKind.price (o : CallKind) (cold : Bool) (value : Nat) (dead : Prop) [Decidable dead] : Nat :=
  (if cold then 2600 else 100) + (if o.hasValue ∧ value ≠ 0 then 9000 else 0) + (if o = .call ∧ value ≠ 0 ∧ dead then 25000 else 0)

/-- With `avail` gas remaining and the gas `asked` for: what the caller is charged and what the callee receives; `none` if the
gas does not suffice (Yellow Paper, `C_CALL`, `C_CALLGAS`, `C_GASCAP`). -/
def CallKind.charge (avail asked price value : Nat) : Option (Nat × Nat) :=
  if avail < price then none
  else
    let cap := min asked (avail - price - (avail - price) / 64)
    some (price + cap, cap + if value = 0 then 0 else 2300)

/-! ### The kernel -/

/-- Where the kernel's handler of the instruction has entered the address in the list of accessed addresses. -/
def CallKind.entry : CallKind → String
  | .call => "call@7.after"
  | .callcode => "call@23.after"
  | .staticcall => "call@38.after"
  | .delegatecall => "call@52.after"

/-- Where it has charged the gas. -/
def CallKind.charged : CallKind → String
  | .call => "call@8.after"
  | .callcode => "call@24.after"
  | .staticcall => "call@39.after"
  | .delegatecall => "call@53.after"

/-- The kernel has the routines. -/
structure Prog.ChargesCalls (P : Prog) : Prop where
  reads : P.ReadsState
  gas : P.Has callGasCode
  call : P.Has callCode

/-- From there to there the kernel charges as specified, or faults; memory stays as it is, but for the 20 bytes where the address is
hashed. -/
def ChargesCall (P : Prog) (o : CallKind) (w : World) (f : Nat → Option Nat) (cold a gas k v : Nat) (S : List Nat)
    [Decidable (Dead w f (P.addrKey a))] : Prop :=
  let start := Out.goto (P.addr o.entry) (cold :: a :: gas :: k :: ((if o.hasValue then [v] else []) ++ S)) w
  match CallKind.charge (w.gasLimit - k / 2 ^ 192) gas (o.price (cold ≠ 0) v (Dead w f (P.addrKey a))) v with
  | some (charged, passed) => ∃ w', w'.ctx = w.ctx ∧ (∀ b, b < 0x700000000 ∨ 0x700000014 ≤ b → w'.mem b = w.mem b) ∧
      Reaches P start (.goto (P.addr o.charged) ((k + charged * 2 ^ 192) :: passed :: a :: v :: S) w')
  | none => ∃ s' w', Reaches P start (.goto (P.addr "fault_exception") s' w')

/-- C114 in full: this holds for every gas counter, limit, operand and state. -/
def C114_statement : Prop :=
  ∀ (P : Prog) (o : CallKind) (w : World) (n : Nat) (ps : List Nat) (f : Nat → Option Nat) (cold a gas k v : Nat) (S : List Nat)
    [Decidable (Dead w f (P.addrKey a))], P.ChargesCalls → Serving w k → k < 2 ^ 256 → gas < 2 ^ 256 → (o.hasValue = false → v = 0) →
    CallReads P w n ps f a → ChargesCall P o w f cold a gas k v S

def CallKind.x : CallKind → Nat
  | .call | .callcode => 1
  | .staticcall | .delegatecall => 0

def CallKind.y : CallKind → Nat
  | .call | .staticcall => 1
  | .callcode | .delegatecall => 0

theorem run_call_entry (hP : P.ChargesCalls) (o : CallKind) (hv : o.hasValue = false → v = 0) :
    Reaches P (.goto (P.addr o.entry) (cold :: a :: gas :: k :: ((if o.hasValue then [v] else []) ++ S)) w)
      (.goto (P.addr "call_charge_gas") (o.x :: o.y :: cold :: a :: gas :: k :: v :: P.addr o.charged :: S) w) := by
  have hC := hP.call
  cases o
  all_goals simp only [CallKind.entry, CallKind.hasValue, CallKind.x, CallKind.y, CallKind.charged, if_true]
  · enter hC in callCode
    rw [b_call_7_after]
    kexec []
    exact .refl _
  · enter hC in callCode
    rw [b_call_23_after]
    kexec []
    exact .refl _
  · obtain rfl := hv rfl
    enter hC in callCode
    rw [b_call_38_after]
    kexec []
    exact .refl _
  · obtain rfl := hv rfl
    enter hC in callCode
    rw [b_call_52_after]
    kexec []
    exact .refl _

theorem price_eq (o : CallKind) (hv : o.hasValue = false → v = 0) (dead : Prop) [Decidable dead] :
    callExtra o.x o.y cold v dead = o.price (cold ≠ 0) v dead := by
  simp only [callExtra, CallKind.price]
  by_cases hd : dead <;> by_cases hv0 : v = 0 <;> by_cases hc : cold = 0 <;> cases o <;>
    simp_all [CallKind.x, CallKind.y, CallKind.hasValue]

/-- C114, but for callers without the gas for the price that ask for more than `2^62` gas to be passed on. -/
theorem C114_call_gas_partial (hP : P.ChargesCalls) (hs : Serving w k) (hg : gas < 2 ^ 256) (o : CallKind)
    (hv : o.hasValue = false → v = 0) (hr : o = .call → v ≠ 0 → CallReads P w n ps f a) [Decidable (Dead w f (P.addrKey a))]
    (hok : o.price (cold ≠ 0) v (Dead w f (P.addrKey a)) ≤ w.gasLimit - k / 2 ^ 192 ∨ gas < 2 ^ 62) :
    ChargesCall P o w f cold a gas k v S := by
  rw [ChargesCall]
  have h0 := run_call_entry (cold := cold) (a := a) (gas := gas) (k := k) (S := S) (w := w) hP o hv
  rw [← price_eq o hv] at hok ⊢
  generalize hst : Out.goto (P.addr o.entry) _ w = start at *
  rcases run_call_charge (S := S) (ret := P.addr o.charged) hP.reads hP.gas hs (x := o.x) (y := o.y) hg
    (fun hy hv' => hr (by cases o <;> simp_all [CallKind.y, CallKind.hasValue]) hv') hok with ⟨hle, w', hw', h1⟩ | ⟨hlt, s', w', h1⟩
  · rw [CallKind.charge, if_neg (by omega)]
    rw [gasCap, if_pos hle, Nat.min_comm, allBut64th, stipend, Nat.add_comm (min _ _) (callExtra _ _ _ _ _)] at h1
    refine ⟨w', ?_, fun b hb => ?_, h0.trans h1⟩
    · rcases hw' with h | h <;> rw [h]
      rw [looked_ctx, looked_ctx]
    · rcases hw' with h | h <;> rw [h]
      rw [looked_mem hb, looked_mem hb]
  · rw [CallKind.charge, if_pos hlt]
    exact ⟨s', w', h0.trans h1⟩

/-- The exception: a caller that has gas for the transfer of the value but not for the access to a warm account, and asks for
`2^64 - 100` gas to be passed on, is charged for the transfer only, and the callee is to receive `2^64 - 100` gas and the stipend. -/
theorem C114_unpaid (hP : P.ChargesCalls) (hs : Serving w k) (hk : k < 2 ^ 256) (o : CallKind) (ho : o = .call → v = 0)
    (hv : o.hasValue = false → v = 0) (h1 : (if v = 0 then 0 else 9000) ≤ w.gasLimit - k / 2 ^ 192)
    (h2 : w.gasLimit - k / 2 ^ 192 < (if v = 0 then 0 else 9000) + 100) :
    Reaches P (.goto (P.addr o.entry) (0 :: a :: (2 ^ 64 - 100) :: k :: ((if o.hasValue then [v] else []) ++ S)) w)
      (.goto (P.addr o.charged) ((k + (if v = 0 then 0 else 9000) * 2 ^ 192) :: (2 ^ 64 - 100 + if v = 0 then 0 else 2300) :: a :: v :: S) w) := by
  have h3 := hs.limit
  have h4 := hs.gas
  have hx : (o.x = 0 ∨ v = 0) = (v = 0) := by
    cases o <;> simp_all [CallKind.x, CallKind.hasValue]
  have hy : o.y = 0 ∨ v = 0 := by cases o <;> simp_all [CallKind.y, CallKind.hasValue]
  refine (run_call_entry hP o hv).trans ?_
  rcases run_cold (S := S) (ret := P.addr o.charged) (a := a) (gas := 2 ^ 64 - 100) (v := v) hP.gas hs (cold := 0) (y := o.y) (x := o.x) with ⟨h, -⟩ | ⟨-, r1⟩
  · simp at h
  refine r1.trans ?_
  rw [if_pos rfl, Nat.zero_mul, Nat.add_zero]
  rcases run_xfer (S := S) (ret := P.addr o.charged) (a := a) (gas := 2 ^ 64 - 100) (v := v) hP.gas hs (y := o.y) (x := o.x) with ⟨h, -⟩ | ⟨-, r2⟩
  · simp only [hx] at h; omega
  refine r2.trans ?_
  simp only [hx]
  have hc : (if v = 0 then 0 else 9000) ≤ 9000 := by split <;> omega
  have hst : wadd (stipend v) (2 ^ 64 - 100) = 2 ^ 64 - 100 + if v = 0 then 0 else 2300 := by
    simp only [stipend]
    split <;> decide
  rw [← hst]
  generalize (if v = 0 then 0 else 9000) = t at *
  refine (run_new_free hP.gas hy).trans ?_
  rw [run_call_cost_wrapped (m := 1) ⟨hs.ctx, by omega, h3⟩ (by omega) (by omega) (by omega) (by omega) (by omega)]
  exact .refl _

/-! ### Examples -/

/-- A kernel with the routines; a fault ends the run.  All addresses have the key `h`. -/
def callProg (h : Nat) : Prog :=
  tableProg (callCode ++ callGasCode ++ stateReadCode ++ linkedListCode ++ copyCode ++ [("fault_exception", [PANIC])]) fun _ => h

theorem callProg_has (h : Nat) : (callProg h).Has
    (callCode ++ callGasCode ++ stateReadCode ++ linkedListCode ++ copyCode ++ [("fault_exception", [PANIC])]) :=
  tableProg_has _ _ (by decide +kernel) (by decide +kernel) (by decide +kernel)

theorem callProg_charges (h : Nat) : (callProg h).ChargesCalls where
  reads :=
    { copies := tableProg_copies _ _ (by decide +kernel) (by decide +kernel) (by decide +kernel) (by simp +contextual)
      list := (callProg_has h).mono (by simp +contextual)
      read := (callProg_has h).mono (by simp +contextual) }
  gas := (callProg_has h).mono (by simp +contextual)
  call := (callProg_has h).mono (by simp +contextual)

/-- One account, with key 5, in context 1 with the gas limit `l`, at depth `d`. -/
def callWorld (l d : Nat) : World where
  mem b := if b = 2 ^ 64 + 0x60000000c then l else if b = 0x500000026 then d else (listWorld 0).mem b
  ctx := 1
  inp _ := accBase / 4 + 1

theorem callWorld_mem {l d b : Nat} (h : b ≠ 2 ^ 64 + 0x60000000c) (h' : b ≠ 0x500000026) :
    (callWorld l d).mem b = listMem b := by
  simp only [callWorld]
  rw [if_neg h, if_neg h']; rfl

theorem callWorld_gasLimit {l d : Nat} : (callWorld l d).gasLimit = l := by
  simp [callWorld, World.gasLimit]

theorem callWorld_hint {l d h i : Nat} (hh : 5 ≤ h) (hu : h < u256Max) : AccHonest (callWorld l d) i [accBase + 4] h := by
  have e : 4 * (callWorld l d).inp i = accBase + 4 := (by decide +kernel : 4 * (accBase / 4 + 1) = accBase + 4)
  simp only [AccHonest, e]
  refine ⟨by simp, .inr ?_, ?_⟩
  · rw [callWorld_mem (by decide +kernel) (by decide +kernel), (by decide +kernel : listMem (accBase + 4) = 5)]
    exact hh
  · rw [callWorld_mem (b := accBase + 4 + 3) (by decide +kernel) (by decide +kernel), (by decide +kernel : listMem (accBase + 4 + 3) = accBase),
      callWorld_mem (by decide +kernel) (by decide +kernel), (by decide +kernel : listMem accBase = u256Max)]
    exact hu

theorem callWorld_reads {l d h : Nat} (hl : l < 2 ^ 256) (hd : d < 2 ^ 256) (hh : 5 ≤ h) (hu : h < u256Max) :
    CallReads (callProg h) (callWorld l d) 2 [accBase + 4] exAccounts a where
  words b := by
    show (if _ then _ else _) < _
    split
    · exact hl
    · split
      · exact hd
      · exact listWorld_words 0 b
  accounts := (listWorld_accounts 0).congr (callWorld_mem (by decide +kernel) (by decide +kernel)) fun b h1 h2 => by
    simp only [accBase] at *
    exact callWorld_mem (by omega) (by omega)
  key := hu
  hint0 := callWorld_hint hh hu
  hint1 := callWorld_hint hh hu
  ptr p hp := by
    simp only [exAccounts] at hp
    split at hp
    · cases hp; omega
    · cases hp

theorem callWorld_serving {l d k : Nat} (hl : l < 2 ^ 63) (hk : k / 2 ^ 192 ≤ l) : Serving (callWorld l d) k :=
  ⟨by show 1 < 2 ^ 32; decide, by rw [callWorld_gasLimit]; exact hk, by rw [callWorld_gasLimit]; exact hl⟩

/-- A call with a value to an account that is there and was not accessed before: 11600 gas, and all but one 64th of the rest is passed
on, with the stipend. -/
example : ∃ w', Reaches (callProg 5) (.goto ((callProg 5).addr "call@7.after") [1, 0xabcd, 1000000, 17, 7, 99] (callWorld 100000 3))
    (.goto ((callProg 5).addr "call@8.after") [98619 * 2 ^ 192 + 17, 89319, 0xabcd, 7, 99] w') := by
  have hd : ¬ Dead (callWorld 100000 3) exAccounts ((callProg 5).addrKey 0xabcd) := fun h => by
    have := (h 1000 rfl).2.2
    revert this; decide +kernel
  have : Decidable (Dead (callWorld 100000 3) exAccounts ((callProg 5).addrKey 0xabcd)) := .isFalse hd
  have h := C114_call_gas_partial (S := [99]) (a := 0xabcd) (cold := 1) (gas := 1000000) (v := 7) (callProg_charges 5)
    (callWorld_serving (d := 3) (k := 17) (by decide : 100000 < 2 ^ 63) (by decide)) (by decide) .call (by decide)
    (fun _ _ => callWorld_reads (by decide) (by decide) (by decide) (by decide)) (.inr (by decide))
  simp only [ChargesCall, CallKind.price, hd, and_false, if_false, callWorld_gasLimit] at h
  obtain ⟨w', -, -, h⟩ := h
  exact ⟨w', h⟩

/-- The same call to an account that is not there costs 25000 more; with 30000 gas it faults. -/
example : (∃ w', Reaches (callProg 6) (.goto ((callProg 6).addr "call@7.after") [1, 0xabcd, 1000000, 17, 7, 99] (callWorld 100000 3))
      (.goto ((callProg 6).addr "call@8.after") [99010 * 2 ^ 192 + 17, 64710, 0xabcd, 7, 99] w')) ∧
    ∃ s' w', Reaches (callProg 6) (.goto ((callProg 6).addr "call@7.after") [1, 0xabcd, 1000000, 17, 7, 99] (callWorld 30000 3))
      (.goto ((callProg 6).addr "fault_exception") s' w') := by
  have hd : ∀ l, Dead (callWorld l 3) exAccounts ((callProg 6).addrKey 0xabcd) := fun l p h => by cases h
  have hi : ∀ l, Decidable (Dead (callWorld l 3) exAccounts ((callProg 6).addrKey 0xabcd)) := fun l => .isTrue (hd l)
  have h := fun (l : Nat) (hl : l < 2 ^ 63) => C114_call_gas_partial (S := [99]) (a := 0xabcd) (cold := 1) (gas := 1000000) (v := 7) (callProg_charges 6)
    (callWorld_serving (d := 3) (k := 17) hl (by omega)) (by decide) .call (by decide)
    (fun _ _ => callWorld_reads (by omega) (by decide) (by decide) (by decide)) (.inr (by decide))
  simp only [ChargesCall, CallKind.price, hd, callWorld_gasLimit] at h
  obtain ⟨w', -, -, h1⟩ := h 100000 (by decide)
  exact ⟨⟨w', h1⟩, h 30000 (by decide)⟩

/-- The exception does arise.  At depth 1025 with 9050 gas left, of which 9100 are needed, a `CALLCODE` with a value does not fault:
it goes on with 2250 gas. -/
theorem C114_not_faulted : ∃ s w', Reaches (callProg 5)
    (.goto ((callProg 5).addr "call@23.after") [0, 0xabcd, 2 ^ 64 - 100, 200 * 2 ^ 192 + 17, 1, 0, 0, 0, 0] (callWorld 9250 1025))
    (.exit (7000 * 2 ^ 192 + 17) s w') := by
  have h := C114_unpaid (S := [0, 0, 0, 0]) (a := 0xabcd) (v := 1) (callProg_charges 5)
    (callWorld_serving (l := 9250) (d := 1025) (k := 200 * 2 ^ 192 + 17) (by decide) (by decide)) (by decide)
    .callcode (by decide) (by decide) (by rw [callWorld_gasLimit]; decide) (by rw [callWorld_gasLimit]; decide)
  have hC := (callProg_charges 5).call
  have hm : (callWorld 9250 1025).mem 0x500000026 = 1025 := by decide +kernel
  have hc : (callWorld 9250 1025).ctx = 1 := rfl
  suffices hs : ∃ s w', Reaches (callProg 5)
      (.goto ((callProg 5).addr "call@24.after") [9200 * 2 ^ 192 + 17, 2 ^ 64 + 2200, 0xabcd, 1, 0, 0, 0, 0] (callWorld 9250 1025))
      (.exit (7000 * 2 ^ 192 + 17) s w') by
    obtain ⟨s, w', hs⟩ := hs
    exact ⟨s, w', h.trans hs⟩
  generalize callProg 5 = P at hC
  generalize callWorld 9250 1025 = w at *
  refine ⟨[0], w.set (1 * 2 ^ 64 + 0x600000003) 0, ?_⟩
  enter hC in callCode
  rw [b_call_24_after]
  kexec [m_check_depth, m_call_depth, m_gt_const]
  rw [exec_load_global (by decide), hm]
  kexec []
  rw [if_neg (by decide)]
  enter hC in callCode
  rw [b_call_too_deep]
  kexec [m_shl_const, m_mstore_context_metadata2]
  rw [hc, show wadd (1 * 2 ^ 64) 0x600000003 = 1 * 2 ^ 64 + 0x600000003 by decide,
    show wsub (9200 * 2 ^ 192 + 17) (wshl 192 (2 ^ 64 + 2200)) = 7000 * 2 ^ 192 + 17 by decide +kernel,
    exec_mstore (by simp only [SegOk]; decide), show key (1 * 2 ^ 64 + 0x600000003) = 1 * 2 ^ 64 + 0x600000003 by decide]
  kexec []
  exact .refl _

/-- So the full statement is false. -/
theorem C114_violated : ¬ C114_statement := by
  intro h
  obtain ⟨s, w', h1⟩ := C114_not_faulted
  have : Decidable (Dead (callWorld 9250 1025) exAccounts ((callProg 5).addrKey 0xabcd)) := Classical.propDecidable _
  have h2 := h (callProg 5) .callcode (callWorld 9250 1025) _ _ exAccounts 0 0xabcd (2 ^ 64 - 100) (200 * 2 ^ 192 + 17) 1 [0, 0, 0, 0]
    (callProg_charges 5) (callWorld_serving (by decide) (by decide)) (by decide) (by decide) (by decide)
    (callWorld_reads (by decide) (by decide) (by decide) (by decide))
  simp only [ChargesCall, CallKind.price, callWorld_gasLimit] at h2
  obtain ⟨s', w2, h2⟩ := h2
  have h3 : Reaches (callProg 5) (.goto ((callProg 5).addr "fault_exception") s' w2) .panic := by
    have hH := callProg_has 5
    obtain ⟨hy, hx⟩ : (callProg 5).code ((callProg 5).addr "fault_exception") = [PANIC] ∧ (callProg 5).addr "fault_exception" < 2 ^ 24 :=
      hH ("fault_exception", [PANIC]) (by simp)
    refine .step (by omega) ?_
    rw [hy, exec_panic]; exact .refl _
  have := h1.unique (h2.trans h3) (by simp) (by simp)
  cases this

end Verif.Kasm
