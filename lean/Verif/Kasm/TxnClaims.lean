import Verif.Kasm.Txn
import Verif.Kasm.Code.StateInsert
import Verif.Kasm.ListClaims
import Verif.Kasm.CopyClaims

/-! C116: intrinsic gas.  C117: which transactions the kernel executes and what it takes from their sender in advance. -/

namespace Verif.Kasm

variable {P : Prog} {S : List Nat} {w : World} {ret n : Nat} {ps ts : List Nat} {f : Nat → Option Nat} {js : List (List Nat)} {t : Tx} {b : Blk}

/-! ## C116 -/

/-- C116.  The kernel computes exactly the intrinsic gas of a transaction, for all data and all prices of access lists; it gives up (and no proof
exists) if a creation has more than 49152 bytes of code (EIP-3860). -/
theorem C116_intrinsic_gas (hP : P.Has intrinsicGasCode) (hT : TxnIs w t b) :
    (t.creation → t.data.length ≤ 49152) ∧ Reaches P (.goto (P.addr "intrinsic_gas") (ret :: S) w) (.goto ret (intrinsicGas t.data t.creation t.listCost :: S) w) ∨
    (t.creation ∧ 49152 < t.data.length) ∧ ∃ s, Reaches P (.goto (P.addr "intrinsic_gas") (ret :: S) w) (.goto (P.addr "panic") s w) := by
  have h := run_intrinsic (ret := ret) (S := S) hP hT.data hT.creation (by rw [hT.listCost]; exact hT.listSmall)
  by_cases hc : t.creation ∧ 49152 < t.data.length
  · rw [if_pos (by simpa using hc)] at h
    exact .inr ⟨hc, _, h⟩
  · rw [if_neg (by simpa using hc), hT.listCost] at h
    exact .inl ⟨fun e => Nat.le_of_not_lt fun e' => hc ⟨e, e'⟩, h⟩

/-- A creation with the five bytes 0, 1, 0, 0, 9 and a listed address costs 21000 + 3·4 + 2·16 + 32000 + 2 + 2400. -/
example : intrinsicGas [0, 1, 0, 0, 9] true 2400 = 55446 := by decide

/-! ## C117 -/

/-- What holds when the kernel starts with a transaction: it has the routines, state and transaction are in memory, there is room in the journal, and
the prover finds the sender in the list of accounts. -/
structure TxnOk (P : Prog) (w : World) (n : Nat) (ps : List Nat) (f : Nat → Option Nat) (js : List (List Nat)) (ts : List Nat) (t : Tx) (b : Blk) : Prop where
  code : P.Processes
  state : StateIs w n ps f js ts
  txn : TxnIs w t b
  room : StateRoom w js ts 2
  key : P.addrKey t.sender < u256Max
  hint : ∀ j, AccHonest w j ps (P.addrKey t.sender)
  nonce : ∀ A, w.accts f (P.addrKey t.sender) = some A → A.nonce < 2 ^ 64
  initcode : ¬ (t.creation ∧ 49152 < t.data.length)

/-- The kernel goes on to execute the transaction; before, it has taken the price of all its gas from the sender and counted the nonce up, and no other
account has changed. -/
def Executes (P : Prog) (w : World) (n : Nat) (ps : List Nat) (f : Nat → Option Nat) (js : List (List Nat)) (ts : List Nat) (t : Tx) (b : Blk) (ret : Nat)
    (S : List Nat) (A : Acct) : Prop :=
  ∃ w', Reaches P (.goto (P.addr "process_normalized_txn") (ret :: S) w) (.goto (P.addr "process_txn@7.after") (t.sender :: ret :: S) w') ∧
    StateIs w' n ps f (js ++ touchLog ts t.sender ++ [[4, t.sender, A.nonce]]) (touchList ts t.sender) ∧ FeesAre w' t b ∧ TxnIs w' t b ∧
    w'.accts f (P.addrKey t.sender) = some (t.charged b A) ∧ ∀ k, k ≠ P.addrKey t.sender → w'.accts f k = w.accts f k

/-- The kernel leaves the transaction without success and with all its gas left over, and no account has changed. -/
def Rejects (P : Prog) (w : World) (n : Nat) (ps : List Nat) (f : Nat → Option Nat) (js : List (List Nat)) (ts : List Nat) (t : Tx) (ret : Nat)
    (S : List Nat) : Prop :=
  ∃ w', Reaches P (.goto (P.addr "process_normalized_txn") (ret :: S) w) (.goto (P.addr "txn_loop_after") (0 :: t.gasLimit :: S) w') ∧
    StateIs w' n ps f js ts ∧ w'.accts f = w.accts f

/-- C117 in full: the kernel executes valid transactions, and only those. -/
def C117_statement : Prop :=
  ∀ (P : Prog) (w : World) (n : Nat) (ps : List Nat) (f : Nat → Option Nat) (js : List (List Nat)) (ts : List Nat) (t : Tx) (b : Blk) (ret : Nat) (S : List Nat),
    TxnOk P w n ps f js ts t b →
      (t.Valid b (w.acct f (P.addrKey t.sender)) → Executes P w n ps f js ts t b ret S (w.acct f (P.addrKey t.sender))) ∧
      (¬ t.Valid b (w.acct f (P.addrKey t.sender)) → Rejects P w n ps f js ts t ret S)

theorem Tx.gasPrice_le (h : b.baseFee ≤ t.maxFee) : t.gasPrice b ≤ t.maxFee := by
  have : t.priorityFee b ≤ t.maxFee - b.baseFee := Nat.min_le_right _ _
  simp only [Tx.gasPrice]; omega

theorem acct_some {A : Acct} {k : Nat} (h : w.accts f k = some A) : w.acct f k = A := by rw [World.acct, h]; rfl

theorem accts_words {A : Acct} {k : Nat} (hw : Words w) (h : w.accts f k = some A) : A.balance < 2 ^ 256 := by
  simp only [World.accts] at h
  cases hf : f k with
  | none => rw [hf] at h; cases h
  | some p => rw [hf] at h; cases h; exact hw _

theorem executes_of {A : Acct} {w' : World} (hm : t.gasLimit * t.gasPrice b < 2 ^ 256)
    (s : StateIs w' n ps f (js ++ touchLog ts t.sender ++ [[4, t.sender, A.nonce]]) (touchList ts t.sender)) (e : FeesAre w' t b) (T : TxnIs w' t b)
    (g : w'.accts f = updAcct (w.accts f) (P.addrKey t.sender) (t.taxed b A))
    (r : Reaches P (.goto (P.addr "process_normalized_txn") (ret :: S) w) (.goto (P.addr "process_txn@7.after") (t.sender :: ret :: S) w')) :
    Executes P w n ps f js ts t b ret S A := by
  refine ⟨w', r, s, e, T, ?_, fun k hk => ?_⟩
  · rw [g]
    simp only [updAcct, if_true, Tx.taxed, Tx.charged, Nat.mod_eq_of_lt hm]
  · rw [g]
    simp only [updAcct, if_neg hk]

/-- C117, first half: a valid transaction of an account that is there is executed, and its sender pays exactly the gas limit times the price of gas.
(If the base fee is not 0 a valid transaction's sender has a balance, so the account is there.) -/
theorem C117_valid {A : Acct} (h : TxnOk P w n ps f js ts t b) (hA : w.accts f (P.addrKey t.sender) = some A) (hv : t.Valid b A) :
    Executes P w n ps f js ts t b ret S A := by
  have hb := accts_words h.state.words hA
  have hle : t.gasLimit * t.gasPrice b ≤ t.gasLimit * t.maxFee := Nat.mul_le_mul_left _ (Tx.gasPrice_le hv.base)
  have hf := hv.funds
  have hm : t.gasLimit * t.gasPrice b < 2 ^ 256 := by omega
  have hacc : t.Accepts b A := ⟨hv.toSound, by rw [Nat.mod_eq_of_lt hm, Nat.mod_eq_of_lt (by omega)]; omega⟩
  obtain ⟨w', ⟨A', hA', -, -, s, e, T, g, -, -, r⟩ | ⟨A', hA', -, hlt, -⟩ | ⟨hno, -⟩⟩ := run_process (k := 0) (ret := ret) (S := S) h.code h.state h.txn h.room h.key h.hint h.nonce h.initcode
  · rw [hA] at hA'; cases hA'
    exact executes_of hm s e T g r
  · rw [hA] at hA'; cases hA'
    rw [Nat.mod_eq_of_lt hm] at hlt; omega
  · exact absurd hacc (hno A hA)

theorem C117_valid_present {A : Acct} (hv : t.Valid b (w.acct f (P.addrKey t.sender))) (hb : 0 < b.baseFee) (hA : w.acct f (P.addrKey t.sender) = A) :
    w.accts f (P.addrKey t.sender) = some A := by
  subst hA
  cases h : w.accts f (P.addrKey t.sender) with
  | some A => rw [World.acct, h]; rfl
  | none =>
    have hf := hv.funds
    have hg := hv.gas
    have h1 := hv.base
    rw [World.acct, h] at hf
    simp only [Option.getD_none] at hf
    simp only [Tx.intrinsic, intrinsicGas] at hg
    have : 0 < t.gasLimit * t.maxFee := Nat.mul_pos (by omega) (by omega)
    omega

/-- C117, second half, with two restrictions: the greatest possible sum of price and value does not exceed 2^256, and the sender's balance is compared with the
price that is charged instead of the greatest price.  Then a transaction that is not valid is rejected without effect.  Missing: the cases of
`C117_overflow_violated` and `C117_maxfee_violated`. -/
theorem C117_invalid_partial (h : TxnOk P w n ps f js ts t b) (hm : t.gasLimit * t.gasPrice b + t.value < 2 ^ 256)
    (hv : ¬ (t.Sound b (w.acct f (P.addrKey t.sender)) ∧ t.gasLimit * t.gasPrice b + t.value ≤ (w.acct f (P.addrKey t.sender)).balance)) :
    Rejects P w n ps f js ts t ret S := by
  have hm' : t.gasLimit * t.gasPrice b < 2 ^ 256 := by omega
  obtain ⟨w', ⟨A, hA, hacc, -⟩ | ⟨A, hA, hacc, -⟩ | ⟨-, s, g, r⟩⟩ := run_process (k := 0) (ret := ret) (S := S) h.code h.state h.txn h.room h.key h.hint h.nonce h.initcode
  · have hf := hacc.funds
    rw [acct_some hA] at hv
    rw [Nat.mod_eq_of_lt hm', Nat.mod_eq_of_lt hm] at hf
    exact absurd ⟨hacc.toSound, hf⟩ hv
  · have hf := hacc.funds
    rw [acct_some hA] at hv
    rw [Nat.mod_eq_of_lt hm', Nat.mod_eq_of_lt hm] at hf
    exact absurd ⟨hacc.toSound, hf⟩ hv
  · exact ⟨w', r, s, g⟩

/-- Without any restriction: whenever the kernel does not reject a transaction or give up, everything but the balance is as it must be. -/
theorem C117_sound_partial (h : TxnOk P w n ps f js ts t b) (hv : ¬ t.Sound b (w.acct f (P.addrKey t.sender))) :
    Rejects P w n ps f js ts t ret S := by
  obtain ⟨w', ⟨A, hA, hacc, -⟩ | ⟨A, hA, hacc, -⟩ | ⟨-, s, g, r⟩⟩ := run_process (k := 0) (ret := ret) (S := S) h.code h.state h.txn h.room h.key h.hint h.nonce h.initcode
  · rw [acct_some hA] at hv; exact absurd hacc.toSound hv
  · rw [acct_some hA] at hv; exact absurd hacc.toSound hv
  · exact ⟨w', r, s, g⟩

/-! ### Examples -/

/-- A kernel that stops after the checks: with 1 if the transaction is to be executed and with 2 if it has been rejected. -/
def txnProg : Prog :=
  tableProg (processTxnCode ++ intrinsicGasCode ++ accountCodeCode ++ transferCode ++ touchedCode ++ stateReadCode ++ stateInsertCode ++ linkedListCode ++ copyCode ++
    [("process_txn@7.after", [PUSH 1, EXIT_KERNEL]), ("txn_loop_after", [PUSH 2, EXIT_KERNEL])]) fun _ => 5

/-- The account with key 5 has the balance `bal` and no code; the transaction is one of its owner with gas limit `g`, fees `prio` and `fee`, value `v` and the data 0, 1; the base fee
is 7, the gas limit of the block 30000000 and the beneficiary the sender. -/
def txnWorld (g prio fee v bal : Nat) : World where
  mem d := if d = 0x900000004 then prio else if d = 0x900000005 then fee else if d = 0x900000006 then g else if d = 0x900000009 then v else
    if d = 0x90000000f then 0x77 else if d = 0x90000000a then 2 else if d = 0xa00000001 then 1 else if d = 0x500000011 then 30000000 else if d = 0x500000013 then 7 else
    if d = 0xc00000000 + 1001 then bal else if d = 0xc00000000 + 1003 then emptyHash else if d = 0x500000002 then 2000 else if d = 0x50000000c then 0x77 else listMem d
  ctx := 0
  inp _ := (accBase + 4) / 4

def exTxn (g prio fee v : Nat) : Tx := ⟨none, 0, prio, fee, g, v, [0, 1], false, 0, 0x77⟩
def exBlk : Blk := ⟨30000000, 0, 7⟩

theorem txnProg_has : txnProg.Has (processTxnCode ++ intrinsicGasCode ++ accountCodeCode ++ transferCode ++ touchedCode ++ stateReadCode ++ stateInsertCode ++ linkedListCode ++ copyCode ++
    [("process_txn@7.after", [PUSH 1, EXIT_KERNEL]), ("txn_loop_after", [PUSH 2, EXIT_KERNEL])]) :=
  tableProg_has _ _ (by decide +kernel) (by decide +kernel) (by decide +kernel)

theorem txnProg_processes : txnProg.Processes where
  pays := ⟨⟨tableProg_copies _ _ (by decide +kernel) (by decide +kernel) (by decide +kernel) (by simp +contextual), txnProg_has.mono (by simp +contextual),
    txnProg_has.mono (by simp +contextual)⟩, txnProg_has.mono (by simp +contextual), txnProg_has.mono (by simp +contextual)⟩
  code := txnProg_has.mono (by simp +contextual)
  intrinsic := txnProg_has.mono (by simp +contextual)
  txn := txnProg_has.mono (by simp +contextual)

section
variable {g prio fee v bal : Nat}

theorem txnWorld_list {d : Nat} (h : ¬ (0x900000000 ≤ d ∧ d < 0x900000010 ∨ d = 0xa00000001 ∨ d = 0x500000011 ∨ d = 0x500000013 ∨ d = 0x500000002 ∨ d = 0x50000000c ∨ 0xc00000000 < d ∧ d < 0xd00000000)) :
    (txnWorld g prio fee v bal).mem d = listMem d := by
  simp only [txnWorld]
  rw [if_neg (by omega), if_neg (by omega), if_neg (by omega), if_neg (by omega), if_neg (by omega), if_neg (by omega), if_neg (by omega), if_neg (by omega),
    if_neg (by omega), if_neg (by omega), if_neg (by omega), if_neg (by omega), if_neg (by omega)]

theorem txnWorld_words (hg : g < 2 ^ 256) (hp : prio < 2 ^ 256) (hf : fee < 2 ^ 256) (hv : v < 2 ^ 256) (hb : bal < 2 ^ 256) : Words (txnWorld g prio fee v bal) := by
  intro d
  show (if _ then _ else _) < _
  exact ite_lt' hp (ite_lt' hf (ite_lt' hg (ite_lt' hv (ite_lt' (by omega) (ite_lt' (by omega) (ite_lt' (by omega) (ite_lt' (by omega) (ite_lt' (by omega) (ite_lt' hb (ite_lt' (by decide) (ite_lt' (by omega) (ite_lt' (by omega) (listWorld_words 0 d)))))))))))))

theorem txnWorld_state (hg : g < 2 ^ 256) (hp : prio < 2 ^ 256) (hf : fee < 2 ^ 256) (hv : v < 2 ^ 256) (hb : bal < 2 ^ 256) :
    StateIs (txnWorld g prio fee v bal) 2 [accBase + 4] exAccounts [] [] where
  words := txnWorld_words hg hp hf hv hb
  accounts := (listWorld_accounts 0).congr (txnWorld_list (by decide)) fun d h1 h2 => txnWorld_list (by simp only [accBase] at *; omega)
  ptr key p h := by simp only [exAccounts] at h; split at h <;> simp_all; omega
  apart k k' p p' h h' hk := by simp only [exAccounts] at h h'; split at h <;> split at h' <;> simp_all
  null := by rw [txnWorld_list (by decide)]; decide
  journal := ⟨by rw [txnWorld_list (by decide)]; decide, by simp, by rw [txnWorld_list (by decide)]; decide, fun i h => by simp at h⟩
  touched := ⟨by rw [txnWorld_list (by decide)]; decide, by simp, fun i h => by simp at h⟩
  size := by
    rw [show (txnWorld g prio fee v bal).mem 0x500000002 = 2000 by simp [txnWorld]]
    refine ⟨by omega, fun key p h => ?_⟩
    simp only [exAccounts] at h; split at h <;> simp_all; omega

theorem txnWorld_accts : (txnWorld g prio fee v bal).accts exAccounts 5 = some ⟨0, bal, emptyHash⟩ := by
  simp [World.accts, exAccounts, World.record, txnWorld, listMem, accNext, slotNext, accBase, slotBase]

theorem txnWorld_ok (hg : g < 2 ^ 256) (hp : prio < 2 ^ 256) (hf : fee < 2 ^ 256) (hv : v < 2 ^ 256) (hb : bal < 2 ^ 256) :
    TxnOk txnProg (txnWorld g prio fee v bal) 2 [accBase + 4] exAccounts [] [] (exTxn g prio fee v) exBlk where
  code := txnProg_processes
  state := txnWorld_state hg hp hf hv hb
  txn := by
    constructor <;> first | rfl | (simp [txnWorld, exTxn, exBlk, listMem, accNext, slotNext, accBase, slotBase]; done) | skip
    exact ⟨by simp [txnWorld, exTxn, listMem, accNext, slotNext, accBase, slotBase], by simp [exTxn], fun i h => by
      have hi : i = 0 ∨ i = 1 := by simp only [exTxn, List.length_cons, List.length_nil] at h; omega
      rcases hi with rfl | rfl <;> simp [txnWorld, exTxn, listMem, accNext, slotNext, accBase, slotBase]⟩
  room := ⟨by rw [txnWorld_list (by decide)]; decide, by decide, by decide⟩
  key := by show 5 < _; decide
  hint j := by
    show 4 * ((accBase + 4) / 4) ∈ _ ∧ _
    refine ⟨by decide, .inr ?_, ?_⟩
    · show (txnWorld g prio fee v bal).mem (4 * ((accBase + 4) / 4)) ≤ 5
      rw [txnWorld_list (by decide)]; decide
    · show 5 < (txnWorld g prio fee v bal).mem ((txnWorld g prio fee v bal).mem (4 * ((accBase + 4) / 4) + 3))
      rw [txnWorld_list (d := 4 * ((accBase + 4) / 4) + 3) (by decide), show listMem (4 * ((accBase + 4) / 4) + 3) = accBase by decide, txnWorld_list (by decide)]; decide
  nonce A h := by
    rw [show txnProg.addrKey _ = 5 from rfl, txnWorld_accts] at h
    cases h; show 0 < _; decide
  initcode := by simp [exTxn]

end

/-- For this transaction the kernel computes 21000 + 4 + 16. -/
example : Reaches txnProg (.goto (txnProg.addr "intrinsic_gas") [17] (txnWorld 30000 2 10 5 300005)) (.goto 17 [21020] (txnWorld 30000 2 10 5 300005)) := by
  rcases C116_intrinsic_gas (ret := 17) (S := []) txnProg_processes.intrinsic (txnWorld_ok (g := 30000) (prio := 2) (fee := 10) (v := 5) (bal := 300005) (by omega)
    (by omega) (by omega) (by omega) (by omega)).txn with ⟨-, h⟩ | ⟨h, -⟩
  · exact h
  · exact absurd h (by simp [exTxn])

/-- Gas limit 30000, greatest fees 2 and 10, value 5 and a balance of 300005: executed, and 30000·9 are taken. -/
example : Executes txnProg (txnWorld 30000 2 10 5 300005) 2 [accBase + 4] exAccounts [] [] (exTxn 30000 2 10 5) exBlk 0 [] ⟨0, 300005, emptyHash⟩ ∧
    (exTxn 30000 2 10 5).charged exBlk ⟨0, 300005, emptyHash⟩ = ⟨1, 30005, emptyHash⟩ := by
  refine ⟨C117_valid (txnWorld_ok (by omega) (by omega) (by omega) (by omega) (by omega)) txnWorld_accts ?_, by decide +kernel⟩
  exact ⟨⟨by decide, by decide, by decide, by decide, rfl, by decide, rfl, by simp [exTxn]⟩, by decide⟩

/-- With a balance of 270004 the same transaction is rejected. -/
example : Rejects txnProg (txnWorld 30000 2 10 5 270004) 2 [accBase + 4] exAccounts [] [] (exTxn 30000 2 10 5) 0 [] := by
  refine C117_invalid_partial (txnWorld_ok (by omega) (by omega) (by omega) (by omega) (by omega)) (by decide) ?_
  rw [show txnProg.addrKey _ = 5 from rfl, acct_some txnWorld_accts]
  exact fun h => absurd h.2 (by decide)

/-- And so it is with a gas limit of 20999. -/
example : Rejects txnProg (txnWorld 20999 2 10 5 300005) 2 [accBase + 4] exAccounts [] [] (exTxn 20999 2 10 5) 0 [] := by
  refine C117_sound_partial (txnWorld_ok (by omega) (by omega) (by omega) (by omega) (by omega)) fun h => ?_
  exact absurd h.gas (by decide)

/-! ### Violations -/

theorem txnProg_not_both {w1 w2 : World} {s1 s2 : List Nat} {o : Out} (h1 : Reaches txnProg o (.goto (txnProg.addr "process_txn@7.after") s1 w1))
    (h2 : Reaches txnProg o (.goto (txnProg.addr "txn_loop_after") s2 w2)) : False := by
  have e1 : Reaches txnProg (.goto (txnProg.addr "process_txn@7.after") s1 w1) (.exit 1 s1 w1) := by
    have hk : txnProg.Has [("process_txn@7.after", [PUSH 1, EXIT_KERNEL])] := txnProg_has.mono (by simp)
    obtain ⟨e, hlt⟩ := hk _ (List.mem_singleton_self _)
    simp only at e hlt
    refine .step (Nat.lt_trans hlt (by decide)) ?_
    rw [e]
    kexec []
    exact .refl _
  have e2 : Reaches txnProg (.goto (txnProg.addr "txn_loop_after") s2 w2) (.exit 2 s2 w2) := by
    have hk : txnProg.Has [("txn_loop_after", [PUSH 2, EXIT_KERNEL])] := txnProg_has.mono (by simp)
    obtain ⟨e, hlt⟩ := hk _ (List.mem_singleton_self _)
    simp only at e hlt
    refine .step (Nat.lt_trans hlt (by decide)) ?_
    rw [e]
    kexec []
    exact .refl _
  have := (h1.trans e1).unique (h2.trans e2) (by simp) (by simp)
  simp at this

/-- The price of the gas and its sum with the value are computed modulo 2^256: a transaction with gas limit 65536 and gas price 2^240 of an account without any
balance is executed, and nothing is taken. -/
theorem C117_overflow_violated :
    ¬ (exTxn 65536 (2 ^ 240 - 7) (2 ^ 240) 0).Valid exBlk ⟨0, 0, emptyHash⟩ ∧
      ∃ w', Reaches txnProg (.goto (txnProg.addr "process_normalized_txn") [0] (txnWorld 65536 (2 ^ 240 - 7) (2 ^ 240) 0 0))
        (.goto (txnProg.addr "process_txn@7.after") [0x77, 0] w') ∧ w'.accts exAccounts 5 = some ⟨1, 0, emptyHash⟩ ∧
        w'.mem 0x900000010 = 2 ^ 240 := by
  refine ⟨fun h => absurd h.funds (by decide +kernel), ?_⟩
  have h := txnWorld_ok (g := 65536) (prio := 2 ^ 240 - 7) (fee := 2 ^ 240) (v := 0) (bal := 0) (by omega) (by omega) (by omega) (by omega) (by omega)
  have hacc : (exTxn 65536 (2 ^ 240 - 7) (2 ^ 240) 0).Accepts exBlk ⟨0, 0, emptyHash⟩ :=
    ⟨⟨by decide +kernel, by decide +kernel, by decide +kernel, by decide +kernel, rfl, by decide, rfl, by simp [exTxn]⟩, by decide +kernel⟩
  obtain ⟨w', ⟨A', hA', -, -, s, e, T, g, -, -, r⟩ | ⟨A', hA', -, hlt, -⟩ | ⟨hno, -⟩⟩ := run_process (k := 0) (ret := 0) (S := []) h.code h.state h.txn h.room h.key h.hint h.nonce h.initcode
  · rw [show txnProg.addrKey _ = 5 from rfl, txnWorld_accts] at hA'; cases hA'
    refine ⟨w', r, ?_, e.price.trans (by decide +kernel)⟩
    rw [g, show txnProg.addrKey _ = 5 from rfl]
    simp only [updAcct, if_true]
    decide +kernel
  · rw [show txnProg.addrKey _ = 5 from rfl, txnWorld_accts] at hA'; cases hA'
    exact absurd hlt (by decide +kernel)
  · exact absurd hacc (hno _ txnWorld_accts)

/-- The balance is compared with the price that is charged, not with the greatest price the transaction allows (EIP-1559): gas limit 30000 and greatest fees 2 and 10 need
300005 with the value 5, but a balance of 270005 is enough for the kernel. -/
theorem C117_maxfee_violated :
    ¬ (exTxn 30000 2 10 5).Valid exBlk ⟨0, 270005, emptyHash⟩ ∧
      ∃ w', Reaches txnProg (.goto (txnProg.addr "process_normalized_txn") [0] (txnWorld 30000 2 10 5 270005))
        (.goto (txnProg.addr "process_txn@7.after") [0x77, 0] w') := by
  refine ⟨fun h => absurd h.funds (by decide), ?_⟩
  have h := txnWorld_ok (g := 30000) (prio := 2) (fee := 10) (v := 5) (bal := 270005) (by omega) (by omega) (by omega) (by omega) (by omega)
  have hacc : (exTxn 30000 2 10 5).Accepts exBlk ⟨0, 270005, emptyHash⟩ :=
    ⟨⟨by decide, by decide, by decide, by decide, rfl, by decide, rfl, by simp [exTxn]⟩, by decide⟩
  obtain ⟨w', ⟨A', hA', -, -, s, e, T, g, -, -, r⟩ | ⟨A', hA', -, hlt, -⟩ | ⟨hno, -⟩⟩ := run_process (k := 0) (ret := 0) (S := []) h.code h.state h.txn h.room h.key h.hint h.nonce h.initcode
  · exact ⟨w', r⟩
  · rw [show txnProg.addrKey _ = 5 from rfl, txnWorld_accts] at hA'; cases hA'
    exact absurd hlt (by decide)
  · exact absurd hacc (hno _ txnWorld_accts)

theorem C117_violated : ¬ C117_statement := by
  intro h
  obtain ⟨h1, w', h2, -⟩ := C117_overflow_violated
  obtain ⟨w'', h3, -⟩ := (h txnProg _ _ _ _ _ _ _ _ 0 [] (txnWorld_ok (g := 65536) (prio := 2 ^ 240 - 7) (fee := 2 ^ 240) (v := 0) (bal := 0) (by omega) (by omega) (by omega)
    (by omega) (by omega))).2 (by
      rw [show txnProg.addrKey _ = 5 from rfl, acct_some txnWorld_accts]
      exact h1)
  exact txnProg_not_both h2 h3

end Verif.Kasm
