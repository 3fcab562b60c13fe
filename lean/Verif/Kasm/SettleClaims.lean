import Verif.Kasm.Settle
import Verif.Kasm.TransferClaims

/-! C119: what the beneficiary gets and the sender gets back when a transaction is over. -/

namespace Verif.Kasm

variable {P : Prog} {S : List Nat} {w : World} {ret n : Nat} {ps ts : List Nat} {f : Nat → Option Nat} {js : List (List Nat)} {a x : Nat}

/-! ### Specification -/

/-- What `x` wei coming to the account `r` does. -/
structure Received (g g' : Nat → Option Acct) (r x : Nat) : Prop where
  balance : balanceOf g' r = balanceOf g r + x
  others : ∀ k, k ≠ r → g' k = g k
  nonce : nonceOf g' r = nonceOf g r
  code : codeOf g' r = codeOf g r
  exist : g' r = none ↔ g r = none ∧ x = 0

/-- What holds when the kernel is to credit an account. -/
structure CreditOk (P : Prog) (w : World) (n : Nat) (ps : List Nat) (f : Nat → Option Nat) (js : List (List Nat)) (ts : List Nat) (k a : Nat) : Prop where
  state : StateIs w n ps f js ts
  room : StateRoom w js ts k
  accounts : AccRoom w n
  key : P.addrKey a < u256Max
  hint : AccHonest w 0 ps (P.addrKey a)
  hint1 : AccHonest w 1 ps (P.addrKey a)

/-- The routines of the settlement. -/
structure Prog.Settles (P : Prog) : Prop where
  pays : P.Pays
  insert : P.Has stateInsertCode
  txn : P.Has processTxnCode

theorem received_of {g : Nat → Option Acct} {r : Nat} (h : balanceOf g r + x < 2 ^ 256) : Received g (credit g r x) r x := by
  by_cases hx : x = 0
  · subst hx
    simp only [credit, if_true]
    exact ⟨rfl, fun _ _ => rfl, rfl, rfl, by simp⟩
  have e : credit g r x r = some ⟨nonceOf g r, balanceOf g r + x, codeOf g r⟩ := by
    simp only [credit, if_neg hx, updAcct, if_true]
    cases hr : g r with
    | none => simp [nonceOf, balanceOf, codeOf, hr]
    | some B =>
      simp only [balanceOf, hr] at h
      simp only [Option.elim_some, nonceOf, balanceOf, codeOf, hr]
      rw [Nat.mod_eq_of_lt h]
  refine ⟨by rw [balanceOf, e], fun k hk => by simp only [credit, if_neg hx, updAcct, if_neg hk], by rw [nonceOf, e], by rw [codeOf, e], by rw [e]; simp [hx]⟩

section
variable {g rc pr pt sd cb left : Nat}

/-- C119.  With the gas limit `g`, `left` gas left over and `rc` in the refund counter, the sender pays for `gasPaid`, that is the gas used less the refund, which is at most a fifth
of it: the beneficiary gets the priority fee for that, and the sender gets back the price of the rest.  This is for sums that fit into a word. -/
theorem C119_settlement (hP : P.Settles) (h : CreditOk P w n ps f js ts 2 cb) (hs : SettleIs w g rc pr pt sd cb) (hl : left ≤ g)
    (hm : balanceOf (w.accts f) (P.addrKey cb) + gasPaid g left rc * pt < 2 ^ 256) :
    ∃ w1 n1 ps1 f1 js1 ts1,
      Reaches P (.goto (P.addr "process_message_txn_after_call_contd") (left :: S) w) (.goto (P.addr "process_txn@65.after") (gasBack g left rc :: S) w1) ∧
      StateIs w1 n1 ps1 f1 (js ++ js1) ts1 ∧ Received (w.accts f) (w1.accts f1) (P.addrKey cb) (gasPaid g left rc * pt) ∧
      (CreditOk P w1 n1 ps1 f1 (js ++ js1) ts1 2 sd → balanceOf (w1.accts f1) (P.addrKey sd) + gasBack g left rc * pr < 2 ^ 256 →
        ∃ w2 n2 ps2 f2 js2 ts2,
          Reaches P (.goto (P.addr "process_message_txn_after_call_contd") (left :: S) w) (.goto (P.addr "process_txn@66.after") (gasBack g left rc :: S) w2) ∧
          StateIs w2 n2 ps2 f2 (js ++ js2) ts2 ∧ Received (w1.accts f1) (w2.accts f2) (P.addrKey sd) (gasBack g left rc * pr)) := by
  have R1 := run_settle_start (S := S) hP.txn h.state.words hs hl
  have hcb : cb < 2 ^ 256 := hs.coinbase ▸ h.state.words _
  have hsd : sd < 2 ^ 256 := hs.sender ▸ h.state.words _
  rw [Nat.mod_eq_of_lt (by omega)] at R1
  obtain ⟨w1, n1, ps1, f1, R2, s1, g1, -, m1, -, -⟩ := run_add_eth (k := 0) (ret := P.addr "process_txn@65.after") (S := gasBack g left rc :: S) hP.pays hP.insert h.state h.room h.accounts
    h.key hcb (x := gasPaid g left rc * pt) (by omega) h.hint h.hint1
  rw [List.append_assoc] at s1
  refine ⟨w1, n1, ps1, f1, _, _, R1.trans R2, s1, by rw [g1]; exact received_of hm, fun c hm' => ?_⟩
  have R3 := run_settle_mid (x := gasBack g left rc) (S := S) hP.txn (hs.pay m1)
  rw [Nat.mod_eq_of_lt (by omega)] at R3
  obtain ⟨w2, n2, ps2, f2, R4, s2, g2, -⟩ := run_add_eth (k := 0) (ret := P.addr "process_txn@66.after") (S := gasBack g left rc :: S) hP.pays hP.insert c.state c.room c.accounts
    c.key hsd (x := gasBack g left rc * pr) (by omega) c.hint c.hint1
  rw [List.append_assoc, List.append_assoc] at s2
  exact ⟨w2, n2, ps2, f2, _, _, ((R1.trans R2).trans R3).trans R4, s2, by rw [g2]; exact received_of hm'⟩

/-- If the beneficiary's account exists already and the prover finds both accounts, nothing more is needed. -/
theorem C119_existing (hP : P.Settles) (h : CreditOk P w n ps f js ts 4 cb) (hsd : P.addrKey sd < u256Max) (hh : ∀ j, AccHonest w j ps (P.addrKey sd))
    (hs : SettleIs w g rc pr pt sd cb) (hl : left ≤ g) (he : w.accts f (P.addrKey cb) ≠ none)
    (hm : balanceOf (w.accts f) (P.addrKey cb) + gasPaid g left rc * pt < 2 ^ 256)
    (hm' : balanceOf (w.accts f) (P.addrKey sd) + gasPaid g left rc * pt + gasBack g left rc * pr < 2 ^ 256) :
    ∃ w2 n2 ps2 f2 js2 ts2 g1,
      Reaches P (.goto (P.addr "process_message_txn_after_call_contd") (left :: S) w) (.goto (P.addr "process_txn@66.after") (gasBack g left rc :: S) w2) ∧
      StateIs w2 n2 ps2 f2 (js ++ js2) ts2 ∧ Received (w.accts f) g1 (P.addrKey cb) (gasPaid g left rc * pt) ∧
      Received g1 (w2.accts f2) (P.addrKey sd) (gasBack g left rc * pr) := by
  have R1 := run_settle_start (S := S) hP.txn h.state.words hs hl
  have hcb : cb < 2 ^ 256 := hs.coinbase ▸ h.state.words _
  have hsd' : sd < 2 ^ 256 := hs.sender ▸ h.state.words _
  rw [Nat.mod_eq_of_lt (by omega)] at R1
  obtain ⟨w1, n1, ps1, f1, R2, s1, g1, -, m1, r1, hsame⟩ := run_add_eth (k := 2) (ret := P.addr "process_txn@65.after") (S := gasBack g left rc :: S) hP.pays hP.insert h.state h.room h.accounts
    h.key hcb (x := gasPaid g left rc * pt) (by omega) h.hint h.hint1
  obtain ⟨rfl, rfl, rfl, m, -, hsh⟩ := hsame (.inr he)
  have hrec := received_of hm
  rw [← g1] at hrec
  have hb1 : balanceOf (w1.accts f1) (P.addrKey sd) ≤ balanceOf (w.accts f1) (P.addrKey sd) + gasPaid g left rc * pt := by
    by_cases e : P.addrKey sd = P.addrKey cb
    · rw [e, hrec.balance]; exact Nat.le_refl _
    · simp only [balanceOf, hrec.others _ e]; omega
  have R3 := run_settle_mid (x := gasBack g left rc) (S := S) hP.txn (hs.pay m1)
  rw [Nat.mod_eq_of_lt (by omega)] at R3
  obtain ⟨w2, n2, ps2, f2, R4, s2, g2, -⟩ := run_add_eth (k := 0) (ret := P.addr "process_txn@66.after") (S := gasBack g left rc :: S) hP.pays hP.insert s1 r1 (h.accounts.shift hsh)
    hsd hsd' (x := gasBack g left rc * pr) (by omega) (hsh.honest h.state.accounts (hh _)) (hsh.honest h.state.accounts (hh _))
  rw [List.append_assoc, List.append_assoc, List.append_assoc] at s2
  exact ⟨w2, n2, ps2, f2, _, _, _, ((R1.trans R2).trans R3).trans R4, s2, hrec, by rw [g2]; exact received_of (by omega)⟩

theorem Received.ether {g g' : Nat → Option Acct} {r : Nat} {ks : List Nat} (h : Received g g' r x) (hn : ks.Nodup) (hr : r ∈ ks) : etherOf g' ks = etherOf g ks + x :=
  etherOf_one hn hr h.balance fun k _ hk => by simp only [balanceOf, h.others k hk]

/-- C119, accounting: if the price of all the gas was taken in advance, execution moved ether only between the accounts `ks`, and the price is the sum of base fee and priority fee,
then after the settlement exactly the base fee for the gas paid for is gone. -/
theorem C119_accounting {g0 gt ge g1 g2 : Nat → Option Acct} {ks : List Nat} {base : Nat} (hn : ks.Nodup) (hc : P.addrKey cb ∈ ks) (hd : P.addrKey sd ∈ ks)
    (htaken : etherOf gt ks + g * pr = etherOf g0 ks) (hexec : etherOf ge ks = etherOf gt ks) (hl : left ≤ g) (hp : pr = base + pt)
    (h1 : Received ge g1 (P.addrKey cb) (gasPaid g left rc * pt)) (h2 : Received g1 g2 (P.addrKey sd) (gasBack g left rc * pr)) :
    etherOf g2 ks + gasPaid g left rc * base = etherOf g0 ks := by
  rw [h2.ether hn hd, h1.ether hn hc, hexec, ← htaken]
  have e := gas_split (counter := rc) hl
  have : g * pr = gasPaid g left rc * pr + gasBack g left rc * pr := by rw [← Nat.add_mul, e]
  rw [this, hp, Nat.mul_add (gasPaid g left rc)]
  omega

end

/-- What the price in advance does to the ether of the accounts (C117). -/
theorem C119_taken {t : Tx} {b : Blk} {g gt : Nat → Option Acct} {A : Acct} {ks : List Nat} {k : Nat} (hn : ks.Nodup) (hk : k ∈ ks) (hA : g k = some A)
    (hf : t.gasLimit * t.gasPrice b ≤ A.balance) (ht : gt k = some (t.charged b A)) (ho : ∀ j, j ≠ k → gt j = g j) :
    etherOf gt ks + t.gasLimit * t.gasPrice b = etherOf g ks := by
  refine (etherOf_one hn hk ?_ fun j _ hj => ?_).symm
  · simp only [balanceOf, hA, ht]; simp only [Tx.charged]; omega
  · simp only [balanceOf, ho j hj]

/-! ### Example -/

theorem txnProg_settles : txnProg.Settles := ⟨txnProg_processes.pays, txnProg_has.mono (by simp +contextual), txnProg_processes.txn⟩

theorem txnWorld_hint {g prio fee v bal j : Nat} : AccHonest (txnWorld g prio fee v bal) j [accBase + 4] 5 := by
  refine ⟨by show 4 * ((accBase + 4) / 4) ∈ _; decide, .inr ?_, ?_⟩
  · show (txnWorld g prio fee v bal).mem (4 * ((accBase + 4) / 4)) ≤ 5
    rw [txnWorld_list (by decide)]; decide
  · show 5 < (txnWorld g prio fee v bal).mem ((txnWorld g prio fee v bal).mem (4 * ((accBase + 4) / 4) + 3))
    rw [txnWorld_list (d := 4 * ((accBase + 4) / 4) + 3) (by decide), show listMem (4 * ((accBase + 4) / 4) + 3) = accBase by decide, txnWorld_list (by decide)]; decide

/-- The transaction of C117 with gas limit 30000 and price 9 of an account that is the beneficiary too, after its price was taken, with 5000 gas left over: 30005 wei become
30005 + 25000·2 + 5000·9. -/
example : ∃ w2 f2, Reaches txnProg (.goto (txnProg.addr "process_message_txn_after_call_contd") [5000] (((txnWorld 30000 2 10 5 30005).set 0x900000010 9).set 0x900000011 2))
      (.goto (txnProg.addr "process_txn@66.after") [5000] w2) ∧ balanceOf (w2.accts f2) 5 = 125005 := by
  have s0 := txnWorld_state (g := 30000) (prio := 2) (fee := 10) (v := 5) (bal := 30005) (by omega) (by omega) (by omega) (by omega) (by omega)
  obtain ⟨s1, e1⟩ := state_set_fee (b := 0x900000010) (v := 9) s0 (by simp [FeeCell]) (by omega)
  obtain ⟨s2, e2⟩ := state_set_fee (b := 0x900000011) (v := 2) s1 (by simp [FeeCell]) (by omega)
  have hw : ∀ d, d ≠ 0x900000010 → d ≠ 0x900000011 → (((txnWorld 30000 2 10 5 30005).set 0x900000010 9).set 0x900000011 2).mem d = (txnWorld 30000 2 10 5 30005).mem d :=
    fun d h1 h2 => by rw [set_ne h2, set_ne h1]
  have hh : ∀ j, AccHonest (((txnWorld 30000 2 10 5 30005).set 0x900000010 9).set 0x900000011 2) j [accBase + 4] 5 := fun j =>
    (txnWorld_hint (j := j)).of_same (fun d h1 h2 => hw d (by simp only [accBase] at h1; omega) (by simp only [accBase] at h1; omega)) rfl s0.accounts
  have ha : (((txnWorld 30000 2 10 5 30005).set 0x900000010 9).set 0x900000011 2).accts exAccounts 5 = some ⟨0, 30005, emptyHash⟩ := by
    rw [e2, e1]; exact txnWorld_accts
  obtain ⟨w2, n2, ps2, f2, js2, ts2, g1, r, -, h1, h2⟩ := C119_existing (left := 5000) (S := []) (g := 30000) (rc := 0) (pr := 9) (pt := 2) (sd := 0x77) (cb := 0x77) txnProg_settles
    ⟨s2, ⟨by rw [hw _ (by decide) (by decide), txnWorld_list (by decide)]; decide, by decide, by decide⟩, ⟨by omega, by rw [hw _ (by decide) (by decide)]; decide⟩, by decide +kernel, hh 0, hh 1⟩
    (by decide +kernel) hh ⟨by rw [hw _ (by decide) (by decide)]; decide, by rw [hw _ (by decide) (by decide)]; decide, by rw [set_ne (by omega), set_same], set_same,
      by rw [hw _ (by decide) (by decide)]; decide, by rw [hw _ (by decide) (by decide)]; decide⟩ (by omega)
    (by rw [show txnProg.addrKey _ = 5 from rfl, ha]; simp) (by rw [show txnProg.addrKey _ = 5 from rfl, balanceOf, ha]; decide)
    (by rw [show txnProg.addrKey _ = 5 from rfl, balanceOf, ha]; decide)
  rw [show txnProg.addrKey _ = 5 from rfl] at h1 h2
  refine ⟨w2, f2, r, ?_⟩
  rw [h2.balance, h1.balance, balanceOf, ha]
  decide

/-! ### Violation -/

/-- C119 in full: executing a transaction creates no ether.  Here it is for one whose code does nothing: what its sender and beneficiary have after the settlement is not more than
what they had before it was accepted. -/
def C119_statement : Prop :=
  ∀ (P : Prog) (w w1 w2 : World) (n n2 : Nat) (ps ps2 : List Nat) (f f2 : Nat → Option Nat) (js js2 : List (List Nat)) (ts ts2 : List Nat) (t : Tx) (b : Blk) (ret left x : Nat)
    (S S' : List Nat) (ks : List Nat),
    TxnOk P w n ps f js ts t b → P.Settles → left ≤ t.gasLimit →
    Reaches P (.goto (P.addr "process_normalized_txn") (ret :: S) w) (.goto (P.addr "process_txn@7.after") (t.sender :: ret :: S) w1) →
    Reaches P (.goto (P.addr "process_message_txn_after_call_contd") (left :: S') w1) (.goto (P.addr "process_txn@66.after") (x :: S') w2) →
    StateIs w2 n2 ps2 f2 js2 ts2 → ks.Nodup → P.addrKey t.sender ∈ ks → P.addrKey (w.mem 0x50000000c) ∈ ks →
    etherOf (w2.accts f2) ks ≤ etherOf (w.accts f) ks

/-- A transaction with gas limit 65536 and gas price 2^240 whose sender (the beneficiary) has nothing at all is accepted, because its price is 0 modulo 2^256; if 44516 gas are left over,
its sender has 2^256 - 147140 wei after it. -/
theorem C119_minted_violated :
    ∃ w1 w2 f2 n2 ps2 js2 ts2, Reaches txnProg (.goto (txnProg.addr "process_normalized_txn") [0] (txnWorld 65536 (2 ^ 240 - 7) (2 ^ 240) 0 0))
        (.goto (txnProg.addr "process_txn@7.after") [0x77, 0] w1) ∧
      Reaches txnProg (.goto (txnProg.addr "process_message_txn_after_call_contd") [44516] w1) (.goto (txnProg.addr "process_txn@66.after") [44516] w2) ∧
      StateIs w2 n2 ps2 f2 js2 ts2 ∧
      balanceOf ((txnWorld 65536 (2 ^ 240 - 7) (2 ^ 240) 0 0).accts exAccounts) 5 = 0 ∧ balanceOf (w2.accts f2) 5 = 2 ^ 256 - 147140 := by
  have h := txnWorld_ok (g := 65536) (prio := 2 ^ 240 - 7) (fee := 2 ^ 240) (v := 0) (bal := 0) (by omega) (by omega) (by omega) (by omega) (by omega)
  have hacc : (exTxn 65536 (2 ^ 240 - 7) (2 ^ 240) 0).Accepts exBlk ⟨0, 0, emptyHash⟩ :=
    ⟨⟨by decide +kernel, by decide +kernel, by decide +kernel, by decide +kernel, rfl, by decide, rfl, by simp [exTxn]⟩, by decide +kernel⟩
  have hroom : StateRoom (txnWorld 65536 (2 ^ 240 - 7) (2 ^ 240) 0 0) [] [] 6 := ⟨by rw [txnWorld_list (by decide)]; decide, by decide, by decide⟩
  obtain ⟨w1, ⟨A', hA', -, -, s, e, T, g, room, ⟨m, hsh⟩, r⟩ | ⟨A', hA', -, hlt, -⟩ | ⟨hno, -⟩⟩ := run_process (k := 4) (ret := 0) (S := []) h.code h.state h.txn hroom h.key h.hint h.nonce h.initcode
  · rw [show txnProg.addrKey _ = 5 from rfl, txnWorld_accts] at hA'; cases hA'
    have hcell : ∀ d, d = 0x50000001b ∨ d = 0x50000000c ∨ d = 0x500000002 ∨ (accBase ≤ d ∧ d < accBase + 2 ^ 32) → ¬ (BalCell d ∨ FeeCell d) := fun d hd => by
      simp only [BalCell, FeeCell, JourArea, TouchArea, touchLen, touchBase, jourLen, jdatLen, jourBase, jdatBase, accBase] at *; omega
    have hh : ∀ j, AccHonest w1 j [accBase + 4] 5 := fun j =>
      (txnWorld_hint (j := j + m)).of_same (fun d h1 h2 => hsh.2.2 d (hcell d (.inr (.inr (.inr ⟨h1, h2⟩))))) (hsh.2.1 j) h.state.accounts
    have ha : w1.accts exAccounts 5 = some ⟨1, 0, emptyHash⟩ := by
      rw [g, show txnProg.addrKey _ = 5 from rfl]
      simp only [updAcct, if_true]
      decide +kernel
    have hset : SettleIs w1 65536 0 (2 ^ 240) (2 ^ 240 - 7) 0x77 0x77 :=
      ⟨T.gasLimit, by rw [hsh.2.2 _ (hcell _ (.inl rfl)), txnWorld_list (by decide)]; decide, e.price.trans (by decide +kernel), e.priority.trans (by decide +kernel), T.sender,
        by rw [hsh.2.2 _ (hcell _ (.inr (.inl rfl)))]; simp [txnWorld]⟩
    obtain ⟨w2, n2, ps2, f2, js2, ts2, g1, r2, s2, h1, h2⟩ := C119_existing (left := 44516) (S := []) txnProg_settles
      ⟨s, room, ⟨by omega, by rw [hsh.2.2 _ (hcell _ (.inr (.inr (.inl rfl))))]; simp [txnWorld]⟩, by decide +kernel, hh 0, hh 1⟩
      (by decide +kernel) hh hset (by omega) (by rw [show txnProg.addrKey _ = 5 from rfl, ha]; simp)
      (by rw [show txnProg.addrKey _ = 5 from rfl, balanceOf, ha]; decide +kernel) (by rw [show txnProg.addrKey _ = 5 from rfl, balanceOf, ha]; decide +kernel)
    rw [show txnProg.addrKey _ = 5 from rfl] at h1 h2
    refine ⟨w1, w2, f2, n2, ps2, _, ts2, r, r2, s2, by rw [balanceOf, txnWorld_accts], ?_⟩
    rw [h2.balance, h1.balance, balanceOf, ha]
    decide +kernel
  · rw [show txnProg.addrKey _ = 5 from rfl, txnWorld_accts] at hA'; cases hA'
    exact absurd hlt (by decide +kernel)
  · exact absurd hacc (hno _ txnWorld_accts)

theorem C119_violated : ¬ C119_statement := by
  intro h
  obtain ⟨w1, w2, f2, n2, ps2, js2, ts2, r1, r2, s2, e1, e2⟩ := C119_minted_violated
  have := h txnProg _ w1 w2 _ n2 _ ps2 _ f2 _ js2 _ ts2 _ _ 0 44516 44516 [] [] [5]
    (txnWorld_ok (g := 65536) (prio := 2 ^ 240 - 7) (fee := 2 ^ 240) (v := 0) (bal := 0) (by omega) (by omega) (by omega) (by omega) (by omega))
    txnProg_settles (by decide) r1 r2 s2 (by simp) (List.mem_singleton_self _) (List.mem_singleton_self _)
  simp only [etherOf, List.map_cons, List.map_nil, List.sum_cons, List.sum_nil, e1, e2] at this
  omega

end Verif.Kasm
