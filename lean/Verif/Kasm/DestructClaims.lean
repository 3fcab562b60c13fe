import Verif.Kasm.Delete
import Verif.Kasm.CallGas
import Verif.Kasm.TransferClaims

/-! C120, C121: SELFDESTRUCT deletes only contracts that were created in the same transaction, and at the end of a transaction nothing else is deleted but those
and empty accounts that were touched. -/

namespace Verif.Kasm

variable {P : Prog} {S : List Nat} {w w' : World} {ret n m K r : Nat} {ps qs ts cs ds : List Nat} {f : Nat → Option Nat}
  {g : Nat → Nat → Option Nat} {js : List (List Nat)} {a : Nat} {A : Acct}

/-- The kernel has the code for creating and destroying contracts. -/
structure Prog.Contracts (P : Prog) : Prop where
  pays : P.Pays
  insert : P.Has stateInsertCode
  construct : P.Has runConstructorCode
  terminate : P.Has terminateCode

/-- A state in memory with the created contracts `cs` and the accounts to delete `ds`, and room for what one operation adds. -/
structure LifeOk (P : Prog) (w : World) (n : Nat) (ps : List Nat) (f : Nat → Option Nat) (js : List (List Nat)) (ts cs ds : List Nat) : Prop where
  code : P.Contracts
  state : StateIs w n ps f js ts
  room : StateRoom w js ts 3
  accounts : AccRoom w n
  created : CreatedAre w cs
  dead : DeadAre w ds
  len : cs.length < 2 ^ 32
  len' : ds.length < 2 ^ 32

/-- The hash of the address is not one of the two extreme ones, and the prover finds the account (twice) as it should. -/
structure FindOk (P : Prog) (w : World) (ps : List Nat) (a : Nat) : Prop where
  small : a < 2 ^ 256
  key : P.addrKey a < u256Max
  hint : AccHonest w 0 ps (P.addrKey a)
  hint' : AccHonest w 1 ps (P.addrKey a)

/-- An account with a nonce or with code: no contract can be created there (EIP-684). -/
def Acct.taken (A : Acct) : Prop := A.nonce ≠ 0 ∨ A.codeHash ≠ emptyHash

/-- Creating a contract where nothing is, or an account without nonce and code: its account gets the nonce 1, keeps the balance and has no code, no other
account changes, and it counts as created in this transaction.  The journal says what is to be undone. -/
theorem C120_created (h : LifeOk P w n ps f js ts cs ds) (ha : FindOk P w ps a) (hfree : ∀ A, w.accts f (P.addrKey a) = some A → ¬ A.taken) :
    ∃ w' n' ps' f', Reaches P (.goto (P.addr "create@16.after") (a :: S) w) (.goto (P.addr "create@15.end") (0 :: S) w') ∧
      StateIs w' n' ps' f' (js ++ (if w.accts f (P.addrKey a) = none then [[9, 1, a]] else []) ++ [[4, a, 0]]) ts ∧
      w'.accts f' (P.addrKey a) = some ⟨1, (w.acct f (P.addrKey a)).balance, emptyHash⟩ ∧
      (∀ k, k ≠ P.addrKey a → w'.accts f' k = w.accts f k) ∧ CreatedAre w' (cs ++ [a]) ∧ DeadAre w' ds := by
  obtain ⟨w', n', ps', f', R, s, e, c, -, hm, -⟩ := run_create_fresh (S := S) (k := 1) h.code.pays.reads h.code.insert h.code.construct h.state h.room h.accounts h.created h.len
    ha.small ha.key ha.hint ha.hint' fun A hA => by
      have := hfree A hA
      simp only [Acct.taken, not_or, ne_eq, Decidable.not_not] at this
      exact this
  refine ⟨w', n', ps', f', R, s, by rw [e]; simp [updAcct], fun k hk => by rw [e]; simp [updAcct, hk], c, DeadAre.of_same h.dead fun b hb => hm b (stateCell_dead hb).2.1 (stateCell_dead hb).2.2⟩

/-- Creating a contract where there is one: it fails, no account and no entry of the journal changes, but the address counts as created in this transaction. -/
theorem C120_collision (h : LifeOk P w n ps f js ts cs ds) (ha : FindOk P w ps a) (hA : w.accts f (P.addrKey a) = some A) (hc : A.taken) :
    ∃ w', Reaches P (.goto (P.addr "create@16.after") (a :: S) w) (.goto (P.addr "create_collision") S w') ∧
      StateIs w' n ps f js ts ∧ w'.accts f = w.accts f ∧ CreatedAre w' (cs ++ [a]) ∧ DeadAre w' ds := by
  obtain ⟨w', R, s, e, c, hs⟩ := run_create_collision (S := S) h.code.pays.reads h.code.construct h.state h.created h.len ha.small ha.key ha.hint hA hc
  exact ⟨w', R, s, e, c, DeadAre.of_same h.dead fun b hb => hs.2.2 b fun e => e.elim (fun e => (stateCell_dead hb).2.1 (.inl e)) (stateCell_dead hb).2.2⟩

/-- What SELFDESTRUCT of `a` in favour of `r` does to the accounts `h`. -/
structure Destructs (P : Prog) (h h' : Nat → Option Acct) (a r : Nat) (A : Acct) (burn : Prop) [Decidable burn] : Prop where
  /-- nothing is left to the contract, unless it is its own recipient and stays -/
  contract : P.addrKey a ≠ P.addrKey r → h' (P.addrKey a) = some { A with balance := 0 }
  self : a = r → h' (P.addrKey a) = some { A with balance := if burn then 0 else A.balance }
  /-- the recipient gets the balance -/
  recipient : P.addrKey a ≠ P.addrKey r → A.balance ≠ 0 →
    h' (P.addrKey r) = some ((h (P.addrKey r)).elim ⟨0, A.balance, emptyHash⟩ fun B => { B with balance := (B.balance + A.balance) % 2 ^ 256 })
  /-- an account that is not there is not created for nothing -/
  zero : P.addrKey a ≠ P.addrKey r → A.balance = 0 → h' (P.addrKey r) = h (P.addrKey r)
  others : ∀ k, k ≠ P.addrKey a → k ≠ P.addrKey r → h' k = h k

/-- SELFDESTRUCT (after gas has been charged and the record `p` of the contract's account has been found): the balance goes to the recipient, and the contract
is among the accounts to delete afterwards if, and only if, it counts as created in this transaction. -/
theorem C120_selfdestruct (h : LifeOk P w n ps f js ts cs ds) (hr : FindOk P w ps r) {p : Nat} (ha' : a < 2 ^ 256) (hf : f (P.addrKey a) = some p)
    (hA : w.accts f (P.addrKey a) = some A) (hS : Serving w K) :
    ∃ w' n' ps' f', Reaches P (.goto (P.addr "terminate@10.after") (p :: 0 :: A.balance :: a :: r :: K :: S) w)
        (.goto (P.addr "terminate_common") (1 :: (w.gasLimit - K / 2 ^ 192) :: S) w') ∧
      StateIs w' n' ps' f' (js ++ (if r ∈ ts then [] else [[2, r]]) ++ (if (A.balance ≠ 0 ∧ ¬ (a ∈ cs ∧ a = r)) ∧ P.addrKey a ≠ P.addrKey r ∧ w.accts f (P.addrKey r) = none then [[9, 0, r]] else []) ++
        (if A.balance = 0 ∧ P.addrKey a ≠ P.addrKey r ∧ w.accts f (P.addrKey r) = none then [] else [[1, a, r, A.balance]])) (touchList ts r) ∧
      Destructs P (w.accts f) (w'.accts f') a r A (a ∈ cs) ∧
      CreatedAre w' cs ∧ DeadAre w' (if a ∈ cs then ds ++ [a] else ds) := by
  obtain ⟨w', n', ps', f', R, s, e, c, d, hctx, hm⟩ := run_selfdestruct (S := S) (K := K) (k := 0) h.code.pays h.code.insert h.code.terminate h.state h.room h.accounts h.created h.dead h.len'
    ha' hr.small hr.key hf hA hr.hint hr.hint'
  have hAp : A = w.record p := by simp only [World.accts, hf, Option.map_some, Option.some.injEq] at hA; exact hA.symm
  have hb : A.balance < 2 ^ 256 := by rw [hAp]; exact h.state.words _
  have hlim : w'.gasLimit = w.gasLimit := by
    simp only [World.gasLimit, hctx]
    have := hS.ctx
    refine hm _ ?_ ?_
    · simp only [PayCell, BalCell, AccCell, TrieCell, JourArea, TouchArea, touchLen, touchBase, jourLen, jdatLen, jourBase, jdatBase, accBase, accNext]; omega
    · simp only [DeadArea]; omega
  have hS' : Serving w' K := ⟨by rw [hctx]; exact hS.ctx, by rw [hlim]; exact hS.gas, by rw [hlim]; exact hS.limit⟩
  have key : ∀ {q : Nat}, (updAcct (w.accts f) (P.addrKey a) { A with balance := 0 }) q = none ↔ P.addrKey a ≠ q ∧ w.accts f q = none := fun {q} => by
    simp only [updAcct]
    by_cases e : q = P.addrKey a
    · simp [e]
    · simp only [if_neg e]; exact ⟨fun h => ⟨fun e' => e e'.symm, h⟩, fun h => h.2⟩
  refine ⟨w', n', ps', f', R.trans ?_, ?_, ?_, c, d⟩
  · rw [b_sys_selfdestruct_exit, exec_leftover hS']
    kexec []
    rw [hlim]
    exact .refl _
  · rw [show js ++ (if r ∈ ts then [] else [[2, r]]) ++ (if (A.balance ≠ 0 ∧ ¬ (a ∈ cs ∧ a = r)) ∧ P.addrKey a ≠ P.addrKey r ∧ w.accts f (P.addrKey r) = none then [[9, 0, r]] else []) ++
        (if A.balance = 0 ∧ P.addrKey a ≠ P.addrKey r ∧ w.accts f (P.addrKey r) = none then [] else [[1, a, r, A.balance]]) =
        js ++ destructLog (updAcct (w.accts f) (P.addrKey a) { A with balance := 0 }) ts cs (P.addrKey r) a r A.balance by
      simp only [destructLog, touchLog, createLog, destroyLog, payout, key, List.append_assoc]
      congr 3
      by_cases e : a ∈ cs ∧ a = r
      · simp [e]
      · simp only [if_neg e]; simp [e]]
    exact s
  · rw [e]
    refine ⟨fun hk => ?_, fun hk => ?_, fun hk hz => ?_, fun hk hz => ?_, fun k h1 h2 => ?_⟩
    · simp only [credit]; split
      · simp [updAcct]
      · simp [updAcct, hk]
    · subst hk
      by_cases e : a ∈ cs
      · simp [payout, e, credit, updAcct]
      · simp only [payout, e, false_and, if_false, credit]
        split
        · rename_i e'; simp [updAcct, e']
        · simp only [updAcct, if_true, Option.elim_some, Nat.zero_add, Nat.mod_eq_of_lt hb]
    · have : payout cs a r A.balance = A.balance := by simp only [payout]; rw [if_neg]; rintro ⟨-, rfl⟩; exact hk rfl
      rw [this]
      simp only [credit, if_neg hz, updAcct, if_true]
      rw [if_neg fun e => hk e.symm]
    · have : payout cs a r A.balance = 0 := by simp [payout, hz]
      rw [this]
      simp only [credit, if_true, updAcct]
      rw [if_neg fun e => hk e.symm]
    · simp only [credit]; split
      · simp [updAcct, h1]
      · simp [updAcct, h1, h2]

/-- Not every change of the accounts to delete is in the journal: a contract that counts as created, has no balance and destroys itself in favour of an account
that is not there and has been touched is to be deleted afterwards, and there is no entry from which a revert of the call could take this back. -/
theorem C120_unlogged (h : LifeOk P w n ps f js ts cs ds) (hr : FindOk P w ps r) {p : Nat} (ha' : a < 2 ^ 256) (hf : f (P.addrKey a) = some p)
    (hA : w.accts f (P.addrKey a) = some A) (hS : Serving w K) (hz : A.balance = 0) (hn : w.accts f (P.addrKey r) = none) (hc : a ∈ cs) (ht : r ∈ ts) :
    ∃ w' n' ps' f', Reaches P (.goto (P.addr "terminate@10.after") (p :: 0 :: A.balance :: a :: r :: K :: S) w)
        (.goto (P.addr "terminate_common") (1 :: (w.gasLimit - K / 2 ^ 192) :: S) w') ∧ StateIs w' n' ps' f' js ts ∧ DeadAre w' (ds ++ [a]) := by
  obtain ⟨w', n', ps', f', R, s, -, -, d⟩ := C120_selfdestruct (S := S) h hr ha' hf hA hS
  have hk : P.addrKey a ≠ P.addrKey r := fun e => by rw [e, hn] at hA; cases hA
  refine ⟨w', n', ps', f', R, ?_, by rw [if_pos hc] at d; exact d⟩
  simpa [ht, hz, hn, hk, touchList] using s

/-- C120: a creation that fails does not make the contract count as created in this transaction. -/
def C120_statement : Prop := ∀ (P : Prog) (S : List Nat) (w w' : World) (n : Nat) (ps : List Nat) (f : Nat → Option Nat) (js : List (List Nat)) (ts cs ds : List Nat) (a : Nat) (A : Acct),
  LifeOk P w n ps f js ts cs ds → FindOk P w ps a → w.accts f (P.addrKey a) = some A → A.taken →
  Reaches P (.goto (P.addr "create@16.after") (a :: S) w) (.goto (P.addr "create_collision") S w') → CreatedAre w' cs

/-- It never holds: a contract that was there before, with nonce and code, counts as created after an attempt to create it again, so that a SELFDESTRUCT of it in
any later state of the transaction puts it among the accounts to delete. -/
theorem C120_old_contract_destroyed (h : LifeOk P w n ps f js ts cs ds) (ha : FindOk P w ps a) (hA : w.accts f (P.addrKey a) = some A) (hc : A.taken) :
    ∃ w', Reaches P (.goto (P.addr "create@16.after") (a :: S) w) (.goto (P.addr "create_collision") S w') ∧ CreatedAre w' (cs ++ [a]) ∧
      ∀ (v : World) n1 ps1 f1 js1 ts1 ds1 p r K S1 B, LifeOk P v n1 ps1 f1 js1 ts1 (cs ++ [a]) ds1 → FindOk P v ps1 r → f1 (P.addrKey a) = some p →
        v.accts f1 (P.addrKey a) = some B → Serving v K →
        ∃ v', Reaches P (.goto (P.addr "terminate@10.after") (p :: 0 :: B.balance :: a :: r :: K :: S1) v)
          (.goto (P.addr "terminate_common") (1 :: (v.gasLimit - K / 2 ^ 192) :: S1) v') ∧ DeadAre v' (ds1 ++ [a]) := by
  obtain ⟨w', R, -, -, c, -⟩ := C120_collision (S := S) h ha hA hc
  refine ⟨w', R, c, fun v n1 ps1 f1 js1 ts1 ds1 p r K S1 B h1 h2 h3 h4 h5 => ?_⟩
  obtain ⟨v', n', ps', f', R', -, -, -, d⟩ := C120_selfdestruct (S := S1) h1 h2 ha.small h3 h4 h5
  rw [if_pos (by simp)] at d
  exact ⟨v', R', d⟩

/-- C121: what the end of a transaction deletes.  For every hint of the prover, only accounts among those to delete vanish, or lose slots; no other account,
no slot of another account and nothing else in memory changes. -/
theorem C121_selfdestructed (hD : P.Deletes) (hL : P.Has selfdestructListCode) (h : StateIs w n ps f js ts) (hK : SlotsAre w m qs g) (hd : DeadAre w ds)
    (hk : ∀ a ∈ ds, P.addrKey a < u256Max) :
    Returns P False (.goto (P.addr "delete_all_selfdestructed_addresses") (ret :: S) w) ret fun s w' => s = S ∧
      ∃ ps' qs' f' g', StateIs w' n ps' f' js ts ∧ SlotsAre w' m qs' g' ∧
        (∀ k, w'.accts f' k = w.accts f k ∨ (w'.accts f' k = none ∧ ∃ a ∈ ds, k = P.addrKey a)) ∧
        (∀ b j, g' b j = g b j ∨ (g' b j = none ∧ w'.accts f' b = none ∧ ∃ a ∈ ds, b = P.addrKey a)) ∧
        ∀ b, ¬ DelCell b → w'.mem b = w.mem b :=
  (run_delete_dead hD hL h hK hd hk).mono id (by
    rintro _ _ ⟨e, -, hm, ps', qs', f', g', s, k, p⟩
    exact ⟨e, ps', qs', f', g', s, k, fun k => (p.accts k).imp_right fun ⟨e, a, h1, h2, _⟩ => ⟨e, a, h1, h2⟩,
      fun b j => (p.slots b j).imp_right fun ⟨e, e', _, h1⟩ => ⟨e, e', h1⟩, hm⟩)

/-- And of the touched accounts only those vanish that are empty: no nonce, no balance, no code (EIP-161). -/
theorem C121_touched (hD : P.Deletes) (hL : P.Has touchedCode) (h : StateIs w n ps f js ts) (hK : SlotsAre w m qs g)
    (hk : ∀ a ∈ ts, P.addrKey a < u256Max) :
    Returns P False (.goto (P.addr "delete_all_touched_addresses") (ret :: S) w) ret fun s w' => s = S ∧
      ∃ ps' qs' f' g', StateIs w' n ps' f' js ts ∧ SlotsAre w' m qs' g' ∧
        (∀ k, w'.accts f' k = w.accts f k ∨ (w'.accts f' k = none ∧ w.accts f k = some ⟨0, 0, emptyHash⟩ ∧ ∃ a ∈ ts, k = P.addrKey a)) ∧
        (∀ b j, g' b j = g b j ∨ (g' b j = none ∧ w'.accts f' b = none ∧ w.accts f b = some ⟨0, 0, emptyHash⟩)) ∧
        ∀ b, ¬ DelCell b → w'.mem b = w.mem b := by
  refine (run_delete_touched hD hL h hK hk).mono id ?_
  rintro _ _ ⟨e, -, hm, ps', qs', f', g', s, k, p⟩
  refine ⟨e, ps', qs', f', g', s, k, fun k => (p.accts k).imp_right ?_, fun b j => (p.slots b j).imp_right ?_, hm⟩
  · rintro ⟨e, a, h1, h2, A, h3, rfl⟩
    exact ⟨e, h3, a, h1, h2⟩
  · rintro ⟨e, e', hne, -⟩
    refine ⟨e, e', ?_⟩
    rcases p.accts b with h' | ⟨-, -, -, -, A, h3, rfl⟩
    · exact absurd (h'.symm.trans e') hne
    · exact h3

/-- C121 in full: after the end of a transaction no account that is to be deleted is left. -/
def C121_statement : Prop := ∀ (P : Prog) (S : List Nat) (w w' : World) (n m ret : Nat) (ps qs ts ds : List Nat) (f : Nat → Option Nat) (g : Nat → Nat → Option Nat) (js : List (List Nat)),
  P.Deletes → P.Has selfdestructListCode → StateIs w n ps f js ts → SlotsAre w m qs g → DeadAre w ds → (∀ a ∈ ds, P.addrKey a < u256Max) →
  Reaches P (.goto (P.addr "delete_all_selfdestructed_addresses") (ret :: S) w) (.goto ret S w') →
  ∀ ps' f', StateIs w' n ps' f' js ts → ∀ a ∈ ds, w'.accts f' (P.addrKey a) = none

/-- A prover that answers every question for an account with the start of the list. -/
def Denies (w : World) : Prop := ∀ i, 4 * w.inp i = accBase

theorem run_delete_denied_loop (hD : P.Deletes) (hL : P.Has selfdestructListCode) :
    ∀ d i, i + d = ds.length → ∀ (w : World), StateIs w n ps f js ts → DeadAre w ds → Denies w →
    ∃ w', Reaches P (exec P b_delete_all_selfdestructed_addresses_loop ((0x1600000000 + i) :: (0x1600000000 + ds.length) :: ret :: S) w) (.goto ret S w') ∧
      StateIs w' n ps f js ts ∧ w'.accts f = w.accts f := by
  intro d
  induction d with
  | zero =>
    intro i hi w h hd hw
    have hi : i = ds.length := by omega
    subst hi
    rw [b_delete_all_selfdestructed_addresses_loop]
    kexec []
    rw [if_neg (by simp)]
    refine ⟨w, ?_, h, rfl⟩
    enter hL in selfdestructListCode
    rw [b_delete_all_selfdestructed_addresses_done]
    kexec [m_pop2, rep]
    exact .refl _
  | succ d ih =>
    intro i hi w h hd hw
    have hi' : i < ds.length := by omega
    have hfit := hd.fits
    rw [b_delete_all_selfdestructed_addresses_loop]
    kexec []
    rw [if_pos (by omega), exec_mload_at (by omega), hd.at_ i hi']
    kexec []
    have r := run_read_state_start (a := ds[i]) (ret := P.addr "selfdestruct_list@2.after") (S := ds[i] :: (0x1600000000 + i) :: (0x1600000000 + ds.length) :: ret :: S) hD.reads h.accounts (hw 0)
    have t1 := looked_state (a := ds[i]) h
    have t3 : (w.looked ds[i]).accts f = w.accts f := looked_accts
    have t5 : ∀ b, ¬ DelCell b → (w.looked ds[i]).mem b = w.mem b := fun b hb => looked_del hb
    have t6 : Denies (w.looked ds[i]) := fun j => by rw [looked_inp]; exact hw (j + 1)
    generalize w.looked ds[i] = w1 at *
    obtain ⟨w', R, s, e⟩ := ih (i + 1) (by omega) w1 t1 (DeadAre.of_same hd fun b hb => t5 b (delCell_dead hb)) t6
    refine ⟨w', r.trans ?_, s, e.trans t3⟩
    enter hL in selfdestructListCode
    rw [b_selfdestruct_list_2_after]
    kexec [m_increment, m_add_const]
    rw [wadd_small (by omega), show 1 + (0x1600000000 + i) = 0x1600000000 + (i + 1) by omega]
    enter hL in selfdestructListCode
    exact R

/-- With such a prover the end of a transaction deletes nothing at all. -/
theorem C121_denied (hD : P.Deletes) (hL : P.Has selfdestructListCode) (h : StateIs w n ps f js ts) (hd : DeadAre w ds) (hw : Denies w) :
    ∃ w', Reaches P (.goto (P.addr "delete_all_selfdestructed_addresses") (ret :: S) w) (.goto ret S w') ∧
      StateIs w' n ps f js ts ∧ w'.accts f = w.accts f := by
  obtain ⟨w', R, s, e⟩ := run_delete_denied_loop (ret := ret) (S := S) hD hL ds.length 0 (by omega) w h hd hw
  have hfit := hd.fits
  refine ⟨w', ?_, s, e⟩
  enter hL in selfdestructListCode
  rw [b_delete_all_selfdestructed_addresses, exec_load_global (by omega), hd.len]
  generalize b_delete_all_selfdestructed_addresses_loop = t at *
  kexec []
  rw [wadd_small (by omega)]
  exact R

/-! ### Examples -/

def lifeCode : List (String × List I) := runConstructorCode ++ terminateCode ++ selfdestructListCode ++ deleteAccountCode ++ transferCode ++ touchedCode ++ stateReadCode ++ stateInsertCode ++
  linkedListCode ++ copyCode ++ [("create_collision", [PUSH 1, EXIT_KERNEL])]

/-- A kernel whose hash of an address is the sum of its bytes. -/
def lifeProg : Prog := tableProg lifeCode List.sum

theorem lifeProg_has : lifeProg.Has lifeCode := tableProg_has _ _ (by decide +kernel) (by decide +kernel) (by decide +kernel)

theorem lifeProg_reads : lifeProg.ReadsState :=
  ⟨tableProg_copies _ _ (by decide +kernel) (by decide +kernel) (by decide +kernel) (by simp +contextual [lifeCode]), lifeProg_has.mono (by simp +contextual [lifeCode]),
    lifeProg_has.mono (by simp +contextual [lifeCode])⟩

theorem lifeProg_contracts : lifeProg.Contracts where
  pays := ⟨lifeProg_reads, lifeProg_has.mono (by simp +contextual [lifeCode]), lifeProg_has.mono (by simp +contextual [lifeCode])⟩
  insert := lifeProg_has.mono (by simp +contextual [lifeCode])
  construct := lifeProg_has.mono (by simp +contextual [lifeCode])
  terminate := lifeProg_has.mono (by simp +contextual [lifeCode])

theorem lifeProg_deletes : lifeProg.Deletes := ⟨lifeProg_reads, lifeProg_has.mono (by simp +contextual [lifeCode])⟩

theorem lifeProg_key (a : Nat) (h : a = 5 ∨ a = 9) : lifeProg.addrKey a = a := by rcases h with rfl | rfl <;> decide +kernel

/-- The account 5 has 300 wei and the nonce 1, as a contract has. -/
def lifeWorld : World := (txnWorld 0 0 0 0 300).set (0xc00000000 + 1000 + 0) 1

theorem lifeWorld_state : StateIs lifeWorld 2 [accBase + 4] exAccounts [] [] :=
  (record_set (key := 5) (txnWorld_state (by omega) (by omega) (by omega) (by omega) (by omega)) (by decide) (by omega) (by omega)).1

theorem lifeWorld_accts : lifeWorld.accts exAccounts 5 = some ⟨1, 300, emptyHash⟩ ∧ lifeWorld.accts exAccounts 9 = none := by decide +kernel

theorem lifeWorld_ok : LifeOk lifeProg lifeWorld 2 [accBase + 4] exAccounts [] [] [] [] where
  code := lifeProg_contracts
  state := lifeWorld_state
  room := ⟨by decide +kernel, by decide, by decide⟩
  accounts := ⟨by omega, by decide +kernel⟩
  created := ⟨by decide +kernel, by decide, fun i h => by simp at h⟩
  dead := ⟨by decide +kernel, by decide, fun i h => by simp at h⟩
  len := by decide
  len' := by decide

theorem lifeWorld_find (a : Nat) (h : a = 5 ∨ a = 9) : FindOk lifeProg lifeWorld [accBase + 4] a := by
  have e := lifeProg_key a h
  refine ⟨by omega, by rw [e]; simp only [u256Max]; omega, ?_, ?_⟩ <;> rw [e] <;> rcases h with rfl | rfl <;> exact ⟨by decide +kernel, .inr (by decide +kernel), by decide +kernel⟩

/-- A new contract 9. -/
example : ∃ w' n' ps' f', Reaches lifeProg (.goto (lifeProg.addr "create@16.after") [9] lifeWorld) (.goto (lifeProg.addr "create@15.end") [0] w') ∧
    StateIs w' n' ps' f' [[9, 1, 9], [4, 9, 0]] [] ∧ w'.accts f' 9 = some ⟨1, 0, emptyHash⟩ ∧ CreatedAre w' [9] := by
  have e := lifeProg_key 9 (.inr rfl)
  obtain ⟨w', n', ps', f', R, s, e1, -, c, -⟩ := C120_created (S := []) lifeWorld_ok (lifeWorld_find 9 (.inr rfl)) (by rw [e, lifeWorld_accts.2]; intro A h; cases h)
  rw [e] at e1 s
  rw [lifeWorld_accts.2] at s
  exact ⟨w', n', ps', f', R, s, by rw [e1]; simp [World.acct, lifeWorld_accts.2], c⟩

theorem C120_violated : ¬ C120_statement := fun h => by
  have e := lifeProg_key 5 (.inl rfl)
  obtain ⟨w', R, -, -, c, -⟩ := C120_collision (S := []) (A := ⟨1, 300, emptyHash⟩) lifeWorld_ok (lifeWorld_find 5 (.inl rfl)) (by rw [e]; exact lifeWorld_accts.1) (.inl (by decide))
  have := h _ _ _ _ _ _ _ _ _ _ _ _ _ lifeWorld_ok (lifeWorld_find 5 (.inl rfl)) (by rw [e]; exact lifeWorld_accts.1) (.inl (by decide)) R
  have h1 := this.len
  have h2 := c.len
  rw [h1] at h2
  simp at h2

/-- The contract 5, which was there before, destroys itself in favour of 9: it stays, without its balance. -/
example : ∃ w' n' ps' f', Reaches lifeProg (.goto (lifeProg.addr "terminate@10.after") [1000, 0, 300, 5, 9, 0] lifeWorld) (.goto (lifeProg.addr "terminate_common") [1, lifeWorld.gasLimit] w') ∧
    StateIs w' n' ps' f' [[2, 9], [9, 0, 9], [1, 5, 9, 300]] [9] ∧ w'.accts f' 5 = some ⟨1, 0, emptyHash⟩ ∧ w'.accts f' 9 = some ⟨0, 300, emptyHash⟩ ∧ DeadAre w' [] := by
  have e := lifeProg_key 9 (.inr rfl)
  have e' := lifeProg_key 5 (.inl rfl)
  obtain ⟨w', n', ps', f', R, s, d, -, dd⟩ := C120_selfdestruct (S := []) (a := 5) (r := 9) (p := 1000) (K := 0) (A := ⟨1, 300, emptyHash⟩) lifeWorld_ok (lifeWorld_find 9 (.inr rfl)) (by omega)
    (by rw [e']; decide) (by rw [e']; exact lifeWorld_accts.1) ⟨by decide +kernel, by decide +kernel, by decide +kernel⟩
  have d1 := d.contract (by rw [e, e']; decide)
  have d2 := d.recipient (by rw [e, e']; decide) (by decide)
  rw [e'] at d1
  rw [e, lifeWorld_accts.2] at d2
  rw [e, e', lifeWorld_accts.2] at s
  rw [show lifeWorld.gasLimit - 0 / 2 ^ 192 = lifeWorld.gasLimit by omega] at R
  refine ⟨w', n', ps', f', R, ?_, d1, d2, dd⟩
  simpa [touchList] using s

/-- The contract 5 counts as created, for instance after an attempt to create it again. -/
def againWorld : World := (lifeWorld.set 0x50000002c 1).set 0x2500000000 5

theorem againWorld_mem {b : Nat} (h : ¬ CreatedArea b) : againWorld.mem b = lifeWorld.mem b := by
  simp only [CreatedArea] at h
  simp only [againWorld]
  rw [set_ne (by omega), set_ne (by omega)]

theorem againWorld_ok : LifeOk lifeProg againWorld 2 [accBase + 4] exAccounts [] [] [5] [] where
  code := lifeProg_contracts
  state := lifeWorld_state.congr ((lifeWorld_state.words.set (by omega)).set (by omega)) fun b hb => againWorld_mem fun e => (stateCell_created e).1 hb
  room := ⟨by decide +kernel, by decide, by decide⟩
  accounts := ⟨by omega, by decide +kernel⟩
  created := ⟨by decide +kernel, by decide, fun i h => by
    have : i = 0 := by simpa using h
    subst this; exact (by decide +kernel : againWorld.mem 0x2500000000 = 5)⟩
  dead := ⟨by decide +kernel, by decide, fun i h => by simp at h⟩
  len := by decide
  len' := by decide

theorem againWorld_find (a : Nat) (h : a = 5 ∨ a = 9) : FindOk lifeProg againWorld [accBase + 4] a := by
  have e := lifeProg_key a h
  refine ⟨by omega, by rw [e]; simp only [u256Max]; omega, ?_, ?_⟩ <;> rw [e] <;> rcases h with rfl | rfl <;> exact ⟨by decide +kernel, .inr (by decide +kernel), by decide +kernel⟩

/-- Then it is to be deleted after SELFDESTRUCT. -/
example : ∃ w', Reaches lifeProg (.goto (lifeProg.addr "terminate@10.after") [1000, 0, 300, 5, 9, 0] againWorld) (.goto (lifeProg.addr "terminate_common") [1, againWorld.gasLimit - 0 / 2 ^ 192] w') ∧
    DeadAre w' [5] := by
  have e' := lifeProg_key 5 (.inl rfl)
  obtain ⟨w', n', ps', f', R, -, -, -, dd⟩ := C120_selfdestruct (S := []) (a := 5) (r := 9) (p := 1000) (K := 0) (A := ⟨1, 300, emptyHash⟩) againWorld_ok (againWorld_find 9 (.inr rfl)) (by omega)
    (by rw [e']; decide) (by rw [e']; decide +kernel) ⟨by decide +kernel, by decide +kernel, by decide +kernel⟩
  exact ⟨w', R, dd⟩

/-- The contract 5 is to be deleted; the prover answers every question with the start of the list. -/
def deadWorld : World := ⟨((lifeWorld.set 0x50000001e 1).set 0x1600000000 5).mem, 0, fun _ => accBase / 4⟩

theorem deadWorld_mem {b : Nat} (h : ¬ DeadArea b) : deadWorld.mem b = lifeWorld.mem b := by
  simp only [DeadArea] at h
  simp only [deadWorld]
  rw [set_ne (by omega), set_ne (by omega)]

theorem deadWorld_state : StateIs deadWorld 2 [accBase + 4] exAccounts [] [] :=
  lifeWorld_state.congr (fun b => ((lifeWorld_state.words.set (by omega)).set (by omega)) b) fun b hb => deadWorld_mem fun e => (stateCell_dead e).1 hb

theorem deadWorld_dead : DeadAre deadWorld [5] :=
  ⟨by decide +kernel, by decide, fun i h => by
    have : i = 0 := by simpa using h
    subst this; exact (by decide +kernel : deadWorld.mem 0x1600000000 = 5)⟩

theorem deadWorld_slots : SlotsAre deadWorld 3 [slotBase + 5, slotBase + 10] exSlots := by
  refine (listWorld_slots 0).congr ?_ fun d h1 h2 => ?_
  · decide +kernel
  · rw [deadWorld_mem (by simp only [DeadArea, slotBase] at *; omega)]
    simp only [lifeWorld]
    rw [set_ne (by simp only [slotBase] at *; omega)]
    exact txnWorld_list (by simp only [slotBase] at *; omega)

/-- C121 fails: a contract that is to be deleted is there after the end of the transaction, with its nonce and its balance. -/
theorem C121_violated : ¬ C121_statement := fun h => by
  have e := lifeProg_key 5 (.inl rfl)
  obtain ⟨w', R, s, e1⟩ := C121_denied (ret := 17) (S := []) lifeProg_deletes (lifeProg_has.mono (by simp +contextual [lifeCode])) deadWorld_state deadWorld_dead (fun _ => (by decide : 4 * (accBase / 4) = accBase))
  have := h _ _ _ _ _ _ _ _ _ _ _ _ _ _ lifeProg_deletes (lifeProg_has.mono (by simp +contextual [lifeCode])) deadWorld_state deadWorld_slots deadWorld_dead (by
    intro a ha; simp only [List.mem_singleton] at ha; subst ha; rw [e]; decide) R _ _ s 5 (by simp)
  rw [e, e1] at this
  exact absurd this (by decide +kernel)

/-- The hypotheses of C121 are met. -/
example := C121_selfdestructed (ret := 17) (S := []) lifeProg_deletes (lifeProg_has.mono (by simp +contextual [lifeCode])) deadWorld_state deadWorld_slots deadWorld_dead (by
    intro a ha; simp only [List.mem_singleton] at ha; subst ha; rw [lifeProg_key 5 (.inl rfl)]; decide)

end Verif.Kasm
