import Verif.Kasm.BlobClaims
import Verif.Kasm.TxnClaims

/-!
C131: what a blob transaction that the kernel rejects does to its sender's account.
-/

namespace Verif.Kasm

variable {P : Prog} {S : List Nat} {w w' : World} {ret n c : Nat} {ps ts : List Nat} {f : Nat → Option Nat} {js : List (List Nat)} {t : Tx} {b : Blk}

/-- What holds when the sender of the transaction `t` with `c` blobs has been recovered: the kernel has the routines, state and transaction are in memory, there is
room in the journal, and the prover finds the sender in the list of accounts. -/
structure BlobOk (P : Prog) (w : World) (n : Nat) (ps : List Nat) (f : Nat → Option Nat) (js : List (List Nat)) (ts : List Nat) (t : Tx) (b : Blk) (c : Nat) : Prop where
  blob : P.Blobs
  code : P.Processes
  state : StateIs w n ps f js ts
  txn : TxnIs (w.set 0x90000000f t.sender) t b
  room : StateRoom w js ts 3
  key : P.addrKey t.sender < u256Max
  sender : t.sender < 2 ^ 256 - 1
  hint : ∀ j, AccHonest w (j + 1) ps (P.addrKey t.sender)
  nonce : ∀ A, w.accts f (P.addrKey t.sender) = some A → A.nonce < 2 ^ 64
  initcode : ¬ (t.creation ∧ 49152 < t.data.length)
  blobs : w.mem 0x500000034 = 33 * c
  few : c < 2 ^ 32

/-- C131 in full: a transaction that the kernel rejects, because of its nonce, its fees, its gas, its chain or because its sender is a contract, changes no account. -/
def C131_statement : Prop :=
  ∀ (P : Prog) (w w' : World) (n c ret : Nat) (ps ts ts' S : List Nat) (f : Nat → Option Nat) (js js' : List (List Nat)) (t : Tx) (b : Blk),
    BlobOk P w n ps f js ts t b c → ¬ t.Sound b (w.acct f (P.addrKey t.sender)) →
    Reaches P (.goto (P.addr "store_origin@type_3") (t.sender :: ret :: S) w) (.goto (P.addr "txn_loop_after") (0 :: t.gasLimit :: S) w') →
    StateIs w' n ps f js' ts' → w'.accts f = w.accts f

/-- What happens instead: the transaction is rejected, and the fee for its blobs has been taken from the sender.  Nothing else has changed: not the nonce, and no other account. -/
theorem C131_pays {A : Acct} (h : BlobOk P w n ps f js ts t b c) (hA : w.accts f (P.addrKey t.sender) = some A) (hs : ¬ t.Sound b A)
    (hx : blobFee c (w.inp 0) ≤ A.balance) :
    ∃ w' js' ts', Reaches P (.goto (P.addr "store_origin@type_3") (t.sender :: ret :: S) w) (.goto (P.addr "txn_loop_after") (0 :: t.gasLimit :: S) w') ∧
      StateIs w' n ps f js' ts' ∧
      w'.accts f (P.addrKey t.sender) = some { A with balance := A.balance - blobFee c (w.inp 0) } ∧
      ∀ k, k ≠ P.addrKey t.sender → w'.accts f k = w.accts f k := by
  have hb := accts_words h.state.words hA
  obtain ⟨w1, s1, r1, m1, h2⟩ := run_blob_origin (k := 2) (ret := ret) (S := S) h.blob h.state h.room h.key h.sender (h.hint 0) h.blobs h.few
  rw [Nat.mod_eq_of_lt (by omega)] at h2
  obtain ⟨g3, g5⟩ : w1.accts f = updAcct (w.accts f) (P.addrKey t.sender) (taken A (blobFee c (w.inp 0))) ∧
      Reaches P (.goto (P.addr "store_origin@type_3") (t.sender :: ret :: S) w) (.goto (P.addr "process_normalized_txn") (ret :: S) w1) := by
    rcases h2 with ⟨B, g1, -, g3, -, g5⟩ | ⟨g1, -⟩
    · rw [hA] at g1; cases g1; exact ⟨g3, g5⟩
    · exact absurd (g1 A hA) (by omega)
  have eA : w1.accts f (P.addrKey t.sender) = some (taken A (blobFee c (w.inp 0))) := by rw [g3, updAcct, if_pos rfl]
  have hok : TxnOk P w1 n ps f (js ++ touchLog ts t.sender) (touchList ts t.sender) t b :=
    { code := h.code, state := s1, txn := h.txn.shift m1, room := r1, key := h.key, initcode := h.initcode
      hint := fun j => (h.hint (j + 1)).of_same (w := w) (fun d h1 h2 => by
        rw [m1.2.2 d (balCell_acc (.inl ⟨h1, h2⟩)), set_ne (by simp only [accBase] at h1; omega)]) (show w1.inp j = w.inp (j + 2) from m1.2.1 j) h.state.accounts
      nonce := fun B hB => by rw [eA] at hB; cases hB; exact h.nonce A hA }
  obtain ⟨w2, r2, s2, e2⟩ := C117_sound_partial (ret := ret) (S := S) hok (by
    rw [acct_some eA]
    exact fun q => hs ⟨q.base, q.priority, q.gas, q.block, q.nonce, q.nonceMax, q.code, q.chain⟩)
  refine ⟨w2, _, _, g5.trans r2, s2, by rw [e2, eA, taken], fun k hk => by rw [e2, g3, updAcct, if_neg hk]⟩

/-- So the claim holds when the fee is nothing.  Missing: every other fee, see `C131_violated`. -/
theorem C131_partial {A : Acct} (h : BlobOk P w n ps f js ts t b c) (hA : w.accts f (P.addrKey t.sender) = some A) (hs : ¬ t.Sound b A) (h0 : c = 0 ∨ w.inp 0 = 0) :
    ∃ w' js' ts', Reaches P (.goto (P.addr "store_origin@type_3") (t.sender :: ret :: S) w) (.goto (P.addr "txn_loop_after") (0 :: t.gasLimit :: S) w') ∧
      StateIs w' n ps f js' ts' ∧ w'.accts f = w.accts f := by
  have e : blobFee c (w.inp 0) = 0 := by rcases h0 with e | e <;> simp [blobFee, e]
  obtain ⟨w', js', ts', h1, h2, h3, h4⟩ := C131_pays (ret := ret) (S := S) h hA hs (by omega)
  refine ⟨w', js', ts', h1, h2, funext fun k => ?_⟩
  by_cases hk : k = P.addrKey t.sender
  · rw [hk, h3, hA, e]; rfl
  · exact h4 k hk

/-! ### Example -/

def rejCode : List (String × List I) :=
  (processTxnCode ++ intrinsicGasCode ++ accountCodeCode ++ transferCode ++ touchedCode ++ stateReadCode ++ stateInsertCode ++ linkedListCode ++ copyCode ++
    type3Code ++ accessListCode ++ rlpCode) ++ [("txn_loop_after", [PUSH 2, EXIT_KERNEL])]

def rejProg : Prog := tableProg rejCode fun _ => 5

theorem rejProg_has : rejProg.Has rejCode := tableProg_has _ _ (by decide +kernel) (by decide +kernel) (by decide +kernel)

theorem rejProg_copies : rejProg.Copies :=
  tableProg_copies _ _ (by decide +kernel) (by decide +kernel) (by decide +kernel) (by simp +contextual [rejCode])

theorem rejProg_pays : rejProg.Pays :=
  ⟨⟨rejProg_copies, rejProg_has.mono (by simp +contextual [rejCode]), rejProg_has.mono (by simp +contextual [rejCode])⟩,
    rejProg_has.mono (by simp +contextual [rejCode]), rejProg_has.mono (by simp +contextual [rejCode])⟩

theorem rejProg_blobs : rejProg.Blobs where
  rlps := ⟨rejProg_copies, rejProg_has.mono (by simp +contextual [rejCode]), rejProg_has.mono fun p hp => by
    simp only [List.mem_singleton] at hp; rw [hp]
    have : ("panic", b_panic) ∈ linkedListCode := by simp [linkedListCode]
    simp [rejCode, this]⟩
  has := rejProg_has.mono (by simp +contextual [rejCode])
  lists := rejProg_has.mono (by simp +contextual [rejCode])
  pays := rejProg_pays

theorem rejProg_processes : rejProg.Processes where
  pays := rejProg_pays
  code := rejProg_has.mono (by simp +contextual [rejCode])
  intrinsic := rejProg_has.mono (by simp +contextual [rejCode])
  txn := rejProg_has.mono (by simp +contextual [rejCode])

/-- The account with key 5 has 10^6 wei; its transaction has one blob and the gas limit `g`.  The prover says the price of blob gas is `p`. -/
def rejWorld (g p : Nat) : World :=
  { (txnWorld g 2 10 5 1000000).set 0x500000034 33 with inp := fun i => if i = 0 then p else (accBase + 4) / 4 }

theorem rejWorld_accts {g p : Nat} : (rejWorld g p).accts exAccounts 5 = some ⟨0, 1000000, emptyHash⟩ := by
  rw [← txnWorld_accts (g := g) (prio := 2) (fee := 10) (v := 5)]; rfl

theorem rejWorld_ok {g : Nat} (p : Nat) (hg : g < 2 ^ 256) : BlobOk rejProg (rejWorld g p) 2 [accBase + 4] exAccounts [] [] (exTxn g 2 10 5) exBlk 1 := by
  have h := txnWorld_ok (g := g) (prio := 2) (fee := 10) (v := 5) (bal := 1000000) hg (by omega) (by omega) (by omega) (by omega)
  have hm : ∀ d, d ≠ 0x500000034 → (rejWorld g p).mem d = (txnWorld g 2 10 5 1000000).mem d := fun d hd => by
    show ((txnWorld g 2 10 5 1000000).set 0x500000034 33).mem d = _
    exact set_ne hd
  exact
    { blob := rejProg_blobs
      code := rejProg_processes
      state := h.state.congr (fun d => (h.state.words.set (a := 0x500000034) (v := 33) (by omega)) d) fun d hd => hm d (by
        simp only [StateCell, JourArea, TouchArea, touchLen, touchBase, jourLen, jdatLen, jourBase, jdatBase, accBase, accNext] at hd; omega)
      txn := h.txn.congr fun d hd => by
        by_cases e : d = 0x90000000f
        · rw [e, set_same]; exact h.txn.sender.symm
        · rw [set_ne e]; exact hm d (by simp only [TxnCell] at hd; omega)
      room := ⟨by rw [hm _ (by decide), txnWorld_list (by decide)]; decide, by decide, by decide⟩
      key := by show 5 < _; decide
      sender := by show 0x77 < _; omega
      hint := fun j => (h.hint j).of_same (fun d h1 h2 => hm d (by simp only [accBase] at h1; omega)) (by simp [rejWorld, txnWorld]) h.state.accounts
      nonce := fun A hA => by
        rw [show rejProg.addrKey _ = 5 from rfl, rejWorld_accts] at hA
        cases hA; show 0 < _; decide
      initcode := h.initcode
      blobs := rfl
      few := by omega }

/-- A transaction with too little gas to be executed costs its sender 7·2^17 of their 10^6 wei. -/
theorem C131_burnt : ∃ w' js' ts',
    Reaches rejProg (.goto (rejProg.addr "store_origin@type_3") [0x77, 17] (rejWorld 20999 7)) (.goto (rejProg.addr "txn_loop_after") [0, 20999] w') ∧
    StateIs w' 2 [accBase + 4] exAccounts js' ts' ∧ w'.accts exAccounts 5 = some ⟨0, 82496, emptyHash⟩ := by
  obtain ⟨w', js', ts', h1, h2, h3, -⟩ := C131_pays (ret := 17) (S := []) (rejWorld_ok (g := 20999) 7 (by omega)) rejWorld_accts
    (fun h => absurd h.gas (by decide)) (by decide +kernel)
  have e : blobFee 1 ((rejWorld 20999 7).inp 0) = 917504 := by decide +kernel
  rw [show rejProg.addrKey _ = 5 from rfl, e] at h3
  exact ⟨w', js', ts', h1, h2, h3⟩

theorem C131_violated : ¬ C131_statement := by
  intro h
  obtain ⟨w', js', ts', h1, h2, h3⟩ := C131_burnt
  have e := h _ _ _ _ _ _ _ _ _ _ _ _ _ _ _ (rejWorld_ok (g := 20999) 7 (by omega)) (by
    rw [show rejProg.addrKey _ = 5 from rfl, acct_some rejWorld_accts]
    exact fun h => absurd h.gas (by decide)) h1 h2
  rw [e, rejWorld_accts] at h3
  simp at h3

/-- With a price of 0 the same transaction has no effect. -/
example := C131_partial (ret := 17) (S := []) (rejWorld_ok (g := 20999) 0 (by omega)) rejWorld_accts (fun h => absurd h.gas (by decide)) (.inr rfl)

end Verif.Kasm
