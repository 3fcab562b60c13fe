import Verif.Kasm.Forward
import Verif.Kasm.DestructClaims

/-!
C122: a call that fails leaves no trace.

What can change during a call is a `Snap`: accounts, storage, what has been accessed and touched, the contracts that have been created or are to be deleted, the refund
and the logs.  `Entry.Does` says for each kind of entry of the journal which change it stands for, and `History` that a list of entries leads from one snapshot to
another.  `Same` is equality but for the order of two lists and the address 3, which stays touched and accessed on purpose.
-/

namespace Verif.Kasm

variable {P : Prog} {S S' : List Nat} {w w' : World} {ret n n' m k a b r x K : Nat} {ps ts cs ds : List Nat} {f : Nat → Option Nat} {js js0 : List (List Nat)} {es : List Entry} {σ σ' τ : Snap} {A : Acct}

/-- Memory holds what the entries `es` have made of `σ`, and there is room for undoing them. -/
structure RevertOk (P : Prog) (w : World) (js0 : List (List Nat)) (es : List Entry) (σ : Snap) (n m : Nat) : Prop where
  code : P.Reverts
  now : ∃ σ', SnapIs w (js0 ++ es.map Entry.words) σ' n m ∧ History P σ es σ'
  keys : ∀ e ∈ es, e.Ok P
  slots : 5 * (m + es.length) ≤ 2 ^ 32
  room : ∀ σ', History P σ es σ' → StateRoom w (js0 ++ es.map Entry.words) σ'.touched (3 * es.length)
  accounts : AccRoom w n

/-- The last checkpoint of the current context is the one numbered `t`, it was made when the journal held `js0`, and later ones when it held no less. -/
structure CheckpointOk (w : World) (js0 : List (List Nat)) (q t d : Nat) : Prop where
  ctx : w.ctx < 2 ^ 32
  count : w.mem (w.ctx * 2 ^ 64 + 0x60000000d) = q + 1
  count' : q < 2 ^ 32
  last : w.mem (w.ctx * 2 ^ 64 + (0x1f00000000 + q)) = t
  total : w.mem 0x500000021 = t + d
  total' : t + d < 2 ^ 32
  some : d ≠ 0
  here : w.mem (0x1d00000000 + t) = js0.length
  later : ∀ i, i < d → js0.length ≤ w.mem (0x1d00000000 + (t + i))

/-- A call fails: `revert_checkpoint` (`asm/journal/revert.asm:67-85`) either panics or brings back what was there at the checkpoint, whatever has happened since, and
takes the checkpoint away.  Memory that does not hold any of that is as before. -/
theorem C122_reverted {q t d : Nat} (h : RevertOk P w js0 es σ n m) (hc : CheckpointOk w js0 q t d) (hf : Fair P (.goto (P.addr "revert_checkpoint") (ret :: S) w)) :
    Returns P False (.goto (P.addr "revert_checkpoint") (ret :: S) w) ret fun s w' => s = S ∧ w'.ctx = w.ctx ∧ w'.mem 0x500000021 = t ∧ w'.mem (w.ctx * 2 ^ 64 + 0x60000000d) = q ∧
      (∀ b, ¬ RevCell b → b ≠ 0x500000021 → b ≠ w.ctx * 2 ^ 64 + 0x60000000d → w'.mem b = w.mem b) ∧ ∃ τ m', SnapIs w' js0 τ n m' ∧ Same σ τ := by
  obtain ⟨σ', hs, hh⟩ := h.now
  exact run_revert_checkpoint (k := 0) h.code hs hh (.refl _) h.keys h.slots ((h.room σ' hh).mono (by omega)) h.accounts hc.ctx hc.count hc.count' hc.last hc.total hc.total' hc.some hc.here hc.later hf

/-- The same for one batch: the journal is cut back to its first `js0.length` entries. -/
theorem C122_batch (h : RevertOk P w js0 es σ n m) (hf : Fair P (.goto (P.addr "revert_batch") (js0.length :: ret :: S) w)) :
    Returns P False (.goto (P.addr "revert_batch") (js0.length :: ret :: S) w) ret fun s w' => s = S ∧ w'.ctx = w.ctx ∧ (∀ b, ¬ RevCell b → w'.mem b = w.mem b) ∧
      ∃ τ m', SnapIs w' js0 τ n m' ∧ Same σ τ := by
  obtain ⟨σ', hs, hh⟩ := h.now
  refine (run_revert_batch (k := 0) (M := m + es.length) h.code hs hh (.refl _) h.keys (Nat.le_refl _) h.slots ((h.room σ' hh).mono (by omega)) h.accounts hf).mono id ?_
  rintro s w' ⟨h1, h2, h3, τ, m', -, -, h4, h5⟩
  exact ⟨h1, h2, fun b hb => h3 b (.inl hb), τ, m', h4, h5⟩

/-- Writing in the journal changes nothing else. -/
theorem SnapIs.push {l : List Nat} (h : SnapIs w js σ n m) (hr : StateRoom w js σ.touched (k + 1)) (hl : l.length ≤ 4) (hv : ∀ v ∈ l, v < 2 ^ 256) :
    SnapIs (pushEntry w l) (js ++ [l]) σ n m ∧ StateRoom (pushEntry w l) (js ++ [l]) σ.touched k := by
  obtain ⟨ps, f, hs, ha⟩ := h.state
  obtain ⟨s1, -, g1, r1, k1⟩ := push_state hs hr hl hv
  exact ⟨SnapIs.state_grows h ⟨ps, f, s1, g1.trans ha⟩ fun b hb => k1.2.2 b fun e => hb (.inl (.inl e)), r1⟩

theorem payCell_state (hd : PayCell b) : StateCell b ∨ Scratch b := by
  simp only [PayCell, BalCell, AccCell, TrieCell] at hd
  cells

/-- A transfer, and the entry that a call writes after it: what it does is what the entries in the journal say. -/
theorem C122_transfer (hP : P.Pays) (hI : P.Has stateInsertCode) (h : SnapIs w js σ n m) (hr : StateRoom w js σ.touched (k + 4)) (hn : AccRoom w n)
    (ha : P.addrKey a < u256Max) (ha' : a < 2 ^ 256) (hb : P.addrKey b < u256Max) (hb' : b < 2 ^ 256) (hx : x < 2 ^ 256)
    (hi : ∀ ps f, AccountsAre w n ps f → AccHonest w 0 ps (P.addrKey a) ∧ AccHonest w 1 ps (P.addrKey b) ∧ AccHonest w 2 ps (P.addrKey b))
    (hA : σ.accts (P.addrKey a) = some A) (hle : x ≤ A.balance)
    (hsum : ∀ B, σ.accts (P.addrKey b) = some B → P.addrKey a ≠ P.addrKey b → A.balance + B.balance < 2 ^ 256) (hno : σ.accts (P.addrKey b) = none → ∀ j, σ.slots (P.addrKey b) j = none) :
    ∃ w' n', Reaches P (.goto (P.addr "transfer_eth") (a :: b :: x :: ret :: S) w) (.goto ret (0 :: S) w') ∧
      let w'' := if x = 0 then w' else pushEntry w' [3, a, b, x]
      let es := transferEntries σ (P.addrKey b) a b x
      let σ' := transferred σ A (P.addrKey a) (P.addrKey b) a b x
      SnapIs w'' (js ++ es.map Entry.words) σ' n' m ∧ History P σ es σ' ∧ (∀ e ∈ es, e.Ok P) ∧ StateRoom w'' (js ++ es.map Entry.words) σ'.touched k := by
  obtain ⟨ps, f, hs, hg⟩ := h.state
  obtain ⟨i0, i1, i2⟩ := hi ps f hs.accounts
  have hA' : A.balance < 2 ^ 256 := by
    rw [← hg] at hA
    simp only [World.accts, Option.map_eq_some_iff] at hA
    obtain ⟨p, -, rfl⟩ := hA
    exact hs.words _
  obtain ⟨w', n', ps', f', l, hl, R, s1, r1, g1, c1, m1⟩ := run_transfer_log (k := k + 1) (ret := ret) (S := S) hP hI hs hr hn ha ha' hb hb' hx i0 i1 i2 (by rw [hg]; exact hA) hle
  rw [hg] at g1 hl
  have q := SnapIs.state_grows h ⟨ps', f', s1, g1⟩ fun b hb => m1 b fun e => hb (payCell_state e)
  refine ⟨w', n', R, ?_, transfer_history hA hle hA' hsum hno, ?_, ?_⟩
  · rw [transferEntries_words hA, ← hl]
    split
    · rw [List.append_nil]; exact q
    · rw [← List.append_assoc]
      exact (q.push r1 (by simp) (by simp [ha', hb', hx])).1
  · intro e he
    simp only [transferEntries, List.mem_append] at he
    rcases he with ((he | he) | he) | he
    all_goals split at he
    all_goals simp only [List.not_mem_nil, List.mem_singleton] at he
    all_goals subst he
    · trivial
    · trivial
    · exact hb
    · exact ⟨ha, hb⟩
  · rw [transferEntries_words hA, ← hl]
    split
    · rw [List.append_nil]; exact r1.mono (by omega)
    · rw [← List.append_assoc]
      exact (q.push r1 (by simp) (by simp [ha', hb', hx])).2

/-! ### What is not undone -/

/-- C122 for SELFDESTRUCT: when the journal goes back to where it was before, the contracts to delete are those of before. -/
def C122_statement : Prop :=
  ∀ (P : Prog) (S S' : List Nat) (w w' w'' : World) (ret n : Nat) (ps : List Nat) (f : Nat → Option Nat) (js : List (List Nat)) (ts cs ds : List Nat) (a r p K g : Nat) (A : Acct),
    P.Reverts → LifeOk P w n ps f js ts cs ds → FindOk P w ps r → a < 2 ^ 256 → f (P.addrKey a) = some p → w.accts f (P.addrKey a) = some A → Serving w K →
    Reaches P (.goto (P.addr "terminate@10.after") (p :: 0 :: A.balance :: a :: r :: K :: S) w) (.goto (P.addr "terminate_common") (1 :: g :: S) w') →
    Reaches P (.goto (P.addr "revert_batch") (js.length :: ret :: S') w') (.goto ret S' w'') → ∃ ds', DeadAre w'' ds' ∧ ds'.Perm ds

/-- Going back to where the journal is now does nothing. -/
theorem run_batch_nil (hP : P.Has revertCode) (h : StateIs w n ps f js ts) :
    Reaches P (.goto (P.addr "revert_batch") (js.length :: ret :: S) w) (.goto ret S (w.set jourLen js.length)) := by
  have h1 : w.mem 0x50000001f = js.length := h.journal.len
  enter hP in revertCode
  rw [b_revert_batch, m_journal_size, b_while_loop]
  rw [List.append_nil, exec_load_global (by omega), h1]
  kexec []
  rw [if_pos (by omega), if_neg (by simp)]
  enter hP in revertCode
  rw [b_revert_batch_done, exec_store_global (by omega)]
  kexec []
  exact .refl _

/-- SELFDESTRUCT of a contract that was created in this transaction and has no ether, in favour of an account that is not there and has been touched, writes nothing in the
journal: the contract is to be deleted even if the call fails. -/
theorem C122_selfdestruct_stays (hR : P.Has revertCode) (h : LifeOk P w n ps f js ts cs ds) (hr : FindOk P w ps r) {p : Nat} (ha' : a < 2 ^ 256) (hf : f (P.addrKey a) = some p)
    (hA : w.accts f (P.addrKey a) = some A) (hS : Serving w K) (hz : A.balance = 0) (hn : w.accts f (P.addrKey r) = none) (hc : a ∈ cs) (ht : r ∈ ts) :
    ∃ w' w'', Reaches P (.goto (P.addr "terminate@10.after") (p :: 0 :: A.balance :: a :: r :: K :: S) w)
        (.goto (P.addr "terminate_common") (1 :: (w.gasLimit - K / 2 ^ 192) :: S) w') ∧
      Reaches P (.goto (P.addr "revert_batch") (js.length :: ret :: S') w') (.goto ret S' w'') ∧ DeadAre w'' (ds ++ [a]) := by
  obtain ⟨w', n', ps', f', R, s, d⟩ := C120_unlogged (S := S) h hr ha' hf hA hS hz hn hc ht
  refine ⟨w', _, R, run_batch_nil hR s, DeadAre.of_same d fun b hb => set_ne ?_⟩
  simp only [DeadArea, jourLen] at *; omega

/-! ### Examples -/

def revCode : List (String × List I) := lifeCode ++ revertCode ++ undoCode ++ accessListsCode

/-- A kernel whose hash of an address is the sum of its bytes. -/
def revProg : Prog := tableProg revCode List.sum

theorem revProg_has : revProg.Has revCode := tableProg_has _ _ (by decide +kernel) (by decide +kernel) (by decide +kernel)

theorem revProg_reads : revProg.ReadsState :=
  ⟨tableProg_copies _ _ (by decide +kernel) (by decide +kernel) (by decide +kernel) (by simp +contextual [revCode, lifeCode]), revProg_has.mono (by simp +contextual [revCode, lifeCode]),
    revProg_has.mono (by simp +contextual [revCode, lifeCode])⟩

theorem revProg_pays : revProg.Pays := ⟨revProg_reads, revProg_has.mono (by simp +contextual [revCode, lifeCode]), revProg_has.mono (by simp +contextual [revCode, lifeCode])⟩

theorem revProg_contracts : revProg.Contracts where
  pays := revProg_pays
  insert := revProg_has.mono (by simp +contextual [revCode, lifeCode])
  construct := revProg_has.mono (by simp +contextual [revCode, lifeCode])
  terminate := revProg_has.mono (by simp +contextual [revCode, lifeCode])

theorem revProg_reverts : revProg.Reverts where
  deletes := ⟨revProg_reads, revProg_has.mono (by simp +contextual [revCode, lifeCode])⟩
  pays := revProg_pays
  insert := revProg_has.mono (by simp +contextual [revCode, lifeCode])
  access := revProg_has.mono (by
    intro p hp
    rcases List.mem_cons.1 hp with rfl | hp
    · simp [revCode, lifeCode, linkedListCode]
    · simp [revCode, hp])
  dead := revProg_has.mono (by simp +contextual [revCode, lifeCode])
  undo := revProg_has.mono (by simp +contextual [revCode, lifeCode])
  revert := revProg_has.mono (by simp +contextual [revCode, lifeCode])

theorem revProg_key (a : Nat) (h : a = 5 ∨ a = 9) : revProg.addrKey a = a := by rcases h with rfl | rfl <;> decide +kernel

/-- The contract 5 has been created and has no ether; 9 is not there and has been touched. -/
def bornWorld : World := ((((txnWorld 0 0 0 0 0).set (0xc00000000 + 1000 + 0) 1).set 0x50000002c 1).set 0x2500000000 5).touch 9

theorem bornWorld_state : StateIs bornWorld 2 [accBase + 4] exAccounts [[2, 9]] [9] := by
  have h0 : StateIs ((txnWorld 0 0 0 0 0).set (0xc00000000 + 1000 + 0) 1) 2 [accBase + 4] exAccounts [] [] :=
    (record_set (key := 5) (txnWorld_state (by omega) (by omega) (by omega) (by omega) (by omega)) (by decide) (by omega) (by omega)).1
  have h1 : StateIs ((((txnWorld 0 0 0 0 0).set (0xc00000000 + 1000 + 0) 1).set 0x50000002c 1).set 0x2500000000 5) 2 [accBase + 4] exAccounts [] [] :=
    h0.congr ((h0.words.set (by omega)).set (by omega)) fun b hb => by
      rw [set_ne (by cells), set_ne (by cells)]
  exact (touch_state (k := 0) (a := 9) h1 ⟨by decide +kernel, by decide, by decide⟩ (by omega)).1

theorem bornWorld_ok : LifeOk revProg bornWorld 2 [accBase + 4] exAccounts [[2, 9]] [9] [5] [] where
  code := revProg_contracts
  state := bornWorld_state
  room := ⟨by decide +kernel, by decide, by decide⟩
  accounts := ⟨by omega, by decide +kernel⟩
  created := ⟨by decide +kernel, by decide, fun i h => by
    have : i = 0 := by simpa using h
    subst this; exact (by decide +kernel : bornWorld.mem 0x2500000000 = 5)⟩
  dead := ⟨by decide +kernel, by decide, fun i h => by simp at h⟩
  len := by decide
  len' := by decide

theorem bornWorld_find : FindOk revProg bornWorld [accBase + 4] 9 := by
  have e := revProg_key 9 (.inr rfl)
  refine ⟨by omega, by rw [e]; simp only [u256Max]; omega, ?_, ?_⟩ <;> rw [e] <;> exact ⟨by decide +kernel, .inr (by decide +kernel), by decide +kernel⟩

/-- C122 fails: the contract 5 destroys itself, the call fails, and 5 is still to be deleted. -/
theorem C122_violated : ¬ C122_statement := fun h => by
  have e' := revProg_key 5 (.inl rfl)
  have e := revProg_key 9 (.inr rfl)
  have hf : exAccounts (revProg.addrKey 5) = some 1000 := by rw [e']; decide
  have hA : bornWorld.accts exAccounts (revProg.addrKey 5) = some ⟨1, 0, emptyHash⟩ := by rw [e']; decide +kernel
  have hS : Serving bornWorld 0 := ⟨by decide +kernel, by decide +kernel, by decide +kernel⟩
  obtain ⟨w', w'', R1, R2, d⟩ := C122_selfdestruct_stays (S := []) (S' := []) (ret := 99999) revProg_reverts.revert bornWorld_ok bornWorld_find (a := 5) (by omega) hf hA hS rfl
    (by rw [e]; decide +kernel) (by simp) (by simp)
  obtain ⟨ds', d1, d2⟩ := h _ _ _ _ _ _ _ _ _ _ _ _ _ _ _ _ _ _ _ _ revProg_reverts bornWorld_ok bornWorld_find (by omega) hf hA hS R1 R2
  rw [List.perm_nil.1 d2] at d1
  have h1 := d1.len
  have h2 := d.len
  rw [h1] at h2
  simp at h2

/-- Nowhere on its way does the run meet one of the addresses `bad`. -/
def Avoids (P : Prog) (bad : List Nat) : Nat → Out → Bool
  | 0, .goto _ _ _ => false
  | k + 1, .goto d s w => !bad.contains d && Avoids P bad k (exec P (P.code d) s w)
  | _, _ => true

theorem Avoids.not_mem {bad : List Nat} : ∀ {k : Nat} {o o' : Out}, Avoids P bad k o = true → Reaches P o o' → ∀ d s w, o' = .goto d s w → d ∉ bad := by
  intro k
  induction k with
  | zero =>
    intro o o' h hr d s w e
    cases hr with
    | refl => subst e; simp [Avoids] at h
    | step _ _ => simp [Avoids] at h
  | succ k ih =>
    intro o o' h hr d s w e
    cases hr with
    | refl =>
      subst e
      simp only [Avoids, Bool.and_eq_true, Bool.not_eq_true', List.contains_eq_mem, decide_eq_false_iff_not] at h
      exact h.1
    | step _ hr =>
      simp only [Avoids, Bool.and_eq_true] at h
      exact ih h.2 hr d s w e

/-- A run that undoes no access and moves no ether asks the prover nothing that matters. -/
theorem Fair.avoids {o : Out} (h : Avoids P [P.addr "remove_accessed_addresses", P.addr "remove_accessed_storage_keys", P.addr "transfer_eth"] k o = true) : Fair P o where
  addrs s v hr := absurd (by simp) (Avoids.not_mem h hr _ _ _ rfl)
  keys s v hr := absurd (by simp) (Avoids.not_mem h hr _ _ _ rfl)
  accounts a b s v n ps f hr := absurd (by simp) (Avoids.not_mem h hr _ _ _ rfl)

/-- Accounts, slots and what has been accessed. -/
def snapWorld : World where
  mem d := if d = addrEnd ∨ (addrBase ≤ d ∧ d < addrBase + 2 ^ 32) ∨ d = keyEnd ∨ (keyBase ≤ d ∧ d < keyBase + 2 ^ 32) then accMem d else lifeWorld.mem d
  ctx := 0
  inp := lifeWorld.inp

theorem snapWorld_mem {b : Nat} (h : ¬ AddrCell b) (h' : ¬ KeyCell b) : snapWorld.mem b = lifeWorld.mem b := if_neg (by simp only [AddrCell, KeyCell] at *; omega)

theorem snapWorld_words : Words snapWorld := fun b => by
  show ite _ _ _ < _
  split
  · exact accWorld_words 0 b
  · exact lifeWorld_state.words b

def snapNow : Snap where
  accts := lifeWorld.accts exAccounts
  slots := exSlots
  addrs a := a = 5
  keys a k := a = 5 ∧ k = 6
  touched := []
  dead := []
  created := []
  refund := 0
  logs := 0
  logData := 0
  logPayload := 0

theorem snapWorld_is : SnapIs snapWorld [] snapNow 2 3 where
  state := by
    have hm : ∀ b, StateCell b → snapWorld.mem b = lifeWorld.mem b := fun b hb => snapWorld_mem (by cells) (by cells)
    have h := lifeWorld_state.congr snapWorld_words hm
    exact ⟨_, _, h, lifeWorld_state.accts_congr fun b h1 h2 => hm b (.inr (.inr (.inl ⟨h1, h2⟩)))⟩
  slots := by
    refine ⟨_, deadWorld_slots.congr (by decide +kernel) fun d h1 h2 => ?_⟩
    rw [deadWorld_mem (by cells), snapWorld_mem (by cells) (by cells)]
  addrs := ⟨_, _, (accWorld_addrs 0).congr (by decide +kernel) fun b h1 h2 => if_pos (by omega)⟩
  keys := by
    refine ⟨_, _, _, (accWorld_keys 0).congr (by decide +kernel) fun b h1 h2 => if_pos (by omega), fun a k => ?_⟩
    simp only [snapNow, exKeys]
    constructor
    · rintro ⟨rfl, rfl⟩; exact ⟨by omega, _, rfl⟩
    · rintro ⟨-, q, hq⟩
      split at hq
      · assumption
      · cases hq
  dead := ⟨by decide +kernel, by decide, fun i h => by simp [snapNow] at h⟩
  created := ⟨by decide +kernel, by decide, fun i h => by simp [snapNow] at h⟩
  refund := by decide +kernel
  logs := by decide +kernel
  logData := by decide +kernel
  logPayload := by decide +kernel

/-- The nonce of 5 was 0 at the checkpoint and is 1 now, and there is a refund of 7. -/
def usedWorld : World := pushEntry (pushEntry (((snapWorld.set 0x60000000d 1).set 0x500000021 1).set refundCell 7) [4, 5, 0]) [8, 7]

/-- What was there at the checkpoint. -/
def snapThen : Snap := { snapNow with accts := updAcct snapNow.accts 5 ⟨0, 300, emptyHash⟩ }

theorem usedWorld_history (e : P.addrKey 5 = 5) : History P snapThen [.nonce 5 0, .refund 7] { snapNow with refund := 7 } := by
  refine ⟨snapNow, ⟨⟨0, 300, emptyHash⟩, 1, ?_, rfl, ?_⟩, { snapNow with refund := 7 }, ⟨by omega, by decide, rfl⟩, rfl⟩
  · rw [e]; rfl
  · rw [e]
    have : updAcct (updAcct snapNow.accts 5 ⟨0, 300, emptyHash⟩) 5 ⟨1, 300, emptyHash⟩ = snapNow.accts := by
      funext c
      simp only [updAcct]
      split
      · subst c; exact lifeWorld_accts.1.symm
      · rfl
    show snapNow = { snapNow with accts := updAcct (updAcct snapNow.accts 5 ⟨0, 300, emptyHash⟩) 5 ⟨1, 300, emptyHash⟩ }
    rw [this]

theorem usedWorld_is : SnapIs usedWorld [[4, 5, 0], [8, 7]] { snapNow with refund := 7 } 2 3 := by
  have h1 : SnapIs ((snapWorld.set 0x60000000d 1).set 0x500000021 1) [] snapNow 2 3 :=
    snapWorld_is.keep ((snapWorld_words.set (by omega)).set (by omega)) fun b hb => by rw [set_ne (by cells), set_ne (by cells)]
  have h2 := h1.with_counters (w' := ((snapWorld.set 0x60000000d 1).set 0x500000021 1).set refundCell 7) (h1.words.set (by omega)) fun b hb => set_ne (by omega)
  have h3 := (h2.push (k := 1) (l := [4, 5, 0]) ⟨by decide +kernel, by decide, by decide⟩ (by simp) (by simp))
  have h4 := (h3.1.push (k := 0) (l := [8, 7]) h3.2 (by simp) (by simp)).1
  exact h4

theorem usedWorld_ok (hP : P.Reverts) (e5 : P.addrKey 5 = 5) : RevertOk P usedWorld [] [.nonce 5 0, .refund 7] snapThen 2 3 where
  code := hP
  now := ⟨_, usedWorld_is, usedWorld_history e5⟩
  keys := by
    intro e he
    simp only [List.mem_cons, List.not_mem_nil, or_false] at he
    rcases he with rfl | rfl
    · show P.addrKey 5 < _; rw [e5]; decide
    · trivial
  slots := by simp
  room := by
    rintro σ' ⟨σ1, ⟨A, u, -, -, rfl⟩, σ2, ⟨-, -, rfl⟩, rfl⟩
    exact ⟨(by decide +kernel : usedWorld.mem jdatLen + 4 * (3 * 2) ≤ 2 ^ 32), by simp, (by decide : ([] : List Nat).length + 3 * 2 ≤ 2 ^ 32)⟩
  accounts := ⟨by omega, by decide +kernel⟩

theorem usedWorld_checkpoint : CheckpointOk usedWorld [] 0 0 1 where
  ctx := by decide +kernel
  count := by decide +kernel
  count' := by omega
  last := by decide +kernel
  total := by decide +kernel
  total' := by omega
  some := by omega
  here := by decide +kernel
  later := fun i _ => Nat.zero_le _

/-- Both changes are undone. -/
example : Returns revProg False (.goto (revProg.addr "revert_checkpoint") [99999] usedWorld) 99999 fun s w' => s = [] ∧ ∃ τ m', SnapIs w' [] τ 2 m' ∧ τ.accts 5 = some ⟨0, 300, emptyHash⟩ ∧ τ.refund = 0 := by
  refine (C122_reverted (S := []) (usedWorld_ok revProg_reverts (revProg_key 5 (.inl rfl))) usedWorld_checkpoint (Fair.avoids (k := 40) (by decide +kernel))).mono id ?_
  rintro s w' ⟨h1, -, -, -, -, τ, m', h2, h3⟩
  exact ⟨h1, τ, m', h2, by rw [h3.accts]; rfl, h3.refund⟩

/-- A transfer of 100 wei from 5 to 9, which is not there: 5 and 9 are touched, 9 is created, and all of it is in the journal. -/
example : ∃ w' n', Reaches revProg (.goto (revProg.addr "transfer_eth") [5, 9, 100, 99999] snapWorld) (.goto 99999 [0] w') ∧
    SnapIs (pushEntry w' [3, 5, 9, 100]) [[2, 5], [2, 9], [9, 0, 9], [3, 5, 9, 100]] (transferred snapNow ⟨1, 300, emptyHash⟩ 5 9 5 9 100) n' 3 := by
  have e := revProg_key 9 (.inr rfl)
  have e' := revProg_key 5 (.inl rfl)
  have hn : snapNow.accts 9 = none := lifeWorld_accts.2
  obtain ⟨w', n', R, h, -⟩ := C122_transfer (k := 0) (a := 5) (b := 9) (x := 100) (ret := 99999) (S := []) (A := ⟨1, 300, emptyHash⟩) revProg_pays revProg_reverts.insert snapWorld_is
    ⟨by decide +kernel, by decide, by decide⟩ ⟨by omega, by decide +kernel⟩ (by rw [e']; decide) (by omega) (by rw [e]; decide) (by omega) (by omega)
    (by
      intro ps f hs
      have hq : accBase + 4 ∈ accBase :: ps := by
        have hc := hs.1.chain
        cases ps with
        | nil => exact absurd ((show snapWorld.mem (accBase + 3) = accBase + 4 by decide +kernel).symm.trans hc) (by decide)
        | cons q ps => simp [← (show snapWorld.mem (accBase + 3) = accBase + 4 by decide +kernel).symm.trans hc.1]
      rw [e, e']
      exact ⟨⟨hq, .inr (by decide +kernel), by decide +kernel⟩, ⟨hq, .inr (by decide +kernel), by decide +kernel⟩, ⟨hq, .inr (by decide +kernel), by decide +kernel⟩⟩) (by rw [e']; exact lifeWorld_accts.1) (by decide) (by rw [e, hn]; intro B h; cases h) (by rw [e]; intro _ j; simp [snapNow, exSlots])
  rw [e, e'] at h
  refine ⟨w', n', R, ?_⟩
  have h1 : (transferEntries snapNow 9 5 9 100).map Entry.words = [[2, 5], [2, 9], [9, 0, 9], [3, 5, 9, 100]] := by
    simp only [transferEntries, hn]; decide
  rw [h1] at h
  exact h

end Verif.Kasm
