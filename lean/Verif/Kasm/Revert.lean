import Verif.Kasm.Delete
import Verif.Kasm.AccessClaims
import Verif.Kasm.Code.Revert
import Verif.Kasm.Code.Undo

/-! Undoing the entries of the journal. -/

namespace Verif.Kasm

/-- An entry of the journal (`asm/journal/*.asm`), apart from those for transient storage. -/
inductive Entry
  | loaded (a : Nat)
  | destroyed (a r x : Nat)
  | touched (a : Nat)
  | transfer (a b x : Nat)
  | nonce (a v : Nat)
  | slot (a s v : Nat)
  | slotLoaded (a k : Nat)
  | code (a v : Nat)
  | refund (x : Nat)
  | created (t a : Nat)
  | log (d p : Nat)

/-- How it is written (`asm/journal/journal.asm`, `constants/journal_entry.rs`). -/
def Entry.words : Entry → List Nat
  | .loaded a => [0, a]
  | .destroyed a r x => [1, a, r, x]
  | .touched a => [2, a]
  | .transfer a b x => [3, a, b, x]
  | .nonce a v => [4, a, v]
  | .slot a s v => [5, a, s, v]
  | .slotLoaded a k => [6, a, k]
  | .code a v => [7, a, v]
  | .refund x => [8, x]
  | .created t a => [9, t, a]
  | .log d p => [10, d, p]

/-- What the journal is about. -/
structure Snap where
  accts : Nat → Option Acct
  slots : Nat → Nat → Option Nat
  /-- addresses and slots that have been accessed -/
  addrs : Nat → Prop
  keys : Nat → Nat → Prop
  touched : List Nat
  /-- contracts that are to be deleted, and contracts that have been created -/
  dead : List Nat
  created : List Nat
  refund : Nat
  /-- the number of logs, and the sizes of their data and of what is hashed -/
  logs : Nat
  logData : Nat
  logPayload : Nat

/-- `x` added to the balance of an account that is there. -/
def paid (h : Nat → Option Acct) (key x : Nat) : Nat → Option Acct :=
  fun k => if k = key then (h key).map fun B => { B with balance := (B.balance + x) % 2 ^ 256 } else h k

/-- What has happened when an entry is written, from `σ` to `σ'`. -/
def Entry.Does (P : Prog) (σ σ' : Snap) : Entry → Prop
  | .loaded a => ¬ σ.addrs a ∧ σ' = { σ with addrs := fun b => b = a ∨ σ.addrs b }
  | .slotLoaded a k => ¬ σ.keys a k ∧ σ' = { σ with keys := fun b j => (b = a ∧ j = k) ∨ σ.keys b j }
  | .touched a => a ∉ σ.touched ∧ σ' = { σ with touched := σ.touched ++ [a] }
  | .nonce a v => ∃ A u, σ.accts (P.addrKey a) = some A ∧ v = A.nonce ∧ σ' = { σ with accts := updAcct σ.accts (P.addrKey a) { A with nonce := u } }
  | .code a v => ∃ A u, σ.accts (P.addrKey a) = some A ∧ v = A.codeHash ∧ σ' = { σ with accts := updAcct σ.accts (P.addrKey a) { A with codeHash := u } }
  | .refund x => x < 2 ^ 256 ∧ σ.refund < 2 ^ 256 ∧ σ' = { σ with refund := (σ.refund + x) % 2 ^ 256 }
  | .slot a s v => ∃ u, σ.slots (P.addrKey a) (P.slotKey s) = (if v = 0 then none else some v) ∧ σ' = { σ with slots := upd2 σ.slots (P.addrKey a) (P.slotKey s) u }
  | .created t a => ∃ A, σ.accts (P.addrKey a) = none ∧ (∀ j, σ.slots (P.addrKey a) j = none) ∧
      σ' = { σ with accts := updAcct σ.accts (P.addrKey a) A, created := if t = 0 then σ.created else σ.created ++ [a] }
  | .log d p => ∃ d' p', d = σ.logData ∧ p = σ.logPayload ∧ σ.logs + 1 < 2 ^ 256 ∧ σ' = { σ with logs := σ.logs + 1, logData := d', logPayload := p' }
  | .transfer a b x => ∃ A B, σ.accts (P.addrKey a) = some A ∧ x ≤ A.balance ∧ A.balance < 2 ^ 256 ∧ σ.accts (P.addrKey b) = some B ∧ (P.addrKey a ≠ P.addrKey b → A.balance + B.balance < 2 ^ 256) ∧
      a ∈ σ.touched ∧ b ∈ σ.touched ∧ x ≠ 0 ∧ σ' = { σ with accts := paid (updAcct σ.accts (P.addrKey a) (taken A x)) (P.addrKey b) x }
  | .destroyed a r x => ∃ A B y, σ.accts (P.addrKey a) = some A ∧ x = A.balance ∧ x < 2 ^ 256 ∧ σ.accts (P.addrKey r) = some B ∧ B.balance < 2 ^ 256 ∧ (P.addrKey a ≠ P.addrKey r → y = x) ∧
      ((a ∉ σ.dead ∧ σ' = { σ with accts := paid (updAcct σ.accts (P.addrKey a) { A with balance := 0 }) (P.addrKey r) y }) ∨
        σ' = { σ with accts := paid (updAcct σ.accts (P.addrKey a) { A with balance := 0 }) (P.addrKey r) y, dead := σ.dead ++ [a] })

/-- `τ` is as good as `σ`: the order of touched addresses and of contracts to delete may differ, and the address 3 may stay among the touched and the accessed ones
(https://github.com/ethereum/EIPs/issues/716). -/
structure Same (σ τ : Snap) : Prop where
  accts : τ.accts = σ.accts
  slots : τ.slots = σ.slots
  addrs : ∀ a, a ≠ 3 → (τ.addrs a ↔ σ.addrs a)
  keys : ∀ a k, τ.keys a k ↔ σ.keys a k
  touched : (τ.touched.filter (· ≠ 3)).Perm (σ.touched.filter (· ≠ 3))
  touched3 : 3 ∈ σ.touched → 3 ∈ τ.touched
  dead : τ.dead.Perm σ.dead
  created : τ.created = σ.created
  refund : τ.refund = σ.refund
  logs : τ.logs = σ.logs
  logData : τ.logData = σ.logData
  logPayload : τ.logPayload = σ.logPayload

theorem Same.refl (σ : Snap) : Same σ σ := ⟨rfl, rfl, fun _ _ => .rfl, fun _ _ => .rfl, .refl _, id, .refl _, rfl, rfl, rfl, rfl, rfl⟩

/-- Memory holds `σ`. -/
structure SnapIs (w : World) (js : List (List Nat)) (σ : Snap) (n m : Nat) : Prop where
  state : ∃ ps f, StateIs w n ps f js σ.touched ∧ w.accts f = σ.accts
  slots : ∃ qs, SlotsAre w m qs σ.slots
  addrs : ∃ n ps, AddrsAre w n ps σ.addrs
  keys : ∃ n ps f, KeysAre w n ps f ∧ ∀ a k, σ.keys a k ↔ k < 2 ^ 256 ∧ ∃ q, f a k = some q
  dead : DeadAre w σ.dead
  created : CreatedAre w σ.created
  refund : w.mem refundCell = σ.refund
  logs : w.mem 0x500000027 = σ.logs
  logData : w.mem 0x500000028 = σ.logData
  logPayload : w.mem 0x500000029 = σ.logPayload

variable {P : Prog} {S : List Nat} {w w' : World} {ret n m : Nat} {ps qs ts : List Nat} {f : Nat → Option Nat} {g : Nat → Nat → Option Nat}
  {js : List (List Nat)} {a ptr : Nat} {σ σ' τ : Snap} {e : Entry} {c : List I} {s : List Nat}

/-- The cells that undoing changes. -/
def RevCell (b : Nat) : Prop :=
  StateCell b ∨ SlotCell b ∨ AddrCell b ∨ KeyCell b ∨ DeadArea b ∨ b = 0x50000002c ∨ b = refundCell ∨ (0x500000027 ≤ b ∧ b < 0x50000002a) ∨ (0x700000000 ≤ b ∧ b < 0x700000020)

/-- The cells where addresses and slots are hashed. -/
def Scratch (b : Nat) : Prop := 0x700000000 ≤ b ∧ b < 0x700000020

macro "cells" : tactic => `(tactic| (simp only [RevCell, Scratch, StateCell, SlotCell, AddrCell, KeyCell, DeadArea, CreatedArea, JourArea, TouchArea, AccNode, DelCell, touchLen, touchBase, jourLen, jdatLen,
  jourBase, jdatBase, accBase, accNext, slotBase, slotNext, addrBase, addrEnd, keyBase, keyEnd, refundCell] at *; omega))

/-- The parts of memory that hold the parts of a snapshot. -/
theorem SnapIs.state_of (h : SnapIs w js σ n m) (hw : Words w') (hm : ∀ b, StateCell b → w'.mem b = w.mem b) : ∃ ps f, StateIs w' n ps f js σ.touched ∧ w'.accts f = σ.accts := by
  obtain ⟨ps, f, h1, h2⟩ := h.state
  exact ⟨ps, f, h1.congr hw hm, (h1.accts_congr fun b h1 h2 => hm b (by cells)).trans h2⟩

theorem SnapIs.slots_of (h : SnapIs w js σ n m) (hm : ∀ b, SlotCell b → w'.mem b = w.mem b) : ∃ qs, SlotsAre w' m qs σ.slots := by
  obtain ⟨qs, h1⟩ := h.slots
  exact ⟨qs, h1.congr (hm _ (.inl rfl)) fun b h1 h2 => hm b (.inr ⟨h1, h2⟩)⟩

theorem SnapIs.addrs_of (h : SnapIs w js σ n m) (hm : ∀ b, AddrCell b → w'.mem b = w.mem b) : ∃ n ps, AddrsAre w' n ps σ.addrs := by
  obtain ⟨n, qs, h1⟩ := h.addrs
  exact ⟨n, qs, h1.congr (hm _ (.inl rfl)) fun b h1 h2 => hm b (.inr ⟨h1, h2⟩)⟩

theorem SnapIs.keys_of (h : SnapIs w js σ n m) (hm : ∀ b, KeyCell b → w'.mem b = w.mem b) : ∃ n ps f, KeysAre w' n ps f ∧ ∀ a k, σ.keys a k ↔ k < 2 ^ 256 ∧ ∃ q, f a k = some q := by
  obtain ⟨n, qs, f, h1, h2⟩ := h.keys
  exact ⟨n, qs, f, h1.congr (hm _ (.inl rfl)) fun b h1 h2 => hm b (.inr ⟨h1, h2⟩), h2⟩

theorem SnapIs.created_of (h : SnapIs w js σ n m) (hm : ∀ b, CreatedArea b → w'.mem b = w.mem b) : CreatedAre w' σ.created := CreatedAre.of_same h.created hm

/-- The contents of a list without the element at the position `i`, where the last one goes. -/
def swapOut (ts : List Nat) (i : Nat) : List Nat := (ts.set i (ts.getD (ts.length - 1) 0)).take (ts.length - 1)

theorem perm_set (x : Nat) : ∀ (l : List Nat) (i : Nat) (h : i < l.length), (x :: l).Perm (l[i] :: l.set i x)
  | a :: l, 0, _ => List.Perm.swap _ _ _
  | a :: l, i + 1, h => by
    have := perm_set x l i (by simpa using h)
    simp only [List.getElem_cons_succ, List.set_cons_succ]
    exact (List.Perm.swap _ _ _).trans ((this.cons a).trans (List.Perm.swap _ _ _))

theorem swapOut_perm {i : Nat} (h : i < ts.length) : ts.Perm (ts[i] :: swapOut ts i) := by
  obtain ⟨l, x, rfl⟩ : ∃ l x, ts = l ++ [x] := ⟨ts.dropLast, ts.getLast (by rintro rfl; simp at h), (List.dropLast_concat_getLast _).symm⟩
  have hc : (l ++ [x]).Perm (x :: l) := List.perm_append_comm
  have e : (l ++ [x]).getD ((l ++ [x]).length - 1) 0 = x := by simp [List.getD_eq_getElem?_getD]
  simp only [swapOut, e]
  simp only [List.length_append, List.length_singleton, Nat.add_sub_cancel]
  by_cases hi : i < l.length
  · rw [List.set_append_left _ _ hi, List.take_left' (by simp), List.getElem_append_left hi]
    exact hc.trans (perm_set x l i hi)
  · have hi' : i = l.length := by simp at h; omega
    subst hi'
    rw [List.set_append_right _ _ (Nat.le_refl _), List.take_left' rfl]
    simp [hc]

theorem swapOut_at {i j : Nat} (hj : j < (swapOut ts i).length) : j < ts.length - 1 ∧ (swapOut ts i)[j] = if j = i then ts.getD (ts.length - 1) 0 else ts.getD j 0 := by
  have h1 : j < ts.length - 1 := by
    simp only [swapOut, List.length_take, List.length_set] at hj
    omega
  refine ⟨h1, ?_⟩
  simp only [swapOut, List.getElem_take, List.getElem_set]
  by_cases e : j = i
  · simp [e]
  · rw [if_neg (fun h => e h.symm), if_neg e]
    have : ts.getD j 0 = ts[j] := by rw [List.getD_eq_getElem?_getD, List.getElem?_eq_getElem (by omega)]; rfl
    exact this.symm

theorem swapOut_length {i : Nat} : (swapOut ts i).length = ts.length - 1 := by simp [swapOut]

/-- Taking the element at the position `i` out of a list in memory. -/
theorem ListAt.swapOut {base len i : Nat} (h : ListAt w base len ts) (hi : i < ts.length) (hl : len < base ∨ base + 2 ^ 32 ≤ len) :
    ListAt ((w.set len (ts.length - 1)).set (base + i) (w.mem (base + (ts.length - 1)))) base len (swapOut ts i) := by
  have hf := h.fits
  refine ⟨?_, by rw [swapOut_length]; omega, fun j hj => ?_⟩
  · rw [set_ne (by omega), set_same, swapOut_length]
  · obtain ⟨h1, h2⟩ := swapOut_at hj
    rw [h2]
    have hg : ∀ k, k < ts.length → w.mem (base + k) = ts.getD k 0 := fun k hk => by
      rw [h.at_ k hk, List.getD_eq_getElem?_getD, List.getElem?_eq_getElem hk]; rfl
    by_cases e : j = i
    · subst e; rw [set_same, if_pos rfl]; exact hg _ (by omega)
    · rw [set_ne (by omega), set_ne (by omega), if_neg e]; exact hg _ (by omega)

theorem TouchedAre.listAt (h : TouchedAre w ts) : ListAt w touchBase touchLen ts := ⟨h.len, h.fits, h.at_⟩
theorem ListAt.touched (h : ListAt w touchBase touchLen ts) : TouchedAre w ts := ⟨h.len, h.fits, h.at_⟩

theorem exec_store_global {q v : Nat} (hq : q < 39 * 2 ^ 32) :
    exec P (m_mstore_global_metadata (.lit q) ++ c) (v :: s) w = exec P c s (w.set q v) := by
  kexec [m_mstore_global_metadata]
  rw [exec_mstore_at hq]

/-- `remove_touched_addresses`. -/
theorem run_remove_touched_loop (hP : P.Has touchedCode) (hpa : P.Has linkedListCode) (h : TouchedAre w ts) :
    ∀ d i, i + d = ts.length → Returns P False (exec P b_remove_touched_addresses_loop ((touchBase + i) :: (touchBase + ts.length) :: a :: ret :: S) w) ret
      fun s w' => s = S ∧ ∃ i, ∃ h : i < ts.length, ts[i] = a ∧ w' = (w.set touchLen (ts.length - 1)).set (touchBase + i) (w.mem (touchBase + (ts.length - 1))) := by
  intro d
  have hf := h.fits
  induction d with
  | zero =>
    intro i hi
    have hi : i = ts.length := by omega
    subst hi
    rw [b_remove_touched_addresses_loop]
    kexec []
    rw [if_neg (by simp)]
    exact .of (reach_panic hpa) (.panic id)
  | succ d ih =>
    intro i hi
    have hi' : i < ts.length := by omega
    rw [b_remove_touched_addresses_loop]
    kexec []
    rw [if_pos (by simp only [touchBase]; omega), exec_mload_at (by simp only [touchBase]; omega), h.at_ i hi']
    kexec []
    by_cases e : ts[i] = a
    · rw [if_neg (by simp [e])]
      renter hP in touchedCode
      rw [b_remove_touched_addresses_found]
      kexec []
      rw [wsub_small (a := touchBase + ts.length) (by simp only [touchBase]; omega) (by simp only [touchBase]; omega),
        wsub_small (a := touchBase + ts.length - 1) (by simp only [touchBase]; omega) (by simp only [touchBase]; omega)]
      rw [exec_store_global (by omega), exec_mload_at (by simp only [touchBase]; omega), exec_mstore_at (by simp only [touchBase]; omega)]
      kexec []
      rw [set_ne (by simp only [touchBase]; omega), show touchBase + ts.length - 1 - 0x1e00000000 = ts.length - 1 by simp only [touchBase]; omega,
        show touchBase + ts.length - 1 = touchBase + (ts.length - 1) by omega]
      exact .ret ⟨rfl, i, hi', e, rfl⟩
    · rw [if_pos (fun h => e h.symm)]
      kexec [m_increment, m_add_const]
      rw [wadd_small (by simp only [touchBase]; omega), show 1 + (touchBase + i) = touchBase + (i + 1) by omega]
      renter hP in touchedCode
      exact ih (i + 1) (by omega)

theorem run_remove_touched (hP : P.Has touchedCode) (hpa : P.Has linkedListCode) (h : TouchedAre w ts) :
    Returns P False (.goto (P.addr "remove_touched_addresses") (a :: ret :: S) w) ret
      fun s w' => s = S ∧ ∃ i, ∃ h : i < ts.length, ts[i] = a ∧ w' = (w.set touchLen (ts.length - 1)).set (touchBase + i) (w.mem (touchBase + (ts.length - 1))) := by
  have := run_remove_touched_loop (a := a) (ret := ret) (S := S) hP hpa h ts.length 0 (by omega)
  have hf := h.fits
  renter hP in touchedCode
  rw [b_remove_touched_addresses, exec_load_global (by omega)]
  have hl : w.mem 0x500000022 = ts.length := h.len
  rw [hl]
  generalize b_remove_touched_addresses_loop = t at *
  kexec []
  rw [wadd_small (by omega)]
  exact this

/-- `remove_selfdestruct_list`. -/
theorem run_remove_dead_loop {ds : List Nat} (hP : P.Has selfdestructListCode) (h : DeadAre w ds) :
    ∀ d i, i + d = ds.length → (∀ j (h : j < ds.length), j < i → ds[j] ≠ a) →
    ∃ w', Reaches P (exec P b_remove_selfdestruct_list_loop ((0x1600000000 + i) :: (0x1600000000 + ds.length) :: a :: ret :: S) w) (.goto ret S w') ∧
      ((a ∉ ds ∧ w' = w) ∨ ∃ i, ∃ h : i < ds.length, ds[i] = a ∧ w' = (w.set 0x50000001e (ds.length - 1)).set (0x1600000000 + i) (w.mem (0x1600000000 + (ds.length - 1)))) := by
  intro d
  have hf := h.fits
  induction d with
  | zero =>
    intro i hi hn
    have hi : i = ds.length := by omega
    subst hi
    refine ⟨w, ?_, .inl ⟨fun hm => ?_, rfl⟩⟩
    · rw [b_remove_selfdestruct_list_loop]
      kexec []
      rw [if_neg (by simp)]
      enter hP in selfdestructListCode
      rw [b_remove_selfdestruct_not_found]
      kexec [m_pop3, rep]
      exact .refl _
    · obtain ⟨j, hj, e⟩ := List.getElem_of_mem hm
      exact hn j hj hj e
  | succ d ih =>
    intro i hi hn
    have hi' : i < ds.length := by omega
    rw [b_remove_selfdestruct_list_loop]
    kexec []
    rw [if_pos (by omega), exec_mload_at (by omega), h.at_ i hi']
    kexec []
    by_cases e : ds[i] = a
    · rw [if_neg (by simp [e])]
      refine ⟨_, ?_, .inr ⟨i, hi', e, rfl⟩⟩
      enter hP in selfdestructListCode
      rw [b_remove_selfdestruct_list_found]
      kexec []
      rw [wsub_small (a := 0x1600000000 + ds.length) (by omega) (by omega), wsub_small (a := 0x1600000000 + ds.length - 1) (by omega) (by omega)]
      rw [exec_store_global (by omega), exec_mload_at (by omega), exec_mstore_at (by omega)]
      kexec []
      rw [set_ne (by omega), show 0x1600000000 + ds.length - 1 - 0x1600000000 = ds.length - 1 by omega,
        show 0x1600000000 + ds.length - 1 = 0x1600000000 + (ds.length - 1) by omega]
      exact .refl _
    · rw [if_pos (fun h => e h.symm)]
      kexec [m_increment, m_add_const]
      rw [wadd_small (by omega), show 1 + (0x1600000000 + i) = 0x1600000000 + (i + 1) by omega]
      obtain ⟨w', R, hw'⟩ := ih (i + 1) (by omega) fun j h1 h2 => by
        by_cases hj : j = i
        · subst hj; exact e
        · exact hn j h1 (by omega)
      refine ⟨w', ?_, hw'⟩
      enter hP in selfdestructListCode
      exact R

theorem run_remove_dead {ds : List Nat} (hP : P.Has selfdestructListCode) (h : DeadAre w ds) :
    ∃ w', Reaches P (.goto (P.addr "remove_selfdestruct_list") (a :: ret :: S) w) (.goto ret S w') ∧
      ((a ∉ ds ∧ w' = w) ∨ ∃ i, ∃ h : i < ds.length, ds[i] = a ∧ w' = (w.set 0x50000001e (ds.length - 1)).set (0x1600000000 + i) (w.mem (0x1600000000 + (ds.length - 1)))) := by
  obtain ⟨w', R, hw'⟩ := run_remove_dead_loop (a := a) (ret := ret) (S := S) hP h ds.length 0 (by omega) (by omega)
  have hf := h.fits
  refine ⟨w', ?_, hw'⟩
  enter hP in selfdestructListCode
  rw [b_remove_selfdestruct_list, exec_load_global (by omega), h.len]
  generalize b_remove_selfdestruct_list_loop = t at *
  kexec []
  rw [wadd_small (by omega)]
  exact R

/-- Looking up an account, for every hint: the blocks that hash an address and search for it. -/
theorem run_find {l : String} (hR : P.ReadsState) (hl : P.Has [(l, [SUB, KECCAK_GENERAL, I.push (.lab "search_account"), JUMP])]) (hw : Words w) (h : AccountsAre w n ps f)
    (ha : P.addrKey a < u256Max) :
    Returns P False (.goto (P.addr "mstore_unpacking") (0x700000000 :: a :: 20 :: P.addr l :: 20 :: 20 :: ret :: S) w) ret
      fun s w' => w' = w.looked a ∧ (s = 0 :: S ∨ ∃ v, f (P.addrKey a) = some v ∧ s = v :: S) := by
  refine .of (run_store_word hR.copies (by omega) (by omega)) ?_
  refine .enter hl (.head _) ?_
  rw [exec_hash_word (by omega)]
  kexec []
  exact (run_search_account (ret := ret) (S := S) hR.list (scratch_words hw) (scratch_accounts (v := a) (n := 20) (by omega) h) ha).mono id
    fun s w' ⟨e, hs⟩ => ⟨e, hs.imp (fun h => h.1) id⟩

/-- The entry at `ptr`. -/
structure EntryAt (w : World) (ptr : Nat) (l : List Nat) : Prop where
  fits : ptr + l.length ≤ 2 ^ 32
  at_ : ∀ j, j < l.length → w.mem (jdatBase + ptr + j) = l.getD j 0

theorem EntryAt.get (h : EntryAt w ptr s) (j : Nat) (hj : j < s.length) : w.mem (0x1c00000000 + (ptr + j)) = s.getD j 0 := by
  rw [← h.at_ j hj]; congr 1; simp only [jdatBase]; omega

/-- `%mload_journal_data`. -/
theorem exec_journal_data {q : Nat} (hq : q < 2 ^ 32) : exec P (m_mload_journal_data ++ c) (q :: s) w = exec P c (w.mem (0x1c00000000 + q) :: s) w := by
  kexec [m_mload_journal_data, m_mload_kernel, m_build_kernel_address]
  rw [wadd_small (by omega), exec_mload_at (by omega)]

theorem exec_journal_load_1 {t x : Nat} (h : EntryAt w ptr [t, x]) : exec P (m_journal_load_1 ++ c) (ptr :: s) w = exec P c (x :: s) w := by
  have h1 := h.fits
  have h2 := h.get 1 (by simp)
  simp only [List.length_cons, List.length_nil] at h1
  have e := fun c s => exec_journal_data (P := P) (c := c) (s := s) (w := w) (q := ptr + 1) (by omega)
  rw [m_journal_load_1, m_add_const]
  generalize m_mload_journal_data = t at *
  kexec []
  rw [wadd_small (by omega), Nat.add_comm 1 ptr, e, h2]
  rfl

theorem exec_journal_load_2 {t x y : Nat} (h : EntryAt w ptr [t, x, y]) : exec P (m_journal_load_2 ++ c) (ptr :: s) w = exec P c (x :: y :: s) w := by
  have h1 := h.fits
  have h2 := h.get 1 (by simp)
  have h3 := h.get 2 (by simp)
  simp only [List.length_cons, List.length_nil] at h1
  have e1 := fun c s => exec_journal_data (P := P) (c := c) (s := s) (w := w) (q := ptr + 1) (by omega)
  have e2 := fun c s => exec_journal_data (P := P) (c := c) (s := s) (w := w) (q := ptr + 2) (by omega)
  rw [m_journal_load_2, m_add_const, m_add_const]
  generalize m_mload_journal_data = t at *
  kexec []
  rw [wadd_small (by omega), Nat.add_comm 2 ptr, e2, h3]
  kexec []
  rw [wadd_small (by omega), Nat.add_comm 1 ptr, e1, h2]
  rfl

theorem exec_journal_load_3 {t x y z : Nat} (h : EntryAt w ptr [t, x, y, z]) : exec P (m_journal_load_3 ++ c) (ptr :: s) w = exec P c (x :: y :: z :: s) w := by
  have h1 := h.fits
  have h2 := h.get 1 (by simp)
  have h3 := h.get 2 (by simp)
  have h4 := h.get 3 (by simp)
  simp only [List.length_cons, List.length_nil] at h1
  have e1 := fun c s => exec_journal_data (P := P) (c := c) (s := s) (w := w) (q := ptr + 1) (by omega)
  have e2 := fun c s => exec_journal_data (P := P) (c := c) (s := s) (w := w) (q := ptr + 2) (by omega)
  have e3 := fun c s => exec_journal_data (P := P) (c := c) (s := s) (w := w) (q := ptr + 3) (by omega)
  rw [m_journal_load_3, m_add_const, m_add_const, m_add_const]
  generalize m_mload_journal_data = t at *
  kexec []
  rw [wadd_small (by omega), Nat.add_comm 3 ptr, e3, h4]
  kexec []
  rw [wadd_small (by omega), Nat.add_comm 2 ptr, e2, h3]
  kexec []
  rw [wadd_small (by omega), Nat.add_comm 1 ptr, e1, h2]
  rfl

/-- The kernel has the code for undoing. -/
structure Prog.Reverts (P : Prog) : Prop where
  deletes : P.Deletes
  pays : P.Pays
  insert : P.Has stateInsertCode
  access : P.Has accessCode
  dead : P.Has selfdestructListCode
  undo : P.Has undoCode
  revert : P.Has revertCode

/-- The prover's answers are not below the lists of accessed addresses and slots, and honest when ether is moved. -/
structure Fair (P : Prog) (o : Out) : Prop where
  addrs : ∀ s v, Reaches P o (.goto (P.addr "remove_accessed_addresses") s v) → addrBase ≤ 2 * v.inp 0
  keys : ∀ s v, Reaches P o (.goto (P.addr "remove_accessed_storage_keys") s v) → keyBase ≤ 4 * v.inp 0
  accounts : ∀ a b s v n ps f, Reaches P o (.goto (P.addr "transfer_eth") (a :: b :: s) v) → AccountsAre v n ps f →
    AccHonest v 0 ps (P.addrKey a) ∧ AccHonest v 1 ps (P.addrKey b) ∧ AccHonest v 2 ps (P.addrKey b)

theorem Fair.of {o o' : Out} (h : Fair P o) (hr : Reaches P o o') : Fair P o' :=
  ⟨fun s v h' => h.addrs s v (hr.trans h'), fun s v h' => h.keys s v (hr.trans h'), fun a b s v n ps f h' => h.accounts a b s v n ps f (hr.trans h')⟩

/-- What is known after an entry has been undone: memory holds something as good as `σ`, nothing else has changed and there is room for `k` more entries. -/
def Undone (k : Nat) (w : World) (js : List (List Nat)) (n m : Nat) (σ : Snap) (w' : World) : Prop :=
  w'.ctx = w.ctx ∧ (∀ b, ¬ RevCell b ∨ b = 0x500000002 → w'.mem b = w.mem b) ∧
    ∃ τ' m', m' ≤ m + 1 ∧ StateRoom w' js τ'.touched k ∧ SnapIs w' js τ' n m' ∧ Same σ τ'

/-- The same, where the size of the journal has not changed either. -/
def Undoes (w : World) (js : List (List Nat)) (n m : Nat) (τ σ : Snap) (w' : World) : Prop :=
  w'.ctx = w.ctx ∧ (∀ b, ¬ RevCell b ∨ b = 0x500000002 ∨ b = jdatLen → w'.mem b = w.mem b) ∧
    ∃ τ' m', m' ≤ m + 1 ∧ τ'.touched.length ≤ τ.touched.length ∧ SnapIs w' js τ' n m' ∧ Same σ τ'

theorem Undoes.undone {k : Nat} (h : Undoes w js n m τ σ w') (hr : StateRoom w js τ.touched (k + 3)) : Undone k w js n m σ w' := by
  obtain ⟨h1, h2, τ', m', h3, h4, h5, h6⟩ := h
  have r1 := hr.data; have r2 := hr.journal; have r3 := hr.touched
  exact ⟨h1, fun b hb => h2 b (hb.imp id .inl), τ', m', h3, ⟨by rw [h2 _ (.inr (.inr rfl))]; omega, by omega, by omega⟩, h5, h6⟩

theorem SnapIs.words (h : SnapIs w js τ n m) : Words w := by obtain ⟨_, _, h, -⟩ := h.state; exact h.words
theorem SnapIs.journal (h : SnapIs w js τ n m) : JournalIs w js := by obtain ⟨_, _, h, -⟩ := h.state; exact h.journal

theorem SnapIs.with_state {X : Nat → Option Acct} {Y : List Nat} (h : SnapIs w js τ n m) (hs : ∃ ps f, StateIs w' n ps f js Y ∧ w'.accts f = X)
    (hm : ∀ b, ¬ (StateCell b ∨ Scratch b) → w'.mem b = w.mem b) : SnapIs w' js { τ with accts := X, touched := Y } n m :=
  ⟨hs, h.slots_of fun b hb => hm b (by cells), h.addrs_of fun b hb => hm b (by cells), h.keys_of fun b hb => hm b (by cells),
    DeadAre.of_same h.dead fun b hb => hm b (by cells), h.created_of fun b hb => hm b (by cells),
    (hm _ (by cells)).trans h.refund, (hm _ (by cells)).trans h.logs, (hm _ (by cells)).trans h.logData,
    (hm _ (by cells)).trans h.logPayload⟩

theorem SnapIs.with_slots {m' : Nat} {G : Nat → Nat → Option Nat} (h : SnapIs w js τ n m) (hw : Words w') (hs : ∃ qs, SlotsAre w' m' qs G)
    (hm : ∀ b, ¬ (SlotCell b ∨ Scratch b) → w'.mem b = w.mem b) : SnapIs w' js { τ with slots := G } n m' :=
  ⟨h.state_of hw fun b hb => hm b (by cells), hs, h.addrs_of fun b hb => hm b (by cells), h.keys_of fun b hb => hm b (by cells),
    DeadAre.of_same h.dead fun b hb => hm b (by cells), h.created_of fun b hb => hm b (by cells),
    (hm _ (by cells)).trans h.refund, (hm _ (by cells)).trans h.logs, (hm _ (by cells)).trans h.logData,
    (hm _ (by cells)).trans h.logPayload⟩

theorem SnapIs.with_addrs {A : Nat → Prop} (h : SnapIs w js τ n m) (hw : Words w') (hs : ∃ n ps, AddrsAre w' n ps A)
    (hm : ∀ b, ¬ AddrCell b → w'.mem b = w.mem b) : SnapIs w' js { τ with addrs := A } n m :=
  ⟨h.state_of hw fun b hb => hm b (by cells), h.slots_of fun b hb => hm b (by cells), hs, h.keys_of fun b hb => hm b (by cells),
    DeadAre.of_same h.dead fun b hb => hm b (by cells), h.created_of fun b hb => hm b (by cells),
    (hm _ (by cells)).trans h.refund, (hm _ (by cells)).trans h.logs, (hm _ (by cells)).trans h.logData, (hm _ (by cells)).trans h.logPayload⟩

theorem SnapIs.with_keys {K : Nat → Nat → Prop} (h : SnapIs w js τ n m) (hw : Words w') (hs : ∃ n ps f, KeysAre w' n ps f ∧ ∀ a k, K a k ↔ k < 2 ^ 256 ∧ ∃ q, f a k = some q)
    (hm : ∀ b, ¬ KeyCell b → w'.mem b = w.mem b) : SnapIs w' js { τ with keys := K } n m :=
  ⟨h.state_of hw fun b hb => hm b (by cells), h.slots_of fun b hb => hm b (by cells), h.addrs_of fun b hb => hm b (by cells), hs,
    DeadAre.of_same h.dead fun b hb => hm b (by cells), h.created_of fun b hb => hm b (by cells),
    (hm _ (by cells)).trans h.refund, (hm _ (by cells)).trans h.logs, (hm _ (by cells)).trans h.logData, (hm _ (by cells)).trans h.logPayload⟩

theorem SnapIs.with_dead {ds : List Nat} (h : SnapIs w js τ n m) (hw : Words w') (hs : DeadAre w' ds)
    (hm : ∀ b, ¬ DeadArea b → w'.mem b = w.mem b) : SnapIs w' js { τ with dead := ds } n m :=
  ⟨h.state_of hw fun b hb => hm b (by cells), h.slots_of fun b hb => hm b (by cells), h.addrs_of fun b hb => hm b (by cells), h.keys_of fun b hb => hm b (by cells), hs,
    h.created_of fun b hb => hm b (by cells),
    (hm _ (by cells)).trans h.refund, (hm _ (by cells)).trans h.logs, (hm _ (by cells)).trans h.logData, (hm _ (by cells)).trans h.logPayload⟩

theorem SnapIs.with_created {cs : List Nat} (h : SnapIs w js τ n m) (hw : Words w') (hs : CreatedAre w' cs)
    (hm : ∀ b, ¬ CreatedArea b → w'.mem b = w.mem b) : SnapIs w' js { τ with created := cs } n m :=
  ⟨h.state_of hw fun b hb => hm b (by cells), h.slots_of fun b hb => hm b (by cells), h.addrs_of fun b hb => hm b (by cells), h.keys_of fun b hb => hm b (by cells),
    DeadAre.of_same h.dead fun b hb => hm b (by cells), hs,
    (hm _ (by cells)).trans h.refund, (hm _ (by cells)).trans h.logs, (hm _ (by cells)).trans h.logData, (hm _ (by cells)).trans h.logPayload⟩

theorem SnapIs.with_counters (h : SnapIs w js τ n m) (hw : Words w')
    (hm : ∀ b, ¬ (b = refundCell ∨ (0x500000027 ≤ b ∧ b < 0x50000002a)) → w'.mem b = w.mem b) :
    SnapIs w' js { τ with refund := w'.mem refundCell, logs := w'.mem 0x500000027, logData := w'.mem 0x500000028, logPayload := w'.mem 0x500000029 } n m :=
  ⟨h.state_of hw fun b hb => hm b (by cells), h.slots_of fun b hb => hm b (by cells), h.addrs_of fun b hb => hm b (by cells), h.keys_of fun b hb => hm b (by cells),
    DeadAre.of_same h.dead fun b hb => hm b (by cells), h.created_of fun b hb => hm b (by cells), rfl, rfl, rfl, rfl⟩

end Verif.Kasm
