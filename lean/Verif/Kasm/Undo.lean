import Verif.Kasm.Revert

/-! Undoing each kind of entry of the journal. -/

namespace Verif.Kasm

variable {P : Prog} {S : List Nat} {w w' : World} {ret n m : Nat} {ps qs ts : List Nat} {f : Nat → Option Nat} {g : Nat → Nat → Option Nat}
  {js : List (List Nat)} {a ptr : Nat} {σ σ' τ : Snap} {e : Entry} {c : List I} {s : List Nat}

/-- `revert_refund`. -/
theorem run_revert_refund {x : Nat} (hR : P.Reverts) (h : SnapIs w js τ n m) (hd : (Entry.refund x).Does P σ σ') (hs : Same σ' τ) (he : EntryAt w ptr [8, x]) :
    Returns P False (.goto (P.addr "revert_refund") (8 :: ptr :: ret :: S) w) ret fun s w' => s = S ∧ Undoes w js n m τ σ w' := by
  obtain ⟨hx, hσ, rfl⟩ := hd
  renter hR.undo in undoCode
  rw [b_revert_refund]
  have e1 := fun c s => exec_journal_load_1 (P := P) (c := c) (s := s) he
  generalize m_journal_load_1 = t at *
  kexec []
  rw [e1, exec_load_global (by omega)]
  kexec []
  rw [exec_store_global (by omega)]
  kexec []
  have hr : w.mem 0x50000001b = (σ.refund + x) % 2 ^ 256 := h.refund.trans hs.refund
  have hr' : wsub (w.mem 0x50000001b) x = σ.refund := by rw [hr]; simp only [wsub]; omega
  rw [hr']
  have h' := h.with_counters (w' := w.set 0x50000001b σ.refund) (h.words.set hσ) fun b hb => set_ne (by cells)
  refine .ret ⟨rfl, rfl, fun b hb => set_ne (by cells), _, m, by omega, by exact Nat.le_refl _, h', ?_⟩
  refine ⟨hs.accts, hs.slots, hs.addrs, hs.keys, hs.touched, hs.touched3, hs.dead, hs.created, ?_, ?_, ?_, ?_⟩
  · show (w.set 0x50000001b σ.refund).mem 0x50000001b = _
    exact set_same
  · show (w.set 0x50000001b σ.refund).mem 0x500000027 = _
    rw [set_ne (by omega)]; exact h.logs.trans hs.logs
  · show (w.set 0x50000001b σ.refund).mem 0x500000028 = _
    rw [set_ne (by omega)]; exact h.logData.trans hs.logData
  · show (w.set 0x50000001b σ.refund).mem 0x500000029 = _
    rw [set_ne (by omega)]; exact h.logPayload.trans hs.logPayload

/-- `revert_log`. -/
theorem run_revert_log {d p : Nat} (hR : P.Reverts) (h : SnapIs w js τ n m) (hd : (Entry.log d p).Does P σ σ') (hs : Same σ' τ) (he : EntryAt w ptr [10, d, p])
    (hd' : d < 2 ^ 256) (hp : p < 2 ^ 256) :
    Returns P False (.goto (P.addr "revert_log") (10 :: ptr :: ret :: S) w) ret fun s w' => s = S ∧ Undoes w js n m τ σ w' := by
  obtain ⟨d', p', rfl, rfl, hl, rfl⟩ := hd
  have hr : w.mem 0x500000027 = σ.logs + 1 := h.logs.trans hs.logs
  have hr' : wsub (w.mem 0x500000027) 1 = σ.logs := by rw [hr]; simp only [wsub]; omega
  have he' : EntryAt (w.set 0x500000027 σ.logs) ptr [10, σ.logData, σ.logPayload] := ⟨he.fits, fun j hj => by rw [set_ne (by simp only [jdatBase]; omega)]; exact he.at_ j hj⟩
  renter hR.undo in undoCode
  rw [b_revert_log]
  have e1 := fun c s => exec_journal_load_2 (P := P) (c := c) (s := s) he'
  generalize m_journal_load_2 = t at *
  kexec []
  rw [exec_load_global (by omega)]
  kexec []
  rw [hr', exec_store_global (by omega), e1, exec_store_global (by omega), exec_store_global (by omega)]
  kexec []
  have h' := h.with_counters (w' := ((w.set 0x500000027 σ.logs).set 0x500000028 σ.logData).set 0x500000029 σ.logPayload) (((h.words.set (by omega)).set hd').set hp) fun b hb => by
    rw [set_ne (by cells), set_ne (by cells), set_ne (by cells)]
  refine .ret ⟨rfl, rfl, fun b hb => by rw [set_ne (by cells), set_ne (by cells), set_ne (by cells)], _, m, by omega, by exact Nat.le_refl _, h', ?_⟩
  refine ⟨hs.accts, hs.slots, hs.addrs, hs.keys, hs.touched, hs.touched3, hs.dead, hs.created, ?_, ?_, ?_, ?_⟩
  · show (((w.set 0x500000027 σ.logs).set 0x500000028 σ.logData).set 0x500000029 σ.logPayload).mem 0x50000001b = _
    rw [set_ne (by omega), set_ne (by omega), set_ne (by omega)]; exact h.refund.trans hs.refund
  · show (((w.set 0x500000027 σ.logs).set 0x500000028 σ.logData).set 0x500000029 σ.logPayload).mem 0x500000027 = _
    rw [set_ne (by omega), set_ne (by omega), set_same]
  · show (((w.set 0x500000027 σ.logs).set 0x500000028 σ.logData).set 0x500000029 σ.logPayload).mem 0x500000028 = _
    rw [set_ne (by omega), set_same]
  · show (((w.set 0x500000027 σ.logs).set 0x500000028 σ.logData).set 0x500000029 σ.logPayload).mem 0x500000029 = _
    rw [set_same]

/-- `revert_account_touched`. -/
theorem run_revert_touched (hR : P.Reverts) (h : SnapIs w js τ n m) (hd : (Entry.touched a).Does P σ σ') (hs : Same σ' τ) (he : EntryAt w ptr [2, a]) :
    Returns P False (.goto (P.addr "revert_account_touched") (2 :: ptr :: ret :: S) w) ret fun s w' => s = S ∧ Undoes w js n m τ σ w' := by
  obtain ⟨hn, rfl⟩ := hd
  renter hR.undo in undoCode
  rw [b_revert_account_touched]
  have e1 := fun c s => exec_journal_load_1 (P := P) (c := c) (s := s) he
  generalize m_journal_load_1 = t at *
  kexec []
  rw [e1]
  kexec [m_eq_const]
  have ht := hs.touched
  by_cases h3 : a = 3
  · subst h3
    rw [if_neg (by simp)]
    renter hR.undo in undoCode
    rw [b_ripemd_account_touched]
    kexec []
    refine .ret ⟨rfl, rfl, fun b hb => rfl, τ, m, by omega, by exact Nat.le_refl _, h, ?_⟩
    exact ⟨hs.accts, hs.slots, hs.addrs, hs.keys, by simpa using ht, fun h => absurd h hn, hs.dead, hs.created, hs.refund, hs.logs, hs.logData, hs.logPayload⟩
  · rw [if_pos (by simpa [weq] using fun e : 3 = a => h3 e.symm)]
    obtain ⟨ps, f, hst, hac⟩ := h.state
    refine (run_remove_touched (ret := ret) (S := S) (a := a) hR.pays.touched hR.deletes.reads.list hst.touched).mono id ?_
    rintro s w' ⟨rfl, i, hi, hia, rfl⟩
    have hf := hst.touched.fits
    have hl := (hst.touched.listAt.swapOut hi (by simp only [touchLen, touchBase]; omega)).touched
    have hww : Words ((w.set touchLen (τ.touched.length - 1)).set (touchBase + i) (w.mem (touchBase + (τ.touched.length - 1)))) :=
      (hst.words.set (by omega)).set (hst.words _)
    have hc : ((w.set touchLen (τ.touched.length - 1)).set (touchBase + i) (w.mem (touchBase + (τ.touched.length - 1)))).ctx = w.ctx := rfl
    have hm : ∀ b, ¬ TouchArea b → ((w.set touchLen (τ.touched.length - 1)).set (touchBase + i) (w.mem (touchBase + (τ.touched.length - 1)))).mem b = w.mem b := fun b hb => by
      rw [set_ne (by cells), set_ne (by cells)]
    generalize (w.set touchLen (τ.touched.length - 1)).set (touchBase + i) (w.mem (touchBase + (τ.touched.length - 1))) = w2 at *
    have hst' : StateIs w2 n ps f js (swapOut τ.touched i) :=
      ⟨hww, hst.accounts.congr (hm _ (by cells)) fun b h1 h2 => hm b (by cells), hst.ptr, hst.apart, (hm _ (by cells)).trans hst.null, hst.journal.congr fun b hb => hm b (by cells), hl,
        by rw [hm _ (by cells)]; exact hst.size⟩
    have h' := h.with_state (w' := w2) ⟨ps, f, hst', (hst.accts_congr fun b h1 h2 => hm b (by cells)).trans hac⟩ fun b hb => hm b (by cells)
    refine ⟨rfl, hc, fun b hb => hm b (by cells), _, m, by omega, by simp only [swapOut_length]; omega, h', ?_⟩
    have hp := swapOut_perm hi
    rw [hia] at hp
    refine ⟨hs.accts, hs.slots, hs.addrs, hs.keys, ?_, fun h => ?_, hs.dead, hs.created, hs.refund, hs.logs, hs.logData, hs.logPayload⟩
    · have h1 := (hp.filter (· ≠ 3)).symm.trans ht
      rw [List.filter_append] at h1
      have h2 := h1.trans List.perm_append_comm
      simp [h3] at h2
      simpa using h2
    · have h1 := hs.touched3 (by simp [h])
      have h2 := hp.mem_iff.1 h1
      simp at h2
      exact h2.resolve_left fun e => h3 e.symm

/-- `revert_account_loaded`. -/
theorem run_revert_loaded (hR : P.Reverts) (h : SnapIs w js τ n m) (hd : (Entry.loaded a).Does P σ σ') (hs : Same σ' τ) (he : EntryAt w ptr [0, a]) (ha : a < u256Max)
    (hf : Fair P (.goto (P.addr "revert_account_loaded") (0 :: ptr :: ret :: S) w)) :
    Returns P False (.goto (P.addr "revert_account_loaded") (0 :: ptr :: ret :: S) w) ret fun s w' => s = S ∧ Undoes w js n m τ σ w' := by
  obtain ⟨hn, rfl⟩ := hd
  have ht := hs.addrs
  by_cases h3 : a = 3
  · subst h3
    renter hR.undo in undoCode
    rw [b_revert_account_loaded]
    have e1 := fun c s => exec_journal_load_1 (P := P) (c := c) (s := s) he
    generalize m_journal_load_1 = t at *
    kexec []
    rw [e1]
    kexec [m_eq_const]
    rw [if_neg (by simp)]
    renter hR.undo in undoCode
    rw [b_ripemd_account_loaded]
    kexec []
    refine .ret ⟨rfl, rfl, fun b hb => rfl, τ, m, by omega, by exact Nat.le_refl _, h, ?_⟩
    exact ⟨hs.accts, hs.slots, fun b hb => by simpa [hb] using ht b hb, hs.keys, hs.touched, hs.touched3, hs.dead, hs.created, hs.refund, hs.logs, hs.logData, hs.logPayload⟩
  · have hpre : Reaches P (.goto (P.addr "revert_account_loaded") (0 :: ptr :: ret :: S) w) (.goto (P.addr "remove_accessed_addresses") (a :: ret :: S) w) := by
      enter hR.undo in undoCode
      rw [b_revert_account_loaded]
      have e1 := fun c s => exec_journal_load_1 (P := P) (c := c) (s := s) he
      generalize m_journal_load_1 = t at *
      kexec []
      rw [e1]
      kexec [m_eq_const]
      rw [if_pos (by simpa [weq] using fun e : 3 = a => h3 e.symm)]
      exact .refl _
    have hlow := hf.addrs _ _ hpre
    refine .of hpre ?_
    obtain ⟨k, ps, hA⟩ := h.addrs
    refine (run_remove_addr (ret := ret) (S := S) hR.access h.words hA ha hlow).mono False.elim ?_
    rintro s w' ⟨rfl, ⟨hc, -, hm⟩, hw, hAa, ps', hA'⟩
    have hm : ∀ b, ¬ AddrCell b → w'.mem b = w.mem b := hm
    refine ⟨rfl, hc, fun b hb => hm b (by cells), _, m, by omega, by exact Nat.le_refl _, h.with_addrs hw ⟨k, ps', hA'⟩ hm, ?_⟩
    refine ⟨hs.accts, hs.slots, fun b hb => ?_, hs.keys, hs.touched, hs.touched3, hs.dead, hs.created, hs.refund, hs.logs, hs.logData, hs.logPayload⟩
    have := ht b hb
    simp only at this ⊢
    rw [this]
    constructor
    · rintro ⟨h1, h2⟩; exact h2.resolve_left h1
    · intro h1; exact ⟨fun e => hn (e ▸ h1), .inr h1⟩

/-- `revert_storage_loaded`. -/
theorem run_revert_slotLoaded {k : Nat} (hR : P.Reverts) (h : SnapIs w js τ n m) (hd : (Entry.slotLoaded a k).Does P σ σ') (hs : Same σ' τ) (he : EntryAt w ptr [6, a, k]) (ha : a < u256Max)
    (hk : k < 2 ^ 256) (hf : Fair P (.goto (P.addr "revert_storage_loaded") (6 :: ptr :: ret :: S) w)) :
    Returns P False (.goto (P.addr "revert_storage_loaded") (6 :: ptr :: ret :: S) w) ret fun s w' => s = S ∧ Undoes w js n m τ σ w' := by
  obtain ⟨hn, rfl⟩ := hd
  have ht := hs.keys
  have hpre : Reaches P (.goto (P.addr "revert_storage_loaded") (6 :: ptr :: ret :: S) w) (.goto (P.addr "remove_accessed_storage_keys") (a :: k :: ret :: S) w) := by
    enter hR.undo in undoCode
    rw [b_revert_storage_loaded]
    have e1 := fun c s => exec_journal_load_2 (P := P) (c := c) (s := s) he
    generalize m_journal_load_2 = t at *
    kexec []
    rw [e1]
    kexec []
    exact .refl _
  have hlow := hf.keys _ _ hpre
  refine .of hpre ?_
  obtain ⟨l, ps, g, hA, hg⟩ := h.keys
  refine (run_remove_key (ret := ret) (S := S) hR.access h.words hA ha hk hlow).mono False.elim ?_
  rintro s w' ⟨rfl, ⟨hc, -, hm⟩, hw, -, -, ps', hA'⟩
  have hm : ∀ b, ¬ KeyCell b → w'.mem b = w.mem b := hm
  refine ⟨rfl, hc, fun b hb => hm b (by cells), _, m, by omega, by exact Nat.le_refl _, h.with_keys (K := fun b j => ¬ (b = a ∧ j = k) ∧ τ.keys b j) hw ⟨l, ps', _, hA', fun b j => ?_⟩ hm, ?_⟩
  · rw [hg]
    by_cases e : b = a ∧ j = k
    · simp [upd2, e]
    · simp [upd2, e]
  · refine ⟨hs.accts, hs.slots, hs.addrs, fun b j => ?_, hs.touched, hs.touched3, hs.dead, hs.created, hs.refund, hs.logs, hs.logData, hs.logPayload⟩
    have := ht b j
    simp only at this ⊢
    rw [this]
    constructor
    · rintro ⟨h1, h2⟩; exact h2.resolve_left h1
    · intro h1; exact ⟨fun e => hn (e.1 ▸ e.2 ▸ h1), .inr h1⟩

theorem record_set_code {p v : Nat} : (w.set (0xc00000000 + p + 3) v).record p = { w.record p with codeHash := v } := by
  simp only [World.record, set_same]
  rw [set_ne (by omega), set_ne (by omega)]

theorem updAcct_undo {h : Nat → Option Acct} {key : Nat} {A B : Acct} (hA : h key = some A) : updAcct (updAcct h key B) key A = h := by
  funext k
  by_cases e : k = key
  · subst e; simp [updAcct, hA]
  · simp [updAcct, e]

/-- Undoing a write to the record of an account. -/
theorem Undoes.record {p d v : Nat} {A A' : Acct} {x : Nat} (h : SnapIs w js τ n m) (hst : StateIs w n ps f js τ.touched) (hac : w.accts f = τ.accts) (hf : f (P.addrKey a) = some p)
    (hd : d < 4) (hv : v < 2 ^ 256) (hA : σ.accts (P.addrKey a) = some A) (hs : Same { σ with accts := updAcct σ.accts (P.addrKey a) A' } τ)
    (hr : (((w.looked x).set (0xc00000000 + p + d) v).record p) = A) : Undoes w js n m τ σ ((w.looked x).set (0xc00000000 + p + d) v) := by
  have hst1 := looked_state (a := x) hst
  obtain ⟨h1, ⟨h2, -, h3⟩, h4, -⟩ := record_set hst1 hf hd hv
  have hp := hst.ptr _ _ hf
  have hm : ∀ b, ¬ ((0xc00000000 ≤ b ∧ b < 0xd00000000) ∨ Scratch b) → ((w.looked x).set (0xc00000000 + p + d) v).mem b = w.mem b := fun b hb => by
    simp only [Scratch] at hb
    rw [set_ne (by omega), looked_mem (by omega)]
  refine ⟨h2.trans looked_ctx, fun b hb => hm b (by cells), _, m, by omega, by exact Nat.le_refl _, h.with_state ⟨ps, f, h1, h4⟩ fun b hb => hm b (by cells), ?_⟩
  refine ⟨?_, hs.slots, hs.addrs, hs.keys, hs.touched, hs.touched3, hs.dead, hs.created, hs.refund, hs.logs, hs.logData, hs.logPayload⟩
  show updAcct ((w.looked x).accts f) _ _ = _
  rw [hr, looked_accts, hac, hs.accts]
  exact updAcct_undo hA

/-- The record of an account. -/
theorem accts_record {p key : Nat} {h : Nat → Option Acct} {A : Acct} (hac : w.accts f = h) (hf : f key = some p) (hA : h key = some A) : w.record p = A := by
  rw [← hac] at hA
  simpa [World.accts, hf] using hA

/-- `revert_nonce_change`. -/
theorem run_revert_nonce {v : Nat} (hR : P.Reverts) (h : SnapIs w js τ n m) (hd : (Entry.nonce a v).Does P σ σ') (hs : Same σ' τ) (he : EntryAt w ptr [4, a, v]) (ha : P.addrKey a < u256Max)
    (hv : v < 2 ^ 256) :
    Returns P False (.goto (P.addr "revert_nonce_change") (4 :: ptr :: ret :: S) w) ret fun s w' => s = S ∧ Undoes w js n m τ σ w' := by
  obtain ⟨A, u, hA, hvA, rfl⟩ := hd
  obtain ⟨ps, f, hst, hac⟩ := h.state
  renter hR.undo in undoCode
  rw [b_revert_nonce_change]
  have e1 := fun c s => exec_journal_load_2 (P := P) (c := c) (s := s) he
  generalize m_journal_load_2 = t at *
  kexec []
  rw [e1]
  kexec []
  refine (run_find (l := "nonce_change@3.after_mstore") hR.deletes.reads (hR.undo.mono (by simp [undoCode, b_nonce_change_3_after_mstore, m_jump])) hst.words hst.accounts ha).andThen ?_
  rintro _ _ ⟨rfl, rfl | ⟨p, hp, rfl⟩⟩
  · renter hR.undo in undoCode
    rw [b_nonce_change_1_after]
    kexec [m_assert_nonzero0]
    exact .of (reach_panic hR.deletes.reads.list) (.panic id)
  · have hp' := hst.ptr _ _ hp
    renter hR.undo in undoCode
    rw [b_nonce_change_1_after]
    have e2 := fun c s => exec_mstore_trie (P := P) (c := c) (s := s) (w := w.looked a) (q := p) (v := v) (by omega)
    generalize m_mstore_trie_data = t at *
    kexec [m_assert_nonzero0]
    rw [if_pos (by simp; omega), e2]
    kexec []
    have hr := accts_record hac hp (A := { A with nonce := u }) (by rw [hs.accts]; simp [updAcct])
    exact .ret ⟨rfl, Undoes.record (d := 0) (x := a) h hst hac hp (by omega) hv hA hs (by rw [record_set_nonce, looked_record, hr, hvA])⟩

/-- `revert_code_change`. -/
theorem run_revert_code {v : Nat} (hR : P.Reverts) (h : SnapIs w js τ n m) (hd : (Entry.code a v).Does P σ σ') (hs : Same σ' τ) (he : EntryAt w ptr [7, a, v]) (ha : P.addrKey a < u256Max)
    (hv : v < 2 ^ 256) :
    Returns P False (.goto (P.addr "revert_code_change") (7 :: ptr :: ret :: S) w) ret fun s w' => s = S ∧ Undoes w js n m τ σ w' := by
  obtain ⟨A, u, hA, hvA, rfl⟩ := hd
  obtain ⟨ps, f, hst, hac⟩ := h.state
  renter hR.undo in undoCode
  rw [b_revert_code_change]
  have e1 := fun c s => exec_journal_load_2 (P := P) (c := c) (s := s) he
  generalize m_journal_load_2 = t at *
  kexec []
  rw [e1]
  kexec []
  refine (run_find (l := "code_change@3.after_mstore") hR.deletes.reads (hR.undo.mono (by simp [undoCode, b_code_change_3_after_mstore, m_jump])) hst.words hst.accounts ha).andThen ?_
  rintro _ _ ⟨rfl, rfl | ⟨p, hp, rfl⟩⟩
  · renter hR.undo in undoCode
    rw [b_code_change_1_after]
    kexec [m_assert_nonzero0]
    exact .of (reach_panic hR.deletes.reads.list) (.panic id)
  · have hp' := hst.ptr _ _ hp
    renter hR.undo in undoCode
    rw [b_code_change_1_after]
    have e2 := fun c s => exec_mstore_trie (P := P) (c := c) (s := s) (w := w.looked a) (q := 3 + p) (v := v) (by omega)
    generalize m_mstore_trie_data = t at *
    kexec [m_assert_nonzero0, m_add_const]
    rw [if_pos (by simp; omega), wadd_small (by omega), e2]
    kexec []
    rw [show 0xc00000000 + (3 + p) = 0xc00000000 + p + 3 by omega]
    have hr := accts_record hac hp (A := { A with codeHash := u }) (by rw [hs.accts]; simp [updAcct])
    exact .ret ⟨rfl, Undoes.record (d := 3) (x := a) h hst hac hp (by omega) hv hA hs (by rw [record_set_code, looked_record, hr, hvA])⟩

theorem upd2_undo {g : Nat → Nat → Option Nat} {k j : Nat} {x y : Option Nat} (h : g k j = x) : upd2 (upd2 g k j y) k j x = g := by
  funext b i
  by_cases e : b = k ∧ i = j
  · simp [upd2, e, h]
  · simp [upd2, e]

/-- `revert_storage_change`. -/
theorem run_revert_slot {x v : Nat} (hR : P.Reverts) (h : SnapIs w js τ n m) (hd : (Entry.slot a x v).Does P σ σ') (hs : Same σ' τ) (he : EntryAt w ptr [5, a, x, v])
    (ha : P.addrKey a < u256Max) (hx : P.slotKey x < 2 ^ 256) (hv : v < 2 ^ 256) (hm : 5 * (m + 1) ≤ 2 ^ 32) :
    Returns P False (.goto (P.addr "revert_storage_change") (5 :: ptr :: ret :: S) w) ret fun s w' => s = S ∧ Undoes w js n m τ σ w' := by
  obtain ⟨u, hu, rfl⟩ := hd
  obtain ⟨qs, hq⟩ := h.slots
  renter hR.undo in undoCode
  rw [b_revert_storage_change]
  have e1 := fun c s => exec_journal_load_3 (P := P) (c := c) (s := s) he
  generalize m_journal_load_3 = t at *
  kexec []
  rw [e1]
  kexec []
  by_cases h0 : v = 0
  · rw [if_neg (by simp [h0])]
    renter hR.undo in undoCode
    rw [b_delete]
    kexec []
    refine .of (run_store_word hR.deletes.reads.copies (by omega) (by omega)) ?_
    renter hR.undo in undoCode
    rw [b_storage_change_7_after_mstore, exec_hash_word (by omega)]
    kexec []
    refine .of (run_store_word hR.deletes.reads.copies (by omega) (by omega)) ?_
    renter hR.undo in undoCode
    rw [b_storage_change_9_after_mstore, exec_hash_word (by omega)]
    kexec []
    have c1 : ((w.scratch 32 x).scratch 20 a).ctx = w.ctx := scratch_ctx.trans scratch_ctx
    have m1 : ∀ b, ¬ Scratch b → ((w.scratch 32 x).scratch 20 a).mem b = w.mem b := fun b hb => by
      simp only [Scratch] at hb
      rw [scratch_mem (by omega), scratch_mem (by omega)]
    have s1 := scratch_slots (u := 20) (v := a) (by omega) (scratch_slots (u := 32) (v := x) (by omega) hq)
    have w1 := scratch_words (n := 20) (v := a) (scratch_words (n := 32) (v := x) h.words)
    generalize (w.scratch 32 x).scratch 20 a = v1 at *
    refine (run_remove_slot (ret := ret) (S := S) hR.deletes.reads.list w1 s1 ha hx).mono False.elim ?_
    rintro s w' ⟨rfl, ⟨c2, -, m2⟩, w2, -, ps', s2⟩
    have m2 : ∀ b, ¬ SlotCell b → w'.mem b = v1.mem b := m2
    have hmm : ∀ b, ¬ (SlotCell b ∨ Scratch b) → w'.mem b = w.mem b := fun b hb => (m2 b fun e => hb (.inl e)).trans (m1 b fun e => hb (.inr e))
    refine ⟨rfl, c2.trans c1, fun b hb => hmm b (by cells), _, m, by omega, by exact Nat.le_refl _, h.with_slots w2 ⟨ps', s2⟩ hmm, ?_⟩
    refine ⟨hs.accts, ?_, hs.addrs, hs.keys, hs.touched, hs.touched3, hs.dead, hs.created, hs.refund, hs.logs, hs.logData, hs.logPayload⟩
    show upd2 τ.slots _ _ none = _
    rw [hs.slots]
    exact upd2_undo (by rw [hu, if_pos h0])
  · rw [if_pos (by simpa using h0)]
    refine .of (run_store_word hR.deletes.reads.copies (by omega) (by omega)) ?_
    renter hR.undo in undoCode
    rw [b_storage_change_3_after_mstore, exec_hash_word (by omega)]
    kexec []
    refine .of (run_store_word hR.deletes.reads.copies (by omega) (by omega)) ?_
    renter hR.undo in undoCode
    rw [b_storage_change_5_after_mstore, exec_hash_word (by omega)]
    kexec []
    have c1 : ((w.scratch 20 a).scratch 32 x).ctx = w.ctx := scratch_ctx.trans scratch_ctx
    have m1 : ∀ b, ¬ Scratch b → ((w.scratch 20 a).scratch 32 x).mem b = w.mem b := fun b hb => by
      simp only [Scratch] at hb
      rw [scratch_mem (by omega), scratch_mem (by omega)]
    have s1 := scratch_slots (u := 32) (v := x) (by omega) (scratch_slots (u := 20) (v := a) (by omega) hq)
    have w1 := scratch_words (n := 32) (v := x) (scratch_words (n := 20) (v := a) h.words)
    generalize (w.scratch 20 a).scratch 32 x = v1 at *
    refine ((run_insert_slot (ret := P.addr "storage_change@1.after") (S := ret :: S) hR.deletes.reads.list w1 s1 ha hx hv hm).mono False.elim fun _ _ h => h).andThen ?_
    rintro s w' ⟨rfl, ⟨c2, -, m2⟩, w2, m', ps', hm', s2⟩
    renter hR.undo in undoCode
    rw [b_storage_change_1_after]
    kexec []
    have m2 : ∀ b, ¬ SlotCell b → w'.mem b = v1.mem b := m2
    have hmm : ∀ b, ¬ (SlotCell b ∨ Scratch b) → w'.mem b = w.mem b := fun b hb => (m2 b fun e => hb (.inl e)).trans (m1 b fun e => hb (.inr e))
    refine .ret ⟨rfl, c2.trans c1, fun b hb => hmm b (by cells), _, m', hm', by exact Nat.le_refl _, h.with_slots w2 ⟨ps', s2⟩ hmm, ?_⟩
    refine ⟨hs.accts, ?_, hs.addrs, hs.keys, hs.touched, hs.touched3, hs.dead, hs.created, hs.refund, hs.logs, hs.logData, hs.logPayload⟩
    show upd2 τ.slots _ _ (some v) = _
    rw [hs.slots]
    exact upd2_undo (by rw [hu, if_neg h0])

/-- `revert_account_created`. -/
theorem run_revert_created {t : Nat} (hR : P.Reverts) (h : SnapIs w js τ n m) (hd : (Entry.created t a).Does P σ σ') (hs : Same σ' τ) (he : EntryAt w ptr [9, t, a])
    (ha : P.addrKey a < u256Max) :
    Returns P False (.goto (P.addr "revert_account_created") (9 :: ptr :: ret :: S) w) ret fun s w' => s = S ∧ Undoes w js n m τ σ w' := by
  obtain ⟨A, hA, hsl, rfl⟩ := hd
  have hpre : ∃ w1, Reaches P (.goto (P.addr "revert_account_created") (9 :: ptr :: ret :: S) w) (.goto (P.addr "delete_account") (a :: P.addr "account_created@1.after" :: ret :: S) w1) ∧
      SnapIs w1 js { τ with created := σ.created } n m ∧ w1.ctx = w.ctx ∧ (∀ b, b ≠ 0x50000002c → w1.mem b = w.mem b) := by
    by_cases h0 : t = 0
    · refine ⟨w, ?_, ?_, rfl, fun b hb => rfl⟩
      · enter hR.undo in undoCode
        rw [b_revert_account_created]
        have e1 := fun c s => exec_journal_load_2 (P := P) (c := c) (s := s) he
        generalize m_journal_load_2 = t at *
        kexec []
        rw [e1]
        kexec [h0]
        rw [b_revert_account_finish]
        kexec []
        exact .refl _
      · have := hs.created
        simp only [h0, if_true] at this
        rw [← this]
        exact h
    · have hcr := hs.created
      simp only [if_neg h0] at hcr
      have hc := h.created
      rw [hcr] at hc
      have hf := hc.fits
      have hl : w.mem 0x50000002c = (σ.created ++ [a]).length := hc.len
      simp only [List.length_append, List.length_singleton] at hf hl
      refine ⟨w.set 0x50000002c σ.created.length, ?_, ?_, rfl, fun b hb => set_ne hb⟩
      · enter hR.undo in undoCode
        rw [b_revert_account_created]
        have e1 := fun c s => exec_journal_load_2 (P := P) (c := c) (s := s) he
        generalize m_journal_load_2 = t at *
        kexec []
        rw [e1]
        kexec []
        rw [if_neg h0]
        enter hR.undo in undoCode
        rw [b_decrement_created_contracts_len, exec_load_global (by omega), hl]
        kexec [m_decrement, m_sub_const]
        rw [wsub_small (by omega) (by omega), Nat.add_sub_cancel, exec_store_global (by omega)]
        kexec []
        enter hR.undo in undoCode
        rw [b_revert_account_finish]
        kexec []
        exact .refl _
      · refine h.with_created (h.words.set (by omega)) ⟨set_same, by omega, fun j hj => ?_⟩ fun b hb => set_ne (by cells)
        rw [set_ne (by omega), hc.at_ j (by simp; omega)]
        exact List.getElem_append_left hj
  obtain ⟨w1, hpre, h1, c1, m1⟩ := hpre
  refine .of hpre ?_
  obtain ⟨ps, f, hst, hac⟩ := h1.state
  obtain ⟨qs, hq⟩ := h1.slots
  refine (run_delete_account (ret := P.addr "account_created@1.after") (S := ret :: S) hR.deletes hst hq ha).andThen ?_
  rintro s w' ⟨rfl, -, c2, m2, ps', qs', f', g', hst', hac', hq', hless⟩
  renter hR.undo in undoCode
  rw [b_account_created_1_after]
  kexec []
  have hg : g' = σ.slots := by
    funext b j
    have e : τ.slots = σ.slots := hs.slots
    rcases hless b j with h | ⟨rfl, h⟩
    · rw [h]; show τ.slots b j = _; rw [e]
    · rw [h, hsl j]
  have hD : w'.accts f' = σ.accts := by
    rw [hac', hac]
    show dropAcct τ.accts _ = _
    rw [hs.accts]
    funext k
    by_cases e : k = P.addrKey a
    · simp [dropAcct, e, hA]
    · simp [dropAcct, updAcct, e]
  have hmm : ∀ b, ¬ (DelCell b ∨ b = 0x50000002c) → w'.mem b = w.mem b := fun b hb => (m2 b fun e => hb (.inl e)).trans (m1 b fun e => hb (.inr e))
  rw [hg] at hq'
  have h2 : SnapIs w' js { τ with accts := σ.accts, slots := σ.slots, created := σ.created } n m :=
    ⟨⟨ps', f', hst', hD⟩, ⟨qs', hq'⟩, h1.addrs_of fun b hb => m2 b (by cells), h1.keys_of fun b hb => m2 b (by cells),
    DeadAre.of_same h1.dead fun b hb => m2 b (by cells), h1.created_of fun b hb => m2 b (by cells),
    (m2 _ (by cells)).trans h1.refund, (m2 _ (by cells)).trans h1.logs, (m2 _ (by cells)).trans h1.logData,
    (m2 _ (by cells)).trans h1.logPayload⟩
  refine .ret ⟨rfl, c2.trans c1, fun b hb => hmm b (by cells), _, m, by omega, by exact Nat.le_refl _, h2, ?_⟩
  exact ⟨rfl, rfl, hs.addrs, hs.keys, hs.touched, hs.touched3, hs.dead, rfl, hs.refund, hs.logs, hs.logData, hs.logPayload⟩

theorem destroy_undo {h : Nat → Option Acct} {k r x y : Nat} {A B R Q : Acct} (hA : h k = some A) (hx : x = A.balance) (hB : h r = some B) (hB' : B.balance < 2 ^ 256) (hy : k ≠ r → y = x)
    (hx' : x < 2 ^ 256)
    (hR : paid (updAcct h k { A with balance := 0 }) r y r = some R)
    (hQ : updAcct (paid (updAcct h k { A with balance := 0 }) r y) r { R with balance := wsub R.balance x } k = some Q) :
    updAcct (updAcct (paid (updAcct h k { A with balance := 0 }) r y) r { R with balance := wsub R.balance x }) k { Q with balance := x } = h := by
  by_cases e : k = r
  · subst e
    simp [paid, updAcct] at hR hQ
    subst hR
    subst hQ
    funext j
    by_cases e : j = k
    · subst e; simp [updAcct, hA, hx]
    · simp [updAcct, paid, e]
  · have := hy e
    subst this
    have e' : r ≠ k := fun h => e h.symm
    simp [paid, updAcct, e, e', hB] at hR hQ
    subst hR
    subst hQ
    funext j
    by_cases e1 : j = k
    · subst e1; simp [updAcct, hA, hx]
    · by_cases e2 : j = r
      · subst e2
        simp only [updAcct, if_neg e1, if_true, hB]
        have : wsub ((B.balance + y) % 2 ^ 256) y = B.balance := by simp only [wsub]; omega
        rw [this]
      · simp [updAcct, paid, e1, e2]

/-- `revert_account_destroyed`. -/
theorem run_revert_destroyed {r x : Nat} (hR : P.Reverts) (h : SnapIs w js τ n m) (hd : (Entry.destroyed a r x).Does P σ σ') (hs : Same σ' τ) (he : EntryAt w ptr [1, a, r, x])
    (ha : P.addrKey a < u256Max) (hr : P.addrKey r < u256Max) :
    Returns P False (.goto (P.addr "revert_account_destroyed") (1 :: ptr :: ret :: S) w) ret fun s w' => s = S ∧ Undoes w js n m τ σ w' := by
  obtain ⟨A, B, y, hA, hxA, hx, hB, hB', hy, hcase⟩ := hd
  have hpre : ∃ w1 ds, Reaches P (.goto (P.addr "revert_account_destroyed") (1 :: ptr :: ret :: S) w) (.goto (P.addr "revert_account_destroyed_contd") (a :: r :: x :: ret :: S) w1) ∧
      SnapIs w1 js { τ with dead := ds } n m ∧ ds.Perm σ.dead ∧ w1.ctx = w.ctx ∧ (∀ b, ¬ DeadArea b → w1.mem b = w.mem b) := by
    obtain ⟨w1, R, hw1⟩ := run_remove_dead (a := a) (ret := P.addr "revert_account_destroyed_contd") (S := a :: r :: x :: ret :: S) hR.dead h.dead
    have R' : Reaches P (.goto (P.addr "revert_account_destroyed") (1 :: ptr :: ret :: S) w) (.goto (P.addr "revert_account_destroyed_contd") (a :: r :: x :: ret :: S) w1) := by
      enter hR.undo in undoCode
      rw [b_revert_account_destroyed]
      have e1 := fun c s => exec_journal_load_3 (P := P) (c := c) (s := s) he
      generalize m_journal_load_3 = t at *
      kexec []
      rw [e1]
      kexec []
      exact R
    rcases hw1 with ⟨hn, rfl⟩ | ⟨i, hi, hia, rfl⟩
    · refine ⟨_, τ.dead, R', h, ?_, rfl, fun b hb => rfl⟩
      have h1 := hs.dead
      rcases hcase with ⟨hn', rfl⟩ | rfl
      · exact h1
      · exact absurd (h1.symm.mem_iff.1 (by simp)) hn
    · have hf := h.dead.fits
      have hp := swapOut_perm hi
      rw [hia] at hp
      refine ⟨_, swapOut τ.dead i, R', h.with_dead ((h.words.set (by omega)).set (h.words _)) (ListAt.swapOut h.dead hi (by omega)) fun b hb => ?_, ?_, rfl, fun b hb => ?_⟩
      · rw [set_ne (by cells), set_ne (by cells)]
      · have h1 := hs.dead
        rcases hcase with ⟨hn', rfl⟩ | rfl
        · exact absurd (h1.mem_iff.1 (by rw [← hia]; exact List.getElem_mem hi)) hn'
        · exact (hp.symm.trans (h1.trans List.perm_append_comm)).cons_inv
      · rw [set_ne (by cells), set_ne (by cells)]
  have hacc : τ.accts = paid (updAcct σ.accts (P.addrKey a) { A with balance := 0 }) (P.addrKey r) y := by
    have := hs.accts
    rcases hcase with ⟨-, rfl⟩ | rfl <;> exact this
  have hsame : ∀ ds : List Nat, ds.Perm σ.dead → Same σ { τ with accts := σ.accts, dead := ds } := fun ds hds => by
    rcases hcase with ⟨-, rfl⟩ | rfl <;>
      exact ⟨rfl, hs.slots, hs.addrs, hs.keys, hs.touched, hs.touched3, hds, hs.created, hs.refund, hs.logs, hs.logData, hs.logPayload⟩
  obtain ⟨w1, ds, hpre, h1, hds, c1, m1⟩ := hpre
  refine .of hpre ?_
  obtain ⟨ps, f, hst, hac⟩ := h1.state
  renter hR.undo in undoCode
  rw [b_revert_account_destroyed_contd]
  kexec []
  refine (run_find (l := "account_destroyed@3.after_mstore") hR.deletes.reads (hR.undo.mono (by simp [undoCode, b_account_destroyed_3_after_mstore, m_jump])) hst.words hst.accounts hr).andThen ?_
  rintro _ _ ⟨rfl, rfl | ⟨p, hp, rfl⟩⟩
  · renter hR.undo in undoCode
    rw [b_account_destroyed_1_after]
    kexec [m_assert_nonzero0]
    exact .of (reach_panic hR.deletes.reads.list) (.panic id)
  have hp' := hst.ptr _ _ hp
  have e2 := fun c s => exec_mload_trie (P := P) (c := c) (s := s) (w := w1.looked r) (q := 1 + p) (by omega)
  have e3 := fun c s v => exec_mstore_trie (P := P) (c := c) (s := s) (w := w1.looked r) (q := 1 + p) (v := v) (by omega)
  renter hR.undo in undoCode
  rw [b_account_destroyed_1_after]
  generalize m_mstore_trie_data = t3 at *
  generalize m_mload_trie_data = t2 at *
  kexec [m_assert_nonzero0, m_add_const]
  rw [if_pos (by simp; omega), wadd_small (by omega), e2]
  kexec []
  rw [e3]
  kexec []
  rw [show 0xc00000000 + (1 + p) = 0xc00000000 + p + 1 by omega]
  have hst1 := looked_state (a := r) hst
  have hv : wsub ((w1.looked r).mem (0xc00000000 + p + 1)) x < 2 ^ 256 := Nat.mod_lt _ (by omega)
  obtain ⟨k1, ⟨k2, -, k3⟩, k4, -⟩ := record_set hst1 hp (d := 1) (by omega) hv
  have hR1 : τ.accts (P.addrKey r) = some (w1.record p) := by rw [← show w1.accts f = τ.accts from hac]; simp [World.accts, hp]
  have hbal : (w1.looked r).mem (0xc00000000 + p + 1) = (w1.record p).balance := by rw [looked_mem (by omega)]; rfl
  rw [record_set_balance, looked_accts, looked_record, hac, hbal] at k4
  have m2 : ∀ b, ¬ ((0xc00000000 ≤ b ∧ b < 0xd00000000) ∨ Scratch b) →
      ((w1.looked r).set (0xc00000000 + p + 1) (wsub ((w1.looked r).mem (0xc00000000 + p + 1)) x)).mem b = w1.mem b := fun b hb => by
    simp only [Scratch] at hb
    rw [set_ne (by omega), looked_mem (by omega)]
  have c2 : ((w1.looked r).set (0xc00000000 + p + 1) (wsub ((w1.looked r).mem (0xc00000000 + p + 1)) x)).ctx = w1.ctx := k2.trans looked_ctx
  rw [hbal] at k1 m2 c2 ⊢
  generalize (w1.looked r).set (0xc00000000 + p + 1) (wsub (w1.record p).balance x) = w2 at *
  refine (run_find (l := "account_destroyed@6.after_mstore") hR.deletes.reads (hR.undo.mono (by simp [undoCode, b_account_destroyed_6_after_mstore, m_jump])) k1.words k1.accounts ha).andThen ?_
  rintro _ _ ⟨rfl, rfl | ⟨q, hq, rfl⟩⟩
  · renter hR.undo in undoCode
    rw [b_account_destroyed_4_after]
    kexec [m_assert_nonzero0]
    exact .of (reach_panic hR.deletes.reads.list) (.panic id)
  have hq' := hst.ptr _ _ hq
  have e4 := fun c s => exec_mstore_trie (P := P) (c := c) (s := s) (w := w2.looked a) (q := 1 + q) (v := x) (by omega)
  renter hR.undo in undoCode
  rw [b_account_destroyed_4_after]
  generalize m_mstore_trie_data = t3 at *
  kexec [m_assert_nonzero0, m_increment, m_add_const]
  rw [if_pos (by simp; omega), wadd_small (by omega), e4]
  kexec []
  rw [show 0xc00000000 + (1 + q) = 0xc00000000 + q + 1 by omega]
  have hst2 := looked_state (a := a) k1
  obtain ⟨l1, ⟨l2, -, l3⟩, l4, -⟩ := record_set hst2 hq (d := 1) (by omega) hx
  rw [record_set_balance, looked_accts, looked_record, k4] at l4
  have hQ1 : updAcct τ.accts (P.addrKey r) { w1.record p with balance := wsub (w1.record p).balance x } (P.addrKey a) = some (w2.record q) := by
    rw [← show w2.accts f = _ from k4]; simp [World.accts, hq]
  have hfin : ((w2.looked a).set (0xc00000000 + q + 1) x).accts f = σ.accts := by
    rw [l4]
    show updAcct (updAcct τ.accts _ _) _ _ = _
    rw [hacc] at hR1 hQ1 ⊢
    exact destroy_undo hA hxA hB hB' hy hx hR1 hQ1
  have m3 : ∀ b, ¬ ((0xc00000000 ≤ b ∧ b < 0xd00000000) ∨ Scratch b) → ((w2.looked a).set (0xc00000000 + q + 1) x).mem b = w1.mem b := fun b hb => by
    rw [← m2 b hb]
    simp only [Scratch] at hb
    rw [set_ne (by omega), looked_mem (by omega)]
  have h3 := h1.with_state ⟨ps, f, l1, hfin⟩ fun b hb => m3 b (by cells)
  exact .ret ⟨rfl, (l2.trans looked_ctx).trans (c2.trans c1), fun b hb => (m3 b (by cells)).trans (m1 b (by cells)), _, m, by omega, by exact Nat.le_refl _, h3, hsame ds hds⟩

theorem transfer_undo {h : Nat → Option Acct} {k r x : Nat} {A B B' : Acct} (hA : h k = some A) (hx : x ≤ A.balance) (hA' : A.balance < 2 ^ 256) (hB : h r = some B)
    (hsum : k ≠ r → A.balance + B.balance < 2 ^ 256) (hx0 : x ≠ 0) (hB' : paid (updAcct h k (taken A x)) r x r = some B') :
    credit (updAcct (paid (updAcct h k (taken A x)) r x) r (taken B' x)) k x = h ∧ updAcct (paid (updAcct h k (taken A x)) r x) r (taken B' x) k ≠ none := by
  by_cases e : k = r
  · subst e
    simp [paid, updAcct, taken] at hB'
    subst hB'
    refine ⟨?_, by simp [updAcct]⟩
    funext j
    by_cases e : j = k
    · subst e
      simp only [credit, if_neg hx0, updAcct, if_true, hA, Option.elim, taken]
      have : ((A.balance - x + x) % 2 ^ 256 - x + x) % 2 ^ 256 = A.balance := by omega
      rw [this]
    · simp [credit, hx0, updAcct, paid, e]
  · have e' : r ≠ k := fun h => e h.symm
    have := hsum e
    simp [paid, updAcct, e', hB] at hB'
    subst hB'
    refine ⟨?_, by simp [updAcct, paid, e]⟩
    funext j
    by_cases e1 : j = k
    · subst e1
      simp only [credit, if_neg hx0, updAcct, if_true, hA, Option.elim, taken, paid, if_neg e]
      have : (A.balance - x + x) % 2 ^ 256 = A.balance := by omega
      rw [this]
    · by_cases e2 : j = r
      · subst e2
        simp only [credit, if_neg hx0, updAcct, if_true, if_neg e1, hB, taken]
        have : (B.balance + x) % 2 ^ 256 - x = B.balance := by omega
        rw [this]
      · simp [credit, hx0, updAcct, paid, e1, e2]

theorem balCell_state {b : Nat} (h : BalCell b) : StateCell b ∨ Scratch b := by simp only [BalCell] at h; cells
theorem balCell_rev {b : Nat} (h : ¬ RevCell b ∨ b = 0x500000002) : ¬ BalCell b := by simp only [BalCell]; cells

/-- `revert_balance_transfer`. -/
theorem run_revert_transfer {b x k : Nat} (hR : P.Reverts) (h : SnapIs w js τ n m) (hd : (Entry.transfer a b x).Does P σ σ') (hs : Same σ' τ) (he : EntryAt w ptr [3, a, b, x])
    (ha : P.addrKey a < u256Max) (hb : P.addrKey b < u256Max) (ha' : a < 2 ^ 256) (hb' : b < 2 ^ 256) (hx : x < 2 ^ 256) (hr : StateRoom w js τ.touched (k + 3)) (hn : AccRoom w n)
    (hf : Fair P (.goto (P.addr "revert_balance_transfer") (3 :: ptr :: ret :: S) w)) :
    Returns P False (.goto (P.addr "revert_balance_transfer") (3 :: ptr :: ret :: S) w) ret fun s w' => s = S ∧ Undone k w js n m σ w' := by
  obtain ⟨A, B, hA, hle, hA', hB, hsum, hta, htb, hx0, rfl⟩ := hd
  obtain ⟨ps, f, hst, hac⟩ := h.state
  have hpre : Reaches P (.goto (P.addr "revert_balance_transfer") (3 :: ptr :: ret :: S) w) (.goto (P.addr "transfer_eth") (b :: a :: x :: P.addr "balance_transfer@1.after" :: ret :: S) w) := by
    enter hR.undo in undoCode
    rw [b_revert_balance_transfer]
    have e1 := fun c s => exec_journal_load_3 (P := P) (c := c) (s := s) he
    generalize m_journal_load_3 = t at *
    kexec []
    rw [e1]
    kexec []
    exact .refl _
  obtain ⟨hi0, hi1, hi2⟩ := hf.accounts _ _ _ _ _ _ _ hpre hst.accounts
  have htouch : ∀ c, c ∈ σ.touched → c ∈ τ.touched := fun c hc => by
    by_cases h3 : c = 3
    · subst h3; exact hs.touched3 hc
    · have := hs.touched.symm.mem_iff.1 (List.mem_filter.2 ⟨hc, by simpa using h3⟩)
      exact (List.mem_filter.1 this).1
  refine .of hpre ?_
  obtain ⟨w1, f1, s1, r1, hd⟩ := run_deduct (k := k + 2) (x := x) (ret := P.addr "transfer@1.after") (S := a :: x :: P.addr "balance_transfer@1.after" :: ret :: S) hR.pays hst hr hb hb' hi0
  simp only [touchLog, touchList, if_pos (htouch b htb), List.append_nil] at s1 r1
  renter hR.pays.transfer in transferCode
  rw [b_transfer_eth]
  kexec []
  rcases hd with ⟨B', hB', hle', g1, R1⟩ | ⟨hlt, g1, R1⟩
  · have hacc : τ.accts = paid (updAcct σ.accts (P.addrKey a) (taken A x)) (P.addrKey b) x := hs.accts
    rw [hac, hacc] at hB' g1
    obtain ⟨hu, hne⟩ := transfer_undo hA hle hA' hB hsum hx0 hB'
    obtain ⟨w2, n', ps', f', R2, s2, g2, c2, m2, r2, hlast⟩ := run_add_eth (k := k) (x := x) (ret := P.addr "transfer@2.after") (S := P.addr "balance_transfer@1.after" :: ret :: S) hR.pays hR.insert s1 r1 (hn.shift f1) ha ha' hx
      (f1.honest hst.accounts hi1) (f1.honest hst.accounts hi2)
    obtain ⟨rfl, rfl, rfl, i, -, hsh⟩ := hlast (.inr (by rw [g1]; exact hne))
    simp only [touchLog, touchList, if_pos (htouch a hta), List.append_nil, createLog, g1, hne, and_false, if_false] at s2 r2
    rw [g1, hu] at g2
    have R3 : Reaches P (.goto (P.addr "transfer@1.after") (0 :: a :: x :: P.addr "balance_transfer@1.after" :: ret :: S) w1) (.goto ret S w2) := by
      enter hR.pays.transfer in transferCode
      rw [b_transfer_1_after]
      kexec []
      refine R2.trans ?_
      enter hR.pays.transfer in transferCode
      rw [b_transfer_2_after]
      kexec []
      enter hR.undo in undoCode
      rw [b_balance_transfer_1_after]
      kexec []
      exact .refl _
    refine .of (R1.trans R3) ?_
    have hm : ∀ d, ¬ BalCell d → w2.mem d = w.mem d := fun d hd => (hsh.2.2 d hd).trans (f1.2.2 d hd)
    have h3 := h.with_state ⟨ps', f', s2, g2⟩ fun d hd => hm d fun e => hd (balCell_state e)
    refine .ret ⟨rfl, c2.trans f1.1, fun d hd => hm d (balCell_rev hd), _, m, by omega, by exact r2, h3, ?_⟩
    exact ⟨rfl, hs.slots, hs.addrs, hs.keys, hs.touched, hs.touched3, hs.dead, hs.created, hs.refund, hs.logs, hs.logData, hs.logPayload⟩
  · refine .of R1 ?_
    renter hR.pays.transfer in transferCode
    rw [b_transfer_1_after]
    kexec []
    renter hR.pays.transfer in transferCode
    rw [b_transfer_eth_failure]
    kexec []
    renter hR.undo in undoCode
    rw [b_balance_transfer_1_after]
    kexec []
    exact .of (reach_panic hR.deletes.reads.list) (.panic id)

end Verif.Kasm
