import Verif.Kasm.Undo

/-! Undoing the last entries of the journal. -/

namespace Verif.Kasm

variable {P : Prog} {S : List Nat} {w w' : World} {ret n m : Nat} {ps qs ts : List Nat} {f : Nat → Option Nat} {g : Nat → Nat → Option Nat}
  {js : List (List Nat)} {a ptr : Nat} {σ σ' τ : Snap} {e : Entry} {c : List I} {s : List Nat}

/-- Where an entry is undone (`asm/journal/revert.asm:3-20`). -/
def Entry.label : Entry → String
  | .loaded _ => "revert_account_loaded"
  | .destroyed _ _ _ => "revert_account_destroyed"
  | .touched _ => "revert_account_touched"
  | .transfer _ _ _ => "revert_balance_transfer"
  | .nonce _ _ => "revert_nonce_change"
  | .slot _ _ _ => "revert_storage_change"
  | .slotLoaded _ _ => "revert_storage_loaded"
  | .code _ _ => "revert_code_change"
  | .refund _ => "revert_refund"
  | .created _ _ => "revert_account_created"
  | .log _ _ => "revert_log"

/-- The keys of the accounts and slots of an entry can be in the lists. -/
def Entry.Ok (P : Prog) : Entry → Prop
  | .loaded a | .slotLoaded a _ => a < u256Max
  | .nonce a _ | .code a _ | .created _ a => P.addrKey a < u256Max
  | .slot a x _ => P.addrKey a < u256Max ∧ P.slotKey x < 2 ^ 256
  | .transfer a b _ | .destroyed a b _ => P.addrKey a < u256Max ∧ P.addrKey b < u256Max
  | .touched _ | .refund _ | .log _ _ => True

theorem EntryAt.lt (h : EntryAt w ptr s) (hw : Words w) (j : Nat) (hj : j < s.length) : s.getD j 0 < 2 ^ 256 := by
  rw [← h.at_ j hj]; exact hw _

/-- Undoing an entry. -/
theorem run_undo {k : Nat} (hR : P.Reverts) (h : SnapIs w js τ n m) (hd : e.Does P σ σ') (hs : Same σ' τ) (hok : e.Ok P) (he : EntryAt w ptr e.words) (hm : 5 * (m + 1) ≤ 2 ^ 32)
    (hr : StateRoom w js τ.touched (k + 3)) (hn : AccRoom w n) (hf : Fair P (.goto (P.addr e.label) (e.words.getD 0 0 :: ptr :: ret :: S) w)) :
    Returns P False (.goto (P.addr e.label) (e.words.getD 0 0 :: ptr :: ret :: S) w) ret fun s w' => s = S ∧ Undone k w js n m σ w' := by
  have hw := h.words
  have lift : ∀ {o : Out}, (Returns P False o ret fun s w' => s = S ∧ Undoes w js n m τ σ w') → Returns P False o ret fun s w' => s = S ∧ Undone k w js n m σ w' :=
    fun h => h.mono id fun _ _ ⟨h1, h2⟩ => ⟨h1, h2.undone hr⟩
  cases e with
  | loaded a => exact lift (run_revert_loaded hR h hd hs he hok hf)
  | destroyed a r x => exact lift (run_revert_destroyed hR h hd hs he hok.1 hok.2)
  | touched a => exact lift (run_revert_touched hR h hd hs he)
  | transfer a b x => exact run_revert_transfer hR h hd hs he hok.1 hok.2 (he.lt hw 1 (by simp [Entry.words])) (he.lt hw 2 (by simp [Entry.words])) (he.lt hw 3 (by simp [Entry.words])) hr hn hf
  | nonce a v => exact lift (run_revert_nonce hR h hd hs he hok (he.lt hw 2 (by simp [Entry.words])))
  | slot a x v => exact lift (run_revert_slot hR h hd hs he hok.1 hok.2 (he.lt hw 3 (by simp [Entry.words])) hm)
  | slotLoaded a x => exact lift (run_revert_slotLoaded hR h hd hs he hok (he.lt hw 2 (by simp [Entry.words])) hf)
  | code a v => exact lift (run_revert_code hR h hd hs he hok (he.lt hw 2 (by simp [Entry.words])))
  | refund x => exact lift (run_revert_refund hR h hd hs he)
  | created t a => exact lift (run_revert_created hR h hd hs he hok)
  | log d p => exact lift (run_revert_log hR h hd hs he (he.lt hw 1 (by simp [Entry.words])) (he.lt hw 2 (by simp [Entry.words])))

/-- `%mload_journal`. -/
theorem exec_journal_ptr {q : Nat} (hq : q < 2 ^ 32) : exec P (m_mload_journal ++ c) (q :: s) w = exec P c (w.mem (0x1b00000000 + q) :: s) w := by
  kexec [m_mload_journal, m_mload_kernel, m_build_kernel_address]
  rw [wadd_small (by omega), exec_mload_at (by omega)]

/-- The entry at the top of the journal is looked up and control goes to where it is undone. -/
theorem run_dispatch {size target : Nat} (hsz : size < 2 ^ 32) (hne : size + 1 ≠ target) (hptr : w.mem (jourBase + size) = ptr) (he : EntryAt w ptr e.words) :
    Reaches P (exec P b_while_loop ((size + 1) :: target :: S) w) (.goto (P.addr e.label) (e.words.getD 0 0 :: ptr :: P.addr "revert@1.after" :: size :: target :: S) w) := by
  have hl : 0 < e.words.length := by cases e <;> simp [Entry.words]
  have hf := he.fits
  have h0 := he.get 0 hl
  have e1 := fun c s => exec_journal_data (P := P) (c := c) (s := s) (w := w) (q := ptr) (by omega)
  have e0 := fun c s => exec_journal_ptr (P := P) (c := c) (s := s) (w := w) (q := size) hsz
  rw [show 0x1b00000000 + size = jourBase + size from rfl, hptr] at e0
  rw [show ptr + 0 = ptr from rfl] at h0
  rw [h0] at e1
  rw [b_while_loop]
  generalize m_mload_journal_data = t at *
  generalize m_mload_journal = t0 at *
  kexec []
  rw [if_pos (by simpa [weq] using hne)]
  kexec [m_decrement, m_sub_const]
  rw [wsub_small (by omega) (by omega), Nat.add_sub_cancel, e0]
  kexec []
  rw [e1]
  cases e <;> kexec [m_eq_const, Entry.words, Entry.label, List.getD_cons_zero] <;> exact .refl _

/-- The entries `es` lead from `σ` to `σ'`, the oldest one first. -/
def History (P : Prog) : Snap → List Entry → Snap → Prop
  | σ, [], σ' => σ' = σ
  | σ, e :: es, σ' => ∃ σ1, e.Does P σ σ1 ∧ History P σ1 es σ'

theorem History.append {es es' : List Entry} : ∀ {σ σ' : Snap}, History P σ (es ++ es') σ' ↔ ∃ σ1, History P σ es σ1 ∧ History P σ1 es' σ' := by
  induction es with
  | nil => intro σ σ'; simp [History]
  | cons e es ih =>
    intro σ σ'
    simp only [List.cons_append, History, ih]
    constructor
    · rintro ⟨σ1, h1, σ2, h2, h3⟩; exact ⟨σ2, ⟨σ1, h1, h2⟩, h3⟩
    · rintro ⟨σ2, ⟨σ1, h1, h2⟩, h3⟩; exact ⟨σ1, h1, σ2, h2, h3⟩

theorem Returns.andReach {H : Prop} {o : Out} {r : Nat} {Q Q' : List Nat → World → Prop} (h : Returns P H o r Q) (h' : ∀ s w, Reaches P o (.goto r s w) → Q s w → Returns P H (.goto r s w) ret Q') :
    Returns P H o ret Q' := by
  rcases h with h | ⟨s, w, h1, h2⟩
  · exact .inl h
  · exact .of h1 (h' s w h1 h2)

/-- What is left when a part of the journal has been undone. -/
def Unwound (w : World) (js : List (List Nat)) (n m : Nat) (k : Nat) (σ : Snap) (w' : World) : Prop :=
  w'.ctx = w.ctx ∧ (∀ b, ¬ RevCell b ∨ b = 0x500000002 → w'.mem b = w.mem b) ∧ ∃ τ m', m' ≤ m ∧ StateRoom w' js τ.touched k ∧ SnapIs w' js τ n m' ∧ Same σ τ

/-- The loop of `revert_batch`. -/
theorem run_while_loop {js0 : List (List Nat)} {k M : Nat} (hR : P.Reverts) : ∀ (l : Nat) (es : List Entry) (w : World) (m : Nat) (σ' τ : Snap) (rest : List (List Nat)), es.length = l →
    js = js0 ++ es.map Entry.words ++ rest → SnapIs w js τ n m → History P σ es σ' → Same σ' τ → (∀ e ∈ es, e.Ok P) → m + l ≤ M → 5 * M ≤ 2 ^ 32 → StateRoom w js τ.touched (k + 3 * l) → AccRoom w n →
    Fair P (exec P b_while_loop ((js0.length + l) :: js0.length :: ret :: S) w) →
    Returns P False (exec P b_while_loop ((js0.length + l) :: js0.length :: ret :: S) w) (P.addr "revert_batch_done") fun s w' =>
      s = js0.length :: js0.length :: ret :: S ∧ Unwound w js n M k σ w' := by
  intro l
  induction l with
  | zero =>
    intro es w m σ' τ rest hl hj h hc hs hok hm hM hr hn hf
    obtain rfl := List.length_eq_zero_iff.1 hl
    cases hc
    rw [b_while_loop]
    kexec []
    rw [if_neg (by simp)]
    exact .ret ⟨rfl, rfl, fun b hb => rfl, τ, m, by omega, hr, h, hs⟩
  | succ l ih =>
    intro es w m σ' τ rest hl hj h hc hs hok hm hM hr hn hf
    obtain ⟨es, e, rfl⟩ : ∃ l x, es = l ++ [x] := ⟨es.dropLast, es.getLast (by rintro rfl; simp at hl), (List.dropLast_concat_getLast _).symm⟩
    have hl : es.length = l := by simpa using hl
    obtain ⟨σ1, hc, σ2, hd, rfl⟩ := History.append.1 hc
    have hJ := h.journal
    have hJf := hJ.fits
    have hjl : js0.length + l < js.length := by rw [hj]; simp; omega
    have hje : js[js0.length + l] = e.words := by
      subst hl
      simp only [hj, List.map_append, List.map_cons, List.map_nil]
      rw [List.getElem_append_left (by simp)]
      rw [List.getElem_append_right (by simp)]
      rw [List.getElem_append_right (by simp)]
      simp
    obtain ⟨hfit, hent⟩ := hJ.entry _ hjl
    rw [hje] at hfit hent
    have he : EntryAt w (w.mem (jourBase + (js0.length + l))) e.words := ⟨by have := hJ.data; omega, hent⟩
    have hdis := run_dispatch (P := P) (S := ret :: S) (target := js0.length) (size := js0.length + l) (by omega) (by omega) rfl he
    refine .of hdis ?_
    refine Returns.andReach (run_undo (k := k + 3 * l) hR h hd hs (hok e (by simp)) he (by omega) (by rw [show k + 3 * l + 3 = k + 3 * (l + 1) by omega]; exact hr) hn (hf.of hdis)) ?_
    rintro s w1 hreach ⟨rfl, c1, m1, τ', m', hm', hr', h', hs'⟩
    have hgo : Reaches P (.goto (P.addr "revert@1.after") ((js0.length + l) :: js0.length :: ret :: S) w1) (exec P b_while_loop ((js0.length + l) :: js0.length :: ret :: S) w1) := by
      enter hR.revert in revertCode
      rw [b_revert_1_after]
      kexec []
      enter hR.revert in revertCode
      exact .refl _
    refine .of hgo ?_
    refine (ih es w1 m' σ1 τ' (e.words :: rest) hl (by rw [hj]; simp) h' hc hs' (fun e he => hok e (by simp [he])) (by omega) hM hr' ⟨hn.nodes, by rw [m1 _ (.inr rfl)]; exact hn.data⟩
      (hf.of (hdis.trans (hreach.trans hgo)))).mono id ?_
    rintro s w' ⟨h1, c2, m2, h2⟩
    exact ⟨h1, c2.trans c1, fun b hb => (m2 b hb).trans (m1 b hb), h2⟩

/-- A shorter journal. -/
theorem SnapIs.truncate {js0 rest : List (List Nat)} (h : SnapIs w (js0 ++ rest) τ n m) : SnapIs (w.set jourLen js0.length) js0 τ n m := by
  have hJ := h.journal
  have hf := hJ.fits
  simp only [List.length_append] at hf
  have hw : Words (w.set jourLen js0.length) := h.words.set (by omega)
  have hm : ∀ b, b ≠ jourLen → (w.set jourLen js0.length).mem b = w.mem b := fun b hb => set_ne hb
  have hl : (w.set jourLen js0.length).mem jourLen = js0.length := set_same
  generalize w.set jourLen js0.length = w' at *
  obtain ⟨ps, f, hst, hac⟩ := h.state
  have hJ' : JournalIs w' js0 := by
    refine ⟨hl, by omega, by rw [hm _ (by decide)]; exact hJ.data, fun i hi => ?_⟩
    have := hJ.entry i (by simp; omega)
    rw [List.getElem_append_left hi] at this
    have hd := hJ.data
    rw [hm (jourBase + i) (by simp only [jourBase, jourLen]; omega), hm jdatLen (by decide)]
    refine ⟨this.1, fun j hj => ?_⟩
    rw [hm _ (by simp only [jdatBase, jourLen]; omega)]
    exact this.2 j hj
  refine ⟨⟨ps, f, ⟨hw, hst.accounts.congr (hm _ (by decide)) fun b h1 h2 => hm b (by cells), hst.ptr, hst.apart, (hm _ (by decide)).trans hst.null, hJ',
      hst.touched.congr fun b hb => hm b (by cells), by rw [hm _ (by decide)]; exact hst.size⟩, (hst.accts_congr fun b h1 h2 => hm b (by cells)).trans hac⟩,
    h.slots_of fun b hb => hm b (by cells), h.addrs_of fun b hb => hm b (by cells), h.keys_of fun b hb => hm b (by cells),
    DeadAre.of_same h.dead fun b hb => hm b (by cells), h.created_of fun b hb => hm b (by cells),
    (hm _ (by decide)).trans h.refund, (hm _ (by decide)).trans h.logs, (hm _ (by decide)).trans h.logData, (hm _ (by decide)).trans h.logPayload⟩

/-- `revert_batch`. -/
theorem run_revert_batch {js0 : List (List Nat)} {es : List Entry} {k M : Nat} (hR : P.Reverts) (h : SnapIs w (js0 ++ es.map Entry.words) τ n m) (hc : History P σ es σ') (hs : Same σ' τ)
    (hok : ∀ e ∈ es, e.Ok P) (hm : m + es.length ≤ M) (hM : 5 * M ≤ 2 ^ 32) (hr : StateRoom w (js0 ++ es.map Entry.words) τ.touched (k + 3 * es.length)) (hn : AccRoom w n)
    (hf : Fair P (.goto (P.addr "revert_batch") (js0.length :: ret :: S) w)) :
    Returns P False (.goto (P.addr "revert_batch") (js0.length :: ret :: S) w) ret fun s w' => s = S ∧ Unwound w js0 n M k σ w' := by
  have hJ := h.journal
  have hJf := hJ.fits
  simp only [List.length_append, List.length_map] at hJf
  have hl : w.mem 0x50000001f = js0.length + es.length := hJ.len.trans (by simp)
  have hpre : Reaches P (.goto (P.addr "revert_batch") (js0.length :: ret :: S) w) (exec P b_while_loop ((js0.length + es.length) :: js0.length :: ret :: S) w) := by
    enter hR.revert in revertCode
    rw [b_revert_batch, m_journal_size]
    generalize b_while_loop = t at *
    rw [List.append_nil, exec_load_global (by omega), hl]
    kexec []
    rw [if_pos (by omega)]
    exact .refl _
  refine .of hpre ?_
  refine (run_while_loop (js := js0 ++ es.map Entry.words) (k := k) (M := M) hR es.length es w m σ' τ [] rfl (by simp) h hc hs hok hm hM hr hn (hf.of hpre)).andThen ?_
  rintro s w1 ⟨rfl, c1, m1, τ', m', hm', hr', h', hs'⟩
  renter hR.revert in revertCode
  rw [b_revert_batch_done, exec_store_global (by omega)]
  kexec []
  have r1 := hr'.data; have r2 := hr'.journal; have r3 := hr'.touched
  simp only [List.length_append] at r2
  refine .ret ⟨rfl, c1, fun b hb => ?_, τ', m', hm', ⟨?_, by omega, r3⟩, h'.truncate, hs'⟩
  · rw [set_ne (by cells)]; exact m1 b hb
  · rw [set_ne (by decide)]; exact r1

end Verif.Kasm
