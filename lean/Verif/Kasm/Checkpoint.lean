import Verif.Kasm.Unwind

/-! Going back to a checkpoint. -/

namespace Verif.Kasm

variable {P : Prog} {S : List Nat} {w w' : World} {ret n m : Nat} {ps qs ts : List Nat} {f : Nat → Option Nat} {g : Nat → Nat → Option Nat}
  {js : List (List Nat)} {a ptr : Nat} {σ σ' τ : Snap} {e : Entry} {c : List I} {s : List Nat}

theorem SnapIs.keep (h : SnapIs w js τ n m) (hw : Words w') (hm : ∀ b, RevCell b ∨ CreatedArea b → w'.mem b = w.mem b) : SnapIs w' js τ n m :=
  ⟨h.state_of hw fun b hb => hm b (by cells), h.slots_of fun b hb => hm b (by cells), h.addrs_of fun b hb => hm b (by cells), h.keys_of fun b hb => hm b (by cells),
    DeadAre.of_same h.dead fun b hb => hm b (by cells), h.created_of fun b hb => hm b (by cells),
    (hm _ (.inl (.inr (.inr (.inr (.inr (.inr (.inr (.inl rfl))))))))).trans h.refund, (hm _ (.inl (.inr (.inr (.inr (.inr (.inr (.inr (.inr (.inl ⟨by omega, by omega⟩)))))))))).trans h.logs, (hm _ (.inl (.inr (.inr (.inr (.inr (.inr (.inr (.inr (.inl ⟨by omega, by omega⟩)))))))))).trans h.logData, (hm _ (.inl (.inr (.inr (.inr (.inr (.inr (.inr (.inr (.inl ⟨by omega, by omega⟩)))))))))).trans h.logPayload⟩

/-- `revert_batch` panics when the journal is shorter than it should become. -/
theorem run_batch_panic {target : Nat} (hR : P.Reverts) (h : JournalIs w js) (ht : js.length < target) :
    Reaches P (.goto (P.addr "revert_batch") (target :: ret :: S) w) .panic := by
  have hl : w.mem 0x50000001f = js.length := h.len
  enter hR.revert in revertCode
  rw [b_revert_batch, m_journal_size]
  generalize b_while_loop = t at *
  rw [List.append_nil, exec_load_global (by omega), hl]
  kexec []
  rw [if_neg (by omega)]
  exact reach_panic hR.deletes.reads.list

/-- The loop of `revert_checkpoint`, from the checkpoint `t + d` down to `t`. -/
theorem run_while {js0 : List (List Nat)} {t k : Nat} (hR : P.Reverts) : ∀ (d : Nat) (es : List Entry) (w : World) (m : Nat) (σ' τ : Snap),
    SnapIs w (js0 ++ es.map Entry.words) τ n m → History P σ es σ' → Same σ' τ → (∀ e ∈ es, e.Ok P) → 5 * (m + es.length) ≤ 2 ^ 32 →
    StateRoom w (js0 ++ es.map Entry.words) τ.touched (k + 3 * es.length) → AccRoom w n → t + d < 2 ^ 32 → (d = 0 → es = []) → (d ≠ 0 → w.mem (0x1d00000000 + t) = js0.length) →
    (∀ i, i < d → js0.length ≤ w.mem (0x1d00000000 + (t + i))) → Fair P (exec P b_while ((t + d) :: t :: ret :: S) w) →
    Returns P False (exec P b_while ((t + d) :: t :: ret :: S) w) (P.addr "revert_checkpoint_done") fun s w' => s = t :: t :: ret :: S ∧ Unwound w js0 n (m + es.length) k σ w' := by
  intro d
  induction d with
  | zero =>
    intro es w m σ' τ h hc hs hok hm hr hn ht he h0 hi hf
    obtain rfl := he rfl
    cases hc
    rw [b_while]
    kexec []
    rw [if_neg (by simp)]
    exact .ret ⟨rfl, rfl, fun b hb => rfl, τ, m, by omega, by simpa using hr, by simpa using h, hs⟩
  | succ d ih =>
    intro es w m σ' τ h hc hs hok hm hr hn ht he h0 hi hf
    have hpre : Reaches P (exec P b_while ((t + (d + 1)) :: t :: ret :: S) w)
        (.goto (P.addr "revert_batch") (w.mem (0x1d00000000 + (t + d)) :: P.addr "after_revert" :: (t + d) :: P.addr "while" :: t :: ret :: S) w) := by
      rw [b_while]
      kexec []
      rw [if_pos (by simp)]
      enter hR.revert in revertCode
      rw [b_revert_one_checkpoint]
      kexec [m_decrement, m_sub_const, m_mload_kernel, m_build_kernel_address]
      rw [if_pos (by simp), wsub_small (by omega) (by omega), show t + (d + 1) - 1 = t + d by omega, wadd_small (by omega), exec_mload_at (by omega)]
      kexec []
      enter hR.revert in revertCode
      rw [b_do_revert]
      kexec []
      exact .refl _
    refine .of hpre ?_
    have hle := hi d (by omega)
    generalize hz : w.mem (0x1d00000000 + (t + d)) = z at *
    by_cases hgt : js0.length + es.length < z
    · exact .of (run_batch_panic hR h.journal (by simpa using hgt)) (.panic id)
    have hes := List.take_append_drop (z - js0.length) es
    have l1 : (es.take (z - js0.length)).length = z - js0.length := by simp; omega
    have l2 : (es.drop (z - js0.length)).length = es.length - (z - js0.length) := by simp
    generalize es.take (z - js0.length) = es1 at *
    generalize es.drop (z - js0.length) = es2 at *
    obtain rfl := hes
    simp only [List.length_append] at *
    obtain ⟨σ1, hc1, hc2⟩ := History.append.1 hc
    rw [List.map_append, ← List.append_assoc] at h hr
    have hz' : z = (js0 ++ es1.map Entry.words).length := by simp; omega
    have hfz := hf.of hpre
    rw [hz'] at hfz ⊢
    refine Returns.andReach (run_revert_batch (k := k + 3 * es1.length) (M := m + es2.length) hR h hc2 hs (fun e he => hok e (by simp [he])) (by omega) (by omega)
      (by rw [show k + 3 * es1.length + 3 * es2.length = k + 3 * (es1.length + es2.length) by omega]; exact hr) hn hfz) ?_
    rintro s w1 hreach ⟨rfl, c1, m1, τ', m', hm', hr', h', hs'⟩
    have hgo : Reaches P (.goto (P.addr "after_revert") ((t + d) :: P.addr "while" :: t :: ret :: S) w1) (exec P b_while ((t + d) :: t :: ret :: S) w1) := by
      enter hR.revert in revertCode
      rw [b_after_revert]
      kexec []
      enter hR.revert in revertCode
      exact .refl _
    refine .of hgo ?_
    have hcell : ∀ i, i < 2 ^ 32 → w1.mem (0x1d00000000 + i) = w.mem (0x1d00000000 + i) := fun i hi => m1 _ (.inl (by cells))
    refine (ih es1 w1 m' σ1 τ' h' hc1 hs' (fun e he => hok e (by simp [he])) (by omega) hr' ⟨hn.nodes, by rw [m1 _ (.inr rfl)]; exact hn.data⟩ (by omega) (fun e => ?_)
      (fun _ => by rw [hcell _ (by omega)]; exact h0 (by omega)) (fun i hi' => by rw [hcell _ (by omega)]; exact hi i (by omega)) (hfz.of (hreach.trans hgo))).mono id ?_
    · subst e
      have := h0 (by omega)
      rw [Nat.add_zero, this] at hz
      exact List.length_eq_zero_iff.1 (by omega)
    · rintro s w' ⟨h1, c2, m2, τ2, m2', h2, h3⟩
      exact ⟨h1, c2.trans c1, fun b hb => (m2 b hb).trans (m1 b hb), τ2, m2', by omega, h3⟩

/-- `revert_checkpoint`: the journal goes back to where it was at the last checkpoint of the current context. -/
theorem run_revert_checkpoint {js0 : List (List Nat)} {es : List Entry} {k t d q : Nat} (hR : P.Reverts) (h : SnapIs w (js0 ++ es.map Entry.words) τ n m) (hc : History P σ es σ')
    (hs : Same σ' τ) (hok : ∀ e ∈ es, e.Ok P) (hm : 5 * (m + es.length) ≤ 2 ^ 32) (hr : StateRoom w (js0 ++ es.map Entry.words) τ.touched (k + 3 * es.length)) (hn : AccRoom w n)
    (hctx : w.ctx < 2 ^ 32) (hq : w.mem (w.ctx * 2 ^ 64 + 0x60000000d) = q + 1) (hq' : q < 2 ^ 32) (ht : w.mem (w.ctx * 2 ^ 64 + (0x1f00000000 + q)) = t)
    (hd : w.mem 0x500000021 = t + d) (hd' : t + d < 2 ^ 32) (hd0 : d ≠ 0) (h0 : w.mem (0x1d00000000 + t) = js0.length) (hi : ∀ i, i < d → js0.length ≤ w.mem (0x1d00000000 + (t + i)))
    (hf : Fair P (.goto (P.addr "revert_checkpoint") (ret :: S) w)) :
    Returns P False (.goto (P.addr "revert_checkpoint") (ret :: S) w) ret fun s w' => s = S ∧ w'.ctx = w.ctx ∧ w'.mem 0x500000021 = t ∧ w'.mem (w.ctx * 2 ^ 64 + 0x60000000d) = q ∧
      (∀ b, ¬ RevCell b → b ≠ 0x500000021 → b ≠ w.ctx * 2 ^ 64 + 0x60000000d → w'.mem b = w.mem b) ∧ ∃ τ' m', SnapIs w' js0 τ' n m' ∧ Same σ τ' := by
  have hpre : Reaches P (.goto (P.addr "revert_checkpoint") (ret :: S) w) (exec P b_while ((t + d) :: t :: ret :: S) w) := by
    enter hR.revert in revertCode
    rw [b_revert_checkpoint]
    generalize b_while = t1 at *
    kexec []
    rw [exec_load_ctx hctx (by omega), hq]
    kexec [m_mload_current, m_build_address]
    rw [wsub_small (by omega) (by omega), Nat.add_sub_cancel, wadd_small (b := 0x1f00000000) (by omega), wadd_small (by omega),
      show w.ctx * 2 ^ 64 + 0x1f00000000 + q = w.ctx * 2 ^ 64 + (0x1f00000000 + q) by omega, exec_mload_ctx hctx (by omega), ht]
    rw [m_current_checkpoint, List.append_nil, exec_load_global (by omega), hd]
    kexec []
    rw [if_pos (by omega)]
    exact .refl _
  refine .of hpre ?_
  refine (run_while hR d es w m σ' τ h hc hs hok hm hr hn hd' (fun e => absurd e hd0) (fun _ => h0) hi (hf.of hpre)).andThen ?_
  rintro s w1 ⟨rfl, c1, m1, τ', m', hm', -, h', hs'⟩
  have hX : w.ctx * 2 ^ 64 = 0 ∨ 2 ^ 64 ≤ w.ctx * 2 ^ 64 := by omega
  have e1 : w1.mem (w1.ctx * 2 ^ 64 + 0x60000000d) = q + 1 := by
    rw [c1, m1 _ (.inl ?_)]; exact hq
    generalize w.ctx * 2 ^ 64 = X at *
    clear hq
    cells
  have e2 : ∀ (c : List I) s, exec P (m_mload_context_metadata (.lit 0x60000000d) ++ c) s (w1.set 0x500000021 t) = exec P c ((q + 1) :: s) (w1.set 0x500000021 t) := fun c s => by
    rw [exec_load_ctx (w := w1.set 0x500000021 t) (by show w1.ctx < _; rw [c1]; exact hctx) (by omega)]
    rw [show (w1.set 0x500000021 t).ctx = w1.ctx from rfl, set_ne (by rw [c1]; omega), e1]
  renter hR.revert in revertCode
  rw [b_revert_checkpoint_done]
  kexec []
  rw [exec_store_global (by omega)]
  generalize hw2 : w1.set 0x500000021 t = w2 at *
  have c2 : w2.ctx = w.ctx := by rw [← hw2]; exact c1
  rw [m_pop_checkpoint]
  kexec []
  rw [e2]
  kexec [m_mstore_context_metadata1]
  rw [wsub_small (by omega) (by omega), Nat.add_sub_cancel, c2, wadd_small (by omega), exec_mstore_ctx hctx (by omega)]
  kexec []
  have hmm : ∀ b, b ≠ 0x500000021 → b ≠ w.ctx * 2 ^ 64 + 0x60000000d → (w2.set (w.ctx * 2 ^ 64 + 0x60000000d) q).mem b = w1.mem b := fun b h1 h2 => by
    rw [set_ne h2, ← hw2, set_ne h1]
  refine .ret ⟨rfl, c2, ?_, set_same, fun b hb h1 h2 => (hmm b h1 h2).trans (m1 b (.inl hb)), τ', m', h'.keep ?_ fun b hb => hmm b ?_ ?_, hs'⟩
  · rw [set_ne (by omega), ← hw2, set_same]
  · rw [← hw2]; exact (h'.words.set (by omega)).set (by omega)
  · clear e2; cells
  · clear e2 hmm e1 hq ht hpre
    generalize w.ctx * 2 ^ 64 = X at *
    cells

end Verif.Kasm
