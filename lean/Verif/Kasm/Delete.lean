import Verif.Kasm.Destruct
import Verif.Kasm.ListClaims
import Verif.Kasm.Code.DeleteAccount

/-! Deleting accounts (`asm/mpt/delete/delete.asm`), and the accounts deleted at the end of a transaction (`asm/core/selfdestruct_list.asm`,
`asm/core/touched_addresses.asm`). -/

namespace Verif.Kasm

variable {P : Prog} {c : List I} {S s : List Nat} {w w' : World} {ret n m i : Nat} {ps qs ts cs ds : List Nat} {f : Nat → Option Nat}
  {g : Nat → Nat → Option Nat} {js : List (List Nat)} {a x key p : Nat}

/-- `mpt_read_state_trie`, for every hint of the prover: the pointer to the account's fields, or 0. -/
theorem run_read_state_any (hP : P.ReadsState) (hw : Words w) (h : AccountsAre w n ps f) (ha : P.addrKey a < u256Max) :
    Returns P False (.goto (P.addr "mpt_read_state_trie") (a :: ret :: S) w) ret fun s w' =>
      w' = w.looked a ∧ (s = 0 :: S ∨ ∃ v, f (P.addrKey a) = some v ∧ s = v :: S) := by
  renter hP.read in stateReadCode
  rw [b_mpt_read_state_trie]
  kexec []
  refine .of (run_store_word hP.copies (by omega) (by omega)) ?_
  renter hP.read in stateReadCode
  rw [b_read_3_after_mstore, exec_hash_word (by omega)]
  kexec []
  refine (run_search_account (ret := P.addr "read@1.after") (S := ret :: S) hP.list (scratch_words hw) (scratch_accounts (v := a) (n := 20) (by omega) h) ha).andThen fun s w' ⟨e, hs⟩ => ?_
  subst e
  rcases hs with ⟨rfl, -⟩ | ⟨v, hv, rfl⟩
  · renter hP.read in stateReadCode
    rw [b_read_1_after]
    kexec []
    exact .ret ⟨rfl, .inl rfl⟩
  · renter hP.read in stateReadCode
    rw [b_read_1_after]
    kexec []
    exact .ret ⟨rfl, .inr ⟨v, hv, rfl⟩⟩

/-- The accounts without one of them. -/
def dropAcct (h : Nat → Option Acct) (key : Nat) : Nat → Option Acct := fun k => if k = key then none else h k

/-- The cells that deleting accounts changes. -/
def DelCell (b : Nat) : Prop := AccNode b ∨ SlotCell b ∨ (0x700000000 ≤ b ∧ b < 0x700000020)

/-- Slots may vanish, only those of the account `k`. -/
def SlotsLess (k : Nat) (g g' : Nat → Nat → Option Nat) : Prop := ∀ b j, g' b j = g b j ∨ (b = k ∧ g' b j = none)

/-- The kernel has the routines that delete accounts. -/
structure Prog.Deletes (P : Prog) : Prop where
  reads : P.ReadsState
  delete : P.Has deleteAccountCode

/-- `delete_account`, for every hint of the prover: if it comes back there was such an account and it is gone, perhaps with slots of it; nothing else changes. -/
theorem run_delete_account (hD : P.Deletes) (h : StateIs w n ps f js ts) (hK : SlotsAre w m qs g) (ha : P.addrKey a < u256Max) :
    Returns P False (.goto (P.addr "delete_account") (a :: ret :: S) w) ret fun s w' => s = S ∧
      (∃ v, f (P.addrKey a) = some v) ∧ w'.ctx = w.ctx ∧ (∀ b, ¬ DelCell b → w'.mem b = w.mem b) ∧
      ∃ ps' qs' f' g', StateIs w' n ps' f' js ts ∧ w'.accts f' = dropAcct (w.accts f) (P.addrKey a) ∧ SlotsAre w' m qs' g' ∧ SlotsLess (P.addrKey a) g g' := by
  renter hD.delete in deleteAccountCode
  rw [b_delete_account]
  kexec []
  refine .of (run_store_word hD.reads.copies (by omega) (by omega)) ?_
  renter hD.delete in deleteAccountCode
  rw [b_delete_2_after_mstore, exec_hash_word (by omega)]
  kexec []
  have w1 := scratch_words (n := 20) (v := a) h.words
  have a1 := scratch_accounts (v := a) (n := 20) (by omega) h.accounts
  have k1 := scratch_slots (v := a) (u := 20) (by omega) hK
  have m1 : ∀ b, ¬ (0x700000000 ≤ b ∧ b < 0x700000020) → (w.scratch 20 a).mem b = w.mem b := fun b hb => scratch_mem (by omega)
  have c1 : (w.scratch 20 a).ctx = w.ctx := scratch_ctx
  generalize w.scratch 20 a = v1 at *
  refine ((run_remove_account (ret := P.addr "delete@3.after") (S := P.addrKey a :: ret :: S) hD.reads.list w1 a1 ha).mono False.elim fun _ _ h => h).andThen ?_
  rintro s v2 ⟨rfl, k2, w2, hv, ps', a2⟩
  renter hD.delete in deleteAccountCode
  rw [b_delete_3_after]
  kexec []
  have s2 : SlotsAre v2 m qs g := k1.congr (k2.2.2 _ (by simp only [AccNode, accBase, slotNext]; omega)) fun b h1 h2 => k2.2.2 _ (by simp only [AccNode, accBase, slotBase] at *; omega)
  refine (run_remove_slots (ret := P.addr "delete@4.after") (S := ret :: S) hD.reads.list w2 s2 ha).andThen ?_
  rintro s v3 ⟨rfl, k3, w3, qs', g', s3, hg⟩
  renter hD.delete in deleteAccountCode
  rw [b_delete_4_after]
  kexec []
  have hm : ∀ b, ¬ DelCell b → v3.mem b = w.mem b := fun b hb => by
    rw [k3.2.2 b fun e => hb (.inr (.inl e))]
    refine (k2.2.2 b fun e => hb (.inl e)).trans (m1 b fun e => hb (.inr (.inr e)))
  have hdis : ∀ b, ¬ AccNode b → StateCell b ∨ b = accNext → ¬ DelCell b := fun b h1 h2 => by
    simp only [DelCell, SlotCell, slotNext, slotBase, StateCell, AccNode, JourArea, TouchArea, touchLen, touchBase, jourLen, jdatLen, jourBase, jdatBase, accBase, accNext] at *; omega
  have hmt : ∀ b, 0xc00000000 ≤ b → b < 0xd00000000 → v3.mem b = w.mem b := fun b h1 h2 =>
    hm b (hdis b (by simp only [AccNode, accBase]; omega) (.inl (.inr (.inr (.inl ⟨h1, h2⟩)))))
  have hupd : ∀ k q, upd f (P.addrKey a) none k = some q → k ≠ P.addrKey a ∧ f k = some q := fun k q hq => by
    simp only [upd] at hq
    by_cases hk : k = P.addrKey a
    · rw [if_pos hk] at hq; cases hq
    · rw [if_neg hk] at hq; exact ⟨hk, hq⟩
  refine .ret ⟨rfl, hv, ?_, hm, ps', qs', upd f (P.addrKey a) none, g', ⟨w3, a2.keeps (w := v2.next) k3, fun k q hq => h.ptr _ _ (hupd k q hq).2,
    fun k k' q q' h1 h2 hk => h.apart _ _ _ _ (hupd k q h1).2 (hupd k' q' h2).2 hk, ?_, h.journal.congr fun b hb => hm b (hdis b ?_ (.inl (.inl hb))),
    h.touched.congr fun b hb => hm b (hdis b ?_ (.inl (.inr (.inl hb)))), ?_, ?_⟩, ?_, s3, hg⟩
  · rw [k3.1]; exact k2.1.trans c1
  · rw [hmt _ (by omega) (by omega)]; exact h.null
  · simp only [JourArea, AccNode, jourLen, jdatLen, jourBase, jdatBase, accBase] at *; omega
  · simp only [TouchArea, AccNode, touchLen, touchBase, accBase] at *; omega
  · rw [hm _ (hdis _ (by simp only [AccNode, accBase]; omega) (.inl (.inr (.inr (.inr (.inr (.inr rfl)))))))]; exact h.size.1
  · intro k q hq
    rw [hm _ (hdis _ (by simp only [AccNode, accBase]; omega) (.inl (.inr (.inr (.inr (.inr (.inr rfl)))))))]; exact h.size.2 _ _ (hupd k q hq).2
  · funext k
    simp only [World.accts, dropAcct, upd]
    by_cases hk : k = P.addrKey a
    · simp [hk]
    · simp only [if_neg hk]
      cases hf : f k with
      | none => rfl
      | some q =>
        have := h.ptr _ _ hf
        simp only [Option.map_some, World.record]
        rw [hmt _ (by omega) (by omega), hmt _ (by omega) (by omega), hmt _ (by omega) (by omega)]

/-! ### The end of a transaction -/

/-- Accounts of the addresses `ds` that are as `E` says may have been deleted, with slots of theirs; nothing else has changed. -/
structure Pruned (P : Prog) (ds : List Nat) (E : Acct → Prop) (h h' : Nat → Option Acct) (g g' : Nat → Nat → Option Nat) : Prop where
  accts : ∀ k, h' k = h k ∨ (h' k = none ∧ ∃ a ∈ ds, k = P.addrKey a ∧ ∃ A, h k = some A ∧ E A)
  slots : ∀ b j, g' b j = g b j ∨ (g' b j = none ∧ h' b = none ∧ h b ≠ none ∧ ∃ a ∈ ds, b = P.addrKey a)

theorem Pruned.refl {E : Acct → Prop} {h : Nat → Option Acct} : Pruned P ds E h h g g := ⟨fun _ => .inl rfl, fun _ _ => .inl rfl⟩

theorem Pruned.step {E : Acct → Prop} {h0 h : Nat → Option Acct} {g0 g' : Nat → Nat → Option Nat} {A : Acct} (hp : Pruned P ds E h0 h g0 g) (ha : a ∈ ds)
    (hA : h (P.addrKey a) = some A) (hE : E A) (hs : SlotsLess (P.addrKey a) g g') : Pruned P ds E h0 (dropAcct h (P.addrKey a)) g0 g' := by
  have h0A : h0 (P.addrKey a) = some A := by
    rcases hp.accts (P.addrKey a) with e | ⟨e, -⟩
    · rw [← e, hA]
    · rw [e] at hA; cases hA
  refine ⟨fun k => ?_, fun b j => ?_⟩
  · by_cases hk : k = P.addrKey a
    · exact .inr ⟨by simp [dropAcct, hk], a, ha, hk, A, by rw [hk]; exact h0A, hE⟩
    · simp only [dropAcct, if_neg hk]; exact hp.accts k
  · rcases hs b j with e | ⟨rfl, e⟩
    · rcases hp.slots b j with e' | ⟨e1, e2, e3⟩
      · exact .inl (e.trans e')
      · exact .inr ⟨e.trans e1, by simp only [dropAcct]; split; rfl; exact e2, e3⟩
    · exact .inr ⟨e, by simp [dropAcct], by rw [h0A]; simp, a, ha, rfl⟩

/-- What is known after the routines that delete accounts at the end of a transaction. -/
def PrunedIs (P : Prog) (ds : List Nat) (E : Acct → Prop) (w : World) (n m : Nat) (f : Nat → Option Nat) (g : Nat → Nat → Option Nat) (js : List (List Nat)) (ts : List Nat)
    (w' : World) : Prop :=
  w'.ctx = w.ctx ∧ (∀ b, ¬ DelCell b → w'.mem b = w.mem b) ∧
    ∃ ps' qs' f' g', StateIs w' n ps' f' js ts ∧ SlotsAre w' m qs' g' ∧ Pruned P ds E (w.accts f) (w'.accts f') g g'

theorem delCell_dead {b : Nat} (h : DeadArea b) : ¬ DelCell b := by
  simp only [DelCell, DeadArea, SlotCell, slotNext, slotBase, AccNode, accBase] at *; omega

theorem delCell_touch {b : Nat} (h : TouchArea b) : ¬ DelCell b := by
  simp only [DelCell, TouchArea, touchLen, touchBase, SlotCell, slotNext, slotBase, AccNode, accBase] at *; omega

theorem looked_del {b : Nat} (h : ¬ DelCell b) : (w.looked a).mem b = w.mem b :=
  looked_mem (by
    have : ¬ (0x700000000 ≤ b ∧ b < 0x700000020) := fun e => h (.inr (.inr e))
    omega)

theorem looked_slots (h : SlotsAre w m qs g) : SlotsAre (w.looked a) m qs g :=
  h.congr (looked_mem (by simp only [slotNext]; omega)) fun b h1 h2 => looked_mem (by simp only [slotBase] at *; omega)

/-- The loop of `delete_all_selfdestructed_addresses`, from the position `i` on. -/
theorem run_delete_dead_loop (hD : P.Deletes) (hL : P.Has selfdestructListCode) (hk : ∀ a ∈ ds, P.addrKey a < u256Max) {w0 : World} {f0 : Nat → Option Nat} {g0 : Nat → Nat → Option Nat} :
    ∀ d i, i + d = ds.length → ∀ (w : World) ps qs f g, StateIs w n ps f js ts → SlotsAre w m qs g → DeadAre w ds →
      w.ctx = w0.ctx → (∀ b, ¬ DelCell b → w.mem b = w0.mem b) → Pruned P ds (fun _ => True) (w0.accts f0) (w.accts f) g0 g →
    Returns P False (exec P b_delete_all_selfdestructed_addresses_loop ((0x1600000000 + i) :: (0x1600000000 + ds.length) :: ret :: S) w) ret fun s w' =>
      s = S ∧ PrunedIs P ds (fun _ => True) w0 n m f0 g0 js ts w' := by
  intro d
  induction d with
  | zero =>
    intro i hi w ps qs f g h hK hd hc hm hp
    have hi : i = ds.length := by omega
    subst hi
    rw [b_delete_all_selfdestructed_addresses_loop]
    kexec []
    rw [if_neg (by simp)]
    renter hL in selfdestructListCode
    rw [b_delete_all_selfdestructed_addresses_done]
    kexec [m_pop2, rep]
    exact .ret ⟨rfl, hc, hm, ps, qs, f, g, h, hK, hp⟩
  | succ d ih =>
    intro i hi w ps qs f g h hK hd hc hm hp
    have hi' : i < ds.length := by omega
    have hfit := hd.fits
    have hmem := List.getElem_mem hi'
    rw [b_delete_all_selfdestructed_addresses_loop]
    kexec []
    rw [if_pos (by omega), exec_mload_at (by omega), hd.at_ i hi']
    kexec []
    refine (run_read_state_any (ret := P.addr "selfdestruct_list@2.after") (S := ds[i] :: (0x1600000000 + i) :: (0x1600000000 + ds.length) :: ret :: S) hD.reads h.words h.accounts (hk _ hmem)).andThen ?_
    rintro s v ⟨rfl, hs⟩
    have t1 := looked_state (a := ds[i]) h
    have t2 := looked_slots (a := ds[i]) hK
    have t3 : (w.looked ds[i]).accts f = w.accts f := looked_accts
    have t4 : (w.looked ds[i]).ctx = w.ctx := looked_ctx
    have t5 : ∀ b, ¬ DelCell b → (w.looked ds[i]).mem b = w.mem b := fun b hb => looked_del hb
    generalize w.looked ds[i] = w1 at *
    rcases hs with rfl | ⟨v, hv, rfl⟩
    · renter hL in selfdestructListCode
      rw [b_selfdestruct_list_2_after]
      kexec [m_increment, m_add_const]
      rw [wadd_small (by omega), show 1 + (0x1600000000 + i) = 0x1600000000 + (i + 1) by omega]
      renter hL in selfdestructListCode
      exact ih (i + 1) (by omega) w1 ps qs f g t1 t2 (DeadAre.of_same hd fun b hb => t5 b (delCell_dead hb)) (t4.trans hc) (fun b hb => (t5 b hb).trans (hm b hb)) (by rw [t3]; exact hp)
    · have hv0 := (h.ptr _ _ hv).1
      renter hL in selfdestructListCode
      rw [b_selfdestruct_list_2_after]
      kexec []
      rw [if_neg (by simp; omega)]
      renter hL in selfdestructListCode
      rw [b_bingo_selfdestruct_list]
      kexec []
      refine (run_delete_account (ret := P.addr "selfdestruct_list@3.after") (S := (0x1600000000 + i) :: (0x1600000000 + ds.length) :: ret :: S) hD t1 t2 (hk _ hmem)).andThen ?_
      rintro s w2 ⟨rfl, -, c2, m2, ps', qs', f', g', s2, a2, k2, l2⟩
      renter hL in selfdestructListCode
      rw [b_selfdestruct_list_3_after]
      kexec [m_increment, m_add_const]
      rw [wadd_small (by omega), show 1 + (0x1600000000 + i) = 0x1600000000 + (i + 1) by omega]
      renter hL in selfdestructListCode
      refine ih (i + 1) (by omega) w2 ps' qs' f' g' s2 k2 (DeadAre.of_same hd fun b hb => (m2 b (delCell_dead hb)).trans (t5 b (delCell_dead hb))) (c2.trans (t4.trans hc))
        (fun b hb => (m2 b hb).trans ((t5 b hb).trans (hm b hb))) ?_
      rw [a2, t3]
      exact hp.step (A := w.record v) hmem (by simp only [World.accts, hv, Option.map_some]) trivial l2

/-- `delete_all_selfdestructed_addresses`, for every hint of the prover. -/
theorem run_delete_dead (hD : P.Deletes) (hL : P.Has selfdestructListCode) (h : StateIs w n ps f js ts) (hK : SlotsAre w m qs g) (hd : DeadAre w ds)
    (hk : ∀ a ∈ ds, P.addrKey a < u256Max) :
    Returns P False (.goto (P.addr "delete_all_selfdestructed_addresses") (ret :: S) w) ret fun s w' => s = S ∧ PrunedIs P ds (fun _ => True) w n m f g js ts w' := by
  have := run_delete_dead_loop (ret := ret) (S := S) hD hL hk ds.length 0 (by omega) w ps qs f g h hK hd rfl (fun _ _ => rfl) .refl
  have hfit := hd.fits
  renter hL in selfdestructListCode
  rw [b_delete_all_selfdestructed_addresses, exec_load_global (by omega), hd.len]
  generalize b_delete_all_selfdestructed_addresses_loop = t at *
  kexec []
  rw [wadd_small (by omega)]
  exact this

/-- An account that counts as empty (`asm/core/util.asm:42-86`). -/
def Acct.empty (A : Acct) : Prop := A = ⟨0, 0, emptyHash⟩

/-- The loop of `delete_all_touched_addresses`, from the position `i` on. -/
theorem run_delete_touched_loop (hD : P.Deletes) (hL : P.Has touchedCode) (hk : ∀ a ∈ ts, P.addrKey a < u256Max) {w0 : World} {f0 : Nat → Option Nat} {g0 : Nat → Nat → Option Nat} :
    ∀ d i, i + d = ts.length → ∀ (w : World) ps qs f g, StateIs w n ps f js ts → SlotsAre w m qs g →
      w.ctx = w0.ctx → (∀ b, ¬ DelCell b → w.mem b = w0.mem b) → Pruned P ts Acct.empty (w0.accts f0) (w.accts f) g0 g →
    Returns P False (exec P b_delete_all_touched_addresses_loop ((touchBase + i) :: (touchBase + ts.length) :: ret :: S) w) ret fun s w' =>
      s = S ∧ PrunedIs P ts Acct.empty w0 n m f0 g0 js ts w' := by
  intro d
  induction d with
  | zero =>
    intro i hi w ps qs f g h hK hc hm hp
    have hi : i = ts.length := by omega
    subst hi
    rw [b_delete_all_touched_addresses_loop]
    kexec []
    rw [if_neg (by simp)]
    renter hL in touchedCode
    rw [b_delete_all_touched_addresses_done]
    kexec [m_pop2, rep]
    exact .ret ⟨rfl, hc, hm, ps, qs, f, g, h, hK, hp⟩
  | succ d ih =>
    intro i hi w ps qs f g h hK hc hm hp
    have hi' : i < ts.length := by omega
    have hfit := h.touched.fits
    have hmem := List.getElem_mem hi'
    rw [b_delete_all_touched_addresses_loop]
    kexec []
    rw [if_pos (by omega), exec_mload_at (by simp only [touchBase]; omega), h.touched.at_ i hi']
    kexec []
    refine (run_read_state_any (ret := P.addr "touched_addresses@2.after") (S := ts[i] :: (touchBase + i) :: (touchBase + ts.length) :: ret :: S) hD.reads h.words h.accounts (hk _ hmem)).andThen ?_
    rintro s v ⟨rfl, hs⟩
    have t1 := looked_state (a := ts[i]) h
    have t2 := looked_slots (a := ts[i]) hK
    have t3 : (w.looked ts[i]).accts f = w.accts f := looked_accts
    have t4 : (w.looked ts[i]).ctx = w.ctx := looked_ctx
    have t5 : ∀ b, ¬ DelCell b → (w.looked ts[i]).mem b = w.mem b := fun b hb => looked_del hb
    generalize w.looked ts[i] = w1 at *
    have skip : ∀ q, Returns P False (.goto (P.addr "touched_addresses@1.false") (q :: ts[i] :: (touchBase + i) :: (touchBase + ts.length) :: ret :: S) w1) ret fun s w' =>
        s = S ∧ PrunedIs P ts Acct.empty w0 n m f0 g0 js ts w' := fun q => by
      renter hL in touchedCode
      rw [b_touched_addresses_1_false, b_touched_addresses_1_after]
      kexec [m_increment, m_add_const]
      rw [wadd_small (by simp only [touchBase]; omega), show 1 + (touchBase + i) = touchBase + (i + 1) by omega]
      renter hL in touchedCode
      exact ih (i + 1) (by omega) w1 ps qs f g t1 t2 (t4.trans hc) (fun b hb => (t5 b hb).trans (hm b hb)) (by rw [t3]; exact hp)
    rcases hs with rfl | ⟨v, hv, rfl⟩
    · renter hL in touchedCode
      rw [b_touched_addresses_2_after]
      kexec []
      rw [if_neg (by simp)]
      exact skip 0
    · have hp' := h.ptr _ _ hv
      have hA : w.accts f (P.addrKey ts[i]) = some (w1.record v) := by rw [← t3]; simp only [World.accts, hv, Option.map_some]
      have e0 : w1.mem (0xc00000000 + v) = (w1.record v).nonce := rfl
      have e1 : w1.mem (0xc00000000 + (1 + v)) = (w1.record v).balance := by rw [show 0xc00000000 + (1 + v) = 0xc00000000 + v + 1 by omega]; rfl
      have e3 : w1.mem (0xc00000000 + (2 + (1 + v))) = (w1.record v).codeHash := by rw [show 0xc00000000 + (2 + (1 + v)) = 0xc00000000 + v + 3 by omega]; rfl
      renter hL in touchedCode
      rw [b_touched_addresses_2_after]
      kexec []
      rw [if_pos (by simp; omega), exec_mload_trie (by omega), e0]
      kexec [m_not_bit]
      by_cases z0 : (w1.record v).nonce = 0
      rotate_left
      · rw [if_neg (by simpa [wiszero] using z0)]
        exact skip v
      rw [if_pos (by simp [wiszero, z0])]
      kexec [m_increment, m_add_const]
      rw [wadd_small (by omega), exec_mload_trie (by omega), e1]
      kexec []
      by_cases z1 : (w1.record v).balance = 0
      rotate_left
      · rw [if_neg (by simpa [wiszero] using z1)]
        exact skip _
      rw [if_pos (by simp [wiszero, z1])]
      rw [wadd_small (a := 2) (by omega), exec_mload_trie (by omega), e3]
      kexec []
      renter hL in touchedCode
      rw [b_touched_addresses_1_after]
      kexec []
      by_cases z3 : (w1.record v).codeHash = emptyHash
      rotate_left
      · rw [if_pos (by simpa [weq] using fun e => z3 e.symm)]
        kexec [m_increment, m_add_const]
        rw [wadd_small (by simp only [touchBase]; omega), show 1 + (touchBase + i) = touchBase + (i + 1) by omega]
        renter hL in touchedCode
        exact ih (i + 1) (by omega) w1 ps qs f g t1 t2 (t4.trans hc) (fun b hb => (t5 b hb).trans (hm b hb)) (by rw [t3]; exact hp)
      rw [if_neg (by simp [z3])]
      have hE : Acct.empty (w1.record v) := by
        simp only [Acct.empty]
        generalize w1.record v = A at *
        cases A
        simp_all
      renter hL in touchedCode
      rw [b_bingo_touched_addresses]
      kexec []
      refine (run_delete_account (ret := P.addr "touched_addresses@3.after") (S := (touchBase + i) :: (touchBase + ts.length) :: ret :: S) hD t1 t2 (hk _ hmem)).andThen ?_
      rintro s w2 ⟨rfl, -, c2, m2, ps', qs', f', g', s2, a2, k2, l2⟩
      renter hL in touchedCode
      rw [b_touched_addresses_3_after]
      kexec [m_increment, m_add_const]
      rw [wadd_small (by simp only [touchBase]; omega), show 1 + (touchBase + i) = touchBase + (i + 1) by omega]
      renter hL in touchedCode
      refine ih (i + 1) (by omega) w2 ps' qs' f' g' s2 k2 (c2.trans (t4.trans hc)) (fun b hb => (m2 b hb).trans ((t5 b hb).trans (hm b hb))) ?_
      rw [a2, t3]
      exact hp.step hmem hA hE l2

/-- `delete_all_touched_addresses`, for every hint of the prover. -/
theorem run_delete_touched (hD : P.Deletes) (hL : P.Has touchedCode) (h : StateIs w n ps f js ts) (hK : SlotsAre w m qs g)
    (hk : ∀ a ∈ ts, P.addrKey a < u256Max) :
    Returns P False (.goto (P.addr "delete_all_touched_addresses") (ret :: S) w) ret fun s w' => s = S ∧ PrunedIs P ts Acct.empty w n m f g js ts w' := by
  have := run_delete_touched_loop (ret := ret) (S := S) hD hL hk ts.length 0 (by omega) w ps qs f g h hK rfl (fun _ _ => rfl) .refl
  have hfit := h.touched.fits
  renter hL in touchedCode
  rw [b_delete_all_touched_addresses, exec_load_global (by omega), h.touched.len]
  generalize b_delete_all_touched_addresses_loop = t at *
  kexec []
  rw [wadd_small (by omega)]
  exact this

end Verif.Kasm
