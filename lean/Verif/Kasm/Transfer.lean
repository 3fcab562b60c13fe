import Verif.Kasm.Balance
import Verif.Kasm.Code.StateInsert

/-! Moving ether between accounts (`asm/core/transfer.asm`). -/

namespace Verif.Kasm

variable {P : Prog} {c : List I} {S s : List Nat} {w w' : World} {ret n i : Nat} {ps ts : List Nat} {f : Nat → Option Nat}
  {js : List (List Nat)} {a x key p : Nat}

/-! ### Appending trie data -/

/-- Memory after a value was appended to the trie data. -/
def World.append (w : World) (v : Nat) : World := (w.set 0x500000002 (w.mem 0x500000002 + 1)).set (0xc00000000 + w.mem 0x500000002) v

theorem exec_append_eq {v : Nat} (ht : w.mem 0x500000002 < 2 ^ 32) : exec P (m_append_to_trie_data ++ c) (v :: s) w = exec P c s (w.append v) := by
  kexec [m_append_to_trie_data, m_get_trie_data_size, m_mload_global_metadata, m_increment, m_add_const, m_set_trie_data_size, m_mstore_global_metadata,
    m_mstore_trie_data, m_mstore_kernel1, m_build_kernel_address]
  rw [exec_mload_at (by omega)]
  kexec []
  rw [exec_mstore_at (by omega)]
  kexec []
  rw [wadd_small (by omega), exec_mstore_at (by omega), wadd_small (by omega), Nat.add_comm 1]
  rfl

theorem append_spec {v : Nat} (hw : Words w) (hv : v < 2 ^ 256) (ht : w.mem 0x500000002 < 2 ^ 32) :
    (w.append v).mem 0x500000002 = w.mem 0x500000002 + 1 ∧ Keeps w (w.append v) (TrieFrom (w.mem 0x500000002)) ∧ Words (w.append v) ∧
      (w.append v).mem (0xc00000000 + w.mem 0x500000002) = v := by
  refine ⟨?_, ?_, (hw.set (by omega)).set hv, set_same⟩
  · simp only [World.append]; rw [set_ne (by omega), set_same]
  · refine Keeps.trans (Keeps.set (.inl rfl)) (Keeps.set (.inr ⟨?_, ?_⟩)) <;> omega

/-! ### Adding -/

/-- The accounts after `x` was added to the balance of one, which is created if it is not there. -/
def credit (g : Nat → Option Acct) (key x : Nat) : Nat → Option Acct :=
  if x = 0 then g else updAcct g key ((g key).elim ⟨0, x, emptyHash⟩ fun A => { A with balance := (A.balance + x) % 2 ^ 256 })

/-- The entry of the journal for the creation of an account. -/
def createLog (g : Nat → Option Acct) (key a x : Nat) : List (List Nat) := if x ≠ 0 ∧ g key = none then [[9, 0, a]] else []

/-- The cells that change. -/
def PayCell (b : Nat) : Prop := BalCell b ∨ AccCell b

/-- There is room for a new account. -/
structure AccRoom (w : World) (n : Nat) : Prop where
  nodes : 4 * (n + 1) ≤ 2 ^ 32
  data : w.mem 0x500000002 + 8 ≤ 2 ^ 32

theorem run_insert_state (hL : P.Has linkedListCode) (hI : P.Has stateInsertCode) (hw : Words w) (h : AccountsAre w n ps f) {v : Nat} (ha : key < u256Max)
    (hroom : 4 * (n + 1) ≤ 2 ^ 32) (hv : v + 4 < 2 ^ 32) (ht : w.mem 0x500000002 + 4 ≤ 2 ^ 32) (hi : AccHonest w 0 ps key) :
    ∃ w' n' ps', Reaches P (.goto (P.addr "mpt_insert_state_trie") (key :: v :: ret :: S) w) (.goto ret S w') ∧
      Shift 1 (AccFrom (w.mem 0x500000002)) w w' ∧ Words w' ∧ w.mem 0x500000002 ≤ w'.mem 0x500000002 ∧ AccountsAre w' n' ps' (upd f key (some v)) := by
  have := run_insert_account (P := P) (ret := P.addr "insert_trie_specific@1.after") (S := ret :: S) hL hw h ha hroom hv ht
  obtain ⟨s, w', h1, rfl, h2, h3, h4, n', ps', -, h5⟩ := this.sure hi
  refine ⟨w', n', ps', ?_, h2.frame1, h3, h4.1, h5⟩
  enter hI in stateInsertCode
  rw [b_mpt_insert_state_trie]
  kexec []
  refine h1.trans ?_
  enter hI in stateInsertCode
  rw [b_insert_trie_specific_1_after]
  kexec []
  exact .refl _

/-- `add_eth` after the prover has said that there is no such account: a new record with the balance `x` takes its place, whatever was there. -/
theorem run_add_eth_create {k : Nat} (hP : P.Pays) (hI : P.Has stateInsertCode) (t1 : StateIs w n ps f js ts) (t4 : StateRoom w js ts (k + 1)) (hn : AccRoom w n)
    (ha : P.addrKey a < u256Max) (ha' : a < 2 ^ 256) (hx : x < 2 ^ 256) (hi : AccHonest w 0 ps (P.addrKey a)) :
    ∃ w' n' ps' f', Reaches P (.goto (P.addr "transfer@6.after") (0 :: a :: x :: ret :: S) w) (.goto ret S w') ∧
      StateIs w' n' ps' f' (js ++ [[9, 0, a]]) ts ∧ w'.accts f' = updAcct (w.accts f) (P.addrKey a) ⟨0, x, emptyHash⟩ ∧ w'.ctx = w.ctx ∧
      (∀ d, ¬ PayCell d → w'.mem d = w.mem d) ∧ StateRoom w' (js ++ [[9, 0, a]]) ts k := by
  have hroom := hn.data
  have t1s := t1.size
  obtain ⟨T, hTT⟩ : ∃ T, T = w.mem 0x500000002 := ⟨_, rfl⟩
  have hT := hTT.symm
  rw [hT] at t1s hroom
  -- the journal
  have q1 := t4.data; have q2 := t4.journal
  obtain ⟨j1, j2, j3, j4⟩ := t1.journal.push (l := [9, 0, a]) t1.words (by simp; omega) (by omega) (by simp; omega)
  have hjr := fun c s => exec_journal_2 (P := P) (c := c) (s := s) (t := 9) (v := 0) (u := a) (w := w) (by omega) (by rw [t1.journal.len]; omega)
  obtain ⟨w3, hw3⟩ : ∃ w3, w3 = pushEntry w [9, 0, a] := ⟨_, rfl⟩
  rw [← hw3] at j1 j2 j3 j4
  simp only [← hw3] at hjr
  have z3 : w3.mem 0x500000002 = T := by rw [j2.2.2 _ (by simp only [JourArea, jourLen, jdatLen, jourBase, jdatBase]; omega)]; exact hT
  -- the record
  obtain ⟨z4, k4, h4, v4⟩ := append_spec (v := 0) j3 (by omega) (by omega)
  have e4 := fun c s => exec_append_eq (P := P) (c := c) (s := s) (w := w3) (v := 0) (by omega)
  obtain ⟨w4, hw4⟩ : ∃ w4, w4 = w3.append 0 := ⟨_, rfl⟩
  rw [z3, ← hw4] at z4 k4 v4
  rw [← hw4] at h4
  simp only [← hw4] at e4
  obtain ⟨z5, k5, h5, v5⟩ := append_spec (v := x) h4 hx (by omega)
  have e5 := fun c s => exec_append_eq (P := P) (c := c) (s := s) (w := w4) (v := x) (by omega)
  obtain ⟨w5, hw5⟩ : ∃ w5, w5 = w4.append x := ⟨_, rfl⟩
  rw [z4, ← hw5] at z5 k5 v5
  rw [← hw5] at h5
  simp only [← hw5] at e5
  obtain ⟨z6, k6, h6, -⟩ := append_spec (v := 0) h5 (by omega) (by omega)
  have e6 := fun c s => exec_append_eq (P := P) (c := c) (s := s) (w := w5) (v := 0) (by omega)
  obtain ⟨w6, hw6⟩ : ∃ w6, w6 = w5.append 0 := ⟨_, rfl⟩
  rw [z5, ← hw6] at z6 k6
  rw [← hw6] at h6
  simp only [← hw6] at e6
  obtain ⟨z7, k7, h7, v7⟩ := append_spec (v := emptyHash) h6 (by decide) (by omega)
  have e7 := fun c s => exec_append_eq (P := P) (c := c) (s := s) (w := w6) (v := emptyHash) (by omega)
  obtain ⟨w7, hw7⟩ : ∃ w7, w7 = w6.append emptyHash := ⟨_, rfl⟩
  rw [z6, ← hw7] at z7 k7 v7
  rw [← hw7] at h7
  simp only [← hw7] at e7
  have k37 : Keeps w3 w7 (TrieFrom T) := ((k4.trans (k5.from (by omega))).trans (k6.from (by omega))).trans (k7.from (by omega))
  have hrec : w7.mem (0xc00000000 + T) = 0 ∧ w7.mem (0xc00000000 + T + 1) = x ∧ w7.mem (0xc00000000 + T + 3) = emptyHash := by
    refine ⟨?_, ?_, ?_⟩
    · rw [k7.2.2 _ (by simp only [TrieFrom]; omega), k6.2.2 _ (by simp only [TrieFrom]; omega), k5.2.2 _ (by simp only [TrieFrom]; omega), v4]
    · rw [k7.2.2 _ (by simp only [TrieFrom]; omega), k6.2.2 _ (by simp only [TrieFrom]; omega), show 0xc00000000 + T + 1 = 0xc00000000 + (T + 1) by omega, v5]
    · rw [show 0xc00000000 + T + 3 = 0xc00000000 + (T + 1 + 1 + 1) by omega, v7]
  -- the key
  have hst := run_store_word (ret := P.addr "transfer@8.after_mstore") (s := 20 :: 20 :: T :: ret :: S) (w := w7) (v := a) (n := 20) hP.reads.copies (by omega) (by omega)
  have hsh := exec_hash_word (P := P) (n := 20) (v := a) (c := m_jump (.lab "mpt_insert_state_trie") ++ []) (s := T :: ret :: S) (w := w7) (by omega)
  have m8 : ∀ d, d < 0x700000000 ∨ 0x700000000 + 20 ≤ d → (w7.scratch 20 a).mem d = w7.mem d := fun d hd => scratch_mem hd
  have h8 : Words (w7.scratch 20 a) := scratch_words h7
  have c8 : (w7.scratch 20 a).ctx = w7.ctx := scratch_ctx
  have p8 : (w7.scratch 20 a).inp = w7.inp := scratch_inp
  generalize w7.scratch 20 a = w8 at *
  have m28 : ∀ d, ¬ JourArea d → ¬ TrieFrom T d → ¬ (0x700000000 ≤ d ∧ d < 0x700000020) → w8.mem d = w.mem d := fun d h1 h2 h3 => by
    rw [m8 d (by omega), k37.2.2 d h2, j2.2.2 d h1]
  have hjour : ∀ d, accBase ≤ d ∧ d < accBase + 2 ^ 32 ∨ d = accNext → w8.mem d = w.mem d := fun d hd => by
    refine m28 d ?_ ?_ ?_ <;> simp only [JourArea, TrieFrom, jourLen, jdatLen, jourBase, jdatBase, accBase, accNext] at * <;> omega
  have acc8 : AccountsAre w8 n ps f := t1.accounts.congr (hjour _ (.inr rfl)) fun d h1 h2 => hjour d (.inl ⟨h1, h2⟩)
  have in8 : w8.inp 0 = w.inp 0 := by
    rw [p8, k37.2.1, j2.2.1]
  have hi8 : AccHonest w8 0 ps (P.addrKey a) := hi.of_same (fun d h1 h2 => hjour d (.inl ⟨h1, h2⟩)) in8 t1.accounts
  have z8 : w8.mem 0x500000002 = T + 4 := by rw [m8 _ (by omega)]; omega
  obtain ⟨w9, n', ps', R9, F9, W9, Z9, A9⟩ := run_insert_state (ret := ret) (S := S) (v := T) hP.reads.list hI h8 acc8 ha hn.nodes (by omega) (by omega) hi8
  rw [z8] at F9 Z9
  have m29 : ∀ d, ¬ JourArea d → ¬ AccFrom T d → ¬ (0x700000000 ≤ d ∧ d < 0x700000020) → w9.mem d = w.mem d := fun d h1 h2 h3 => by
    rw [F9.2.2 d fun e => h2 (e.imp_right (·.imp_right (·.mono (by omega)))), m28 d h1 (fun e => h2 (.inr (.inr e))) h3]
  have rec9 : w9.record T = ⟨0, x, emptyHash⟩ := by
    have hm : ∀ j, j < 4 → w9.mem (0xc00000000 + T + j) = w7.mem (0xc00000000 + T + j) := fun j hj => by
      rw [F9.2.2 _ (by simp only [AccFrom, TrieFrom, accNext, accBase]; omega), m8 _ (by omega)]
    have hm0 := hm 0 (by omega)
    simp only [Nat.add_zero] at hm0
    simp only [World.record, hm0, hm 1 (by omega), hm 3 (by omega), hrec.1, hrec.2.1, hrec.2.2]
  have old9 : ∀ q, q + 4 ≤ T → w9.record q = w.record q := fun q hq => by
    have hm : ∀ j, j < 4 → w9.mem (0xc00000000 + q + j) = w.mem (0xc00000000 + q + j) := fun j hj => by
      refine m29 _ ?_ ?_ ?_ <;> (try simp only [AccFrom, TrieFrom, accNext, accBase, JourArea, jourLen, jdatLen, jourBase, jdatBase]) <;> omega
    have hm0 := hm 0 (by omega)
    simp only [Nat.add_zero] at hm0
    simp only [World.record, hm0, hm 1 (by omega), hm 3 (by omega)]
  have hupd : ∀ k q, upd f (P.addrKey a) (some T) k = some q → k = P.addrKey a ∧ q = T ∨ k ≠ P.addrKey a ∧ f k = some q := fun k q hq => by
    simp only [upd] at hq
    by_cases hk : k = P.addrKey a
    · rw [if_pos hk] at hq; cases hq; exact .inl ⟨hk, rfl⟩
    · rw [if_neg hk] at hq; exact .inr ⟨hk, hq⟩
  have hjm : ∀ d, JourArea d → w9.mem d = w3.mem d := fun d hd => by
    rw [F9.2.2 d (by simp only [AccFrom, TrieFrom, accNext, accBase, JourArea, jourLen, jdatLen, jourBase, jdatBase] at *; omega),
      m8 d (by simp only [JourArea, jourLen, jdatLen, jourBase, jdatBase] at *; omega),
      k37.2.2 d (by simp only [TrieFrom, JourArea, jourLen, jdatLen, jourBase, jdatBase] at *; omega)]
  refine ⟨w9, n', ps', _, ?_, ⟨W9, A9, fun k q hq => ?_, fun k k' q q' hq hq' hk => ?_, ?_, j1.congr hjm, t1.touched.congr fun d hd => ?_, ?_, fun k q hq => ?_⟩, ?_, ?_, fun d hd => ?_, ?_⟩
  · enter hP.transfer in transferCode
    rw [b_transfer_6_after]
    kexec [m_add_const]
    rw [if_neg (by simp)]
    enter hP.transfer in transferCode
    rw [b_add_eth_new_account]
    kexec [m_journal_add_account_created]
    rw [hjr]
    kexec [m_get_trie_data_size]
    rw [exec_load_global (by omega), z3]
    kexec []
    rw [e4, e5]
    kexec []
    rw [e6]
    kexec []
    rw [e7]
    kexec []
    refine hst.trans ?_
    enter hP.transfer in transferCode
    rw [b_transfer_8_after_mstore, hsh]
    kexec []
    exact R9
  · rcases hupd k q hq with ⟨-, rfl⟩ | ⟨-, h'⟩
    · omega
    · exact t1.ptr _ _ h'
  · rcases hupd k q hq with ⟨e, rfl⟩ | ⟨-, h1⟩ <;> rcases hupd k' q' hq' with ⟨e', rfl⟩ | ⟨-, h2⟩
    · exact absurd (e.trans e'.symm) hk
    · exact .inr (t1s.2 _ _ h2)
    · exact .inl (t1s.2 _ _ h1)
    · exact t1.apart _ _ _ _ h1 h2 hk
  · rw [m29 _ (by simp only [JourArea, jourLen, jdatLen, jourBase, jdatBase]; omega) (by simp only [AccFrom, TrieFrom, accNext, accBase]; omega) (by omega)]
    exact t1.null
  · refine m29 d ?_ ?_ ?_ <;> simp only [AccFrom, TrieFrom, accNext, accBase, JourArea, TouchArea, touchLen, touchBase, jourLen, jdatLen, jourBase, jdatBase] at * <;> omega
  · omega
  · rcases hupd k q hq with ⟨-, rfl⟩ | ⟨-, h'⟩
    · omega
    · have := t1s.2 _ _ h'; omega
  · funext k
    simp only [updAcct, World.accts, upd]
    by_cases hk : k = P.addrKey a
    · simp only [if_pos hk, Option.map_some, rec9]
    · simp only [if_neg hk]
      cases hfk : f k with
      | none => rfl
      | some q =>
        simp only [Option.map_some]
        rw [old9 q (t1s.2 _ _ hfk)]
  · rw [F9.1, c8, k37.1, j2.1]
  · rw [m29 d (fun e => hd (.inl (.inr (.inl e)))) (fun e => hd (.inr e.cell)) (fun e => hd (.inl (.inl e)))]
  · refine ⟨?_, by have := t4.journal; simp only [List.length_append, List.length_singleton]; omega, by have := t4.touched; omega⟩
    rw [hjm _ (by simp [JourArea, jdatLen]), j4]; simp; omega

/-- `add_eth`. -/
theorem run_add_eth {k : Nat} (hP : P.Pays) (hI : P.Has stateInsertCode) (h : StateIs w n ps f js ts) (hr : StateRoom w js ts (k + 2)) (hn : AccRoom w n)
    (ha : P.addrKey a < u256Max) (ha' : a < 2 ^ 256) (hx : x < 2 ^ 256) (hi : AccHonest w 0 ps (P.addrKey a)) (hi' : AccHonest w 1 ps (P.addrKey a)) :
    ∃ w' n' ps' f', Reaches P (.goto (P.addr "add_eth") (a :: x :: ret :: S) w) (.goto ret S w') ∧
      StateIs w' n' ps' f' (js ++ touchLog ts a ++ createLog (w.accts f) (P.addrKey a) a x) (touchList ts a) ∧
      w'.accts f' = credit (w.accts f) (P.addrKey a) x ∧ w'.ctx = w.ctx ∧ (∀ d, ¬ PayCell d → w'.mem d = w.mem d) ∧
      StateRoom w' (js ++ touchLog ts a ++ createLog (w.accts f) (P.addrKey a) a x) (touchList ts a) k ∧
      (x = 0 ∨ w.accts f (P.addrKey a) ≠ none → n' = n ∧ ps' = ps ∧ f' = f ∧ ∃ m, (x = 0 → m = 0) ∧ Shift m BalCell w w') := by
  have r1 := hr.data; have r2 := hr.journal; have r3 := hr.touched
  obtain ⟨s1, s2, s3, s4⟩ := touch_state (a := a) h hr ha'
  have hrun := run_insert_touched (P := P) (a := a) (ret := P.addr "transfer@5.after") (S := a :: x :: ret :: S) hP.touched h.words h.journal h.touched
    (by omega) (by omega) (by omega)
  generalize hw1 : (if a ∈ ts then w else w.touch a) = w1 at *
  have hpre : Reaches P (.goto (P.addr "add_eth") (a :: x :: ret :: S) w) (.goto (P.addr "transfer@5.after") (a :: x :: ret :: S) w1) := by
    enter hP.transfer in transferCode
    rw [b_add_eth]
    kexec []
    exact hrun
  by_cases hx0 : x = 0
  · subst hx0
    simp only [credit, createLog, ne_eq, not_true_eq_false, false_and, if_false, if_true, List.append_nil]
    refine ⟨w1, n, ps, f, hpre.trans ?_, s1, s3, s2.1, fun d hd => s2.2.2 d fun e => hd (.inl e), s4.mono (by omega), fun _ => ⟨rfl, rfl, rfl, 0, fun _ => rfl, s2⟩⟩
    enter hP.transfer in transferCode
    rw [b_transfer_5_after]
    kexec []
    rw [if_neg (by simp)]
    enter hP.transfer in transferCode
    rw [b_add_eth_zero_amount]
    kexec [m_pop2, rep]
    exact .refl _
  have hi1 := s2.honest h.accounts hi
  have hread := run_read_state (ret := P.addr "transfer@6.after") (S := a :: x :: ret :: S) hP.reads s1.words s1.accounts ha hi1
  have t1 := looked_state (a := a) s1
  have t2 : Shift 1 BalCell w (w1.looked a) := Shift.trans (i := 0) s2 looked_shift
  have t3 : (w1.looked a).accts f = w.accts f := looked_accts.trans s3
  have t4 : StateRoom (w1.looked a) (js ++ touchLog ts a) (touchList ts a) (k + 1) :=
    ⟨by rw [looked_mem (by simp only [jdatLen]; omega)]; exact s4.data, s4.journal, s4.touched⟩
  have hpre2 : Reaches P (.goto (P.addr "add_eth") (a :: x :: ret :: S) w)
      (.goto (P.addr "transfer@6.after") ((f (P.addrKey a)).getD 0 :: a :: x :: ret :: S) (w1.looked a)) := by
    refine hpre.trans ?_
    enter hP.transfer in transferCode
    rw [b_transfer_5_after]
    kexec []
    rw [if_pos (by omega)]
    exact hread
  generalize w1.looked a = w2 at *
  simp only [credit, if_neg hx0]
  cases hf : f (P.addrKey a) with
  | some p =>
    have hp := h.ptr _ _ hf
    have hA : w.accts f (P.addrKey a) = some (w2.record p) := by rw [← t3]; simp only [World.accts, hf, Option.map_some]
    have hb' : ((w2.record p).balance + x) % 2 ^ 256 < 2 ^ 256 := Nat.mod_lt _ (by omega)
    obtain ⟨u1, u2, u3, u4⟩ := record_set (d := 1) (v := ((w2.record p).balance + x) % 2 ^ 256) t1 hf (by omega) hb'
    rw [show createLog (w.accts f) (P.addrKey a) a x = [] by simp [createLog, hA], List.append_nil]
    refine ⟨_, n, ps, f, hpre2.trans ?_, u1, ?_, u2.1.trans t2.1, fun d hd => ?_, ⟨by rw [u4]; have := t4.data; omega, by have := t4.journal; omega, by have := t4.touched; omega⟩, fun _ => ⟨rfl, rfl, rfl, 1, fun e => absurd e hx0, Shift.trans (j := 0) t2 u2⟩⟩
    · rw [hf, Option.getD_some]
      enter hP.transfer in transferCode
      rw [b_transfer_6_after]
      kexec [m_add_const]
      rw [if_pos (by omega), wadd_small (by omega), exec_mload_trie (by omega), show 0xc00000000 + (1 + p) = 0xc00000000 + p + 1 by omega]
      rw [show w2.mem (0xc00000000 + p + 1) = (w2.record p).balance from rfl]
      kexec []
      rw [exec_mstore_trie (by omega), show 0xc00000000 + (1 + p) = 0xc00000000 + p + 1 by omega, wadd, Nat.add_comm x]
      kexec []
      exact .refl _
    · rw [u3, record_set_balance, t3, hA]; rfl
    · exact (u2.2.2 d fun e => hd (.inl e)).trans (t2.2.2 d fun e => hd (.inl e))
  | none =>
    have hA : w.accts f (P.addrKey a) = none := by simp only [World.accts, hf, Option.map_none]
    rw [show createLog (w.accts f) (P.addrKey a) a x = [[9, 0, a]] by simp [createLog, hA, hx0], hA]
    obtain ⟨w', n', ps', f', R, s, g, c, m, r⟩ := run_add_eth_create (ret := ret) (S := S) (x := x) hP hI t1 t4 ⟨hn.nodes, by rw [t2.2.2 _ balCell_size]; exact hn.data⟩ ha ha' hx
      (t2.honest h.accounts hi')
    rw [hf, Option.getD_none] at hpre2
    refine ⟨w', n', ps', f', hpre2.trans R, s, by rw [g, t3]; rfl, c.trans t2.1, fun d hd => (m d hd).trans (t2.2.2 d fun e => hd (.inl e)), r, fun e => absurd e (by simp [hx0])⟩

/-- `mpt_read_state_trie` when the prover names the start of the list: there is no such account, whether there is one or not. -/
theorem run_read_state_start (hP : P.ReadsState) (h : AccountsAre w n ps f) (hi : 4 * w.inp 0 = accBase) :
    Reaches P (.goto (P.addr "mpt_read_state_trie") (a :: ret :: S) w) (.goto ret (0 :: S) (w.looked a)) := by
  enter hP.read in stateReadCode
  rw [b_mpt_read_state_trie]
  kexec []
  refine (run_store_word hP.copies (by omega) (by omega)).trans ?_
  enter hP.read in stateReadCode
  rw [b_read_3_after_mstore, exec_hash_word (by omega)]
  kexec []
  refine (run_search_account_start hP.list (scratch_accounts (v := a) (n := 20) (by omega) h) (by rw [scratch_inp]; exact hi)).trans ?_
  enter hP.read in stateReadCode
  rw [b_read_1_after]
  kexec []
  exact .refl _

/-- `add_eth` when the prover denies that there is such an account: a new record takes its place. -/
theorem run_add_eth_denied {k : Nat} (hP : P.Pays) (hI : P.Has stateInsertCode) (h : StateIs w n ps f js ts) (hr : StateRoom w js ts (k + 2)) (hn : AccRoom w n)
    (ha : P.addrKey a < u256Max) (ha' : a < 2 ^ 256) (hx : x < 2 ^ 256) (hx0 : x ≠ 0) (hi : 4 * w.inp 0 = accBase) (hi' : AccHonest w 1 ps (P.addrKey a)) :
    ∃ w' n' ps' f', Reaches P (.goto (P.addr "add_eth") (a :: x :: ret :: S) w) (.goto ret S w') ∧
      StateIs w' n' ps' f' (js ++ touchLog ts a ++ [[9, 0, a]]) (touchList ts a) ∧ w'.accts f' = updAcct (w.accts f) (P.addrKey a) ⟨0, x, emptyHash⟩ := by
  have r1 := hr.data; have r2 := hr.journal; have r3 := hr.touched
  obtain ⟨s1, s2, s3, s4⟩ := touch_state (a := a) h hr ha'
  have hrun := run_insert_touched (P := P) (a := a) (ret := P.addr "transfer@5.after") (S := a :: x :: ret :: S) hP.touched h.words h.journal h.touched
    (by omega) (by omega) (by omega)
  generalize hw1 : (if a ∈ ts then w else w.touch a) = w1 at *
  have t2 : Shift 1 BalCell w (w1.looked a) := Shift.trans (i := 0) s2 looked_shift
  have t4 : StateRoom (w1.looked a) (js ++ touchLog ts a) (touchList ts a) (k + 1) :=
    ⟨by rw [looked_mem (by simp only [jdatLen]; omega)]; exact s4.data, s4.journal, s4.touched⟩
  obtain ⟨w', n', ps', f', R, s, g, -⟩ := run_add_eth_create (ret := ret) (S := S) (x := x) hP hI (looked_state (a := a) s1) t4
    ⟨hn.nodes, by rw [t2.2.2 _ balCell_size]; exact hn.data⟩ ha ha' hx (t2.honest h.accounts hi')
  refine ⟨w', n', ps', f', ?_, s, by rw [g, looked_accts.trans s3]⟩
  enter hP.transfer in transferCode
  rw [b_add_eth]
  kexec []
  refine hrun.trans ?_
  enter hP.transfer in transferCode
  rw [b_transfer_5_after]
  kexec []
  rw [if_pos (by omega)]
  exact (run_read_state_start hP.reads s1.accounts (by rw [s2.2.1 0]; exact hi)).trans R

/-! ### Transfers -/

theorem AccRoom.shift (h : AccRoom w n) (hs : Shift i BalCell w w') : AccRoom w' n := ⟨h.nodes, by rw [hs.2.2 _ balCell_size]; exact h.data⟩

/-- `transfer_eth`. -/
theorem run_transfer {k b : Nat} (hP : P.Pays) (hI : P.Has stateInsertCode) (h : StateIs w n ps f js ts) (hr : StateRoom w js ts (k + 3)) (hn : AccRoom w n)
    (ha : P.addrKey a < u256Max) (ha' : a < 2 ^ 256) (hb : P.addrKey b < u256Max) (hb' : b < 2 ^ 256) (hx : x < 2 ^ 256) (hi : AccHonest w 0 ps (P.addrKey a))
    (hi1 : AccHonest w 1 ps (P.addrKey b)) (hi2 : AccHonest w 2 ps (P.addrKey b)) :
    ∃ w' n' ps' f' js' ts', StateIs w' n' ps' f' (js ++ js') ts' ∧ w'.ctx = w.ctx ∧ (∀ d, ¬ PayCell d → w'.mem d = w.mem d) ∧
      ((∃ A, w.accts f (P.addrKey a) = some A ∧ x ≤ A.balance ∧
          w'.accts f' = credit (updAcct (w.accts f) (P.addrKey a) (taken A x)) (P.addrKey b) x ∧
          Reaches P (.goto (P.addr "transfer_eth") (a :: b :: x :: ret :: S) w) (.goto ret (0 :: S) w')) ∨
        ((∀ A, w.accts f (P.addrKey a) = some A → A.balance < x) ∧ w'.accts f' = w.accts f ∧
          Reaches P (.goto (P.addr "transfer_eth") (a :: b :: x :: ret :: S) w) (.goto ret (1 :: S) w'))) := by
  obtain ⟨w1, f1, s1, r1, hd⟩ := run_deduct (k := k + 2) (x := x) (ret := P.addr "transfer@1.after") (S := b :: x :: ret :: S) hP h hr ha ha' hi
  have hpre : Reaches P (.goto (P.addr "transfer_eth") (a :: b :: x :: ret :: S) w)
      (.goto (P.addr "deduct_eth") (a :: x :: P.addr "transfer@1.after" :: b :: x :: ret :: S) w) := by
    enter hP.transfer in transferCode
    rw [b_transfer_eth]
    kexec []
    exact .refl _
  rcases hd with ⟨A, hA, hle, g1, R1⟩ | ⟨hlt, g1, R1⟩
  · obtain ⟨w2, n', ps', f', R2, s2, g2, c2, m2, -, -⟩ := run_add_eth (x := x) (ret := P.addr "transfer@2.after") (S := ret :: S) hP hI s1 r1 (hn.shift f1) hb hb' hx
      (f1.honest h.accounts hi1) (f1.honest h.accounts hi2)
    rw [g1] at g2
    rw [List.append_assoc, List.append_assoc] at s2
    refine ⟨w2, n', ps', f', _, _, s2, c2.trans f1.1, fun d hd => (m2 d hd).trans (f1.2.2 d fun e => hd (.inl e)), .inl ⟨A, hA, hle, g2, hpre.trans (R1.trans ?_)⟩⟩
    enter hP.transfer in transferCode
    rw [b_transfer_1_after]
    kexec []
    refine R2.trans ?_
    enter hP.transfer in transferCode
    rw [b_transfer_2_after]
    kexec []
    exact .refl _
  · refine ⟨w1, n, ps, f, _, _, s1, f1.1, fun d hd => f1.2.2 d fun e => hd (.inl e), .inr ⟨hlt, g1, hpre.trans (R1.trans ?_)⟩⟩
    enter hP.transfer in transferCode
    rw [b_transfer_1_after]
    kexec []
    enter hP.transfer in transferCode
    rw [b_transfer_eth_failure]
    kexec []
    exact .refl _

/-- `transfer_eth` when the prover denies that the recipient exists. -/
theorem run_transfer_denied {k b : Nat} {A : Acct} (hP : P.Pays) (hI : P.Has stateInsertCode) (h : StateIs w n ps f js ts) (hr : StateRoom w js ts (k + 3)) (hn : AccRoom w n)
    (ha : P.addrKey a < u256Max) (ha' : a < 2 ^ 256) (hb : P.addrKey b < u256Max) (hb' : b < 2 ^ 256) (hx : x < 2 ^ 256) (hx0 : x ≠ 0)
    (hA : w.accts f (P.addrKey a) = some A) (hle : x ≤ A.balance) (hi : AccHonest w 0 ps (P.addrKey a))
    (hi1 : 4 * w.inp 1 = accBase) (hi2 : AccHonest w 2 ps (P.addrKey b)) :
    ∃ w' n' ps' f' js' ts', StateIs w' n' ps' f' (js ++ js') ts' ∧
      w'.accts f' = updAcct (updAcct (w.accts f) (P.addrKey a) (taken A x)) (P.addrKey b) ⟨0, x, emptyHash⟩ ∧
      Reaches P (.goto (P.addr "transfer_eth") (a :: b :: x :: ret :: S) w) (.goto ret (0 :: S) w') := by
  obtain ⟨w1, f1, s1, r1, hd⟩ := run_deduct (k := k + 2) (x := x) (ret := P.addr "transfer@1.after") (S := b :: x :: ret :: S) hP h hr ha ha' hi
  rcases hd with ⟨A', hA', -, g1, R1⟩ | ⟨hlt, -, -⟩
  · rw [hA] at hA'; cases hA'
    obtain ⟨w2, n', ps', f', R2, s2, g2⟩ := run_add_eth_denied (x := x) (ret := P.addr "transfer@2.after") (S := ret :: S) hP hI s1 r1 (hn.shift f1) hb hb' hx hx0
      (by rw [f1.2.1 0]; exact hi1) (f1.honest h.accounts hi2)
    rw [g1] at g2
    rw [List.append_assoc, List.append_assoc] at s2
    refine ⟨w2, n', ps', f', _, _, s2, g2, ?_⟩
    enter hP.transfer in transferCode
    rw [b_transfer_eth]
    kexec []
    refine R1.trans ?_
    enter hP.transfer in transferCode
    rw [b_transfer_1_after]
    kexec []
    refine R2.trans ?_
    enter hP.transfer in transferCode
    rw [b_transfer_2_after]
    kexec []
    exact .refl _
  · have := hlt A hA; omega

end Verif.Kasm
